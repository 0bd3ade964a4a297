#!/bin/bash
# Print the axioms every theorem named in MANIFEST.json depends on.
cd "$(dirname "$0")/../lean" || exit 1
python3 - > /tmp/axioms_check.lean <<'PY'
import json
print("import Verif")
for c in json.load(open('../MANIFEST.json'))['claims']:
    for t in c['theorems']:
        print('#print axioms', t)
PY
lake env lean /tmp/axioms_check.lean
