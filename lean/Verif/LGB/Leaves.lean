import Verif.LGB.Ensemble

/-!
# Leaves trees

Model of the second tree format of `sklearn/lightgbm`: `LeavesTree` with its traversal
(`leaves_tree.go`), the compiler from the arrays of a LightGBM text file (`leaves_loader.go`), the
compiler from a LightGBM JSON file (`json_loader.go`) and the predictor (`leaves_predictor.go`).

Node indices are `uint32` in the code and natural numbers here: the model does not show the wrap-around
of trees with more than `2^31` nodes.
-/

set_option linter.unusedSectionVars false

namespace Scigo.LGB

variable {α : Type _}

/-- `LeavesNode` (`sklearn/lightgbm/leaves_tree.go:8-25`): the bits of `Flags` are separate fields;
`catSmall` is never read -/
structure LNode (α : Type _) where
  threshold : α
  left : Nat
  right : Nat
  feature : Nat
  categorical : Bool
  defaultLeft : Bool
  leftLeaf : Bool
  rightLeaf : Bool
  missingZero : Bool
  missingNan : Bool
  catOneHot : Bool

/-- `LeavesTree` (`sklearn/lightgbm/leaves_tree.go:28-35`). Simplified: without `NCategorical`,
`ShrinkageRate`, `TreeIndex`, which no prediction reads. -/
structure LTree (α : Type _) where
  nodes : List (LNode α)
  leafValues : List α
  internalValue : α

section

variable [BEq α] [LE α] [DecidableLE α] [LT α] [DecidableLT α] [Zero α] [Neg α]

/-- `numericalDecision` (`sklearn/lightgbm/leaves_tree.go:83-98`); `z` is `zeroThreshold` -/
def LNode.numerical (z : α) (n : LNode α) (v : α) : Bool :=
  let v := if isNaN v && !n.missingNan then 0 else v
  let isZero := decide (-z < v) && decide (v ≤ z)
  if (n.missingZero && isZero) || (n.missingNan && isNaN v) then n.defaultLeft
  else decide (v ≤ n.threshold)

/-- `categoricalDecision` (`sklearn/lightgbm/leaves_tree.go:101-121`); `toInt` is the conversion
`int32(x)` -/
def LNode.category (toInt : α → Int) (n : LNode α) (v : α) : Bool :=
  let i := toInt v
  if i < 0 then false
  else if isNaN v && n.missingNan then false
  else
    let i := if isNaN v then 0 else i
    if n.catOneHot then decide (toInt n.threshold = i) else false

/-- `decision` (`sklearn/lightgbm/leaves_tree.go:75-80`) -/
def LNode.decision (toInt : α → Int) (z : α) (n : LNode α) (v : α) : Bool :=
  if n.categorical then n.category toInt v else n.numerical z v

/-- reading `t.LeafValues[i]` (`sklearn/lightgbm/leaves_tree.go:57,66`) -/
def LTree.leafAt (t : LTree α) (i : Nat) : Outcome (Move Nat α) :=
  match t.leafValues[i]? with
  | none => .panic "index out of range"
  | some v => .ok (.stop v)

/-- one round of `LeavesTree.Predict` (`sklearn/lightgbm/leaves_tree.go:49-71`) -/
def LTree.step (toInt : α → Int) (z : α) (t : LTree α) (x : List α) (idx : Nat) : Outcome (Move Nat α) :=
  match t.nodes[idx]? with
  | none => .panic "index out of range"
  | some n =>
    match x[n.feature]? with
    | none => .panic "index out of range"
    | some v =>
      if n.decision toInt z v then
        if n.leftLeaf then t.leafAt n.left else .ok (.go n.left)
      else
        if n.rightLeaf then t.leafAt n.right else .ok (.go (idx + 1))

/-- `LeavesTree.Predict` (`sklearn/lightgbm/leaves_tree.go:38-72`). A run of more rounds than there are
nodes never ends, which is reported as a panic. -/
def LTree.predict (toInt : α → Int) (z : α) (t : LTree α) (x : List α) : Outcome α :=
  if t.nodes.isEmpty then .ok (t.leafValues.headD 0)
  else (loop (t.step toInt z x) (t.nodes.length + 1) 0).getD (.panic "does not terminate")

end

/-! ## Text files -/

/-- the arrays of one `Tree=` block of a text file, as `readLeavesTree` parses them
(`sklearn/lightgbm/leaves_loader.go:132-191`). Simplified: reading and splitting the lines is not
modelled. -/
structure TextArrays (α : Type _) where
  numLeaves : Int
  leafValue : List α
  left : List Int
  right : List Int
  decisionType : List Nat
  splitFeature : List Nat
  threshold : List α
  internalValue : List α

/-- `^child` for a negative child reference (`sklearn/lightgbm/leaves_loader.go:229,238`) -/
def leafRef (c : Int) : Nat := (-c - 1).toNat

/-- the node built from its array entries (`sklearn/lightgbm/leaves_loader.go:195-246`); the overflow
errors at 230-232 and 239-241 cannot occur for a negative `int32` -/
def TextArrays.node (d : Nat) (f : Nat) (t : α) (l r : Int) : LNode α where
  threshold := t
  left := if l < 0 then leafRef l else 0
  right := if r < 0 then leafRef r else 0
  feature := f
  categorical := d % 2 == 1
  defaultLeft := !(d % 2 == 1) && d / 2 % 2 == 1
  leftLeaf := decide (l < 0)
  rightLeaf := decide (r < 0)
  missingZero := d / 4 % 4 == 1
  missingNan := d / 4 % 4 == 2
  catOneHot := false

/-- `createNode` (`sklearn/lightgbm/leaves_loader.go:194-247`): an index outside one of the arrays
panics -/
def TextArrays.createNode (a : TextArrays α) (i : Nat) : Outcome (LNode α) :=
  match a.decisionType[i]?, a.splitFeature[i]?, a.threshold[i]?, a.left[i]?, a.right[i]? with
  | some d, some f, some t, some l, some r => .ok (TextArrays.node d f t l r)
  | _, _, _, _, _ => .panic "index out of range"

/-- `t.Nodes`, the two stacks (zipped, top first) and `visited`
(`sklearn/lightgbm/leaves_loader.go:250-262`) -/
structure LState (α : Type _) where
  nodes : List (LNode α)
  stack : List (Nat × Nat)
  visited : Nat → Bool

/-- `origIdx >= 0 && int(origIdx) < len(visited) && !visited[origIdx]`
(`sklearn/lightgbm/leaves_loader.go:276,307`) -/
def LState.fresh (numNodes : Nat) (s : LState α) (c : Int) : Bool :=
  decide (0 ≤ c) && decide (c.toNat < numNodes) && !s.visited c.toNat

/-- append the node of original index `i`, push it and mark it
(`sklearn/lightgbm/leaves_loader.go:277-293,308-324`) -/
def LState.push (s : LState α) (i : Nat) (n : LNode α) : LState α where
  nodes := s.nodes ++ [n]
  stack := (i, s.nodes.length) :: s.stack
  visited := fun k => if k = i then true else s.visited k

/-- the left child of the node on the top of the stack, or pop
(`sklearn/lightgbm/leaves_loader.go:300-336`) -/
def TextArrays.goLeft (a : TextArrays α) (numNodes : Nat) (s : LState α) (orig conv : Nat)
    (rest : List (Nat × Nat)) (n : LNode α) : Outcome (Move (LState α) (List (LNode α))) :=
  if n.leftLeaf then .ok (.go { s with stack := rest })
  else
    match a.left[orig]? with
    | none => .err (.other "invalid node index")
    | some l =>
      if s.fresh numNodes l then
        match a.createNode l.toNat with
        | .ok m =>
          let s' := s.push l.toNat m
          .ok (.go { s' with nodes := s'.nodes.set conv { n with left := s.nodes.length } })
        | .err e => .err e
        | .panic p => .panic p
      else .ok (.go { s with stack := rest })

/-- one round of the loop of `readLeavesTree` (`sklearn/lightgbm/leaves_loader.go:264-337`) -/
def TextArrays.step (a : TextArrays α) (numNodes : Nat) (s : LState α) :
    Outcome (Move (LState α) (List (LNode α))) :=
  match s.stack with
  | [] => .ok (.stop s.nodes)
  | (orig, conv) :: rest =>
    match s.nodes[conv]? with
    | none => .panic "index out of range"
    | some n =>
      if n.rightLeaf then a.goLeft numNodes s orig conv rest n
      else
        match a.right[orig]? with
        | none => .err (.other "invalid node index")
        | some r =>
          if s.fresh numNodes r then
            match a.createNode r.toNat with
            | .ok m => .ok (.go (s.push r.toNat m))
            | .err e => .err e
            | .panic p => .panic p
          else a.goLeft numNodes s orig conv rest n

/-- the loop starts with the root on the stack, not marked as visited
(`sklearn/lightgbm/leaves_loader.go:252-261`) -/
def LState.init (n : LNode α) : LState α := ⟨[n], [(0, 0)], fun _ => false⟩

/-- `InternalValue` of the first tree (`sklearn/lightgbm/leaves_loader.go:160-165`) -/
def TextArrays.firstInternal [Zero α] (a : TextArrays α) (treeIndex : Nat) : α :=
  if treeIndex = 0 then a.internalValue.headD 0 else 0

/-- `readLeavesTree` from the parsed arrays (`sklearn/lightgbm/leaves_loader.go:126-340`). The loop is
given `2 * numNodes + 2` rounds, which it never needs in full (`read_terminates`). -/
def TextArrays.read [Zero α] (a : TextArrays α) (treeIndex : Nat) : Outcome (LTree α) :=
  if a.numLeaves < 1 then .err (.other "num_leaves < 1")
  else if a.numLeaves = 1 then .ok ⟨[], a.leafValue, a.firstInternal treeIndex⟩
  else
    let numNodes := (a.numLeaves - 1).toNat
    (a.createNode 0).bind fun n =>
      match loop (a.step numNodes) (2 * numNodes + 2) (LState.init n) with
      | some (.ok nodes) => .ok ⟨nodes, a.leafValue, a.firstInternal treeIndex⟩
      | some (.err e) => .err e
      | some (.panic p) => .panic p
      | none => .panic "does not terminate"

/-! ## JSON files -/

/-- `JSONTreeNode` (`sklearn/lightgbm/json_loader.go:45-68`), a pointer. Simplified: `Threshold` is
parsed already (a string that is not a number gives 0); fields no conversion reads are dropped. -/
inductive LJson (α : Type _)
  | nil
  | node (feature : Nat) (threshold : α) (categorical : Bool) (splitIndices : List Int) (missing : Nat)
      (defaultLeft : Bool) (leafValue : α) (left right : LJson α)

/-- `LeftChild == nil && RightChild == nil` (`sklearn/lightgbm/json_loader.go:155,173`) -/
def LJson.isLeaf : LJson α → Bool
  | .node _ _ _ _ _ _ _ .nil .nil => true
  | _ => false

/-- result of `buildNodes`: a leaf index (high bit set) or a node index
(`sklearn/lightgbm/json_loader.go:178,248`) -/
inductive Built
  | leaf (i : Nat)
  | node (i : Nat)

/-- `(*nodesPtr)[nodeIdx]` with its children filled in (`sklearn/lightgbm/json_loader.go:229-246`) -/
def LNode.withChildren (n : LNode α) (idx : Nat) (l r : Built) : LNode α :=
  let n := match l with
    | .leaf i => { n with leftLeaf := true, left := i }
    | .node i => { n with left := i }
  match r with
    | .leaf i => { n with rightLeaf := true, right := i }
    | .node _ => { n with right := idx + 1 }

/-- the new node before its children are known (`sklearn/lightgbm/json_loader.go:182-221`); `missing`
1 is "Zero", 2 is "NaN"; `ofInt` is the conversion to `float64` -/
def LJson.fresh [Zero α] (ofInt : Int → α) (f : Nat) (t : α) (cat : Bool) (si : List Int) (m : Nat)
    (dl : Bool) : LNode α where
  threshold := if cat then (match si with | [] => t | c :: _ => ofInt c) else t
  left := 0
  right := 0
  feature := f
  categorical := cat
  defaultLeft := dl
  leftLeaf := false
  rightLeaf := false
  missingZero := m == 1
  missingNan := m == 2
  catOneHot := false

/-- `buildNodes` (`sklearn/lightgbm/json_loader.go:167-249`); state: nodes and leaf values so far (the
counter `leafIndex` is the number of leaf values) -/
def LJson.build [Zero α] (ofInt : Int → α) :
    LJson α → List (LNode α) × List α → (List (LNode α) × List α) × Built
  | .nil, s => (s, .node 0)
  | .node f t cat si m dl v l r, (ns, ls) =>
    if (LJson.node f t cat si m dl v l r).isLeaf then ((ns, ls ++ [v]), .leaf ls.length)
    else
      let idx := ns.length
      let n := LJson.fresh ofInt f t cat si m dl
      let L := l.build ofInt (ns ++ [n], ls)
      let R := r.build ofInt L.1
      ((R.1.1.set idx (n.withChildren idx L.2 R.2), R.1.2), .node idx)

/-- `convertJSONTree` (`sklearn/lightgbm/json_loader.go:142-262`); the tree structure is not a pointer
there, so a root `nil` stands for an empty object, a leaf of value 0 -/
def LJson.convert [Zero α] (ofInt : Int → α) : LJson α → LTree α
  | .nil => ⟨[], [0], 0⟩
  | .node f t cat si m dl v l r =>
    if (LJson.node f t cat si m dl v l r).isLeaf then ⟨[], [v], 0⟩
    else
      let s := ((LJson.node f t cat si m dl v l r).build ofInt ([], [])).1
      ⟨s.1, s.2, 0⟩

/-! ## Prediction -/

/-- `LeavesModel` (`sklearn/lightgbm/leaves_loader.go:15-23`). Simplified: only what prediction reads. -/
structure LModel (α : Type _) where
  trees : List (LTree α)
  numClass : Int
  objective : String
  initScore : α
  numFeatures : Int

section

variable [BEq α] [LE α] [DecidableLE α] [LT α] [DecidableLT α] [Zero α] [Neg α] [Add α] [Sub α] [One α]
  [Div α]

/-- the parameters of prediction: `int32(x)`, `zeroThreshold`, `math.Exp`, 500
(`sklearn/lightgbm/leaves_tree.go:90,104`, `sklearn/lightgbm/leaves_predictor.go:137-150`) -/
structure LNum (α : Type _) where
  toInt : α → Int
  zero : α
  exp : α → α
  c500 : α

/-- `predictions[classIdx] += tree.Predict(features)` over all trees
(`sklearn/lightgbm/leaves_predictor.go:72-76,113-117`) -/
def LModel.accumulate (L : LNum α) (m : LModel α) (x : List α) :
    List (Nat × LTree α) → List α → Outcome (List α)
  | [], acc => .ok acc
  | (i, t) :: rest, acc =>
    (t.predict L.toInt L.zero x).bind fun v =>
      let k := i % m.numClass.toNat
      m.accumulate L x rest (acc.set k (acc.getD k 0 + v))

/-- `prediction += tree.Predict(features)` over all trees
(`sklearn/lightgbm/leaves_predictor.go:86-89,123-127`) -/
def sumTrees (L : LNum α) (x : List α) : List (LTree α) → α → Outcome α
  | [], acc => .ok acc
  | t :: rest, acc => (t.predict L.toInt L.zero x).bind fun v => sumTrees L x rest (acc + v)

/-- `leavesSigmoid` (`sklearn/lightgbm/leaves_predictor.go:135-153`) -/
def leavesSigmoid (L : LNum α) (x : α) : α :=
  if L.c500 < x then 1
  else if x < -L.c500 then 0
  else if 0 ≤ x then 1 / (1 + L.exp (-x))
  else L.exp x / (1 + L.exp x)

/-- `leavesSoftmax` (`sklearn/lightgbm/leaves_predictor.go:156-180`) for a non-empty slice -/
def leavesSoftmax (L : LNum α) (x : List α) : List α :=
  let mx := x.tail.foldl (fun m v => if m < v then v else m) (x.headD 0)
  let es := x.map fun v => L.exp (v - mx)
  let s := es.foldl (· + ·) 0
  if 0 < s then es.map (· / s) else es

/-- the objective has a sigmoid (`sklearn/lightgbm/leaves_predictor.go:92-96,239-243`) -/
def LModel.isBinary (m : LModel α) : Bool := m.objective == "binary" || m.objective == "cross_entropy"

/-- `LeavesPredictor.PredictSingle` (`sklearn/lightgbm/leaves_predictor.go:60-99`) -/
def LModel.predictSingle (L : LNum α) (m : LModel α) (x : List α) : Outcome (List α) :=
  if 2 < m.numClass then
    (m.accumulate L x (m.trees.mapIdx fun i t => (i, t)) (List.replicate m.numClass.toNat m.initScore)).map
      (leavesSoftmax L)
  else
    (sumTrees L x m.trees 0).map fun s => [if m.isBinary then leavesSigmoid L s else s]

/-- `LeavesPredictor.PredictRaw` (`sklearn/lightgbm/leaves_predictor.go:102-132`) -/
def LModel.predictRaw (L : LNum α) (m : LModel α) (x : List α) : Outcome (List α) :=
  if 2 < m.numClass then
    m.accumulate L x (m.trees.mapIdx fun i t => (i, t)) (List.replicate m.numClass.toNat m.initScore)
  else (sumTrees L x m.trees m.initScore).map fun s => [s]

/-- the link of `PredictBatch` (`sklearn/lightgbm/leaves_predictor.go:228-249`) -/
def LModel.batchLink (L : LNum α) (m : LModel α) (raw : List α) : List α :=
  if 2 < m.numClass then leavesSoftmax L raw
  else raw.map fun s => if m.isBinary then leavesSigmoid L s else s

/-- one tree of `PredictBatch`, applied to every row
(`sklearn/lightgbm/leaves_predictor.go:209-225`) -/
def LModel.batchTree (L : LNum α) (m : LModel α) (i : Nat) (t : LTree α) :
    List (List α × List α) → Outcome (List (List α × List α))
  | [] => .ok []
  | (x, raw) :: rest =>
    (t.predict L.toInt L.zero x).bind fun v =>
      let k := if 2 < m.numClass then i % m.numClass.toNat else 0
      (m.batchTree L i t rest).map fun rs => (x, raw.set k (raw.getD k 0 + v)) :: rs

/-- the tree loop of `PredictBatch` (`sklearn/lightgbm/leaves_predictor.go:209-225`) -/
def LModel.batchTrees (L : LNum α) (m : LModel α) :
    List (Nat × LTree α) → List (List α × List α) → Outcome (List (List α × List α))
  | [], rows => .ok rows
  | (i, t) :: ts, rows => (m.batchTree L i t rows).bind fun rows' => m.batchTrees L ts rows'

/-- `LeavesPredictor.PredictBatch` on the rows of a matrix with the right number of columns
(`sklearn/lightgbm/leaves_predictor.go:183-253`). Simplified: the matrix is the list of its rows and a
zero initial score is written like any other. -/
def LModel.predictBatch (L : LNum α) (m : LModel α) (rows : List (List α)) : Outcome (List (List α)) :=
  let k := if 2 < m.numClass then m.numClass.toNat else 1
  (m.batchTrees L (m.trees.mapIdx fun i t => (i, t))
    (rows.map fun x => (x, List.replicate k m.initScore))).map fun rs => rs.map fun r => m.batchLink L r.2

end

end Scigo.LGB
