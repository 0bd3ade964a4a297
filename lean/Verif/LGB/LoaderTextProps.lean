import Verif.LGB.LoaderText
import Verif.LGB.LeavesTextProps
import Verif.LGB.TextProps

/-!
# `SaveToFile` and `LoadFromReader`: theorems
-/

set_option linter.unusedSectionVars false

namespace Scigo.LGB

variable {α : Type _}

/-- the characters of keys are not white space -/
structure Lex.Ascii (L : Lex α) : Prop where
  space : L.space ' ' = true
  visible : ∀ c : Char, c.isAlphanum ∨ c = '_' ∨ c = '=' → L.space c = false
  loose : ∀ w n, L.atoi w = some n → L.atoiLoose w = n

/-- printed numbers are words without `=` which the parser reads; integers give the same number back, `%f` gives the number
rounded to six digits after the point -/
structure Print.ReadBy (P : Print α) (L : Lex α) (round : α → α) : Prop where
  int : ∀ n, Word L.space (P.int n) ∧ '=' ∉ P.int n ∧ L.atoi (P.int n) = some n
  float : ∀ x, Word L.space (P.float x) ∧ L.float (P.float x) = some (round x)

/-! ## Saving an estimator and loading it again -/

theorem trim_prefix {sp : Char → Bool} {w : Text} (h : Word sp w) (t : Text) : ∃ t', trim sp (w ++ t) = w ++ t' := by
  unfold trim
  rw [dropWhile_word h, List.reverse_append]
  suffices hs : ∀ r : Text, ∃ r', (r ++ w.reverse).dropWhile sp = r' ++ w.reverse by
    obtain ⟨r', hr⟩ := hs t.reverse
    exact ⟨r'.reverse, by rw [hr]; simp⟩
  intro r
  induction r with
  | nil => exact ⟨[], by rw [List.nil_append]; have := dropWhile_word (word_reverse h) []; rwa [List.append_nil] at this⟩
  | cons c r ih =>
    obtain ⟨r', hr⟩ := ih
    by_cases hc : sp c = true
    · exact ⟨r', by simp [hc]; simpa using hr⟩
    · exact ⟨c :: r, by simp [hc]⟩

section

variable [Zero α]

/-- a line that begins with a key other than `Tree` outside a tree changes header fields only -/
theorem header_line (L : Lex α) (s : ScanState α) (hs : s.current = none) (raw : Text) (h0 : trim L.space raw ≠ [])
    (ht : isTreeLine (trim L.space raw) = false) :
    ∃ s', s.line L raw = .ok s' ∧ s'.current = none ∧ s'.trees = s.trees ∧ s'.params = s.params := by
  unfold ScanState.line
  rw [if_neg h0, if_neg (by rw [ht]; simp)]
  by_cases h1 : trim L.space raw = "tree".toList
  · rw [if_pos h1]
    exact ⟨s, rfl, hs, rfl, rfl⟩
  · rw [if_neg h1]
    refine ⟨_, rfl, ?_⟩
    unfold ScanState.entry
    rcases setLine L.space (trim L.space raw) [] with _ | ⟨⟨k, v⟩, r⟩
    · exact ⟨hs, rfl, rfl⟩
    · dsimp only
      rw [hs]
      dsimp only [Option.isSome]
      rw [if_neg (by simp)]
      unfold ScanState.header
      split
      · exact ⟨hs, rfl, rfl⟩
      · split
        · exact ⟨hs, rfl, rfl⟩
        · split
          · split
            · exact ⟨hs, rfl, rfl⟩
            · exact ⟨hs, rfl, rfl⟩
          · exact ⟨hs, rfl, rfl⟩

/-- header lines: the state stays outside trees -/
theorem header_lines (L : Lex α) (limit : Nat) (ls rest : List Text)
    (h : ∀ l ∈ ls, l.length < limit ∧ trim L.space l ≠ [] ∧ isTreeLine (trim L.space l) = false) :
    ∀ s : ScanState α, s.current = none → ∃ s' : ScanState α, scanLines L limit (ls ++ rest) s = scanLines L limit rest s' ∧
      s'.current = none ∧ s'.trees = s.trees ∧ s'.params = s.params := by
  induction ls with
  | nil => intro s hs; exact ⟨s, rfl, hs, rfl, rfl⟩
  | cons l ls ih =>
    intro s hs
    obtain ⟨h1, h2, h3⟩ := h l (by simp)
    obtain ⟨s1, e1, c1, t1, p1⟩ := header_line L s hs l h2 h3
    obtain ⟨s2, e2, c2, t2, p2⟩ := ih (fun l hl => h l (by simp [hl])) s1 c1
    refine ⟨s2, ?_, c2, by rw [t2, t1], by rw [p2, p1]⟩
    rw [List.cons_append, scanLines, if_neg (by omega), e1, Outcome.bind_ok, e2]

/-- the entries of the lines inside a tree are collected -/
theorem tree_lines (L : Lex α) (hv : L.space '=' = false) (limit : Nat) (ws : List (Text × Text)) (rest : List Text)
    (h : ∀ l ∈ ws, (l.1 ++ '=' :: l.2).length < limit ∧ Word L.space l.1 ∧ '=' ∉ l.1 ∧ l.1 ≠ "Tree".toList ∧ Word L.space l.2) :
    ∀ s : ScanState α, s.current.isSome = true →
      scanLines L limit (ws.map (fun l => l.1 ++ '=' :: l.2) ++ rest) s =
        scanLines L limit rest { s with params := ws.reverse ++ s.params } := by
  induction ws with
  | nil => intro s _; rfl
  | cons l ws ih =>
    intro s hs
    obtain ⟨h1, h2, h3, h4, h5⟩ := h l (by simp)
    have ht : trim L.space (l.1 ++ '=' :: l.2) = l.1 ++ '=' :: l.2 := by
      have := trim_words (t := l.1 ++ '=' :: l.2) (e := []) h2 h5 (by simp) rfl (m' := l.1 ++ ['=']) (by simp)
      rwa [List.append_nil] at this
    have hl : s.line L (l.1 ++ '=' :: l.2) = .ok { s with params := l :: s.params } := by
      unfold ScanState.line
      rw [ht, if_neg (by simp), if_neg (by rw [not_tree_line h3 h4]; simp), if_neg]
      · unfold ScanState.entry
        rw [setLine, if_pos (by simp), (line_split _ _ h3).1, (line_split _ _ h3).2, trim_word h2, trim_word h5]
        dsimp only
        rw [if_pos hs]
      · intro e
        have : '=' ∈ "tree".toList := by rw [← e]; simp
        revert this
        decide
    rw [List.map_cons, List.cons_append, scanLines, if_neg (by omega), hl, Outcome.bind_ok,
      ih (fun l hl => h l (by simp [hl])) { s with params := l :: s.params } hs]
    simp

/-- the entries of a node in the file -/
def Node.filePairs (P : Print α) (n : Node α) : List (Text × Text) :=
  if n.isLeaf then [("leaf_value".toList, P.float n.leafValue)]
  else [("split_feature".toList, P.int n.feature), ("threshold".toList, P.float n.threshold)]

/-- the entries of a tree in the file -/
def Tree.filePairs (P : Print α) (t : Tree α) : List (Text × Text) :=
  [("num_leaves".toList, P.int t.numLeaves), ("num_cat".toList, "0".toList), ("shrinkage".toList, P.float t.shrinkage)] ++
    t.nodes.flatMap (Node.filePairs P)

theorem node_lines (P : Print α) (n : Node α) : n.fileLines P = (n.filePairs P).map fun l => l.1 ++ '=' :: l.2 := by
  unfold Node.fileLines Node.filePairs
  split <;> rfl

theorem tree_file_lines (P : Print α) (i : Nat) (t : Tree α) :
    t.fileLines P i = [] :: Print.line "Tree" (P.int i) :: (t.filePairs P).map fun l => l.1 ++ '=' :: l.2 := by
  have : t.nodes.flatMap (Node.fileLines P) = (t.nodes.flatMap (Node.filePairs P)).map fun l => l.1 ++ '=' :: l.2 := by
    rw [List.map_flatMap]
    congr 1
    funext n
    exact node_lines P n
  unfold Tree.fileLines Tree.filePairs
  rw [this]
  rfl

theorem ascii_word {L : Lex α} (hL : L.Ascii) (k : Text) (h0 : k ≠ []) (h : ∀ c ∈ k, c.isAlphanum ∨ c = '_' ∨ c = '=') :
    Word L.space k := ⟨h0, fun c hc => hL.visible c (h c hc)⟩

theorem pairs_ok (L : Lex α) (hL : L.Ascii) (P : Print α) (round : α → α) (hP : P.ReadBy L round) (t : Tree α) :
    ∀ l ∈ t.filePairs P, Word L.space l.1 ∧ '=' ∉ l.1 ∧ l.1 ≠ "Tree".toList ∧ Word L.space l.2 := by
  have hk : ∀ k : Text, k ∈ ["num_leaves".toList, "num_cat".toList, "shrinkage".toList, "leaf_value".toList,
      "split_feature".toList, "threshold".toList] → Word L.space k ∧ '=' ∉ k ∧ k ≠ "Tree".toList := by
    intro k hk
    have := (by decide +kernel : ∀ k ∈ ["num_leaves".toList, "num_cat".toList, "shrinkage".toList, "leaf_value".toList,
      "split_feature".toList, "threshold".toList], (k ≠ [] ∧ ∀ c ∈ k, c.isAlphanum ∨ c = '_' ∨ c = '=') ∧ '=' ∉ k ∧ k ≠ "Tree".toList) k hk
    exact ⟨ascii_word hL k this.1.1 this.1.2, this.2⟩
  have h0 : Word L.space "0".toList := ascii_word hL _ (by decide) (by decide)
  intro l hl
  unfold Tree.filePairs at hl
  rcases List.mem_append.1 hl with hl | hl
  · simp only [List.mem_cons, List.not_mem_nil, or_false] at hl
    rcases hl with rfl | rfl | rfl
    · obtain ⟨a, b, c⟩ := hk "num_leaves".toList (by simp); exact ⟨a, b, c, (hP.int _).1⟩
    · obtain ⟨a, b, c⟩ := hk "num_cat".toList (by simp); exact ⟨a, b, c, h0⟩
    · obtain ⟨a, b, c⟩ := hk "shrinkage".toList (by simp); exact ⟨a, b, c, (hP.float _).1⟩
  · obtain ⟨n, -, hn⟩ := List.mem_flatMap.1 hl
    unfold Node.filePairs at hn
    split at hn
    · simp only [List.mem_cons, List.not_mem_nil, or_false] at hn
      subst hn
      obtain ⟨a, b, c⟩ := hk "leaf_value".toList (by simp); exact ⟨a, b, c, (hP.float _).1⟩
    · simp only [List.mem_cons, List.not_mem_nil, or_false] at hn
      rcases hn with rfl | rfl
      · obtain ⟨a, b, c⟩ := hk "split_feature".toList (by simp); exact ⟨a, b, c, (hP.int _).1⟩
      · obtain ⟨a, b, c⟩ := hk "threshold".toList (by simp); exact ⟨a, b, c, (hP.float _).1⟩

/-- a tree of the file: the previous one is finished, then the entries of this one are collected -/
theorem scan_tree (L : Lex α) (hL : L.Ascii) (P : Print α) (round : α → α) (hP : P.ReadBy L round) (limit : Nat)
    (i : Nat) (t : Tree α) (rest : List Text) (hlen : ∀ l ∈ t.fileLines P i, l.length < limit) (s : ScanState α) :
    scanLines L limit (t.fileLines P i ++ rest) s = (s.finish L).bind fun s1 =>
      scanLines L limit rest { s1 with current := some (i : Int), params := (t.filePairs P).reverse } := by
  have hlen' := hlen
  rw [tree_file_lines] at hlen' ⊢
  have hv : L.space '=' = false := hL.visible '=' (by simp)
  have h1 := hlen' [] (by simp)
  have h2 := hlen' (Print.line "Tree" (P.int i)) (by simp)
  rw [List.cons_append, scanLines, if_neg (by omega)]
  have hb : s.line L [] = s.finish L := by
    unfold ScanState.line
    rw [if_pos (show trim L.space [] = [] from rfl)]
  rw [hb]
  congr 1
  funext s1
  have hT : trim L.space (Print.line "Tree" (P.int i)) = "Tree=".toList ++ P.int i := by
    have := trim_words (t := "Tree=".toList ++ P.int i) (e := [])
      (ascii_word hL "Tree=".toList (by decide) (by decide)) (hP.int i).1 (by simp) rfl rfl
    rw [List.append_nil] at this
    exact this
  have hl : s1.line L (Print.line "Tree" (P.int i)) = .ok { s1 with current := some (i : Int), params := [] } := by
    unfold ScanState.line
    have hd : ("Tree=".toList ++ P.int i).drop 5 = P.int i := rfl
    rw [hT, if_neg (by simp), if_pos, hd, if_neg]
    · rw [(hP.int i).2.2]
    · simpa using (hP.int i).2.1
    · unfold isTreeLine
      rw [List.isPrefixOf_iff_prefix]
      exact List.prefix_append _ _
  rw [List.cons_append, scanLines, if_neg (by omega), hl, Outcome.bind_ok,
    tree_lines L hv limit (t.filePairs P) rest (fun l hl => ?_) _ rfl]
  · simp
  · have h := pairs_ok L hL P round hP t l hl
    exact ⟨hlen' _ (by simp only [List.mem_cons, List.mem_map]; exact Or.inr (Or.inr ⟨l, hl, rfl⟩)), h⟩

/-- the last entry of a key among those of the nodes -/
theorem lookup_nodes (P : Print α) (key : Text) (rest : List (Text × Text)) (nodes : List (Node α))
    (h : ∀ n ∈ nodes, (n.filePairs P).lookup key = none) :
    ((nodes.flatMap (Node.filePairs P)).reverse ++ rest).lookup key = rest.lookup key := by
  have hn : ∀ l : List (Text × Text), l.lookup key = none → ∀ r, (l.reverse ++ r).lookup key = r.lookup key := by
    intro l hl r
    rw [List.lookup_append]
    have : l.reverse.lookup key = none := by
      rw [List.lookup_eq_none_iff] at hl ⊢
      intro p hp
      exact hl p (by simpa using hp)
    rw [this]
    rfl
  refine hn _ ?_ _
  rw [List.lookup_eq_none_iff]
  intro p hp
  obtain ⟨n, h1, h2⟩ := List.mem_flatMap.1 hp
  exact (List.lookup_eq_none_iff.1 (h n h1)) p h2

theorem kv_none (P : Print α) (key : Text)
    (h : key ∉ ["num_leaves".toList, "num_cat".toList, "shrinkage".toList, "leaf_value".toList, "split_feature".toList, "threshold".toList])
    (t : Tree α) : (t.filePairs P).reverse.lookup key = none := by
  rw [List.lookup_eq_none_iff]
  intro p hp
  rw [List.mem_reverse] at hp
  have : p.1 ∈ ["num_leaves".toList, "num_cat".toList, "shrinkage".toList, "leaf_value".toList, "split_feature".toList, "threshold".toList] := by
    unfold Tree.filePairs at hp
    rcases List.mem_append.1 hp with hp | hp
    · simp only [List.mem_cons, List.not_mem_nil, or_false] at hp
      rcases hp with rfl | rfl | rfl <;> simp
    · obtain ⟨n, -, hn⟩ := List.mem_flatMap.1 hp
      unfold Node.filePairs at hn
      split at hn
      · simp only [List.mem_cons, List.not_mem_nil, or_false] at hn
        subst hn; simp
      · simp only [List.mem_cons, List.not_mem_nil, or_false] at hn
        rcases hn with rfl | rfl <;> simp
  rw [bne_iff_ne]
  rintro rfl
  exact h this

theorem kv_leaves (P : Print α) (t : Tree α) : KV.get (t.filePairs P).reverse "num_leaves" = some (P.int t.numLeaves) := by
  unfold KV.get Tree.filePairs
  rw [List.reverse_append, lookup_nodes P]
  · rfl
  · intro n _
    unfold Node.filePairs
    split <;> rfl

/-- the last split of the nodes is the one that counts -/
theorem lookup_split (P : Print α) (rest : List (Text × Text)) (nodes : List (Node α)) (h : ∃ n ∈ nodes, n.isLeaf = false) :
    ∃ f, ((nodes.flatMap (Node.filePairs P)).reverse ++ rest).lookup "split_feature".toList = some (P.int f) := by
  induction nodes generalizing rest with
  | nil => obtain ⟨n, hn, -⟩ := h; simp at hn
  | cons n nodes ih =>
    rw [List.flatMap_cons, List.reverse_append, List.append_assoc]
    by_cases hh : ∃ n ∈ nodes, n.isLeaf = false
    · exact ih _ hh
    · obtain ⟨m, hm, hl⟩ := h
      have hm' : m = n := by
        rcases List.mem_cons.1 hm with h | h
        · exact h
        · exact absurd ⟨m, h, hl⟩ hh
      subst hm'
      refine ⟨m.feature, ?_⟩
      rw [lookup_nodes P]
      · unfold Node.filePairs
        rw [if_neg (by rw [hl]; simp)]
        rfl
      · intro k hk
        have : k.isLeaf = true := by
          by_contra hc
          exact hh ⟨k, hk, by simpa using hc⟩
        unfold Node.filePairs
        rw [if_pos this]
        rfl

theorem fields_word {sp : Char → Bool} {w : Text} (h : Word sp w) : fields sp w = [w] := by
  unfold fields
  have := fieldsFrom_word w h.2 [] []
  rw [List.append_nil, List.nil_append] at this
  rw [this, fieldsFrom, if_neg h.1]

/-- the state inside a saved tree with a split: finishing it crashes -/
theorem finish_split (L : Lex α) (hL : L.Ascii) (P : Print α) (round : α → α) (hP : P.ReadBy L round) (t : Tree α)
    (h1 : t.numLeaves ≠ 1) (h2 : ∃ n ∈ t.nodes, n.isLeaf = false) (s : ScanState α) (i : Int) :
    ({ s with current := some i, params := (t.filePairs P).reverse } : ScanState α).finish L = .panic "index out of range" := by
  obtain ⟨f, hf⟩ := lookup_split P [("shrinkage".toList, P.float t.shrinkage), ("num_cat".toList, "0".toList),
    ("num_leaves".toList, P.int t.numLeaves)] t.nodes h2
  have hsf : KV.list L.space L.nat (t.filePairs P).reverse "split_feature" = [f.toNat] := by
    unfold KV.list KV.get Tree.filePairs
    rw [List.reverse_append]
    have : ([("num_leaves".toList, P.int t.numLeaves), ("num_cat".toList, "0".toList), ("shrinkage".toList, P.float t.shrinkage)]
        : List (Text × Text)).reverse = [("shrinkage".toList, P.float t.shrinkage), ("num_cat".toList, "0".toList),
    ("num_leaves".toList, P.int t.numLeaves)] := rfl
    rw [this, hf, Option.getD_some, fields_word (hP.int f).1]
    simp [Lex.nat, (hP.int f).2.2]
  have hlc : KV.list L.space L.atoi (t.filePairs P).reverse "left_child" = [] := by
    unfold KV.list KV.get
    rw [kv_none P _ (by decide +kernel)]
    rfl
  have hnl : (KV.loaderArrays L (t.filePairs P).reverse).numLeaves = t.numLeaves := by
    unfold KV.loaderArrays
    dsimp only
    rw [kv_leaves]
    exact hL.loose _ _ (hP.int _).2.2
  unfold ScanState.finish
  dsimp only
  have : ∀ (sh : α) (k : Nat), (KV.loaderArrays L (t.filePairs P).reverse).load sh k = .panic "index out of range" := by
    intro sh k
    unfold TextArrays.load
    rw [if_neg (by rw [hnl]; exact h1)]
    unfold KV.loaderArrays
    dsimp only
    rw [hsf]
    unfold TextArrays.loadNodes
    dsimp only [List.length_cons, List.length_nil]
    rw [hlc]
    rfl
  rw [this]
  rfl

theorem load_ok_or_panic (a : TextArrays α) (sh : α) (k : Nat) :
    (∃ t, a.load sh k = .ok t) ∨ a.load sh k = .panic "index out of range" := by
  have hn : ∀ k, (∃ t, a.loadNodes k = .ok t) ∨ a.loadNodes k = .panic "index out of range" := by
    intro k
    induction k with
    | zero => exact Or.inl ⟨_, rfl⟩
    | succ k ih =>
      unfold TextArrays.loadNodes
      rcases ih with ⟨ns, h⟩ | h
      · rw [h, Outcome.bind_ok]
        split
        · exact Or.inl ⟨_, rfl⟩
        · exact Or.inr rfl
      · rw [h]
        exact Or.inr rfl
  unfold TextArrays.load
  split
  · exact Or.inl ⟨_, rfl⟩
  · rcases hn a.splitFeature.length with ⟨ns, h⟩ | h
    · rw [h]; exact Or.inl ⟨_, rfl⟩
    · rw [h]; exact Or.inr rfl

theorem finish_ok_or_panic (L : Lex α) (s : ScanState α) :
    (∃ s', s.finish L = .ok s') ∨ s.finish L = .panic "index out of range" := by
  unfold ScanState.finish
  rcases s.current with _ | i
  · exact Or.inl ⟨_, rfl⟩
  · dsimp only
    rcases load_ok_or_panic (s.params.loaderArrays L) (s.params.shrinkage L) (if i = 0 then 0 else 1) with ⟨t, h⟩ | h
    · rw [h]; exact Or.inl ⟨_, rfl⟩
    · rw [h]; exact Or.inr rfl

/-- the trees of a saved model: one with a split crashes the loader -/
theorem scan_trees_panic (L : Lex α) (hL : L.Ascii) (P : Print α) (round : α → α) (hP : P.ReadBy L round) (limit : Nat)
    {β : Type _} (k : ScanState α → Bool → Outcome β) (ts : List (Tree α)) : ∀ (i : Nat) (s : ScanState α),
    (∀ l ∈ treeFileLines P i ts, l.length < limit) →
    ((∃ t ∈ ts, t.numLeaves ≠ 1 ∧ ∃ n ∈ t.nodes, n.isLeaf = false) ∨ s.finish L = .panic "index out of range") →
    ((scanLines L limit (treeFileLines P i ts) s).bind fun r => (r.1.finish L).bind fun s => k s r.2) =
      .panic "index out of range" := by
  induction ts with
  | nil =>
    intro i s _ h
    rcases h with ⟨t, ht, -⟩ | h
    · simp at ht
    · rw [treeFileLines, scanLines, Outcome.bind_ok]
      dsimp only
      rw [h]
      rfl
  | cons t ts ih =>
    intro i s hlen h
    rw [treeFileLines, scan_tree L hL P round hP limit i t _ (fun l hl => hlen l (by rw [treeFileLines]; simp [hl]))]
    rcases finish_ok_or_panic L s with ⟨s1, h1⟩ | h1
    · rw [h1, Outcome.bind_ok]
      refine ih (i + 1) _ (fun l hl => hlen l (by rw [treeFileLines]; simp [hl])) ?_
      rcases h with ⟨t', ht', h2, h3⟩ | h
      · rcases List.mem_cons.1 ht' with rfl | ht'
        · exact Or.inr (finish_split L hL P round hP t' h2 h3 s1 i)
        · exact Or.inl ⟨t', ht', h2, h3⟩
      · rw [h] at h1
        cases h1
    · rw [h1]
      rfl

theorem header_key (L : Lex α) (hL : L.Ascii) (k : String) (hk : (k.toList ≠ [] ∧ ∀ c ∈ k.toList, c.isAlphanum ∨ c = '_' ∨ c = '=') ∧
    '=' ∉ k.toList ∧ k.toList ≠ "Tree".toList) (v : Text) : trim L.space (Print.line k v) ≠ [] ∧
      isTreeLine (trim L.space (Print.line k v)) = false := by
  have hw : Word L.space (k.toList ++ ['=']) := ascii_word hL _ (by simp) (fun c hc => by
    rcases List.mem_append.1 hc with h | h
    · exact hk.1.2 c h
    · simp at h; simp [h])
  obtain ⟨v', hv⟩ := trim_prefix hw v
  have e : Print.line k v = k.toList ++ ['='] ++ v := by simp [Print.line]
  rw [e, hv]
  refine ⟨by simp, ?_⟩
  rw [List.append_assoc]
  exact not_tree_line hk.2.1 hk.2.2

/-- the header of a saved model -/
theorem scan_header (L : Lex α) (hL : L.Ascii) (P : Print α) (names : Text) (limit : Nat) (m : Model α)
    (hlen : ∀ l ∈ m.fileLines P names, l.length < limit) :
    ∃ s : ScanState α, scanLines L limit (m.fileLines P names) .start = scanLines L limit (treeFileLines P 0 m.trees) s ∧
      s.current = none ∧ s.trees = [] := by
  unfold Model.fileLines at hlen ⊢
  obtain ⟨s, h1, h2, h3, -⟩ := header_lines L limit _ (treeFileLines P 0 m.trees) (fun l hl =>
    ⟨hlen l (List.mem_append_left _ hl), by
      have ht : trim L.space "tree".toList = "tree".toList := trim_word (ascii_word hL _ (by decide) (by decide))
      simp only [List.mem_cons, List.not_mem_nil, or_false] at hl
      rcases hl with rfl | rfl | rfl | rfl | rfl | rfl | rfl | rfl | rfl | rfl
      · rw [ht]; exact ⟨by decide, by decide⟩
      all_goals exact header_key L hL _ (by decide +kernel) _⟩) .start rfl
  exact ⟨s, h1, h2, h3⟩

/-- **C218 is false**: loading what `SaveModel` of a fitted estimator wrote crashes as soon as one tree has a split: the file holds no
child indices. (For every model, every way of printing and reading numbers.) -/
theorem saved_estimator_load_panics (L : Lex α) (hL : L.Ascii) (P : Print α) (round : α → α) (hP : P.ReadBy L round)
    (limit : Nat) (tenth : α) (names : Text) (m : Model α) (hlen : ∀ l ∈ m.fileLines P names, l.length < limit)
    (h : ∃ t ∈ m.trees, t.numLeaves ≠ 1 ∧ ∃ n ∈ t.nodes, n.isLeaf = false) :
    loadLines L limit tenth (m.fileLines P names) = .panic "index out of range" := by
  obtain ⟨s, h1, h2, h3⟩ := scan_header L hL P names limit m hlen
  unfold loadLines
  rw [h1]
  exact scan_trees_panic L hL P round hP limit (fun s b => if b then .ok (s.model tenth) else .err (.other "token too long")) m.trees 0 s
    (fun l hl => hlen l (List.mem_append_right _ hl)) (Or.inl h)

/-- a header line is handled as its key and its value -/
theorem header_entry (L : Lex α) (hL : L.Ascii) (k : String) (hk : (k.toList ≠ [] ∧ ∀ c ∈ k.toList, c.isAlphanum ∨ c = '_' ∨ c = '=') ∧
    '=' ∉ k.toList ∧ k.toList ≠ "Tree".toList) (v : Text) (s : ScanState α) (hs : s.current = none) :
    ∃ v', s.line L (Print.line k v) = .ok (s.header L k.toList v') ∧ (Word L.space v → v' = v) := by
  have hkw : Word L.space k.toList := ascii_word hL _ hk.1.1 hk.1.2
  have hw : Word L.space (k.toList ++ ['=']) := ascii_word hL _ (by simp) (fun c hc => by
    rcases List.mem_append.1 hc with h | h
    · exact hk.1.2 c h
    · simp at h; simp [h])
  obtain ⟨v', hv⟩ := trim_prefix hw v
  have e : Print.line k v = k.toList ++ ['='] ++ v := by simp [Print.line]
  have hv2 : trim L.space (Print.line k v) = k.toList ++ '=' :: v' := by rw [e, hv]; simp
  refine ⟨trim L.space v', ?_, ?_⟩
  · unfold ScanState.line
    rw [hv2, if_neg (by simp), if_neg (by rw [not_tree_line hk.2.1 hk.2.2]; simp), if_neg]
    · unfold ScanState.entry
      rw [setLine, if_pos (by simp), (line_split _ _ hk.2.1).1, (line_split _ _ hk.2.1).2, trim_word hkw]
      dsimp only
      rw [hs]
      rfl
    · intro e'
      have : '=' ∈ "tree".toList := by rw [← e']; simp
      revert this
      decide
  · intro hvw
    have := trim_words (t := k.toList ++ ['='] ++ v) (e := []) hw hvw (by simp) rfl rfl
    rw [List.append_nil, ← e, hv2, e] at this
    have h2 : v' = v := by simpa using this
    rw [h2, trim_word hvw]

theorem header_current (L : Lex α) (s : ScanState α) (k v : Text) : (s.header L k v).current = s.current := by
  unfold ScanState.header
  split
  · rfl
  · split
    · rfl
    · split
      · split <;> rfl
      · rfl

/-- the header of a saved model, value by value -/
theorem scan_header_exact (L : Lex α) (hL : L.Ascii) (P : Print α) (round : α → α) (hP : P.ReadBy L round) (names : Text)
    (limit : Nat) (m : Model α) (ho : Word L.space m.objective.toList)
    (hlen : ∀ l ∈ m.fileLines P names, l.length < limit) :
    scanLines L limit (m.fileLines P names) .start =
      scanLines L limit (treeFileLines P 0 m.trees) ⟨m.numClass, m.numFeatures, m.objective, [], none, []⟩ := by
  have hint : ∀ n, L.atoiLoose (P.int n) = n := fun n => hL.loose _ _ (hP.int n).2.2
  have step : ∀ (k : String) (v : Text) (s : ScanState α), (Print.line k v).length < limit → s.current = none →
      ((k.toList ≠ [] ∧ ∀ c ∈ k.toList, c.isAlphanum ∨ c = '_' ∨ c = '=') ∧ '=' ∉ k.toList ∧ k.toList ≠ "Tree".toList) →
      ∃ v', (∀ rest, scanLines L limit (Print.line k v :: rest) s = scanLines L limit rest (s.header L k.toList v')) ∧ (Word L.space v → v' = v) := by
    intro k v s hl hs hk
    obtain ⟨v', h1, h2⟩ := header_entry L hL k hk v s hs
    exact ⟨v', fun rest => by rw [scanLines, if_neg (by omega), h1, Outcome.bind_ok], h2⟩
  unfold Model.fileLines at hlen ⊢
  simp only [List.cons_append, List.nil_append] at hlen ⊢
  have ht : trim L.space "tree".toList = "tree".toList := trim_word (ascii_word hL _ (by decide) (by decide))
  have h0 : (ScanState.start : ScanState α).line L "tree".toList = .ok .start := by
    unfold ScanState.line
    rw [ht, if_neg (by decide), if_neg (by decide), if_pos rfl]
  have hl0 := hlen "tree".toList (by simp)
  rw [scanLines, if_neg (by omega), h0, Outcome.bind_ok]
  obtain ⟨v1, e1, -⟩ := step "version" "v3".toList .start (hlen _ (by simp)) rfl (by decide +kernel)
  rw [e1]
  have c1 : (ScanState.start : ScanState α).header L "version".toList v1 = .start := by
    unfold ScanState.header; rw [if_neg (by decide), if_neg (by decide), if_neg (by decide)]
  rw [c1]
  obtain ⟨v2, e2, w2⟩ := step "num_class" (P.int m.numClass) .start (hlen _ (by simp)) rfl (by decide +kernel)
  rw [e2, w2 (hP.int _).1]
  have c2 : (ScanState.start : ScanState α).header L "num_class".toList (P.int m.numClass) = ⟨m.numClass, 0, "", [], none, []⟩ := by
    unfold ScanState.header; rw [if_pos rfl, hint]; rfl
  rw [c2]
  obtain ⟨v3, e3, -⟩ := step "num_tree_per_iteration" (P.int 1) ⟨m.numClass, 0, "", [], none, []⟩ (hlen _ (by simp)) rfl (by decide +kernel)
  rw [e3]
  have c3 : (⟨m.numClass, 0, "", [], none, []⟩ : ScanState α).header L "num_tree_per_iteration".toList v3 = ⟨m.numClass, 0, "", [], none, []⟩ := by
    unfold ScanState.header; rw [if_neg (by decide), if_neg (by decide), if_neg (by decide)]
  rw [c3]
  obtain ⟨v4, e4, -⟩ := step "label_index" "0".toList ⟨m.numClass, 0, "", [], none, []⟩ (hlen _ (by simp)) rfl (by decide +kernel)
  rw [e4]
  have c4 : (⟨m.numClass, 0, "", [], none, []⟩ : ScanState α).header L "label_index".toList v4 = ⟨m.numClass, 0, "", [], none, []⟩ := by
    unfold ScanState.header; rw [if_neg (by decide), if_neg (by decide), if_neg (by decide)]
  rw [c4]
  obtain ⟨v5, e5, w5⟩ := step "max_feature_idx" (P.int (m.numFeatures - 1)) ⟨m.numClass, 0, "", [], none, []⟩ (hlen _ (by simp)) rfl (by decide +kernel)
  rw [e5, w5 (hP.int _).1]
  have c5 : (⟨m.numClass, 0, "", [], none, []⟩ : ScanState α).header L "max_feature_idx".toList (P.int (m.numFeatures - 1)) =
      ⟨m.numClass, m.numFeatures, "", [], none, []⟩ := by
    unfold ScanState.header
    rw [if_neg (by decide), if_pos rfl, hint, Int.sub_add_cancel]
  rw [c5]
  obtain ⟨v6, e6, w6⟩ := step "objective" m.objective.toList ⟨m.numClass, m.numFeatures, "", [], none, []⟩ (hlen _ (by simp)) rfl (by decide +kernel)
  rw [e6, w6 ho]
  have c6 : (⟨m.numClass, m.numFeatures, "", [], none, []⟩ : ScanState α).header L "objective".toList m.objective.toList =
      ⟨m.numClass, m.numFeatures, m.objective, [], none, []⟩ := by
    unfold ScanState.header
    rw [if_neg (by decide), if_neg (by decide), if_pos rfl, fields_word ho]
    dsimp only
    rw [String.ofList_toList]
  rw [c6]
  have hrest : ∀ (k : String) (v : Text) (rest : List Text), (Print.line k v).length < limit →
      ((k.toList ≠ [] ∧ ∀ c ∈ k.toList, c.isAlphanum ∨ c = '_' ∨ c = '=') ∧ '=' ∉ k.toList ∧ k.toList ≠ "Tree".toList) →
      k.toList ∉ ["num_class".toList, "max_feature_idx".toList, "objective".toList] →
      scanLines L limit (Print.line k v :: rest) ⟨m.numClass, m.numFeatures, m.objective, [], none, []⟩ =
        scanLines L limit rest ⟨m.numClass, m.numFeatures, m.objective, [], none, []⟩ := by
    intro k v rest hm hk hn
    obtain ⟨v', e, -⟩ := step k v ⟨m.numClass, m.numFeatures, m.objective, [], none, []⟩
      hm rfl hk
    rw [e]
    unfold ScanState.header
    rw [if_neg (by intro h; rw [h] at hn; exact hn (List.mem_cons_self ..)),
      if_neg (by intro h; rw [h] at hn; exact hn (List.mem_cons_of_mem _ (List.mem_cons_self ..))),
      if_neg (by intro h; rw [h] at hn; exact hn (List.mem_cons_of_mem _ (List.mem_cons_of_mem _ (List.mem_cons_self ..))))]
  have hm : ∀ l ∈ [Print.line "feature_names" names, Print.line "feature_infos" "none".toList,
      Print.line "tree_sizes" (P.int m.trees.length)], l.length < limit := fun l hl =>
    hlen l (by iterate 7 refine List.mem_cons_of_mem _ ?_
               exact List.mem_append_left (treeFileLines P 0 m.trees) hl)
  rw [hrest _ _ _ (hm _ (List.mem_cons_self ..)) (by decide +kernel) (by decide +kernel),
    hrest _ _ _ (hm _ (List.mem_cons_of_mem _ (List.mem_cons_self ..))) (by decide +kernel) (by decide +kernel),
    hrest _ _ _ (hm _ (List.mem_cons_of_mem _ (List.mem_cons_of_mem _ (List.mem_cons_self ..)))) (by decide +kernel) (by decide +kernel)]

/-- a saved constant tree is read with its value and its learning rate, both rounded -/
theorem finish_constant (L : Lex α) (hL : L.Ascii) (P : Print α) (round : α → α) (hP : P.ReadBy L round) (t : Tree α)
    (n : Node α) (h1 : t.numLeaves = 1) (h2 : t.nodes = [n]) (h3 : n.isLeaf = true) (s : ScanState α) (i : Int) :
    ({ s with current := some i, params := (t.filePairs P).reverse } : ScanState α).finish L =
      .ok { s with trees := s.trees ++ [⟨[], [round n.leafValue], 1, round t.shrinkage, 0⟩], current := none, params := [] } := by
  have hnl : (KV.loaderArrays L (t.filePairs P).reverse).numLeaves = 1 := by
    unfold KV.loaderArrays
    dsimp only
    rw [kv_leaves, h1]
    exact hL.loose _ _ (hP.int _).2.2
  have hp : t.filePairs P = [("num_leaves".toList, P.int t.numLeaves), ("num_cat".toList, "0".toList),
      ("shrinkage".toList, P.float t.shrinkage), ("leaf_value".toList, P.float n.leafValue)] := by
    unfold Tree.filePairs Node.filePairs
    rw [h2, List.flatMap_cons, List.flatMap_nil, if_pos h3]
    rfl
  have hlv : (KV.loaderArrays L (t.filePairs P).reverse).leafValue = [round n.leafValue] := by
    have : KV.get (t.filePairs P).reverse "leaf_value" = some (P.float n.leafValue) := by rw [hp]; rfl
    unfold KV.loaderArrays KV.list
    dsimp only
    rw [this, Option.getD_some, fields_word (hP.float _).1]
    simp [(hP.float n.leafValue).2]
  have hsh : KV.shrinkage L (t.filePairs P).reverse = round t.shrinkage := by
    have : KV.get (t.filePairs P).reverse "shrinkage" = some (P.float t.shrinkage) := by rw [hp]; rfl
    unfold KV.shrinkage
    rw [this, Option.bind_some, (hP.float _).2, Option.getD_some]
  unfold ScanState.finish
  dsimp only
  rw [hsh]
  unfold TextArrays.load
  rw [if_pos hnl, Outcome.bind_ok, hlv, hnl]

theorem scan_constants (L : Lex α) (hL : L.Ascii) (P : Print α) (round : α → α) (hP : P.ReadBy L round) (limit : Nat)
    (ts : List (Tree α)) : ∀ (i : Nat) (s s0 : ScanState α), (∀ l ∈ treeFileLines P i ts, l.length < limit) →
    (∀ t ∈ ts, t.numLeaves = 1 ∧ ∃ n, t.nodes = [n] ∧ n.isLeaf = true) → s.finish L = .ok s0 → s0.current = none → s0.params = [] →
    ∃ r, scanLines L limit (treeFileLines P i ts) s = .ok (r, true) ∧ r.finish L =
      .ok { s0 with trees := s0.trees ++ ts.map fun t => ⟨[], t.nodes.map fun n => round n.leafValue, 1, round t.shrinkage, 0⟩ } := by
  induction ts with
  | nil =>
    intro i s s0 _ _ h _ _
    refine ⟨s, rfl, ?_⟩
    rw [h]
    simp
  | cons t ts ih =>
    intro i s s0 hlen ht h hc hp
    obtain ⟨h1, n, h2, h3⟩ := ht t (by simp)
    rw [treeFileLines, scan_tree L hL P round hP limit i t _ (fun l hl => hlen l (by rw [treeFileLines]; simp [hl])), h,
      Outcome.bind_ok]
    obtain ⟨r, hr1, hr2⟩ := ih (i + 1) _ _ (fun l hl => hlen l (by rw [treeFileLines]; simp [hl])) (fun t ht' => ht t (by simp [ht']))
      (finish_constant L hL P round hP t n h1 h2 h3 s0 i) rfl rfl
    refine ⟨r, hr1, ?_⟩
    rw [hr2]
    simp [h2, hc, hp]

/-- **C218 (partial)** What `SaveModel` of an estimator writes can be loaded when no tree has a split: every tree is the constant of
the saved one, printed with six digits, and objective, number of classes and number of features are the saved ones. Missing: the
initial score, which is not written, so it is 0 after loading; and trees with splits (`saved_estimator_load_panics`). -/
theorem saved_constant_partial (L : Lex α) (hL : L.Ascii) (P : Print α) (round : α → α) (hP : P.ReadBy L round) (limit : Nat)
    (tenth : α) (names : Text) (m : Model α) (ho : Word L.space m.objective.toList)
    (hlen : ∀ l ∈ m.fileLines P names, l.length < limit)
    (h : ∀ t ∈ m.trees, t.numLeaves = 1 ∧ ∃ n, t.nodes = [n] ∧ n.isLeaf = true) :
    ∃ m', loadLines L limit tenth (m.fileLines P names) = .ok m' ∧ m'.objective = m.objective ∧ m'.numFeatures = m.numFeatures ∧
      (m.numClass ≠ 0 → m'.numClass = m.numClass) ∧ m'.initScore = 0 ∧
      m'.trees = m.trees.map fun t => ⟨[], t.nodes.map fun n => round n.leafValue, 1, round t.shrinkage, 0⟩ := by
  obtain ⟨r, hr1, hr2⟩ := scan_constants L hL P round hP limit m.trees 0 ⟨m.numClass, m.numFeatures, m.objective, [], none, []⟩
    ⟨m.numClass, m.numFeatures, m.objective, [], none, []⟩ (fun l hl => hlen l (List.mem_append_right _ hl)) h rfl rfl rfl
  unfold loadLines
  rw [scan_header_exact L hL P round hP names limit m ho hlen, hr1, Outcome.bind_ok]
  dsimp only
  rw [hr2, Outcome.bind_ok, if_pos rfl]
  refine ⟨_, rfl, rfl, rfl, fun h0 => ?_, ?_, ?_⟩
  · unfold ScanState.model
    dsimp only
    rw [if_neg h0]
  · unfold ScanState.model
    dsimp only
    rw [List.nil_append]
    cases m.trees <;> rfl
  · unfold ScanState.model
    dsimp only
    rw [List.nil_append]

end

/-! ## Examples -/

/-- numbers printed with one stroke per unit -/
def strokes : Print Int where
  int n := if n < 0 then 'm' :: List.replicate n.natAbs 'i' else 'p' :: List.replicate n.natAbs 'i'
  float n := if n < 0 then 'm' :: List.replicate n.natAbs 'i' else 'p' :: List.replicate n.natAbs 'i'

/-- reading strokes -/
def readStrokes : Text → Option Int
  | 'm' :: cs => some (-(cs.length : Int))
  | 'p' :: cs => some cs.length
  | _ => none

/-- a reader of strokes -/
def strokeLex : Lex Int where
  space c := c == ' '
  atoi := readStrokes
  atoiLoose w := (readStrokes w).getD 0
  int32 := readStrokes
  uint32 := fun _ => none
  float := readStrokes

theorem strokeLex_ascii : strokeLex.Ascii := by
  refine ⟨rfl, fun c hc => ?_, fun w n h => ?_⟩
  · have h1 : c ≠ ' ' := by rintro rfl; revert hc; decide
    simp [strokeLex, h1]
  · show (readStrokes w).getD 0 = n
    rw [show readStrokes w = some n from h]
    rfl

theorem strokes_read (n : Int) : Word strokeLex.space (strokes.int n) ∧ '=' ∉ strokes.int n ∧ readStrokes (strokes.int n) = some n := by
  unfold strokes Word
  dsimp only
  by_cases h : n < 0
  · rw [if_pos h]
    refine ⟨⟨by simp, fun c hc => ?_⟩, ?_, ?_⟩
    · rcases List.mem_cons.1 hc with rfl | hc
      · rfl
      · rw [(List.mem_replicate.1 hc).2]; rfl
    · intro hc
      rcases List.mem_cons.1 hc with hc | hc
      · revert hc; decide
      · have := (List.mem_replicate.1 hc).2; revert this; decide
    · simp only [readStrokes, List.length_replicate, Option.some.injEq]
      omega
  · rw [if_neg h]
    refine ⟨⟨by simp, fun c hc => ?_⟩, ?_, ?_⟩
    · rcases List.mem_cons.1 hc with rfl | hc
      · rfl
      · rw [(List.mem_replicate.1 hc).2]; rfl
    · intro hc
      rcases List.mem_cons.1 hc with hc | hc
      · revert hc; decide
      · have := (List.mem_replicate.1 hc).2; revert this; decide
    · simp only [readStrokes, List.length_replicate, Option.some.injEq]
      omega

theorem strokes_readBy : strokes.ReadBy strokeLex id :=
  ⟨fun n => strokes_read n, fun n => ⟨(strokes_read n).1, (strokes_read n).2.2⟩⟩

/-- a fitted model of one tree with one split -/
def exFitted : Model Int :=
  ⟨"binary", 1, 1, 1, [⟨[⟨1, 2, .numerical, 0, 5, [], false, 0, 0, 0, 0, 0⟩, ⟨-1, -1, .leaf, 0, 0, [], false, 0, 3, 0, 0, 0⟩,
    ⟨-1, -1, .leaf, 0, 0, [], false, 0, 4, 0, 0, 0⟩], [], 2, 1, 0⟩], 2, 0, 5, false⟩

/-- `saved_estimator_load_panics` applies to it -/
example : loadLines strokeLex 65536 0 (exFitted.fileLines strokes []) = .panic "index out of range" :=
  saved_estimator_load_panics strokeLex strokeLex_ascii strokes id strokes_readBy 65536 0 [] exFitted (by decide +kernel)
    ⟨_, List.mem_singleton.2 rfl, by decide, _, List.mem_cons_self .., by decide⟩

/-- a fitted model of one constant -/
def exFittedConstant : Model Int :=
  ⟨"binary", 1, 1, 1, [⟨[⟨-1, -1, .leaf, 0, 0, [], false, 0, 3, 0, 0, 0⟩], [], 1, 1, 0⟩], 2, 0, 5, false⟩

/-- `saved_constant_partial` applies to it: the initial score 5 is lost -/
example : ∃ m', loadLines strokeLex 65536 0 (exFittedConstant.fileLines strokes []) = .ok m' ∧ m'.objective = "binary" ∧
    m'.initScore = 0 ∧ m'.trees = [⟨[], [3], 1, 1, 0⟩] := by
  obtain ⟨m', h1, h2, -, -, h3, h4⟩ := saved_constant_partial strokeLex strokeLex_ascii strokes id strokes_readBy 65536 0 []
    exFittedConstant (by decide +kernel) (by decide +kernel) (by
      intro t ht
      cases List.mem_singleton.1 ht
      exact ⟨rfl, _, rfl, by decide⟩)
  exact ⟨m', h1, h2, h3, h4⟩

end Scigo.LGB
