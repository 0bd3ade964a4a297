import Verif.LGB.Json
import Verif.LGB.EnsembleProps

/-!
# C48: saving to JSON and loading
-/

set_option linter.unusedSectionVars false

namespace Scigo.LGB

variable {α : Type _} [BEq α] [LE α] [DecidableLE α] [LT α] [DecidableLT α] [Zero α] [One α] [Add α] [Sub α]
  [Neg α] [Mul α] [Div α]

/-- number of nodes -/
def J.size : J α → Nat
  | .nil => 0
  | .node _ l r => l.size + r.size + 1

/-- the array `flattenTree` produces when `base` nodes are already there -/
def J.layout : Nat → J α → List (Node α)
  | _, .nil => []
  | base, .node d l r =>
    if l.isNil && r.isNil then [d.leafNode]
    else { d.splitNode with
        left := if l.isNil then -1 else ((base + 1 : Nat) : Int)
        right := if r.isNil then -1 else ((base + 1 + l.size : Nat) : Int) }
      :: (l.layout (base + 1) ++ r.layout (base + 1 + l.size))

theorem layout_length (j : J α) (base : Nat) : (j.layout base).length = j.size := by
  induction j generalizing base with
  | nil => rfl
  | node d l r ihl ihr =>
    rw [J.layout, J.size]
    by_cases h : (l.isNil && r.isNil) = true
    · rw [if_pos h]
      cases l <;> cases r <;> simp_all [J.isNil, J.size]
    · rw [if_neg h]
      simp [ihl, ihr]

theorem modify_at {β : Type _} (ns : List β) (a : β) (l : List β) (f : β → β) :
    (ns ++ a :: l).modify ns.length f = ns ++ f a :: l := by
  induction ns with
  | nil => rfl
  | cons b ns ih => simpa [List.modify] using ih

theorem flatten_eq (j : J α) (ns : List (Node α)) :
    flatten j ns = (ns ++ j.layout ns.length, if j.isNil then -1 else (ns.length : Int)) := by
  induction j generalizing ns with
  | nil => simp [flatten, J.layout, J.isNil]
  | node d l r ihl ihr =>
    unfold flatten J.layout
    by_cases h : (l.isNil && r.isNil) = true
    · rw [if_pos h, if_pos h]; simp [J.isNil]
    · rw [if_neg h, if_neg h]
      simp only [ihl, List.append_assoc, List.singleton_append, modify_at, ihr]
      have e1 : (ns ++ [d.splitNode]).length = ns.length + 1 := by simp
      have e2 : ∀ n : Node α, (ns ++ n :: l.layout (ns.length + 1)).length = ns.length + 1 + l.size := by
        intro n; simp [layout_length]; omega
      simp only [e1, e2, List.cons_append, modify_at]
      simp [J.isNil]

/-- the document holds the numerical decision tree `d` with features below `k` -/
inductive JRep (k : Nat) : J α → DTree α → Prop
  | leaf (d : JData α) : JRep k (.node d .nil .nil) (.leaf d.leafValue)
  | node (d : JData α) (f : Nat) (l r : J α) (dl dr : DTree α) : d.feature = f → f < k → JRep k l dl → JRep k r dr →
      JRep k (.node d l r) (.node ⟨f, .le d.threshold, d.defaultLeft⟩ dl dr)

theorem JRep.not_nil {k : Nat} {j : J α} {d : DTree α} (h : JRep k j d) : j.isNil = false := by
  cases h <;> rfl

/-- writing -/
theorem proper_toJ {k : Nat} {t : Tree α} (hp : Proper k t) {id : Int} {d : DTree α} (hs : Stores t id d)
    (h0 : 0 ≤ id) (h1 : id < t.nodes.length) (fuel : Nat) (hf : t.nodes.length ≤ id.toNat + fuel) :
    ∃ j, t.toJ fuel id = some j ∧ JRep k j d := by
  induction hs generalizing fuel with
  | outside id hn =>
    obtain ⟨n, hn'⟩ := hp.inside h0 h1
    rw [hn] at hn'; cases hn'
  | leaf id n hn hl =>
    obtain ⟨fuel, rfl⟩ : ∃ f, fuel = f + 1 := ⟨fuel - 1, by omega⟩
    rcases hp.leaf_or hn with ⟨-, h⟩ | ⟨g1, g2, g3, g4, g5, g6, g7, g8⟩
    · refine ⟨.node (leafData n) .nil .nil, ?_, .leaf (leafData n)⟩
      unfold Tree.toJ
      simp only [hn, h, if_true]
    · rw [hl] at g8; cases g8
  | split id n s l r hn hl ha _ _ ihl ihr =>
    obtain ⟨fuel, rfl⟩ : ∃ f, fuel = f + 1 := ⟨fuel - 1, by omega⟩
    rcases hp.leaf_or hn with ⟨h, -⟩ | ⟨g1, g2, g3, g4, g5, g6, g7, -⟩
    · rw [h] at hl; cases hl
    obtain ⟨jl, e1, r1⟩ := ihl (by omega) g5 fuel (by omega)
    obtain ⟨jr, e2, r2⟩ := ihr (by omega) g7 fuel (by omega)
    refine ⟨.node (splitData n) jl jr, ?_, ?_⟩
    · unfold Tree.toJ
      simp only [hn, g1]
      rw [if_neg (by decide), if_pos (by omega), e1]
      simp only
      rw [if_pos (by omega), e2]
    · cases ha with
      | num f hk hfe => exact .node (splitData n) f jl jr l r hfe (by omega) r1 r2
      | cat f hk hfe => rw [g1] at hk; cases hk

theorem rep_reread (h0 : ∀ v : α, (v == 0) = true → v = 0) {k : Nat} {j : J α} {d : DTree α} (h : JRep k j d) :
    JRep k j.reread d := by
  have hc : ∀ v : α, canon v = v := by
    intro v
    unfold canon
    split_ifs with hv
    · exact (h0 v hv).symm
    · rfl
  induction h with
  | leaf d =>
    have := JRep.leaf (k := k) ⟨d.feature, canon d.gain, canon d.threshold, d.defaultLeft, canon d.internalValue,
      d.internalCount, canon d.leafValue, d.leafCount⟩
    simp only [hc] at this
    simpa only [J.reread, hc] using this
  | node d f l r dl dr hf hk _ _ ihl ihr =>
    have := JRep.node (k := k) ⟨d.feature, canon d.gain, canon d.threshold, d.defaultLeft, canon d.internalValue,
      d.internalCount, canon d.leafValue, d.leafCount⟩ f _ _ _ _ hf hk ihl ihr
    simp only [hc] at this
    simpa only [J.reread, hc] using this

/-- reading: the array stores the tree -/
theorem layout_stores {k : Nat} {j : J α} {d : DTree α} (h : JRep k j d) (pre post : List (Node α)) (t : Tree α)
    (ht : t.nodes = pre ++ j.layout pre.length ++ post) : Stores t pre.length d := by
  induction h generalizing pre post with
  | leaf d =>
    refine Stores.leaf _ d.leafNode ?_ rfl
    rw [nodeAt_nat, ht]
    simp [J.layout, J.isNil]
  | node d f l r dl dr hf hk hl hr ihl ihr =>
    have hl' := hl.not_nil
    have hr' := hr.not_nil
    have e : J.layout pre.length (.node d l r) = { d.splitNode with
        left := ((pre.length + 1 : Nat) : Int), right := ((pre.length + 1 + l.size : Nat) : Int) }
      :: (l.layout (pre.length + 1) ++ r.layout (pre.length + 1 + l.size)) := by
      rw [J.layout, if_neg (by rw [hl', hr']; decide)]
      simp only [hl', hr', Bool.false_eq_true, if_false]
    rw [e] at ht
    set n : Node α := { d.splitNode with
        left := ((pre.length + 1 : Nat) : Int), right := ((pre.length + 1 + l.size : Nat) : Int) } with hn
    refine Stores.split _ n _ dl dr ?_ ?_ (Asks.num n f rfl hf) ?_ ?_
    · rw [nodeAt_nat, ht]; simp
    · simp only [Node.isLeaf, hn, Bool.and_eq_false_iff, beq_eq_false_iff_ne]
      left; omega
    · have := ihl (pre ++ [n]) (r.layout (pre.length + 1 + l.size) ++ post) (by rw [ht]; simp)
      simpa [hn] using this
    · have := ihr (pre ++ n :: l.layout (pre.length + 1)) post (by
        rw [ht]
        have : (pre ++ n :: l.layout (pre.length + 1)).length = pre.length + 1 + l.size := by
          simp [layout_length]; omega
        rw [this]; simp)
      have e2 : (pre ++ n :: l.layout (pre.length + 1)).length = pre.length + 1 + l.size := by
        simp [layout_length]; omega
      rw [e2] at this
      exact this

/-- reading: the array is proper -/
theorem layout_nodes {k : Nat} {j : J α} {d : DTree α} (h : JRep k j d) (base i : Nat) (n : Node α)
    (hn : (j.layout base)[i]? = some n) :
    (n.isLeaf = true ∧ n.kind = .leaf) ∨
    (n.kind = .numerical ∧ 0 ≤ n.feature ∧ n.feature < k ∧
      ((base + i : Nat) : Int) < n.left ∧ n.left < ((base + j.size : Nat) : Int) ∧
      ((base + i : Nat) : Int) < n.right ∧ n.right < ((base + j.size : Nat) : Int)) := by
  induction h generalizing base i with
  | leaf d =>
    simp only [J.layout, J.isNil, Bool.and_self, if_true] at hn
    match i with
    | 0 => simp at hn; subst hn; left; simp [JData.leafNode, Node.isLeaf]
    | i + 1 => simp at hn
  | node d f l r dl dr hf hk hl hr ihl ihr =>
    have hl' := hl.not_nil
    have hr' := hr.not_nil
    have hsl : 1 ≤ l.size := by cases l <;> simp_all [J.size, J.isNil]
    have hsr : 1 ≤ r.size := by cases r <;> simp_all [J.size, J.isNil]
    rw [J.layout, if_neg (by rw [hl', hr']; decide)] at hn
    simp only [hl', hr', Bool.false_eq_true, if_false] at hn
    unfold J.size
    match i with
    | 0 =>
      simp at hn
      subst hn
      right
      refine ⟨rfl, ?_, ?_, ?_⟩
      · show 0 ≤ d.feature; omega
      · show d.feature < k; omega
      · simp only; omega
    | i + 1 =>
      simp only [List.getElem?_cons_succ] at hn
      by_cases hi : i < l.size
      · rw [List.getElem?_append_left (by rw [layout_length]; exact hi)] at hn
        rcases ihl (base + 1) i hn with h | ⟨g1, g2, g3, g4, g5, g6, g7⟩
        · exact .inl h
        · exact .inr ⟨g1, g2, g3, by omega, by omega, by omega, by omega⟩
      · rw [List.getElem?_append_right (by rw [layout_length]; omega), layout_length] at hn
        rcases ihr (base + 1 + l.size) (i - l.size) hn with h | ⟨g1, g2, g3, g4, g5, g6, g7⟩
        · exact .inl h
        · exact .inr ⟨g1, g2, g3, by omega, by omega, by omega, by omega⟩

theorem toTree_nodes (n : Int) (s : α) (j : J α) : (JTree.toTree ⟨n, s, j⟩).nodes = j.layout 0 := by
  simp [JTree.toTree, flatten_eq]

theorem rep_toTree {k : Nat} {j : J α} {d : DTree α} (h : JRep k j d) (n : Int) (s : α) :
    Proper k (JTree.toTree ⟨n, s, j⟩) ∧ Stores (JTree.toTree ⟨n, s, j⟩) 0 d := by
  have hne : 1 ≤ j.size := by cases h <;> simp [J.size]
  refine ⟨⟨?_, ?_⟩, ?_⟩
  · intro h'
    have := congrArg List.length h'
    rw [toTree_nodes, layout_length] at this
    simp at this; omega
  · intro i n hn
    rw [toTree_nodes] at hn ⊢
    have := layout_nodes h 0 i n hn
    simp only [Nat.zero_add] at this
    rw [layout_length]
    exact this
  · have := layout_stores h [] [] (JTree.toTree ⟨n, s, j⟩) (by rw [toTree_nodes]; simp)
    simpa using this

/-- the tree that is read back -/
theorem tree_roundtrip (h0 : ∀ v : α, (v == 0) = true → v = 0) (toInt : α → Int) {k : Nat} {t : Tree α}
    (hp : Proper k t) : ∃ j, t.toJTree = some j ∧ j.shrinkage = t.shrinkage ∧
      Proper k (JTree.toTree ⟨j.numLeaves, j.shrinkage, j.root.reread⟩) ∧
      ∀ x : List α, k ≤ x.length →
        (JTree.toTree ⟨j.numLeaves, j.shrinkage, j.root.reread⟩).predict toInt x = t.predict toInt x ∧
        (JTree.toTree ⟨j.numLeaves, j.shrinkage, j.root.reread⟩).sPredict x = t.sPredict x := by
  obtain ⟨d, hd, hf⟩ := wellFormed_stores k t hp.wellFormed 0
  have hpos : (0 : Int) < t.nodes.length := by
    have := List.length_pos_iff.2 hp.1; omega
  obtain ⟨j, hj, hr⟩ := proper_toJ hp hd le_rfl hpos (t.nodes.length + 1) (by omega)
  refine ⟨⟨t.numLeaves, t.shrinkage, j⟩, by simp [Tree.toJTree, hj], rfl, ?_⟩
  obtain ⟨g1, g2⟩ := rep_toTree (rep_reread h0 hr) t.numLeaves t.shrinkage
  refine ⟨g1, fun x hx => ⟨?_, ?_⟩⟩
  · rw [predict_returns _ _ _ _ (stores_returns toInt _ x 0 d g2 (hf.mono hx)),
      predict_returns _ _ _ _ (stores_returns toInt t x 0 d hd (hf.mono hx))]
  · have hpos' : (0 : Int) < (JTree.toTree ⟨t.numLeaves, t.shrinkage, j.reread⟩).nodes.length := by
      have := List.length_pos_iff.2 g1.1; omega
    rw [sPredict_returns _ _ _ g1.1 (proper_sReturns toInt k _ g1 x hx 0 d g2 le_rfl hpos'),
      sPredict_returns _ _ _ hp.1 (proper_sReturns toInt k t hp x hx 0 d hd le_rfl hpos)]
    rfl

theorem accumulate_map (m m' : Model α) (hs : m.slot = m'.slot) {out : Tree α → Outcome α} {out' : Tree α → Outcome α}
    {upd : α → α → α} (ts ts' : List (Tree α)) (hl : List.Forall₂ (fun t t' => out t = out' t') ts ts') (i : Nat) (p : List α) :
    m.accumulate out (fun _ => upd) (ts.zipIdx i) p = m'.accumulate out' (fun _ => upd) (ts'.zipIdx i) p := by
  induction hl generalizing i p with
  | nil => rfl
  | cons h _ ih =>
    simp only [List.zipIdx_cons, Model.accumulate, h, hs]
    split
    · exact ih _ _
    · rfl
    · rfl

/-- models that differ only in trees that predict alike -/
theorem same_predictSingle (N : ENum α) (toInt : α → Int) (m m' : Model α) (h1 : m'.objective = m.objective)
    (h2 : m'.numClass = m.numClass) (h3 : m'.initScore = m.initScore) (x : List α)
    (hl : List.Forall₂ (fun t t' => t.predict toInt x = t'.predict toInt x) m'.trees m.trees) (iter : Int) :
    m'.predictSingle N toInt x iter = m.predictSingle N toInt x iter := by
  obtain ⟨o, c, a, b, ts, d, e, s, f⟩ := m
  obtain ⟨o', c', a', b', ts', d', e', s', f'⟩ := m'
  simp only at h1 h2 h3 hl
  subst h1 h2 h3
  unfold Model.predictSingle Model.raw
  simp only
  rw [show ts'.length = ts.length from hl.length_eq]
  have := accumulate_map (upd := fun s v => s + v) ⟨o', c', a', b', ts', d', e', s', f'⟩ ⟨o', c', a, b, ts, d, e, s', f⟩ rfl _ _
    (List.forall₂_take (if iter < 0 ∨ iter > ts.length then ts.length else iter.toNat) hl) 0
      (Model.start ⟨o', c', a, b, ts, d, e, s', f⟩)
  rw [show Model.start ⟨o', c', a', b', ts', d', e', s', f'⟩ = Model.start ⟨o', c', a, b, ts, d, e, s', f⟩ from rfl, this]
  rfl

theorem same_sSample (N : ENum α) (m m' : Model α) (h1 : m'.objective = m.objective)
    (h2 : m'.numClass = m.numClass) (h3 : m'.initScore = m.initScore) (x : List α)
    (hl : List.Forall₂ (fun t t' => t.sPredict x = t'.sPredict x) m'.trees m.trees) :
    m'.sSample N x = m.sSample N x := by
  obtain ⟨o, c, a, b, ts, d, e, s, f⟩ := m
  obtain ⟨o', c', a', b', ts', d', e', s', f'⟩ := m'
  simp only at h1 h2 h3 hl
  subst h1 h2 h3
  unfold Model.sSample Model.sRaw
  have := accumulate_map (upd := fun s v => s + v) ⟨o', c', a', b', ts', d', e', s', f'⟩ ⟨o', c', a, b, ts, d, e, s', f⟩ rfl _ _
    hl 0 (Model.start ⟨o', c', a, b, ts, d, e, s', f⟩)
  simp only
  rw [show Model.start ⟨o', c', a', b', ts', d', e', s', f'⟩ = Model.start ⟨o', c', a, b, ts, d, e, s', f⟩ from rfl, this]

theorem toJTrees_ok {P : Tree α → JTree α → Prop} (ts : List (Tree α)) (h : ∀ t ∈ ts, ∃ j, t.toJTree = some j ∧ P t j) :
    ∃ js, toJTrees ts = some js ∧ List.Forall₂ P ts js := by
  induction ts with
  | nil => exact ⟨[], rfl, .nil⟩
  | cons t ts ih =>
    obtain ⟨j, hj, hp⟩ := h t (by simp)
    obtain ⟨js, hjs, hps⟩ := ih (fun t ht => h t (by simp [ht]))
    exact ⟨j :: js, by simp [toJTrees, hj, hjs], .cons hp hps⟩

/-- **C48**, what holds (law-free, with −0 and 0 identified): for a model of proper numerical trees with no
initial score and an objective whose name is not rewritten, every document `ToJSON` writes is loaded as a model
with the same features and, for every sample and every number of iterations, the same `PredictSingle` and
`SimplePredictor` outputs; in particular writing fails only for numbers that are not finite. Missing: initial score, categorical splits,
`multiclassova` (see `json_loses_init_score`, `json_loses_categories`, `json_renames_multiclassova`). -/
theorem json_roundtrip_partial (h0 : ∀ v : α, (v == 0) = true → v = 0) (N : ENum α) (toInt : α → Int) (tenth : α)
    (fin : α → Bool) (m : Model α) (k : Nat) (hk : m.numFeatures = k) (hp : ∀ t ∈ m.trees, Proper k t)
    (hi : m.initScore = 0) (ho : readObjective m.objective = m.objective) :
    (m.toJSON fin = .err (.other "json: unsupported value") ∨
      ∃ j, m.toJSON fin = .ok j ∧ (j.toModel tenth).numFeatures = m.numFeatures ∧
        (j.toModel tenth).trees.length = m.trees.length ∧
        (∀ x : List α, k ≤ x.length → ∀ iter : Int,
          (j.toModel tenth).predictSingle N toInt x iter = m.predictSingle N toInt x iter ∧
          (j.toModel tenth).sSample N x = m.sSample N x)) ∧
    ((∀ v, fin v = true) → m.toJSON fin ≠ .err (.other "json: unsupported value")) := by
  obtain ⟨js, hjs, hall⟩ := toJTrees_ok m.trees (fun t ht => tree_roundtrip h0 toInt (hp t ht))
  have hjson : m.toJSON fin = if js.all (fun j => fin j.shrinkage && j.root.finite fin) then
        .ok ⟨m.numClass, m.numFeatures - 1, m.objective,
          js.map (fun j => ⟨j.numLeaves, j.shrinkage, j.root.reread⟩)⟩
      else .err (.other "json: unsupported value") := by
    unfold Model.toJSON
    rw [if_neg (by omega), hjs]
  constructor
  · rw [hjson]
    split_ifs with hfin
    · right
      refine ⟨_, rfl, by simp [JModel.toModel], ?_, ?_⟩
      · simp [JModel.toModel, hall.length_eq]
      · intro x hx iter
        have hlen : js.length = m.trees.length := hall.length_eq.symm
        have f1 : List.Forall₂ (fun t t' => t.predict toInt x = t'.predict toInt x)
            ((js.map (fun j => (⟨j.numLeaves, j.shrinkage, j.root.reread⟩ : JTree α))).map JTree.toTree) m.trees := by
          rw [List.map_map]
          refine List.forall₂_map_left_iff.2 (List.Forall₂.flip ?_)
          exact hall.imp (fun t j h => (h.2.2 x hx).1)
        have f2 : List.Forall₂ (fun t t' => t.sPredict x = t'.sPredict x)
            ((js.map (fun j => (⟨j.numLeaves, j.shrinkage, j.root.reread⟩ : JTree α))).map JTree.toTree) m.trees := by
          rw [List.map_map]
          refine List.forall₂_map_left_iff.2 (List.Forall₂.flip ?_)
          exact hall.imp (fun t j h => (h.2.2 x hx).2)
        exact ⟨same_predictSingle N toInt m (JModel.toModel tenth ⟨m.numClass, m.numFeatures - 1, m.objective, _⟩)
            ho rfl hi.symm x f1 iter,
          same_sSample N m (JModel.toModel tenth ⟨m.numClass, m.numFeatures - 1, m.objective, _⟩)
            ho rfl hi.symm x f2⟩
    · exact .inl rfl
  · intro hfin
    rw [hjson, if_pos]
    · simp
    · have : ∀ j : J α, j.finite fin = true := by
        intro j; induction j with
        | nil => rfl
        | node d l r ihl ihr => simp [J.finite, hfin, ihl, ihr]
      simp [hfin, this]

/-! ## the full property fails -/

/-- **C48** is false: the initial score is not written (every trained regressor has one) -/
theorem json_loses_init_score : ∃ (m : Model ℚ) (j : JModel ℚ), m.toJSON (fun _ => true) = .ok j ∧
    (∀ t ∈ m.trees, Proper 1 t) ∧
    m.predictSingle ratNum (fun v => v.floor) [0] (-1) = .ok [6] ∧
    (j.toModel (1 / 10)).predictSingle ratNum (fun v => v.floor) [0] (-1) = .ok [1] := by
  refine ⟨{ leafModel with initScore := 5 }, _, rfl, entry_points_disagree.2.2.2, ?_, ?_⟩ <;> decide +kernel

/-- a categorical split on feature 0 sending category 1 left -/
def catModel : Model ℚ :=
  ⟨"regression", 1, 1, 1, [⟨[⟨1, 2, .categorical, 0, 0, [1], false, 0, 0, 0, 0, 0⟩,
    ⟨-1, -1, .leaf, 0, 0, [], false, 0, 10, 5, 0, 0⟩, ⟨-1, -1, .leaf, 0, 0, [], false, 0, 20, 5, 0, 0⟩], [], 2, 1, 0⟩],
    1, 0, 0, false⟩

/-- **C48** is false: categorical splits are loaded as numerical ones -/
theorem json_loses_categories : ∃ j : JModel ℚ, catModel.toJSON (fun _ => true) = .ok j ∧
    catModel.predictSingle ratNum (fun v => v.floor) [1] (-1) = .ok [10] ∧
    (j.toModel (1 / 10)).predictSingle ratNum (fun v => v.floor) [1] (-1) = .ok [20] := by
  refine ⟨_, rfl, ?_, ?_⟩ <;> decide +kernel

/-- **C48** is false: `multiclassova` models come back as softmax models -/
theorem json_renames_multiclassova : ∃ (m : Model ℚ) (j : JModel ℚ), m.toJSON (fun _ => true) = .ok j ∧
    m.predictSingle ratNum (fun v => v.floor) [0] (-1) = .ok [2, 2, 2] ∧
    (j.toModel (1 / 10)).predictSingle ratNum (fun v => v.floor) [0] (-1) = .ok [1 / 3, 1 / 3, 1 / 3] := by
  refine ⟨⟨"multiclassova", 3, 0, 1, List.replicate 3 ⟨[⟨-1, -1, .leaf, 0, 0, [], false, 0, 2, 5, 0, 0⟩], [], 1, 1, 0⟩,
    1, 0, 0, false⟩, _, rfl, ?_, ?_⟩ <;> decide +kernel

/-- a two-level tree, and its way through the document -/
def deepTree : Tree ℚ :=
  ⟨[⟨1, 4, .numerical, 0, 2, [], true, 1, 0, 0, 0, 0⟩, ⟨2, 3, .numerical, 1, 5, [], false, 1, 0, 0, 0, 0⟩,
    ⟨-1, -1, .leaf, -1, 0, [], false, 0, 1, 5, 0, 0⟩, ⟨-1, -1, .leaf, -1, 0, [], false, 0, 4, 5, 0, 0⟩,
    ⟨-1, -1, .leaf, -1, 0, [], false, 0, 9, 5, 0, 0⟩], [], 3, 1, 0⟩

theorem deepTree_proper : Proper 2 deepTree := by
  refine ⟨by simp [deepTree], fun i n hn => ?_⟩
  match i with
  | 0 => simp [deepTree] at hn; subst hn; right; decide
  | 1 => simp [deepTree] at hn; subst hn; right; decide
  | 2 => simp [deepTree] at hn; subst hn; left; decide
  | 3 => simp [deepTree] at hn; subst hn; left; decide
  | 4 => simp [deepTree] at hn; subst hn; left; decide
  | i + 5 => simp [deepTree] at hn

example : ∃ j : JModel ℚ, (⟨"regression", 1, 1, 1, [deepTree, deepTree], 2, 0, 0, false⟩ : Model ℚ).toJSON
    (fun _ => true) = .ok j ∧
    (j.toModel (1 / 10)).predictSingle ratNum (fun v => v.floor) [1, 6] (-1) = .ok [8] := by
  refine ⟨_, rfl, ?_⟩; decide +kernel

/-- **C48** (law-free): what is written for a node: nothing for an index without node, leaf value and count (and no split) for a leaf, the split and no leaf value
for a split. -/
theorem written_node (t : Tree α) (fuel : Nat) (id : Int) (d : JData α) (l r : J α) (h : t.toJ (fuel + 1) id = some (.node d l r)) :
    ∃ n, t.nodeAt id = some n ∧
      (n.kind = .leaf → d.leafValue = n.leafValue ∧ d.leafCount = n.leafCount ∧ d.feature = 0 ∧ d.gain = 0 ∧ d.threshold = 0 ∧ d.defaultLeft = false ∧
        d.internalValue = 0 ∧ d.internalCount = 0 ∧ l = .nil ∧ r = .nil) ∧
      (n.kind ≠ .leaf → d.leafValue = 0 ∧ d.leafCount = 0 ∧ d.feature = n.feature ∧ d.gain = n.gain ∧ d.threshold = n.threshold ∧
        d.defaultLeft = n.defaultLeft ∧ d.internalValue = n.internalValue ∧ d.internalCount = n.internalCount) := by
  unfold Tree.toJ at h
  cases hn : t.nodeAt id with
  | none => rw [hn] at h; cases h
  | some n =>
    rw [hn] at h
    dsimp only at h
    refine ⟨n, rfl, ?_⟩
    split at h
    · rename_i hk
      injection h with h
      injection h with h1 h2 h3
      subst h1 h2 h3
      exact ⟨fun _ => ⟨rfl, rfl, rfl, rfl, rfl, rfl, rfl, rfl, rfl, rfl⟩, fun h => absurd hk h⟩
    · rename_i hk
      refine ⟨fun h => absurd h hk, fun _ => ?_⟩
      split at h
      · cases h
      · split at h
        · cases h
        · injection h with h
          injection h with h1 h2 h3
          subst h1
          exact ⟨rfl, rfl, rfl, rfl, rfl, rfl, rfl, rfl⟩

end Scigo.LGB
