import Verif.LGB.Dump
import Verif.LGB.JsonProps
import Verif.LGB.LeavesJsonProps
import Verif.LGB.LeavesPredictProps
import Verif.LGB.Text

/-!
# C190, C191: what the dump of a booster says, and reading it back
-/

set_option linter.unusedSectionVars false

namespace Scigo.LGB

variable {α : Type _}

/-! ## C190: the dump describes the trees -/

/-- every map of the dump shows the node whose number it carries, and the maps of its children are those of the node's
children -/
def Dump.Shows (t : Tree α) : Int → Dump α → Prop
  | c, .absent => c < 0
  | c, .null => 0 ≤ c ∧ (t.nodes.length : Int) ≤ c
  | _, .values _ => False
  | c, .leaf i v k => c = i ∧ ∃ n, t.nodeAt i = some n ∧ n.isLeaf = true ∧ v = n.leafValue ∧ k = n.leafCount
  | c, .split i f g thr dl v k l r => c = i ∧ ∃ n, t.nodeAt i = some n ∧ n.isLeaf = false ∧ f = n.feature ∧ g = n.gain ∧
      thr = n.threshold ∧ dl = n.defaultLeft ∧ v = n.internalValue ∧ k = n.internalCount ∧ l.Shows t n.left ∧
      r.Shows t n.right

theorem dumpNode_shows (t : Tree α) (fuel : Nat) (id : Int) (h0 : 0 ≤ id) (d : Dump α) (h : t.dumpNode fuel id = some d) :
    d.Shows t id := by
  induction fuel generalizing id d with
  | zero => cases h
  | succ fuel ih =>
    unfold Tree.dumpNode at h
    rcases hn : t.nodeAt id with _ | n
    · rw [hn] at h
      cases h
      refine ⟨h0, ?_⟩
      unfold Tree.nodeAt at hn
      rw [if_neg (by omega), List.getElem?_eq_none_iff] at hn
      omega
    · rw [hn] at h
      dsimp only at h
      by_cases hl : n.isLeaf = true
      · rw [if_pos hl] at h
        cases h
        exact ⟨rfl, n, hn, hl, rfl, rfl⟩
      · rw [if_neg hl] at h
        have child : ∀ c d, (if c ≥ 0 then t.dumpNode fuel c else some Dump.absent) = some d → d.Shows t c := by
          intro c d hd
          by_cases hc : c ≥ 0
          · rw [if_pos hc] at hd; exact ih c hc d hd
          · rw [if_neg hc] at hd; cases hd; show c < 0; omega
        rcases hL : (if n.left ≥ 0 then t.dumpNode fuel n.left else some Dump.absent) with _ | l
        · rw [hL] at h; cases h
        rw [hL] at h
        dsimp only at h
        rcases hR : (if n.right ≥ 0 then t.dumpNode fuel n.right else some Dump.absent) with _ | r
        · rw [hR] at h; cases h
        rw [hR] at h
        cases h
        exact ⟨rfl, n, hn, by simpa using hl, rfl, rfl, rfl, rfl, rfl, rfl, child _ _ hL, child _ _ hR⟩

/-- **C190** (law-free): every map in the dump of a tree carries the data of the node whose number it gives, the dump starts
at node 0, and a key for a child is left out exactly for a negative child number. -/
theorem dump_shows_nodes (t : Tree α) (d : Dump α) (h : t.dump = some d) (hne : t.nodes ≠ []) : d.Shows t 0 := by
  unfold Tree.dump at h
  rw [if_neg (by simpa using hne)] at h
  exact dumpNode_shows t _ 0 le_rfl d h

section

variable [BEq α] [LE α] [DecidableLE α] [Zero α]

/-- reading a dump: go down by the keys `split_feature`, `threshold`, `default_left`; a missing or null child is worth 0 -/
def Dump.value (x : List α) : Dump α → α
  | .absent => 0
  | .null => 0
  | .values vs => vs.headD 0
  | .leaf _ v _ => v
  | .split _ f _ thr dl _ _ l r =>
    if (if !(x.getD f.toNat 0 == x.getD f.toNat 0) then dl else decide (x.getD f.toNat 0 ≤ thr)) = true then l.value x
    else r.value x

theorem wf_dumpNode (toInt : α → Int) {k : Nat} {t : Tree α} (hw : WellFormed k t)
    (hnum : ∀ n ∈ t.nodes, n.isLeaf = false → n.kind = .numerical) {id : Int} {d : DTree α} (hs : Stores t id d) (h0 : 0 ≤ id)
    (fuel : Nat) (hf : t.nodes.length + 1 ≤ id.toNat + fuel) (hf1 : 0 < fuel) :
    ∃ j, t.dumpNode fuel id = some j ∧ ∀ x : List α, j.value x = d.eval toInt x := by
  induction hs generalizing fuel with
  | outside id hn =>
    obtain ⟨fuel, rfl⟩ : ∃ f, fuel = f + 1 := ⟨fuel - 1, by omega⟩
    exact ⟨.null, by unfold Tree.dumpNode; rw [hn], fun _ => rfl⟩
  | leaf id n hn hl =>
    obtain ⟨fuel, rfl⟩ : ∃ f, fuel = f + 1 := ⟨fuel - 1, by omega⟩
    exact ⟨.leaf id n.leafValue n.leafCount, by unfold Tree.dumpNode; rw [hn]; dsimp only; rw [if_pos hl], fun _ => rfl⟩
  | split id n s l r hn hl ha hsl hsr ihl ihr =>
    obtain ⟨fuel, rfl⟩ : ∃ f, fuel = f + 1 := ⟨fuel - 1, by omega⟩
    obtain ⟨-, h1, h2⟩ := nodeAt_some hn
    obtain ⟨-, -, -, hleft, hright⟩ := hw id.toNat n h1 hl
    have hk := hnum n (List.mem_of_getElem? h1) hl
    have hlt : id.toNat < t.nodes.length := by
      by_contra hc
      rw [List.getElem?_eq_none (by omega)] at h1; cases h1
    have child : ∀ (c : Int) (e : DTree α), (c < 0 ∨ (id.toNat : Int) < c) → Stores t c e →
        ((0 ≤ c) → ∀ fuel, t.nodes.length + 1 ≤ c.toNat + fuel → 0 < fuel →
          ∃ j, t.dumpNode fuel c = some j ∧ ∀ x : List α, j.value x = e.eval toInt x) →
        ∃ j, (if c ≥ 0 then t.dumpNode fuel c else some Dump.absent) = some j ∧ ∀ x : List α, j.value x = e.eval toInt x := by
      intro c e hc hse ih
      by_cases hc0 : c ≥ 0
      · rw [if_pos hc0]
        exact ih hc0 fuel (by omega) (by omega)
      · rw [if_neg hc0]
        have := stores_unique t c e (.leaf 0) hse (.outside c (by unfold Tree.nodeAt; rw [if_pos (by omega)]))
        subst this
        exact ⟨.absent, rfl, fun _ => rfl⟩
    obtain ⟨jl, e1, v1⟩ := child n.left l hleft hsl (fun h => ihl h)
    obtain ⟨jr, e2, v2⟩ := child n.right r hright hsr (fun h => ihr h)
    refine ⟨.split id n.feature n.gain n.threshold n.defaultLeft n.internalValue n.internalCount jl jr, ?_, fun x => ?_⟩
    · unfold Tree.dumpNode
      rw [hn]
      dsimp only
      rw [if_neg (by simp [hl]), e1]
      dsimp only
      rw [e2]
    · cases ha with
      | num f _ hfe =>
        unfold Dump.value DTree.eval Split.left
        dsimp only
        rw [hfe, Int.toNat_natCast, v1, v2]
      | cat f hc hfe => rw [hk] at hc; cases hc

/-- **C190**, what holds (law-free): the dump of a tree with numerical splits exists, and reading it with any sample gives
the prediction of the tree. Missing: the categories of a categorical split are not in the dump
(`dump_loses_categories`). -/
theorem dump_predicts_partial (toInt : α → Int) (k : Nat) (t : Tree α) (hw : WellFormed k t) (hne : t.nodes ≠ [])
    (hnum : ∀ n ∈ t.nodes, n.isLeaf = false → n.kind = .numerical) :
    ∃ d, t.dump = some d ∧ ∀ x : List α, k ≤ x.length → t.predict toInt x = .ok (d.value x) := by
  obtain ⟨d, hd, hf⟩ := wellFormed_stores k t hw 0
  obtain ⟨j, hj, hv⟩ := wf_dumpNode toInt hw hnum hd le_rfl (t.nodes.length + 1) (by omega) (by omega)
  refine ⟨j, by unfold Tree.dump; rw [if_neg (by simpa using hne), hj], fun x hx => ?_⟩
  rw [predict_returns _ _ _ _ (stores_returns toInt t x 0 d hd (hf.mono hx)), hv]

end

/-- **C190** is false: two trees that split a feature by different categories have the same dump and predict
differently. -/
theorem dump_loses_categories : ∃ t t' : Tree ℚ, WellFormed 1 t ∧ WellFormed 1 t' ∧ t.dump = t'.dump ∧
    t.predict Rat.floor [1] = .ok 10 ∧ t'.predict Rat.floor [1] = .ok 20 := by
  have wf : ∀ cs : List Int, WellFormed 1 (⟨[⟨1, 2, .categorical, 0, 0, cs, false, 0, 0, 0, 0, 0⟩, lf 10, lf 20], [], 2, 1, 0⟩ : Tree ℚ) := by
    intro cs i n hn hl
    match i with
    | 0 => cases hn; exact ⟨.inr rfl, Int.le_refl 0, Int.zero_lt_one, .inr (Int.zero_lt_one), .inr (show (0 : Int) < 2 by decide)⟩
    | 1 => cases hn; exact absurd hl (by decide)
    | 2 => cases hn; exact absurd hl (by decide)
    | i + 3 => simp at hn
  exact ⟨_, _, wf [1], wf [2], rfl, by decide +kernel, by decide +kernel⟩

/-- **C190** is false: in a tree read from a text file the leaves are negative child numbers, and their values are not in
the dump -/
theorem dump_loses_leaf_values : ∃ t t' : Tree ℚ, exArrays.load (1 / 10) 0 = .ok t ∧
    ({ exArrays with leafValue := [1, 2, 3, 4] } : TextArrays ℚ).load (1 / 10) 0 = .ok t' ∧ t.dump.isSome ∧ t.dump = t'.dump ∧
    t.leafValues ≠ t'.leafValues := by
  refine ⟨_, _, rfl, rfl, by decide +kernel, by rfl, by decide +kernel⟩

example : ∃ d, exTree.dump = some d ∧ d.Shows exTree 0 ∧ d.value [1, 3] = 7 ∧ d.value [0, 3] = 3 := by
  obtain ⟨d, hd, hv⟩ := dump_predicts_partial Rat.floor 2 exTree exTree_wf (by simp [exTree]) (by decide +kernel)
  refine ⟨d, hd, dump_shows_nodes exTree d hd (by simp [exTree]), ?_, ?_⟩
  · have := hv [1, 3] (by decide)
    rw [show exTree.predict Rat.floor [1, 3] = .ok 7 by decide +kernel] at this
    injection this with this; exact this.symm
  · have := hv [0, 3] (by decide)
    rw [show exTree.predict Rat.floor [0, 3] = .ok 3 by decide +kernel] at this
    injection this with this; exact this.symm

/-! ## C191: saving as JSON and reading the file -/

/-- the tree a JSON file without `missing_type` describes -/
def DTree.plain [Zero α] : DTree α → FTree α
  | .leaf v => .leaf v
  | .node ⟨f, .le thr, dl⟩ l r => .node f thr .none dl l.plain r.plain
  | .node ⟨_, .mem _, _⟩ _ _ => .leaf 0

/-- in every split at least one of the two children is a leaf -/
def Tree.OneSplitChild (t : Tree α) : Prop :=
  ∀ n ∈ t.nodes, n.isLeaf = false →
    (∃ c, t.nodeAt n.left = some c ∧ c.isLeaf = true) ∨ (∃ c, t.nodeAt n.right = some c ∧ c.isLeaf = true)

section

variable [BEq α] [LE α] [DecidableLE α] [LT α] [DecidableLT α] [Zero α] [Neg α] [Add α] [Sub α] [One α] [Mul α] [Div α]

theorem proper_dump {k : Nat} {t : Tree α} (hp : Proper k t) (hone : t.OneSplitChild) {id : Int} {d : DTree α}
    (hs : Stores t id d) (h0 : 0 ≤ id) (h1 : id < t.nodes.length) (fuel : Nat) (hf : t.nodes.length ≤ id.toNat + fuel) :
    ∃ e j, t.dumpNode fuel id = some e ∧ e.toLJson = some j ∧ JsonTree j d.plain ∧ d.plain.Comb ∧ d.Numerical := by
  induction hs generalizing fuel with
  | outside id hn =>
    obtain ⟨n, hn'⟩ := hp.inside h0 h1
    rw [hn] at hn'; cases hn'
  | leaf id n hn hl =>
    obtain ⟨fuel, rfl⟩ : ∃ f, fuel = f + 1 := ⟨fuel - 1, by omega⟩
    exact ⟨.leaf id n.leafValue n.leafCount, _, by unfold Tree.dumpNode; rw [hn]; dsimp only; rw [if_pos hl], rfl,
      .leaf .., trivial, trivial⟩
  | split id n s l r hn hl ha hsl hsr ihl ihr =>
    obtain ⟨fuel, rfl⟩ : ∃ f, fuel = f + 1 := ⟨fuel - 1, by omega⟩
    rcases hp.leaf_or hn with ⟨h, -⟩ | ⟨g1, g2, g3, g4, g5, g6, g7, -⟩
    · rw [h] at hl; cases hl
    obtain ⟨el, jl, a1, a2, a3, a4, a5⟩ := ihl (by omega) g5 fuel (by omega)
    obtain ⟨er, jr, b1, b2, b3, b4, b5⟩ := ihr (by omega) g7 fuel (by omega)
    obtain ⟨-, h1', h2'⟩ := nodeAt_some hn
    refine ⟨.split id n.feature n.gain n.threshold n.defaultLeft n.internalValue n.internalCount el er,
      .node n.feature.toNat n.threshold false [] 0 n.defaultLeft 0 jl jr, ?_, ?_, ?_⟩
    · unfold Tree.dumpNode
      rw [hn]
      dsimp only
      rw [if_neg (by simp [hl]), if_pos (by omega), a1]
      dsimp only
      rw [if_pos (by omega), b1]
    · unfold Dump.toLJson
      rw [a2, b2]
    · cases ha with
      | num f hk hfe =>
        refine ⟨?_, ⟨?_, a4, b4⟩, ⟨_, rfl⟩, a5, b5⟩
        · rw [hfe, Int.toNat_natCast]
          exact .node f n.threshold [] 0 n.defaultLeft 0 jl jr _ _ a3 b3
        · rcases hone n (List.mem_of_getElem? h1') hl with ⟨c, hc, hcl⟩ | ⟨c, hc, hcl⟩
          · left
            have := stores_unique t n.left l (.leaf c.leafValue) hsl (.leaf _ c hc hcl)
            exact ⟨c.leafValue, by rw [this]; rfl⟩
          · right
            have := stores_unique t n.right r (.leaf c.leafValue) hsr (.leaf _ c hc hcl)
            exact ⟨c.leafValue, by rw [this]; rfl⟩
      | cat f hk hfe => rw [g1] at hk; cases hk

theorem plain_eval (toInt : α → Int) (z : α) (x : List α) (hx : ∀ v ∈ x, (v == v) = true) (d : DTree α) (hn : d.Numerical)
    (hf : d.Features x.length) : d.plain.eval z x = d.eval toInt x := by
  induction d with
  | leaf v => rfl
  | node s l r ihl ihr =>
    obtain ⟨⟨thr, ht⟩, hl, hr⟩ := hn
    obtain ⟨h1, h2, h3⟩ := hf
    obtain ⟨f, test, dl⟩ := s
    dsimp only at ht h1
    subst ht
    have hv : (x.getD f 0 == x.getD f 0) = true := by
      refine hx _ ?_
      rw [List.getD_eq_getElem?_getD, List.getElem?_eq_getElem h1]
      exact List.getElem_mem h1
    have e : goesLeft z .none dl thr (x.getD f 0) = Split.left toInt ⟨f, .le thr, dl⟩ x := by
      unfold goesLeft Split.left
      dsimp only
      rw [hv]
      rfl
    unfold DTree.plain FTree.eval DTree.eval
    rw [e, ihl hl h2, ihr hr h3]

theorem plain_features {k : Nat} (d : DTree α) (hn : d.Numerical) (hf : d.Features k) : d.plain.Features k := by
  induction d with
  | leaf v => trivial
  | node s l r ihl ihr =>
    obtain ⟨⟨thr, ht⟩, hl, hr⟩ := hn
    obtain ⟨f, test, dl⟩ := s
    dsimp only at ht
    subst ht
    exact ⟨hf.1, ihl hl hf.2.1, ihr hr hf.2.2⟩

/-- one tree through the file -/
theorem dump_tree_json (toInt toInt' : α → Int) (ofInt : Int → α) (z : α) {k : Nat} {t : Tree α} (hp : Proper k t)
    (hone : t.OneSplitChild) : ∃ e j, t.dump = some e ∧ e.toLJson = some j ∧
      ∀ x : List α, k ≤ x.length → (∀ v ∈ x, (v == v) = true) →
        ∃ w, (j.convert ofInt).predict toInt' z x = .ok w ∧ t.predict toInt x = .ok w := by
  obtain ⟨d, hd, hf⟩ := wellFormed_stores k t hp.wellFormed 0
  have hpos : (0 : Int) < t.nodes.length := by
    have := List.length_pos_iff.2 hp.1; omega
  obtain ⟨e, j, h1, h2, h3, h4, h5⟩ := proper_dump hp hone hd le_rfl hpos (t.nodes.length + 1) (by omega)
  refine ⟨e, j, by unfold Tree.dump; rw [if_neg (by simpa using hp.1), h1], h2, fun x hx hnan => ?_⟩
  refine ⟨d.eval toInt x, ?_, predict_returns _ _ _ _ (stores_returns toInt t x 0 d hd (hf.mono hx))⟩
  rw [json_tree_compiled_partial toInt' ofInt z j d.plain h3 h4 x (plain_features d h5 (hf.mono hx)),
    plain_eval toInt z x hnan d h5 (hf.mono hx)]

theorem read_dumps (ofInt : Int → α) {P : Tree α → LTree α → Prop} (ts : List (Tree α))
    (h : ∀ t ∈ ts, ∃ e j, t.dump = some e ∧ e.toLJson = some j ∧ P t (j.convert ofInt)) :
    ∃ ds ls, dumpTrees ts = some ds ∧ readTrees ofInt ds = some ls ∧ List.Forall₂ P ts ls := by
  induction ts with
  | nil => exact ⟨[], [], rfl, rfl, .nil⟩
  | cons t ts ih =>
    obtain ⟨e, j, h1, h2, h3⟩ := h t (by simp)
    obtain ⟨ds, ls, i1, i2, i3⟩ := ih (fun t ht => h t (by simp [ht]))
    refine ⟨(t.numLeaves, t.shrinkage, e) :: ds, j.convert ofInt :: ls, ?_, ?_, .cons h3 i3⟩
    · unfold dumpTrees; rw [h1]; dsimp only; rw [i1]
    · unfold readTrees; rw [h2]; dsimp only; rw [i2]

theorem modify_eq_set (l : List α) (i : Nat) (v : α) (hi : i < l.length) :
    l.modify i (fun s => s + v) = l.set i (l.getD i 0 + v) := by
  apply List.ext_getElem?
  intro n
  by_cases h : i = n
  · subst h; simp [List.getElem?_modify, hi, List.getD_eq_getElem?_getD]
  · simp [List.getElem?_modify, h]

/-- the sums of corresponding trees -/
theorem sums_agree (toInt : α → Int) (L : LNum α) (m : Model α) (lm : LModel α) (hc : lm.numClass = m.numClass) (x : List α)
    (ts : List (Tree α)) (ls : List (LTree α))
    (h : List.Forall₂ (fun t l => ∃ w, l.predict L.toInt L.zero x = .ok w ∧ t.predict toInt x = .ok w) ts ls) (i : Nat) :
    (2 < m.numClass → ∀ p : List α, p.length = m.numClass.toNat →
      lm.accumulate L x (ls.zipIdx i |>.map fun e => (e.2, e.1)) p =
        m.accumulate (fun t => t.predict toInt x) (fun _ s v => s + v) (ts.zipIdx i) p) ∧
    (¬ 2 < m.numClass → ∀ s : α, (sumTrees L x ls s).map (fun s => [s]) =
        m.accumulate (fun t => t.predict toInt x) (fun _ s v => s + v) (ts.zipIdx i) [s]) := by
  induction h generalizing i with
  | nil => exact ⟨fun _ p _ => rfl, fun _ s => rfl⟩
  | @cons t l ts ls hw _ ih =>
    obtain ⟨w, h1, h2⟩ := hw
    refine ⟨fun hm p hp => ?_, fun hm s => ?_⟩
    · simp only [List.zipIdx_cons, List.map_cons, LModel.accumulate, Model.accumulate, h1, h2, Outcome.bind_ok]
      have hslot : m.slot i = i % lm.numClass.toNat := by unfold Model.slot; rw [if_pos hm, hc]
      have hlt : i % lm.numClass.toNat < p.length := by rw [hp, hc]; exact Nat.mod_lt _ (by omega)
      rw [hslot, modify_eq_set p _ w hlt]
      exact (ih (i + 1)).1 hm _ (by simpa using hp)
    · simp only [List.zipIdx_cons, sumTrees, Model.accumulate, h1, h2, Outcome.bind_ok]
      have hslot : m.slot i = 0 := by unfold Model.slot; rw [if_neg hm]
      rw [hslot]
      exact (ih (i + 1)).2 hm (s + w)

/-- **C191**, what holds (law-free): a model without initial score, of numerical trees in which no split has two splits
below it, saved with save type `json`, is read as a model with the same number of classes and features and the same
objective, and the same raw scores for every sample without missing values. Saving fails only for numbers that are not
finite. Missing: `json_file_wrong_tree`, `json_file_missing_values`, `json_file_init_score`. -/
theorem json_file_raw_partial (toInt : α → Int) (fin : α → Bool) (ofInt : Int → α) (L : LNum α) (m : Model α) (k : Nat)
    (hp : ∀ t ∈ m.trees, Proper k t) (hone : ∀ t ∈ m.trees, t.OneSplitChild) (hi : m.initScore = 0) (ho : m.objective ≠ "") :
    (m.viaJson fin ofInt = .err (.other "failed to marshal model") ∨
      ∃ lm, m.viaJson fin ofInt = .ok lm ∧ lm.numClass = m.numClass ∧ lm.numFeatures = m.numFeatures ∧
        lm.objective = m.objective ∧
        ∀ x : List α, k ≤ x.length → (∀ v ∈ x, (v == v) = true) →
          lm.predictRaw L x = m.raw toInt m.trees.length x) ∧
    ((∀ v, fin v = true) → m.viaJson fin ofInt ≠ .err (.other "failed to marshal model")) := by
  obtain ⟨ds, ls, h1, h2, h3⟩ := read_dumps ofInt m.trees
    (P := fun t l => ∀ x : List α, k ≤ x.length → (∀ v ∈ x, (v == v) = true) →
        ∃ w, l.predict L.toInt L.zero x = .ok w ∧ t.predict toInt x = .ok w)
    (fun t ht => dump_tree_json toInt L.toInt ofInt L.zero (hp t ht) (hone t ht))
  have hv : m.viaJson fin ofInt = if ds.all (fun d => fin d.2.1 && d.2.2.finite fin) then
      .ok ⟨ls, m.numClass, m.objective, 0, m.numFeatures - 1 + 1⟩ else .err (.other "failed to marshal model") := by
    unfold Model.viaJson parseObjective
    rw [h1]
    dsimp only
    rw [h2, if_neg ho]
  constructor
  · rw [hv]
    split_ifs with hfin
    · refine Or.inr ⟨_, rfl, rfl, by show m.numFeatures - 1 + 1 = _; omega, rfl, fun x hx hnan => ?_⟩
      have h4 := h3.imp (fun t l h => h x hx hnan)
      have hs := sums_agree toInt L m ⟨ls, m.numClass, m.objective, 0, m.numFeatures - 1 + 1⟩ rfl x m.trees ls h4 0
      unfold LModel.predictRaw Model.raw Model.start
      rw [List.take_length, hi]
      by_cases hm : 2 < m.numClass
      · rw [if_pos hm, if_pos (show m.numClass > 2 from hm), ← hs.1 hm _ (by simp)]
        congr 1
        dsimp only
        rw [List.mapIdx_eq_zipIdx_map]
      · rw [if_neg hm, if_neg (show ¬ m.numClass > 2 from hm), ← hs.2 hm]
    · exact .inl rfl
  · intro hfin
    rw [hv, if_pos]
    · simp
    · have : ∀ d : Dump α, d.finite fin = true := by
        intro d
        induction d with
        | absent => rfl
        | null => rfl
        | values vs => simp [Dump.finite, hfin]
        | leaf => simp [Dump.finite, hfin]
        | split _ _ _ _ _ _ _ l r ihl ihr => simp [Dump.finite, hfin, ihl, ihr]
      simp [hfin, this]

end

/-- a split whose two children are splits -/
def fullNodes : Tree ℚ :=
  ⟨[sp 1 2 0 0, sp 3 4 1 0, sp 5 6 1 0, lf 1, lf 2, lf 3, lf 4], [], 4, 1, 0⟩

theorem fullNodes_proper : Proper 2 fullNodes := by
  refine ⟨by simp [fullNodes], fun i n hn => ?_⟩
  match i with
  | 0 => simp [fullNodes] at hn; subst hn; right; decide
  | 1 => simp [fullNodes] at hn; subst hn; right; decide
  | 2 => simp [fullNodes] at hn; subst hn; right; decide
  | 3 => simp [fullNodes] at hn; subst hn; left; decide
  | 4 => simp [fullNodes] at hn; subst hn; left; decide
  | 5 => simp [fullNodes] at hn; subst hn; left; decide
  | 6 => simp [fullNodes] at hn; subst hn; left; decide
  | i + 7 => simp [fullNodes] at hn

/-- **C191** is false: with a split both of whose children are splits, samples going right get a value of the left part -/
theorem json_file_wrong_tree : ∃ lm : LModel ℚ,
    (⟨"regression", 1, 1, 1, [fullNodes], 2, 0, 0, false⟩ : Model ℚ).viaJson (fun _ => true) (fun i => (i : ℚ)) = .ok lm ∧
    lm.predictRaw ratLNum [1, 1] = .ok [2] ∧
    (⟨"regression", 1, 1, 1, [fullNodes], 2, 0, 0, false⟩ : Model ℚ).raw Rat.floor 1 [1, 1] = .ok [4] := by
  refine ⟨_, rfl, ?_, ?_⟩ <;> decide +kernel

/-- **C191** is false: the initial score is not in the file -/
theorem json_file_init_score : ∃ lm : LModel ℚ,
    ({ leafModel with initScore := 5 } : Model ℚ).viaJson (fun _ => true) (fun i => (i : ℚ)) = .ok lm ∧
    lm.predictRaw ratLNum [0] = .ok [1] ∧ ({ leafModel with initScore := 5 } : Model ℚ).raw Rat.floor 1 [0] = .ok [6] := by
  refine ⟨_, rfl, ?_, ?_⟩ <;> decide +kernel

/-- **C191** is false: a tree without nodes is written with an array as leaf value, and the file cannot be read -/
theorem json_file_constant_tree :
    (⟨"regression", 1, 1, 1, [⟨[], [3], 1, 1, 0⟩], 1, 0, 0, false⟩ : Model ℚ).viaJson (fun _ => true) (fun i => (i : ℚ)) =
      .err (.other "failed to parse JSON") := rfl

/-- small numbers and a NaN, for examples with missing values -/
inductive NaNInt
  | nan
  | num (i : Int)
  deriving DecidableEq

namespace NaNInt

instance : BEq NaNInt := ⟨fun a b => match a, b with | num i, num j => i == j | _, _ => false⟩
instance : LE NaNInt := ⟨fun a b => match a, b with | num i, num j => i ≤ j | _, _ => False⟩
instance : DecidableLE NaNInt := fun a b => match a, b with
  | num i, num j => inferInstanceAs (Decidable (i ≤ j))
  | nan, _ => .isFalse (fun h => h)
  | num _, nan => .isFalse (fun h => h)
instance : LT NaNInt := ⟨fun a b => match a, b with | num i, num j => i < j | _, _ => False⟩
instance : DecidableLT NaNInt := fun a b => match a, b with
  | num i, num j => inferInstanceAs (Decidable (i < j))
  | nan, _ => .isFalse (fun h => h)
  | num _, nan => .isFalse (fun h => h)
instance : Zero NaNInt := ⟨num 0⟩
instance : One NaNInt := ⟨num 1⟩
instance : Neg NaNInt := ⟨fun a => match a with | num i => num (-i) | nan => nan⟩
instance : Add NaNInt := ⟨fun a b => match a, b with | num i, num j => num (i + j) | _, _ => nan⟩
instance : Sub NaNInt := ⟨fun a b => match a, b with | num i, num j => num (i - j) | _, _ => nan⟩
instance : Mul NaNInt := ⟨fun a b => match a, b with | num i, num j => num (i * j) | _, _ => nan⟩
instance : Div NaNInt := ⟨fun a b => match a, b with | num i, num j => num (i / j) | _, _ => nan⟩

end NaNInt

/-- a stump sending missing values left although 0 goes right -/
def nanStump : Tree NaNInt :=
  ⟨[⟨1, 2, .numerical, 0, .num (-3), [], true, .num 1, .num 0, 0, .num 0, 0⟩, lf (.num 10), lf (.num 20)], [], 2, .num 1, .num 0⟩

/-- **C191** is false: the way of missing values is lost -/
theorem json_file_missing_values : ∃ lm : LModel NaNInt,
    (⟨"regression", 1, 1, .num 1, [nanStump], 1, 0, .num 0, false⟩ : Model NaNInt).viaJson (fun _ => true) NaNInt.num = .ok lm ∧
    lm.predictRaw ⟨fun _ => 0, .num 0, id, .num 500⟩ [.nan] = .ok [.num 20] ∧
    (⟨"regression", 1, 1, .num 1, [nanStump], 1, 0, .num 0, false⟩ : Model NaNInt).raw (fun _ => 0) 1 [.nan] =
      .ok [.num 10] := by
  refine ⟨_, rfl, ?_, ?_⟩ <;> decide +kernel

/-- two trees of depth two through the file -/
example : ∃ lm : LModel ℚ,
    (⟨"regression", 1, 1, 1, [deepTree, deepTree], 2, 0, 0, false⟩ : Model ℚ).viaJson (fun _ => true) (fun i => (i : ℚ)) = .ok lm ∧
    lm.predictRaw ratLNum [1, 6] = .ok [8] := by
  obtain ⟨h | ⟨lm, h1, -, -, -, h2⟩, h3⟩ := json_file_raw_partial Rat.floor (fun _ => true) (fun i => (i : ℚ)) ratLNum
    (⟨"regression", 1, 1, 1, [deepTree, deepTree], 2, 0, 0, false⟩ : Model ℚ) 2
    (by simpa using deepTree_proper) (by
      have : deepTree.OneSplitChild := by
        intro n hn hl
        simp only [deepTree, List.mem_cons, List.not_mem_nil, or_false] at hn
        rcases hn with rfl | rfl | rfl | rfl | rfl
        · exact .inr ⟨_, rfl, by decide⟩
        · exact .inr ⟨_, rfl, by decide⟩
        · cases hl
        · cases hl
        · cases hl
      simpa using this) rfl (by decide)
  · exact absurd h (h3 (fun _ => rfl))
  · refine ⟨lm, h1, ?_⟩
    rw [h2 [1, 6] (by decide) (by simp)]
    decide +kernel

/-- the numbers shown in a dumped node and the nodes below it -/
inductive Dump.HasNum : Dump α → α → Prop
  | values {vs v} : v ∈ vs → HasNum (.values vs) v
  | leaf {i v c} : HasNum (.leaf i v c) v
  | gain {i f g t d v c l r} : HasNum (.split i f g t d v c l r) g
  | threshold {i f g t d v c l r} : HasNum (.split i f g t d v c l r) t
  | value {i f g t d v c l r} : HasNum (.split i f g t d v c l r) v
  | left {i f g t d v c l r x} : HasNum l x → HasNum (.split i f g t d v c l r) x
  | right {i f g t d v c l r x} : HasNum r x → HasNum (.split i f g t d v c l r) x

/-- **C191** (law-free): saving with save type `json` is refused exactly if the shrinkage of a tree or a number shown in its nodes is not finite. -/
theorem json_file_refused_iff [Zero α] (fin : α → Bool) (ofInt : Int → α) (m : Model α) (ds : List (Int × α × Dump α)) (hd : dumpTrees m.trees = some ds) :
    m.viaJson fin ofInt = .err (.other "failed to marshal model") ↔ ∃ d ∈ ds, fin d.2.1 = false ∨ ∃ v, d.2.2.HasNum v ∧ fin v = false := by
  have hf : ∀ d : Dump α, d.finite fin = true ↔ ∀ v, d.HasNum v → fin v = true := by
    intro d
    induction d with
    | absent => exact ⟨fun _ v h => (by cases h), fun _ => rfl⟩
    | null => exact ⟨fun _ v h => (by cases h), fun _ => rfl⟩
    | values vs =>
      simp only [Dump.finite, List.all_eq_true]
      exact ⟨fun h v hv => (by cases hv with | values hv => exact h v hv), fun h v hv => h v (.values hv)⟩
    | leaf i v c =>
      exact ⟨fun h w hw => (by cases hw; exact h), fun h => h v .leaf⟩
    | split i f g t d v c l r ihl ihr =>
      simp only [Dump.finite, Bool.and_eq_true, ihl, ihr]
      constructor
      · rintro ⟨⟨⟨⟨h1, h2⟩, h3⟩, h4⟩, h5⟩ w hw
        cases hw with
        | gain => exact h1
        | threshold => exact h2
        | value => exact h3
        | left h => exact h4 _ h
        | right h => exact h5 _ h
      · exact fun h => ⟨⟨⟨⟨h _ .gain, h _ .threshold⟩, h _ .value⟩, fun w hw => h w (.left hw)⟩, fun w hw => h w (.right hw)⟩
  unfold Model.viaJson
  rw [hd]
  dsimp only
  split
  · rename_i ha
    rw [List.all_eq_true] at ha
    constructor
    · intro h
      split at h
      · injection h with h; simp at h
      · cases h
    · rintro ⟨d, hd, h⟩
      have := ha d hd
      rw [Bool.and_eq_true, hf] at this
      rcases h with h | ⟨v, hv, h⟩
      · rw [this.1] at h; cases h
      · rw [this.2 v hv] at h; cases h
  · rename_i ha
    refine ⟨fun _ => ?_, fun _ => rfl⟩
    by_contra hc
    refine ha (List.all_eq_true.2 fun d hd => ?_)
    rw [Bool.and_eq_true, hf]
    constructor
    · by_contra h
      exact hc ⟨d, hd, .inl (by simpa using h)⟩
    · intro v hv
      by_contra h
      exact hc ⟨d, hd, .inr ⟨v, hv, by simpa using h⟩⟩

/-- a leaf below a split whose value is not finite -/
example : (Dump.split 0 0 1 2 true 3 4 (.leaf 0 7 1) .null).HasNum (7 : Int) ∧ (Dump.split 0 0 1 2 true 3 4 (.leaf 0 7 1) .null).finite (fun x : Int => x != 7) = false :=
  ⟨.left .leaf, by decide⟩

end Scigo.LGB
