import Verif.Shap.Model
import Verif.LGB.TreeProps
import Mathlib.Algebra.BigOperators.Group.List.Lemmas
import Mathlib.Algebra.Field.Basic
import Mathlib.Algebra.Field.Rat
import Mathlib.Algebra.Order.Ring.Rat
import Mathlib.Tactic.Ring

/-!
# C65, C133, C134: SHAP values
-/

set_option linter.unusedSectionVars false

namespace Scigo.Shap

open Scigo.LGB

variable {α : Type}

/-! ### Specification -/

section
variable [BEq α] [LE α] [DecidableLE α] [Zero α]

/-- the features asked about on the way of a sample to its leaf -/
def asked (toInt : α → Int) (x : List α) : DTree α → List Nat
  | .leaf _ => []
  | .node s l r => s.feature :: if s.left toInt x then asked toInt x l else asked toInt x r

end

/-- the values of the leaves -/
def leaves (d : DTree α) : List α := d.paths.map (·.2)

/-- the mean of the leaves -/
def mean [Field α] (d : DTree α) : α := (leaves d).sum / (leaves d).length

/-- trees as the trainer makes them from numerical features: no category lists -/
def Plain (k : Nat) (t : LGB.Tree α) : Prop := Proper k t ∧ ∀ n ∈ t.nodes, n.categories = []

/-! ### The path and the leaves -/

section law_free
variable [BEq α] [LE α] [DecidableLE α] [LT α] [DecidableLT α] [Zero α] [Add α] [Sub α] [Neg α] [Mul α] [Div α]

theorem leaves_node (s : Split α) (l r : DTree α) : leaves (.node s l r) = leaves l ++ leaves r := by
  simp [leaves, DTree.paths, Function.comp_def]

theorem plain_split {k : Nat} {t : LGB.Tree α} (hp : Plain k t) {id : Int} {n : Node α} (hn : t.nodeAt id = some n) (hl : n.isLeaf = false) :
    n.kind = .numerical ∧ 0 ≤ n.feature ∧ n.feature < k ∧ id < n.left ∧ n.left < t.nodes.length ∧ id < n.right ∧ n.right < t.nodes.length ∧ n.categories = [] := by
  obtain ⟨h0, h1, h2⟩ := nodeAt_some hn
  rcases hp.1.2 _ _ h1 with ⟨h, -⟩ | ⟨a, b, c, d, e, f, g⟩
  · rw [hl] at h; cases h
  · rw [Int.toNat_of_nonneg h0] at d f
    exact ⟨a, b, c, d, e, f, g, hp.2 _ (List.mem_of_getElem? h1)⟩

theorem plain_leaf {k : Nat} {t : LGB.Tree α} (hp : Plain k t) {id : Int} {n : Node α} (hn : t.nodeAt id = some n) (hl : n.isLeaf = true) :
    n.kind = .leaf := by
  obtain ⟨h0, h1, h2⟩ := nodeAt_some hn
  rcases hp.1.2 _ _ h1 with ⟨-, h⟩ | ⟨a, b, c, d, e, f, g⟩
  · exact h
  · unfold Node.isLeaf at hl
    simp only [Bool.and_eq_true, beq_iff_eq] at hl
    omega

theorem nodeAt_inside {t : LGB.Tree α} {id : Int} (h0 : 0 ≤ id) (h1 : id < t.nodes.length) : ∃ n, t.nodeAt id = some n := by
  unfold Tree.nodeAt
  rw [if_neg (by omega)]
  exact ⟨_, List.getElem?_eq_getElem (by omega)⟩

theorem path_spec (toInt : α → Int) (k : Nat) (t : LGB.Tree α) (hp : Plain k t) (x : List α) (hx : k ≤ x.length) (hnan : ∀ v ∈ x, (v == v) = true)
    (id : Int) (d : DTree α) (h : Stores t id d) : ∀ fuel, 0 ≤ id → id < t.nodes.length → t.nodes.length ≤ fuel + id.toNat →
    ∃ ids last n, path toInt t x fuel id = .ok (ids ++ [last]) ∧ t.nodeAt last = some n ∧ n.leafValue = d.eval toInt x ∧
      pathFeatures t x.length ids = asked toInt x d := by
  induction h with
  | outside id hn =>
    intro fuel h0 h1
    obtain ⟨n, hn'⟩ := nodeAt_inside h0 h1
    rw [hn] at hn'; cases hn'
  | leaf id n hn hl =>
    intro fuel h0 h1 hf
    obtain ⟨fuel, rfl⟩ : ∃ j, fuel = j + 1 := ⟨fuel - 1, by omega⟩
    refine ⟨[], id, n, ?_, hn, rfl, rfl⟩
    rw [path, hn]
    simp [plain_leaf hp hn hl]
  | split id n s l r hn hl ha hL hR ihl ihr =>
    intro fuel h0 h1 hf
    obtain ⟨fuel, rfl⟩ : ∃ j, fuel = j + 1 := ⟨fuel - 1, by omega⟩
    obtain ⟨q1, q2, q3, q4, q5, q6, q7, q8⟩ := plain_split hp hn hl
    have hs : s = ⟨n.feature.toNat, .le n.threshold, n.defaultLeft⟩ :=
      asks_unique ha (.num n n.feature.toNat q1 (by omega))
    have hlt : n.feature.toNat < x.length := by omega
    have hfa : featureAt x n.feature = some (x[n.feature.toNat]) := by
      unfold featureAt
      rw [if_neg (by omega)]
      exact List.getElem?_eq_getElem hlt
    have hkind : n.kind ≠ .leaf := by rw [q1]; simp
    have hleft : s.left toInt x = decide (x[n.feature.toNat] ≤ n.threshold) := by
      subst hs
      unfold Split.left
      simp only [List.getD_eq_getElem?_getD, List.getElem?_eq_getElem hlt, Option.getD_some]
      rw [hnan _ (List.getElem_mem hlt)]
      rfl
    have hnext : next toInt n (x[n.feature.toNat]) = if s.left toInt x then n.left else n.right := by
      unfold next
      rw [hleft]
      simp [q8]
    have hpf : ∀ ids, pathFeatures t x.length (id :: ids) = s.feature :: pathFeatures t x.length ids := by
      intro ids
      unfold pathFeatures
      rw [List.filterMap_cons, hn]
      simp only
      rw [if_pos ⟨hkind, q2, by omega⟩, hs]
    by_cases hgo : s.left toInt x = true
    · obtain ⟨ids, last, n', e1, e2, e3, e4⟩ := ihl fuel (by omega) q5 (by omega)
      refine ⟨id :: ids, last, n', ?_, e2, ?_, ?_⟩
      · rw [path, hn]
        simp only [hkind, if_false, hfa]
        rw [hnext, if_pos hgo, e1]
        rfl
      · rw [e3, DTree.eval, if_pos hgo]
      · rw [hpf, e4, asked, if_pos hgo]
    · obtain ⟨ids, last, n', e1, e2, e3, e4⟩ := ihr fuel (by omega) q7 (by omega)
      refine ⟨id :: ids, last, n', ?_, e2, ?_, ?_⟩
      · rw [path, hn]
        simp only [hkind, if_false, hfa]
        rw [hnext, if_neg hgo, e1]
        rfl
      · rw [e3, DTree.eval, if_neg hgo]
      · rw [hpf, e4, asked, if_neg hgo]

theorem leafValues_spec (k : Nat) (t : LGB.Tree α) (hp : Plain k t) (id : Int) (d : DTree α) (h : Stores t id d) :
    ∀ fuel, 0 ≤ id → id < t.nodes.length → t.nodes.length ≤ fuel + id.toNat → leafValues t fuel id = .ok (leaves d) := by
  induction h with
  | outside id hn =>
    intro fuel h0 h1
    obtain ⟨n, hn'⟩ := nodeAt_inside h0 h1
    rw [hn] at hn'; cases hn'
  | leaf id n hn hl =>
    intro fuel h0 h1 hf
    obtain ⟨fuel, rfl⟩ : ∃ j, fuel = j + 1 := ⟨fuel - 1, by omega⟩
    rw [leafValues, hn]
    simp [plain_leaf hp hn hl, leaves, DTree.paths]
  | split id n s l r hn hl ha hL hR ihl ihr =>
    intro fuel h0 h1 hf
    obtain ⟨fuel, rfl⟩ : ∃ j, fuel = j + 1 := ⟨fuel - 1, by omega⟩
    obtain ⟨q1, q2, q3, q4, q5, q6, q7, q8⟩ := plain_split hp hn hl
    rw [leafValues, hn]
    simp only [show n.kind ≠ .leaf by rw [q1]; simp, if_false]
    rw [ihl fuel (by omega) q5 (by omega), ihr fuel (by omega) q7 (by omega), leaves_node]
    rfl

theorem asked_lt (toInt : α → Int) (x : List α) (k : Nat) (d : DTree α) (h : d.Features k) : ∀ f ∈ asked toInt x d, f < k := by
  induction d with
  | leaf => simp [asked]
  | node s l r ihl ihr =>
    intro f hf
    rw [asked, List.mem_cons] at hf
    rcases hf with rfl | hf
    · exact h.1
    · split_ifs at hf
      · exact ihl h.2.1 f hf
      · exact ihr h.2.2 f hf

theorem leaves_ne_nil (d : DTree α) : leaves d ≠ [] := by
  induction d with
  | leaf => simp [leaves, DTree.paths]
  | node s l r ihl ihr => rw [leaves_node]; simp [ihl]

theorem proper_wellFormed {k : Nat} {t : LGB.Tree α} (h : Proper k t) : WellFormed k t := by
  intro i n hn hl
  rcases h.2 i n hn with ⟨h', -⟩ | ⟨a, b, c, d, e, f, g⟩
  · rw [hl] at h'; cases h'
  · exact ⟨.inl a, b, c, .inr d, .inr f⟩

/-! ### Interactions -/

theorem subtreeUses_swap (t : LGB.Tree α) (f g : Nat) : ∀ d id, subtreeUses t g f d id = (subtreeUses t f g d id).map Prod.swap := by
  intro d
  induction d with
  | zero => intro id; rfl
  | succ d ih =>
    intro id
    rw [subtreeUses, subtreeUses]
    cases t.nodeAt id with
    | none => rfl
    | some n =>
      simp only
      split_ifs with hk
      · rfl
      · rw [ih, ih]
        cases subtreeUses t f g d n.left with
        | ok a =>
          cases subtreeUses t f g d n.right with
          | ok b => rfl
          | err e => rfl
          | panic s => rfl
        | err e => rfl
        | panic s => rfl

theorem treeUses_swap (t : LGB.Tree α) (f g : Nat) : treeUses t g f = treeUses t f g := by
  rw [treeUses, treeUses, subtreeUses_swap]
  cases subtreeUses t f g (t.nodes.length + 1) 0 with
  | ok a => simp [Outcome.map, Outcome.bind, Bool.and_comm]
  | err e => rfl
  | panic s => rfl

theorem contribution_swap (tenth : α) (toInt : α → Int) (t : LGB.Tree α) (x : List α) (f g : Nat) : ∀ d id,
    contribution tenth toInt t x g f d id = contribution tenth toInt t x f g d id := by
  intro d
  induction d with
  | zero => intro id; rfl
  | succ d ih =>
    intro id
    rw [contribution, contribution]
    cases t.nodeAt id with
    | none => rfl
    | some n =>
      simp only [ih, or_comm]

theorem pairOver_swap (tenth : α) (toInt : α → Int) (lr : α) (x : List α) (f g : Nat) : ∀ ts acc,
    pairOver tenth toInt lr x g f ts acc = pairOver tenth toInt lr x f g ts acc := by
  intro ts
  induction ts with
  | nil => intro acc; rfl
  | cons t ts ih =>
    intro acc
    rw [pairOver, pairOver, treeUses_swap]
    simp only [contribution_swap tenth toInt t x f g, ih]

theorem rowLoop_spec (pw : Nat → Nat → Outcome α) (i : Nat) : ∀ k j M M', i < j → rowLoop pw i k j M = .ok M' →
    (∀ b, j ≤ b → b < j + k → pw i b = .ok (M' i b) ∧ M' b i = M' i b) ∧
    (∀ a b, ¬ (a = i ∧ j ≤ b ∧ b < j + k) → ¬ (b = i ∧ j ≤ a ∧ a < j + k) → M' a b = M a b) := by
  intro k
  induction k with
  | zero =>
    intro j M M' hij h
    cases h
    exact ⟨fun b h1 h2 => by omega, fun _ _ _ _ => rfl⟩
  | succ k ih =>
    intro j M M' hij h
    rw [rowLoop] at h
    cases hv : pw i j with
    | err e => rw [hv] at h; cases h
    | panic s => rw [hv] at h; cases h
    | ok v =>
      rw [hv] at h
      obtain ⟨h1, h2⟩ := ih (j + 1) _ M' (by omega) h
      refine ⟨fun b hb hb' => ?_, fun a b ha hb => ?_⟩
      · by_cases e : b = j
        · subst e
          have e1 := h2 i b (by omega) (by omega)
          have e2 := h2 b i (by omega) (by omega)
          rw [set, set] at e1
          rw [set] at e2
          rw [if_neg (by omega), if_pos ⟨rfl, rfl⟩] at e1
          rw [if_pos ⟨rfl, rfl⟩] at e2
          exact ⟨by rw [hv, e1], by rw [e1, e2]⟩
        · exact h1 b (by omega) (by omega)
      · rw [h2 a b (by omega) (by omega), set, if_neg (by omega), set, if_neg (by omega)]

theorem pairLoop_spec (pw : Nat → Nat → Outcome α) (n : Nat) : ∀ k i M M', i + k = n → pairLoop pw n k i M = .ok M' →
    (∀ a b, i ≤ a → a < b → b < n → pw a b = .ok (M' a b) ∧ M' b a = M' a b) ∧
    (∀ a b, (a < i ∨ b < i ∨ a = b) → M' a b = M a b) := by
  intro k
  induction k with
  | zero =>
    intro i M M' hik h
    cases h
    exact ⟨fun a b h1 h2 h3 => by omega, fun _ _ _ => rfl⟩
  | succ k ih =>
    intro i M M' hik h
    rw [pairLoop] at h
    cases hv : rowLoop pw i (n - (i + 1)) (i + 1) M with
    | err e => rw [hv] at h; cases h
    | panic s => rw [hv] at h; cases h
    | ok M1 =>
      rw [hv] at h
      obtain ⟨r1, r2⟩ := rowLoop_spec pw i _ _ _ _ (by omega) hv
      obtain ⟨h1, h2⟩ := ih (i + 1) M1 M' (by omega) h
      refine ⟨fun a b ha hb hn => ?_, fun a b hab => ?_⟩
      · by_cases e : a = i
        · subst e
          rw [h2 a b (by omega), h2 b a (by omega)]
          exact r1 b (by omega) (by omega)
        · exact h1 a b (by omega) hb hn
      · rw [h2 a b (by omega), r2 a b (by omega) (by omega)]

theorem diag_spec (s : List α) (M0 : Nat → Nat → α) : ∀ n : Nat, ∀ i < n, ((List.range n).foldl (fun M i => set M i i (s.getD i 0)) M0) i i = s.getD i 0 := by
  intro n
  induction n with
  | zero => intro i h; omega
  | succ n ih =>
    intro i hi
    rw [List.range_succ, List.foldl_append]
    simp only [List.foldl_cons, List.foldl_nil]
    rw [set]
    by_cases e : i = n
    · rw [if_pos ⟨e, e⟩, e]
    · rw [if_neg (by omega)]
      exact ih i (by omega)

/-- **C133** (law-free): the interaction matrix of a sample is symmetric, its diagonal holds the SHAP values, and entry `(i, j)` does not depend on the order
in which the two features are named -/
theorem interactions_symmetric (ofNat : Nat → α) (tenth : α) (toInt : α → Int) (m : LGB.Model α) (x : List α) (M : Nat → Nat → α)
    (h : interactions ofNat tenth toInt m x = .ok M) :
    ∃ s, sampleShap ofNat toInt m x = .ok s ∧ ∀ i < x.length, M i i = s.getD i 0 ∧
      ∀ j < x.length, M i j = M j i ∧ (i ≠ j → pairwise tenth toInt m x i j = .ok (M i j) ∧ pairwise tenth toInt m x j i = .ok (M i j)) := by
  rw [interactions] at h
  cases hs : sampleShap ofNat toInt m x with
  | err e => rw [hs] at h; cases h
  | panic s => rw [hs] at h; cases h
  | ok s =>
    rw [hs] at h
    obtain ⟨h1, h2⟩ := pairLoop_spec _ _ _ _ _ _ (by omega) h
    refine ⟨s, rfl, fun i hi => ⟨by rw [h2 i i (by omega)]; exact diag_spec s _ _ i hi, fun j hj => ?_⟩⟩
    rcases Nat.lt_trichotomy i j with hlt | rfl | hlt
    · obtain ⟨e1, e2⟩ := h1 i j (by omega) hlt hj
      exact ⟨e2.symm, fun _ => ⟨e1, by rw [← e1]; exact pairOver_swap ..⟩⟩
    · exact ⟨rfl, fun h => absurd rfl h⟩
    · obtain ⟨e1, e2⟩ := h1 j i (by omega) hlt hi
      exact ⟨e2, fun _ => ⟨by rw [e2, ← e1]; exact pairOver_swap .., by rw [e2, ← e1]⟩⟩

end law_free

/-! ### Sums, in exact arithmetic -/

section field
variable [Field α] [BEq α] [LawfulBEq α] [LinearOrder α]

theorem sum_count (fs : List Nat) (n : Nat) (h : ∀ f ∈ fs, f < n) : ((List.range n).map fun f => ((fs.count f : Nat) : α)).sum = fs.length := by
  induction fs with
  | nil => simp
  | cons a fs ih =>
    have h1 : ∀ m, ((List.range m).map fun f => (((a :: fs).count f : Nat) : α)).sum =
        ((List.range m).map fun f => ((fs.count f : Nat) : α)).sum + (if a < m then 1 else 0) := by
      intro m
      induction m with
      | zero => simp
      | succ m ihm =>
        simp only [List.range_succ, List.map_append, List.sum_append, List.map_cons, List.map_nil, List.sum_cons, List.sum_nil, ihm]
        rw [List.count_cons]
        rcases Nat.lt_trichotomy a m with hlt | rfl | hlt
        · have e1 : (a == m) = false := by simpa using Nat.ne_of_lt hlt
          simp only [e1, hlt, show a < m + 1 by omega, if_true, Bool.false_eq_true, if_false, Nat.add_zero]
          ring
        · simp only [beq_self_eq_true, show ¬ a < a by omega, show a < a + 1 by omega, if_true, if_false]
          push_cast
          ring
        · have e1 : (a == m) = false := by simpa using Nat.ne_of_gt hlt
          simp only [e1, show ¬ a < m by omega, show ¬ a < m + 1 by omega, Bool.false_eq_true, if_false, Nat.add_zero]
          ring
    rw [h1, ih (fun f hf => h f (List.mem_cons_of_mem _ hf)), if_pos (h a (List.mem_cons_self ..))]
    simp

theorem shap_list_sum (fs : List Nat) (n : Nat) (h : ∀ f ∈ fs, f < n) (c D : α) :
    ((List.range n).map fun f => if f ∈ fs then 0 + c * ((fs.count f : Nat) : α) / D else 0).sum = c * fs.length / D := by
  have : (fun f => if f ∈ fs then 0 + c * ((fs.count f : Nat) : α) / D else 0) = fun f => c / D * ((fs.count f : Nat) : α) := by
    funext f
    split_ifs with hf
    · ring
    · rw [List.count_eq_zero_of_not_mem hf]; simp
  rw [this, List.sum_map_mul_left, sum_count fs n h]
  ring

theorem treeShap_spec (ofNat : Nat → α) (hof : ∀ n, ofNat n = (n : α)) (toInt : α → Int) (k : Nat) (t : LGB.Tree α) (hp : Plain k t) (x : List α)
    (hx : k ≤ x.length) (d : DTree α) (hd : Stores t 0 d) :
    ∃ s, treeShap ofNat toInt t x = .ok s ∧ s.length = x.length ∧
      s.sum = (d.eval toInt x - mean d) * (asked toInt x d).length / (asked toInt x d).dedup.length := by
  have hne : 0 < t.nodes.length := List.length_pos_of_ne_nil hp.1.1
  obtain ⟨ids, last, n, e1, e2, e3, e4⟩ := path_spec toInt k t hp x hx (fun v _ => by simp) 0 d hd (t.nodes.length + 1) le_rfl (by omega) (by omega)
  have hl := leafValues_spec k t hp 0 d hd (t.nodes.length + 1) le_rfl (by omega) (by omega)
  obtain ⟨d', hd', hf⟩ := wellFormed_stores k t (proper_wellFormed hp.1) 0
  cases stores_unique t 0 d d' hd hd'
  have hb : baseline ofNat t = .ok (mean d) := by
    rw [baseline, if_neg hp.1.1, hl]
    simp only [Outcome.map, Outcome.bind, if_neg (leaves_ne_nil d), hof]
    rw [sumOver_eq, List.map_id]
    rfl
  refine ⟨_, by
    rw [treeShap, if_neg hp.1.1, e1, Outcome.bind_ok, List.getLast?_concat]
    simp only
    rw [e2]
    simp only
    rw [hb]
    rfl, by simp, ?_⟩
  rw [List.dropLast_concat, e4, e3]
  simp only [hof]
  exact shap_list_sum _ _ (fun f hf' => lt_of_lt_of_le (asked_lt toInt x k d hf f hf') hx) _ _

theorem addTree_sum (lr : α) : ∀ acc s : List α, acc.length = s.length → (addTree lr acc s).sum = acc.sum + lr * s.sum ∧ (addTree lr acc s).length = s.length := by
  intro acc
  induction acc with
  | nil => intro s h; cases s with
    | nil => simp [addTree]
    | cons => simp at h
  | cons a acc ih =>
    intro s h
    cases s with
    | nil => simp at h
    | cons b s =>
      obtain ⟨h1, h2⟩ := ih s (by simpa using h)
      unfold addTree at h1 h2 ⊢
      rw [List.zipWith_cons_cons, List.sum_cons, h1, List.sum_cons, List.sum_cons, List.length_cons, h2, List.length_cons]
      exact ⟨by ring, rfl⟩

/-- the share of the deviation of a tree that its SHAP values sum up to: more than 1 if a feature is asked about twice -/
def weight (toInt : α → Int) (x : List α) (d : DTree α) : α := (asked toInt x d).length / (asked toInt x d).dedup.length

theorem overTrees_spec (ofNat : Nat → α) (hof : ∀ n, ofNat n = (n : α)) (toInt : α → Int) (k : Nat) (lr : α) (x : List α) (hx : k ≤ x.length)
    (ts : List (LGB.Tree α)) (ds : List (DTree α)) (hs : List.Forall₂ (fun t d => Plain k t ∧ Stores t 0 d) ts ds) : ∀ acc, acc.length = x.length →
    ∃ s, overTrees ofNat toInt lr x ts acc = .ok s ∧ s.length = x.length ∧
      s.sum = acc.sum + lr * (ds.map fun d => (d.eval toInt x - mean d) * weight toInt x d).sum := by
  induction hs with
  | nil => intro acc h; exact ⟨acc, rfl, h, by simp⟩
  | @cons t d ts ds h hs ih =>
    intro acc hacc
    obtain ⟨s, e1, e2, e3⟩ := treeShap_spec ofNat hof toInt k t h.1 x hx d h.2
    obtain ⟨a1, a2⟩ := addTree_sum lr acc s (by rw [hacc, e2])
    obtain ⟨s', f1, f2, f3⟩ := ih (addTree lr acc s) (by rw [a2, e2])
    refine ⟨s', ?_, f2, ?_⟩
    · rw [overTrees, if_neg h.1.1.1, e1, Outcome.bind_ok, f1]
    · rw [f3, a1, e3, List.map_cons, List.sum_cons, weight]
      ring

theorem raw_spec (toInt : α → Int) (k : Nat) (m : LGB.Model α) (x : List α) (hx : k ≤ x.length) (hc : m.numClass ≤ 2) :
    ∀ (ts : List (LGB.Tree α)) (ds : List (DTree α)), List.Forall₂ (fun t d => Plain k t ∧ Stores t 0 d) ts ds → ∀ (j : Nat) (v : α),
    m.accumulate (fun t => t.predict toInt x) (fun _ s v => s + v) (ts.zipIdx j) [v] = .ok [v + (ds.map fun d => d.eval toInt x).sum] := by
  intro ts ds h
  induction h with
  | nil => intro j v; simp [Model.accumulate]
  | @cons t d ts ds h hs ih =>
    intro j v
    obtain ⟨d', hd', hf⟩ := wellFormed_stores k t (proper_wellFormed h.1.1) 0
    cases stores_unique t 0 d d' h.2 hd'
    have hp := predict_returns toInt t x _ (stores_returns toInt t x 0 d h.2 (hf.mono hx))
    rw [List.zipIdx_cons, Model.accumulate]
    simp only [hp]
    have : m.slot j = 0 := by
      unfold Model.slot
      rw [if_neg (by omega)]
    rw [this]
    simp only [List.modify_zero_cons]
    rw [ih, List.map_cons, List.sum_cons, add_assoc]

/-- exact value of the explanation -/
theorem shap_sum (ofNat : Nat → α) (hof : ∀ n, ofNat n = (n : α)) (toInt : α → Int) (k : Nat) (m : LGB.Model α) (x : List α) (hx : k ≤ x.length)
    (hc : m.numClass ≤ 2) (hne : m.trees ≠ []) (ds : List (DTree α)) (hs : List.Forall₂ (fun t d => Plain k t ∧ Stores t 0 d) m.trees ds) :
    ∃ s, sampleShap ofNat toInt m x = .ok s ∧ s.length = x.length ∧
      m.raw toInt m.trees.length x = .ok [m.initScore + (ds.map fun d => d.eval toInt x).sum] ∧
      baseValue m + s.sum = m.initScore + m.learningRate * (ds.map fun d => (d.eval toInt x - mean d) * weight toInt x d).sum := by
  obtain ⟨s, e1, e2, e3⟩ := overTrees_spec ofNat hof toInt k m.learningRate x hx m.trees ds hs (List.replicate x.length 0) (by simp)
  refine ⟨s, e1, e2, ?_, ?_⟩
  · have := raw_spec toInt k m x hx hc m.trees ds hs 0 m.initScore
    unfold Model.raw Model.start
    rw [if_neg (by omega), List.take_length]
    exact this
  · rw [baseValue, if_neg hne, e3]
    simp

variable [IsStrictOrderedRing α]

/-- **C65** (exact arithmetic; a part): if no tree asks twice about one feature on the way of the sample, base value and SHAP values sum up to the initial score
plus, for every tree, the learning rate times the deviation of its output from the mean of its leaves. Missing: the sum equals the raw prediction; it does
not, because the means are dropped, the raw prediction has no learning rate, and features asked about twice count twice (`shap_not_additive`). -/
theorem shap_additive_partial (ofNat : Nat → α) (hof : ∀ n, ofNat n = (n : α)) (toInt : α → Int) (k : Nat) (m : LGB.Model α) (x : List α) (hx : k ≤ x.length)
    (hc : m.numClass ≤ 2) (hne : m.trees ≠ []) (ds : List (DTree α)) (hs : List.Forall₂ (fun t d => Plain k t ∧ Stores t 0 d) m.trees ds)
    (hnd : ∀ d ∈ ds, (asked toInt x d).Nodup) :
    ∃ s v, sampleShap ofNat toInt m x = .ok s ∧ m.raw toInt m.trees.length x = .ok [v] ∧
      v = m.initScore + (ds.map fun d => d.eval toInt x).sum ∧
      baseValue m + s.sum = m.initScore + m.learningRate * (ds.map fun d => d.eval toInt x - mean d).sum ∧
      (m.learningRate = 1 → baseValue m + s.sum = v - (ds.map mean).sum) := by
  obtain ⟨s, e1, e2, e3, e4⟩ := shap_sum ofNat hof toInt k m x hx hc hne ds hs
  have hw : ∀ d ∈ ds, (d.eval toInt x - mean d) * weight toInt x d = d.eval toInt x - mean d := by
    intro d hd
    unfold weight
    rw [(hnd d hd).dedup]
    by_cases h0 : (asked toInt x d).length = 0
    · have : d.eval toInt x - mean d = 0 := by
        cases d with
        | leaf v => simp [DTree.eval, mean, leaves, DTree.paths]
        | node s l r => rw [asked] at h0; simp at h0
      rw [this, zero_mul]
    · rw [div_self (Nat.cast_ne_zero.2 h0), mul_one]
  rw [List.map_congr_left hw] at e4
  refine ⟨s, _, e1, e3, rfl, e4, fun h1 => ?_⟩
  rw [e4, h1, one_mul]
  have : ∀ l : List (DTree α), (l.map fun d => d.eval toInt x - mean d).sum = (l.map fun d => d.eval toInt x).sum - (l.map mean).sum := by
    intro l
    induction l with
    | nil => simp
    | cons d l ih => simp only [List.map_cons, List.sum_cons, ih]; ring
  rw [this]
  ring

/-! ### Features that play no part -/

omit [IsStrictOrderedRing α] [BEq α] [LawfulBEq α] in
theorem treeShap_unused (ofNat : Nat → α) (toInt : α → Int) (t : LGB.Tree α) (x : List α) (f : Nat) (hu : ∀ n ∈ t.nodes, n.kind ≠ .leaf → n.feature ≠ f)
    (s : List α) (h : treeShap ofNat toInt t x = .ok s) : s.length = x.length ∧ s.getD f 0 = 0 := by
  have hr : ∀ n : Nat, (List.replicate n (0 : α)).getD f 0 = 0 := by
    intro n
    rw [List.getD_eq_getElem?_getD, List.getElem?_replicate]
    split_ifs <;> rfl
  rw [treeShap] at h
  split_ifs at h with h0
  · cases h; exact ⟨by simp, hr _⟩
  · cases hp : path toInt t x (t.nodes.length + 1) 0 with
    | err e => rw [hp] at h; cases h
    | panic e => rw [hp] at h; cases h
    | ok ids =>
      rw [hp, Outcome.bind_ok] at h
      cases hl : ids.getLast? with
      | none => rw [hl] at h; cases h; exact ⟨by simp, hr _⟩
      | some last =>
        rw [hl] at h
        simp only at h
        cases hn : t.nodeAt last with
        | none => rw [hn] at h; cases h; exact ⟨by simp, hr _⟩
        | some n =>
          rw [hn] at h
          simp only at h
          cases hb : baseline ofNat t with
          | err e => rw [hb] at h; cases h
          | panic e => rw [hb] at h; cases h
          | ok b =>
            rw [hb] at h
            cases h
            refine ⟨by simp, ?_⟩
            have hnot : f ∉ pathFeatures t x.length ids.dropLast := by
              intro hmem
              unfold pathFeatures at hmem
              obtain ⟨id, -, hid⟩ := List.mem_filterMap.1 hmem
              cases hn' : t.nodeAt id with
              | none => rw [hn'] at hid; cases hid
              | some n' =>
                rw [hn'] at hid
                simp only at hid
                split_ifs at hid with hc
                have := hu n' (List.mem_of_getElem? (nodeAt_some hn').2.1) hc.1
                injection hid with hid
                omega
            rw [List.getD_eq_getElem?_getD, List.getElem?_map]
            cases hx : (List.range x.length)[f]? with
            | none => rfl
            | some g =>
              have : g = f := by
                have := List.getElem?_eq_some_iff.1 hx
                obtain ⟨_, h'⟩ := this
                rw [List.getElem_range] at h'
                exact h'.symm
              subst this
              simp [hnot]

omit [IsStrictOrderedRing α] [BEq α] [LawfulBEq α] in
/-- **C134** (exact arithmetic): a feature no split of any tree asks about has SHAP value 0, for every model, well-formed or not, and every sample -/
theorem unused_feature_zero (ofNat : Nat → α) (toInt : α → Int) (m : LGB.Model α) (x : List α) (f : Nat) (hf : f < x.length)
    (hu : ∀ t ∈ m.trees, ∀ n ∈ t.nodes, n.kind ≠ .leaf → n.feature ≠ f) (s : List α) (h : sampleShap ofNat toInt m x = .ok s) :
    s.length = x.length ∧ s[f]? = some 0 := by
  have key : ∀ (ts : List (LGB.Tree α)), (∀ t ∈ ts, ∀ n ∈ t.nodes, n.kind ≠ .leaf → n.feature ≠ f) → ∀ acc : List α, acc.length = x.length → acc[f]? = some 0 →
      overTrees ofNat toInt m.learningRate x ts acc = .ok s → s.length = x.length ∧ s[f]? = some 0 := by
    intro ts
    induction ts with
    | nil => intro _ acc h1 h2 h3; cases h3; exact ⟨h1, h2⟩
    | cons t ts ih =>
      intro hu acc h1 h2 h3
      rw [overTrees] at h3
      split_ifs at h3 with h0
      · exact ih (fun t ht => hu t (List.mem_cons_of_mem _ ht)) acc h1 h2 h3
      · cases hs : treeShap ofNat toInt t x with
        | err e => rw [hs] at h3; cases h3
        | panic e => rw [hs] at h3; cases h3
        | ok s' =>
          rw [hs, Outcome.bind_ok] at h3
          obtain ⟨q1, q2⟩ := treeShap_unused ofNat toInt t x f (hu t (List.mem_cons_self ..)) s' hs
          refine ih (fun t ht => hu t (List.mem_cons_of_mem _ ht)) _ ?_ ?_ h3
          · unfold addTree; rw [List.length_zipWith, h1, q1, Nat.min_self]
          · unfold addTree
            have : s'[f]? = some 0 := by
              rw [List.getD_eq_getElem?_getD, List.getElem?_eq_getElem (by omega)] at q2
              rw [List.getElem?_eq_getElem (by omega)]
              exact congrArg some q2
            rw [List.getElem?_zipWith, h2, this]
            simp
  exact key m.trees hu (List.replicate x.length 0) (by simp) (by simp [List.getElem?_replicate, hf]) h

end field

/-! ### Concrete cases and failures -/

/-- a model of one tree -/
def exModel (t : LGB.Tree ℚ) (lr : ℚ) : LGB.Model ℚ := ⟨"regression", 1, 1, lr, [t], 3, 0, 10, false⟩

/-- the sum of the values, for the examples -/
def sumOf (o : Outcome (List ℚ)) : Option ℚ := match o with
  | .ok s => some s.sum
  | _ => none

theorem exTree_plain : Plain 2 exTree := by
  refine ⟨⟨by decide, fun i n hn => ?_⟩, ?_⟩
  · have : i = 0 ∨ i = 1 ∨ i = 2 ∨ i = 3 ∨ i = 4 ∨ 5 ≤ i := by omega
    rcases this with rfl | rfl | rfl | rfl | rfl | h
    · cases hn; exact .inr ⟨rfl, by decide, by decide, by decide, by decide, by decide, by decide⟩
    · cases hn; exact .inl ⟨by decide, rfl⟩
    · cases hn; exact .inr ⟨rfl, by decide, by decide, by decide, by decide, by decide, by decide⟩
    · cases hn; exact .inl ⟨by decide, rfl⟩
    · cases hn; exact .inl ⟨by decide, rfl⟩
    · rw [List.getElem?_eq_none (by simpa [exTree] using h)] at hn; cases hn
  · intro n hn
    simp only [exTree, List.mem_cons, List.not_mem_nil, or_false] at hn
    rcases hn with rfl | rfl | rfl | rfl | rfl <;> rfl

/-- the sample [1, 3, 4] falls into the leaf 7 of `exTree`, whose leaves have the mean 5; two features are asked about, the third plays no part -/
example : sampleShap (fun n => (n : ℚ)) Rat.floor (exModel exTree (1/2)) [1, 3, 4] = .ok [1/2, 1/2, 0] ∧
    baseValue (exModel exTree (1/2)) + 1 = 10 + 1/2 * (7 - 5) := by decide +kernel

example : ∃ ds, List.Forall₂ (fun t d => Plain 2 t ∧ Stores t 0 d) (exModel exTree 1).trees ds ∧ (∀ d ∈ ds, (asked Rat.floor [1, 3, 4] d).Nodup) := by
  obtain ⟨d, hd, hf⟩ := wellFormed_stores 2 exTree exTree_wf 0
  refine ⟨[d], .cons ⟨exTree_plain, hd⟩ .nil, ?_⟩
  intro d' hd'
  rw [List.mem_singleton.1 hd']
  have : d = .node ⟨0, .le (1/2), true⟩ (.leaf 3) (.node ⟨1, .le 2, true⟩ (.leaf 5) (.leaf 7)) :=
    stores_unique _ _ _ _ hd (.split 0 _ _ _ _ rfl rfl (.num _ 0 rfl rfl) (.leaf 1 (lf 3) rfl rfl)
      (.split 2 _ _ _ _ rfl rfl (.num _ 1 rfl rfl) (.leaf 3 (lf 5) rfl rfl) (.leaf 4 (lf 7) rfl rfl)))
  subst this
  decide +kernel

/-- a tree asking twice about feature 0 -/
def twice : LGB.Tree ℚ := { exTree with nodes := [sp 1 2 0 (1/2), lf 3, sp 3 4 0 2, lf 5, lf 7] }

example : (match interactions (fun n => (n : ℚ)) (1/10) Rat.floor (exModel exTree 1) [1, 3, 4] with
    | .ok M => (List.range 3).map fun i => (List.range 3).map (M i)
    | _ => []) = [[1, 1/2, 0], [1/2, 1, 0], [0, 0, 0]] := by decide +kernel

/-- **C65** is false: base value and SHAP values do not sum up to the raw prediction: the means of the trees' leaves are missing, a feature asked about twice
counts twice, the learning rate is applied although the prediction does not apply it, and without trees the base value is 0 instead of the initial score -/
theorem shap_not_additive :
    ((exModel exTree 1).raw Rat.floor 1 [1, 3, 4] = .ok [17] ∧ baseValue (exModel exTree 1) = 10 ∧
      sumOf (sampleShap (fun n => (n : ℚ)) Rat.floor (exModel exTree 1) [1, 3, 4]) = some 2) ∧
    ((exModel twice 1).raw Rat.floor 1 [3, 3, 4] = .ok [17] ∧
      sumOf (sampleShap (fun n => (n : ℚ)) Rat.floor (exModel twice 1) [3, 3, 4]) = some 4) ∧
    sumOf (sampleShap (fun n => (n : ℚ)) Rat.floor (exModel exTree (1/10)) [1, 3, 4]) = some (1/5) ∧
    (({ exModel exTree 1 with trees := [] } : LGB.Model ℚ).raw Rat.floor 0 [1] = .ok [10] ∧ baseValue ({ exModel exTree 1 with trees := [] } : LGB.Model ℚ) = 0) := by
  decide +kernel

end Scigo.Shap
