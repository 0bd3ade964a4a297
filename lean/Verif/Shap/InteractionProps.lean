import Verif.Shap.BatchProps
import Mathlib.Algebra.Order.BigOperators.Group.List

/-!
# C263: the values of SHAP interactions
-/

set_option linter.unusedSectionVars false

namespace Scigo.Shap

open Scigo.LGB

section
variable {α : Type} [LE α] [DecidableLE α] [LT α] [DecidableLT α] [Zero α] [Add α] [Sub α] [Neg α] [Mul α] [Div α]

/-- the value stored at a node: that of the leaf, or the internal value of a split; 0 outside the tree -/
def storedValue (t : LGB.Tree α) (id : Int) : α :=
  match t.nodeAt id with
  | none => 0
  | some n => if n.kind = .leaf then n.leafValue else n.internalValue

/-- specification: what the split at `id` adds for the features `f` and `g`: a tenth of the distance between the values at its children if
it asks about one of them -/
def share (tenth : α) (t : LGB.Tree α) (f g : Nat) (id : Int) : α :=
  match t.nodeAt id with
  | none => 0
  | some n => if n.kind ≠ .leaf ∧ (n.feature = f ∨ n.feature = g) then
      (if storedValue t n.left - storedValue t n.right < 0 then -(storedValue t n.left - storedValue t n.right)
        else storedValue t n.left - storedValue t n.right) * tenth else 0

end

section
variable {α : Type} [Field α] [LinearOrder α] [IsStrictOrderedRing α]

theorem contribution_path (tenth : α) (toInt : α → Int) (t : LGB.Tree α) (x : List α) (f g : Nat) (d : Nat) (id : Int) (c : α)
    (h : contribution tenth toInt t x f g d id = .ok c) :
    ∃ ids, path toInt t x (d + 1) id = .ok ids ∧ c = (ids.map (share tenth t f g)).sum := by
  induction d generalizing id c with
  | zero => cases h
  | succ d ih =>
    rw [contribution] at h
    rw [path]
    cases hn : t.nodeAt id with
    | none =>
      rw [hn] at h
      cases h
      exact ⟨[], rfl, by simp⟩
    | some n =>
      rw [hn] at h
      dsimp only at h ⊢
      by_cases hl : n.kind = .leaf
      · rw [if_pos hl] at h ⊢
        cases h
        refine ⟨[id], rfl, ?_⟩
        simp [share, hn, hl]
      · rw [if_neg hl] at h ⊢
        cases hf : featureAt x n.feature with
        | none => rw [hf] at h; cases h
        | some v =>
          rw [hf] at h
          dsimp only at h ⊢
          have own : share tenth t f g id = if n.feature = f ∨ n.feature = g then abs' (nodeValue t n.left - nodeValue t n.right) * tenth else 0 := by
            unfold share
            rw [hn]
            simp only [ne_eq, hl, not_false_eq_true, true_and]
            rfl
          cases hx : t.nodeAt (next toInt n v) with
          | none =>
            rw [hx] at h
            cases h
            refine ⟨[id], ?_, ?_⟩
            · rw [path, hx]; rfl
            · simp [own]
          | some n' =>
            rw [hx] at h
            obtain ⟨c', h', rfl⟩ := map_ok_inv h
            obtain ⟨ids, e1, e2⟩ := ih _ _ h'
            refine ⟨id :: ids, by rw [e1]; rfl, ?_⟩
            rw [List.map_cons, List.sum_cons, own, ← e2]

/-- specification: `j` is `id` or lies below it in the tree -/
inductive Below (t : LGB.Tree α) (id : Int) : Int → Prop
  | here : Below t id id
  | left (j : Int) (n : Node α) : Below t id j → t.nodeAt j = some n → n.kind ≠ .leaf → Below t id n.left
  | right (j : Int) (n : Node α) : Below t id j → t.nodeAt j = some n → n.kind ≠ .leaf → Below t id n.right

/-- specification: a split at or below `id` asks about `f` -/
def Asks (t : LGB.Tree α) (id : Int) (f : Nat) : Prop := ∃ j n, Below t id j ∧ t.nodeAt j = some n ∧ n.kind ≠ .leaf ∧ n.feature = f

theorem below_trans {t : LGB.Tree α} {a b c : Int} (h : Below t a b) (h' : Below t b c) : Below t a c := by
  induction h' with
  | here => exact h
  | left j n _ h1 h2 ih => exact .left j n ih h1 h2
  | right j n _ h1 h2 ih => exact .right j n ih h1 h2

theorem below_cases {t : LGB.Tree α} {id j : Int} {n : Node α} (hn : t.nodeAt id = some n) (h : Below t id j) :
    j = id ∨ Below t n.left j ∨ Below t n.right j := by
  induction h with
  | here => exact .inl rfl
  | left k m _ h1 h2 ih =>
    rcases ih with rfl | ih | ih
    · rw [hn] at h1; cases h1; exact .inr (.inl .here)
    · exact .inr (.inl (.left k m ih h1 h2))
    · exact .inr (.inr (.left k m ih h1 h2))
  | right k m _ h1 h2 ih =>
    rcases ih with rfl | ih | ih
    · rw [hn] at h1; cases h1; exact .inr (.inr .here)
    · exact .inr (.inl (.right k m ih h1 h2))
    · exact .inr (.inr (.right k m ih h1 h2))

theorem asks_split {t : LGB.Tree α} {id : Int} {n : Node α} (hn : t.nodeAt id = some n) (hl : n.kind ≠ .leaf) (f : Nat) :
    Asks t id f ↔ n.feature = f ∨ Asks t n.left f ∨ Asks t n.right f := by
  constructor
  · rintro ⟨j, m, hb, hm, hk, e⟩
    rcases below_cases hn hb with rfl | h | h
    · rw [hn] at hm; cases hm; exact .inl e
    · exact .inr (.inl ⟨j, m, h, hm, hk, e⟩)
    · exact .inr (.inr ⟨j, m, h, hm, hk, e⟩)
  · rintro (e | ⟨j, m, h, hm, hk, e⟩ | ⟨j, m, h, hm, hk, e⟩)
    · exact ⟨id, n, .here, hn, hl, e⟩
    · exact ⟨j, m, below_trans (.left id n .here hn hl) h, hm, hk, e⟩
    · exact ⟨j, m, below_trans (.right id n .here hn hl) h, hm, hk, e⟩

theorem asks_none {t : LGB.Tree α} {id : Int} (hn : ∀ n, t.nodeAt id = some n → n.kind = .leaf) (f : Nat) : ¬ Asks t id f := by
  rintro ⟨j, m, hb, hm, hk, -⟩
  have : j = id := by
    clear hm hk
    induction hb with
    | here => rfl
    | left k n _ h1 h2 ih => rw [ih] at h1; exact absurd (hn n h1) h2
    | right k n _ h1 h2 ih => rw [ih] at h1; exact absurd (hn n h1) h2
  subst this
  exact hk (hn m hm)

theorem subtreeUses_spec (t : LGB.Tree α) (f g d : Nat) (id : Int) (u : Bool × Bool) (h : subtreeUses t f g d id = .ok u) :
    (u.1 = true ↔ Asks t id f) ∧ (u.2 = true ↔ Asks t id g) := by
  induction d generalizing id u with
  | zero => cases h
  | succ d ih =>
    rw [subtreeUses] at h
    cases hn : t.nodeAt id with
    | none =>
      rw [hn] at h
      cases h
      have := asks_none (t := t) (id := id) (fun n e => by rw [hn] at e; cases e)
      simp [this]
    | some n =>
      rw [hn] at h
      dsimp only at h
      by_cases hl : n.kind = .leaf
      · rw [if_pos hl] at h
        cases h
        have := asks_none (t := t) (id := id) (fun n' e => by rw [hn] at e; cases e; exact hl)
        simp [this]
      · rw [if_neg hl] at h
        cases h1 : subtreeUses t f g d n.left with
        | err e => rw [h1] at h; cases h
        | panic e => rw [h1] at h; cases h
        | ok l =>
          rw [h1] at h
          obtain ⟨r, h2, rfl⟩ := map_ok_inv h
          obtain ⟨a1, a2⟩ := ih _ _ h1
          obtain ⟨b1, b2⟩ := ih _ _ h2
          rw [asks_split hn hl f, asks_split hn hl g]
          simp only [Bool.or_eq_true, beq_iff_eq, a1, a2, b1, b2, or_assoc, and_self]

open Classical in
/-- specification: what the tree `t` adds to the interaction of `f` and `g`, given the way `ids` of the sample: nothing unless the tree asks about both,
otherwise the shares of the splits on the way -/
noncomputable def treeTerm (tenth : α) (t : LGB.Tree α) (f g : Nat) (ids : List Int) : α :=
  if t.nodes ≠ [] ∧ Asks t 0 f ∧ Asks t 0 g then (ids.map (share tenth t f g)).sum else 0

theorem pairOver_value (tenth : α) (toInt : α → Int) (lr : α) (x : List α) (f g : Nat) (ts : List (LGB.Tree α)) (acc v : α)
    (h : pairOver tenth toInt lr x f g ts acc = .ok v) :
    ∃ ways : List (List Int), List.Forall₂ (fun t ids => t.nodes ≠ [] ∧ Asks t 0 f ∧ Asks t 0 g → path toInt t x (t.nodes.length + 2) 0 = .ok ids) ts ways ∧
      v = acc + lr * (List.zipWith (fun t ids => treeTerm tenth t f g ids) ts ways).sum := by
  induction ts generalizing acc with
  | nil =>
    cases h
    exact ⟨[], .nil, by simp⟩
  | cons t ts ih =>
    rw [pairOver] at h
    by_cases hz : t.nodes = []
    · rw [if_pos hz] at h
      obtain ⟨ws, e1, e2⟩ := ih _ h
      exact ⟨[] :: ws, .cons (fun c => absurd hz c.1) e1, by rw [e2]; simp [treeTerm, hz]⟩
    · rw [if_neg hz] at h
      cases hu : treeUses t f g with
      | err e => rw [hu] at h; cases h
      | panic e => rw [hu] at h; cases h
      | ok u =>
        rw [hu] at h
        obtain ⟨b, hb, hb'⟩ := map_ok_inv hu
        obtain ⟨a1, a2⟩ := subtreeUses_spec _ _ _ _ _ _ hb
        rw [Outcome.bind_ok] at h
        by_cases hu' : u = true
        · rw [if_pos hu'] at h
          rw [hu', Bool.and_eq_true, a1, a2] at hb'
          cases hc : contribution tenth toInt t x f g (t.nodes.length + 1) 0 with
          | err e => rw [hc] at h; cases h
          | panic e => rw [hc] at h; cases h
          | ok c =>
            rw [hc] at h
            obtain ⟨ids, p1, p2⟩ := contribution_path _ _ _ _ _ _ _ _ _ hc
            obtain ⟨ws, e1, e2⟩ := ih _ h
            refine ⟨ids :: ws, .cons (fun _ => p1) e1, ?_⟩
            rw [e2, List.zipWith_cons_cons, List.sum_cons, treeTerm, if_pos ⟨hz, hb'⟩, ← p2]
            ring
        · rw [if_neg hu'] at h
          have hn : ¬ (Asks t 0 f ∧ Asks t 0 g) := by
            rw [← a1, ← a2, ← Bool.and_eq_true, hb']
            exact hu'
          obtain ⟨ws, e1, e2⟩ := ih _ h
          exact ⟨[] :: ws, .cons (fun c => absurd c.2 hn) e1, by rw [e2]; simp [treeTerm, hn]⟩

/-- **C263** (exact arithmetic): the entry of two different features is the learning rate times the sum over the trees that ask about both: for each split on the
sample's way that asks about one of the two, a tenth of the distance between the values stored at its children. -/
theorem interaction_value (ofNat : Nat → α) (tenth : α) (toInt : α → Int) (m : LGB.Model α) (x : List α) (M : Nat → Nat → α)
    (h : interactions ofNat tenth toInt m x = .ok M) (f g : Nat) (hf : f < x.length) (hg : g < x.length) (hfg : f ≠ g) :
    ∃ ways : List (List Int),
      List.Forall₂ (fun t ids => t.nodes ≠ [] ∧ Asks t 0 f ∧ Asks t 0 g → path toInt t x (t.nodes.length + 2) 0 = .ok ids) m.trees ways ∧
      M f g = m.learningRate * (List.zipWith (fun t ids => treeTerm tenth t f g ids) m.trees ways).sum := by
  obtain ⟨s, -, hs⟩ := interactions_symmetric ofNat tenth toInt m x M h
  obtain ⟨ws, e1, e2⟩ := pairOver_value _ _ _ _ _ _ _ _ _ (((hs f hf).2 g hg).2 hfg).1
  exact ⟨ws, e1, by rw [e2, zero_add]⟩

theorem share_nonneg {tenth : α} (h : 0 ≤ tenth) (t : LGB.Tree α) (f g : Nat) (id : Int) : 0 ≤ share tenth t f g id := by
  unfold share
  split
  · exact le_refl _
  · split
    · refine mul_nonneg ?_ h
      split
      · exact neg_nonneg.2 (le_of_lt ‹_›)
      · exact not_lt.1 ‹_›
    · exact le_refl _

/-- **C263** (exact arithmetic): with a learning rate that is not negative no interaction is negative, so an interaction never shows that one feature weakens
the other -/
theorem interaction_nonneg (ofNat : Nat → α) (tenth : α) (toInt : α → Int) (m : LGB.Model α) (x : List α) (M : Nat → Nat → α)
    (h : interactions ofNat tenth toInt m x = .ok M) (h0 : 0 ≤ tenth) (hl : 0 ≤ m.learningRate) (f g : Nat) (hf : f < x.length) (hg : g < x.length)
    (hfg : f ≠ g) : 0 ≤ M f g := by
  obtain ⟨ws, -, e⟩ := interaction_value ofNat tenth toInt m x M h f g hf hg hfg
  rw [e]
  refine mul_nonneg hl (List.sum_nonneg fun v hv => ?_)
  rw [List.mem_iff_getElem] at hv
  obtain ⟨i, hi, rfl⟩ := hv
  rw [List.getElem_zipWith, treeTerm]
  split
  · refine List.sum_nonneg fun v hv => ?_
    obtain ⟨j, -, rfl⟩ := List.mem_map.1 hv
    exact share_nonneg h0 ..
  · exact le_refl _

/-- **C263** (exact arithmetic): features that no tree asks about together have the interaction 0 -/
theorem no_common_tree (ofNat : Nat → α) (tenth : α) (toInt : α → Int) (m : LGB.Model α) (x : List α) (M : Nat → Nat → α)
    (h : interactions ofNat tenth toInt m x = .ok M) (f g : Nat) (hf : f < x.length) (hg : g < x.length) (hfg : f ≠ g)
    (hn : ∀ t ∈ m.trees, ¬ (Asks t 0 f ∧ Asks t 0 g)) : M f g = 0 := by
  obtain ⟨ws, -, e⟩ := interaction_value ofNat tenth toInt m x M h f g hf hg hfg
  rw [e, List.sum_eq_zero, mul_zero]
  intro v hv
  rw [List.mem_iff_getElem] at hv
  obtain ⟨i, hi, rfl⟩ := hv
  rw [List.getElem_zipWith, treeTerm, if_neg]
  exact fun c => hn _ (List.getElem_mem _) c.2

end

/-! ### Concrete cases and the failure -/

/-- the entries of the matrix, for the examples -/
def entries (o : Outcome (Nat → Nat → ℚ)) (n : Nat) : List (List ℚ) :=
  match o with
  | .ok M => (List.range n).map fun i => (List.range n).map (M i)
  | _ => []

/-- a tree whose splits store internal values -/
def exValued : LGB.Tree ℚ := { exTree with nodes := [{ sp 1 2 0 (1/2) with internalValue := 5 }, lf 3, { sp 3 4 1 2 with internalValue := 6 }, lf 5, lf 7] }

/-- the first split has the children 3 and 6, the second 5 and 7: (3 + 2) / 10 -/
example : entries (interactions (fun n => (n : ℚ)) (1/10) Rat.floor (exModel exValued 1) [1, 3, 4]) 3 = [[1, 1/2, 0], [1/2, 1, 0], [0, 0, 0]] := by
  decide +kernel

example : Asks exValued 0 1 := by
  have h : Below exValued 0 2 := Below.right (t := exValued) 0 { sp 1 2 0 (1/2) with internalValue := 5 } .here rfl (by decide)
  exact ⟨2, { sp 3 4 1 2 with internalValue := 6 }, h, rfl, by decide, rfl⟩

/-- **C263 is false of the code**: the interactions of a feature with itself and the others do not sum up to its SHAP value: the diagonal already holds all of it -/
theorem interaction_rows_not_additive :
    ((entries (interactions (fun n => (n : ℚ)) (1/10) Rat.floor (exModel exValued 1) [1, 3, 4]) 3).map List.sum) = [3/2, 3/2, 0] ∧
    sampleShap (fun n => (n : ℚ)) Rat.floor (exModel exValued 1) [1, 3, 4] = .ok [1, 1, 0] := by
  decide +kernel

/-- **C263** (exact arithmetic; what remains of additivity): the entries of the row of a feature exceed its SHAP value by exactly the interactions with the others,
so the row sums up to the SHAP value if and only if these sum up to 0. Missing: that they do. -/
theorem interaction_rows_partial {α : Type} [Field α] [LinearOrder α] [IsStrictOrderedRing α] (ofNat : Nat → α) (tenth : α) (toInt : α → Int) (m : LGB.Model α)
    (x : List α) (M : Nat → Nat → α) (h : interactions ofNat tenth toInt m x = .ok M) (f : Nat) (hf : f < x.length) :
    ∃ s, sampleShap ofNat toInt m x = .ok s ∧
      ((List.range x.length).map (M f)).sum = s.getD f 0 + (((List.range x.length).erase f).map (M f)).sum := by
  obtain ⟨s, e, hs⟩ := interactions_symmetric ofNat tenth toInt m x M h
  refine ⟨s, e, ?_⟩
  rw [← (hs f hf).1, ← List.sum_map_erase (M f) (List.mem_range.2 hf)]

end Scigo.Shap
