import Verif.EFB.Benefit
import Verif.EFB.Props
import Mathlib.Algebra.Order.Field.Basic
import Mathlib.Tactic.Linarith

/-!
# C256: what `IsEFBBeneficial` tells about bundling
-/

set_option linter.unusedSectionVars false

namespace Scigo.EFB

/-! ## Lemmas -/

theorem foldl_count {β : Type} (p : β → Bool) (l : List β) (z : Nat) : l.foldl (fun z j => if p j then z + 1 else z) z = z + l.countP p := by
  induction l generalizing z with
  | nil => rfl
  | cons a l ih =>
    rw [List.foldl_cons, ih, List.countP_cons]
    split <;> omega

theorem foldl_add (f : Nat → Nat) (l : List Nat) (z : Nat) : l.foldl (fun z i => z + f i) z = z + (l.map f).sum := by
  induction l generalizing z with
  | nil => rfl
  | cons a l ih => rw [List.foldl_cons, ih, List.map_cons, List.sum_cons]; omega

/-- counting by rows and by columns -/
theorem count_swap (q : Nat → Nat → Bool) (r c : Nat) :
    ((List.range r).map fun i => (List.range c).countP (q i)).sum = ((List.range c).map fun j => (List.range r).countP fun i => q i j).sum := by
  induction r with
  | zero => simp
  | succ r ih =>
    rw [List.range_succ, List.map_append, List.sum_append, ih]
    simp only [List.map_cons, List.map_nil, List.sum_cons, List.sum_nil, add_zero, List.countP_append, List.countP_cons, List.countP_nil, zero_add]
    generalize List.range c = l
    induction l with
    | nil => rfl
    | cons a l ih2 =>
      simp only [List.map_cons, List.sum_cons, List.countP_cons]
      omega

section
variable {α : Type} [Field α] [LinearOrder α] [IsStrictOrderedRing α]

theorem zeroEntries_eq (L : Lits α) (X : Mat α) :
    zeroEntries L X = ((List.range X.c).map fun j => (List.range X.r).countP fun i => isZero L (X.at' i j)).sum := by
  unfold zeroEntries
  simp only [foldl_count]
  rw [foldl_add, zero_add]
  exact count_swap _ _ _

/-! ## Properties -/

/-- **C256** (exact arithmetic): `IsEFBBeneficial` holds exactly for matrices with at least ten columns in which the share of entries that are zero
(smaller than 1e-10 in size) is at least the sparsity ratio. -/
theorem beneficial_iff (L : Lits α) (hn : ∀ n, L.ofNat n = n) (o : Optimizer α) (X : Mat α) (hr : 0 < X.r) :
    beneficial L o X = true ↔ 10 ≤ X.c ∧
      o.sparsityRatio * (X.r * X.c) ≤ ((((List.range X.c).map fun j => (List.range X.r).countP fun i => decide (|X.at' i j| < L.tiny)).sum : Nat) : α) := by
  have habs : ∀ v : α, abs' v = |v| := by
    intro v
    unfold abs'
    split
    · rename_i h; rw [abs_of_neg h]
    · rename_i h; rw [abs_of_nonneg (not_lt.1 h)]
  unfold beneficial
  rw [zeroEntries_eq]
  unfold isZero
  simp only [habs, hn]
  by_cases hc : X.c < 10
  · rw [if_pos hc]
    constructor
    · intro h; cases h
    · intro h; omega
  · rw [if_neg hc, decide_eq_true_eq]
    have hpos : (0 : α) < X.r * X.c := by
      have h1 : (0 : α) < X.r := by exact_mod_cast hr
      have h2 : (0 : α) < X.c := by exact_mod_cast (by omega : 0 < X.c)
      exact mul_pos h1 h2
    push_cast
    rw [le_div_iff₀ hpos]
    constructor
    · intro h; exact ⟨by omega, h⟩
    · intro h; exact h.2

/-- **C256, what follows for the bundling**: if `IsEFBBeneficial` holds, at least one column is sparse enough to be bundled. Missing: that
`CreateBundles` finds a bundle (`beneficial_without_bundles`) and that it finds none otherwise (`bundles_without_benefit`). -/
theorem beneficial_sparse_column_partial (L : Lits α) (hn : ∀ n, L.ofNat n = n) (o : Optimizer α) (X : Mat α) (hr : 0 < X.r)
    (h : beneficial L o X = true) : ∃ j, j < X.c ∧ j ∈ sparseColumns L o X := by
  by_contra hno
  have hno : ∀ j < X.c, ¬ o.sparsityRatio ≤ sparsity L X j := by
    intro j hj hle
    exact hno ⟨j, hj, List.mem_filter.2 ⟨List.mem_range.2 hj, by simpa using hle⟩⟩
  unfold beneficial at h
  split at h
  · cases h
  rename_i hc
  rw [decide_eq_true_eq, zeroEntries_eq, hn, hn] at h
  have hr' : (0 : α) < X.r := by exact_mod_cast hr
  have key : ∀ n, n ≤ X.c → (0 < n → ((((List.range n).map fun j => (List.range X.r).countP fun i => isZero L (X.at' i j)).sum : Nat) : α) <
      o.sparsityRatio * (X.r * n)) ∧ ((((List.range n).map fun j => (List.range X.r).countP fun i => isZero L (X.at' i j)).sum : Nat) : α) ≤
      o.sparsityRatio * (X.r * n) := by
    intro n
    induction n with
    | zero => intro _; simp
    | succ n ih =>
      intro hn'
      obtain ⟨-, i2⟩ := ih (by omega)
      have hj := hno n (by omega)
      unfold sparsity at hj
      rw [hn, hn, not_le, div_lt_iff₀ hr'] at hj
      rw [List.range_succ, List.map_append, List.sum_append]
      simp only [List.map_cons, List.map_nil, List.sum_cons, List.sum_nil, add_zero]
      push_cast
      have e : o.sparsityRatio * (X.r * ((n : α) + 1)) = o.sparsityRatio * (X.r * n) + o.sparsityRatio * X.r := by ring
      rw [e]
      have : ((((List.range n).map fun j => (List.range X.r).countP fun i => isZero L (X.at' i j)).sum : Nat) : α) +
          (((List.range X.r).countP fun i => isZero L (X.at' i n) : Nat) : α) < o.sparsityRatio * (X.r * n) + o.sparsityRatio * X.r :=
        add_lt_add_of_le_of_lt i2 hj
      push_cast at this
      exact ⟨fun _ => this, this.le⟩
  have hk := (key X.c le_rfl).1 (by omega)
  have hpos : (0 : α) < X.r * X.c := mul_pos hr' (by exact_mod_cast (by omega : 0 < X.c))
  push_cast at h hk
  rw [le_div_iff₀ hpos] at h
  exact absurd h (not_le.2 hk)

/-- **C256**: the setters change the setting they name and nothing else. -/
theorem efb_setters (o : Optimizer α) (v : α) (n : Int) :
    o.withMaxConflictRate v = ⟨v, o.maxBundles, o.sparsityRatio⟩ ∧ o.withMaxBundles n = ⟨o.maxConflictRate, n, o.sparsityRatio⟩ ∧
    o.withSparsityRatio v = ⟨o.maxConflictRate, o.maxBundles, v⟩ := ⟨rfl, rfl, rfl⟩

end

/-! ### Concrete matrices -/

/-- literals over the rationals -/
def exBL : Lits Rat := ⟨1 / 10 ^ 10, 1000, fun n => n⟩

/-- ten rows and ten columns, with ones in the first row -/
def exFirstRow : Mat Rat := ⟨10, 10, fun i _ => if i = 0 then 1 else 0⟩

/-- ten rows and two columns, one 1 in each, in different rows -/
def exTwo : Mat Rat := ⟨10, 2, fun i j => if i = j then 1 else 0⟩

/-- **C256 is false of the code**: bundling is called beneficial, and nothing is bundled, because all columns are in conflict. -/
theorem beneficial_without_bundles :
    beneficial exBL (.new 0 (4 / 5)) exFirstRow = true ∧
    (match createBundles exBL (fun key => stableAsc key) (.new 0 (4 / 5)) exFirstRow with
      | .ok (b, _, _) => some b
      | _ => none) = some [] := by
  decide +kernel

/-- **C256 is false of the code**: bundling is called useless for fewer than ten columns, though all columns fit in one bundle. -/
theorem bundles_without_benefit :
    beneficial exBL (.new 0 (4 / 5)) exTwo = false ∧
    (match createBundles exBL (fun key => stableAsc key) (.new 0 (4 / 5)) exTwo with
      | .ok (b, _, _) => some b
      | _ => none) = some [[0, 1]] := by
  decide +kernel

example : 0 < exFirstRow.r ∧ (∀ n, exBL.ofNat n = n) ∧ 0 ∈ sparseColumns exBL (.new 0 (4 / 5)) exFirstRow :=
  ⟨by decide, fun _ => rfl, by decide +kernel⟩

end Scigo.EFB
