import Verif.Metrics.ClsLemmas
import Verif.Metrics.Spec
import Mathlib.Analysis.SpecialFunctions.Log.Basic

/-!
# Properties of log loss, accuracy and error rate (C13, C14 and part of C10)
-/

set_option linter.unusedSectionVars false

namespace Scigo.Metrics

variable {α K : Type _}

/-! ## C14 -/

section LawFree
variable [DecidableEq α] [Add α] [Sub α] [Div α] [Zero α] [One α] [NatCast α]

/-- **C14** (law-free: holds bit for bit in floating point without NaN). `ClassificationError`
is the number of positions where the vectors differ, divided by the length; it succeeds
exactly on non-nil, non-empty vectors of equal length. -/
theorem classificationError_eq (a b : List α) (ha : a ≠ []) (hl : a.length = b.length) :
    classificationError (some a) (some b)
      = .ok (((a.zip b).countP (fun x => decide (x.1 ≠ x.2)) : α) / ((a.length : Nat) : α)) := by
  unfold classificationError
  rw [clsGuard_some ha hl, wrongCount_eq, zero_add, List.length_zip, ← hl, Nat.min_self]

theorem classificationError_ok_iff (t p : Vec α) :
    (∃ v, classificationError t p = .ok v) ↔
      ∃ a b, t = some a ∧ p = some b ∧ a ≠ [] ∧ a.length = b.length := by
  unfold classificationError
  rw [clsGuard_ok_iff]
  simp

/-- **C10** (law-free). Error rate and accuracy do not depend on the order of the samples. -/
theorem error_rate_perm (a b a' b' : List α) (hl : a.length = b.length)
    (hl' : a'.length = b'.length) (hp : (a.zip b).Perm (a'.zip b')) :
    classificationError (some a) (some b) = classificationError (some a') (some b') ∧
    accuracy (some a) (some b) = accuracy (some a') (some b') := by
  have hlen : (a.zip b).length = (a'.zip b').length := hp.length_eq
  have haa : a.length = a'.length := by simpa [hl, hl'] using hlen
  have h1 : classificationError (some a) (some b) = classificationError (some a') (some b') := by
    by_cases ha : a = []
    · subst ha
      have ha' : a' = [] := by simpa using haa.symm
      subst ha'; rfl
    · have ha' : a' ≠ [] := by rintro rfl; exact ha (by simpa using haa)
      rw [classificationError_eq a b ha hl, classificationError_eq a' b' ha' hl', haa, hp.countP_eq]
  exact ⟨h1, by unfold accuracy; rw [h1]⟩

end LawFree

example : ([1, 2, 3] : List ℚ) ≠ [] ∧ ([1, 2, 3] : List ℚ).length = [1, 5, 3].length := by simp

section Exact
variable [Field K] [LinearOrder K] [IsStrictOrderedRing K]

/-- **C14**. `Accuracy` is the fraction of equal positions, `ClassificationError` is its
complement, both lie in `[0,1]`, and accuracy is `1` exactly on equal vectors. -/
theorem accuracy_spec (a b : List K) (ha : a ≠ []) (hl : a.length = b.length) :
    ∃ acc e, accuracy (some a) (some b) = .ok acc ∧
      classificationError (some a) (some b) = .ok e ∧
      acc + e = 1 ∧ 0 ≤ acc ∧ acc ≤ 1 ∧ 0 ≤ e ∧ e ≤ 1 ∧
      acc = ((a.zip b).countP (fun x => decide (x.1 = x.2)) : K) / (a.length : K) ∧
      (acc = 1 ↔ a = b) := by
  have hpos : (0 : K) < (a.length : K) := length_pos_cast ha
  have hz : (a.zip b).length = a.length := by rw [List.length_zip, ← hl, Nat.min_self]
  have hsum : (a.zip b).countP (fun x => decide (x.1 = x.2))
      + (a.zip b).countP (fun x => decide (x.1 ≠ x.2)) = a.length := by
    rw [← hz]
    have := List.length_eq_countP_add_countP (l := a.zip b) (fun x => decide (x.1 = x.2))
    rw [this]
    congr 2
    funext x
    simp
  have hsumK : ((a.zip b).countP (fun x => decide (x.1 = x.2)) : K)
      + ((a.zip b).countP (fun x => decide (x.1 ≠ x.2)) : K) = (a.length : K) := by
    exact_mod_cast hsum
  have hc0 : (0 : K) ≤ ((a.zip b).countP (fun x => decide (x.1 = x.2)) : K) := Nat.cast_nonneg _
  have hd0 : (0 : K) ≤ ((a.zip b).countP (fun x => decide (x.1 ≠ x.2)) : K) := Nat.cast_nonneg _
  have hacc : 1 - ((a.zip b).countP (fun x => decide (x.1 ≠ x.2)) : K) / (a.length : K)
      = ((a.zip b).countP (fun x => decide (x.1 = x.2)) : K) / (a.length : K) := by
    rw [← hsumK] at hpos ⊢
    field_simp
    ring
  refine ⟨_, _, by unfold accuracy; rw [classificationError_eq a b ha hl]; rfl,
    classificationError_eq a b ha hl, by ring, ?_, ?_, ?_, ?_, hacc, ?_⟩
  · rw [hacc]; positivity
  · rw [sub_le_self_iff]; positivity
  · positivity
  · rw [div_le_one hpos]; linarith
  · rw [sub_eq_self, div_eq_zero_iff, or_iff_left hpos.ne', Nat.cast_eq_zero, List.countP_eq_zero,
      ← forall_zip_eq hl]
    simp

example : ∃ acc e, accuracy (some [(1 : ℚ), 2, 3]) (some [1, 5, 3]) = .ok acc ∧
    classificationError (some [(1 : ℚ), 2, 3]) (some [1, 5, 3]) = .ok e ∧ acc + e = 1 :=
  ⟨2 / 3, 1 / 3, by decide +kernel, by decide +kernel, by norm_num⟩

end Exact

/-! ## C13 -/

/-- **C13**. `BinaryLogLoss` succeeds exactly on non-nil, non-empty vectors of equal length
with binary labels, and then returns the mean clipped cross-entropy, which lies in
`[0, -log 1e-15]`. -/
theorem logLoss_spec (a b : List ℝ) (ha : a ≠ []) (hl : a.length = b.length)
    (hb : ∀ y ∈ a, y = 0 ∨ y = 1) :
    ∃ v, binaryLogLoss Real.log llEps (-10 ^ 10) (some a) (some b) = .ok v ∧
      v = ((a.zip b).map (fun x => crossEntropy llEps x.1 x.2)).sum / a.length ∧
      0 ≤ v ∧ v ≤ -Real.log llEps := by
  have hz : (a.zip b).length = a.length := by rw [List.length_zip, ← hl, Nat.min_self]
  have hpos : (0 : ℝ) < (a.length : ℝ) := length_pos_cast ha
  refine ⟨_, ?_, rfl, ?_, ?_⟩
  · unfold binaryLogLoss
    rw [clsGuard_some ha hl, logLossLoop_eq _ _ llEps_pos llEps_le _
      (fun x hx => hb _ (List.of_mem_zip hx).1), Outcome.bind_ok, zero_add, hz]
  · exact div_nonneg (sum_map_nonneg _ _ (fun x _ => (crossEntropy_bounds _ _ _ llEps_pos llEps_le).1))
      hpos.le
  · rw [div_le_iff₀ hpos]
    have := sum_map_le (a.zip b) (fun x => crossEntropy llEps x.1 x.2) (fun _ => -Real.log llEps)
      (fun x _ => (crossEntropy_bounds _ _ _ llEps_pos llEps_le).2)
    refine this.trans (le_of_eq ?_)
    rw [List.map_const', List.sum_replicate, nsmul_eq_mul, hz, mul_comm]

example : ∃ v, binaryLogLoss Real.log llEps (-10 ^ 10) (some [1, 0]) (some [0.9, 0.2]) = .ok v ∧
    0 ≤ v ∧ v ≤ -Real.log llEps := by
  obtain ⟨v, h1, -, h2, h3⟩ := logLoss_spec [1, 0] [0.9, 0.2] (by simp) rfl (by simp)
  exact ⟨v, h1, h2, h3⟩

/-- **C13** (law-free). Exactly the invalid inputs are rejected, always by an error. -/
theorem logLoss_rejects [LinearOrder α] [Add α] [Sub α] [Div α] [Zero α] [One α] [NatCast α]
    (log : α → α) (eps big : α) (t p : Vec α) :
    ((t = none ∨ p = none) → binaryLogLoss log eps big t p = .err .value) ∧
    (∀ a b, t = some a → p = some b →
      (a = [] → binaryLogLoss log eps big t p = .err .value) ∧
      (a ≠ [] → a.length ≠ b.length →
        binaryLogLoss log eps big t p = .err (.dimension a.length b.length 0)) ∧
      (a.length = b.length → (∃ y ∈ a, y ≠ 0 ∧ y ≠ 1) →
        binaryLogLoss log eps big t p = .err .validation)) := by
  constructor
  · rintro (rfl | rfl)
    · rfl
    · cases t <;> rfl
  · rintro a b rfl rfl
    refine ⟨?_, ?_, ?_⟩
    · rintro rfl; rfl
    · intro ha hl
      have h0 : a.length ≠ 0 := by simpa using ha
      simp only [binaryLogLoss, clsGuard, if_neg h0]
      rw [if_pos hl]
    · rintro hl ⟨y, hy, h0, h1⟩
      have ha : a ≠ [] := List.ne_nil_of_mem hy
      rw [← List.map_fst_zip hl.le] at hy
      obtain ⟨x, hx, rfl⟩ := List.mem_map.1 hy
      unfold binaryLogLoss
      rw [clsGuard_some ha hl, logLossLoop_bad log eps big _ x hx h0 h1]
      rfl

/-- **C13**. Moving predictions towards their labels never increases the log loss. -/
theorem logLoss_mono (a b b' : List ℝ) (ha : a ≠ []) (hl : a.length = b.length)
    (hl' : a.length = b'.length) (hb : ∀ y ∈ a, y = 0 ∨ y = 1)
    (hm : ∀ (i : Nat) (y p p' : ℝ), a[i]? = some y → b[i]? = some p → b'[i]? = some p' →
      (y = 1 → p ≤ p') ∧ (y = 0 → p' ≤ p)) :
    ∃ v v', binaryLogLoss Real.log llEps (-10 ^ 10) (some a) (some b) = .ok v ∧
      binaryLogLoss Real.log llEps (-10 ^ 10) (some a) (some b') = .ok v' ∧ v' ≤ v := by
  obtain ⟨v, h1, e1, -⟩ := logLoss_spec a b ha hl hb
  obtain ⟨v', h1', e1', -⟩ := logLoss_spec a b' ha hl' hb
  refine ⟨v, v', h1, h1', ?_⟩
  rw [e1, e1']
  have hpos : (0 : ℝ) < (a.length : ℝ) := length_pos_cast ha
  apply div_le_div_of_nonneg_right _ hpos.le
  clear h1 h1' e1 e1' hpos ha v v'
  induction a generalizing b b' with
  | nil => simp
  | cons y a ih =>
    cases b with
    | nil => simp at hl
    | cons p b =>
      cases b' with
      | nil => simp at hl'
      | cons p' b' =>
        simp only [List.zip_cons_cons, List.map_cons, List.sum_cons]
        have := ih b b' (by simpa using hl) (by simpa using hl') (fun y hy => hb y (by simp [hy]))
          (fun i y p p' h1 h2 h3 => hm (i + 1) y p p' (by simpa using h1) (by simpa using h2)
            (by simpa using h3))
        have h0 := hm 0 y p p' rfl rfl rfl
        have hy := hb y (by simp)
        have hc := crossEntropy_mono llEps y p p' llEps_pos llEps_le (by
          rcases hy with hy | hy
          · exact Or.inr ⟨hy, h0.2 hy⟩
          · exact Or.inl ⟨hy, h0.1 hy⟩)
        linarith

example : ∃ v v', binaryLogLoss Real.log llEps (-10 ^ 10) (some [1, 0]) (some [0.6, 0.5]) = .ok v ∧
    binaryLogLoss Real.log llEps (-10 ^ 10) (some [1, 0]) (some [0.7, 0.2]) = .ok v' ∧ v' ≤ v := by
  refine logLoss_mono [1, 0] [0.6, 0.5] [0.7, 0.2] (by simp) rfl rfl (by simp) ?_
  intro i y p p' h1 h2 h3
  match i with
  | 0 =>
    simp only [List.getElem?_cons_zero, Option.some.injEq] at h1 h2 h3
    subst h1 h2 h3; norm_num
  | 1 =>
    simp only [List.getElem?_cons_zero, List.getElem?_cons_succ, Option.some.injEq] at h1 h2 h3
    subst h1 h2 h3; norm_num
  | i + 2 => simp at h1

/-- **C10**. `BinaryLogLoss` does not depend on the order of the samples. -/
theorem logLoss_perm (a b a' b' : List ℝ) (hl : a.length = b.length)
    (hl' : a'.length = b'.length) (hp : (a.zip b).Perm (a'.zip b')) :
    binaryLogLoss Real.log llEps (-10 ^ 10) (some a) (some b)
      = binaryLogLoss Real.log llEps (-10 ^ 10) (some a') (some b') := by
  have hlen : (a.zip b).length = (a'.zip b').length := hp.length_eq
  have haa : a.length = a'.length := by simpa [hl, hl'] using hlen
  by_cases ha : a = []
  · subst ha
    have ha' : a' = [] := by simpa using haa.symm
    subst ha'; rfl
  have ha' : a' ≠ [] := by rintro rfl; exact ha (by simpa using haa)
  unfold binaryLogLoss
  rw [clsGuard_some ha hl, clsGuard_some ha' hl', hlen]
  congr 1
  by_cases h : ∀ x ∈ a.zip b, x.1 = 0 ∨ x.1 = 1
  · rw [logLossLoop_eq _ _ llEps_pos llEps_le _ h, logLossLoop_eq _ _ llEps_pos llEps_le _
      (fun x hx => h x (hp.mem_iff.2 hx)), (hp.map _).sum_eq]
  · push Not at h
    obtain ⟨x, hx, h0, h1⟩ := h
    rw [logLossLoop_bad _ _ _ _ x hx h0 h1, logLossLoop_bad _ _ _ _ x (hp.mem_iff.1 hx) h0 h1]

end Scigo.Metrics
