import Verif.Metrics.RegLemmas
import Verif.Metrics.Spec

/-!
# Properties of the regression metrics (C08, C09, C17 and part of C10)

Kind: error behaviour is law-free (every carrier); values are exact arithmetic over an
arbitrary ordered field `K` (rounding is not modelled).
-/

namespace Scigo.Metrics

variable {α K : Type _}

/-! ## C08 -/

/-- **C08** (law-free). `MSE` succeeds exactly on two non-nil vectors of equal, non-zero
length. -/
theorem mse_ok_iff [Add α] [Sub α] [Mul α] [Div α] [Zero α] [NatCast α] (t p : Vec α) :
    (∃ v, mse t p = .ok v) ↔ ∃ a b, t = some a ∧ p = some b ∧ a ≠ [] ∧ a.length = b.length := by
  unfold mse
  rw [regGuard_ok_iff]
  simp

/-- **C08** (law-free). The same for `MAE` and `RMSE`. -/
theorem mae_rmse_ok_iff [Add α] [Sub α] [Mul α] [Div α] [Zero α] [NatCast α] (abs sqrt : α → α)
    (t p : Vec α) :
    ((∃ v, mae abs t p = .ok v) ↔
      ∃ a b, t = some a ∧ p = some b ∧ a ≠ [] ∧ a.length = b.length) ∧
    ((∃ v, rmse sqrt t p = .ok v) ↔
      ∃ a b, t = some a ∧ p = some b ∧ a ≠ [] ∧ a.length = b.length) := by
  constructor
  · unfold mae; rw [regGuard_ok_iff]; simp
  · rw [← mse_ok_iff]
    unfold rmse
    cases h : mse t p <;> simp

/-- **C08** (law-free). A length mismatch or an empty target is an error, never a panic, for
non-nil inputs; `yTrue` nil (or `yPred` nil with non-empty `yTrue`) panics. -/
theorem mse_rejects [Add α] [Sub α] [Mul α] [Div α] [Zero α] [NatCast α] (a b : List α) :
    (a = [] → mse (some a) (some b) = .err .value) ∧
    (a ≠ [] → a.length ≠ b.length →
      mse (some a) (some b) = .err (.dimension a.length b.length 0)) ∧
    mse none (some b) = .panic "nil pointer dereference" := by
  refine ⟨?_, ?_, rfl⟩
  · rintro rfl; rfl
  · intro ha hl
    have h0 : a.length ≠ 0 := by simpa using ha
    simp only [mse, regGuard, if_neg h0]
    rw [if_pos (Ne.symm hl)]

section
variable [Field K] [LinearOrder K] [IsStrictOrderedRing K]

/-- **C08**. `MSE` is non-negative, symmetric and zero exactly on equal vectors. -/
theorem mse_is_error (a b : List K) (ha : a ≠ []) (hl : a.length = b.length) :
    ∃ v, mse (some a) (some b) = .ok v ∧ mse (some b) (some a) = .ok v ∧ 0 ≤ v ∧
      (v = 0 ↔ a = b) := by
  have hb : b ≠ [] := by rintro rfl; simp at hl; exact ha hl
  have hz := zip_ne_nil ha hl
  have hn := length_pos_cast (K := K) hz
  refine ⟨_, by unfold mse; rw [regGuard_some ha hl], ?_, ?_, ?_⟩
  · unfold mse
    rw [regGuard_some hb hl.symm, ← List.zip_swap a b]
    simp only [sumOver_eq, List.map_map, List.length_map]
    congr 4
    funext x; simp only [Function.comp, Prod.fst_swap, Prod.snd_swap]; ring
  · rw [sumOver_eq]
    exact div_nonneg (sum_map_nonneg _ _ (fun x _ => mul_self_nonneg _)) hn.le
  · rw [sumOver_eq, div_eq_zero_iff, sum_map_eq_zero_iff _ _ (fun x _ => mul_self_nonneg _)]
    simp only [hn.ne', or_false, mul_self_eq_zero, sub_eq_zero]
    exact forall_zip_eq hl

/-- **C08**. The same for `MAE`. -/
theorem mae_is_error (a b : List K) (ha : a ≠ []) (hl : a.length = b.length) :
    ∃ v, mae abs (some a) (some b) = .ok v ∧ mae abs (some b) (some a) = .ok v ∧ 0 ≤ v ∧
      (v = 0 ↔ a = b) := by
  have hb : b ≠ [] := by rintro rfl; simp at hl; exact ha hl
  have hz := zip_ne_nil ha hl
  have hn := length_pos_cast (K := K) hz
  refine ⟨_, by unfold mae; rw [regGuard_some ha hl], ?_, ?_, ?_⟩
  · unfold mae
    rw [regGuard_some hb hl.symm, ← List.zip_swap a b]
    simp only [sumOver_eq, List.map_map, List.length_map]
    congr 4
    funext x; simp only [Function.comp, Prod.fst_swap, Prod.snd_swap]; exact abs_sub_comm _ _
  · rw [sumOver_eq]
    exact div_nonneg (sum_map_nonneg _ _ (fun x _ => abs_nonneg _)) hn.le
  · rw [sumOver_eq, div_eq_zero_iff, sum_map_eq_zero_iff _ _ (fun x _ => abs_nonneg _)]
    simp only [hn.ne', or_false, abs_eq_zero, sub_eq_zero]
    exact forall_zip_eq hl

/-- **C08**. `MSEMatrix` on `n × 1` matrices is `MSE` of the columns; other shapes are
rejected. -/
theorem mseMatrix_spec (t p : Mat K) :
    (t.r ≠ 0 → t.c = 1 → p.r = t.r → p.c = 1 →
      mseMatrix t p = mse (some (t.col 0)) (some (p.col 0))) ∧
    ((∃ v, mseMatrix t p = .ok v) ↔ t.r ≠ 0 ∧ t.c = 1 ∧ p.r = t.r ∧ p.c = 1) := by
  have h1 : t.r ≠ 0 → t.c = 1 → p.r = t.r → p.c = 1 →
      mseMatrix t p = mse (some (t.col 0)) (some (p.col 0)) := by
    intro h1 h2 h3 h4
    simp [mseMatrix, h1, h2, h3, h4]
  refine ⟨h1, ⟨?_, ?_⟩⟩
  · rintro ⟨v, h⟩
    unfold mseMatrix at h
    split at h
    · simp at h
    · next h0 =>
      split at h
      · simp at h
      · next h1 =>
        split at h
        · simp at h
        · next h2 => push Not at h0 h1 h2; exact ⟨h0.1, h2, h1.1.symm, by rw [← h1.2, h2]⟩
  · rintro ⟨h1', h2, h3, h4⟩
    rw [h1 h1' h2 h3 h4, mse_ok_iff]
    refine ⟨_, _, rfl, rfl, ?_, by simp [h3]⟩
    intro h0
    have := congrArg List.length h0
    simp at this; exact h1' this

end

/-- **C08** over the reals: `RMSE` is the square root of `MSE` and is at least `MAE`. -/
theorem rmse_ge_mae (a b : List ℝ) (ha : a ≠ []) (hl : a.length = b.length) :
    ∃ m r e, mse (some a) (some b) = .ok m ∧ rmse Real.sqrt (some a) (some b) = .ok r ∧
      mae abs (some a) (some b) = .ok e ∧ r ^ 2 = m ∧ 0 ≤ r ∧ e ≤ r ∧ (r = 0 ↔ a = b) := by
  obtain ⟨m, hm, _, hm0, hmz⟩ := mse_is_error a b ha hl
  obtain ⟨e, he, _, he0, _⟩ := mae_is_error a b ha hl
  refine ⟨m, Real.sqrt m, e, hm, by simp [rmse, hm], he, Real.sq_sqrt hm0, Real.sqrt_nonneg m, ?_, ?_⟩
  · apply Real.le_sqrt_of_sq_le
    have hz := zip_ne_nil ha hl
    have hn := length_pos_cast (K := ℝ) hz
    unfold mse at hm; rw [regGuard_some ha hl, sumOver_eq] at hm
    unfold mae at he; rw [regGuard_some ha hl, sumOver_eq] at he
    simp only [Outcome.ok.injEq] at hm he
    rw [← hm, ← he]
    have hc := cauchy (a.zip b) (fun x : ℝ × ℝ => |x.1 - x.2|)
    simp only [abs_mul_abs_self] at hc
    rw [div_pow, div_le_div_iff₀ (by positivity) hn, pow_two, pow_two]
    nlinarith
  · rw [Real.sqrt_eq_zero hm0, hmz]

example : mse (some [1, 2, 3]) (some [1, 4, 3]) = .ok (4 / 3 : ℚ) := by decide +kernel
example : mae abs (some [1, 2, 3]) (some [1, 4, 2]) = .ok (1 : ℚ) := by decide +kernel

/-! ## C09 -/

section
variable [Field K] [LinearOrder K] [IsStrictOrderedRing K]

/-- **C09**. `R2Score` returns `1 - RSS/TSS` when the true values are not all identical and an
error when they are (non-nil vectors of equal non-zero length). -/
theorem r2_spec (a b : List K) (ha : a ≠ []) (hl : a.length = b.length) :
    ((∃ x ∈ a, ∃ y ∈ a, x ≠ y) →
      0 < totalSS a ∧ r2Score (some a) (some b) = .ok (1 - residualSS a b / totalSS a)) ∧
    ((∀ x ∈ a, ∀ y ∈ a, x = y) → ∃ e, r2Score (some a) (some b) = .err e) := by
  have hz := zip_ne_nil ha hl
  have e1 : sumOver (a.zip b) (fun x => x.1) / ((a.zip b).length : K) = mean a := by
    rw [sumOver_eq, mean]
    congr 1
    · rw [← map_fst_zip' hl]; simp [List.map_fst_zip, hl]
    · simp [hl]
  have e2 : sumOver (a.zip b) (fun x => (x.1 - mean a) * (x.1 - mean a)) = totalSS a := by
    rw [sumOver_eq, totalSS]
    conv_rhs => rw [← map_fst_zip' hl]
    rw [List.map_map]
    congr 1
    apply List.map_congr_left
    intro x _
    simp only [Function.comp, map_fst_zip' hl]; ring
  have e3 : sumOver (a.zip b) (fun x => (x.1 - x.2) * (x.1 - x.2)) = residualSS a b := by
    rw [sumOver_eq, residualSS]
    congr 1; apply List.map_congr_left; intro x _; ring
  have ht0 : 0 ≤ totalSS a := sum_map_nonneg _ _ (fun x _ => sq_nonneg _)
  have htz : totalSS a = 0 ↔ ∀ x ∈ a, x = mean a := by
    unfold totalSS
    rw [sum_map_eq_zero_iff _ _ (fun x _ => sq_nonneg _)]
    simp only [pow_eq_zero_iff, ne_eq, OfNat.ofNat_ne_zero, not_false_eq_true, sub_eq_zero]
  unfold r2Score
  rw [regGuard_some ha hl]
  simp only [e1, e2, e3, beq_iff_eq]
  constructor
  · rintro ⟨x, hx, y, hy, hxy⟩
    have hne : totalSS a ≠ 0 := by
      intro h; rw [htz] at h; exact hxy ((h x hx).trans (h y hy).symm)
    exact ⟨lt_of_le_of_ne ht0 (Ne.symm hne), by rw [if_neg hne]⟩
  · intro h
    have : totalSS a = 0 := by
      rw [htz]
      intro x hx
      have hall : ∀ y ∈ a, y = x := fun y hy => h y hy x hx
      have hrep : a = List.replicate a.length x := List.eq_replicate_iff.2 ⟨rfl, hall⟩
      unfold mean
      have hn := length_pos_cast (K := K) ha
      rw [eq_div_iff hn.ne']
      conv_rhs => rw [hrep]
      rw [List.sum_replicate, nsmul_eq_mul, mul_comm]
    rw [if_pos this]; exact ⟨_, rfl⟩

/-- **C09**. When `R2Score` succeeds it is at most 1, and equals 1 exactly for a perfect
prediction. -/
theorem r2_le_one (a b : List K) (ha : a ≠ []) (hl : a.length = b.length) (v : K)
    (h : r2Score (some a) (some b) = .ok v) : v ≤ 1 ∧ (v = 1 ↔ a = b) := by
  by_cases hd : ∃ x ∈ a, ∃ y ∈ a, x ≠ y
  · obtain ⟨ht, hv⟩ := (r2_spec a b ha hl).1 hd
    rw [hv] at h
    simp only [Outcome.ok.injEq] at h
    have hr : 0 ≤ residualSS a b := sum_map_nonneg _ _ (fun x _ => sq_nonneg _)
    have hrz : residualSS a b = 0 ↔ a = b := by
      unfold residualSS
      rw [sum_map_eq_zero_iff _ _ (fun x _ => sq_nonneg _)]
      simp only [pow_eq_zero_iff, ne_eq, OfNat.ofNat_ne_zero, not_false_eq_true, sub_eq_zero]
      exact forall_zip_eq hl
    subst h
    refine ⟨by have := div_nonneg hr ht.le; linarith, ?_⟩
    rw [← hrz]
    constructor
    · intro h
      have : residualSS a b / totalSS a = 0 := by linarith
      rcases div_eq_zero_iff.1 this with h | h
      · exact h
      · exact absurd h ht.ne'
    · intro h; rw [h]; simp
  · push Not at hd
    obtain ⟨e, he⟩ := (r2_spec a b ha hl).2 hd
    rw [he] at h; cases h

/-- **C09**. The constant mean predictor scores exactly 0. -/
theorem r2_mean_predictor (a : List K) (hd : ∃ x ∈ a, ∃ y ∈ a, x ≠ y) :
    r2Score (some a) (some (List.replicate a.length (mean a))) = .ok 0 := by
  have ha : a ≠ [] := by rintro rfl; simp at hd
  have hl : a.length = (List.replicate a.length (mean a)).length := by simp
  obtain ⟨ht, hv⟩ := (r2_spec a _ ha hl).1 hd
  rw [hv]
  have : residualSS a (List.replicate a.length (mean a)) = totalSS a := by
    unfold residualSS totalSS
    generalize mean a = m
    clear * -
    induction a with
    | nil => rfl
    | cons x xs ih => simp only [List.length_cons, List.replicate_succ, List.zip_cons_cons, List.map_cons, List.sum_cons, ih]
  rw [this, div_self ht.ne', sub_self]

/-- **C09**. `R2Score ≤ ExplainedVarianceScore`, with equality exactly when the residuals sum
to zero; both succeed on the same inputs. -/
theorem r2_le_explained_variance (a b : List K) (hl : a.length = b.length)
    (hd : ∃ x ∈ a, ∃ y ∈ a, x ≠ y) :
    ∃ r e, r2Score (some a) (some b) = .ok r ∧ explainedVariance (some a) (some b) = .ok e ∧
      r ≤ e ∧ e ≤ 1 ∧ (r = e ↔ a.sum = b.sum) := by
  have ha : a ≠ [] := by rintro rfl; simp at hd
  have hz := zip_ne_nil ha hl
  have hzl : (a.zip b).length = a.length := by simp [hl]
  have hn := length_pos_cast (K := K) ha
  obtain ⟨ht, hv⟩ := (r2_spec a b ha hl).1 hd
  have e1 : ((a.zip b).map (fun x => x.1)).sum = a.sum := by
    rw [show ((a.zip b).map (fun x => x.1)) = a from map_fst_zip' hl]
  have e2 : ((a.zip b).map (fun x => (x.1 - mean a) * (x.1 - mean a))).sum = totalSS a := by
    rw [totalSS]
    conv_rhs => rw [← map_fst_zip' hl]
    rw [List.map_map]
    congr 1
    apply List.map_congr_left
    intro x _
    simp only [Function.comp, map_fst_zip' hl]; ring
  have e3 : ((a.zip b).map (fun x => (x.1 - x.2) * (x.1 - x.2))).sum = residualSS a b := by
    rw [residualSS]
    congr 1; apply List.map_congr_left; intro x _; ring
  have e4 : ((a.zip b).map (fun x => x.1 - x.2)).sum = a.sum - b.sum := by
    have h : ∀ z : List (K × K), (z.map (fun x => x.1 - x.2)).sum
        = (z.map Prod.fst).sum - (z.map Prod.snd).sum := by
      intro z
      induction z with
      | nil => simp
      | cons x xs ih => simp only [List.map_cons, List.sum_cons, ih]; ring
    rw [h, map_fst_zip' hl, map_snd_zip' hl]
  have hdev := sum_sq_dev_mean (a.zip b) hz (fun x : K × K => x.1 - x.2)
  rw [e4, e3, hzl] at hdev
  set D := a.sum - b.sum with hD
  have hev : explainedVariance (some a) (some b)
      = .ok (1 - ((residualSS a b - D * D / a.length) / a.length) / (totalSS a / a.length)) := by
    unfold explainedVariance
    rw [regGuard_some ha hl]
    simp only [sumOver_eq, e1, e4, hzl, beq_iff_eq]
    rw [show a.sum / (a.length : K) = mean a from rfl, e2, hdev,
      if_neg (div_pos ht hn).ne']
  refine ⟨_, _, hv, hev, ?_, ?_, ?_⟩
  · rw [div_div_div_cancel_right₀ hn.ne']
    have : (residualSS a b - D * D / a.length) / totalSS a ≤ residualSS a b / totalSS a := by
      apply div_le_div_of_nonneg_right _ ht.le
      have := div_nonneg (mul_self_nonneg D) hn.le
      linarith
    linarith
  · have h0 : 0 ≤ residualSS a b - D * D / a.length := by
      rw [← hdev]; exact sum_map_nonneg _ _ (fun x _ => mul_self_nonneg _)
    have := div_nonneg (div_nonneg h0 hn.le) (div_nonneg ht.le hn.le)
    linarith
  · rw [div_div_div_cancel_right₀ hn.ne', ← sub_eq_zero (a := a.sum), ← hD]
    constructor
    · intro h
      have h1 : residualSS a b / totalSS a
          = (residualSS a b - D * D / a.length) / totalSS a := by linarith
      rw [div_left_inj' ht.ne'] at h1
      have h2 : D * D / a.length = 0 := by linarith
      rcases div_eq_zero_iff.1 h2 with h | h
      · exact mul_self_eq_zero.1 h
      · exact absurd h hn.ne'
    · intro h; rw [h]; simp

/-- **C09**. `ExplainedVarianceScore` ignores a constant offset in the predictions. -/
theorem explained_variance_shift (a b : List K) (c : K) :
    explainedVariance (some a) (some (b.map (· + c))) = explainedVariance (some a) (some b) := by
  by_cases ha : a = []
  · subst ha; rfl
  by_cases hl : a.length = b.length
  · have hl' : a.length = (b.map (· + c)).length := by simpa using hl
    unfold explainedVariance
    rw [regGuard_some ha hl, regGuard_some ha hl']
    have hzip : a.zip (b.map (· + c)) = (a.zip b).map (fun x => (x.1, x.2 + c)) := by
      rw [List.zip_map_right]; rfl
    have hz := zip_ne_nil ha hl
    have hn := length_pos_cast (K := K) hz
    simp only [hzip, sumOver_eq, List.map_map, List.length_map, Function.comp_def]
    have hs : ((a.zip b).map (fun x => x.1 - (x.2 + c))).sum
        = ((a.zip b).map (fun x => x.1 - x.2)).sum - (a.zip b).length * c := by
      clear * -
      generalize a.zip b = z
      induction z with
      | nil => simp
      | cons x xs ih => simp only [List.map_cons, List.sum_cons, ih, List.length_cons]; push_cast; ring
    have hd : ∀ x : K × K, x.1 - (x.2 + c) - ((a.zip b).map (fun x => x.1 - (x.2 + c))).sum
          / ((a.zip b).length : K)
        = x.1 - x.2 - ((a.zip b).map (fun x => x.1 - x.2)).sum / ((a.zip b).length : K) := by
      intro x; rw [hs]; field_simp; ring
    simp only [hd]
  · have h0 : a.length ≠ 0 := by simpa using ha
    simp only [explainedVariance, regGuard, if_neg h0, List.length_map]
    rw [if_pos (Ne.symm hl), if_pos (Ne.symm hl)]

end

example : r2Score (some [1, 2, 3]) (some [1, 2, 5]) = .ok (-1 : ℚ) := by decide +kernel
example : explainedVariance (some [1, 2, 3]) (some [1, 2, 5]) = .ok (-1 / 3 : ℚ) := by decide +kernel
example : r2Score (some [1, 2, 3]) (some [2, 2, 2]) = .ok (0 : ℚ) := by decide +kernel
example : ∃ x ∈ ([1, 2, 3] : List ℚ), ∃ y ∈ ([1, 2, 3] : List ℚ), x ≠ y :=
  ⟨1, by simp, 2, by simp, by norm_num⟩

/-! ## C17 -/

section
variable [Field K] [LinearOrder K] [IsStrictOrderedRing K]

/-- **C17**. `MAPE` is 100 times the mean of `|t-p|/|t|` over the pairs with non-zero target;
an error if there are none. -/
theorem mape_spec (a b : List K) (ha : a ≠ []) (hl : a.length = b.length) :
    ((∀ x ∈ a, x = 0) → ∃ e, mape abs 100 (some a) (some b) = .err e) ∧
    ((∃ x ∈ a, x ≠ 0) →
      mape abs 100 (some a) (some b) = .ok
        (mean (((a.zip b).filter (fun x => decide (x.1 ≠ 0))).map
          (fun x => |x.1 - x.2| / |x.1|)) * 100)) := by
  have hlen := mapeLoop_eq (a.zip b)
  have hmem : ∀ x ∈ a, ∃ y ∈ a.zip b, y.1 = x := by
    intro x hx
    have : x ∈ (a.zip b).map Prod.fst := by rw [map_fst_zip' hl]; exact hx
    obtain ⟨y, hy, h⟩ := List.mem_map.1 this
    exact ⟨y, hy, h⟩
  unfold mape
  rw [regGuard_some ha hl]
  simp only [hlen]
  constructor
  · intro h
    have : (a.zip b).filter (fun x => decide (x.1 ≠ 0)) = [] := by
      rw [List.filter_eq_nil_iff]
      intro x hx
      have := h x.1 (List.of_mem_zip hx).1
      simp [this]
    rw [this]; exact ⟨_, rfl⟩
  · rintro ⟨x, hx, hx0⟩
    obtain ⟨y, hy, rfl⟩ := hmem x hx
    have : ((a.zip b).filter (fun x => decide (x.1 ≠ 0))).length ≠ 0 := by
      rw [Ne, List.length_eq_zero_iff]
      exact List.ne_nil_of_mem (List.mem_filter.2 ⟨hy, by simpa using hx0⟩)
    rw [if_neg this]
    simp [mean]

/-- **C17**. A successful `MAPE` is non-negative, and it is unchanged when truth and
prediction are both multiplied by the same non-zero factor. -/
theorem mape_nonneg_scale (a b : List K) (c : K) (hc : c ≠ 0) :
    (∀ v, mape abs 100 (some a) (some b) = .ok v → 0 ≤ v) ∧
    mape abs 100 (some (a.map (c * ·))) (some (b.map (c * ·)))
      = mape abs 100 (some a) (some b) := by
  constructor
  · intro v hv
    obtain ⟨a', b', h1, h2, ha, hl, _⟩ := (regGuard_ok_iff _ _ _).1 ⟨v, hv⟩
    cases h1; cases h2
    by_cases h : ∃ x ∈ a, x ≠ 0
    · rw [(mape_spec a b ha hl).2 h] at hv
      simp only [Outcome.ok.injEq] at hv
      rw [← hv]
      apply mul_nonneg _ (by norm_num)
      unfold mean
      apply div_nonneg
      · apply sum_map_nonneg; intro x _; exact div_nonneg (abs_nonneg _) (abs_nonneg _)
      · positivity
    · push Not at h
      obtain ⟨e, he⟩ := (mape_spec a b ha hl).1 h
      rw [he] at hv; cases hv
  · by_cases ha : a = []
    · subst ha; rfl
    by_cases hl : a.length = b.length
    · unfold mape
      rw [regGuard_some ha hl, regGuard_some (by simpa using ha) (by simpa using hl)]
      have hzip : (a.map (c * ·)).zip (b.map (c * ·))
          = (a.zip b).map (fun x => (c * x.1, c * x.2)) := by
        rw [List.zip_map]; rfl
      simp only [hzip]
      have : mapeLoop abs ((a.zip b).map (fun x => (c * x.1, c * x.2)))
          = mapeLoop abs (a.zip b) := by
        unfold mapeLoop
        rw [List.foldl_map]
        apply List.foldl_ext
        intro s x _
        by_cases hx : x.1 = 0
        · simp [hx]
        · have e : |c * x.1 - c * x.2| / |c * x.1| = |x.1 - x.2| / |x.1| := by
            rw [← mul_sub, abs_mul, abs_mul, mul_div_mul_left _ _ (abs_ne_zero.2 hc)]
          have h1 : (c * x.1 != 0) = true := by simp [hx, hc]
          have h2 : (x.1 != 0) = true := by simp [hx]
          simp only [h1, h2, if_true, e]
      rw [this]
    · have h0 : a.length ≠ 0 := by simpa using ha
      simp only [mape, regGuard, if_neg h0, List.length_map]
      rw [if_pos (Ne.symm hl), if_pos (Ne.symm hl)]

end

example : mape abs 100 (some [0, 2, 4]) (some [5, 1, 6]) = .ok (50 : ℚ) := by decide +kernel

/-! ## C10, regression part -/

section
variable [Field K] [LinearOrder K] [IsStrictOrderedRing K]

/-- **C10**, regression metrics. Reordering truth and prediction by the same permutation
(the multiset of (truth, prediction) pairs is unchanged) changes neither value nor
error of `MSE`, `MAE`, `R2Score`, `MAPE`, `ExplainedVarianceScore`. -/
theorem regression_metrics_perm (a b a' b' : List K) (hl : a.length = b.length)
    (hl' : a'.length = b'.length) (hp : (a.zip b).Perm (a'.zip b')) :
    mse (some a) (some b) = mse (some a') (some b') ∧
    mae abs (some a) (some b) = mae abs (some a') (some b') ∧
    r2Score (some a) (some b) = r2Score (some a') (some b') ∧
    mape abs 100 (some a) (some b) = mape abs 100 (some a') (some b') ∧
    explainedVariance (some a) (some b) = explainedVariance (some a') (some b') := by
  have hlen : (a.zip b).length = (a'.zip b').length := hp.length_eq
  have haa : a.length = a'.length := by simpa [hl, hl'] using hlen
  by_cases ha : a = []
  · subst ha
    have ha' : a' = [] := by simpa using haa.symm
    subst ha'
    exact ⟨rfl, rfl, rfl, rfl, rfl⟩
  have ha' : a' ≠ [] := by rintro rfl; exact ha (by simpa using haa)
  have hs : ∀ f : K × K → K, sumOver (a.zip b) f = sumOver (a'.zip b') f := by
    intro f; rw [sumOver_eq, sumOver_eq]; exact sum_map_perm hp f
  have hm : mapeLoop abs (a.zip b) = mapeLoop abs (a'.zip b') := by
    rw [mapeLoop_eq, mapeLoop_eq]
    have := hp.filter (fun x => decide (x.1 ≠ 0))
    rw [this.length_eq, (this.map _).sum_eq]
  refine ⟨?_, ?_, ?_, ?_, ?_⟩
  · unfold mse; rw [regGuard_some ha hl, regGuard_some ha' hl', hs, hlen]
  · unfold mae; rw [regGuard_some ha hl, regGuard_some ha' hl', hs, hlen]
  · unfold r2Score; rw [regGuard_some ha hl, regGuard_some ha' hl']; simp only [hs, hlen]
  · unfold mape; rw [regGuard_some ha hl, regGuard_some ha' hl', hm]
  · unfold explainedVariance; rw [regGuard_some ha hl, regGuard_some ha' hl']; simp only [hs, hlen]

end

example : (([1, 2, 3] : List ℚ).zip [4, 5, 6]).Perm ([3, 1, 2].zip [6, 4, 5]) := by decide

end Scigo.Metrics
