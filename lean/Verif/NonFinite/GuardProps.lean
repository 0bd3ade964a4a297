import Verif.NonFinite.KMeansProps
import Verif.NonFinite.HistMissingProps
import Verif.NonFinite.ScalerProps
import Verif.Errors.Model
import Verif.Round.ProbaProps

/-!
# C324, C325: the numerical guards with numbers that are infinite or missing, and with overflow

`SafeDivide`, `ClipValue`, `ClipGradient`, `StabilizeExp` and `LogSumExp` are there for numbers that got out of hand; here on binary64 with infinities and NaN.
-/

set_option linter.unusedSectionVars false

namespace Scigo.NonFinite

open Scigo.Errors F64

/-! ## Specification -/

/-- the `LogSumExp` of `pkg/errors/numerical.go:119-144` on `float64` -/
def logSumExp64 (exp log : F64 → F64) (vs : List F64) : F64 :=
  logSumExp (· + ·) (· - ·) 0 (F64.inf true) (fun v => decide (v = F64.inf true)) exp log vs

theorem not_lt_le {a b : F64} (ha : a ≠ nan) (hb : b ≠ nan) (h : ¬ a < b) : b ≤ a := by
  cases a with
  | nan => exact absurd rfl ha
  | fin x =>
    cases b with
    | nan => exact absurd rfl hb
    | fin y =>
      have h' : ¬ x.1 < y.1 := fun hlt => h (decide_eq_true hlt)
      rcases lt_or_eq_of_le (not_lt.1 h') with h1 | h1
      · exact Or.inl (decide_eq_true h1)
      · exact Or.inr (decide_eq_true (congrArg F64.fin (Subtype.ext h1)))
    | inf s =>
      cases s with
      | true => exact Or.inl rfl
      | false => exact absurd rfl h
  | inf s =>
    cases b with
    | nan => exact absurd rfl hb
    | fin y =>
      cases s with
      | true => exact absurd rfl h
      | false => exact Or.inl rfl
    | inf t =>
      cases s <;> cases t
      · exact Or.inr rfl
      · exact Or.inl rfl
      · exact absurd rfl h
      · exact Or.inr rfl

theorem le_refl' {a : F64} (ha : a ≠ nan) : a ≤ a := not_lt_le ha ha (lt_irrefl' a)

theorem zero_eq : (0 : F64) = .fin ⟨0, Binary64.rounding.zero, by rw [abs_zero]; exact maxF64_pos.le⟩ := by
  have h0 : Binary64.rnd 0 = 0 := Binary64.rounding.zero
  show F64.round 0 = _
  rw [round_fin (by rw [h0, abs_zero]; exact maxF64_pos.le)]
  exact congrArg F64.fin (Subtype.ext h0)

/-! ## `ClipValue` -/

/-- **C324 (partial: a NaN is not clipped, see `clip_value_nan`).** Every number, also an infinite one, is clipped into the range. -/
theorem clip_value_partial (v lo hi : F64) (hv : v ≠ nan) (h : lo ≤ hi) : lo ≤ clipValue v lo hi ∧ clipValue v lo hi ≤ hi := by
  have hlo : lo ≠ nan := fun e => not_nan_le hi (e ▸ h)
  have hhi : hi ≠ nan := fun e => not_le_nan lo (e ▸ h)
  unfold clipValue
  split
  · exact ⟨le_refl' hlo, h⟩
  · rename_i h1
    split
    · exact ⟨h, le_refl' hhi⟩
    · rename_i h2
      exact ⟨not_lt_le hv hlo h1, not_lt_le hhi hv h2⟩

example : clipValue (F64.inf false) (-1) 1 = (1 : F64) := by decide +kernel

/-- **C324, what does not hold.** A NaN stays NaN. -/
theorem clip_value_nan (lo hi : F64) : clipValue nan lo hi = nan := by
  unfold clipValue
  rw [if_neg (not_nan_lt lo), if_neg (not_lt_nan hi)]

/-! ## `SafeDivide` -/

/-- **C324 (partial: the numerator has to be small enough).** The quotient of finite numbers is finite if the numerator is at most `maxF64` times the threshold for the denominator. -/
theorem safe_divide_partial (tiny : { q : ℚ // Binary64.rnd q = q ∧ |q| ≤ maxF64 }) (ht : 0 < tiny.1) (a b : F64) (ha : a.IsFin) (hb : b.IsFin)
    (hsmall : ∀ x, a = .fin x → |x.1| ≤ maxF64 * tiny.1) : (safeDivide F64.abs (.fin tiny) a b).IsFin := by
  cases a with
  | nan => exact ha.elim
  | inf s => exact ha.elim
  | fin x =>
    cases b with
    | nan => exact hb.elim
    | inf s => exact hb.elim
    | fin y =>
      unfold safeDivide
      split
      · rw [zero_eq]; trivial
      · rename_i h
        have hy : tiny.1 ≤ |y.1| := by
          by_contra hlt
          apply h
          show ltB (F64.abs (.fin y)) (.fin tiny) = true
          unfold F64.abs
          dsimp only
          split
          · rename_i hneg
            have hr : Binary64.rnd (-y.1) = -y.1 := by rw [Binary64.rnd_neg, y.2.1]
            have hb' : |Binary64.rnd (-y.1)| ≤ maxF64 := by rw [hr, abs_neg]; exact y.2.2
            rw [round_fin hb']
            refine decide_eq_true ?_
            show Binary64.rnd (-y.1) < tiny.1
            rw [hr, ← abs_of_neg hneg]
            exact not_le.1 hlt
          · rename_i hneg
            refine decide_eq_true ?_
            rw [← abs_of_nonneg (not_lt.1 hneg)]
            exact not_le.1 hlt
        have hpos : 0 < |y.1| := lt_of_lt_of_le ht hy
        have hne : y.1 ≠ 0 := abs_pos.1 hpos
        have hq : |x.1 / y.1| ≤ maxF64 := by
          rw [abs_div, div_le_iff₀ hpos]
          exact (hsmall x rfl).trans (mul_le_mul_of_nonneg_left hy maxF64_pos.le)
        show (if y.1 = 0 then _ else F64.round (x.1 / y.1)).IsFin
        rw [if_neg hne, round_fin (rnd_abs_le maxF64_rep hq)]
        trivial

example : (safeDivide F64.abs (.fin ⟨1, by decide +kernel⟩) 3 (F64.round (-5 / 2))).IsFin :=
  safe_divide_partial ⟨1, by decide +kernel⟩ (by norm_num) 3 _ (by decide +kernel) (by decide +kernel) (by
    intro x hx
    have h3 : (3 : F64) = .fin ⟨3, by decide +kernel⟩ := by decide +kernel
    rw [h3] at hx
    rw [← F64.fin.inj hx]
    decide +kernel)

/-- **C324, what does not hold.** A quotient of finite numbers can still be infinite: `2^1000` divided by `2^-30`, which is above the threshold `1e-10`. -/
theorem safe_divide_overflow : safeDivide F64.abs (F64.round (1 / 10 ^ 10)) (F64.round (2 ^ 1000)) (F64.round (1 / 2 ^ 30)) = F64.inf false := by decide +kernel

/-! ## `ClipGradient` -/

theorem mul_zero_fin {x : F64} (h : x.IsFin) : x * 0 = 0 := by
  cases x with
  | fin q =>
    rw [zero_eq]
    show F64.round (q.1 * 0) = _
    rw [mul_zero, ← zero_eq]; rfl
  | inf s => exact h.elim
  | nan => exact h.elim

theorem mul_zero_notFin {x : F64} (h : ¬ x.IsFin) : x * 0 = nan := by
  rw [zero_eq]
  cases x with
  | fin q => exact absurd trivial h
  | inf s =>
    show (if (0 : ℚ) = 0 then nan else F64.inf (s != decide ((0 : ℚ) < 0))) = nan
    exact if_pos rfl
  | nan => rfl

/-- **C324, what does not hold.** If the sum of the squares of a gradient overflows, clipping does not scale the gradient: every finite entry becomes 0, so its direction is lost,
and every infinite entry becomes NaN. -/
theorem clip_gradient_overflow (sqrt : F64 → F64) (hs : sqrt (.inf false) = .inf false) (g : List F64) (m : F64) (hm : m.IsFin)
    (hg : sumOver g (fun x => x * x) = .inf false) : clipGradient sqrt g m = g.map fun x => if x.IsFin then 0 else nan := by
  have hn : gradNorm sqrt g = .inf false := by
    unfold gradNorm
    rw [hg, hs]
  have hlt : m < F64.inf false := by
    cases m with
    | fin x => exact rfl
    | inf s => exact hm.elim
    | nan => exact hm.elim
  have hdiv : m / F64.inf false = 0 := by
    cases m with
    | fin x => rfl
    | inf s => exact hm.elim
    | nan => exact hm.elim
  unfold clipGradient
  simp only [hn, gt_iff_lt, if_pos hlt, hdiv]
  apply List.map_congr_left
  intro x _
  split
  · exact mul_zero_fin ‹_›
  · exact mul_zero_notFin ‹_›

/-- a gradient with a large finite entry -/
def largeGradient : List F64 := [F64.round (2 ^ 600), 1]

/-- and with an infinite one -/
def infiniteGradient : List F64 := [F64.inf true, 1]

example (sqrt : F64 → F64) (hs : sqrt (.inf false) = .inf false) : clipGradient sqrt largeGradient 1 = [0, 0] ∧ clipGradient sqrt infiniteGradient 1 = [nan, 0] := by
  rw [clip_gradient_overflow sqrt hs largeGradient 1 (by decide +kernel) (by decide +kernel),
    clip_gradient_overflow sqrt hs infiniteGradient 1 (by decide +kernel) (by decide +kernel)]
  decide +kernel

/-- **C324, what does not hold.** A gradient with a NaN is returned as it is. -/
theorem clip_gradient_nan (sqrt : F64 → F64) (hs : sqrt nan = nan) (g : List F64) (m : F64) (hg : nan ∈ g) : clipGradient sqrt g m = g := by
  have hn : gradNorm sqrt g = nan := by
    unfold gradNorm
    rw [sumOver_nan _ _ ⟨nan, hg, rfl⟩, hs]
  unfold clipGradient
  simp only [hn, gt_iff_lt, if_neg (not_lt_nan m)]

/-- **C324 (partial: the gradient is finite and its norm does not overflow).** Clipping scales by a number between 0 and 1: no entry grows or changes its sign. -/
theorem clip_gradient_shrinks_partial {K : Type} [Field K] [LinearOrder K] [IsStrictOrderedRing K] {R : Rounding K} (sqrt : Fl R → Fl R) (g : List (Fl R)) (m : Fl R) (hm : 0 ≤ m) :
    (clipGradient sqrt g m).length = g.length ∧ ∀ i < g.length,
      (0 ≤ g.getD i 0 → 0 ≤ (clipGradient sqrt g m).getD i 0 ∧ (clipGradient sqrt g m).getD i 0 ≤ g.getD i 0) ∧
      (g.getD i 0 ≤ 0 → g.getD i 0 ≤ (clipGradient sqrt g m).getD i 0 ∧ (clipGradient sqrt g m).getD i 0 ≤ 0) := by
  unfold clipGradient
  by_cases h : gradNorm sqrt g > m
  · simp only [if_pos h]
    refine ⟨by simp, fun i hi => ?_⟩
    have s0 : 0 ≤ m / gradNorm sqrt g := Fl.div_nonneg' hm (hm.trans h.le)
    have s1 : m / gradNorm sqrt g ≤ 1 := Fl.div_le_one' hm h.le
    have e : (g.map fun x => x * (m / gradNorm sqrt g)).getD i 0 = g.getD i 0 * (m / gradNorm sqrt g) := by
      simp only [List.getD_eq_getElem?_getD, List.getElem?_map, List.getElem?_eq_getElem hi, Option.map_some, Option.getD_some]
    rw [e]
    generalize g.getD i 0 = x
    generalize m / gradNorm sqrt g = s at s0 s1
    have s0' : (0 : K) ≤ s.val := s0
    have s1' : s.val ≤ 1 := s1
    have hx1 : x * 1 = x := Fl.mul_one' x
    constructor
    · intro hx
      have hx' : (0 : K) ≤ x.val := hx
      refine ⟨Fl.mul_nonneg' hx s0, ?_⟩
      calc x * s ≤ x * 1 := R.mono (mul_le_mul_of_nonneg_left s1' hx')
        _ = x := hx1
    · intro hx
      have hx' : x.val ≤ (0 : K) := hx
      refine ⟨?_, R.nonpos (mul_nonpos_of_nonpos_of_nonneg hx' s0')⟩
      calc x = x * 1 := hx1.symm
        _ ≤ x * s := R.mono (mul_le_mul_of_nonpos_left s1' hx')
  · simp only [if_neg h]
    exact ⟨trivial, fun i _ => ⟨fun hx => ⟨hx, le_rfl⟩, fun hx => ⟨le_rfl, hx⟩⟩⟩

example (sqrt : Fl Binary64.rounding → Fl Binary64.rounding) :
    Binary64.lit (-3) ≤ (clipGradient sqrt [Binary64.lit 4, Binary64.lit (-3)] (Binary64.lit 1)).getD 1 0 :=
  (((clip_gradient_shrinks_partial sqrt [Binary64.lit 4, Binary64.lit (-3)] (Binary64.lit 1) (by decide +kernel)).2 1 (by decide)).2
    (show Binary64.lit (-3) ≤ 0 by decide +kernel)).1

/-! ## `LogSumExp` -/

theorem runMax_inf (v0 : F64) (vs : List F64) (h0 : v0 ≠ nan) (hn : nan ∉ vs) (hi : F64.inf false = v0 ∨ F64.inf false ∈ vs) : runMax v0 vs = F64.inf false := by
  induction vs generalizing v0 with
  | nil =>
    rcases hi with h | h
    · exact h.symm
    · simp at h
  | cons v vs ih =>
    have hv : v ≠ nan := fun e => hn (by simp [e])
    show runMax (if v > v0 then v else v0) vs = _
    have top : ∀ x : F64, ¬ F64.inf false < x := by
      intro x
      cases x with
      | fin q => exact Bool.false_ne_true
      | inf s => cases s <;> exact Bool.false_ne_true
      | nan => exact Bool.false_ne_true
    have below : ∀ x : F64, x ≠ nan → x ≠ F64.inf false → x < F64.inf false := by
      intro x hx hx'
      cases x with
      | fin q => rfl
      | inf s => cases s; exact absurd rfl hx'; rfl
      | nan => exact absurd rfl hx
    apply ih
    · split
      · exact hv
      · exact h0
    · exact fun h => hn (by simp [h])
    · rcases hi with h | h
      · left
        rw [if_neg (show ¬ v > v0 from h ▸ top v)]
        exact h
      · rcases List.mem_cons.1 h with h | h
        · left
          by_cases e : v0 = F64.inf false
          · rw [if_neg (show ¬ v > v0 from e ▸ top v), e]
          · rw [if_pos (show v > v0 from h ▸ below v0 h0 e)]
            exact h
        · exact Or.inr h

/-- **C325, what does not hold.** If one of the values is `+Inf`, and none is NaN, the result is NaN, not `+Inf`. -/
theorem log_sum_exp_inf (exp log : F64 → F64) (hexp : exp nan = nan) (hlog : log nan = nan) (vs : List F64) (hn : nan ∉ vs) (hi : F64.inf false ∈ vs) :
    logSumExp64 exp log vs = nan := by
  cases vs with
  | nil => simp at hi
  | cons v0 vs =>
    have hm := runMax_inf v0 vs (fun e => hn (by simp [e])) (fun h => hn (by simp [h])) (by simpa using hi)
    unfold logSumExp64 logSumExp
    simp only [hm]
    rw [if_neg (by decide), foldl_add_nan (fun v => exp (v - F64.inf false)) _ _ ⟨F64.inf false, hi, by
      show exp (F64.inf false - F64.inf false) = nan
      rw [show F64.inf false - F64.inf false = nan from rfl, hexp]⟩, hlog]
    exact add_nan _

example : nan ∉ [(1 : F64), F64.inf false] ∧ F64.inf false ∈ [(1 : F64), F64.inf false] := by
  refine ⟨by simp [Ne.symm (show (1 : F64) ≠ nan by decide +kernel)], by simp⟩

/-- **C325 (partial: unless everything before is `-Inf`, see `log_sum_exp_hides`).** A NaN among the values shows in the result. -/
theorem log_sum_exp_nan_partial (exp log : F64 → F64) (hexp : exp nan = nan) (hlog : log nan = nan) (v0 : F64) (vs : List F64) (hn : nan ∈ v0 :: vs)
    (hm : runMax v0 vs ≠ F64.inf true) : logSumExp64 exp log (v0 :: vs) = nan := by
  unfold logSumExp64 logSumExp
  simp only [decide_eq_false hm]
  rw [if_neg Bool.false_ne_true, foldl_add_nan (fun v => exp (v - runMax v0 vs)) _ _ ⟨nan, hn, by
    show exp (nan - runMax v0 vs) = nan
    rw [nan_sub, hexp]⟩, hlog]
  exact add_nan _

/-- **C325, what does not hold.** A NaN after values that are all `-Inf` is hidden: the result is `-Inf`. -/
theorem log_sum_exp_hides (exp log : F64 → F64) (n : Nat) : logSumExp64 exp log (F64.inf true :: (List.replicate n (F64.inf true) ++ [nan])) = F64.inf true := by
  have hm : ∀ n, runMax (F64.inf true) (List.replicate n (F64.inf true) ++ [nan]) = F64.inf true := by
    intro n
    induction n with
    | zero => rfl
    | succ n ih => exact ih
  unfold logSumExp64 logSumExp
  simp only [hm]
  rfl

/-! ## `LogSumExp` of finite numbers, rounded -/

theorem runMax_ge {α : Type _} [LinearOrder α] (v0 : α) (vs : List α) : (v0 ≤ runMax v0 vs ∧ ∀ v ∈ vs, v ≤ runMax v0 vs) ∧ runMax v0 vs ∈ v0 :: vs := by
  induction vs generalizing v0 with
  | nil => exact ⟨⟨le_rfl, by simp⟩, by simp [runMax]⟩
  | cons v vs ih =>
    show (v0 ≤ runMax (if v > v0 then v else v0) vs ∧ _) ∧ runMax (if v > v0 then v else v0) vs ∈ _
    by_cases h : v > v0
    · rw [if_pos h]
      obtain ⟨⟨h1, h2⟩, h3⟩ := ih v
      have e : runMax v0 (v :: vs) = runMax v vs := by
        show runMax (if v > v0 then v else v0) vs = _
        rw [if_pos h]
      rw [e]
      exact ⟨⟨h.le.trans h1, by simpa using ⟨h1, h2⟩⟩, List.mem_cons_of_mem _ h3⟩
    · rw [if_neg h]
      obtain ⟨⟨h1, h2⟩, h3⟩ := ih v0
      have e : runMax v0 (v :: vs) = runMax v0 vs := by
        show runMax (if v > v0 then v else v0) vs = _
        rw [if_neg h]
      rw [e]
      refine ⟨⟨h1, by simpa using ⟨(not_lt.1 h).trans h1, h2⟩⟩, ?_⟩
      rcases List.mem_cons.1 h3 with h3 | h3
      · rw [h3]; simp
      · exact List.mem_cons_of_mem _ (List.mem_cons_of_mem _ h3)

section Rounded

variable {K : Type} [Field K] [LinearOrder K] [IsStrictOrderedRing K] {R : Rounding K}

theorem foldl_le_nat {β : Type _} (f : β → Fl R) (l : List β) (h : ∀ x ∈ l, f x ≤ 1) (a : Fl R) (k : Nat) (ha : a.val ≤ k)
    (hR : ∀ m ≤ k + l.length, R.rnd (m : K) = m) : (l.foldl (fun s x => s + f x) a).val ≤ ((k + l.length : Nat) : K) := by
  induction l generalizing a k with
  | nil => simpa using ha
  | cons x l ih =>
    have hx : (f x).val ≤ 1 := by
      have : (f x).val ≤ (1 : Fl R).val := h x (by simp)
      simpa using this
    have h1 : (a + f x).val ≤ ((k + 1 : Nat) : K) := by
      calc (a + f x).val ≤ R.rnd ((k + 1 : Nat) : K) := R.mono (by push_cast; exact add_le_add ha hx)
        _ = _ := hR _ (by simp)
    have := ih (fun y hy => h y (by simp [hy])) (a + f x) (k + 1) h1 (fun m hm => hR m (by simp only [List.length_cons]; omega))
    rw [show k + (x :: l).length = k + 1 + l.length by simp only [List.length_cons]; omega]
    exact this

/-- **C325.** In `float64` as well, the result of `LogSumExp` for finite numbers is at least the largest of them, and at most this number plus the logarithm of their number (computed and
added in `float64`): assumed is only that `exp` is 1 at 0, at most 1 below and never negative, that `log` is monotone with `log 1 = 0`, and that there are few enough numbers to count them exactly. -/
theorem log_sum_exp_bounds (exp log : Fl R → Fl R) (negInf : Fl R) (isNegInf : Fl R → Bool) (he : ∀ x ≤ 0, exp x ≤ 1) (he0 : exp 0 = 1) (hep : ∀ x, 0 ≤ exp x) (hl : Monotone log)
    (hl1 : log 1 = 0) (v0 : Fl R) (vs : List (Fl R)) (hfin : ∀ v ∈ v0 :: vs, isNegInf v = false) (hR : ∀ m ≤ vs.length + 1, R.rnd (m : K) = m) :
    ∃ m ∈ v0 :: vs, (∀ v ∈ v0 :: vs, v ≤ m) ∧
      m ≤ logSumExp (· + ·) (· - ·) 0 negInf isNegInf exp log (v0 :: vs) ∧
      logSumExp (· + ·) (· - ·) 0 negInf isNegInf exp log (v0 :: vs) ≤ m + log ((vs.length + 1 : Nat) : Fl R) := by
  obtain ⟨⟨h1, h2⟩, h3⟩ := runMax_ge v0 vs
  have hall : ∀ v ∈ v0 :: vs, v ≤ runMax v0 vs := by simpa using ⟨h1, h2⟩
  refine ⟨runMax v0 vs, h3, hall, ?_⟩
  have e : logSumExp (· + ·) (· - ·) 0 negInf isNegInf exp log (v0 :: vs) =
      runMax v0 vs + log ((v0 :: vs).foldl (fun s v => s + exp (v - runMax v0 vs)) 0) := by
    unfold logSumExp
    simp only [hfin _ h3]
    rfl
  rw [e]
  have hself : exp (runMax v0 vs - runMax v0 vs) = 1 := by
    rw [Fl.sub_self', he0]
  have hlow : (1 : Fl R) ≤ (v0 :: vs).foldl (fun s v => s + exp (v - runMax v0 vs)) 0 := by
    have := Scigo.Round.term_le_sumOver (v0 :: vs) (fun v => exp (v - runMax v0 vs)) (fun _ _ => hep _) _ h3
    rw [hself] at this
    exact this
  have hup : (v0 :: vs).foldl (fun s v => s + exp (v - runMax v0 vs)) 0 ≤ ((vs.length + 1 : Nat) : Fl R) := by
    show (_ : Fl R).val ≤ R.rnd ((vs.length + 1 : Nat) : K)
    rw [hR _ le_rfl]
    have := foldl_le_nat (fun v => exp (v - runMax v0 vs)) (v0 :: vs) (by
      intro x hx
      apply he
      show R.rnd (x.val - (runMax v0 vs).val) ≤ 0
      exact R.nonpos (sub_nonpos.2 (hall x hx))) 0 0 (by simp) (by simpa using hR)
    simpa using this
  have hm0 : runMax v0 vs + 0 = runMax v0 vs := Fl.add_zero' _
  constructor
  · calc runMax v0 vs = runMax v0 vs + log 1 := by rw [hl1, hm0]
      _ ≤ _ := R.mono (add_le_add le_rfl (hl hlow))
  · exact R.mono (add_le_add le_rfl (hl hup))

/-- functions as required by `log_sum_exp_bounds`, for `float64` -/
example : ∃ exp log : Fl Binary64.rounding → Fl Binary64.rounding, (∀ x ≤ 0, exp x ≤ 1) ∧ exp 0 = 1 ∧ (∀ x, 0 ≤ exp x) ∧ Monotone log ∧ log 1 = 0 ∧
    ∀ m ≤ [Binary64.lit 3, Binary64.lit 7].length + 1, Binary64.rounding.rnd (m : ℚ) = m := by
  refine ⟨fun x => if 0 ≤ x then 1 else 0, fun x => x - 1, ?_, if_pos le_rfl, ?_, ?_, Fl.sub_self' 1, fun m hm => Binary64.nat_exact m (lt_of_le_of_lt hm (by norm_num))⟩
  · intro x _
    show (if 0 ≤ x then (1 : Fl Binary64.rounding) else 0) ≤ 1
    split
    · exact le_rfl
    · decide +kernel
  · intro x
    show 0 ≤ (if 0 ≤ x then (1 : Fl Binary64.rounding) else 0)
    split
    · decide +kernel
    · exact le_rfl
  · intro x y h
    have h' : x.val ≤ y.val := h
    exact Binary64.rounding.mono (sub_le_sub_right h' _)

end Rounded

end Scigo.NonFinite
