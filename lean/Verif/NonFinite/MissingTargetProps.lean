import Verif.NonFinite.BoostProps
import Verif.Round.ProbaProps

/-!
# C335: missing targets and very large values in the gradients of boosting
-/

namespace Scigo.NonFinite

open Scigo.Boost F64

/-! ## Specification -/

/-- the objectives that compare the difference of prediction and target instead of computing with it (cf. sklearn/lightgbm/objectives.go:71-90,127-145,198-212) -/
def comparingNames : List String := ["regression_l1", "l1", "mean_absolute_error", "mae", "huber", "quantile"]

/-- the objective of a name with its parameters (cf. sklearn/lightgbm/objectives.go:681-737) -/
def Trains (N : Online.Num F64) (L : Lits F64) (floor ceil : F64 → Nat) (delta c a v dv : F64) (name : String) (o : Objective F64) : Prop :=
  createObjective N L floor ceil delta c a v dv name = some o

/-! ## Helpers -/

theorem abs_le_fin {x d : F64} (hd : IsFin d) (h : x.abs ≤ d) : IsFin x := by
  cases x with
  | nan => exact absurd h (not_nan_le _)
  | inf s =>
    cases d with
    | fin q =>
      rcases h with h | h
      · cases h
      · cases h
    | inf s => cases hd
    | nan => cases hd
  | fin q => trivial

theorem neg_fin {x : F64} (h : IsFin x) : IsFin (-x) := by
  cases x with
  | nan => cases h
  | inf s => cases h
  | fin q =>
    show IsFin (F64.round (-q.1))
    unfold F64.round
    have e : Binary64.rnd (-q.1) = -q.1 := by rw [Binary64.rnd_neg, q.2.1]
    rw [dif_pos (by rw [e, abs_neg]; exact q.2.2)]
    trivial

/-! ## Theorems -/

/-- **C335 (partial: not for the objectives that only compare, see `missing_target_hidden`).** A missing target gives a missing gradient, whatever the prediction. -/
theorem missing_target_gradient_partial (N : Online.Num F64) (L : Lits F64) (floor ceil : F64 → Nat) (delta c a v dv : F64) (name : String) (hn : name ∉ comparingNames) (o : Objective F64)
    (h : Trains N L floor ceil delta c a v dv name o) (p : F64) : o.grad p nan = nan := by
  unfold Trains createObjective at h
  simp only [comparingNames, List.mem_cons, List.not_mem_nil, or_false, not_or] at hn
  obtain ⟨n1, n2, n3, n4, n5, n6⟩ := hn
  split at h
  · obtain rfl := Option.some.inj h
    exact sub_nan p
  rw [if_neg (by simp [n1, n2, n3, n4])] at h
  split at h
  · obtain rfl := Option.some.inj h
    simp only [fair, sub_nan, mul_nan, nan_div]
  split at h
  · obtain rfl := Option.some.inj h
    exact sub_nan _
  split at h
  · obtain rfl := Option.some.inj h
    show N.two * (1 - nan * _) = nan
    rw [nan_mul, sub_nan, mul_nan]
  split at h
  · obtain rfl := Option.some.inj h
    show N.two * (_ - nan * _) = nan
    rw [nan_mul, sub_nan, mul_nan]
  split at h
  · obtain rfl := Option.some.inj h
    exact sub_nan p
  split at h
  · obtain rfl := Option.some.inj h
    exact sub_nan _
  split at h
  · obtain rfl := Option.some.inj h
    exact sub_nan _
  · cases h

/-- **C335, what does not hold.** For the absolute error a missing target has the gradient -1, for Huber's loss minus the threshold: that of a target far above the prediction. For a
quantile it has the gradient 0: that of a target already met. -/
theorem missing_target_hidden (N : Online.Num F64) (habs : N.abs = F64.abs) (L : Lits F64) (floor ceil : F64 → Nat) (delta c a v dv : F64) (hd : 0 < delta) (p : F64) :
    (∀ name ∈ ["regression_l1", "l1", "mean_absolute_error", "mae"], ∀ o, Trains N L floor ceil delta c a v dv name o → o.grad p nan = -1 ∧ o.hess p nan = 1) ∧
    (∀ o, Trains N L floor ceil delta c a v dv "huber" o → o.grad p nan = -delta ∧ o.hess p nan = L.e7) ∧
    (∀ o, Trains N L floor ceil delta c a v dv "quantile" o → o.grad p nan = 0 ∧ o.hess p nan = 1) := by
  have hnd : ¬ delta ≤ 0 := by
    intro h
    rcases h with h | h
    · cases delta with
      | fin q =>
        have h1 : (0 : F64) < fin q := hd
        have e : (0 : F64) = fin ⟨0, by decide +kernel, by norm_num [maxF64]⟩ := by decide +kernel
        rw [e] at h h1
        have h1' := of_decide_eq_true h1
        have h' := of_decide_eq_true h
        exact absurd h1' (not_lt.2 h'.le)
      | inf s => cases s <;> revert h hd <;> decide +kernel
      | nan => cases h
    · cases delta with
      | fin q =>
        have e : (0 : F64) = fin ⟨0, by decide +kernel, by norm_num [maxF64]⟩ := by decide +kernel
        rw [e] at h
        have h' : fin q = fin ⟨0, by decide +kernel, by norm_num [maxF64]⟩ := of_decide_eq_true h
        rw [h'] at hd
        revert hd; decide +kernel
      | inf s => cases s <;> revert h hd <;> decide +kernel
      | nan => cases h
  refine ⟨fun name hn o h => ?_, fun o h => ?_, fun o h => ?_⟩
  · have e : o = l1 N L := by
      simp only [List.mem_cons, List.not_mem_nil, or_false] at hn
      rcases hn with rfl | rfl | rfl | rfl <;> exact (Option.some.inj h).symm
    subst e
    refine ⟨?_, rfl⟩
    simp only [l1, sub_nan, habs]
    rw [if_neg (show ¬ nan.abs < L.e7 from not_nan_lt _), if_neg (not_lt_nan _)]
  · have e : o = huber N L delta := by
      have : createObjective N L floor ceil delta c a v dv "huber" = some (huber N L (huberDelta (if 0 < delta then delta else 1))) := rfl
      unfold Trains at h
      rw [this, if_pos hd] at h
      rw [← Option.some.inj h]
      unfold huberDelta
      rw [if_neg hnd]
    subst e
    simp only [huber, sub_nan, habs]
    have hn : ¬ nan.abs ≤ delta := not_nan_le _
    exact ⟨by rw [if_neg hn, if_neg (not_lt_nan _)], by rw [if_neg hn]⟩
  · have e : ∃ b, o = quantile N floor ceil b := ⟨_, (Option.some.inj h).symm⟩
    obtain ⟨b, rfl⟩ := e
    refine ⟨?_, rfl⟩
    simp only [quantile, sub_nan]
    rw [if_neg (not_lt_nan _), if_neg (not_nan_lt _)]

/-- **C335.** The gradient of the absolute error and of Huber's loss with a finite threshold is finite for every prediction and target, also if their difference overflows. -/
theorem compared_gradient_finite (N : Online.Num F64) (habs : N.abs = F64.abs) (L : Lits F64) (delta : F64) (hd : IsFin delta) (p t : F64) :
    IsFin ((l1 N L).grad p t) ∧ IsFin ((huber N L delta).grad p t) := by
  constructor
  · simp only [l1]
    split
    · exact (by decide +kernel : IsFin 0)
    · split
      · exact (by decide +kernel : IsFin 1)
      · exact (by decide +kernel : IsFin (-1))
  · simp only [huber, habs]
    split
    · rename_i h; exact abs_le_fin hd h
    · split
      · exact hd
      · exact neg_fin hd

/-- numbers without overflow as `float64`, cf. sklearn/lightgbm/objectives.go:681-737 -/
def exNumF : Online.Num F64 := ⟨id, F64.abs, fun x _ => x, fun _ => 1, id, fun _ => false, fun n => n, F64.round (1 / 2), F64.round (1 / 10), F64.round 10, F64.round 2, F64.round 4⟩

/-- the literals of the file (sklearn/lightgbm/objectives.go:75,285,356,390) -/
def exLitsF : Lits F64 := ⟨F64.round (1 / 10 ^ 7), F64.round (1 / 10 ^ 16), F64.round (1 / 10 ^ 15), F64.round 700⟩

/-- **C335, what does not hold.** The `fair` objective overflows for finite values: with the parameter 2^600 its Hessian is NaN for every finite prediction and target next to each other (1 and 0),
and its gradient, which the parameter bounds in exact arithmetic, is infinite for the prediction 2^600 and the target 0. -/
theorem fair_overflows : Trains exNumF exLitsF (fun _ => 0) (fun _ => 0) 1 (F64.round (2 ^ 600)) 1 1 1 "fair" (fair exNumF (F64.round (2 ^ 600))) ∧
    (fair exNumF (F64.round (2 ^ 600))).hess 1 0 = nan ∧ (fair exNumF (F64.round (2 ^ 600))).grad (F64.round (2 ^ 600)) 0 = inf false := by
  refine ⟨?_, ?_, ?_⟩
  · have e : huberDelta (if (0 : F64) < F64.round (2 ^ 600) then F64.round (2 ^ 600) else 1) = F64.round (2 ^ 600) := by decide +kernel
    exact congrArg (fun d => some (fair exNumF d)) e
  · decide +kernel
  · decide +kernel

/-! ## Examples -/

/-- the hypotheses can be met: the squared error with a missing target, and Huber's loss with the threshold 1/2 whose difference overflows -/
example : (∃ o, Trains exNumF exLitsF (fun _ => 0) (fun _ => 0) 1 1 1 1 1 "regression" o ∧ o.grad (F64.round 3) nan = nan) ∧
    (∃ o, Trains exNumF exLitsF (fun _ => 0) (fun _ => 0) (F64.round (1 / 2)) 1 1 1 1 "huber" o ∧ o.grad (F64.round 3) nan = -F64.round (1 / 2)) ∧
    (huber exNumF exLitsF (F64.round (1 / 2))).grad (F64.round (2 ^ 1023)) (F64.round (-2 ^ 1023)) = F64.round (1 / 2) := by
  have h0 : Trains exNumF exLitsF (fun _ => 0) (fun _ => 0) 1 1 1 1 1 "regression" (l2 exNumF) := rfl
  refine ⟨⟨_, h0, missing_target_gradient_partial _ _ _ _ _ _ _ _ _ "regression" (by decide) _ h0 _⟩, ?_, by decide +kernel⟩
  have h : Trains exNumF exLitsF (fun _ => 0) (fun _ => 0) (F64.round (1 / 2)) 1 1 1 1 "huber" (huber exNumF exLitsF (huberDelta (if (0 : F64) < F64.round (1 / 2) then F64.round (1 / 2) else 1))) := rfl
  exact ⟨_, h, ((missing_target_hidden exNumF rfl exLitsF (fun _ => 0) (fun _ => 0) (F64.round (1 / 2)) 1 1 1 1 (by decide +kernel) _).2.1 _ h).1⟩

end Scigo.NonFinite
