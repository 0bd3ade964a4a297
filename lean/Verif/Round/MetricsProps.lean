import Verif.Base.Binary64
import Verif.Metrics.Model

/-!
# C269: metrics keep their range when every operation is rounded
-/

set_option linter.unusedSectionVars false

namespace Scigo.Round

open Scigo.Metrics

variable {K : Type _} [Field K] [LinearOrder K] [IsStrictOrderedRing K] {R : Rounding K}

/-! ## Sums -/

theorem foldl_nonneg {β : Type _} (l : List β) (f : β → Fl R) (h : ∀ x ∈ l, 0 ≤ f x) (a : Fl R) (ha : 0 ≤ a) :
    0 ≤ l.foldl (fun s x => s + f x) a := by
  induction l generalizing a with
  | nil => exact ha
  | cons x l ih => exact ih (fun y hy => h y (List.mem_cons_of_mem _ hy)) _ (Fl.add_nonneg' ha (h x List.mem_cons_self))

theorem sumOver_nonneg {β : Type _} (l : List β) (f : β → Fl R) (h : ∀ x ∈ l, 0 ≤ f x) : 0 ≤ sumOver l f :=
  foldl_nonneg l f h 0 (le_refl _)

theorem foldl_ge {β : Type _} (l : List β) (f : β → Fl R) (h : ∀ x ∈ l, 0 ≤ f x) (a : Fl R) :
    a ≤ l.foldl (fun s x => s + f x) a := by
  induction l generalizing a with
  | nil => exact le_refl _
  | cons x l ih =>
    exact le_trans (Fl.le_add_right' (h x List.mem_cons_self)) (ih (fun y hy => h y (List.mem_cons_of_mem _ hy)) _)

/-- no term exceeds a rounded sum of terms that are not negative -/
theorem term_le_foldl {β : Type _} (l : List β) (f : β → Fl R) (h : ∀ x ∈ l, 0 ≤ f x) (a : Fl R) (ha : 0 ≤ a) (x : β) (hx : x ∈ l) :
    f x ≤ l.foldl (fun s x => s + f x) a := by
  induction l generalizing a with
  | nil => exact absurd hx (by simp)
  | cons y l ih =>
    have h' : ∀ y ∈ l, 0 ≤ f y := fun z hz => h z (List.mem_cons_of_mem _ hz)
    rcases List.mem_cons.1 hx with rfl | hx
    · exact le_trans (Fl.le_add_left' ha) (foldl_ge l f h' _)
    · exact ih h' _ (Fl.add_nonneg' ha (h y List.mem_cons_self)) hx

theorem term_le_sumOver {β : Type _} (l : List β) (f : β → Fl R) (h : ∀ x ∈ l, 0 ≤ f x) (x : β) (hx : x ∈ l) : f x ≤ sumOver l f :=
  term_le_foldl l f h 0 (le_refl _) x hx

theorem sumOver_zero {β : Type _} (l : List β) (f : β → Fl R) (h : ∀ x ∈ l, f x = 0) : sumOver l f = 0 := by
  unfold sumOver
  induction l with
  | nil => rfl
  | cons x l ih =>
    rw [List.foldl_cons, h x List.mem_cons_self, Fl.add_zero']
    exact ih fun y hy => h y (List.mem_cons_of_mem _ hy)

theorem regGuard_ok {β : Type _} {t p : Vec (Fl R)} {k : List (Fl R × Fl R) → Outcome β} {v : β} (h : regGuard t p k = .ok v) :
    ∃ a b, t = some a ∧ p = some b ∧ a ≠ [] ∧ b.length = a.length ∧ k (a.zip b) = .ok v := by
  unfold regGuard at h
  cases t with
  | none => cases h
  | some a =>
    dsimp only at h
    split at h
    · cases h
    · rename_i h0
      cases p with
      | none => cases h
      | some b =>
        dsimp only at h
        split at h
        · cases h
        · rename_i h1
          exact ⟨a, b, rfl, rfl, fun e => h0 (by rw [e]; rfl), not_not.1 h1, h⟩

theorem zip_same {a : List (Fl R)} {x : Fl R × Fl R} (h : x ∈ a.zip a) : x.1 = x.2 := by
  induction a with
  | nil => simp at h
  | cons y a ih =>
    rw [List.zip_cons_cons] at h
    rcases List.mem_cons.1 h with rfl | h
    · rfl
    · exact ih h

/-! ## C269 -/

/-- **C269**: the mean squared error and the mean absolute error are not negative, with every operation rounded -/
theorem rounded_errors_nonneg (t p : Vec (Fl R)) (v : Fl R) (h : mse t p = .ok v ∨ mae Fl.abs t p = .ok v) : 0 ≤ v := by
  rcases h with h | h
  · obtain ⟨a, b, -, -, ha, -, h⟩ := regGuard_ok h
    injection h with h
    rw [← h]
    exact Fl.div_nonneg' (sumOver_nonneg _ _ fun x _ => Fl.mul_self_nonneg' _) (Fl.natCast_nonneg' _)
  · obtain ⟨a, b, -, -, ha, -, h⟩ := regGuard_ok h
    injection h with h
    rw [← h]
    refine Fl.div_nonneg' (sumOver_nonneg _ _ fun x _ => ?_) (Fl.natCast_nonneg' _)
    rw [Fl.le_iff, Fl.val_abs]
    exact abs_nonneg _

/-- **C269**: equal vectors have the mean squared error 0, the mean absolute error 0, and the R² score 1 if it has one -/
theorem rounded_perfect (a : List (Fl R)) (ha : a ≠ []) :
    mse (some a) (some a) = .ok 0 ∧ mae Fl.abs (some a) (some a) = .ok 0 ∧
      ∀ v, r2Score (some a) (some a) = .ok v → v = 1 := by
  have h0 : a.length ≠ 0 := fun e => ha (List.length_eq_zero_iff.1 e)
  have hs : sumOver (a.zip a) (fun x : Fl R × Fl R => (x.1 - x.2) * (x.1 - x.2)) = 0 :=
    sumOver_zero _ _ fun x hx => by rw [zip_same hx, Fl.sub_self', Fl.mul_zero']
  have hm : sumOver (a.zip a) (fun x : Fl R × Fl R => Fl.abs (x.1 - x.2)) = 0 :=
    sumOver_zero _ _ fun x hx => by
      rw [zip_same hx, Fl.sub_self']
      exact Fl.ext (by rw [Fl.val_abs, Fl.val_zero, abs_zero])
  refine ⟨?_, ?_, ?_⟩
  · simp only [mse, regGuard, h0, if_false, hs, ne_eq, not_true_eq_false, Fl.zero_div']
  · simp only [mae, regGuard, h0, if_false, hm, ne_eq, not_true_eq_false, Fl.zero_div']
  · intro v hv
    obtain ⟨a', b', e1, e2, -, -, h⟩ := regGuard_ok hv
    injection e1 with e1
    injection e2 with e2
    subst e1 e2
    dsimp only at h
    split at h
    · cases h
    · injection h with h
      rw [← h, hs, Fl.zero_div', Fl.sub_zero']

/-- **C269**: no R² score and no explained variance exceeds 1 -/
theorem rounded_scores_le_one (t p : Vec (Fl R)) (v : Fl R) (h : r2Score t p = .ok v ∨ explainedVariance t p = .ok v) : v ≤ 1 := by
  have key : ∀ x : Fl R, 0 ≤ x → 1 - x ≤ 1 := by
    intro x hx
    have := Fl.sub_le (R := R) (le_refl 1) hx
    rwa [Fl.sub_zero'] at this
  rcases h with h | h
  · obtain ⟨a, b, -, -, ha, -, h⟩ := regGuard_ok h
    dsimp only at h
    split at h
    · cases h
    · injection h with h
      rw [← h]
      exact key _ (Fl.div_nonneg' (sumOver_nonneg _ _ fun x _ => Fl.mul_self_nonneg' _) (sumOver_nonneg _ _ fun x _ => Fl.mul_self_nonneg' _))
  · obtain ⟨a, b, -, -, ha, -, h⟩ := regGuard_ok h
    dsimp only at h
    split at h
    · cases h
    · injection h with h
      rw [← h]
      exact key _ (Fl.div_nonneg'
        (Fl.div_nonneg' (sumOver_nonneg _ _ fun x _ => Fl.mul_self_nonneg' _) (Fl.natCast_nonneg' _))
        (Fl.div_nonneg' (sumOver_nonneg _ _ fun x _ => Fl.mul_self_nonneg' _) (Fl.natCast_nonneg' _)))

theorem count_le {β : Type _} (l : List β) (c : β → Bool) (n : Nat) : l.foldl (fun s x => if c x then s + 1 else s) n ≤ n + l.length := by
  induction l generalizing n with
  | nil => simp
  | cons x l ih =>
    rw [List.foldl_cons, List.length_cons]
    refine (ih _).trans ?_
    split <;> omega

/-- **C269**: the classification error and the accuracy lie between 0 and 1 -/
theorem rounded_accuracy_range (t p : Vec (Fl R)) (v : Fl R) (h : classificationError t p = .ok v ∨ accuracy t p = .ok v) : 0 ≤ v ∧ v ≤ 1 := by
  have err : ∀ w : Fl R, classificationError t p = .ok w → 0 ≤ w ∧ w ≤ 1 := by
    intro w hw
    unfold classificationError clsGuard at hw
    cases t with
    | none => cases hw
    | some a =>
      cases p with
      | none => cases hw
      | some b =>
        dsimp only at hw
        split at hw
        · cases hw
        · split at hw
          · cases hw
          · injection hw with hw
            rw [← hw]
            have := count_le (a.zip b) (fun x => x.1 != x.2) 0
            rw [zero_add] at this
            exact ⟨Fl.div_nonneg' (Fl.natCast_nonneg' _) (Fl.natCast_nonneg' _), Fl.div_le_one' (Fl.natCast_nonneg' _) (Fl.natCast_le this)⟩
  rcases h with h | h
  · exact err v h
  · unfold accuracy at h
    cases hc : classificationError t p with
    | err e => rw [hc] at h; cases h
    | panic s => rw [hc] at h; cases h
    | ok w =>
      rw [hc] at h
      have h : Outcome.ok (1 - w) = .ok v := h
      injection h with h
      obtain ⟨h1, h2⟩ := err w hc
      rw [← h]
      refine ⟨Fl.sub_nonneg' h2, ?_⟩
      have := Fl.sub_le (R := R) (le_refl 1) h1
      rwa [Fl.sub_zero'] at this

/-- **C269** is false of one more range: a mean squared error of 0 does not mean that the vectors are equal. In binary64 the square of
`2 ^ (-600)` is 0. -/
theorem mse_underflow : mse (some [Binary64.lit (1 / 2 ^ 600)]) (some [Binary64.lit 0]) = .ok 0 ∧
    Binary64.lit (1 / 2 ^ 600) ≠ Binary64.lit 0 := by
  decide +kernel

/-- **C269** (partial): if rounding keeps a relative error below 1 — no underflow — a mean squared error of 0 means equal vectors. Missing:
roundings that underflow (`mse_underflow`). -/
theorem mse_zero_partial (eps : K) (he : eps < 1) (hR : R.Accurate eps 0) (a b : List (Fl R)) (h : mse (some a) (some b) = .ok 0) : a = b := by
  have nz : ∀ x : K, R.rnd x = 0 → x = 0 := by
    intro x hx
    by_contra hne
    have := hR x
    rw [hx, zero_sub, abs_neg, add_zero] at this
    have hp : 0 < |x| := abs_pos.2 hne
    have := mul_lt_mul_of_pos_right he hp
    linarith
  obtain ⟨a', b', e1, e2, ha, hl, h'⟩ := regGuard_ok h
  clear h
  injection e1 with e1
  injection e2 with e2
  subst e1 e2
  injection h' with h
  have hlen : 1 ≤ (a.zip b).length := by
    rw [List.length_zip, hl, min_self]
    exact List.length_pos_iff.2 ha
  have hd : ((a.zip b).length : Fl R).val ≠ 0 := fun e => (Fl.natCast_pos (R := R) hlen).ne' (Fl.ext e)
  have hs : (sumOver (a.zip b) (fun x : Fl R × Fl R => (x.1 - x.2) * (x.1 - x.2))).val = 0 := by
    have := nz _ (congrArg Fl.val h)
    rcases div_eq_zero_iff.1 this with h' | h'
    · exact h'
    · exact absurd h' hd
  have ht : ∀ x ∈ a.zip b, x.1 = x.2 := by
    intro x hx
    have h1 := term_le_sumOver (a.zip b) (fun x : Fl R × Fl R => (x.1 - x.2) * (x.1 - x.2)) (fun y _ => Fl.mul_self_nonneg' _) x hx
    rw [Fl.le_iff, hs] at h1
    have h2 : ((x.1 - x.2) * (x.1 - x.2)).val = 0 := le_antisymm h1 (Fl.mul_self_nonneg' (x.1 - x.2))
    have h3 := nz _ h2
    have h4 : (x.1 - x.2).val = 0 := by simpa using h3
    have h5 := nz _ h4
    exact Fl.ext (sub_eq_zero.1 h5)
  clear h hs hd hlen ha
  induction a generalizing b with
  | nil => exact (List.length_eq_zero_iff.1 hl).symm
  | cons x a ih =>
    cases b with
    | nil => simp at hl
    | cons y b =>
      have e := ht (x, y) (by rw [List.zip_cons_cons]; exact List.mem_cons_self)
      have e' := ih b (by simpa using hl) fun z hz => ht z (by rw [List.zip_cons_cons]; exact List.mem_cons_of_mem _ hz)
      rw [e']
      exact congrArg (· :: b) e

/-- three targets and predictions in binary64 -/
def exT : List (Fl Binary64.rounding) := [Binary64.lit (1 / 10), Binary64.lit (2 / 10), Binary64.lit 3]

/-- predictions (binary64 literals as in metrics/regression.go:53-56) -/
def exP : List (Fl Binary64.rounding) := [Binary64.lit 0, Binary64.lit (3 / 10), Binary64.lit (31 / 10)]

example : ∃ v w, mse (some exT) (some exP) = .ok v ∧ v.val = 5764607523034237 / 2 ^ 59 ∧ 0 ≤ v ∧
    r2Score (some exT) (some exP) = .ok w ∧ w.val = 1119667988539067 / 2 ^ 50 ∧ w ≤ 1 :=
  ⟨Fl.of _ (5764607523034237 / 2 ^ 59), Fl.of _ (1119667988539067 / 2 ^ 50), by decide +kernel, by decide +kernel,
    rounded_errors_nonneg (some exT) (some exP) _ (Or.inl (by decide +kernel)), by decide +kernel, by decide +kernel,
    rounded_scores_le_one (some exT) (some exP) _ (Or.inl (by decide +kernel))⟩

/-- **C269**: the accuracy is computed as 1 minus the error, so it may miss the share of correct predictions by more than the rounding of
that share: for one correct prediction of three it is not the binary64 number nearest to 1/3. -/
theorem accuracy_not_nearest : ∃ v, accuracy (some exT) (some [Binary64.lit (1 / 10), Binary64.lit 0, Binary64.lit 0]) = .ok v ∧
    v ≠ Binary64.lit 1 / Binary64.lit 3 ∧ 0 ≤ v ∧ v ≤ 1 := by
  have h : accuracy (some exT) (some [Binary64.lit (1 / 10), Binary64.lit 0, Binary64.lit 0]) =
      .ok (Fl.of _ (3002399751580331 / 2 ^ 53)) := by decide +kernel
  exact ⟨_, h, by decide +kernel, rounded_accuracy_range _ _ _ (Or.inr h)⟩

end Scigo.Round
