import Verif.Round.LabelProps
import Verif.Boost.Objective

/-!
# C334: the gradients and Hessians of the boosting objectives in `float64`
-/

set_option linter.unusedSectionVars false

namespace Scigo.Round

open Scigo.Boost Scigo.Online

variable {K : Type} [Field K] [LinearOrder K] [IsStrictOrderedRing K] {R : Rounding K}

/-! ## Specification -/

/-- what is used of the literals and of package `math` (cf. sklearn/lightgbm/objectives.go:75,285,341-356): the floors are positive, `Exp` is not negative and does not decrease,
`Abs` is the absolute value, the default level lies between 0 and 1, the default power between 1 and 2 -/
structure SoundLits (N : Num (Fl R)) (L : Lits (Fl R)) (dv : Fl R) : Prop where
  e7 : 0 < L.e7
  e16 : 0 < L.e16
  abs : N.abs = Fl.abs
  exp_nonneg : ∀ x, 0 ≤ N.exp x
  exp_mono : Monotone N.exp
  half_nonneg : 0 ≤ N.half
  half_le : N.half ≤ 1
  two : 0 ≤ N.two
  dv_one : 1 ≤ dv
  dv_two : dv ≤ N.two

/-- a prediction below the target is pushed up (the gradient is not positive), one above the target is pushed down (cf. sklearn/lightgbm/objectives.go:30-40) -/
def PullsBack (o : Objective (Fl R)) : Prop := ∀ p t, (p ≤ t → o.grad p t ≤ 0) ∧ (t ≤ p → 0 ≤ o.grad p t)

/-- for targets that are not negative a larger prediction never has a smaller gradient: the loss looks convex (cf. sklearn/lightgbm/objectives.go:10-25) -/
def Rising (o : Objective (Fl R)) : Prop := ∀ p q t, 0 ≤ t → p ≤ q → o.grad p t ≤ o.grad q t

/-- the names of the regression objectives without a link function (cf. sklearn/lightgbm/objectives.go:681-737) -/
def plainNames : List String := ["regression", "regression_l2", "l2", "mean_squared_error", "mse", "regression_l1", "l1", "mean_absolute_error", "mae", "huber", "fair", "quantile",
  "lambdarank", "rank_xendcg"]

/-- the names of the log loss objectives (cf. sklearn/lightgbm/objectives.go:681-737) -/
def logLossNames : List String := ["binary", "binary_logloss", "logistic", "multiclass", "softmax", "multiclassova", "multiclass_logloss"]

/-! ## Helpers -/

theorem diff_le {p q t : Fl R} (h : p ≤ q) : p - t ≤ q - t := by
  have h' : p.val ≤ q.val := h
  exact R.mono (sub_le_sub_right h' _)

theorem diff_le_left {a b c : Fl R} (h : b ≤ a) : c - a ≤ c - b := by
  have h' : b.val ≤ a.val := h
  exact R.mono (sub_le_sub_left h' _)

theorem diff_nonpos {p t : Fl R} (h : p ≤ t) : p - t ≤ 0 := by
  have h' : p.val ≤ t.val := h
  exact R.nonpos (sub_nonpos.2 h')

theorem diff_nonneg {p t : Fl R} (h : t ≤ p) : 0 ≤ p - t := by
  have h' : t.val ≤ p.val := h
  exact R.nonneg (sub_nonneg.2 h')

theorem prod_le_left {a b c : Fl R} (h : a ≤ b) (hc : 0 ≤ c) : c * a ≤ c * b := by
  have h' : a.val ≤ b.val := h
  exact R.mono (mul_le_mul_of_nonneg_left h' hc)

theorem prod_le_left_neg {a b c : Fl R} (h : a ≤ b) (hc : c ≤ 0) : c * b ≤ c * a := by
  have h' : a.val ≤ b.val := h
  exact R.mono (mul_le_mul_of_nonpos_left h' hc)

theorem flip_le {a b : Fl R} (h : a ≤ b) : -b ≤ -a := by
  have h' : a.val ≤ b.val := h
  show (-b).val ≤ (-a).val
  rw [Fl.val_neg, Fl.val_neg]
  exact neg_le_neg h'

theorem floor_le_maxA (e x : Fl R) : e ≤ maxA e x := by
  unfold maxA
  split
  · rename_i h; exact h.le
  · exact le_rfl

theorem minA_mono {p q b : Fl R} (h : p ≤ q) : minA p b ≤ minA q b := by
  unfold minA
  split <;> split
  · exact le_rfl
  · rename_i h1 h2; exact absurd (lt_of_lt_of_le h1 h) h2
  · rename_i h1 h2; exact not_lt.1 h1
  · exact h

theorem clampA_mono (L : Lits (Fl R)) {p q : Fl R} (h : p ≤ q) : clampA L p ≤ clampA L q := by
  have hm := minA_mono (b := L.big) h
  unfold clampA
  generalize minA p L.big = x at *
  generalize minA q L.big = y at *
  unfold maxA
  split <;> split
  · exact hm
  · rename_i h1 h2; exact absurd (lt_of_lt_of_le h1 hm) h2
  · rename_i h1 h2; exact h2.le
  · exact le_rfl

theorem threshold_pos (d : Fl R) : 0 < huberDelta d := by
  unfold huberDelta
  split
  · exact (zero_lt_one : (0 : K) < 1)
  · rename_i h; exact not_le.1 h

theorem level_unit {N : Num (Fl R)} {L : Lits (Fl R)} {dv : Fl R} (S : SoundLits N L dv) (a : Fl R) : 0 ≤ quantileAlpha N a ∧ quantileAlpha N a ≤ 1 := by
  unfold quantileAlpha
  split
  · exact ⟨S.half_nonneg, S.half_le⟩
  · rename_i h
    exact ⟨(not_le.1 fun h2 => h (Or.inl h2)).le, (not_le.1 fun h2 => h (Or.inr h2)).le⟩

theorem power_range {N : Num (Fl R)} {L : Lits (Fl R)} {dv : Fl R} (S : SoundLits N L dv) (v : Fl R) : 1 ≤ tweediePower dv v N ∧ tweediePower dv v N ≤ N.two := by
  unfold tweediePower
  split
  · exact ⟨S.dv_one, S.dv_two⟩
  · rename_i h
    exact ⟨(not_le.1 fun h2 => h (Or.inl h2)).le, (not_le.1 fun h2 => h (Or.inr h2)).le⟩

set_option maxHeartbeats 1000000 in
theorem create_cases {N : Num (Fl R)} {L : Lits (Fl R)} {dv : Fl R} (S : SoundLits N L dv) {floor ceil : Fl R → Nat} {delta c a v : Fl R} {name : String} {o : Objective (Fl R)}
    (h : createObjective N L floor ceil delta c a v dv name = some o) :
    (name ∈ plainNames ∧ name ≠ "fair" ∧ (o = l2 N ∨ o = l1 N L ∨ (∃ d, 0 < d ∧ o = huber N L d) ∨ ∃ b, 0 ≤ b ∧ b ≤ 1 ∧ o = quantile N floor ceil b)) ∨
    (name = "fair" ∧ ∃ d, 0 < d ∧ o = fair N d) ∨
    (name ∉ plainNames ∧ name ∉ logLossNames ∧ (o = poisson N L ∨ o = gamma N L ∨ ∃ w, 1 ≤ w ∧ w ≤ N.two ∧ o = tweedie N L w)) ∨
    (name ∈ logLossNames ∧ (o = binary N L ∨ o = multiAdapter N L)) := by
  unfold createObjective at h
  split at h
  · rename_i hn
    refine Or.inl ⟨?_, ?_, Or.inl (Option.some.inj h).symm⟩
    · exact (by decide +kernel : ∀ x ∈ ["regression", "regression_l2", "l2", "mean_squared_error", "mse"], x ∈ plainNames) _ hn
    · exact (by decide +kernel : ∀ x ∈ ["regression", "regression_l2", "l2", "mean_squared_error", "mse"], x ≠ "fair") _ hn
  split at h
  · rename_i hn
    refine Or.inl ⟨?_, ?_, Or.inr (Or.inl (Option.some.inj h).symm)⟩
    · exact (by decide +kernel : ∀ x ∈ ["regression_l1", "l1", "mean_absolute_error", "mae"], x ∈ plainNames) _ hn
    · exact (by decide +kernel : ∀ x ∈ ["regression_l1", "l1", "mean_absolute_error", "mae"], x ≠ "fair") _ hn
  split at h
  · rename_i hn
    subst hn
    exact Or.inl ⟨by decide +kernel, by decide +kernel, Or.inr (Or.inr (Or.inl ⟨_, threshold_pos _, (Option.some.inj h).symm⟩))⟩
  split at h
  · rename_i hn
    exact Or.inr (Or.inl ⟨hn, _, threshold_pos _, (Option.some.inj h).symm⟩)
  split at h
  · rename_i hn
    subst hn
    exact Or.inr (Or.inr (Or.inl ⟨by decide +kernel, by decide +kernel, Or.inl (Option.some.inj h).symm⟩))
  split at h
  · rename_i hn
    subst hn
    exact Or.inl ⟨by decide +kernel, by decide +kernel, Or.inr (Or.inr (Or.inr ⟨_, (level_unit S _).1, (level_unit S _).2, (Option.some.inj h).symm⟩))⟩
  split at h
  · rename_i hn
    subst hn
    exact Or.inr (Or.inr (Or.inl ⟨by decide +kernel, by decide +kernel, Or.inr (Or.inl (Option.some.inj h).symm)⟩))
  split at h
  · rename_i hn
    subst hn
    exact Or.inr (Or.inr (Or.inl ⟨by decide +kernel, by decide +kernel, Or.inr (Or.inr ⟨_, (power_range S _).1, (power_range S _).2, (Option.some.inj h).symm⟩)⟩))
  split at h
  · rename_i hn
    refine Or.inl ⟨?_, ?_, Or.inl (Option.some.inj h).symm⟩
    · exact (by decide +kernel : ∀ x ∈ ["lambdarank", "rank_xendcg"], x ∈ plainNames) _ hn
    · exact (by decide +kernel : ∀ x ∈ ["lambdarank", "rank_xendcg"], x ≠ "fair") _ hn
  split at h
  · rename_i hn
    refine Or.inr (Or.inr (Or.inr ⟨?_, Or.inl (Option.some.inj h).symm⟩))
    exact (by decide +kernel : ∀ x ∈ ["binary", "binary_logloss", "logistic"], x ∈ logLossNames) _ hn
  split at h
  · rename_i hn
    refine Or.inr (Or.inr (Or.inr ⟨?_, Or.inr (Option.some.inj h).symm⟩))
    exact (by decide +kernel : ∀ x ∈ ["multiclass", "softmax", "multiclassova", "multiclass_logloss"], x ∈ logLossNames) _ hn
  · cases h

theorem huber_clamp_mono {d e w : Fl R} (hw : 0 < w) (h : d ≤ e) :
    (if d.abs ≤ w then d else if 0 < d then w else -w) ≤ (if e.abs ≤ w then e else if 0 < e then w else -w) := by
  have hw' : 0 < w.val := hw
  have h' : d.val ≤ e.val := h
  have ha : ∀ x : Fl R, x.abs ≤ w ↔ |x.val| ≤ w.val := fun x => by rw [← Fl.val_abs]; exact Iff.rfl
  have hp : ∀ x : Fl R, 0 < x ↔ 0 < x.val := fun _ => Iff.rfl
  simp only [ha, hp]
  suffices hs : (if |d.val| ≤ w.val then d.val else if 0 < d.val then w.val else -w.val) ≤ (if |e.val| ≤ w.val then e.val else if 0 < e.val then w.val else -w.val) by
    show Fl.val _ ≤ Fl.val _
    simpa only [apply_ite Fl.val, Fl.val_neg] using hs
  split_ifs <;> simp only [abs_le, not_and_or, not_le, not_lt] at * <;> first | linarith | (rcases ‹_ ∨ _› with h0 | h0 <;> linarith)

theorem l1_step_mono {d e w : Fl R} (hw : 0 < w) (h : d ≤ e) :
    (if d.abs < w then (0 : Fl R) else if 0 < d then 1 else -1) ≤ (if e.abs < w then 0 else if 0 < e then 1 else -1) := by
  have hw' : 0 < w.val := hw
  have h' : d.val ≤ e.val := h
  have ha : ∀ x : Fl R, x.abs < w ↔ |x.val| < w.val := fun x => by rw [← Fl.val_abs]; exact Iff.rfl
  have hp : ∀ x : Fl R, 0 < x ↔ 0 < x.val := fun _ => Iff.rfl
  simp only [ha, hp]
  suffices hs : (if |d.val| < w.val then (0 : K) else if 0 < d.val then 1 else -1) ≤ (if |e.val| < w.val then 0 else if 0 < e.val then 1 else -1) by
    show Fl.val _ ≤ Fl.val _
    simpa only [apply_ite Fl.val, Fl.val_neg, Fl.val_zero, Fl.val_one] using hs
  by_cases h1 : |d.val| < w.val
  · rw [if_pos h1]
    by_cases h2 : |e.val| < w.val
    · rw [if_pos h2]
    · rw [if_neg h2, if_pos]
      · exact zero_le_one
      · by_contra h3
        rw [abs_of_nonpos (not_lt.1 h3)] at h2
        have := (abs_lt.1 h1).1
        linarith
  · rw [if_neg h1]
    by_cases h3 : 0 < d.val
    · rw [abs_of_pos h3] at h1
      rw [if_pos h3, if_neg, if_pos (lt_of_lt_of_le h3 h')]
      rw [abs_of_pos (lt_of_lt_of_le h3 h')]
      linarith
    · rw [if_neg h3]
      split_ifs <;> linarith [zero_lt_one (α := K)]

theorem sigmoid_unit (N : Num (Fl R)) (L : Lits (Fl R)) (hp : ∀ x, 0 ≤ N.exp x) (p : Fl R) : 0 ≤ clampedSigmoid N L p ∧ clampedSigmoid N L p ≤ 1 := by
  have h1 : (1 : Fl R) ≤ 1 + N.exp (-clampA L p) := Fl.le_add_right' (hp _)
  have h0 : (0 : Fl R) ≤ 1 := (zero_le_one : (0 : K) ≤ 1)
  exact ⟨Fl.div_nonneg' h0 (h0.trans h1), Fl.div_le_one' h0 h1⟩

/-! ## Theorems -/

/-- **C334.** Every objective that `CreateObjectiveFunction` returns has a Hessian that is not negative, in any rounding. -/
theorem objective_hessian_nonneg {N : Num (Fl R)} {L : Lits (Fl R)} {dv : Fl R} (S : SoundLits N L dv) (floor ceil : Fl R → Nat) (delta c a v : Fl R) (name : String) (o : Objective (Fl R))
    (h : createObjective N L floor ceil delta c a v dv name = some o) (p t : Fl R) : 0 ≤ o.hess p t := by
  have h01 : (0 : Fl R) ≤ 1 := (zero_le_one : (0 : K) ≤ 1)
  rcases create_cases S h with ⟨-, -, rfl | rfl | ⟨d, hd, rfl⟩ | ⟨b, -, -, rfl⟩⟩ | ⟨-, d, hd, rfl⟩ | ⟨-, -, rfl | rfl | ⟨w, -, -, rfl⟩⟩ | ⟨-, rfl | rfl⟩
  · exact h01
  · exact h01
  · dsimp only [huber]
    split
    · exact h01
    · exact S.e7.le
  · exact h01
  · exact Fl.div_nonneg' (Fl.mul_self_nonneg' _) (Fl.mul_self_nonneg' _)
  · exact S.exp_nonneg _
  · exact S.e16.le.trans (floor_le_maxA _ _)
  · exact S.e16.le.trans (floor_le_maxA _ _)
  · exact S.e16.le.trans (floor_le_maxA _ _)
  · exact S.e16.le.trans (floor_le_maxA _ _)

/-- **C334 (partial: not for `fair` and `poisson`, see `fair_hessian_zero`).** The Hessian is positive, so that a leaf with at least one row has a positive sum of Hessians. -/
theorem objective_hessian_pos_partial {N : Num (Fl R)} {L : Lits (Fl R)} {dv : Fl R} (S : SoundLits N L dv) (floor ceil : Fl R → Nat) (delta c a v : Fl R) (name : String)
    (hf : name ≠ "fair") (hp : name ≠ "poisson") (o : Objective (Fl R)) (h : createObjective N L floor ceil delta c a v dv name = some o) (p t : Fl R) : 0 < o.hess p t := by
  have h01 : (0 : Fl R) < 1 := (zero_lt_one : (0 : K) < 1)
  have h' := h
  rcases create_cases S h with ⟨-, -, rfl | rfl | ⟨d, hd, rfl⟩ | ⟨b, -, -, rfl⟩⟩ | ⟨hn, -⟩ | ⟨h1, h2, h3⟩ | ⟨-, rfl | rfl⟩
  · exact h01
  · exact h01
  · dsimp only [huber]
    split
    · exact h01
    · exact S.e7
  · exact h01
  · exact absurd hn hf
  · unfold createObjective at h'
    simp only [plainNames, logLossNames, List.mem_cons, List.not_mem_nil, or_false, not_or] at h1 h2
    simp only [List.mem_cons, List.not_mem_nil, or_false, h1, h2, hp, if_false] at h'
    split at h'
    · obtain rfl := Option.some.inj h'
      exact S.e16.trans_le (floor_le_maxA _ _)
    split at h'
    · obtain rfl := Option.some.inj h'
      exact S.e16.trans_le (floor_le_maxA _ _)
    · cases h'
  · exact S.e16.trans_le (floor_le_maxA _ _)
  · exact S.e16.trans_le (floor_le_maxA _ _)

/-- **C334.** The gradients of the regression objectives without a link function point away from the target, in any rounding. -/
theorem plain_gradient_sign {N : Num (Fl R)} {L : Lits (Fl R)} {dv : Fl R} (S : SoundLits N L dv) (floor ceil : Fl R → Nat) (delta c a v : Fl R) (name : String)
    (hn : name ∈ plainNames) (o : Objective (Fl R)) (h : createObjective N L floor ceil delta c a v dv name = some o) : PullsBack o := by
  have h01 : (0 : Fl R) ≤ 1 := (zero_le_one : (0 : K) ≤ 1)
  have hneg : ∀ x : Fl R, 0 ≤ x → -x ≤ 0 := fun x hx => by
    have hx' : 0 ≤ x.val := hx
    show (-x).val ≤ 0
    rw [Fl.val_neg]; linarith
  have hz : ∀ p t : Fl R, t ≤ p → ¬ 0 < p - t → p - t = 0 := fun p t h1 h2 => le_antisymm (not_lt.1 h2) (diff_nonneg h1)
  have habs : (0 : Fl R).abs = 0 := by apply Fl.ext; rw [Fl.val_abs]; simp
  intro p t
  rcases create_cases S h with ⟨-, -, rfl | rfl | ⟨d, hd, rfl⟩ | ⟨b, hb0, hb1, rfl⟩⟩ | ⟨-, d, hd, rfl⟩ | ⟨h1, -⟩ | ⟨h1, -⟩
  · exact ⟨diff_nonpos, diff_nonneg⟩
  · simp only [l1, S.abs]
    refine ⟨fun hle => ?_, fun hle => ?_⟩
    · split
      · exact le_rfl
      · rw [if_neg (not_lt.2 (diff_nonpos hle))]
        exact hneg _ h01
    · by_cases h0 : 0 < p - t
      · rw [if_pos h0]; split
        · exact le_rfl
        · exact h01
      · rw [hz p t hle h0, habs, if_pos S.e7]
  · simp only [huber, S.abs]
    refine ⟨fun hle => ?_, fun hle => ?_⟩
    · split
      · exact diff_nonpos hle
      · rw [if_neg (not_lt.2 (diff_nonpos hle))]
        exact hneg _ hd.le
    · by_cases h0 : 0 < p - t
      · rw [if_pos h0]; split
        · exact h0.le
        · exact hd.le
      · rw [hz p t hle h0, habs, if_pos hd.le]
  · simp only [quantile]
    refine ⟨fun hle => ?_, fun hle => ?_⟩
    · rw [if_neg (not_lt.2 (diff_nonpos hle))]
      split
      · exact diff_nonpos hb1
      · exact le_rfl
    · rw [if_neg (not_lt.2 (diff_nonneg hle))]
      split
      · exact hb0
      · exact le_rfl
  · simp only [fair, S.abs]
    have hden : 0 ≤ (p - t).abs + d := Fl.add_nonneg' (by show 0 ≤ (p - t).abs.val; rw [Fl.val_abs]; exact abs_nonneg _) hd.le
    refine ⟨fun hle => ?_, fun hle => Fl.div_nonneg' (Fl.mul_nonneg' hd.le (diff_nonneg hle)) hden⟩
    refine R.nonpos (div_nonpos_of_nonpos_of_nonneg ?_ hden)
    exact R.nonpos (mul_nonpos_of_nonneg_of_nonpos hd.le (diff_nonpos hle))
  · exact absurd hn h1
  · exfalso
    revert h1 hn
    simp only [plainNames, logLossNames, List.mem_cons, List.not_mem_nil, or_false]
    rintro (rfl | rfl | rfl | rfl | rfl | rfl | rfl | rfl | rfl | rfl | rfl | rfl | rfl | rfl) <;> decide

/-- **C334 (partial: not for `fair`, see `fair_gradient_falls`).** For targets that are not negative, a larger prediction never has a smaller gradient, in any rounding. -/
theorem objective_gradient_rising_partial {N : Num (Fl R)} {L : Lits (Fl R)} {dv : Fl R} (S : SoundLits N L dv) (floor ceil : Fl R → Nat) (delta c a v : Fl R) (name : String)
    (hf : name ≠ "fair") (o : Objective (Fl R)) (h : createObjective N L floor ceil delta c a v dv name = some o) : Rising o := by
  intro p q t ht hpq
  rcases create_cases S h with ⟨-, -, rfl | rfl | ⟨d, hd, rfl⟩ | ⟨b, hb0, hb1, rfl⟩⟩ | ⟨hn, -⟩ | ⟨-, -, rfl | rfl | ⟨w, hw1, hw2, rfl⟩⟩ | ⟨-, rfl | rfl⟩
  · exact diff_le hpq
  · simp only [l1, S.abs]
    exact l1_step_mono S.e7 (diff_le hpq)
  · simp only [huber, S.abs]
    exact huber_clamp_mono hd (diff_le hpq)
  · simp only [quantile]
    have hd := diff_le (t := t) hpq
    have hb : b - 1 ≤ 0 := diff_nonpos hb1
    by_cases h1 : 0 < p - t
    · rw [if_pos h1, if_pos (h1.trans_le hd)]
    · rw [if_neg h1]
      by_cases h2 : p - t < 0
      · rw [if_pos h2]
        split
        · exact hb.trans hb0
        · split
          · exact le_rfl
          · exact hb
      · rw [if_neg h2]
        split
        · exact hb0
        · rw [if_neg (not_lt.2 ((not_lt.1 h2).trans hd))]
  · exact absurd hn hf
  · exact diff_le (S.exp_mono (minA_mono hpq))
  · exact prod_le_left (diff_le_left (prod_le_left (S.exp_mono (flip_le (clampA_mono L hpq))) ht)) S.two
  · refine prod_le_left ?_ S.two
    have h1 : N.exp (clampA L ((N.two - w) * p)) ≤ N.exp (clampA L ((N.two - w) * q)) := S.exp_mono (clampA_mono L (prod_le_left hpq (diff_nonneg hw2)))
    have h2 : t * N.exp (clampA L ((1 - w) * q)) ≤ t * N.exp (clampA L ((1 - w) * p)) := prod_le_left (S.exp_mono (clampA_mono L (prod_le_left_neg hpq (diff_nonpos hw1)))) ht
    exact (diff_le h1).trans (diff_le_left h2)
  · exact diff_le (lr_proba_monotone N S.exp_nonneg S.exp_mono _ _ (clampA_mono L hpq))
  · exact diff_le (lr_proba_monotone N S.exp_nonneg S.exp_mono _ _ (clampA_mono L hpq))

/-- **C334.** The gradient of a log loss lies between -1 and 0 for a row of the class and between 0 and 1 for any other row, in any rounding. -/
theorem log_loss_gradient {N : Num (Fl R)} {L : Lits (Fl R)} {dv : Fl R} (S : SoundLits N L dv) (floor ceil : Fl R → Nat) (delta c a v : Fl R) (name : String)
    (hn : name ∈ logLossNames) (o : Objective (Fl R)) (h : createObjective N L floor ceil delta c a v dv name = some o) (p : Fl R) :
    (-1 ≤ o.grad p 1 ∧ o.grad p 1 ≤ 0) ∧ (0 ≤ o.grad p 0 ∧ o.grad p 0 ≤ 1) := by
  have hu := sigmoid_unit N L S.exp_nonneg p
  have hm : (-1 : Fl R) ≤ 0 - 1 := by
    show (-1 : Fl R).val ≤ (0 - 1 : Fl R).val
    rw [Fl.val_sub, Fl.val_neg, Fl.val_zero, Fl.val_one, zero_sub, R.neg]
    have := (1 : Fl R).rep
    rw [Fl.val_one] at this
    rw [this]
  have key : (-1 ≤ clampedSigmoid N L p - 1 ∧ clampedSigmoid N L p - 1 ≤ 0) ∧ (0 ≤ clampedSigmoid N L p - 0 ∧ clampedSigmoid N L p - 0 ≤ 1) := by
    refine ⟨⟨hm.trans (diff_le hu.1), diff_nonpos hu.2⟩, diff_nonneg hu.1, (diff_le hu.2).trans ?_⟩
    show (1 - 0 : Fl R).val ≤ (1 : Fl R).val
    rw [Fl.val_sub, Fl.val_zero, sub_zero, (1 : Fl R).rep]
  rcases create_cases S h with ⟨h1, -⟩ | ⟨rfl, -⟩ | ⟨-, h1, -⟩ | ⟨-, rfl | rfl⟩
  · exfalso
    revert h1 hn
    simp only [plainNames, logLossNames, List.mem_cons, List.not_mem_nil, or_false]
    rintro (rfl | rfl | rfl | rfl | rfl | rfl | rfl) <;> decide
  · exact absurd hn (by decide)
  · exact absurd hn h1
  · exact key
  · exact key

/-- **C334.** The Huber gradient never exceeds the threshold, in any rounding. -/
theorem huber_gradient_bound {N : Num (Fl R)} {L : Lits (Fl R)} {dv : Fl R} (S : SoundLits N L dv) (floor ceil : Fl R → Nat) (delta c a v : Fl R) (hd : 0 < delta) (o : Objective (Fl R))
    (h : createObjective N L floor ceil delta c a v dv "huber" = some o) (p t : Fl R) : (o.grad p t).abs ≤ delta := by
  have e : o = huber N L delta := by
    have : createObjective N L floor ceil delta c a v dv "huber" = some (huber N L (huberDelta (if 0 < delta then delta else 1))) := rfl
    rw [this] at h
    rw [← Option.some.inj h, if_pos hd]
    unfold huberDelta
    rw [if_neg (not_le.2 hd)]
  have hd' : 0 < delta.val := hd
  subst e
  simp only [huber, S.abs]
  show Fl.val _ ≤ delta.val
  split
  · assumption
  · rw [Fl.val_abs]
    split
    · exact (abs_of_pos hd').le
    · rw [Fl.val_neg, abs_neg]; exact (abs_of_pos hd').le

/-! ## What does not hold -/

/-- the literals of the file (sklearn/lightgbm/objectives.go:75,285,356,390) -/
def exLits : Lits (Fl Binary64.rounding) := ⟨Binary64.lit (1 / 10 ^ 7), Binary64.lit (1 / 10 ^ 16), Binary64.lit (1 / 10 ^ 15), Binary64.lit 700⟩

/-- the `fair` objective as `CreateObjectiveFunction` returns it for the parameter `c` (sklearn/lightgbm/objectives.go:681-737) -/
def exFair (c : Fl Binary64.rounding) : Option (Objective (Fl Binary64.rounding)) :=
  createObjective exNum exLits (fun _ => 0) (fun _ => 0) 1 c (Binary64.lit (1 / 2)) (Binary64.lit (3 / 2)) (Binary64.lit (3 / 2)) "fair"

/-- **C334, what does not hold.** The Hessian of `fair` is zero for a prediction far from the target (2^540 with the default parameter 1), although the exact one is positive. -/
theorem fair_hessian_zero : ∃ o, exFair 1 = some o ∧ o.hess (Binary64.lit (2 ^ 540)) 0 = 0 := by
  refine ⟨fair exNum 1, rfl, ?_⟩
  decide +kernel

/-- **C334, what does not hold.** The gradient of `fair` can exceed the parameter, which bounds it in exact arithmetic: the parameter is 0.1, the difference 3·2^52. -/
theorem fair_gradient_exceeds : ∃ o, exFair (Binary64.lit (1 / 10)) = some o ∧ Binary64.lit (1 / 10) < o.grad (Binary64.lit 13510798882111488) 0 := by
  refine ⟨fair exNum (Binary64.lit (1 / 10)), ?_, ?_⟩
  · have e : huberDelta (if (0 : Fl Binary64.rounding) < Binary64.lit (1 / 10) then Binary64.lit (1 / 10) else 1) = Binary64.lit (1 / 10) := by decide +kernel
    exact congrArg (fun d => some (fair exNum d)) e
  decide +kernel

/-- **C334, what does not hold.** The gradient of `fair` can fall by a rounding error although the prediction grows. -/
theorem fair_gradient_falls : ∃ o, exFair 1 = some o ∧ ∃ p q : Fl Binary64.rounding, p < q ∧ o.grad q 0 < o.grad p 0 := by
  refine ⟨fair exNum 1, rfl, Binary64.lit (3533621745810779 / 1125899906842624), Binary64.lit (7067243491621559 / 2251799813685248), ?_, ?_⟩ <;> decide +kernel

/-! ## Examples -/

theorem exSound : SoundLits exNum exLits (Binary64.lit (3 / 2)) where
  e7 := by decide +kernel
  e16 := by decide +kernel
  abs := rfl
  exp_nonneg := exExp_like.nonneg
  exp_mono := by
    intro a b h
    show exExp a ≤ exExp b
    unfold exExp
    split
    · rename_i h1; rw [if_pos (h1.trans h)]
    · split
      · decide +kernel
      · exact le_rfl
  half_nonneg := by decide +kernel
  half_le := by decide +kernel
  two := by decide +kernel
  dv_one := by decide +kernel
  dv_two := by decide +kernel

/-- the hypotheses of the theorems hold for the `huber` objective in binary64 with threshold 0.3; its gradient at 1/10 for the target 7/10 is the negative threshold -/
example : ∃ o, createObjective exNum exLits (fun _ => 0) (fun _ => 0) (Binary64.lit (3 / 10)) 1 1 1 (Binary64.lit (3 / 2)) "huber" = some o ∧
    PullsBack o ∧ Rising o ∧ (∀ p t, 0 < o.hess p t) ∧ o.grad (Binary64.lit (1 / 10)) (Binary64.lit (7 / 10)) = Binary64.lit (-3 / 10) := by
  have h : createObjective exNum exLits (fun _ => 0) (fun _ => 0) (Binary64.lit (3 / 10)) 1 1 1 (Binary64.lit (3 / 2)) "huber" = some (huber exNum exLits (huberDelta
    (if (0 : Fl Binary64.rounding) < Binary64.lit (3 / 10) then Binary64.lit (3 / 10) else 1))) := rfl
  refine ⟨_, h, plain_gradient_sign exSound _ _ _ _ _ _ "huber" (by decide) _ h, objective_gradient_rising_partial exSound _ _ _ _ _ _ "huber" (by decide) _ h,
    objective_hessian_pos_partial exSound _ _ _ _ _ _ "huber" (by decide) (by decide) _ h, ?_⟩
  decide +kernel

/-- and for `binary`: both bounds of the gradient -/
example : ∃ o, createObjective exNum exLits (fun _ => 0) (fun _ => 0) 1 1 1 1 (Binary64.lit (3 / 2)) "binary" = some o ∧
    ((-1 ≤ o.grad (Binary64.lit (1 / 10)) 1 ∧ o.grad (Binary64.lit (1 / 10)) 1 ≤ 0) ∧ 0 ≤ o.grad (Binary64.lit (1 / 10)) 0 ∧ o.grad (Binary64.lit (1 / 10)) 0 ≤ 1) :=
  have h : createObjective exNum exLits (fun _ => 0) (fun _ => 0) 1 1 1 1 (Binary64.lit (3 / 2)) "binary" = some (binary exNum exLits) := rfl
  ⟨_, h, log_loss_gradient exSound _ _ _ _ _ _ "binary" (by decide) _ h _⟩

end Scigo.Round
