import Verif.Base.F64
import Verif.Metrics.Model

/-!
# C276: metrics of finite vectors in binary64 with overflow
-/

namespace Scigo.Overflow

open Scigo.Metrics

/-- a binary64 number without overflow (Go `float64`, cf. metrics/regression.go:53-56) -/
abbrev B := Fl Binary64.rounding

/-- a running sum: `m` is the number of terms the start counts for -/
theorem lift_foldl {β γ : Type _} (e : β → γ) (f : β → B) (g : γ → F64) (k : Nat) (hk : k ≤ 970) :
    ∀ (l : List β) (m : Nat) (a : B), m + l.length < 2 ^ 53 → (∀ x ∈ l, g (e x) = F64.lift (f x)) → (∀ x ∈ l, |(f x).val| ≤ 2 ^ k) →
      |a.val| ≤ m * 2 ^ k → (l.map e).foldl (fun s x => s + g x) (F64.lift a) = F64.lift (l.foldl (fun s x => s + f x) a) ∧
        |(l.foldl (fun s x => s + f x) a).val| ≤ (m + l.length : Nat) * 2 ^ k := by
  intro l
  induction l with
  | nil => intro m a _ _ _ ha; exact ⟨rfl, by simpa using ha⟩
  | cons x l ih =>
    intro m a hm hg hf ha
    rw [List.length_cons] at hm
    have hmax : ∀ n : Nat, n ≤ 2 ^ 53 → (n : ℚ) * 2 ^ k ≤ maxF64 := by
      intro n hn
      have h1 : (n : ℚ) ≤ 2 ^ 53 := by exact_mod_cast hn
      have h2 : (2 : ℚ) ^ 53 * 2 ^ k ≤ maxF64 := by
        rw [← pow_add]
        exact F64.pow_le_max (by omega)
      exact (mul_le_mul_of_nonneg_right h1 (by positivity)).trans h2
    have hx := hf x (List.mem_cons_self ..)
    have hb : |(a + f x).val| ≤ ((m + 1 : Nat) : ℚ) * 2 ^ k :=
      F64.add_bound ha hx (F64.rep_mul_pow (m + 1) k (by omega)) (by push_cast; linarith)
    have hs : F64.lift a + g (e x) = F64.lift (a + f x) := by
      rw [hg x (List.mem_cons_self ..)]
      exact F64.lift_add (ha.trans (hmax m (by omega))) (hx.trans (F64.pow_le_max (by omega)))
    obtain ⟨h1, h2⟩ := ih (m + 1) (a + f x) (by omega) (fun y hy => hg y (List.mem_cons_of_mem _ hy)) (fun y hy => hf y (List.mem_cons_of_mem _ hy)) hb
    refine ⟨?_, ?_⟩
    · rw [List.map_cons, List.foldl_cons, List.foldl_cons, hs]
      exact h1
    · rw [List.foldl_cons, List.length_cons, show m + (l.length + 1) = m + 1 + l.length from by omega]
      exact h2

/-- a sum of fewer than `2 ^ 53` terms, each at most `2 ^ k`, does not overflow if `k ≤ 970`, and is the rounded sum -/
theorem lift_sumOver {β γ : Type _} (l : List β) (e : β → γ) (f : β → B) (g : γ → F64) (k : Nat) (hk : k ≤ 970) (hl : l.length < 2 ^ 53)
    (hg : ∀ x ∈ l, g (e x) = F64.lift (f x)) (hf : ∀ x ∈ l, |(f x).val| ≤ 2 ^ k) :
    sumOver (l.map e) g = F64.lift (sumOver l f) ∧ |(sumOver l f).val| ≤ l.length * 2 ^ k := by
  have := lift_foldl e f g k hk l 0 0 (by omega) hg hf (by simp)
  rw [Nat.zero_add] at this
  exact this

theorem mean_bound {n k : Nat} (hn : n ≠ 0) (hn' : n < 2 ^ 53) (hk : k ≤ 970) (s : B) (hs : |s.val| ≤ n * 2 ^ k) :
    F64.lift s / (n : F64) = F64.lift (s / (n : B)) ∧ |(s / (n : B)).val| ≤ 2 ^ k := by
  have e : ((n : B)).val = n := by rw [Fl.val_natCast]; exact Binary64.nat_exact n hn'
  have hn0 : (0 : ℚ) < n := by exact_mod_cast Nat.pos_of_ne_zero hn
  have h1 : (n : ℚ) ≤ 2 ^ 53 := by exact_mod_cast hn'.le
  have h2 : (2 : ℚ) ^ 53 * 2 ^ k ≤ maxF64 := by
    rw [← pow_add]
    exact F64.pow_le_max (by omega)
  have hmax := (mul_le_mul_of_nonneg_right h1 (by positivity : (0 : ℚ) ≤ 2 ^ k)).trans h2
  constructor
  · rw [← F64.lift_natCast]
    refine F64.lift_div (hs.trans hmax) ?_ (by rw [e]; exact hn0.ne')
    rw [e, abs_of_pos hn0]
    exact h1.trans (F64.pow_le_max (k := 53) (by omega))
  · refine F64.rnd_abs_le (F64.rep_pow k) ?_
    rw [e, abs_div, abs_of_pos hn0, div_le_iff₀ hn0, mul_comm]
    exact hs

theorem zip_map {α β : Type _} (f : α → β) (a b : List α) : (a.map f).zip (b.map f) = (a.zip b).map fun x => (f x.1, f x.2) := by
  induction a generalizing b with
  | nil => rfl
  | cons x a ih => cases b with
    | nil => rfl
    | cons y b => simp [ih]

theorem guard_map {β : Type _} (a b : List B) (k : List (F64 × F64) → Outcome β) (k' : List (B × B) → Outcome β)
    (h : a.length ≠ 0 → a.length = b.length → k ((a.zip b).map fun x => (F64.lift x.1, F64.lift x.2)) = k' (a.zip b)) :
    regGuard (some (a.map F64.lift)) (some (b.map F64.lift)) k = regGuard (some a) (some b) k' := by
  unfold regGuard
  simp only [List.length_map]
  split
  · rfl
  · split
    · rfl
    · rename_i h0 h1
      rw [zip_map]
      exact h h0 (by omega)

theorem sq_lift {k : Nat} (hk : k ≤ 484) (x y : B) (hx : |x.val| ≤ 2 ^ k) (hy : |y.val| ≤ 2 ^ k) :
    F64.lift x - F64.lift y = F64.lift (x - y) ∧ |(x - y).val| ≤ 2 ^ (k + 1) ∧
    (F64.lift x - F64.lift y) * (F64.lift x - F64.lift y) = F64.lift ((x - y) * (x - y)) ∧ |((x - y) * (x - y)).val| ≤ 2 ^ (2 * k + 2) := by
  have hm : ∀ {z : B} {m : Nat}, m ≤ 1023 → |z.val| ≤ 2 ^ m → |z.val| ≤ maxF64 := fun h hz => hz.trans (F64.pow_le_max h)
  have h1 := F64.lift_sub (hm (by omega) hx) (hm (by omega) hy)
  have h2 : |(x - y).val| ≤ 2 ^ (k + 1) := F64.sub_bound hx hy (F64.rep_pow _) (by rw [pow_succ]; linarith)
  refine ⟨h1, h2, ?_, ?_⟩
  · rw [h1]
    exact F64.lift_mul (hm (by omega) h2) (hm (by omega) h2)
  · exact F64.mul_bound h2 h2 (F64.rep_pow _) (by rw [← pow_add]; exact le_of_eq (by congr 1; omega))

/-- **C276** (partial): for vectors of fewer than `2 ^ 53` entries of at most `2 ^ 484` in absolute value (about `5 * 10 ^ 145`), mean squared error and mean
absolute error are computed without overflow: they are the finite numbers of the arithmetic without largest number, so `rounded_errors_nonneg` and
`rounded_perfect` hold of them. Missing: larger entries (`finite_vectors_overflow`). -/
theorem finite_errors_partial (a b : List B) (hl : a.length < 2 ^ 53) (ha : ∀ x ∈ a, |x.val| ≤ 2 ^ 484) (hb : ∀ x ∈ b, |x.val| ≤ 2 ^ 484) :
    mse (some (a.map F64.lift)) (some (b.map F64.lift)) = (mse (some a) (some b)).map F64.lift ∧
    mae F64.abs (some (a.map F64.lift)) (some (b.map F64.lift)) = (mae Fl.abs (some a) (some b)).map F64.lift ∧
    ∀ v : B, mse (some a) (some b) = .ok v ∨ mae Fl.abs (some a) (some b) = .ok v → (F64.lift v).IsFin := by
  have hz : ∀ x ∈ a.zip b, |x.1.val| ≤ 2 ^ 484 ∧ |x.2.val| ≤ 2 ^ 484 := fun x hx => ⟨ha _ (List.of_mem_zip hx).1, hb _ (List.of_mem_zip hx).2⟩
  have hzl : (a.zip b).length < 2 ^ 53 := by rw [List.length_zip]; omega
  have h1 := lift_sumOver (a.zip b) (fun x => (F64.lift x.1, F64.lift x.2)) (fun x => (x.1 - x.2) * (x.1 - x.2)) (fun x => (x.1 - x.2) * (x.1 - x.2)) 970
    (le_refl _) hzl (fun x hx => (sq_lift (le_refl _) _ _ (hz x hx).1 (hz x hx).2).2.2.1) (fun x hx => (sq_lift (le_refl _) _ _ (hz x hx).1 (hz x hx).2).2.2.2)
  have h2 := lift_sumOver (a.zip b) (fun x => (F64.lift x.1, F64.lift x.2)) (fun x => Fl.abs (x.1 - x.2)) (fun x => F64.abs (x.1 - x.2)) 970
    (le_refl _) hzl
    (fun x hx => by
      obtain ⟨e, b, -, -⟩ := sq_lift (le_refl _) _ _ (hz x hx).1 (hz x hx).2
      rw [e]
      exact F64.lift_abs (b.trans (F64.pow_le_max (by omega))))
    (fun x hx => by
      obtain ⟨e, b, -, -⟩ := sq_lift (le_refl _) _ _ (hz x hx).1 (hz x hx).2
      rw [Fl.val_abs, abs_abs]
      exact b.trans (pow_le_pow_right₀ (by norm_num) (by omega)))
  have m0 : a.length ≠ 0 → a.length = b.length → (a.zip b).length ≠ 0 := by
    intro p q
    rw [List.length_zip]
    omega
  refine ⟨?_, ?_, ?_⟩
  · unfold mse
    rw [guard_map a b _ (fun z => .ok (F64.lift (sumOver z (fun x => (x.1 - x.2) * (x.1 - x.2)) / (z.length : B))))]
    · unfold regGuard
      dsimp only
      split
      · rfl
      · split <;> rfl
    · intro p q
      rw [h1.1, List.length_map, (mean_bound (m0 p q) hzl (le_refl _) _ h1.2).1]
  · unfold mae
    rw [guard_map a b _ (fun z => .ok (F64.lift (sumOver z (fun x => Fl.abs (x.1 - x.2)) / (z.length : B))))]
    · unfold regGuard
      dsimp only
      split
      · rfl
      · split <;> rfl
    · intro p q
      rw [h2.1, List.length_map, (mean_bound (m0 p q) hzl (le_refl _) _ h2.2).1]
  · intro v hv
    have hmax : (2 : ℚ) ^ 970 ≤ maxF64 := F64.pow_le_max (by omega)
    have hg : ∀ (k : List (B × B) → B), regGuard (some a) (some b) (fun z => .ok (k z)) = .ok v → a.length ≠ 0 ∧ a.length = b.length ∧ v = k (a.zip b) := by
      intro k h
      unfold regGuard at h
      dsimp only at h
      split at h
      · cases h
      · split at h
        · cases h
        · injection h with h
          exact ⟨by assumption, by omega, h.symm⟩
    rcases hv with hv | hv
    · obtain ⟨p, q, rfl⟩ := hg _ hv
      exact F64.lift_isFin ((mean_bound (m0 p q) hzl (le_refl _) _ h1.2).2.trans hmax)
    · obtain ⟨p, q, rfl⟩ := hg _ hv
      exact F64.lift_isFin ((mean_bound (m0 p q) hzl (le_refl _) _ h2.2).2.trans hmax)

/-- entries around `10 ^ 100` are fine -/
example : ∀ x ∈ [Binary64.lit (10 ^ 100), Binary64.lit (-3 * 10 ^ 99)], |x.val| ≤ 2 ^ 484 := by decide +kernel

/-- **C276** (partial): under the same bounds R2Score is never NaN, fails exactly when the score without overflow fails, and is that score unless it is infinite. -/
theorem finite_r2_partial (a b : List B) (hl : a.length < 2 ^ 53) (ha : ∀ x ∈ a, |x.val| ≤ 2 ^ 484) (hb : ∀ x ∈ b, |x.val| ≤ 2 ^ 484) :
    (∀ e, r2Score (some (a.map F64.lift)) (some (b.map F64.lift)) = .err e ↔ r2Score (some a) (some b) = .err e) ∧
    ∀ w, r2Score (some (a.map F64.lift)) (some (b.map F64.lift)) = .ok w → w ≠ .nan ∧ (w.IsFin → ∃ v, r2Score (some a) (some b) = .ok v ∧ w = F64.lift v) := by
  have hz : ∀ x ∈ a.zip b, |x.1.val| ≤ 2 ^ 484 ∧ |x.2.val| ≤ 2 ^ 484 := fun x hx => ⟨ha _ (List.of_mem_zip hx).1, hb _ (List.of_mem_zip hx).2⟩
  have hzl : (a.zip b).length < 2 ^ 53 := by rw [List.length_zip]; omega
  have hround : ∀ q, F64.round q ≠ .nan := by
    intro q
    unfold F64.round
    split <;> simp
  have herr : ∀ e', (∀ e, (.err e' : Outcome F64) = .err e ↔ (.err e' : Outcome B) = .err e) ∧
      ∀ w, (.err e' : Outcome F64) = .ok w → w ≠ .nan ∧ (w.IsFin → ∃ v, (.err e' : Outcome B) = .ok v ∧ w = F64.lift v) := by
    intro e'
    exact ⟨fun e => ⟨fun h => (by injection h with h; rw [h]), fun h => (by injection h with h; rw [h])⟩, fun w hw => by cases hw⟩
  by_cases h0 : a.length = 0
  · have e1 : r2Score (some (a.map F64.lift)) (some (b.map F64.lift)) = .err .value := by simp [r2Score, regGuard, h0]
    have e2 : r2Score (some a) (some b) = .err .value := by simp [r2Score, regGuard, h0]
    rw [e1, e2]
    exact herr _
  by_cases hlen : b.length = a.length
  swap
  · have e1 : r2Score (some (a.map F64.lift)) (some (b.map F64.lift)) = .err (.dimension a.length b.length 0) := by simp [r2Score, regGuard, h0, hlen]
    have e2 : r2Score (some a) (some b) = .err (.dimension a.length b.length 0) := by simp [r2Score, regGuard, h0, hlen]
    rw [e1, e2]
    exact herr _
  have m0 : (a.zip b).length ≠ 0 := by rw [List.length_zip]; omega
  have hs := lift_sumOver (a.zip b) (fun x => (F64.lift x.1, F64.lift x.2)) (fun x => x.1) (fun x => x.1) 484 (by omega) hzl (fun x _ => rfl) (fun x hx => (hz x hx).1)
  obtain ⟨hm1, hm2⟩ := mean_bound m0 hzl (by omega) _ hs.2
  set mean : B := sumOver (a.zip b) (fun x => x.1) / ((a.zip b).length : B) with hmean
  have ht := lift_sumOver (a.zip b) (fun x => (F64.lift x.1, F64.lift x.2)) (fun x => (x.1 - mean) * (x.1 - mean))
    (fun x => (x.1 - F64.lift mean) * (x.1 - F64.lift mean)) 970
    (le_refl _) hzl (fun x hx => (sq_lift (le_refl _) _ _ (hz x hx).1 hm2).2.2.1) (fun x hx => (sq_lift (le_refl _) _ _ (hz x hx).1 hm2).2.2.2)
  have hr := lift_sumOver (a.zip b) (fun x => (F64.lift x.1, F64.lift x.2)) (fun x => (x.1 - x.2) * (x.1 - x.2)) (fun x => (x.1 - x.2) * (x.1 - x.2)) 970
    (le_refl _) hzl (fun x hx => (sq_lift (le_refl _) _ _ (hz x hx).1 (hz x hx).2).2.2.1) (fun x hx => (sq_lift (le_refl _) _ _ (hz x hx).1 (hz x hx).2).2.2.2)
  set tss : B := sumOver (a.zip b) (fun x => (x.1 - mean) * (x.1 - mean))
  set rss : B := sumOver (a.zip b) (fun x => (x.1 - x.2) * (x.1 - x.2))
  have hbig : ((a.zip b).length : ℚ) * 2 ^ 970 ≤ maxF64 := by
    have h1 : ((a.zip b).length : ℚ) ≤ 2 ^ 53 := by exact_mod_cast hzl.le
    have h2 : (2 : ℚ) ^ 53 * 2 ^ 970 ≤ maxF64 := by
      rw [← pow_add]
      exact F64.pow_le_max (by omega)
    exact (mul_le_mul_of_nonneg_right h1 (by positivity)).trans h2
  have et := ht.2.trans hbig
  have er := hr.2.trans hbig
  have e0 : (F64.lift tss == (0 : F64)) = decide (tss = 0) := by
    rw [← F64.lift_zero]
    exact F64.lift_eq et (by rw [Fl.val_zero, abs_zero]; exact F64.maxF64_pos.le)
  have f1 : r2Score (some (a.map F64.lift)) (some (b.map F64.lift)) =
      if tss = 0 then .err (.other "no variance") else .ok (1 - F64.lift rss / F64.lift tss) := by
    unfold r2Score regGuard
    simp only [List.length_map, h0, hlen, if_false, ne_eq, not_true_eq_false, zip_map]
    rw [hs.1, hm1, ht.1, hr.1, e0]
    simp only [decide_eq_true_iff]
  have f2 : r2Score (some a) (some b) = if tss = 0 then .err (.other "no variance") else .ok (1 - rss / tss) := by
    unfold r2Score regGuard
    simp only [h0, hlen, if_false, ne_eq, not_true_eq_false, beq_iff_eq]
    rfl
  rw [f1, f2]
  by_cases h : tss = 0
  · rw [if_pos h, if_pos h]
    exact herr _
  rw [if_neg h, if_neg h]
  refine ⟨fun e => (by constructor <;> intro h <;> cases h), fun w hw => ?_⟩
  injection hw with hw
  subst hw
  rw [F64.lift_div er et (fun e => h (Fl.ext e)), ← F64.lift_one]
  have h1 : |(1 : B).val| ≤ maxF64 := by
    rw [Fl.val_one, abs_one]
    exact F64.pow_le_max (k := 0) (by omega)
  by_cases hq : |(rss / tss).val| ≤ maxF64
  · rw [F64.lift_sub h1 hq]
    exact ⟨hround _, fun _ => ⟨_, rfl, rfl⟩⟩
  · have : F64.lift (rss / tss) = .inf (decide ((rss / tss).val < 0)) := by
      unfold F64.lift F64.round
      rw [dif_neg]
      rw [show Binary64.rnd (rss / tss).val = (rss / tss).val from (rss / tss).rep]
      exact hq
    rw [this, F64.lift_fin h1]
    exact ⟨fun h => (by cases h), fun h => h.elim⟩

/-- **C276** is false: the squares of the finite vector `[2 ^ 600, - 2 ^ 600]` overflow, so its mean squared error to zeros is infinite and its R2 score is not a
number. The mean of `[2 ^ 1023, 2 ^ 1023]` is infinite, so its lack of variance is not noticed. No error is reported. -/
theorem finite_vectors_overflow :
    mse (some [F64.round (2 ^ 600), F64.round (-2 ^ 600)]) (some [0, 0]) = .ok (.inf false) ∧
    r2Score (some [F64.round (2 ^ 600), F64.round (-2 ^ 600)]) (some [0, 0]) = .ok .nan ∧
    r2Score (some [F64.round (2 ^ 1023), F64.round (2 ^ 1023)]) (some [0, 0]) = .ok .nan := by
  decide +kernel

end Scigo.Overflow
