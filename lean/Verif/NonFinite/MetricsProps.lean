import Verif.Base.F64
import Verif.Metrics.Model

/-!
# C297: a missing value is not hidden by a metric
-/

namespace Scigo

namespace F64

theorem nan_add (x : F64) : nan + x = nan := by cases x <;> rfl
theorem add_nan (x : F64) : x + nan = nan := by cases x <;> rfl
theorem nan_sub (x : F64) : nan - x = nan := by cases x <;> rfl
theorem sub_nan (x : F64) : x - nan = nan := by cases x <;> rfl
theorem nan_mul (x : F64) : nan * x = nan := by cases x <;> rfl
theorem mul_nan (x : F64) : x * nan = nan := by cases x <;> rfl
theorem nan_div (x : F64) : nan / x = nan := by cases x <;> rfl
theorem div_nan (x : F64) : x / nan = nan := by cases x <;> rfl
theorem nan_beq (x : F64) : (nan == x) = false := by cases x <;> rfl
theorem beq_nan (x : F64) : (x == nan) = false := by cases x <;> rfl
theorem not_nan_lt (x : F64) : ¬ nan < x := by cases x <;> exact Bool.false_ne_true
theorem not_lt_nan (x : F64) : ¬ x < nan := by cases x <;> exact Bool.false_ne_true
theorem not_nan_le (x : F64) : ¬ nan ≤ x := by
  cases x <;> (rintro (h | h) <;> exact Bool.false_ne_true h)
theorem not_le_nan (x : F64) : ¬ x ≤ nan := by
  cases x <;> (rintro (h | h) <;> exact Bool.false_ne_true h)

/-- a running sum that starts as no number stays so -/
theorem foldl_add_of_nan {β : Type _} (f : β → F64) (l : List β) : l.foldl (fun s x => s + f x) nan = nan := by
  induction l with
  | nil => rfl
  | cons x l ih => rw [List.foldl_cons, nan_add]; exact ih

/-- a running sum with a term that is no number is none -/
theorem foldl_add_nan {β : Type _} (f : β → F64) (l : List β) (a : F64) (h : ∃ x ∈ l, f x = nan) : l.foldl (fun s x => s + f x) a = nan := by
  induction l generalizing a with
  | nil => obtain ⟨x, hx, -⟩ := h; cases hx
  | cons y l ih =>
    rw [List.foldl_cons]
    obtain ⟨x, hx, e⟩ := h
    rcases List.mem_cons.1 hx with rfl | hx
    · rw [e, add_nan]
      exact foldl_add_of_nan f l
    · exact ih _ ⟨x, hx, e⟩

theorem sumOver_nan {β : Type _} (f : β → F64) (l : List β) (h : ∃ x ∈ l, f x = nan) : sumOver l f = nan := foldl_add_nan f l 0 h

end F64

namespace NonFinite

open Scigo.Metrics F64

/-- a pair of entries one of which is missing (`math.NaN()`, cf. metrics/regression.go:64-83) -/
def Missing (x : F64 × F64) : Prop := x.1 = nan ∨ x.2 = nan

theorem Missing.sub {x : F64 × F64} (h : Missing x) : x.1 - x.2 = nan := by
  rcases h with h | h <;> rw [h]
  · exact nan_sub _
  · exact sub_nan _

theorem guard_ok {β : Type _} (t p : List F64) (h0 : t ≠ []) (h : p.length = t.length) (k : List (F64 × F64) → Outcome β) :
    regGuard (some t) (some p) k = k (t.zip p) := by
  unfold regGuard
  dsimp only
  rw [if_neg (fun e => h0 (List.length_eq_zero_iff.1 e)), if_neg (not_not_intro h)]

theorem mapeLoop_nan (z : List (F64 × F64)) (a : F64 × Nat) :
    ((∃ x ∈ z, Missing x ∧ (x.1 == 0) = false) ∨ a.1 = nan) →
    (z.foldl (fun s x => if x.1 != 0 then (s.1 + F64.abs (x.1 - x.2) / F64.abs x.1, s.2 + 1) else s) a).1 = nan := by
  induction z generalizing a with
  | nil =>
    rintro (⟨x, hx, -⟩ | h)
    · cases hx
    · exact h
  | cons y z ih =>
    intro h
    rw [List.foldl_cons]
    apply ih
    rcases h with ⟨x, hx, hm, h0⟩ | h
    · rcases List.mem_cons.1 hx with rfl | hx
      · right
        rw [bne, h0, Bool.not_false, if_pos rfl]
        show a.1 + F64.abs (x.1 - x.2) / F64.abs x.1 = nan
        rw [hm.sub]
        show a.1 + nan / _ = nan
        rw [nan_div, add_nan]
      · exact Or.inl ⟨x, hx, hm, h0⟩
    · right
      by_cases hb : (y.1 != 0) = true
      · rw [if_pos hb, h]
        exact nan_add _
      · rw [if_neg hb]
        exact h

/-- **C297** (partial): a missing value (NaN) in either vector makes MSE, RMSE and MAE NaN, R² and the explained variance NaN or an error, and MAPE NaN if it
sits at a target that is not zero. Missing: MAPE with NaN predicted for a zero target (`mape_hides_missing`), and the classification metrics
(`auc_hides_missing`, `accuracy_hides_missing`). -/
theorem missing_shows_partial (sqrt : F64 → F64) (hsqrt : sqrt nan = nan) (hundred : F64) (t p : List F64) (hl : p.length = t.length)
    (h : ∃ x ∈ t.zip p, Missing x) :
    mse (some t) (some p) = .ok nan ∧ rmse sqrt (some t) (some p) = .ok nan ∧ mae F64.abs (some t) (some p) = .ok nan ∧
    (r2Score (some t) (some p) = .ok nan ∨ ∃ e, r2Score (some t) (some p) = .err e) ∧
    (explainedVariance (some t) (some p) = .ok nan ∨ ∃ e, explainedVariance (some t) (some p) = .err e) ∧
    ((∃ x ∈ t.zip p, Missing x ∧ (x.1 == 0) = false) →
      mape F64.abs hundred (some t) (some p) = .ok nan ∨ ∃ e, mape F64.abs hundred (some t) (some p) = .err e) := by
  have h0 : t ≠ [] := by
    rintro rfl
    obtain ⟨x, hx, -⟩ := h
    cases hx
  have hd : ∃ x ∈ t.zip p, x.1 - x.2 = nan := by
    obtain ⟨x, hx, hm⟩ := h
    exact ⟨x, hx, hm.sub⟩
  have hsq : ∃ x ∈ t.zip p, (x.1 - x.2) * (x.1 - x.2) = nan := by
    obtain ⟨x, hx, e⟩ := hd
    exact ⟨x, hx, by rw [e]; exact nan_mul _⟩
  have hmse : mse (some t) (some p) = .ok nan := by
    unfold mse
    rw [guard_ok t p h0 hl, sumOver_nan _ _ hsq, nan_div]
  refine ⟨hmse, ?_, ?_, ?_, ?_, ?_⟩
  · unfold rmse
    rw [hmse]
    show Outcome.ok (sqrt nan) = _
    rw [hsqrt]
  · unfold mae
    have ha : ∃ x ∈ t.zip p, F64.abs (x.1 - x.2) = nan := by
      obtain ⟨x, hx, e⟩ := hd
      exact ⟨x, hx, by rw [e]; rfl⟩
    rw [guard_ok t p h0 hl, sumOver_nan _ _ ha, nan_div]
  · unfold r2Score
    rw [guard_ok t p h0 hl]
    dsimp only
    rw [sumOver_nan _ _ hsq, nan_div, sub_nan]
    split
    · exact Or.inr ⟨_, rfl⟩
    · exact Or.inl rfl
  · unfold explainedVariance
    rw [guard_ok t p h0 hl]
    dsimp only
    rw [sumOver_nan _ _ hd, nan_div]
    have hv : ∃ x ∈ t.zip p, (x.1 - x.2 - nan) * (x.1 - x.2 - nan) = nan := by
      obtain ⟨x, hx, -⟩ := hd
      exact ⟨x, hx, by rw [sub_nan]; exact nan_mul _⟩
    rw [sumOver_nan _ _ hv, nan_div, nan_div, sub_nan]
    split
    · exact Or.inr ⟨_, rfl⟩
    · exact Or.inl rfl
  · intro hz
    unfold mape
    rw [guard_ok t p h0 hl]
    dsimp only
    rw [show (mapeLoop F64.abs (t.zip p)).1 = nan from mapeLoop_nan _ _ (Or.inl hz), nan_div, nan_mul]
    split
    · exact Or.inr ⟨_, rfl⟩
    · exact Or.inl rfl

/-- **C297**, negation for MAPE: what is predicted for zero targets, NaN included, is invisible. -/
theorem mape_hides_missing (hundred : F64) (t p q : List F64) (hp : p.length = t.length) (hq : q.length = t.length)
    (h : ∀ i (hi : i < t.length), (t[i] == 0) = false → p[i]'(by omega) = q[i]'(by omega)) :
    mape F64.abs hundred (some t) (some p) = mape F64.abs hundred (some t) (some q) := by
  have key : ∀ (t p q : List F64) (a : F64 × Nat), p.length = t.length → q.length = t.length →
      (∀ i (hi : i < t.length) (hp : i < p.length) (hq : i < q.length), (t[i] == 0) = false → p[i] = q[i]) →
      (t.zip p).foldl (fun s x => if x.1 != 0 then (s.1 + F64.abs (x.1 - x.2) / F64.abs x.1, s.2 + 1) else s) a =
      (t.zip q).foldl (fun s x => if x.1 != 0 then (s.1 + F64.abs (x.1 - x.2) / F64.abs x.1, s.2 + 1) else s) a := by
    intro t
    induction t with
    | nil => intro p q a _ _ _; rfl
    | cons x t ih =>
      intro p q a hp hq h
      cases p with
      | nil => cases hp
      | cons y p =>
        cases q with
        | nil => cases hq
        | cons z q =>
          rw [List.zip_cons_cons, List.zip_cons_cons, List.foldl_cons, List.foldl_cons]
          have e : (if (x != 0) = true then (a.1 + F64.abs (x - y) / F64.abs x, a.2 + 1) else a) =
              (if (x != 0) = true then (a.1 + F64.abs (x - z) / F64.abs x, a.2 + 1) else a) := by
            by_cases hb : (x == 0) = false
            · rw [show y = z from h 0 (by simp) (by simp) (by simp) hb]
            · have hb' : (x != 0) = false := by rw [bne, Bool.eq_true_of_not_eq_false hb]; rfl
              rw [hb']
              rfl
          dsimp only
          rw [e]
          refine ih p q _ (by simpa using hp) (by simpa using hq) fun i h1 h2 h3 h4 => ?_
          exact h (i + 1) (by simpa using h1) (by simpa using h2) (by simpa using h3) h4
  have hm : mapeLoop F64.abs (t.zip p) = mapeLoop F64.abs (t.zip q) := key t p q (0, 0) hp hq fun i h1 _ _ h4 => h i h1 h4
  unfold mape regGuard
  dsimp only
  rw [hm, hp, hq]

/-- the number of rows where prediction and target differ does not notice a prediction that is no number: the accuracy is that of any wrong prediction -/
theorem count_missing (z : List (F64 × F64)) (hz : ∀ x ∈ z, Missing x) (s : Nat) :
    z.foldl (fun s x => if x.1 != x.2 then s + 1 else s) s = s + z.length := by
  induction z generalizing s with
  | nil => rfl
  | cons y z ih =>
    have hb : (y.1 == y.2) = false := by
      rcases hz y (List.mem_cons_self ..) with h | h <;> rw [h]
      · exact nan_beq _
      · exact beq_nan _
    rw [List.foldl_cons, bne, hb, Bool.not_false, if_pos rfl, ih (fun x hx => hz x (List.mem_cons_of_mem _ hx)), List.length_cons]
    omega

/-- **C297**, negation for the classification error: predictions that are all NaN are scored as wrong, the error is `n / n` and not NaN. -/
theorem accuracy_hides_missing (t p : List F64) (h0 : t ≠ []) (hl : p.length = t.length) (h : ∀ x ∈ t.zip p, Missing x) :
    classificationError (some t) (some p) = .ok ((t.length : F64) / (t.length : F64)) := by
  unfold classificationError clsGuard
  dsimp only
  rw [if_neg (fun e => h0 (List.length_eq_zero_iff.1 e)), if_neg (by omega), count_missing _ h, Nat.zero_add, List.length_zip, hl, Nat.min_self]

/-- **C297**, negation for AUC: scores that are all NaN are an area of 1 if the positive row comes first and of 0 if it comes last. `srt` is any sort that keeps two
rows whose second score is not greater in place. -/
theorem auc_hides_missing (half : F64) (srt : List (F64 × F64) → List (F64 × F64)) (hs : ∀ a b : F64 × F64, ¬ a.1 < b.1 → srt [a, b] = [a, b]) :
    auc half (round 2) srt (some [1, 0]) (some [nan, nan]) = .ok 1 ∧ auc half (round 2) srt (some [0, 1]) (some [nan, nan]) = .ok 0 := by
  have h1 : srt [(nan, (1 : F64)), (nan, 0)] = [(nan, 1), (nan, 0)] := hs _ _ (not_nan_lt _)
  have h2 : srt [(nan, (0 : F64)), (nan, 1)] = [(nan, 0), (nan, 1)] := hs _ _ (not_nan_lt _)
  constructor
  · unfold auc clsGuard
    simp only [List.length_cons, List.length_nil, List.zip_cons_cons, List.zip_nil_right, List.map_cons, List.map_nil]
    rw [h1, if_neg (by decide), if_neg (by decide), if_neg (by decide +kernel), if_neg (by decide +kernel)]
    decide +kernel
  · unfold auc clsGuard
    simp only [List.length_cons, List.length_nil, List.zip_cons_cons, List.zip_nil_right, List.map_cons, List.map_nil]
    rw [h2, if_neg (by decide), if_neg (by decide), if_neg (by decide +kernel), if_neg (by decide +kernel)]
    decide +kernel

/-- the hypotheses: one NaN among the predictions -/
example : mse (some [F64.round 1, F64.round 2]) (some [F64.round 1, nan]) = .ok nan :=
  (missing_shows_partial id rfl (F64.round 100) [F64.round 1, F64.round 2] [F64.round 1, nan] rfl ⟨(F64.round 2, nan), by simp, Or.inr rfl⟩).1

example : mape F64.abs (F64.round 100) (some [F64.round 0, F64.round 2]) (some [nan, F64.round 2]) = .ok 0 := by decide +kernel

example : accuracy (some [F64.round 1, F64.round 0]) (some [nan, F64.round 0]) = .ok (F64.round (1 / 2)) := by decide +kernel

end NonFinite

end Scigo
