import Verif.Metrics.Model
import Mathlib.Algebra.Order.Field.Basic
import Mathlib.Algebra.Order.BigOperators.Group.List
import Mathlib.Algebra.Order.Ring.Abs
import Mathlib.Data.Real.Sqrt
import Mathlib.Tactic.Ring
import Mathlib.Tactic.FieldSimp
import Mathlib.Tactic.Linarith
import Mathlib.Tactic.Positivity

namespace Scigo.Metrics

variable {α β γ : Type _}

theorem regGuard_some {a b : List α} (ha : a ≠ []) (hl : a.length = b.length)
    (k : List (α × α) → Outcome β) : regGuard (some a) (some b) k = k (a.zip b) := by
  have h0 : a.length ≠ 0 := by simpa using ha
  simp only [regGuard, if_neg h0, ← hl, ne_eq, not_true_eq_false, if_false]

theorem clsGuard_some {a b : List α} (ha : a ≠ []) (hl : a.length = b.length)
    (k : List (α × α) → Outcome β) : clsGuard (some a) (some b) k = k (a.zip b) := by
  have h0 : a.length ≠ 0 := by simpa using ha
  simp only [clsGuard, if_neg h0, ← hl, ne_eq, not_true_eq_false, if_false]

theorem regGuard_ok_iff (t p : Vec α) (k : List (α × α) → Outcome β) :
    (∃ v, regGuard t p k = .ok v) ↔
      ∃ a b, t = some a ∧ p = some b ∧ a ≠ [] ∧ a.length = b.length ∧ ∃ v, k (a.zip b) = .ok v := by
  constructor
  · rintro ⟨v, h⟩
    cases t with
    | none => simp [regGuard] at h
    | some a =>
      cases p with
      | none => simp only [regGuard] at h; split at h <;> simp at h
      | some b =>
        simp only [regGuard] at h
        split at h
        · simp at h
        · next h0 =>
          split at h
          · simp at h
          · next h1 =>
            exact ⟨a, b, rfl, rfl, by simpa using h0, (not_not.1 h1).symm, v, h⟩
  · rintro ⟨a, b, rfl, rfl, ha, hl, v, h⟩
    exact ⟨v, by rw [regGuard_some ha hl]; exact h⟩

theorem clsGuard_ok_iff (t p : Vec α) (k : List (α × α) → Outcome β) :
    (∃ v, clsGuard t p k = .ok v) ↔
      ∃ a b, t = some a ∧ p = some b ∧ a ≠ [] ∧ a.length = b.length ∧ ∃ v, k (a.zip b) = .ok v := by
  constructor
  · rintro ⟨v, h⟩
    cases t with
    | none => simp [clsGuard] at h
    | some a =>
      cases p with
      | none => simp [clsGuard] at h
      | some b =>
        simp only [clsGuard] at h
        split at h
        · simp at h
        · next h0 =>
          split at h
          · simp at h
          · next h1 =>
            exact ⟨a, b, rfl, rfl, by simpa using h0, not_not.1 h1, v, h⟩
  · rintro ⟨a, b, rfl, rfl, ha, hl, v, h⟩
    exact ⟨v, by rw [clsGuard_some ha hl]; exact h⟩

theorem zip_ne_nil {a b : List α} (ha : a ≠ []) (hl : a.length = b.length) : a.zip b ≠ [] := by
  cases a with
  | nil => exact absurd rfl ha
  | cons x xs => cases b with
    | nil => simp at hl
    | cons y ys => simp

theorem zip_self_eq (a : List α) : a.zip a = a.map (fun x => (x, x)) := by
  induction a with
  | nil => rfl
  | cons x xs ih => simp [ih]

theorem forall_zip_eq {a b : List α} (hl : a.length = b.length) :
    (∀ x ∈ a.zip b, x.1 = x.2) ↔ a = b := by
  constructor
  · induction a generalizing b with
    | nil => intro _; cases b with
      | nil => rfl
      | cons => simp at hl
    | cons x xs ih =>
      cases b with
      | nil => simp at hl
      | cons y ys =>
        intro h
        simp only [List.zip_cons_cons, List.mem_cons, forall_eq_or_imp] at h
        rw [h.1, ih (by simpa using hl) h.2]
  · rintro rfl x hx
    rw [zip_self_eq] at hx
    obtain ⟨y, _, rfl⟩ := List.mem_map.1 hx
    rfl

section K

variable {K : Type _} [Field K] [LinearOrder K] [IsStrictOrderedRing K]

theorem sum_map_nonneg (z : List β) (f : β → K) (hf : ∀ x ∈ z, 0 ≤ f x) :
    0 ≤ (z.map f).sum := by
  apply List.sum_nonneg
  intro y hy
  obtain ⟨x, hx, rfl⟩ := List.mem_map.1 hy
  exact hf x hx

theorem sum_map_eq_zero_iff (z : List β) (f : β → K) (hf : ∀ x ∈ z, 0 ≤ f x) :
    (z.map f).sum = 0 ↔ ∀ x ∈ z, f x = 0 := by
  induction z with
  | nil => simp
  | cons x xs ih =>
    have h1 := hf x (by simp)
    have h2 := sum_map_nonneg xs f (fun y hy => hf y (by simp [hy]))
    have ih' := ih (fun y hy => hf y (by simp [hy]))
    simp only [List.map_cons, List.sum_cons, List.mem_cons, forall_eq_or_imp]
    rw [← ih']
    constructor
    · intro h; constructor <;> linarith
    · rintro ⟨h3, h4⟩; rw [h3, h4, add_zero]

theorem sum_map_le (z : List β) (f g : β → K) (h : ∀ x ∈ z, f x ≤ g x) :
    (z.map f).sum ≤ (z.map g).sum := by
  induction z with
  | nil => simp
  | cons x xs ih =>
    simp only [List.map_cons, List.sum_cons]
    exact add_le_add (h x (by simp)) (ih (fun y hy => h y (by simp [hy])))

omit [LinearOrder K] [IsStrictOrderedRing K] in
/-- sum of squared deviations from `m` -/
theorem sum_sq_dev (z : List β) (f : β → K) (m : K) :
    (z.map (fun x => (f x - m) * (f x - m))).sum
      = (z.map (fun x => f x * f x)).sum - 2 * m * (z.map f).sum + z.length * (m * m) := by
  induction z with
  | nil => simp
  | cons x xs ih =>
    simp only [List.map_cons, List.sum_cons, ih, List.length_cons, Nat.cast_add, Nat.cast_one]
    ring

theorem length_pos_cast {z : List β} (hz : z ≠ []) : (0 : K) < (z.length : K) := by
  exact_mod_cast List.length_pos_iff.2 hz

/-- deviation from the mean: `Σ (f-m)² = Σ f² - (Σ f)²/n` -/
theorem sum_sq_dev_mean (z : List β) (hz : z ≠ []) (f : β → K) :
    (z.map (fun x => (f x - (z.map f).sum / z.length) * (f x - (z.map f).sum / z.length))).sum
      = (z.map (fun x => f x * f x)).sum - (z.map f).sum * (z.map f).sum / z.length := by
  have hn : (z.length : K) ≠ 0 := (length_pos_cast hz).ne'
  rw [sum_sq_dev]
  field_simp
  ring

theorem cauchy (z : List β) (f : β → K) :
    (z.map f).sum * (z.map f).sum ≤ z.length * (z.map (fun x => f x * f x)).sum := by
  by_cases hz : z = []
  · subst hz; simp
  · have h := sum_map_nonneg z
      (fun x => (f x - (z.map f).sum / z.length) * (f x - (z.map f).sum / z.length))
      (fun x _ => mul_self_nonneg _)
    rw [sum_sq_dev_mean z hz] at h
    have hn := length_pos_cast (K := K) hz
    have : (z.map f).sum * (z.map f).sum / z.length ≤ (z.map (fun x => f x * f x)).sum := by
      linarith
    rwa [div_le_iff₀ hn, mul_comm (z.map (fun x => f x * f x)).sum] at this

omit [LinearOrder K] [IsStrictOrderedRing K] in
theorem sum_map_perm {z z' : List β} (h : z.Perm z') (f : β → K) :
    (z.map f).sum = (z'.map f).sum := (h.map f).sum_eq

omit [LinearOrder K] [IsStrictOrderedRing K] in
theorem map_fst_zip' {a b : List K} (hl : a.length = b.length) : (a.zip b).map Prod.fst = a :=
  List.map_fst_zip hl.le

omit [LinearOrder K] [IsStrictOrderedRing K] in
theorem map_snd_zip' {a b : List K} (hl : a.length = b.length) : (a.zip b).map Prod.snd = b :=
  List.map_snd_zip hl.ge

omit [IsStrictOrderedRing K] in
theorem mapeLoop_eq (z : List (K × K)) :
    mapeLoop abs z =
      (((z.filter (fun x => decide (x.1 ≠ 0))).map (fun x => |x.1 - x.2| / |x.1|)).sum,
        (z.filter (fun x => decide (x.1 ≠ 0))).length) := by
  have h : ∀ (s : K × Nat), z.foldl (fun s x =>
      if x.1 != 0 then (s.1 + |x.1 - x.2| / |x.1|, s.2 + 1) else s) s =
      (s.1 + ((z.filter (fun x => decide (x.1 ≠ 0))).map (fun x => |x.1 - x.2| / |x.1|)).sum,
        s.2 + (z.filter (fun x => decide (x.1 ≠ 0))).length) := by
    induction z with
    | nil => intro s; simp
    | cons x xs ih =>
      intro s
      rw [List.foldl_cons, ih]
      by_cases hx : x.1 = 0
      · simp [hx]
      · simp [hx, add_assoc, Nat.add_comm, Nat.add_left_comm]
  unfold mapeLoop
  rw [h]; simp

end K

end Scigo.Metrics
