import Verif.Boost.InitProps

/-!
# The objective that a name stands for (C243)

`CreateObjectiveFunction` of `sklearn/lightgbm/objectives.go`: its names, its parameters and its answer to unknown names.
-/

set_option linter.unusedSectionVars false

namespace Scigo.Boost

open Scigo.Online

variable {α : Type}

section
variable [Field α] [LinearOrder α] [IsStrictOrderedRing α]

/-- C243: the power of the Tweedie objective is strictly between 1 and 2 whatever is given: the number given if it is, otherwise the default -/
theorem tweediePower_range (N : Num α) (h2 : N.two = 2) (dv v : α) (hd : 1 < dv ∧ dv < 2) :
    (1 < tweediePower dv v N ∧ tweediePower dv v N < 2) ∧ (1 < v ∧ v < 2 → tweediePower dv v N = v) ∧
      (¬ (1 < v ∧ v < 2) → tweediePower dv v N = dv) := by
  unfold tweediePower
  rw [h2]
  by_cases h : v ≤ 1 ∨ 2 ≤ v
  · rw [if_pos h]
    refine ⟨hd, fun h' => ?_, fun _ => rfl⟩
    rcases h with h | h
    · exact absurd h'.1 (not_lt.2 h)
    · exact absurd h'.2 (not_lt.2 h)
  · rw [if_neg h]
    rw [not_or, not_le, not_le] at h
    exact ⟨h, fun _ => rfl, fun h' => absurd h h'⟩

/-- the numbers with which an objective is created: those given if they are in the range of the parameter, otherwise the defaults -/
structure Settled (α : Type) where
  delta : α
  c : α
  quantile : α
  power : α

/-- the spec of the parameters: positive, positive, strictly between 0 and 1, strictly between 1 and 2 -/
def Settled.From (s : Settled α) (delta c a v half dv : α) : Prop :=
  s.delta = (if 0 < delta then delta else 1) ∧ s.c = (if 0 < c then c else 1) ∧
    s.quantile = (if 0 < a ∧ a < 1 then a else half) ∧ s.power = (if 1 < v ∧ v < 2 then v else dv)

/-- **C111**: no objective of any name fails on an empty label list: the initial score is zero -/
theorem empty_labels_init (N : Num α) (L : Lits α) (floor ceil : α → Nat) (delta c a v dv : α) (name : String) (o : Objective α)
    (h : createObjective N L floor ceil delta c a v dv name = some o) : o.init [] = 0 := by
  have step : ∀ {P : Prop} [Decidable P] {x : Objective α} {rest : Option (Objective α)}, x.init [] = 0 → (rest = some o → o.init [] = 0) →
      (if P then some x else rest) = some o → o.init [] = 0 := by
    intro P _ x rest hx hr h
    split at h
    · injection h with h
      rw [← h]; exact hx
    · exact hr h
  unfold createObjective at h
  revert h
  exact step rfl (step rfl (step rfl (step rfl (step rfl (step rfl (step rfl (step rfl (step rfl (step rfl (step rfl (fun h => by cases h)))))))))))

/-- **C243** Every name in the list stands for the objective it names, aliases included; the parameters used are those given if they
are in range, the defaults otherwise; every other name is refused. -/
theorem objective_by_name (N : Num α) (L : Lits α) (h2 : N.two = 2) (hh : 0 < N.half ∧ N.half < 1) (floor ceil : α → Nat) (delta c a v dv : α)
    (hd : 1 < dv ∧ dv < 2) (s : Settled α) (hs : s.From delta c a v N.half dv) :
    let make := createObjective N L floor ceil delta c a v dv
    (∀ n ∈ ["regression", "regression_l2", "l2", "mean_squared_error", "mse", "lambdarank", "rank_xendcg"], make n = some (l2 N)) ∧
    (∀ n ∈ ["regression_l1", "l1", "mean_absolute_error", "mae"], make n = some (l1 N L)) ∧
    make "huber" = some (huber N L s.delta) ∧ make "fair" = some (fair N s.c) ∧ make "poisson" = some (poisson N L) ∧
    make "quantile" = some (quantile N floor ceil s.quantile) ∧ make "gamma" = some (gamma N L) ∧
    make "tweedie" = some (tweedie N L s.power) ∧
    (∀ n ∈ ["binary", "binary_logloss", "logistic"], make n = some (binary N L)) ∧
    (∀ n ∈ ["multiclass", "softmax", "multiclassova", "multiclass_logloss"], make n = some (multiAdapter N L)) ∧
    ∀ n, n ∉ ["regression", "regression_l2", "l2", "mean_squared_error", "mse", "lambdarank", "rank_xendcg", "regression_l1", "l1",
      "mean_absolute_error", "mae", "huber", "fair", "poisson", "quantile", "gamma", "tweedie", "binary", "binary_logloss", "logistic",
      "multiclass", "softmax", "multiclassova", "multiclass_logloss"] → make n = none := by
  intro make
  obtain ⟨s1, s2, s3, s4⟩ := hs
  have e1 : huberDelta (if 0 < delta then delta else 1) = s.delta := by
    rw [s1]
    unfold huberDelta
    split_ifs <;> first | rfl | (exfalso; linarith)
  have e2 : huberDelta (if 0 < c then c else 1) = s.c := by
    rw [s2]
    unfold huberDelta
    split_ifs <;> first | rfl | (exfalso; linarith)
  have e3 : quantileAlpha N (if 0 < a ∧ a < 1 then a else N.half) = s.quantile := by
    rw [s3]
    have hx : 0 < (if 0 < a ∧ a < 1 then a else N.half) ∧ (if 0 < a ∧ a < 1 then a else N.half) < 1 := by
      split_ifs with h
      · exact h
      · exact hh
    unfold quantileAlpha
    rw [if_neg]
    rintro (h | h)
    · exact absurd hx.1 (not_lt.2 h)
    · exact absurd hx.2 (not_lt.2 h)
  have e4 : tweediePower dv (if 1 < v ∧ v < N.two then v else dv) N = s.power := by
    rw [s4, h2]
    refine (tweediePower_range N h2 dv _ hd).2.1 ?_
    split_ifs with h
    · exact h
    · exact hd
  refine ⟨?_, ?_, ?_, ?_, ?_, ?_, ?_, ?_, ?_, ?_, ?_⟩
  · intro n hn
    simp only [List.mem_cons, List.not_mem_nil, or_false] at hn
    rcases hn with rfl | rfl | rfl | rfl | rfl | rfl | rfl <;> rfl
  · intro n hn
    simp only [List.mem_cons, List.not_mem_nil, or_false] at hn
    rcases hn with rfl | rfl | rfl | rfl <;> rfl
  · rw [← e1]; rfl
  · rw [← e2]; rfl
  · rfl
  · rw [← e3]; rfl
  · rfl
  · rw [← e4]; rfl
  · intro n hn
    simp only [List.mem_cons, List.not_mem_nil, or_false] at hn
    rcases hn with rfl | rfl | rfl <;> rfl
  · intro n hn
    simp only [List.mem_cons, List.not_mem_nil, or_false] at hn
    rcases hn with rfl | rfl | rfl | rfl <;> rfl
  · intro n hn
    simp only [List.mem_cons, List.not_mem_nil, or_false, not_or] at hn
    obtain ⟨a1, a2, a3, a4, a5, a6, a7, a8, a9, a10, a11, a12, a13, a14, a15, a16, a17, a18, a19, a20, a21, a22, a23, a24⟩ := hn
    show createObjective N L floor ceil delta c a v dv n = none
    unfold createObjective
    simp only [List.mem_cons, List.not_mem_nil, or_false, a1, a2, a3, a4, a5, a6, a7, a8, a9, a10, a11, a12, a13, a14, a15, a16, a17, a18, a19, a20,
      a21, a22, a23, a24, if_false, or_self]

end

/-- C111: without a positive target the Gamma and Tweedie objectives start from the raw score 0; for Gamma every constant has loss 0 then -/
theorem no_positive_start (l : List ℝ) (h : ∀ t ∈ l, t ≤ 0) (v : ℝ) :
    (gamma realNum realLits).init l = 0 ∧ (tweedie realNum realLits v).init l = 0 ∧ ∀ p, ∀ t ∈ l, (gamma realNum realLits).loss p t = 0 := by
  have e : logMeanPos realNum l = 0 := by
    unfold logMeanPos
    have : l.filter (fun t => decide (0 < t)) = [] := by
      rw [List.filter_eq_nil_iff]
      intro t ht
      simpa using h t ht
    rw [this]
    simp
  refine ⟨e, e, fun p t ht => ?_⟩
  show (if t ≤ 0 then (0 : ℝ) else _) = 0
  rw [if_pos (h t ht)]

/-! ### Concrete cases -/

example : ∃ s : Settled ℝ, s.From (-1) 3 2 (3 / 2) realNum.half (3 / 2) ∧ s.delta = 1 ∧ s.c = 3 ∧ s.quantile = realNum.half := by
  refine ⟨⟨1, 3, realNum.half, 3 / 2⟩, ⟨?_, ?_, ?_, ?_⟩, rfl, rfl, rfl⟩ <;> norm_num

example : realNum.two = 2 ∧ (0 < realNum.half ∧ realNum.half < 1) ∧ (1 : ℝ) < 3 / 2 ∧ (3 / 2 : ℝ) < 2 := by
  refine ⟨rfl, ?_, by norm_num, by norm_num⟩
  show (0 : ℝ) < 1 / 2 ∧ (1 / 2 : ℝ) < 1
  constructor <;> norm_num

example : ∀ t ∈ ([0, -1] : List ℝ), t ≤ 0 := by
  intro t ht
  simp only [List.mem_cons, List.not_mem_nil, or_false] at ht
  rcases ht with rfl | rfl <;> norm_num

end Scigo.Boost
