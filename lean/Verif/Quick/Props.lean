import Verif.Quick.Model
import Verif.Dataset.Props
import Mathlib.Algebra.Field.Basic
import Mathlib.Algebra.CharZero.Defs
import Mathlib.Algebra.Order.Ring.Rat
import Mathlib.Data.Nat.Cast.Basic
import Mathlib.Order.Basic
import Mathlib.Tactic.Common
import Mathlib.Tactic.Ring
import Mathlib.Tactic.FieldSimp

/-!
# Properties of the quick training helpers (C153–C156)
-/

namespace Scigo.Quick

open Scigo.Dataset

variable {α : Type}

/-! ## C153 Which task is assumed -/

/-- **C153** Classification is assumed exactly when all targets are integers, there are fewer than twenty distinct ones, and at most a
quarter as many distinct ones as rows. -/
theorem task_iff [BEq α] [DecidableEq α] [LawfulBEq α] (isInt : α → Bool) (ys : List α) :
    detectTaskType isInt ys = true ↔
      (∀ v ∈ ys, isInt v = true) ∧ ys.dedup.length < 20 ∧ ys.dedup.length ≤ ys.length / 4 := by
  unfold detectTaskType
  rw [scan_eq _ _ _ (Nat.zero_le _)]
  have hp := keys_perm_dedup ys
  rw [← hp.length_eq]
  by_cases h : ys.length / 4 < (ys.foldl insertKey []).length
  · rw [if_pos h]; simp; intros; omega
  · rw [if_neg h]
    dsimp only
    have hall : (ys.foldl insertKey []).all isInt = true ↔ ∀ v ∈ ys, isInt v = true := by
      rw [List.all_eq_true]
      constructor
      · intro H v hv; exact H v (hp.mem_iff.2 (List.mem_dedup.2 hv))
      · intro H v hv; exact H v (List.mem_dedup.1 (hp.mem_iff.1 hv))
    by_cases ha : (ys.foldl insertKey []).all isInt = true
    · rw [if_pos ha, decide_eq_true_eq]
      exact ⟨fun h' => ⟨hall.1 ha, h', Nat.not_lt.1 h⟩, fun h' => h'.2.1⟩
    · rw [if_neg ha]
      constructor
      · intro h'; cases h'
      · intro h'; exact absurd (hall.2 h'.1) ha

/-- **C153** The decision does not depend on the order of the rows. -/
theorem task_perm [BEq α] [DecidableEq α] [LawfulBEq α] (isInt : α → Bool) (ys zs : List α) (h : ys.Perm zs) :
    detectTaskType isInt ys = detectTaskType isInt zs := by
  rw [Bool.eq_iff_iff, task_iff, task_iff, h.length_eq, h.dedup.length_eq]
  simp only [h.mem_iff]

/-- **C153** A target that is not an integer (NaN included) always gives regression, for every `==`. -/
theorem non_integer_regression [BEq α] (isInt : α → Bool) (ys : List α) (v : α) (hv : v ∈ ys)
    (hi : ∀ w, (w = v ∨ (w == v) = true) → isInt w = false) : detectTaskType isInt ys = false := by
  unfold detectTaskType
  rw [scan_eq _ _ _ (Nat.zero_le _)]
  by_cases h : ys.length / 4 < (ys.foldl insertKey []).length
  · rw [if_pos h]
  · rw [if_neg h]
    dsimp only
    obtain ⟨y, hy, he⟩ := foldl_insertKey_cover ys [] v hv
    rw [if_neg]
    rw [List.all_eq_true]
    intro H
    have := H y hy
    rw [hi y he] at this
    cases this

/-- **C153 (limit)** Two classes in fewer than eight rows are taken for a regression. -/
theorem small_task_missed [BEq α] [DecidableEq α] [LawfulBEq α] (isInt : α → Bool) (ys : List α) (a b : α) (ha : a ∈ ys) (hb : b ∈ ys)
    (hab : a ≠ b) (h8 : ys.length < 8) : detectTaskType isInt ys = false := by
  rw [Bool.eq_false_iff, ne_eq, task_iff]
  rintro ⟨-, -, h⟩
  have hs : [a, b] ⊆ ys.dedup := by
    intro v hv
    simp only [List.mem_cons, List.not_mem_nil, or_false] at hv
    rcases hv with rfl | rfl <;> simpa
  have := (List.Nodup.subperm (by simp [hab]) hs).length_le
  simp only [List.length_cons, List.length_nil] at this
  omega

example : detectTaskType (fun _ => true) ([0, 1, 2, 1, 0, 2, 1, 1, 0, 0, 2, 1] : List Int) = true := by decide
example : detectTaskType (fun v => v != 2) ([0, 1, 2, 1, 0, 2, 1, 1, 0, 0, 2, 1] : List Int) = false := by decide

/-! ## C154 The automatic search -/

section auto
variable [LinearOrder α] [Zero α] {M : Type}

/-- invariant of the search: the best is above 0 and comes from the list, and nothing seen exceeds it -/
theorem autoFit_inv (results : List (Option (α × M))) : ∀ (b : α × Option M) (seen : List (Option (α × M))),
    ((b = (0, none) ∧ ∀ s m, some (s, m) ∈ seen → s ≤ 0) ∨
      ∃ m, b.2 = some m ∧ 0 < b.1 ∧ some (b.1, m) ∈ seen ∧ ∀ s m', some (s, m') ∈ seen → s ≤ b.1) →
    ((results.foldl autoStep b = (0, none) ∧ ∀ s m, some (s, m) ∈ seen ++ results → s ≤ 0) ∨
      ∃ m, (results.foldl autoStep b).2 = some m ∧ 0 < (results.foldl autoStep b).1 ∧
        some ((results.foldl autoStep b).1, m) ∈ seen ++ results ∧
        ∀ s m', some (s, m') ∈ seen ++ results → s ≤ (results.foldl autoStep b).1) := by
  induction results with
  | nil => intro b seen h; simpa using h
  | cons r rest ih =>
    intro b seen h
    have := ih (autoStep b r) (seen ++ [r]) ?_
    · simpa using this
    · cases r with
      | none =>
        simp only [autoStep]
        rcases h with ⟨h1, h2⟩ | ⟨m, h1, h2, h3, h4⟩
        · exact .inl ⟨h1, fun s m hm => h2 s m (by simpa using hm)⟩
        · exact .inr ⟨m, h1, h2, by simp [h3], fun s m hm => h4 s m (by simpa using hm)⟩
      | some sm =>
        obtain ⟨s, m⟩ := sm
        simp only [autoStep]
        by_cases hlt : b.1 < s
        · rw [if_pos hlt]
          have hb0 : 0 ≤ b.1 := by
            rcases h with ⟨h1, -⟩ | ⟨_, _, h2, _⟩
            · rw [h1]
            · exact h2.le
          refine .inr ⟨m, rfl, lt_of_le_of_lt hb0 hlt, by simp, ?_⟩
          intro s' m' hm
          rcases List.mem_append.1 hm with hm | hm
          · rcases h with ⟨h1, h2⟩ | ⟨_, _, _, _, h4⟩
            · exact (h2 s' m' hm).trans (hb0.trans hlt.le)
            · exact (h4 s' m' hm).trans hlt.le
          · simp only [List.mem_singleton, Option.some.injEq, Prod.mk.injEq] at hm
            exact hm.1.le
        · rw [if_neg hlt]
          rcases h with ⟨h1, h2⟩ | ⟨m0, h1, h2, h3, h4⟩
          · refine .inl ⟨h1, ?_⟩
            intro s' m' hm
            rcases List.mem_append.1 hm with hm | hm
            · exact h2 s' m' hm
            · simp only [List.mem_singleton, Option.some.injEq, Prod.mk.injEq] at hm
              rw [hm.1]
              rw [h1] at hlt
              exact not_lt.1 hlt
          · refine .inr ⟨m0, h1, h2, by simp [h3], ?_⟩
            intro s' m' hm
            rcases List.mem_append.1 hm with hm | hm
            · exact h4 s' m' hm
            · simp only [List.mem_singleton, Option.some.injEq, Prod.mk.injEq] at hm
              rw [hm.1]
              exact not_lt.1 hlt

/-- **C154 (partial)** If some configuration scores above 0, `AutoFit` returns a configuration that was trained, with its own score, and no
configuration that was trained scores higher. Missing: searches in which no score is above 0. -/
theorem autofit_best_partial (results : List (Option (α × M))) (h : ∃ s m, some (s, m) ∈ results ∧ 0 < s) :
    ∃ s m, autoFit results = (s, some m) ∧ some (s, m) ∈ results ∧ ∀ s' m', some (s', m') ∈ results → s' ≤ s := by
  obtain ⟨s, m, hm, hs⟩ := h
  rcases autoFit_inv results (0, none) [] (.inl ⟨rfl, by simp⟩) with ⟨-, h2⟩ | ⟨m0, h1, -, h3, h4⟩
  · exact absurd (h2 s m (by simpa using hm)) (not_le.2 hs)
  · refine ⟨_, m0, ?_, by simpa using h3, by simpa using h4⟩
    exact Prod.ext rfl h1

/-- **C154 (the gap)** If every trained configuration scores 0 or less (a regression worse than the mean), the result has no model, and
`Predict` panics. -/
theorem autofit_no_model {β : Type} (run : M → Outcome β) (results : List (Option (α × M)))
    (h : ∀ s m, some (s, m) ∈ results → s ≤ 0) : ∃ msg, predict run (autoFit results).2 = .panic msg := by
  rcases autoFit_inv results (0, none) [] (.inl ⟨rfl, by simp⟩) with ⟨h1, -⟩ | ⟨m0, -, h2, h3, -⟩
  · refine ⟨"interface conversion: interface {} is nil", ?_⟩
    unfold autoFit
    rw [h1]
    rfl
  · exact absurd (h _ _ (by simpa using h3)) (not_le.2 h2)

example : autoFit [some ((3 : Int), "a"), none, some (5, "b"), some (5, "c")] = (5, some "b") := by decide
example : (autoFit [some ((-1 : Int), "a"), some (0, "b")]).2 = none := by decide

end auto

/-! ## C155 Quick cross-validation

Specification: `k` folds, each scored on rows its model was not trained on; the mean of the scores and their standard deviation. -/

section cv
variable {D : Type}

/-- **C155 (the gap)** Every fold reports the same score, that of a model trained and scored on all rows; the number of folds changes
nothing: with exact arithmetic the result is that score and 0. -/
theorem quickcv_training_score [Field α] [CharZero α] (fitScore : D → α) (data : D) (n : Int) :
    quickCV fitScore data n = (fitScore data, 0) := by
  have hk : 0 < folds n := by
    unfold folds
    split
    · omega
    · omega
  have hsum : ∀ (k : Nat) (a : α), ((List.range k).map (fun _ => fitScore data)).foldl (· + ·) a = a + k * fitScore data := by
    intro k
    induction k with
    | zero => intro a; simp
    | succ k ih =>
      intro a
      rw [List.range_succ, List.map_append, List.foldl_append, ih]
      simp only [List.map_cons, List.map_nil, List.foldl_cons, List.foldl_nil]
      push_cast
      ring
  have hvar : ∀ (k : Nat), ((List.range k).map (fun _ => fitScore data)).foldl
      (fun v s => v + (s - fitScore data) * (s - fitScore data)) 0 = 0 := by
    intro k
    induction k with
    | zero => simp
    | succ k ih =>
      rw [List.range_succ, List.map_append, List.foldl_append, ih]
      simp
  have hkf : ((folds n : Nat) : α) ≠ 0 := by exact_mod_cast hk.ne'
  have hmean : (foldScores fitScore data n).foldl (· + ·) 0 / ((foldScores fitScore data n).length : α) = fitScore data := by
    unfold foldScores
    rw [hsum]
    simp only [List.length_map, List.length_range, zero_add]
    field_simp
  unfold quickCV summary
  dsimp only
  rw [hmean]
  unfold foldScores
  rw [hvar]
  simp

/-- **C155** as many scores are computed as folds were asked for; fewer than two are read as five -/
theorem quickcv_folds (fitScore : D → α) (data : D) (n : Int) :
    (2 ≤ n → ((foldScores fitScore data n).length : Int) = n) ∧ (n < 2 → (foldScores fitScore data n).length = 5) := by
  unfold foldScores folds
  simp only [List.length_map, List.length_range]
  refine ⟨fun h => ?_, fun h => ?_⟩
  · rw [if_neg (by omega)]; omega
  · rw [if_pos h]

/-- two data sets with the same training score get the same result, whatever happens on held-out rows -/
theorem quickcv_blind [Field α] [CharZero α] (fitScore : D → α) (d1 d2 : D) (n m : Int) (h : fitScore d1 = fitScore d2) :
    quickCV fitScore d1 n = quickCV fitScore d2 m := by
  rw [quickcv_training_score, quickcv_training_score, h]

/-- **C155 (partial)** For whatever scores the folds give, the first number returned is their mean; the second is the mean squared deviation,
the square of the standard deviation it is named after. Missing: held-out scoring and the square root. -/
theorem quickcv_summary_partial [Field α] [CharZero α] (scores : List α) :
    (summary scores).1 = scores.sum / scores.length ∧
      (summary scores).2 = (scores.map (fun s => (s - (summary scores).1) ^ 2)).sum / scores.length := by
  have h1 : ∀ (l : List α) (a : α), l.foldl (· + ·) a = a + l.sum := by
    intro l
    induction l with
    | nil => intro a; simp
    | cons x r ih => intro a; simp only [List.foldl_cons, List.sum_cons, ih]; ring
  have h2 : ∀ (m : α) (l : List α) (a : α), l.foldl (fun v s => v + (s - m) * (s - m)) a = a + (l.map (fun s => (s - m) ^ 2)).sum := by
    intro m l
    induction l with
    | nil => intro a; simp
    | cons x r ih => intro a; simp only [List.foldl_cons, List.map_cons, List.sum_cons, ih]; ring
  constructor
  · simp [summary, h1]
  · simp only [summary, h2, zero_add]

example : summary ([1, 3, 5, 7] : List Rat) = (4, 5) := by decide +kernel
example : quickCV (fun d : Rat => d) 7 0 = quickCV (fun d : Rat => d) 7 12 := quickcv_blind _ _ _ _ _ rfl

end cv

/-! ## C156 The list of important features -/

section sort
variable [LinearOrder α]

theorem pass_perm (imp : Nat → α) (l : List Nat) : ∀ a, ((pass imp a l).1 :: (pass imp a l).2).Perm (a :: l) := by
  induction l with
  | nil => intro a; exact .refl _
  | cons b r ih =>
    intro a
    unfold pass
    by_cases h : imp a < imp b
    · rw [if_pos h]
      exact (List.Perm.swap _ _ _).trans ((ih b).cons a)
    · rw [if_neg h]
      exact ((List.Perm.swap _ _ _).trans ((ih a).cons b)).trans (List.Perm.swap _ _ _)

theorem pass_max (imp : Nat → α) (l : List Nat) : ∀ a, imp a ≤ imp (pass imp a l).1 ∧ ∀ x ∈ (pass imp a l).2, imp x ≤ imp (pass imp a l).1 := by
  induction l with
  | nil => intro a; exact ⟨le_refl _, by intro x hx; cases hx⟩
  | cons b r ih =>
    intro a
    unfold pass
    by_cases h : imp a < imp b
    · rw [if_pos h]
      dsimp only
      have := ih b
      refine ⟨h.le.trans this.1, ?_⟩
      intro x hx
      rcases List.mem_cons.1 hx with rfl | hx
      · exact h.le.trans this.1
      · exact this.2 x hx
    · rw [if_neg h]
      dsimp only
      have := ih a
      refine ⟨this.1, ?_⟩
      intro x hx
      rcases List.mem_cons.1 hx with rfl | hx
      · exact (not_lt.1 h).trans this.1
      · exact this.2 x hx

theorem pass_length (imp : Nat → α) (l : List Nat) (a : Nat) : (pass imp a l).2.length = l.length := by
  have := (pass_perm imp l a).length_eq
  simpa using this

/-- the exchange sort gives a rearrangement in non-increasing order -/
theorem exchangeSort_spec (imp : Nat → α) : ∀ (k : Nat) (l : List Nat), l.length = k →
    (exchangeSort imp k l).Perm l ∧ (exchangeSort imp k l).Pairwise (fun i j => imp j ≤ imp i) := by
  intro k
  induction k with
  | zero => intro l h; cases l with
    | nil => exact ⟨.refl _, .nil⟩
    | cons a r => cases h
  | succ k ih =>
    intro l h
    cases l with
    | nil => cases h
    | cons a r =>
      simp only [List.length_cons, Nat.add_right_cancel_iff] at h
      obtain ⟨h1, h2⟩ := ih (pass imp a r).2 (by rw [pass_length, h])
      unfold exchangeSort
      dsimp only
      refine ⟨(h1.cons _).trans (pass_perm imp r a), List.pairwise_cons.2 ⟨?_, h2⟩⟩
      intro x hx
      exact (pass_max imp r a).2 x (h1.mem_iff.1 hx)

/-- **C156** The features listed are min(5, n) different features, listed by non-increasing importance, and no feature left out is more
important than one that is listed. -/
theorem top_features (imp : List α) (d : α) :
    (topFeatures imp d).length = min 5 imp.length ∧ (topFeatures imp d).Nodup ∧
      (∀ i ∈ topFeatures imp d, i < imp.length) ∧
      (topFeatures imp d).Pairwise (fun i j => imp.getD j d ≤ imp.getD i d) ∧
      ∀ i, i ∈ topFeatures imp d → ∀ j, j < imp.length → j ∉ topFeatures imp d → imp.getD j d ≤ imp.getD i d := by
  obtain ⟨hp, hs⟩ := exchangeSort_spec (fun i => imp.getD i d) imp.length (List.range imp.length) (by simp)
  unfold topFeatures
  generalize exchangeSort (fun i => imp.getD i d) imp.length (List.range imp.length) = l at hp hs
  have hl : l.length = imp.length := by rw [hp.length_eq]; simp
  refine ⟨by simp [hl], (hp.nodup_iff.2 List.nodup_range).sublist (List.take_sublist _ _), ?_, hs.sublist (List.take_sublist _ _), ?_⟩
  · intro i hi
    have := hp.mem_iff.1 (List.mem_of_mem_take hi)
    simpa using this
  · intro i hi j hj hnot
    have hjl : j ∈ l := hp.mem_iff.2 (by simpa using hj)
    rw [← List.take_append_drop 5 l] at hjl hs
    rcases List.mem_append.1 hjl with h | h
    · exact absurd h hnot
    · exact (List.pairwise_append.1 hs).2.2 i hi j h

example : topFeatures ([3, 9, 1, 9, 4, 0, 7] : List Int) 0 = [1, 3, 6, 4, 0] := by decide

end sort

end Scigo.Quick
