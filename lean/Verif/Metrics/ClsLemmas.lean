import Verif.Metrics.RegLemmas
import Verif.Metrics.Spec
import Mathlib.Analysis.SpecialFunctions.Log.Basic

set_option linter.unusedSectionVars false

namespace Scigo.Metrics

variable {α K : Type _}

theorem wrongCount_eq [DecidableEq α] (z : List (α × α)) (s : Nat) :
    z.foldl (fun s x => if x.1 != x.2 then s + 1 else s) s
      = s + z.countP (fun x => decide (x.1 ≠ x.2)) := by
  induction z generalizing s with
  | nil => simp
  | cons x z ih =>
    rw [List.foldl_cons, ih]
    by_cases h : x.1 = x.2
    · simp [h]
    · simp [h]; omega

theorem clipProb_eq (eps p : ℝ) (h : eps ≤ 1 - eps) :
    clipProb eps p = max eps (min p (1 - eps)) := by
  unfold clipProb
  split_ifs with h1 h2
  · rw [max_eq_left]; exact (min_le_left _ _).trans h1.le
  · rw [min_eq_right h2.le, max_eq_right h]
  · rw [min_eq_left (not_lt.1 h2), max_eq_right (not_lt.1 h1)]

theorem clip_mem (eps p : ℝ) (h : eps ≤ 1 - eps) :
    eps ≤ max eps (min p (1 - eps)) ∧ max eps (min p (1 - eps)) ≤ 1 - eps :=
  ⟨le_max_left _ _, max_le h (min_le_right _ _)⟩

theorem crossEntropy_bounds (eps y p : ℝ) (h0 : 0 < eps) (h : eps ≤ 1 - eps) :
    0 ≤ crossEntropy eps y p ∧ crossEntropy eps y p ≤ -Real.log eps := by
  obtain ⟨h1, h2⟩ := clip_mem eps p h
  unfold crossEntropy
  split_ifs
  · constructor
    · have := Real.log_nonpos (h0.le.trans h1) (by linarith); linarith
    · have := Real.log_le_log h0 h1; linarith
  · constructor
    · have := Real.log_nonpos (x := 1 - max eps (min p (1 - eps))) (by linarith) (by linarith); linarith
    · have := Real.log_le_log h0 (y := 1 - max eps (min p (1 - eps))) (by linarith); linarith

theorem logLossLoop_eq (eps big : ℝ) (h0 : 0 < eps) (h : eps ≤ 1 - eps) (z : List (ℝ × ℝ))
    (hb : ∀ x ∈ z, x.1 = 0 ∨ x.1 = 1) (loss : ℝ) :
    logLossLoop Real.log eps big z loss
      = .ok (loss + (z.map (fun x => crossEntropy eps x.1 x.2)).sum) := by
  induction z generalizing loss with
  | nil => simp [logLossLoop]
  | cons x z ih =>
    obtain ⟨y, p⟩ := x
    obtain ⟨h1, h2⟩ := clip_mem eps p h
    have ih' := ih (fun x hx => hb x (by simp [hx]))
    have hp1 : logSafe Real.log big (max eps (min p (1 - eps)))
        = Real.log (max eps (min p (1 - eps))) := by
      unfold logSafe; rw [if_neg (by linarith)]
    have hp2 : logSafe Real.log big (1 - max eps (min p (1 - eps)))
        = Real.log (1 - max eps (min p (1 - eps))) := by
      unfold logSafe; rw [if_neg (by linarith)]
    rw [logLossLoop]
    rcases hb (y, p) (by simp) with hy | hy
    · have hy : y = 0 := hy
      subst hy
      simp only [notBinary, bne_self_eq_false, Bool.false_and, Bool.false_eq_true, if_false]
      rw [if_neg (by simp), clipProb_eq _ _ h, hp2, ih']
      simp only [List.map_cons, List.sum_cons, crossEntropy, zero_ne_one, if_false]
      congr 1; ring
    · have hy : y = 1 := hy
      subst hy
      simp only [notBinary, bne_self_eq_false, Bool.and_false, Bool.false_eq_true, if_false]
      rw [if_pos (by simp), clipProb_eq _ _ h, hp1, ih']
      simp only [List.map_cons, List.sum_cons, crossEntropy, if_true]
      congr 1; ring

theorem logLossLoop_bad [LinearOrder α] [Sub α] [Zero α] [One α] (log : α → α) (eps big : α)
    (z : List (α × α)) (x : α × α) (hx : x ∈ z) (h0 : x.1 ≠ 0) (h1 : x.1 ≠ 1) (loss : α) :
    logLossLoop log eps big z loss = .err .validation := by
  induction z generalizing loss with
  | nil => simp at hx
  | cons w z ih =>
    obtain ⟨y, p⟩ := w
    rw [logLossLoop]
    by_cases hn : notBinary y = true
    · rw [if_pos hn]
    · rw [if_neg hn]
      have hxz : x ∈ z := by
        rcases List.mem_cons.1 hx with rfl | h
        · exact absurd (by simp [notBinary, h0, h1]) hn
        · exact h
      dsimp only
      split
      · exact ih hxz _
      · exact ih hxz _

/-- `1e-15`. -/
noncomputable def llEps : ℝ := 1 / 10 ^ 15

theorem llEps_pos : 0 < llEps := by unfold llEps; positivity
theorem llEps_le : llEps ≤ 1 - llEps := by unfold llEps; norm_num

theorem crossEntropy_mono (eps y p p' : ℝ) (h0 : 0 < eps) (h : eps ≤ 1 - eps)
    (hp : (y = 1 ∧ p ≤ p') ∨ (y = 0 ∧ p' ≤ p)) : crossEntropy eps y p' ≤ crossEntropy eps y p := by
  obtain ⟨h1, h2⟩ := clip_mem eps p h
  obtain ⟨h1', h2'⟩ := clip_mem eps p' h
  unfold crossEntropy
  rcases hp with ⟨rfl, hp⟩ | ⟨rfl, hp⟩
  · simp only [if_true]
    have : max eps (min p (1 - eps)) ≤ max eps (min p' (1 - eps)) :=
      max_le_max le_rfl (min_le_min hp le_rfl)
    have := Real.log_le_log (by linarith) this
    linarith
  · simp only [zero_ne_one, if_false]
    have : max eps (min p' (1 - eps)) ≤ max eps (min p (1 - eps)) :=
      max_le_max le_rfl (min_le_min hp le_rfl)
    have := Real.log_le_log (x := 1 - max eps (min p (1 - eps)))
      (y := 1 - max eps (min p' (1 - eps))) (by linarith) (by linarith)
    linarith

end Scigo.Metrics
