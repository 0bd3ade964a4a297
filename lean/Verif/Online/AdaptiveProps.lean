import Verif.Online.Model
import Mathlib.Order.Defs.LinearOrder

/-!
# C338: the adaptive learning rate
-/

set_option linter.unusedSectionVars false

namespace Scigo.Online

variable {α : Type} [LinearOrder α] [Add α] [Sub α] [Mul α] [Div α] [Neg α] [Zero α] [One α]

/-! ## Specification -/

/-- more than five losses were recorded and the last five never fall (cf. sklearn/linear_model/sgd_regressor.go:393-397) -/
def Stagnates (hist : List α) : Prop := 5 < hist.length ∧ ∀ i a b, hist.length - 5 ≤ i → hist[i]? = some a → hist[i + 1]? = some b → a ≤ b

theorem increasing_iff (l : List α) : isIncreasing l = true ↔ ∀ i a b, l[i]? = some a → l[i + 1]? = some b → a ≤ b := by
  induction l with
  | nil => simp [isIncreasing]
  | cons x l ih =>
    cases l with
    | nil =>
      simp only [isIncreasing, true_iff]
      intro i a b _ hb
      simp at hb
    | cons y l =>
      rw [isIncreasing]
      split
      · rename_i hlt
        simp only [Bool.false_eq_true, false_iff]
        intro h
        exact absurd (h 0 x y rfl rfl) (not_le.2 hlt)
      · rename_i hlt
        rw [ih]
        constructor
        · intro h i a b ha hb
          cases i with
          | zero =>
            simp only [List.getElem?_cons_zero, Option.some.injEq, Nat.zero_add, List.getElem?_cons_succ] at ha hb
            rw [← ha, ← hb]
            exact not_lt.1 hlt
          | succ i => exact h i a b (by simpa using ha) (by simpa using hb)
        · intro h i a b ha hb
          exact h (i + 1) a b (by simpa using ha) (by simpa using hb)

/-- **C338.** The adaptive schedule halves the learning rate exactly if the last five losses never fell, and otherwise keeps it. -/
theorem adaptive_rate (N : Num α) (o : Opts α) (ho : o.schedule = "adaptive") (eta0 : α) (t : Nat) (hist : List α) :
    (Stagnates hist → learningRate N o eta0 t hist = eta0 * N.half) ∧ (¬ Stagnates hist → learningRate N o eta0 t hist = eta0) := by
  have key : (5 < hist.length ∧ isIncreasing (lastN 5 hist) = true) ↔ Stagnates hist := by
    unfold Stagnates
    refine and_congr_right fun hl => ?_
    rw [increasing_iff]
    unfold lastN
    constructor
    · intro h i a b hi ha hb
      refine h (i - (hist.length - 5)) a b ?_ ?_
      · rw [List.getElem?_drop]
        rw [show hist.length - 5 + (i - (hist.length - 5)) = i by omega]
        exact ha
      · rw [List.getElem?_drop]
        rw [show hist.length - 5 + (i - (hist.length - 5) + 1) = i + 1 by omega]
        exact hb
    · intro h i a b ha hb
      rw [List.getElem?_drop] at ha hb
      exact h (hist.length - 5 + i) a b (by omega) ha (by rw [← hb]; rfl)
  unfold learningRate
  rw [if_neg (by rw [ho]; decide), if_neg (by rw [ho]; decide), if_neg (by rw [ho]; decide), if_pos ho]
  exact ⟨fun h => if_pos (key.2 h), fun h => if_neg fun h' => h (key.1 h')⟩

/-- six losses of which the last five stay the same count as stagnation; a fall among them does not -/
example : Stagnates ([9, 3, 3, 3, 4, 4] : List Int) ∧ ¬ Stagnates ([9, 3, 3, 2, 4, 4] : List Int) := by
  constructor
  · refine ⟨by decide, ?_⟩
    have := (increasing_iff ([3, 3, 3, 4, 4] : List Int)).1 (by decide)
    intro i a b hi ha hb
    obtain ⟨k, rfl⟩ : ∃ k, i = k + 1 := ⟨i - 1, by simp at hi; omega⟩
    exact this k a b (by simpa using ha) (by simpa using hb)
  · intro h
    exact absurd (h.2 2 3 2 (by decide) rfl rfl) (by decide)

end Scigo.Online
