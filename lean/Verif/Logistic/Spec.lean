import Verif.Logistic.Model
import Verif.Online.Spec

/-!
# Specification of LogisticRegression
-/

namespace Scigo.Logistic

open Finset Scigo.Online

/-- the logistic function -/
noncomputable def logistic (z : ℝ) : ℝ := 1 / (1 + Real.exp (-z))

/-- mean negative log-likelihood of the 0/1 labels plus `lambda/2·‖w‖²` -/
noncomputable def lrObjective (lambda : ℝ) (X : Mat ℝ) (yb : Nat → ℝ) (w : Nat → ℝ) (b : ℝ) : ℝ :=
  (∑ i ∈ range X.r, (-yb i * Real.log (logistic (lin X.c (X.at' i) w b)) -
    (1 - yb i) * Real.log (1 - logistic (lin X.c (X.at' i) w b)))) / X.r +
  lambda / 2 * ∑ j ∈ range X.c, w j ^ 2

/-- the shape of the state a successful `Fit` leaves: at least one class, sorted and distinct; one
weight vector for two classes, one per class otherwise -/
structure Trained {α : Type _} (m : LR α) : Prop where
  fitted : m.fitted = true
  classes_ne : m.classes ≠ []
  classes_sorted : m.classes.Pairwise (· < ·)
  coef : ∃ W, m.coef = some W ∧ W.length = (if m.classes.length = 2 then 1 else m.classes.length) ∧
    ∀ w ∈ W, w.length = m.nFeatures
  intercept : m.intercept.length = (if m.classes.length = 2 then 1 else m.classes.length)

/-- what is assumed of the optimiser: if it reports no error, the point it returns has the dimension
of the starting point and no component of the gradient there exceeds the configured threshold -/
def MinimizerOk (tol : ℝ) (mini : Minimizer ℝ) : Prop :=
  ∀ f g x0 r, mini f g x0 = .ok r → r.x.length = x0.length ∧ ∀ i, |(g r.x).getD i 0| ≤ tol

/-- what is assumed of the random initial weights: `k` vectors of length `c` -/
def InitOk {α : Type _} (init : Nat → Nat → List (List α)) : Prop :=
  ∀ k c, (init k c).length = k ∧ ∀ w ∈ init k c, w.length = c

end Scigo.Logistic
