import Verif.Online.Model
import Mathlib.Algebra.BigOperators.Group.Finset.Basic
import Mathlib.Analysis.SpecialFunctions.Log.Basic
import Mathlib.Analysis.SpecialFunctions.Pow.Real

/-!
# Specification of the online linear models

The textbook losses and penalties, subgradients, and the passive-aggressive objective.
-/

namespace Scigo.Online

open Finset

/-- exact arithmetic: nothing is NaN or infinite -/
noncomputable def realNum : Num ℝ where
  sqrt := Real.sqrt
  abs := fun x => |x|
  pow := fun x y => x ^ y
  exp := Real.exp
  log := Real.log
  unstable := fun _ => false
  ofNat := fun n => (n : ℝ)
  half := 1 / 2
  tenth := 1 / 10
  ten := 10
  two := 2
  four := 4

/-- entry `i` of a weight list, zero beyond the end -/
def entry {K : Type _} [Zero K] (l : List K) (i : Nat) : K := l.getD i 0

/-- the affine prediction `Σ w_i x_i + b` -/
def lin (n : Nat) (x w : Nat → ℝ) (b : ℝ) : ℝ := ∑ i ∈ range n, w i * x i + b

/-- squared, Huber and epsilon-insensitive loss of the prediction `p` for the target `y`; any other
name means squared loss -/
noncomputable def regLossOf (loss : String) (eps p y : ℝ) : ℝ :=
  if loss = "huber" then
    if |p - y| ≤ eps then (p - y) ^ 2 / 2 else eps * (|p - y| - eps / 2)
  else if loss = "epsilon_insensitive" then max 0 (|p - y| - eps)
  else (p - y) ^ 2 / 2

/-- the penalty `alpha·‖w‖²/2`, `alpha·‖w‖₁` or their mixture; any other name means none -/
noncomputable def penaltyOf (o : Opts ℝ) (n : Nat) (w : Nat → ℝ) : ℝ :=
  if o.penalty = "l2" then o.alpha / 2 * ∑ i ∈ range n, w i ^ 2
  else if o.penalty = "l1" then o.alpha * ∑ i ∈ range n, |w i|
  else if o.penalty = "elasticnet" then
    o.alpha * (o.l1Ratio * ∑ i ∈ range n, |w i| + (1 - o.l1Ratio) / 2 * ∑ i ∈ range n, w i ^ 2)
  else 0

/-- hinge, squared hinge, logistic, modified Huber and perceptron loss of the margin `z` -/
noncomputable def clfLossOf (loss : String) (z : ℝ) : ℝ :=
  if loss = "squared_hinge" then max 0 (1 - z) ^ 2 / 2
  else if loss = "log_loss" then Real.log (1 + Real.exp (-z))
  else if loss = "modified_huber" then if z < -1 then -4 * z else max 0 (1 - z) ^ 2
  else if loss = "perceptron" then max 0 (-z)
  else max 0 (1 - z)

/-- `(g, gb)` is a subgradient of `F` at `(w, b)` in the first `n` weights and the intercept. For a
differentiable `F` this is the gradient. -/
def IsSubgradient (n : Nat) (F : (Nat → ℝ) → ℝ → ℝ) (w : Nat → ℝ) (b : ℝ) (g : Nat → ℝ) (gb : ℝ) :
    Prop :=
  ∀ w' b', F w b + ∑ i ∈ range n, g i * (w' i - w i) + gb * (b' - b) ≤ F w' b'

/-- loss plus penalty of one regression sample, as a function of weights and intercept -/
noncomputable def regObjective (o : Opts ℝ) (n : Nat) (x : Nat → ℝ) (y : ℝ) (w : Nat → ℝ) (b : ℝ) :
    ℝ :=
  regLossOf o.loss o.epsilon (lin n x w b) y + penaltyOf o n w

/-- loss plus penalty of one sample for the one-vs-rest problem with target `t = ±1` -/
noncomputable def clfObjective (o : Opts ℝ) (n : Nat) (x : Nat → ℝ) (t : ℝ) (w : Nat → ℝ) (b : ℝ) :
    ℝ :=
  clfLossOf o.loss (t * lin n x w b) + penaltyOf o n w

/-- options in their documented ranges -/
structure OptsOk (o : Opts ℝ) : Prop where
  alpha_nonneg : 0 ≤ o.alpha
  ratio_nonneg : 0 ≤ o.l1Ratio
  ratio_le_one : o.l1Ratio ≤ 1
  eps_nonneg : 0 ≤ o.epsilon

/-- epsilon-insensitive loss of weights `w, b` on a sample -/
noncomputable def epsLoss (eps : ℝ) (n : Nat) (x : Nat → ℝ) (y : ℝ) (w : Nat → ℝ) (b : ℝ) : ℝ :=
  max 0 (|y - lin n x w b| - eps)

/-- hinge loss of weights `w, b` on a sample with target `t = ±1` -/
noncomputable def hingeLoss (t : ℝ) (n : Nat) (x : Nat → ℝ) (w : Nat → ℝ) (b : ℝ) : ℝ :=
  max 0 (1 - t * lin n x w b)

/-- the PA-II objective of moving from `w` to `v`: half the squared distance plus `C` times the
squared loss at `v` -/
noncomputable def paObjective (C : ℝ) (n : Nat) (loss : (Nat → ℝ) → ℝ) (w v : Nat → ℝ) : ℝ :=
  1 / 2 * ∑ i ∈ range n, (v i - w i) ^ 2 + C * loss v ^ 2

/-- the last five losses exist together with at least one more, and no two of the five differ by
`tol` or more -/
def Plateau (tol : ℝ) (hist : List ℝ) : Prop :=
  6 ≤ hist.length ∧ ∀ i j, hist.length ≤ i + 5 → hist.length ≤ j + 5 → i < hist.length →
    j < hist.length → hist.getD i 0 - hist.getD j 0 < tol

/-- rows of `A` above rows of `B` -/
def vstack {α : Type _} (A B : Mat α) : Mat α :=
  { r := A.r + B.r, c := A.c, at' := fun i j => if i < A.r then A.at' i j else B.at' (i - A.r) j }

/-- equal in everything that determines predictions and further training with a schedule that does
not look at the loss history -/
def SameModel {α : Type _} (a b : Reg α) : Prop :=
  a.opts = b.opts ∧ a.eta0 = b.eta0 ∧ a.coef = b.coef ∧ a.intercept = b.intercept ∧
  a.nFeatures = b.nFeatures ∧ a.t = b.t ∧ a.fitted = b.fitted

end Scigo.Online
