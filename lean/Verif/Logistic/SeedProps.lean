import Verif.Logistic.Seed
import Verif.Logistic.Spec
import Verif.Online.SeedProps

/-!
# LogisticRegression and its random seed (C240)

Law-free.
-/

set_option linter.unusedSectionVars false

namespace Scigo.Logistic

open Scigo.Online

variable {α : Type _} [Zero α] [One α] [Add α] [Sub α] [Neg α] [Mul α] [Div α] [LT α] [LE α] [DecidableLT α]
  [DecidableLE α] [BEq α]

theorem cryptoWeights_ok (hundredth : α) (e : Nat → α) : InitOk (cryptoWeights hundredth e) := by
  intro k c
  refine ⟨by simp [cryptoWeights], fun w hw => ?_⟩
  obtain ⟨i, -, rfl⟩ := List.mem_map.1 hw
  simp [cryptoRow]

/-- the state of a new binary fit with first weights `row` -/
def LR.begun (m : LR α) (cs : List Int) (nF : Nat) (row : List α) : LR α :=
  { m with classes := cs, nFeatures := nF, coef := some [row], intercept := [0], nIter := [0] }

/-- **C240** (the part that holds) With two classes, the default solver and no warm start, the result does not depend on the numbers drawn, so
neither on the seed: whatever `crypto/rand` and the map order give, `Fit` returns the same, and if it succeeds the estimators are equal.
The optimiser is any function that returns a vector as long as its starting point. What is missing: other solvers and more classes, see
`logistic_seed_ignored`. -/
theorem logistic_seed_partial (N : Num α) (eps hundredth : α) (mini : Minimizer α) (toInt : α → Int) (iter iter' : List Int → List Int)
    (hi : MapKeys iter) (hi' : MapKeys iter') (m : LR α) (seed seed' : Int × Int) (e e' : Nat → α) (X y : Mat α)
    (hw : m.warmStart = false) (hs : m.solver = "lbfgs") (h2 : (extractClasses toInt iter y).length = 2)
    (hm : ∀ f g x r, mini f g x = .ok r → r.x.length = x.length) :
    (m.fitSeeded N eps hundredth mini toInt iter seed e X y).2 = (m.fitSeeded N eps hundredth mini toInt iter' seed' e' X y).2 ∧
    ((m.fitSeeded N eps hundredth mini toInt iter seed e X y).2 = .ok () →
      m.fitSeeded N eps hundredth mini toInt iter seed e X y = m.fitSeeded N eps hundredth mini toInt iter' seed' e' X y) := by
  have key : ∀ (iter : List Int → List Int) (e : Nat → α), (extractClasses toInt iter y).length = 2 →
      m.fitSeeded N eps hundredth mini toInt iter seed e X y =
      (if X.r ≠ y.r then (m, .err (.other "x and y must have the same number of samples"))
      else if y.c ≠ 1 then (m, .err (.other "y must be a column vector"))
      else
        let m0 := m.begin toInt iter (cryptoWeights hundredth e) X y
        if !m.penaltyOk then (m0, .err (.other "lbfgs supports only l2 or none penalty"))
        else match m.lambda with
          | none => (m0, .err (.other "C must be > 0 for l2 penalty"))
          | some la =>
            let yb := binaryLabels toInt y ((extractClasses toInt iter y).getD 1 0)
            match mini (objFunc N eps la m.fitIntercept X yb) (objGrad N la m.fitIntercept X yb)
              (List.replicate X.c 0 ++ if m.fitIntercept then [0] else []) with
            | .err e => (m0, .err e)
            | .panic s => (m0, .panic s)
            | .ok r => ({ m with
                classes := extractClasses toInt iter y
                nFeatures := X.c
                coef := some [r.x.take X.c]
                intercept := [if m.fitIntercept then r.x.getD X.c 0 else 0]
                nIter := [r.iters]
                fitted := true }, .ok ())) := by
    intro iter e h2
    unfold LR.fitSeeded LR.fit
    by_cases h1 : X.r ≠ y.r
    · rw [if_pos h1, if_pos h1]
    · rw [if_neg h1, if_neg h1]
      by_cases h3 : y.c ≠ 1
      · rw [if_pos h3, if_pos h3]
      · rw [if_neg h3, if_neg h3]
        have hb : m.begin toInt iter (cryptoWeights hundredth e) X y =
            m.begun (extractClasses toInt iter y) X.c (cryptoRow hundredth e 0 X.c) := by
          simp only [LR.begin, LR.begun, hw, Bool.not_false, Bool.true_or, if_true, h2, cryptoWeights, List.replicate, List.range_one, List.map_cons,
            List.map_nil, Nat.zero_mul]
        dsimp only
        rw [hb]
        generalize hB : m.begun (extractClasses toInt iter y) X.c (cryptoRow hundredth e 0 X.c) = B
        have b1 : B.classes = extractClasses toInt iter y := by rw [← hB]; rfl
        have b2 : B.penaltyOk = m.penaltyOk := by rw [← hB]; rfl
        have b3 : B.solver = "lbfgs" := by rw [← hB]; exact hs
        have b4 : B.warmStart = false := by rw [← hB]; exact hw
        have b5 : B.lambda = m.lambda := by rw [← hB]; rfl
        have b6 : B.coef = some [cryptoRow hundredth e 0 X.c] := by rw [← hB]; rfl
        have b7 : B.intercept = [0] := by rw [← hB]; rfl
        have b8 : B.fitIntercept = m.fitIntercept := by rw [← hB]; rfl
        unfold LR.fitClasses
        rw [b1, if_pos h2, b2]
        cases hp : m.penaltyOk with
        | false => simp only [Bool.not_false, if_true]
        | true =>
          have hst : B.start X.c = List.replicate X.c 0 ++ if m.fitIntercept then [0] else [] := by
            unfold LR.start
            simp only [b4, Bool.false_and, Bool.false_eq_true, if_false, b8]
          simp only [Bool.not_true, Bool.false_eq_true, if_false, LR.fitOne, b3, if_true, hst, LR.fitLBFGS, b6, b7, Option.getD_some,
            List.getElem?_cons_zero, b5, b8]
          rcases m.lambda with _ | la
          · rfl
          · simp only
            rcases hmin : mini (objFunc N eps la m.fitIntercept X (binaryLabels toInt y ((extractClasses toInt iter y).getD 1 0)))
              (objGrad N la m.fitIntercept X (binaryLabels toInt y ((extractClasses toInt iter y).getD 1 0)))
              (List.replicate X.c 0 ++ if m.fitIntercept then [0] else []) with r | er | s
            · have hl := hm _ _ _ _ hmin
              have hlen : X.c ≤ r.x.length := by
                rw [hl]; simp
              have hc : copyInto (cryptoRow hundredth e 0 X.c) (r.x.take X.c) = r.x.take X.c := by
                unfold copyInto
                have a : (cryptoRow hundredth e 0 X.c).length = X.c := by simp [cryptoRow]
                rw [a, List.take_take, Nat.min_self, List.length_take, Nat.min_eq_left hlen, List.drop_eq_nil_of_le (by rw [a]), List.append_nil]
              rw [← hB]
              simp only [LR.begun, LR.store, Option.getD_some, List.set_cons_zero, hc]
            · rfl
            · rfl
  have hcls := extractClasses_order toInt iter iter' hi hi' y
  have e1 := key iter e h2
  have e2 : m.fitSeeded N eps hundredth mini toInt iter' seed' e' X y = _ := key iter' e' (hcls ▸ h2)
  rw [e1, e2, ← hcls]
  by_cases h1 : X.r ≠ y.r
  · rw [if_pos h1, if_pos h1]; exact ⟨rfl, fun _ => rfl⟩
  · rw [if_neg h1, if_neg h1]
    by_cases h3 : y.c ≠ 1
    · rw [if_pos h3, if_pos h3]; exact ⟨rfl, fun _ => rfl⟩
    · rw [if_neg h3, if_neg h3]
      cases m.penaltyOk with
      | false =>
        simp only [Bool.not_false, if_true]
        exact ⟨trivial, fun h => nomatch h⟩
      | true =>
        simp only [Bool.not_true, Bool.false_eq_true, if_false]
        rcases m.lambda with _ | la
        · exact ⟨rfl, fun h => nomatch h⟩
        · simp only
          generalize mini (objFunc N eps la m.fitIntercept X (binaryLabels toInt y ((extractClasses toInt iter y).getD 1 0)))
              (objGrad N la m.fitIntercept X (binaryLabels toInt y ((extractClasses toInt iter y).getD 1 0)))
              (List.replicate X.c 0 ++ if m.fitIntercept then [0] else []) = o
          rcases o with r | er | s
          · exact ⟨rfl, fun _ => rfl⟩
          · exact ⟨rfl, fun h => nomatch h⟩
          · exact ⟨rfl, fun h => nomatch h⟩

/-- **C240** is false as a whole: with another solver than the default one, two classes and no iteration allowed, the fitted weights are the
drawn ones, whatever the seed: if the first numbers from `crypto/rand` differ (after scaling), so do the weights of two estimators with equal options
and equal seed. -/
theorem logistic_seed_ignored (N : Num α) (eps hundredth : α) (mini : Minimizer α) (toInt : α → Int) (iter : List Int → List Int)
    (m : LR α) (seed : Int × Int) (e e' : Nat → α) (X y : Mat α) (hw : m.warmStart = false) (hs : m.solver ≠ "lbfgs")
    (h0 : m.maxIter = 0) (h2 : (extractClasses toInt iter y).length = 2) (hX : X.c = 1) (hr : X.r = y.r) (hy : y.c = 1)
    (hne : e 0 * hundredth ≠ e' 0 * hundredth) :
    let a := m.fitSeeded N eps hundredth mini toInt iter seed e X y
    let b := m.fitSeeded N eps hundredth mini toInt iter seed e' X y
    a.2 = .ok () ∧ b.2 = .ok () ∧ a.1.coef ≠ b.1.coef := by
  have key : ∀ e : Nat → α, (m.fitSeeded N eps hundredth mini toInt iter seed e X y).2 = .ok () ∧
      (m.fitSeeded N eps hundredth mini toInt iter seed e X y).1.coef = some [[e 0 * hundredth]] := by
    intro e
    have hp : (!m.penaltyOk) = false := by
      have : (m.solver == "lbfgs") = false := by
        rw [beq_eq_false_iff_ne]; exact hs
      simp only [LR.penaltyOk, this, Bool.false_and, Bool.not_false, Bool.not_true]
    have hb : m.begin toInt iter (cryptoWeights hundredth e) X y =
        m.begun (extractClasses toInt iter y) X.c [e 0 * hundredth] := by
      simp only [LR.begin, LR.begun, hw, Bool.not_false, Bool.true_or, if_true, h2, cryptoWeights, cryptoRow, hX, List.replicate, List.range_one,
        List.map_cons, List.map_nil, Nat.zero_mul, Nat.add_zero]
    unfold LR.fitSeeded LR.fit
    rw [if_neg (by simp [hr]), if_neg (by simp [hy])]
    rw [hb]
    unfold LR.fitClasses
    rw [if_pos (show (m.begun (extractClasses toInt iter y) X.c [e 0 * hundredth]).classes.length = 2 from h2)]
    have hp' : (!(m.begun (extractClasses toInt iter y) X.c [e 0 * hundredth]).penaltyOk) = false := hp
    rw [hp']
    simp only [LR.begun, Bool.false_eq_true, if_false, LR.fitOne, if_neg hs, LR.fitGD, Option.getD_some, List.getElem?_cons_zero, h0, Nat.lt_irrefl,
      false_and, gdLoop, LR.store, List.set_cons_zero, and_self]
  intro a b
  refine ⟨(key e).1, (key e').1, fun h => ?_⟩
  rw [(key e).2, (key e').2] at h
  simp only [Option.some.injEq, List.cons.injEq, and_true] at h
  exact hne h

/-! ## Concrete cases -/

/-- an estimator trained by gradient descent -/
def exLR (solver : String) (iters : Nat) : LR ℚ :=
  { penalty := "l2", C := 1, fitIntercept := true, solver := solver, maxIter := iters, multiClass := "auto", warmStart := false, tol := 0,
    coef := none, intercept := [], classes := [], nFeatures := 0, nIter := [], fitted := false }

/-- labels 0, 1, 1 -/
def exLabels : Mat ℚ := Mat.ofRows [[0], [1], [1]] 1 0

/-- the hypotheses of `logistic_seed_ignored` are met; and after three iterations the weights still differ -/
example : (extractClasses (fun q : ℚ => q.floor) List.dedup exLabels).length = 2 ∧
    ((exLR "gd" 3).fitSeeded exNumQ (1 / 1000) (1 / 100) (fun _ _ x => .ok ⟨x, 0⟩) (fun q : ℚ => q.floor) List.dedup (seeds [7] 0) (fun _ => 1)
      exXQ exLabels).1.coef ≠
    ((exLR "gd" 3).fitSeeded exNumQ (1 / 1000) (1 / 100) (fun _ _ x => .ok ⟨x, 0⟩) (fun q : ℚ => q.floor) List.dedup (seeds [7] 0) (fun _ => 2)
      exXQ exLabels).1.coef := by
  decide +kernel

/-- with three classes the default solver starts at the drawn weights: an optimiser that stays there keeps them -/
example : ((exLR "lbfgs" 3).fitSeeded exNumQ (1 / 1000) (1 / 100) (fun _ _ x => .ok ⟨x, 0⟩) (fun q : ℚ => q.floor) List.dedup (seeds [7] 0)
      (fun _ => 1) exXQ exXQ).1.coef = some [[1 / 100], [1 / 100], [1 / 100]] := by
  decide +kernel

/-- an optimiser as `logistic_seed_partial` assumes -/
example : ∀ f g x r, (fun _ _ x => .ok ⟨x.map (· + 1), 3⟩ : Minimizer ℚ) f g x = .ok r → r.x.length = x.length := by
  intro f g x r h
  cases h
  exact List.length_map ..

/-- **C240** (law-free): the initial weights are the successive numbers of the generator, each used once, in order, scaled by 0.01. -/
theorem initial_weights_in_order {α : Type _} [Mul α] (hundredth : α) (e : Nat → α) (k cols : Nat) :
    (cryptoWeights hundredth e k cols).flatten = (List.range (k * cols)).map fun t => e t * hundredth := by
  unfold cryptoWeights
  induction k with
  | zero => simp
  | succ k ih =>
    rw [List.range_succ, List.map_append, List.flatten_append, ih, Nat.succ_mul, List.range_add, List.map_append]
    simp [cryptoRow, List.map_map, Function.comp_def]

example : (cryptoWeights (1 : Nat) (fun t => t + 5) 2 2).flatten = [5, 6, 7, 8] := by decide

end Scigo.Logistic
