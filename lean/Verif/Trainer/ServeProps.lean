import Verif.Trainer.MonoProps
import Verif.LGB.EnsembleProps

/-!
# C129: the model a trainer returns, and training twice

Concrete training runs, and the relation between the scores the trainer computed and the scores of the model it returns.
-/

set_option linter.unusedSectionVars false

namespace Scigo.Trainer

variable {α : Type}

section
variable [Field α] [LinearOrder α] [IsStrictOrderedRing α]

theorem single_slot (m : LGB.Model α) (h : m.numClass ≤ 2) (out : LGB.Tree α → Outcome α) (ts : List (LGB.Tree α)) (vs : List α)
    (hv : ts.map out = vs.map Outcome.ok) (k : Nat) (s : α) :
    m.accumulate out (fun _ s v => s + v) (ts.zipIdx k) [s] = .ok [vs.foldl (fun a v => a + v) s] := by
  induction ts generalizing vs k s with
  | nil =>
    cases vs with
    | nil => rfl
    | cons v vs => simp at hv
  | cons t ts ih =>
    cases vs with
    | nil => simp at hv
    | cons v vs =>
      simp only [List.map_cons, List.cons.injEq] at hv
      have hs : m.slot k = 0 := by unfold LGB.Model.slot; rw [if_neg (by omega)]
      rw [List.zipIdx_cons, LGB.Model.accumulate, hv.1, hs]
      exact ih vs hv.2 (k + 1) (s + v)

/-- **C129** (exact arithmetic; a part: learning rate 1): the model returned after training scores every training row as the trainer did -/
theorem served_scores_partial (C : Config α) (lib : Lib α) (byGrad : (Nat → α) → List Nat → List Nat) (rand : Nat → Nat → Nat) (fuel : Nat)
    (P : Problem α) (before after : Nat → St α → CB) (st : St α) (h : C.fit lib byGrad rand fuel P before after St.new = .ok st) (hw : C.wide = false)
    (hlr : C.learningRate = 1) (name : String) (numClass : Int) (hn : numClass ≤ 2) (hne : st.trees ≠ []) (i : Nat) (hi : i < P.rows) :
    ∃ p s, st.preds = some p ∧ p[i]? = some s ∧
      (C.getModel name numClass P st).raw lib.toInt st.trees.length (P.row i) = .ok [s] := by
  obtain ⟨-, -, -, -, h5, -⟩ := fit_boosts C lib byGrad rand fuel P before after st h
  obtain ⟨p, hp, -, hs⟩ := h5 hne hw
  obtain ⟨s, e, vs, hvs, rfl⟩ := hs i hi
  refine ⟨p, _, hp, e, ?_⟩
  have hm : (C.getModel name numClass P st).numClass ≤ 2 := by
    unfold Config.getModel
    simp only
    split_ifs <;> omega
  have hstart : (C.getModel name numClass P st).start = [C.init P] := by
    unfold LGB.Model.start
    rw [if_neg (by omega)]
    rfl
  rw [LGB.Model.raw, hstart, show (C.getModel name numClass P st).trees = st.trees from rfl, List.take_length,
    single_slot _ hm _ _ vs hvs, hlr]
  simp only [mul_one]

end

/-! ### Concrete runs -/

/-- squared error over the rationals; the initial score is the mean -/
def exObjective : Boost.Objective Rat where
  grad := fun p y => p - y
  hess := fun _ _ => 1
  loss := fun p y => (p - y) ^ 2 / 2
  init := fun ys => ys.foldl (· + ·) 0 / ys.length

/-- the library with a larger tolerance -/
def exSlow : Lib Rat := { exLib with eps := 1 / 100 }

/-- a configuration for the examples -/
def exConfig (iterations : Nat) (lr : Rat) : Config Rat where
  iterations := iterations
  learningRate := lr
  boosting := "gbdt"
  topRate := 0
  otherRate := 0
  baggingFraction := 1
  baggingFreq := 0
  lim := ⟨2, 31, 1, 1 / 100, none⟩
  hb := ⟨255, 0, 0⟩
  categorical := []
  objective := exObjective
  wide := false
  initScore := none
  weights := none
  classWeight := none
  monotone := []

/-- a training set with one feature -/
def exProblem (xs ys : List Rat) : Problem Rat := ⟨xs.length, 1, fun i _ => xs.getD i 0, ys⟩

/-- callbacks that never stop the training -/
def go : Nat → St Rat → CB := fun _ _ => .go

/-- three iterations on four rows, checked against `fit_boosts`, `fit_succeeds` and `squared_loss_decreases` -/
def exRun (iterations : Nat) (lr : Rat) (xs ys : List Rat) (st : St Rat) : Outcome (St Rat) :=
  (exConfig iterations lr).fit exSlow (fun _ l => l) (fun _ _ => 0) 5 (exProblem xs ys) go go st

example : ∃ st, exRun 3 (1 / 2) [1, 2, 3, 4] [0, 1, 5, 30] St.new = .ok st ∧ st.trees.length = 3 :=
  fit_succeeds (exConfig 3 (1 / 2)) exSlow exLib_ok.byRatio _ _ 5 (exProblem [1, 2, 3, 4] [0, 1, 5, 30]) rfl (by intro w h; cases h) (by decide) (by decide)
    go go (fun _ _ => ⟨rfl, rfl⟩)

example : ∃ st, exRun 3 (1 / 2) [1, 2, 3, 4] [0, 1, 5, 30] St.new = .ok st ∧ st.losses.Pairwise (fun a b => b ≤ a) ∧ st.losses.length = 3 := by
  obtain ⟨st, h, hl⟩ := fit_succeeds (exConfig 3 (1 / 2)) exSlow exLib_ok.byRatio (fun _ l => l) (fun _ _ => 0) 5 (exProblem [1, 2, 3, 4] [0, 1, 5, 30]) rfl
    (by intro w h; cases h) (by decide) (by decide) go go (fun _ _ => ⟨rfl, rfl⟩)
  refine ⟨st, h, (squared_loss_decreases (exConfig 3 (1 / 2)) exSlow exLib_ok.byRatio (by decide +kernel) _ _ 5 (exProblem [1, 2, 3, 4] [0, 1, 5, 30]) go go
    (fun _ _ => rfl) (fun _ _ => rfl) (fun _ _ => rfl) (by decide) (Or.inl (by decide)) rfl (fun i _ => show (0 : Rat) ≤ 1 by norm_num) (by decide +kernel)
    (by decide +kernel)     (by decide +kernel) (by decide +kernel) st h).1, ?_⟩
  rw [(fit_boosts _ _ _ _ _ _ _ _ st h).2.2.2.2.2.1, hl]
  rfl

/-- the scores the trainer has cached -/
def cached : Outcome (St Rat) → Option (List Rat)
  | .ok st => st.preds
  | _ => none

/-- the raw score of `x` by the model returned -/
def served (C : Config Rat) (P : Problem Rat) (x : List Rat) : Outcome (St Rat) → Option (List Rat)
  | .ok st => match (C.getModel "regression" 0 P st).raw exSlow.toInt st.trees.length x with
    | .ok l => some l
    | _ => none
  | _ => none

/-- **C129** is false: with a learning rate other than 1 the model returned does not score the training rows as the trainer did — the trainer
multiplies the outputs of the trees by the rate, the model does not. Two rows with targets 0 and 4, two iterations, rate 1/2: the trainer's
scores are about 0.51 and 3.49, the model's about -0.98 and 4.98. -/
theorem served_scores_wrong :
    cached (exRun 2 (1 / 2) [1, 2] [0, 4] St.new) = some [5202 / 10201, 35602 / 10201] ∧
    served (exConfig 2 (1 / 2)) (exProblem [1, 2] [0, 4]) [1] (exRun 2 (1 / 2) [1, 2] [0, 4] St.new) = some [-9998 / 10201] ∧
    served (exConfig 2 (1 / 2)) (exProblem [1, 2] [0, 4]) [2] (exRun 2 (1 / 2) [1, 2] [0, 4] St.new) = some [50802 / 10201] := by
  decide +kernel

/-- with the rate 1 they agree, as `served_scores_partial` says -/
example : cached (exRun 2 1 [1, 2] [0, 4] St.new) = some [2 / 101, 402 / 101] ∧
    served (exConfig 2 1) (exProblem [1, 2] [0, 4]) [2] (exRun 2 1 [1, 2] [0, 4] St.new) = some [402 / 101] := by
  decide +kernel

/-- a second `Fit` on the trainer that has finished a first one -/
def again (iterations : Nat) (xs ys : List Rat) : Outcome (St Rat) → Outcome (St Rat)
  | .ok st => exRun iterations 1 xs ys st
  | o => o

/-- number of trees, or why there are none -/
def treeCount : Outcome (St Rat) → Except String Nat
  | .ok st => .ok st.trees.length
  | .err _ => .error "error"
  | .panic s => .error s

/-- **C130** is false: training again does not start over. With `NumIterations = 1` the second `Fit` of a trainer leaves two trees and scores that
differ from those of a new trainer on the same data; if the second training set has more rows it panics. -/
theorem refit_not_fresh :
    treeCount (again 1 [1, 2, 3, 4] [30, 5, 1, 0] (exRun 1 1 [1, 2, 3, 4] [0, 1, 5, 30] St.new)) = .ok 2 ∧
    cached (again 1 [1, 2, 3, 4] [30, 5, 1, 0] (exRun 1 1 [1, 2, 3, 4] [0, 1, 5, 30] St.new)) ≠
      cached (exRun 1 1 [1, 2, 3, 4] [30, 5, 1, 0] St.new) ∧
    treeCount (again 1 [1, 2, 3, 4] [30, 5, 1, 0] (exRun 1 1 [1, 2] [0, 4] St.new)) = .error "mat: row index out of range" := by
  decide +kernel

/-- **C127** is false: trained with an increasing constraint on its only feature (`MonotoneConstraints = [1]`), the model returned decreases in it -/
theorem monotone_ignored :
    ({ exConfig 1 1 with monotone := [1] } : Config Rat).monotone = [1] ∧
    cached (({ exConfig 1 1 with monotone := [1] } : Config Rat).fit exSlow (fun _ l => l) (fun _ _ => 0) 5 (exProblem [1, 2, 3, 4] [30, 5, 1, 0]) go go St.new) =
      some [3009 / 101, 509 / 101, 109 / 201, 109 / 201] := by
  decide +kernel

section law_free
variable [DecidableEq α] [LT α] [DecidableLT α] [LE α] [DecidableLE α] [Zero α] [One α] [Add α] [Sub α] [Neg α] [Mul α] [Div α]

/-- **C125**, **C127** (law-free): only the exact name "goss" changes the training. Every other boosting type — "dart", "rf" and "GOSS"
included — and every list of monotone constraints gives the trees, scores and losses of "gbdt" without constraints. -/
theorem boosting_type_ignored (C : Config α) (name : String) (h : C.boosting ≠ "goss") (hn : name ≠ "goss") (constraints : List Int) (lib : Lib α)
    (byGrad : (Nat → α) → List Nat → List Nat) (rand : Nat → Nat → Nat) (fuel : Nat) (P : Problem α) (before after : Nat → St α → CB) (st : St α) :
    ({ C with boosting := name, monotone := constraints } : Config α).fit lib byGrad rand fuel P before after st =
      C.fit lib byGrad rand fuel P before after st := by
  obtain ⟨C', hC⟩ : ∃ C' : Config α, C' = { C with boosting := name, monotone := constraints } := ⟨_, rfl⟩
  have hs : ∀ r k g h', C'.sample lib byGrad r P k g h' = C.sample lib byGrad r P k g h' := by
    intro r k g h'
    unfold Config.sample
    rw [if_neg (by rw [hC]; exact hn), if_neg h, hC]
  have hi : ∀ k s, C'.iterate lib byGrad rand fuel P k s = C.iterate lib byGrad rand fuel P k s := by
    intro k s
    unfold Config.iterate
    simp only [hs]
    rw [hC]
    have hd : ∀ d l, Config.derivs { C with boosting := name, monotone := constraints } lib.toInt P d l = C.derivs lib.toInt P d l := fun _ _ => rfl
    have hl : ∀ ts c, Config.loss { C with boosting := name, monotone := constraints } lib.toInt P ts c = C.loss lib.toInt P ts c := by
      intro ts c
      have : ∀ n, Config.lossSums { C with boosting := name, monotone := constraints } lib.toInt P ts c n = C.lossSums lib.toInt P ts c n := by
        intro n
        induction n with
        | zero => rfl
        | succ n ih =>
          rw [Config.lossSums, Config.lossSums, ih]
          rfl
      rw [Config.loss, Config.loss, this]
    simp only [hd, hl]
    rfl
  have hr : ∀ n k s, C'.run lib byGrad rand fuel P before after n k s = C.run lib byGrad rand fuel P before after n k s := by
    intro n
    induction n with
    | zero => intro k s; rfl
    | succ n ih =>
      intro k s
      rw [Config.run, Config.run, hi]
      simp only [ih]
  rw [← hC]
  unfold Config.fit
  rw [hr, show C'.iterations = C.iterations by rw [hC]]

/-- **C130** (law-free; what holds instead of it): without bagging and GOSS, calling `Fit` again with the same data and parameters continues the
training: `m` iterations after `n` iterations are one training with `n + m` iterations -/
theorem refit_continues_partial (C : Config α) (h : C.boosting ≠ "goss") (hf : C.baggingFreq ≤ 0) (lib : Lib α)
    (byGrad : (Nat → α) → List Nat → List Nat) (rand : Nat → Nat → Nat) (fuel : Nat) (P : Problem α) (before after : Nat → St α → CB)
    (hcb : ∀ i s, before i s = .go ∧ after i s = .go) (n m : Nat) (st st' : St α)
    (h1 : ({ C with iterations := n } : Config α).fit lib byGrad rand fuel P before after st = .ok st') :
    ({ C with iterations := m } : Config α).fit lib byGrad rand fuel P before after st' =
      ({ C with iterations := n + m } : Config α).fit lib byGrad rand fuel P before after st := by
  have hi : ∀ it k k' s, Config.iterate { C with iterations := it } lib byGrad rand fuel P k s = C.iterate lib byGrad rand fuel P k' s := by
    intro it k k' s
    unfold Config.iterate
    have hs : ∀ g h', Config.sample { C with iterations := it } lib byGrad (rand k) P k g h' = C.sample lib byGrad (rand k') P k' g h' := by
      intro g h'
      unfold Config.sample sampleInstances
      rw [if_neg h, if_neg h, if_pos (Or.inl hf), if_pos (Or.inl hf)]
    simp only [hs]
    have hd : ∀ d l, Config.derivs { C with iterations := it } lib.toInt P d l = C.derivs lib.toInt P d l := fun _ _ => rfl
    have hl : ∀ ts c, Config.loss { C with iterations := it } lib.toInt P ts c = C.loss lib.toInt P ts c := by
      intro ts c
      have : ∀ n, Config.lossSums { C with iterations := it } lib.toInt P ts c n = C.lossSums lib.toInt P ts c n := by
        intro n
        induction n with
        | zero => rfl
        | succ n ih =>
          rw [Config.lossSums, Config.lossSums, ih]
          rfl
      rw [Config.loss, Config.loss, this]
    simp only [hd, hl]
    rfl
  have hr : ∀ it n k k' s, Config.run { C with iterations := it } lib byGrad rand fuel P before after n k s =
      C.run lib byGrad rand fuel P before after n k' s := by
    intro it n
    induction n with
    | zero => intro k k' s; rfl
    | succ n ih =>
      intro k k' s
      rw [Config.run, Config.run, (hcb k s).1, (hcb k' s).1]
      simp only
      rw [hi it k k' s]
      congr 1
      funext s'
      rw [(hcb k s').2, (hcb k' s').2]
      exact ih (k + 1) (k' + 1) s'
  unfold Config.fit at h1 ⊢
  simp only at h1 ⊢
  rw [hr n n 0 0] at h1
  rw [hr m m 0 0, hr (n + m) (n + m) 0 0]
  clear hr hi
  have hshift : ∀ n k k' s, C.run lib byGrad rand fuel P before after n k s = C.run lib byGrad rand fuel P before after n k' s := by
    intro n
    induction n with
    | zero => intro k k' s; rfl
    | succ n ih =>
      intro k k' s
      have e : C.iterate lib byGrad rand fuel P k s = C.iterate lib byGrad rand fuel P k' s := by
        unfold Config.iterate
        have hs : ∀ g h', C.sample lib byGrad (rand k) P k g h' = C.sample lib byGrad (rand k') P k' g h' := by
          intro g h'
          unfold Config.sample sampleInstances
          rw [if_neg h, if_neg h, if_pos (Or.inl hf), if_pos (Or.inl hf)]
        simp only [hs]
      rw [Config.run, Config.run, (hcb k s).1, (hcb k' s).1]
      simp only
      rw [e]
      congr 1
      funext s'
      rw [(hcb k s').2, (hcb k' s').2]
      exact ih (k + 1) (k' + 1) s'
  clear hf h
  generalize 0 = k at h1 ⊢
  induction n generalizing k st with
  | zero =>
    cases h1
    rw [Nat.zero_add]
  | succ n ih =>
    rw [Config.run, (hcb k st).1] at h1
    simp only at h1
    obtain ⟨s1, e1, h1⟩ := bind_ok_inv h1
    rw [(hcb k s1).2] at h1
    simp only at h1
    rw [show n + 1 + m = (n + m) + 1 by omega, Config.run, (hcb k st).1]
    simp only
    rw [e1, Outcome.bind_ok, (hcb k s1).2]
    simp only
    rw [hshift m k (k + 1)]
    exact ih s1 (k + 1) h1

end law_free

example : cached (again 1 [1, 2] [0, 4] (exRun 1 1 [1, 2] [0, 4] St.new)) = cached (exRun 2 1 [1, 2] [0, 4] St.new) := by decide +kernel

end Scigo.Trainer
