import Verif.Online.Model
import Verif.Base.Rand

/-!
# The SGD estimators with their random generator

`SGDRegressor` and `SGDClassifier` own a generator that the constructor seeds and that `Fit` and `PartialFit` draw from
(`sklearn/linear_model/sgd_regressor.go`, `sklearn/linear_model/sgd_classifier.go`). Here the initial weights and shuffles of
`Verif.Online.Model` come from that generator, whose state is part of the estimator.
-/

set_option linter.unusedSectionVars false

namespace Scigo.Online

variable {α : Type _}

/-- an estimator and the state of its generator `rng` (sklearn/linear_model/sgd_regressor.go:55, sklearn/linear_model/sgd_classifier.go:58) -/
structure Seeded (M : Type _) where
  model : M
  rng : Nat

/-- a training call (sklearn/linear_model/sgd_regressor.go:173,242, sklearn/linear_model/sgd_classifier.go:156,225) -/
inductive Train (α : Type _)
  | fit (X y : Mat α)
  | partialFit (X y : Mat α) (classes : Option (List Int))

/-- `rng.Shuffle` on a list of indices (sklearn/linear_model/sgd_regressor.go:204-206, sklearn/linear_model/sgd_classifier.go:187-189): for
`i = n-1 … 1` swap positions `i` and a drawn `j ≤ i` -/
def shuffleG (G : Rng α) : Nat → List Nat → Nat → List Nat × Nat
  | 0, l, s => (l, s)
  | 1, l, s => (l, s)
  | n + 2, l, s =>
    let i := n + 1
    let d := G.int s (i + 1)
    let j := d.1 % (i + 1)
    shuffleG G (n + 1) ((l.set i (l.getD j 0)).set j (l.getD i 0)) d.2

/-- the order of one epoch (sklearn/linear_model/sgd_regressor.go:199-207, sklearn/linear_model/sgd_classifier.go:182-190) -/
def epochG (G : Rng α) (o : Opts α) (rows s : Nat) : List Nat × Nat :=
  if o.shuffle then shuffleG G rows (List.range rows) s else (List.range rows, s)

section
variable [Add α] [Sub α] [Mul α] [Div α] [Neg α] [Zero α] [One α] [LT α] [DecidableLT α]
  [LE α] [DecidableLE α] [BEq α]

/-- `n` times `rng.NormFloat64() * scale` (sklearn/linear_model/sgd_regressor.go:188-191, 254-257, sklearn/linear_model/sgd_classifier.go:806-808) -/
def normals (G : Rng α) (scale : α) : Nat → Nat → List α × Nat
  | 0, s => ([], s)
  | n + 1, s =>
    let d := G.norm s
    let r := normals G scale n d.2
    (d.1 * scale :: r.1, r.2)

/-- `k` rows of weights (sklearn/linear_model/sgd_classifier.go:801-809) -/
def normalRows (G : Rng α) (scale : α) (cols : Nat) : Nat → Nat → List (List α) × Nat
  | 0, s => ([], s)
  | k + 1, s =>
    let d := normals G scale cols s
    let r := normalRows G scale cols k d.2
    (d.1 :: r.1, r.2)

/-- `math.Sqrt(2.0 / float64(cols))` (sklearn/linear_model/sgd_regressor.go:187, sklearn/linear_model/sgd_classifier.go:800) -/
def xavier (N : Num α) (cols : Nat) : α := N.sqrt (N.two / N.ofNat cols)

/-! ## SGDRegressor -/

/-- `NewSGDRegressor`; `options` are the seeds of the `WithRandomState` options, `clock` the readings of the clock
(sklearn/linear_model/sgd_regressor.go:60-94, 163-169) -/
def Reg.seeded (G : Rng α) (salted : Nat → Nat) (m : Reg α) (options : List Int) (clock : Nat × Nat) : Seeded (Reg α) :=
  ⟨m, G.forSeed salted (randomState options) clock⟩

/-- the epochs of `Fit`; the flag says a panic ended them (sklearn/linear_model/sgd_regressor.go:195-229) -/
def Reg.epochsG (G : Rng α) (N : Num α) (X y : Mat α) : Nat → Reg α → Nat → Reg α × Bool × Nat
  | 0, m, s => (m, false, s)
  | n + 1, m, s =>
    let o := epochG G m.opts X.r s
    match m.trainRows N X y o.1 0 with
    | (m', _, true) => (m', true, o.2)
    | (m', l, false) =>
      let m2 := { m' with hist := m'.hist ++ [l / N.ofNat X.r], nIter := m'.nIter + 1 }
      if checkConvergence m2.opts.tol m2.hist then ({ m2 with converged := true }, false, o.2)
      else Reg.epochsG G N X y n m2 o.2

/-- the weights of a first call and the generator after it (sklearn/linear_model/sgd_regressor.go:184-192, 249-258); with weights present nothing
is drawn -/
def drawnFor (G : Rng α) (N : Num α) (present : Bool) (cols s : Nat) : List α × Nat :=
  if present then ([], s) else normals G (xavier N cols) cols s

/-- `Fit` (sklearn/linear_model/sgd_regressor.go:173-239) -/
def Reg.fitG (G : Rng α) (N : Num α) (X y : Mat α) (e : Seeded (Reg α)) : Seeded (Reg α) × Outcome Unit :=
  let w := drawnFor G N (e.model.opts.warmStart && e.model.coef.isSome) X.c e.rng
  match Reg.epochsG G N X y e.model.opts.maxIter (e.model.fitBegin (fun _ => w.1) X.c) w.2 with
  | (m', true, s) => (⟨m', s⟩, .panic "index out of range")
  | (m', false, s) => (⟨{ m' with fitted := true }, s⟩, .ok ())

/-- `PartialFit`; the classes are ignored (sklearn/linear_model/sgd_regressor.go:242-280) -/
def Reg.partialFitG (G : Rng α) (N : Num α) (X y : Mat α) (e : Seeded (Reg α)) : Seeded (Reg α) × Outcome Unit :=
  let w := drawnFor G N e.model.coef.isSome X.c e.rng
  let r := e.model.partialFit N (fun _ => w.1) X y
  (⟨r.1, w.2⟩, r.2)

/-- one training call (sklearn/linear_model/sgd_regressor.go:173-280) -/
def Reg.trainG (G : Rng α) (N : Num α) (e : Seeded (Reg α)) : Train α → Seeded (Reg α) × Outcome Unit
  | .fit X y => Reg.fitG G N X y e
  | .partialFit X y _ => Reg.partialFitG G N X y e

/-- a history of training calls: what each of them returned, and the estimator after each (sklearn/linear_model/sgd_regressor.go:173-280) -/
def Reg.runG (G : Rng α) (N : Num α) : Seeded (Reg α) → List (Train α) → List (Seeded (Reg α) × Outcome Unit)
  | _, [] => []
  | e, c :: cs => Reg.trainG G N e c :: Reg.runG G N (Reg.trainG G N e c).1 cs

/-! ## SGDClassifier -/

/-- `NewSGDClassifier` (sklearn/linear_model/sgd_classifier.go:63-98, 146-153) -/
def Clf.seeded (G : Rng α) (salted : Nat → Nat) (m : Clf α) (options : List Int) (clock : Nat × Nat) : Seeded (Clf α) :=
  ⟨m, G.forSeed salted (randomState options) clock⟩

/-- the epochs of `Fit` (sklearn/linear_model/sgd_classifier.go:178-212) -/
def Clf.epochsG (G : Rng α) (N : Num α) (toInt : α → Int) (X y : Mat α) : Nat → Clf α → Nat → Clf α × Bool × Nat
  | 0, m, s => (m, false, s)
  | n + 1, m, s =>
    let o := epochG G m.opts X.r s
    match Clf.trainRows N toInt X y o.1 m 0 with
    | (m', _, true) => (m', true, o.2)
    | (m', l, false) =>
      let m2 := { m' with hist := m'.hist ++ [l / N.ofNat X.r], nIter := m'.nIter + 1 }
      if checkConvergence m2.opts.tol m2.hist then ({ m2 with converged := true }, false, o.2)
      else Clf.epochsG G N toInt X y n m2 o.2

/-- `initializeWeights` if it is called: `k` rows of `cols` weights (sklearn/linear_model/sgd_classifier.go:795-810) -/
def drawnRows (G : Rng α) (N : Num α) (present : Bool) (k cols s : Nat) : List (List α) × Nat :=
  if present then ([], s) else normalRows G (xavier N cols) cols k s

/-- number of classes of a first call (sklearn/linear_model/sgd_classifier.go:235-242, 767-792) -/
def firstClasses (toInt : α → Int) (iter : List Int → List Int) (y : Mat α) : Option (List Int) → Nat
  | some cs => cs.length
  | none => (extractClasses toInt iter y).length

/-- `Fit`; `iter` is the order of the map of classes (sklearn/linear_model/sgd_classifier.go:156-222) -/
def Clf.fitG (G : Rng α) (N : Num α) (toInt : α → Int) (iter : List Int → List Int) (X y : Mat α) (e : Seeded (Clf α)) :
    Seeded (Clf α) × Outcome Unit :=
  let w := drawnRows G N (e.model.opts.warmStart && e.model.coef.isSome) (firstClasses toInt iter y none) X.c e.rng
  match Clf.epochsG G N toInt X y e.model.opts.maxIter (e.model.fitBegin toInt iter (fun _ _ => w.1) X y) w.2 with
  | (m', true, s) => (⟨m', s⟩, .panic "index out of range")
  | (m', false, s) => (⟨{ m' with fitted := true }, s⟩, .ok ())

/-- `PartialFit` (sklearn/linear_model/sgd_classifier.go:225-266) -/
def Clf.partialFitG (G : Rng α) (N : Num α) (toInt : α → Int) (iter : List Int → List Int) (X y : Mat α) (classes : Option (List Int))
    (e : Seeded (Clf α)) : Seeded (Clf α) × Outcome Unit :=
  let w := drawnRows G N e.model.coef.isSome (firstClasses toInt iter y classes) X.c e.rng
  let r := e.model.partialFit N toInt iter (fun _ _ => w.1) X y classes
  (⟨r.1, w.2⟩, r.2)

/-- one training call (sklearn/linear_model/sgd_classifier.go:156-266) -/
def Clf.trainG (G : Rng α) (N : Num α) (toInt : α → Int) (iter : List Int → List Int) (e : Seeded (Clf α)) :
    Train α → Seeded (Clf α) × Outcome Unit
  | .fit X y => Clf.fitG G N toInt iter X y e
  | .partialFit X y cs => Clf.partialFitG G N toInt iter X y cs e

/-- a history of training calls; every call meets its own order of the map (sklearn/linear_model/sgd_classifier.go:156-266) -/
def Clf.runG (G : Rng α) (N : Num α) (toInt : α → Int) : Seeded (Clf α) → List (Train α × (List Int → List Int)) →
    List (Seeded (Clf α) × Outcome Unit)
  | _, [] => []
  | e, c :: cs => Clf.trainG G N toInt c.2 e c.1 :: Clf.runG G N toInt (Clf.trainG G N toInt c.2 e c.1).1 cs

end

end Scigo.Online
