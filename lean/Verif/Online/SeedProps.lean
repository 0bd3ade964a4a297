import Verif.Online.Seed
import Verif.KMeans.Model
import Mathlib.Data.List.Perm.Basic
import Mathlib.Data.List.Dedup
import Mathlib.Data.Int.Order.Basic
import Mathlib.Algebra.Order.Ring.Rat

/-!
# Reproducibility of the estimators that own a generator (C237, C238)

Law-free: no property of the arithmetic or of the generator is used.
-/

set_option linter.unusedSectionVars false

namespace Scigo.Online

/-- the seed in force: that of the last `WithRandomState` option, and it is not negative -/
def SeedGiven (options : List Int) : Prop := ∃ s, options.getLast? = some s ∧ 0 ≤ s

theorem randomState_last (options : List Int) (s : Int) (h : options.getLast? = some s) : randomState options = s := by
  obtain ⟨l, rfl⟩ : ∃ l, options = l ++ [s] := by
    rcases List.eq_nil_or_concat options with e | ⟨l, b, e⟩
    · rw [e] at h; cases h
    · rw [e, List.concat_eq_append, List.getLast?_append] at h
      exact ⟨l, by rw [e, List.concat_eq_append]; simp at h; rw [h]⟩
  simp [randomState, List.foldl_append]

theorem forSeed_clock {α : Type _} (G : Rng α) (salted : Nat → Nat) (options : List Int) (h : SeedGiven options) (clock clock' : Nat × Nat) :
    G.forSeed salted (randomState options) clock = G.forSeed salted (randomState options) clock' := by
  obtain ⟨s, h1, h2⟩ := h
  rw [randomState_last options s h1]
  unfold Rng.forSeed
  rw [if_pos h2, if_pos h2]

section
variable {α : Type _} [Add α] [Sub α] [Mul α] [Div α] [Neg α] [Zero α] [One α] [LT α] [DecidableLT α]
  [LE α] [DecidableLE α] [BEq α]

/-- **C237** `SGDRegressor`: two estimators built with the same options, the last `WithRandomState` of which gives a seed `≥ 0`, and taken
through the same training calls, return the same results and have the same state after every call, whatever the clock showed when
each was built. -/
theorem sgdReg_reproducible (G : Rng α) (salted : Nat → Nat) (N : Num α) (m : Reg α) (options : List Int) (h : SeedGiven options)
    (clock clock' : Nat × Nat) (calls : List (Train α)) :
    Reg.runG G N (Reg.seeded G salted m options clock) calls = Reg.runG G N (Reg.seeded G salted m options clock') calls := by
  unfold Reg.seeded
  rw [forSeed_clock G salted options h clock clock']

theorem extractClasses_order (toInt : α → Int) (iter iter' : List Int → List Int) (hi : MapKeys iter) (hi' : MapKeys iter') (y : Mat α) :
    extractClasses toInt iter y = extractClasses toInt iter' y := by
  unfold extractClasses
  set l := (List.range y.r).map fun i => toInt (y.at' i 0)
  have p : (iter l).Perm (iter' l) := by
    rw [List.perm_ext_iff_of_nodup (hi l).1 (hi' l).1]
    intro c
    rw [(hi l).2, (hi' l).2]
  exact List.Perm.eq_of_pairwise (fun a b _ _ g1 g2 => le_antisymm g1 g2) (exchangeSort_spec _).2 (exchangeSort_spec _).2
    ((exchangeSort_spec _).1.trans (p.trans (exchangeSort_spec _).1.symm))

theorem clf_begin_order (toInt : α → Int) (iter iter' : List Int → List Int) (hi : MapKeys iter) (hi' : MapKeys iter')
    (init : Nat → Nat → List (List α)) (X y : Mat α) (cs : Option (List Int)) (m : Clf α) :
    m.begin toInt iter init X y cs = m.begin toInt iter' init X y cs := by
  unfold Clf.begin
  rw [extractClasses_order toInt iter iter' hi hi' y]

theorem clf_train_order (G : Rng α) (N : Num α) (toInt : α → Int) (iter iter' : List Int → List Int) (hi : MapKeys iter) (hi' : MapKeys iter')
    (e : Seeded (Clf α)) (c : Train α) : Clf.trainG G N toInt iter e c = Clf.trainG G N toInt iter' e c := by
  cases c with
  | fit X y =>
    have e1 : firstClasses toInt iter y none = firstClasses toInt iter' y none := by
      simp only [firstClasses, extractClasses_order toInt iter iter' hi hi' y]
    simp only [Clf.trainG, Clf.fitG, e1, Clf.fitBegin, clf_begin_order toInt iter iter' hi hi']
  | partialFit X y cs =>
    have e1 : firstClasses toInt iter y cs = firstClasses toInt iter' y cs := by
      cases cs <;> simp only [firstClasses, extractClasses_order toInt iter iter' hi hi' y]
    simp only [Clf.trainG, Clf.partialFitG, e1, Clf.partialFit, clf_begin_order toInt iter iter' hi hi']

/-- **C237** `SGDClassifier`: the same, and whatever order each call meets the map of labels in. -/
theorem sgdClf_reproducible (G : Rng α) (salted : Nat → Nat) (N : Num α) (toInt : α → Int) (m : Clf α) (options : List Int)
    (h : SeedGiven options) (clock clock' : Nat × Nat) (calls calls' : List (Train α × (List Int → List Int)))
    (hc : calls.map (·.1) = calls'.map (·.1)) (hm : ∀ c ∈ calls, MapKeys c.2) (hm' : ∀ c ∈ calls', MapKeys c.2) :
    Clf.runG G N toInt (Clf.seeded G salted m options clock) calls = Clf.runG G N toInt (Clf.seeded G salted m options clock') calls' := by
  unfold Clf.seeded
  rw [forSeed_clock G salted options h clock clock']
  generalize (⟨m, G.forSeed salted (randomState options) clock'⟩ : Seeded (Clf α)) = e
  induction calls generalizing calls' e with
  | nil =>
    cases calls' with
    | nil => rfl
    | cons c cs => cases hc
  | cons c cs ih =>
    cases calls' with
    | nil => cases hc
    | cons c' cs' =>
      rw [List.map_cons, List.map_cons, List.cons.injEq] at hc
      have e1 : Clf.trainG G N toInt c.2 e c.1 = Clf.trainG G N toInt c'.2 e c'.1 := by
        rw [hc.1]
        exact clf_train_order G N toInt _ _ (hm c (List.mem_cons_self ..)) (hm' c' (List.mem_cons_self ..)) e _
      simp only [Clf.runG, e1]
      rw [ih cs' hc.2 (fun d hd => hm d (List.mem_cons_of_mem _ hd)) (fun d hd => hm' d (List.mem_cons_of_mem _ hd))]

/-! ## The generator only supplies the weights and orders of the model without it -/

theorem shuffleG_refines (G : Rng α) (n : Nat) (l : List Nat) (s : Nat) : ∃ pick, (shuffleG G n l s).1 = shuffleFrom pick n l := by
  induction n generalizing l s with
  | zero => exact ⟨fun _ => 0, rfl⟩
  | succ n ih =>
    cases n with
    | zero => exact ⟨fun _ => 0, rfl⟩
    | succ n =>
      obtain ⟨pick, e⟩ := ih ((l.set (n + 1) (l.getD ((G.int s (n + 1 + 1)).1 % (n + 1 + 1)) 0)).set
        ((G.int s (n + 1 + 1)).1 % (n + 1 + 1)) (l.getD (n + 1) 0)) (G.int s (n + 1 + 1)).2
      have local_ : ∀ k (p q : Nat → Nat) (l : List Nat), (∀ i < k, p i = q i) → shuffleFrom p k l = shuffleFrom q k l := by
        intro k
        induction k with
        | zero => intros; rfl
        | succ k ihk =>
          intro p q l h
          cases k with
          | zero => rfl
          | succ k =>
            simp only [shuffleFrom]
            rw [h (k + 1) (by omega)]
            exact ihk _ _ _ fun i hi => h i (by omega)
      refine ⟨fun i => if i = n + 1 then (G.int s (n + 1 + 1)).1 else pick i, ?_⟩
      simp only [shuffleG, shuffleFrom, if_pos]
      rw [e]
      exact local_ _ _ _ _ fun i hi => (if_neg (by omega)).symm

theorem epochG_refines (G : Rng α) (o : Opts α) (rows s : Nat) : ∃ pick, (epochG G o rows s).1 = epochOrder o pick rows := by
  obtain ⟨pick, e⟩ := shuffleG_refines G rows (List.range rows) s
  refine ⟨pick, ?_⟩
  unfold epochG epochOrder
  split
  · exact e
  · rfl

theorem normals_length (G : Rng α) (scale : α) (n s : Nat) : (normals G scale n s).1.length = n := by
  induction n generalizing s with
  | zero => rfl
  | succ n ih => simp only [normals, List.length_cons, ih]

theorem normalRows_shape (G : Rng α) (scale : α) (cols k s : Nat) :
    (normalRows G scale cols k s).1.length = k ∧ ∀ w ∈ (normalRows G scale cols k s).1, w.length = cols := by
  induction k generalizing s with
  | zero => exact ⟨rfl, fun w hw => nomatch hw⟩
  | succ k ih =>
    obtain ⟨a, b⟩ := ih (normals G scale cols s).2
    refine ⟨by simp only [normalRows, List.length_cons, a], fun w hw => ?_⟩
    simp only [normalRows, List.mem_cons] at hw
    rcases hw with rfl | hw
    · exact normals_length G scale cols s
    · exact b w hw

theorem reg_epochs_refine (G : Rng α) (N : Num α) (X y : Mat α) (n : Nat) (m : Reg α) (s k : Nat) :
    ∃ pick, ((Reg.epochsG G N X y n m s).1, (Reg.epochsG G N X y n m s).2.1) = Reg.fitLoop N pick X y n k m := by
  induction n generalizing m s k with
  | zero => exact ⟨fun _ _ => 0, rfl⟩
  | succ n ih =>
    obtain ⟨p0, e0⟩ := epochG_refines G m.opts X.r s
    simp only [Reg.epochsG, Reg.fitLoop]
    rw [e0]
    rcases h : m.trainRows N X y (epochOrder m.opts p0 X.r) 0 with ⟨m', l, b⟩
    cases b with
    | true =>
      refine ⟨fun _ => p0, ?_⟩
      rw [h]
    | false =>
      simp only
      by_cases hcv : checkConvergence m'.opts.tol (m'.hist ++ [l / N.ofNat X.r]) = true
      · refine ⟨fun _ => p0, ?_⟩
        rw [h]
        simp only [hcv, if_true]
      · obtain ⟨p1, e1⟩ := ih { m' with hist := m'.hist ++ [l / N.ofNat X.r], nIter := m'.nIter + 1 } (epochG G m.opts X.r s).2 (k + 1)
        refine ⟨fun i => if i = k then p0 else p1 i, ?_⟩
        simp only [if_pos, h]
        rw [if_neg hcv, if_neg hcv, e1]
        have local_ : ∀ n k (p q : Nat → Nat → Nat) (m : Reg α), (∀ i, k ≤ i → p i = q i) →
            Reg.fitLoop N p X y n k m = Reg.fitLoop N q X y n k m := by
          intro n
          induction n with
          | zero => intros; rfl
          | succ n ihn =>
            intro k p q m hpq
            simp only [Reg.fitLoop]
            rw [hpq k le_rfl]
            rcases m.trainRows N X y (epochOrder m.opts (q k) X.r) 0 with ⟨m1, l1, b1⟩
            cases b1 with
            | true => rfl
            | false =>
              simp only
              split
              · rfl
              · exact ihn _ _ _ _ fun i hi => hpq i (by omega)
        exact local_ _ _ _ _ _ fun i hi => (if_neg (by omega)).symm

/-- the estimator with its generator is the estimator of `Verif.Online.Model` for some list of initial weights of the right length and some
shuffles: everything proved there for all of these holds for it -/
theorem reg_fit_refines (G : Rng α) (N : Num α) (X y : Mat α) (e : Seeded (Reg α)) :
    ∃ (init : Nat → List α) (pick : Nat → Nat → Nat), (∀ c, (init c).length = c) ∧
      ((Reg.fitG G N X y e).1.model, (Reg.fitG G N X y e).2) = e.model.fit N init pick X y := by
  set w := drawnFor G N (e.model.opts.warmStart && e.model.coef.isSome) X.c e.rng with hw
  let init : Nat → List α := fun c => if c = w.1.length then w.1 else List.replicate c 0
  have hb : e.model.fitBegin (fun _ => w.1) X.c = e.model.fitBegin init X.c := by
    unfold Reg.fitBegin
    by_cases hp : e.model.opts.warmStart = true ∧ e.model.coef.isSome = true
    · rw [if_pos hp]
      obtain ⟨c, hc⟩ := Option.isSome_iff_exists.1 hp.2
      simp only [Reg.ensureCoef, hc]
    · have hl : w.1.length = X.c := by
        have : (e.model.opts.warmStart && e.model.coef.isSome) = false := by
          rcases h1 : e.model.opts.warmStart <;> rcases h2 : e.model.coef.isSome <;> simp_all
        rw [hw, drawnFor, this]
        exact normals_length ..
      rw [if_neg hp]
      simp only [Reg.ensureCoef, Reg.reset, init, hl, if_true]
  obtain ⟨pick, hp⟩ := reg_epochs_refine G N X y e.model.opts.maxIter (e.model.fitBegin init X.c) w.2 0
  refine ⟨init, pick, fun c => ?_, ?_⟩
  · simp only [init]
    split
    · exact (‹c = w.1.length›).symm
    · simp
  · simp only [Reg.fitG, ← hw, hb, Reg.fit, ← hp]
    rcases Reg.epochsG G N X y e.model.opts.maxIter (e.model.fitBegin init X.c) w.2 with ⟨m', b, s⟩
    cases b <;> rfl

/-! ## C238: fitting again -/

/-- **C238** (the part that holds) `Fit` without warm start depends on what was done with the regressor before only through the options,
the base learning rate and the state of the generator: an estimator that agrees on these, for instance a new one, ends in the
same state with the same result. What is missing: the generator is not seeded again, see `sgdReg_refit_differs`. -/
theorem sgdReg_refit_partial (G : Rng α) (N : Num α) (X y : Mat α) (a b : Seeded (Reg α)) (hw : a.model.opts.warmStart = false)
    (ho : b.model.opts = a.model.opts) (he : b.model.eta0 = a.model.eta0) (hr : b.rng = a.rng) : Reg.fitG G N X y b = Reg.fitG G N X y a := by
  have hb : ∀ init, b.model.fitBegin init X.c = a.model.fitBegin init X.c := by
    intro init
    unfold Reg.fitBegin
    rw [ho]
    simp only [hw, Bool.false_eq_true, false_and, if_false, Reg.reset, Reg.ensureCoef, ho, he]
  simp only [Reg.fitG, ho, hw, Bool.false_and, hr, hb]

/-- **C238** (the part that holds) the same for `SGDClassifier`. -/
theorem sgdClf_refit_partial (G : Rng α) (N : Num α) (toInt : α → Int) (iter : List Int → List Int) (X y : Mat α) (a b : Seeded (Clf α))
    (hw : a.model.opts.warmStart = false) (ho : b.model.opts = a.model.opts) (he : b.model.eta0 = a.model.eta0) (hr : b.rng = a.rng) :
    Clf.fitG G N toInt iter X y b = Clf.fitG G N toInt iter X y a := by
  have hb : ∀ init, b.model.fitBegin toInt iter init X y = a.model.fitBegin toInt iter init X y := by
    intro init
    unfold Clf.fitBegin
    rw [ho]
    simp only [hw, Bool.false_eq_true, false_and, if_false, Clf.reset, Clf.begin, ho, he]
  simp only [Clf.fitG, ho, hw, Bool.false_and, hr, hb]

/-- **C238** is false as a whole: with `WithMaxIter(0)` the trained weights are the drawn ones, and the second `Fit` of the same estimator,
seed given and no warm start, draws on: on one column its weight is the second normal number of the generator, not the first. They
differ for every generator and seed whose first two (scaled) normal numbers differ. -/
theorem sgdReg_refit_differs (G : Rng α) (salted : Nat → Nat) (N : Num α) (m : Reg α) (hw : m.opts.warmStart = false) (h0 : m.opts.maxIter = 0)
    (seed : Int) (_hs : 0 ≤ seed) (clock : Nat × Nat) (X y : Mat α) (hX : X.c = 1) :
    let s0 := (Reg.seeded G salted m [seed] clock).rng
    let first := Reg.fitG G N X y (Reg.seeded G salted m [seed] clock)
    let second := Reg.fitG G N X y first.1
    let w0 := (G.norm s0).1 * xavier N 1
    let w1 := (G.norm (G.norm s0).2).1 * xavier N 1
    first.2 = .ok () ∧ second.2 = .ok () ∧ first.1.model.coef = some [w0] ∧ second.1.model.coef = some [w1] ∧
      (w0 ≠ w1 → first.1.model.coef ≠ second.1.model.coef) := by
  intro s0 first second w0 w1
  have hfit : ∀ e : Seeded (Reg α), e.model.opts.warmStart = false → e.model.opts.maxIter = 0 →
      (Reg.fitG G N X y e).2 = .ok () ∧ (Reg.fitG G N X y e).1.model.coef = some [(G.norm e.rng).1 * xavier N 1] ∧
      (Reg.fitG G N X y e).1.rng = (G.norm e.rng).2 ∧ (Reg.fitG G N X y e).1.model.opts = e.model.opts := by
    intro e h1 h2
    simp only [Reg.fitG, h1, h2, Bool.false_and, Reg.epochsG, drawnFor, hX, normals, Reg.fitBegin, Bool.false_eq_true, false_and, if_false,
      Reg.reset, Reg.ensureCoef, and_self]
  obtain ⟨a1, a2, a3, a4⟩ := hfit (Reg.seeded G salted m [seed] clock) hw h0
  obtain ⟨b1, b2, b3, b4⟩ := hfit first.1 (by rw [a4]; exact hw) (by rw [a4]; exact h0)
  have hb2 : second.1.model.coef = some [w1] := by rw [b2, a3]
  refine ⟨a1, b1, a2, hb2, fun hne heq => ?_⟩
  rw [a2, hb2] at heq
  simp only [Option.some.injEq, List.cons.injEq, and_true] at heq
  exact hne heq

end

/-! ## A concrete case -/

/-- a generator for the examples: a linear congruential one -/
def exGen : Rng ℚ where
  pcg := fun a b => a + b
  u64 := fun s => (s, (s * 5 + 3) % 64)
  int := fun s n => (s % n, (s * 5 + 3) % 64)
  norm := fun s => ((s : ℚ) / 64, (s * 5 + 3) % 64)
  flt := fun s => ((s : ℚ) / 64, (s * 5 + 3) % 64)

/-- arithmetic for the examples -/
def exNumQ : Num ℚ where
  sqrt := id
  abs := fun x => if x < 0 then -x else x
  pow := fun x _ => x
  exp := id
  log := id
  unstable := fun _ => false
  ofNat := fun n => n
  half := 1 / 2
  tenth := 1 / 10
  ten := 10
  two := 2
  four := 4

/-- a new regressor with two epochs -/
def exRegQ (iters : Nat) : Reg ℚ :=
  { opts := { loss := "squared_error", penalty := "none", schedule := "constant", alpha := 0, l1Ratio := 0, epsilon := 0, powerT := 0,
              tol := 0, fitIntercept := true, shuffle := true, warmStart := false, maxIter := iters }
    eta0 := 1 / 8, coef := none, intercept := 0, nFeatures := 0, nIter := 0, t := 0, hist := [], converged := false, fitted := false }

/-- three rows -/
def exXQ : Mat ℚ := Mat.ofRows [[1], [2], [3]] 1 0

example : SeedGiven [-1, 7] ∧ ¬ SeedGiven [7, -1] := ⟨⟨7, rfl, by decide⟩, fun ⟨s, h, h'⟩ => by
  simp only [List.getLast?, Option.some.injEq] at h
  subst h
  exact absurd h' (by decide)⟩

/-- with a seed the clock does not matter; without one it does -/
example : ((Reg.runG exGen exNumQ (Reg.seeded exGen id (exRegQ 2) [7] (1, 1)) [.fit exXQ exXQ]).map (·.1.model.coef) =
      (Reg.runG exGen exNumQ (Reg.seeded exGen id (exRegQ 2) [7] (5, 9)) [.fit exXQ exXQ]).map (·.1.model.coef)) ∧
    ((Reg.runG exGen exNumQ (Reg.seeded exGen id (exRegQ 2) [] (1, 1)) [.fit exXQ exXQ]).map (·.1.model.coef) ≠
      (Reg.runG exGen exNumQ (Reg.seeded exGen id (exRegQ 2) [] (5, 9)) [.fit exXQ exXQ]).map (·.1.model.coef)) := by
  decide +kernel

/-- the two fits of `sgdReg_refit_differs` differ, also after two epochs of training -/
example : (exGen.norm (Reg.seeded exGen id (exRegQ 0) [7] (0, 0)).rng).1 * xavier exNumQ 1 ≠
      (exGen.norm (exGen.norm (Reg.seeded exGen id (exRegQ 0) [7] (0, 0)).rng).2).1 * xavier exNumQ 1 ∧
    ((Reg.runG exGen exNumQ (Reg.seeded exGen id (exRegQ 2) [7] (0, 0)) [.fit exXQ exXQ, .fit exXQ exXQ]).map (·.1.model.coef)).Nodup := by
  decide +kernel

example : MapKeys (List.dedup : List Int → List Int) := fun l => ⟨l.nodup_dedup, fun _ => List.mem_dedup⟩

end Scigo.Online

namespace Scigo.KMeans

variable {α : Type _} [Add α] [Sub α] [Mul α] [Div α] [Zero α] [One α] [NatCast α]
  [LT α] [LE α] [DecidableLT α] [DecidableLE α]

/-- a training call of `MiniBatchKMeans` -/
inductive Call (α : Type _)
  | fit (X : Mat α)
  | partialFit (X : Mat α)

/-- one training call -/
def KM.train (sqrt : α → α) (inf : α) (o : Rng α) (P : Params α) (s : KM α) : Call α → KM α × Outcome Unit
  | .fit X => s.fit sqrt inf o P X
  | .partialFit X => s.partialFit sqrt inf o P X

/-- the state and result after each call of a history -/
def KM.run (sqrt : α → α) (inf : α) (o : Rng α) (P : Params α) : KM α → List (Call α) → List (KM α × Outcome Unit)
  | _, [] => []
  | s, c :: cs => s.train sqrt inf o P c :: KM.run sqrt inf o P (s.train sqrt inf o P c).1 cs

/-- **C237** `MiniBatchKMeans`: with a seed `≥ 0` the clock at construction does not matter, over every history of training calls. -/
theorem kmeans_reproducible (sqrt : α → α) (inf : α) (o : Rng α) (salted : Nat → Nat) (P : Params α) (options : List Int)
    (h : Online.SeedGiven options) (clock clock' : Nat × Nat) (calls : List (Call α)) :
    KM.run sqrt inf o P (KM.new (o.forSeed salted (randomState options) clock)) calls =
      KM.run sqrt inf o P (KM.new (o.forSeed salted (randomState options) clock')) calls := by
  rw [Online.forSeed_clock o salted options h clock clock']

/-- **C238** (the part that holds) a successful `Fit` depends on what was done with the estimator before only through the state of the
generator: it finds the centres, labels, inertia and iterations that a new estimator with that generator finds. What is missing: the
generator is not seeded again, see `kmeans_refit_differs`. -/
theorem kmeans_refit_partial (sqrt : α → α) (inf : α) (o : Rng α) (P : Params α) (X : Mat α) (s : KM α)
    (hok : (s.fit sqrt inf o P X).2 = .ok ()) :
    ((KM.new s.pos).fit sqrt inf o P X).2 = .ok () ∧
    (s.fit sqrt inf o P X).1.centers = ((KM.new s.pos).fit sqrt inf o P X).1.centers ∧
    (s.fit sqrt inf o P X).1.labels = ((KM.new s.pos).fit sqrt inf o P X).1.labels ∧
    (s.fit sqrt inf o P X).1.inertia = ((KM.new s.pos).fit sqrt inf o P X).1.inertia ∧
    (s.fit sqrt inf o P X).1.nIter = ((KM.new s.pos).fit sqrt inf o P X).1.nIter ∧
    (s.fit sqrt inf o P X).1.pos = ((KM.new s.pos).fit sqrt inf o P X).1.pos := by
  unfold KM.fit at hok ⊢
  simp only [KM.new] at hok ⊢
  by_cases h : X.r < P.nClusters
  · rw [if_pos h] at hok; exact nomatch hok
  · rw [if_neg h] at hok
    rw [if_neg h, if_neg h]
    rcases e : bestOf sqrt inf o P (rowsOf X) P.nInit none s.pos with ⟨best, pos⟩ | e' | v
    · exact ⟨rfl, rfl, rfl, rfl, rfl, rfl⟩
    · rw [e] at hok; exact nomatch hok
    · rw [e] at hok; exact nomatch hok

/-- one cluster, started at a random row, one iteration over batches of one row -/
def exSeedP : Params ℚ :=
  { nClusters := 1, init := "random", maxIter := 1, batchSize := 1, computeLabels := true, tol := 0, maxNoImprovement := 10, nInit := 1 }

/-- **C238** is false as a whole for `MiniBatchKMeans` too: seed 7, the same three rows fitted twice, and the second `Fit` ends with another
centre than the first, although every new estimator with that seed finds the first. -/
theorem kmeans_refit_differs :
    let X : Mat ℚ := Mat.ofRows [[1], [2], [3]] 1 0
    let new : KM ℚ := KM.new (Online.exGen.forSeed id (randomState [7]) (0, 0))
    let first := new.fit id 1000 Online.exGen exSeedP X
    let second := first.1.fit id 1000 Online.exGen exSeedP X
    first.2 = .ok () ∧ second.2 = .ok () ∧ first.1.centers ≠ second.1.centers := by
  decide +kernel

example : Online.SeedGiven [7] := ⟨7, rfl, by decide⟩

end Scigo.KMeans
