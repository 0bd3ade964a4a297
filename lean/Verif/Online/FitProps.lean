import Verif.Online.Props
import Verif.Base.XReal

/-!
# Properties of SGDRegressor.Fit (C84, C85)
-/

set_option linter.unusedSectionVars false

namespace Scigo.Online

open Finset Scigo.Errors

/-! ## C84: epochs -/

theorem shuffleFrom_perm (pick : Nat → Nat) (n : Nat) (l : List Nat) (h : n ≤ l.length) :
    (shuffleFrom pick n l).Perm l := by
  induction n generalizing l with
  | zero => exact List.Perm.refl _
  | succ n ih =>
    cases n with
    | zero => exact List.Perm.refl _
    | succ n =>
      simp only [shuffleFrom]
      have hi : n + 1 < l.length := by omega
      have hj : pick (n + 1) % (n + 1 + 1) < l.length :=
        lt_of_lt_of_le (Nat.mod_lt _ (by omega)) h
      have hp : ((l.set (n + 1) (l.getD (pick (n + 1) % (n + 1 + 1)) 0)).set
          (pick (n + 1) % (n + 1 + 1)) (l.getD (n + 1) 0)).Perm l := by
        rw [List.getD_eq_getElem _ _ hj, List.getD_eq_getElem _ _ hi]
        exact List.set_set_perm hi hj
      refine (ih _ ?_).trans hp
      rw [hp.length_eq]; omega

/-- **C84** Whatever random numbers are drawn, one epoch visits every training row exactly once: the
order is a permutation of the row numbers. -/
theorem epoch_visits_each_row_once {α : Type _} (o : Opts α) (pick : Nat → Nat) (rows : Nat) :
    (epochOrder o pick rows).Perm (List.range rows) := by
  unfold epochOrder
  split
  · exact shuffleFrom_perm pick rows _ (by simp)
  · exact List.Perm.refl _

theorem foldl_max_spec (l : List ℝ) (a : ℝ) :
    a ≤ l.foldl (fun m v => if m < v then v else m) a ∧
    (∀ v ∈ l, v ≤ l.foldl (fun m v => if m < v then v else m) a) ∧
    (l.foldl (fun m v => if m < v then v else m) a = a ∨
      l.foldl (fun m v => if m < v then v else m) a ∈ l) := by
  induction l generalizing a with
  | nil => simp
  | cons b l ih =>
    simp only [List.foldl_cons]
    obtain ⟨h1, h2, h3⟩ := ih (if a < b then b else a)
    have hab : a ≤ (if a < b then b else a) ∧ b ≤ (if a < b then b else a) := by
      split_ifs with h
      · exact ⟨h.le, le_rfl⟩
      · exact ⟨le_rfl, not_lt.1 h⟩
    refine ⟨hab.1.trans h1, ?_, ?_⟩
    · intro v hv
      rcases List.mem_cons.1 hv with e | hv
      · rw [e]; exact hab.2.trans h1
      · exact h2 v hv
    · rcases h3 with h3 | h3
      · rw [h3]
        split_ifs
        · right; simp
        · left; rfl
      · right; exact List.mem_cons_of_mem _ h3

theorem foldl_min_spec (l : List ℝ) (a : ℝ) :
    l.foldl (fun m v => if v < m then v else m) a ≤ a ∧
    (∀ v ∈ l, l.foldl (fun m v => if v < m then v else m) a ≤ v) ∧
    (l.foldl (fun m v => if v < m then v else m) a = a ∨
      l.foldl (fun m v => if v < m then v else m) a ∈ l) := by
  induction l generalizing a with
  | nil => simp
  | cons b l ih =>
    simp only [List.foldl_cons]
    obtain ⟨h1, h2, h3⟩ := ih (if b < a then b else a)
    have hab : (if b < a then b else a) ≤ a ∧ (if b < a then b else a) ≤ b := by
      split_ifs with h
      · exact ⟨h.le, le_rfl⟩
      · exact ⟨le_rfl, not_lt.1 h⟩
    refine ⟨h1.trans hab.1, ?_, ?_⟩
    · intro v hv
      rcases List.mem_cons.1 hv with e | hv
      · rw [e]; exact h1.trans hab.2
      · exact h2 v hv
    · rcases h3 with h3 | h3
      · rw [h3]
        split_ifs
        · right; simp
        · left; rfl
      · right; exact List.mem_cons_of_mem _ h3

theorem mem_lastN (k : Nat) (l : List ℝ) (a : ℝ) :
    a ∈ lastN k l ↔ ∃ i, l.length ≤ i + k ∧ i < l.length ∧ l.getD i 0 = a := by
  unfold lastN
  rw [List.mem_iff_getElem]
  constructor
  · rintro ⟨j, hj, e⟩
    rw [List.length_drop] at hj
    rw [List.getElem_drop] at e
    exact ⟨l.length - k + j, by omega, by omega, by rw [List.getD_eq_getElem _ _ (by omega)]; exact e⟩
  · rintro ⟨i, h1, h2, e⟩
    refine ⟨i - (l.length - k), by rw [List.length_drop]; omega, ?_⟩
    rw [List.getElem_drop]
    rw [List.getD_eq_getElem _ _ h2] at e
    rw [← e]
    congr 1
    omega

theorem checkConvergence_iff (tol : ℝ) (hist : List ℝ) :
    checkConvergence tol hist = true ↔ Plateau tol hist := by
  unfold checkConvergence Plateau nIterNoChange
  by_cases hl : hist.length < 5 + 1
  · rw [if_pos hl]
    simp only [Bool.false_eq_true, false_iff, not_and]
    intro h; omega
  · rw [if_neg hl]
    simp only [decide_eq_true_eq]
    set recent := lastN 5 hist with hr
    have hne : recent ≠ [] := by
      intro h
      have : recent.length = 5 := by rw [hr, lastN, List.length_drop]; omega
      rw [h] at this; simp at this
    have hmem : recent.headD 0 ∈ recent := by
      cases hc : recent with
      | nil => exact absurd hc hne
      | cons a l => simp
    obtain ⟨M1, M2, M3⟩ := foldl_max_spec recent (recent.headD 0)
    obtain ⟨m1, m2, m3⟩ := foldl_min_spec recent (recent.headD 0)
    have M4 : recent.foldl (fun m v => if m < v then v else m) (recent.headD 0) ∈ recent := by
      rcases M3 with h | h
      · rw [h]; exact hmem
      · exact h
    have m4 : recent.foldl (fun m v => if v < m then v else m) (recent.headD 0) ∈ recent := by
      rcases m3 with h | h
      · rw [h]; exact hmem
      · exact h
    constructor
    · intro h
      refine ⟨by omega, fun i j hi hj hi' hj' => ?_⟩
      have a := M2 _ ((mem_lastN 5 hist _).2 ⟨i, hi, hi', rfl⟩)
      have b := m2 _ ((mem_lastN 5 hist _).2 ⟨j, hj, hj', rfl⟩)
      linarith
    · rintro ⟨_, h⟩
      obtain ⟨i, hi, hi', ei⟩ := (mem_lastN 5 hist _).1 M4
      obtain ⟨j, hj, hj', ej⟩ := (mem_lastN 5 hist _).1 m4
      rw [← hr] at *
      have := h i j hi hj hi' hj'
      rw [ei, ej] at this
      exact this

/-- what the row loop leaves alone, and how it counts -/
theorem trainRows_frame (X y : Mat ℝ) (is : List Nat) (m : Reg ℝ) (acc : ℝ) :
    let r := m.trainRows realNum X y is acc
    r.1.hist = m.hist ∧ r.1.nIter = m.nIter ∧ r.1.converged = m.converged ∧ r.1.opts = m.opts ∧
    r.1.eta0 = m.eta0 ∧ r.1.nFeatures = m.nFeatures ∧
    (r.2.2 = false → r.1.t = m.t + is.length) ∧
    ((m.coef.getD []).length ≤ (r.1.coef.getD []).length) := by
  induction is generalizing m acc with
  | nil => simp [Reg.trainRows]
  | cons i is ih =>
    simp only [Reg.trainRows]
    cases labelAt y i with
    | none => simp
    | some yi =>
      simp only
      cases hu : m.updateWeights realNum (X.row i) yi with
      | none => simp
      | some r =>
        obtain ⟨m', l⟩ := r
        simp only
        have hf : m'.hist = m.hist ∧ m'.nIter = m.nIter ∧ m'.converged = m.converged ∧
            m'.opts = m.opts ∧ m'.eta0 = m.eta0 ∧ m'.nFeatures = m.nFeatures ∧ m'.t = m.t + 1 ∧
            (m'.coef.getD []).length = (m.coef.getD []).length := by
          unfold Reg.updateWeights at hu
          simp only [realNum, Bool.false_eq_true, if_false] at hu
          split at hu
          · exact absurd hu (by simp)
          · injection hu with hu; injection hu with h1 _; subst h1
            exact ⟨rfl, rfl, rfl, rfl, rfl, rfl, rfl, by simp⟩
        obtain ⟨a1, a2, a3, a4, a5, a6, a7, a8⟩ := hf
        obtain ⟨b1, b2, b3, b4, b5, b6, b7, b8⟩ := ih m' (acc + l)
        refine ⟨b1.trans a1, b2.trans a2, b3.trans a3, b4.trans a4, b5.trans a5, b6.trans a6,
          fun h => ?_, a8 ▸ b8⟩
        rw [b7 h, a7, List.length_cons]; omega

/-- the row loop does not panic when labels exist and the weights are long enough -/
theorem trainRows_ok (X y : Mat ℝ) (is : List Nat) (m : Reg ℝ) (acc : ℝ)
    (hy : ∀ i ∈ is, i < y.r) (hyc : 0 < y.c) (hw : X.c ≤ (m.coef.getD []).length) :
    (m.trainRows realNum X y is acc).2.2 = false := by
  induction is generalizing m acc with
  | nil => rfl
  | cons i is ih =>
    simp only [Reg.trainRows]
    have hl : labelAt y i = some (y.at' i 0) := if_pos ⟨hy i (by simp), hyc⟩
    rw [hl]
    simp only
    cases hu : m.updateWeights realNum (X.row i) (y.at' i 0) with
    | none =>
      unfold Reg.updateWeights at hu
      simp only [realNum, Bool.false_eq_true, if_false] at hu
      split at hu
      · rename_i h; simp at h; omega
      · exact absurd hu (by simp)
    | some r =>
      obtain ⟨m', l⟩ := r
      simp only
      refine ih m' _ (fun j hj => hy j (by simp [hj])) ?_
      unfold Reg.updateWeights at hu
      simp only [realNum, Bool.false_eq_true, if_false] at hu
      split at hu
      · exact absurd hu (by simp)
      · injection hu with hu; injection hu with h1 _; subst h1
        simpa using hw

theorem fitLoop_spec (pick : Nat → Nat → Nat) (X y : Mat ℝ) (n k : Nat) (m m' : Reg ℝ)
    (h : Reg.fitLoop realNum pick X y n k m = (m', false)) :
    ∃ ls : List ℝ, m'.hist = m.hist ++ ls ∧ ls.length ≤ n ∧ m'.nIter = m.nIter + ls.length ∧
      m'.t = m.t + ls.length * X.r ∧ m'.opts = m.opts ∧
      (∀ j, 0 < j → j < ls.length → ¬ Plateau m.opts.tol (m.hist ++ ls.take j)) ∧
      (ls.length < n → Plateau m.opts.tol m'.hist) ∧
      (0 < ls.length → Plateau m.opts.tol m'.hist → m'.converged = true) ∧
      (m'.converged = true → m.converged = true ∨ Plateau m.opts.tol m'.hist) := by
  induction n generalizing k m with
  | zero =>
    simp only [Reg.fitLoop, Prod.mk.injEq, and_true] at h
    subst h
    exact ⟨[], by simp, by simp, by simp, by simp, rfl, by simp, by simp, by simp, fun h => Or.inl h⟩
  | succ n ih =>
    simp only [Reg.fitLoop] at h
    have fr := trainRows_frame X y (epochOrder m.opts (pick k) X.r) m 0
    have hlen : (epochOrder m.opts (pick k) X.r).length = X.r := by
      rw [(epoch_visits_each_row_once m.opts (pick k) X.r).length_eq, List.length_range]
    rcases hr : m.trainRows realNum X y (epochOrder m.opts (pick k) X.r) 0 with ⟨a, l, f⟩
    rw [hr] at h fr
    obtain ⟨f1, f2, f3, f4, f5, f6, f7, f8⟩ := fr
    simp only at f1 f2 f3 f4 f5 f6 f7 f8
    cases f with
    | true => simp at h
    | false =>
      have f7 := f7 rfl
      rw [hlen] at f7
      simp only at h
      rw [f1, f4] at h
      by_cases hcv : checkConvergence m.opts.tol (m.hist ++ [l / realNum.ofNat X.r]) = true
      · rw [if_pos hcv] at h
        simp only [Prod.mk.injEq, and_true] at h
        subst h
        have hp := (checkConvergence_iff _ _).1 hcv
        refine ⟨[l / realNum.ofNat X.r], rfl, by simp, by simp [f2], by simp [f7], rfl, ?_,
          fun _ => hp, fun _ _ => rfl, fun _ => Or.inr hp⟩
        intro j h1 h2; simp at h2; omega
      · rw [if_neg hcv] at h
        have hnp : ¬ Plateau m.opts.tol (m.hist ++ [l / realNum.ofNat X.r]) := fun hp =>
          hcv ((checkConvergence_iff _ _).2 hp)
        obtain ⟨ls, e1, e2, e3, e4, e5, e6, e7, e8, e9⟩ := ih _ _ h
        simp only at e1 e3 e4 e5 e6 e7 e8 e9
        refine ⟨l / realNum.ofNat X.r :: ls, by rw [e1]; simp, by simp [e2], ?_, ?_, e5, ?_, ?_, ?_, ?_⟩
        · rw [e3, f2, List.length_cons]; omega
        · rw [e4, f7, List.length_cons]; ring
        · intro j h1 h2
          cases j with
          | zero => omega
          | succ j =>
            rw [List.take_succ_cons]
            cases j with
            | zero => simpa using hnp
            | succ j =>
              have := e6 (j + 1) (by omega) (by simpa using h2)
              rw [List.append_assoc] at this
              exact this
        · intro h1
          exact e7 (by simpa using h1)
        · intro _ hp
          by_cases h0 : 0 < ls.length
          · exact e8 h0 hp
          · have : ls = [] := List.length_eq_zero_iff.1 (by omega)
            subst this
            rw [e1] at hp
            simp only [List.append_nil] at hp
            exact absurd hp hnp
        · intro hc
          rcases e9 hc with h1 | h1
          · left; rw [← f3]; exact h1
          · right; exact h1

theorem fitLoop_ok (pick : Nat → Nat → Nat) (X y : Mat ℝ) (n k : Nat) (m : Reg ℝ)
    (hy : X.r ≤ y.r) (hyc : 0 < y.c) (hw : X.c ≤ (m.coef.getD []).length) :
    (Reg.fitLoop realNum pick X y n k m).2 = false := by
  induction n generalizing k m with
  | zero => rfl
  | succ n ih =>
    simp only [Reg.fitLoop]
    have hok := trainRows_ok X y (epochOrder m.opts (pick k) X.r) m 0 (fun i hi => by
      have := (epoch_visits_each_row_once m.opts (pick k) X.r).mem_iff.1 hi
      have := List.mem_range.1 this
      omega) hyc hw
    have fr := (trainRows_frame X y (epochOrder m.opts (pick k) X.r) m 0).2.2.2.2.2.2.2
    rcases hr : m.trainRows realNum X y (epochOrder m.opts (pick k) X.r) 0 with ⟨a, l, f⟩
    rw [hr] at hok fr
    simp only at hok fr
    subst hok
    simp only
    split
    · rfl
    · exact ih _ _ (le_trans hw fr)

/-- **C84** `Fit` without warm start, on data with a label for every row: it succeeds after some number
`n ≤ max_iter` of epochs; the loss history has one entry per epoch; each epoch makes one step per
row; it did not stop earlier because at no earlier epoch the last five losses were within `tol` of
each other; if it stopped before `max_iter` they are; and it reports convergence iff they are. -/
theorem fit_epochs (init : Nat → List ℝ) (pick : Nat → Nat → Nat) (m : Reg ℝ) (X y : Mat ℝ)
    (hw : m.opts.warmStart = false) (hi : (init X.c).length = X.c) (hy : X.r ≤ y.r) (hyc : 0 < y.c) :
    ∃ m' n, m.fit realNum init pick X y = (m', .ok ()) ∧ m'.fitted = true ∧
      n ≤ m.opts.maxIter ∧ m'.hist.length = n ∧ m'.nIter = n ∧ m'.t = n * X.r ∧
      (∀ j < n, ¬ Plateau m.opts.tol (m'.hist.take j)) ∧
      (n < m.opts.maxIter → Plateau m.opts.tol m'.hist) ∧
      (m'.converged = true ↔ Plateau m.opts.tol m'.hist) := by
  have hb : m.fitBegin init X.c =
      { m with coef := some (init X.c), intercept := 0, nIter := 0, t := 0, hist := [],
               converged := false, fitted := false, nFeatures := X.c } := by
    unfold Reg.fitBegin
    simp only [hw, Bool.false_eq_true, false_and, if_false, Reg.reset, Reg.ensureCoef]
  have hok := fitLoop_ok pick X y m.opts.maxIter 0 (m.fitBegin init X.c) hy hyc (by rw [hb]; simp [hi])
  unfold Reg.fit
  rcases hr : Reg.fitLoop realNum pick X y m.opts.maxIter 0 (m.fitBegin init X.c) with ⟨a, f⟩
  rw [hr] at hok
  simp only at hok
  subst hok
  obtain ⟨ls, e1, e2, e3, e4, e5, e6, e7, e8, e9⟩ := fitLoop_spec pick X y _ _ _ _ hr
  rw [hb] at e1 e3 e4 e6 e7 e8 e9
  simp only [List.nil_append, Nat.zero_add] at e1 e3 e4 e6 e7 e8 e9
  refine ⟨{ a with fitted := true }, ls.length, rfl, rfl, e2, by simp only [e1], e3, e4, ?_, ?_, ?_⟩
  · intro j hj
    simp only [e1]
    by_cases h0 : 0 < j
    · exact e6 j h0 hj
    · intro hp; have := hp.1; simp at this; omega
  · exact e7
  · simp only
    constructor
    · intro h
      rcases e9 h with h | h
      · simp at h
      · exact h
    · intro h
      refine e8 ?_ h
      have := h.1
      rw [e1] at this
      omega

/-- the hypotheses are met by an ordinary problem -/
example : exReg.opts.warmStart = false ∧ ((fun c => List.replicate c (0 : ℝ)) 2).length = 2 ∧
    (Mat.ofRows [[1, 2], [3, 4]] 2 (0 : ℝ)).r ≤ (Mat.ofRows [[1], [2]] 1 (0 : ℝ)).r ∧
    0 < (Mat.ofRows [[1], [2]] 1 (0 : ℝ)).c := ⟨rfl, rfl, by decide, by decide⟩

/-! ## C85: refitting -/

section
variable {α : Type _} [Add α] [Sub α] [Mul α] [Div α] [Neg α] [Zero α] [One α] [LT α] [DecidableLT α]
  [LE α] [DecidableLE α] [BEq α]

/-- **C85** (the part that holds) `Fit` without warm start depends on the earlier life of the model only
through its options and its current base learning rate: two models that agree on these end in exactly
the same state with the same result. What is missing: the base learning rate itself is not reset, see
`fit_forgets_history_false`. -/
theorem fit_forgets_history_partial (N : Num α) (init : Nat → List α) (pick : Nat → Nat → Nat)
    (a b : Reg α) (X y : Mat α) (hw : a.opts.warmStart = false) (ho : a.opts = b.opts)
    (he : a.eta0 = b.eta0) : a.fit N init pick X y = b.fit N init pick X y := by
  have hb : a.fitBegin init X.c = b.fitBegin init X.c := by
    have hw' : b.opts.warmStart = false := ho ▸ hw
    unfold Reg.fitBegin
    simp only [hw, hw', Bool.false_eq_true, false_and, if_false, Reg.reset, Reg.ensureCoef]
    rw [ho, he]
  unfold Reg.fit
  rw [hb, ho]

end

example : exReg.opts.warmStart = false ∧ exReg.opts = ({ exReg with t := 99, coef := none }).opts ∧
    exReg.eta0 = ({ exReg with t := 99, coef := none }).eta0 := ⟨rfl, rfl, rfl⟩

/-- floating point with special values: `unstable` is NaN or infinite -/
noncomputable def xNum : Num XReal where
  sqrt := XReal.sqrt
  abs := XReal.abs
  pow := fun x _ => x
  exp := XReal.exp
  log := XReal.log
  unstable := fun v => match v with | .fin _ => false | _ => true
  ofNat := fun n => .fin n
  half := .fin (1 / 2)
  tenth := .fin (1 / 10)
  ten := .fin 10
  two := .fin 2
  four := .fin 4

noncomputable instance : BEq XReal := ⟨fun a b => decide (a = b ∧ a ≠ .nan)⟩

/-- a fresh squared-loss model with constant learning rate 1 and one epoch -/
noncomputable def exFresh : Reg XReal :=
  { opts := { loss := "squared_error", penalty := "none", schedule := "constant", alpha := .fin 0,
              l1Ratio := .fin 0, epsilon := .fin 0, powerT := .fin 0, tol := .fin 0,
              fitIntercept := false, shuffle := false, warmStart := false, maxIter := 1 }
    eta0 := .fin 1, coef := none, intercept := .fin 0, nFeatures := 0, nIter := 0, t := 0, hist := [],
    converged := false, fitted := false }

theorem xupd (e : ℝ) (m : Reg XReal) (ho : m.opts = exFresh.opts) (he : m.eta0 = .fin e)
    (hc : m.coef = some [.fin 0]) (hi : m.intercept = .fin 0) :
    m.updateWeights xNum [.fin 1] (.fin 1) =
      some ({ m with t := m.t + 1, coef := some [.fin e] }, .fin (1 / 2)) := by
  have hs : score [XReal.fin 0] (XReal.fin 0) [XReal.fin 1] = XReal.fin 0 := by
    simp [score]
  unfold Reg.updateWeights
  simp only [hc, hi, ho, Option.getD_some, List.length_singleton, lt_irrefl, if_false]
  rw [hs]
  have hl : regLoss xNum exFresh.opts.loss exFresh.opts.epsilon (XReal.fin 0) (XReal.fin 1)
      = (XReal.fin (1 / 2), XReal.fin (-1)) := by
    simp [regLoss, exFresh, xNum]
  rw [hl]
  have hlr : learningRate xNum exFresh.opts m.eta0 m.t m.hist = .fin e := by
    simp [learningRate, exFresh, he]
  rw [hlr]
  have hg : gradVec exFresh.opts [XReal.fin 0] [XReal.fin 1] (XReal.fin (-1)) = [XReal.fin (-1)] := by
    simp [gradVec, addPenalty, exFresh]
  simp only [hg]
  have hcl : clipGradient xNum.sqrt [XReal.fin (-1)] xNum.ten = [XReal.fin (-1)] := by
    have : gradNorm xNum.sqrt [XReal.fin (-1)] = XReal.fin 1 := by
      simp [gradNorm, sumOver, xNum, XReal.sqrt]
    unfold clipGradient
    simp only [this]
    rw [if_neg]
    simp only [xNum, gt_iff_lt, XReal.fin_lt]; norm_num
  simp only [hcl]
  have hm : moveWeight xNum (XReal.fin e) (XReal.fin 0) (XReal.fin (-1)) = XReal.fin e := by
    simp [moveWeight, xNum]
  simp [xNum, exFresh]
  exact hm

/-- **C85** is false as a whole: training once on a row containing `+Inf` divides the base learning
rate by ten for good, and a later `Fit` on clean data (no warm start) then ends in other weights than
the same `Fit` of a fresh model with the same options. -/
theorem fit_forgets_history_false :
    let init : Nat → List XReal := fun c => List.replicate c (.fin 0)
    let pick : Nat → Nat → Nat := fun _ _ => 0
    let X : Mat XReal := Mat.ofRows [[.fin 1]] 1 (.fin 0)
    let y : Mat XReal := Mat.ofRows [[.fin 1]] 1 (.fin 0)
    let used := (exFresh.fit xNum init pick (Mat.ofRows [[.pinf]] 1 (.fin 0)) y).1
    used.opts = exFresh.opts ∧
    (exFresh.fit xNum init pick X y).1.coef = some [.fin 1] ∧
    (used.fit xNum init pick X y).1.coef = some [.fin (1 / 10)] := by
  intro init pick X y used
  have hlab : labelAt y 0 = some (.fin 1) := rfl
  have hrow : X.row 0 = [.fin 1] := rfl
  have fitX : ∀ (m : Reg XReal) (e : ℝ), m.opts = exFresh.opts → m.eta0 = .fin e →
      (m.fit xNum init pick X y).1.coef = some [.fin e] := by
    intro m e ho he
    have hb : (m.fitBegin init X.c).opts = exFresh.opts ∧ (m.fitBegin init X.c).eta0 = .fin e ∧
        (m.fitBegin init X.c).coef = some [.fin 0] ∧ (m.fitBegin init X.c).intercept = .fin 0 := by
      unfold Reg.fitBegin
      have hwf : m.opts.warmStart = false := by rw [ho]; rfl
      simp only [hwf, Bool.false_eq_true, false_and, if_false, Reg.reset, Reg.ensureCoef]
      exact ⟨ho, he, rfl, rfl⟩
    obtain ⟨b1, b2, b3, b4⟩ := hb
    have hu := xupd e _ b1 b2 b3 b4
    unfold Reg.fit
    have hmi : m.opts.maxIter = 1 := by rw [ho]; rfl
    rw [hmi]
    have horder : epochOrder (m.fitBegin init X.c).opts (pick 0) X.r = [0] := by
      rw [b1]; rfl
    simp only [Reg.fitLoop, horder, Reg.trainRows, hlab, hrow, hu]
    split_ifs <;> rfl
  have hused : used.opts = exFresh.opts ∧ used.eta0 = .fin (1 / 10) := by
    have hb : exFresh.fitBegin init 1 = { exFresh with coef := some [.fin 0], nFeatures := 1 } := rfl
    have horder : epochOrder exFresh.opts (pick 0) 1 = [0] := rfl
    have hrow' : (Mat.ofRows [[XReal.pinf]] 1 (XReal.fin 0)).row 0 = [.pinf] := rfl
    have hsc : score [XReal.fin 0] (XReal.fin 0) [XReal.pinf] = XReal.nan := by
      have : XReal.fin 0 * XReal.pinf = XReal.nan := by
        change (if (0 : ℝ) = 0 then XReal.nan else _) = _
        rw [if_pos rfl]
      simp [score, this]
    have hu : ∀ m : Reg XReal, m.coef = some [.fin 0] → m.intercept = .fin 0 →
        m.updateWeights xNum [.pinf] (.fin 1) = some ({ m with eta0 := m.eta0 * .fin (1 / 10) }, .fin 0) := by
      intro m h1 h2
      unfold Reg.updateWeights
      simp only [h1, h2, Option.getD_some, List.length_singleton, lt_irrefl, if_false, hsc]
      rfl
    have he : (exFresh.eta0 * XReal.fin (1 / 10)) = XReal.fin (1 / 10) := by
      simp [exFresh]
    change (exFresh.fit xNum init pick (Mat.ofRows [[.pinf]] 1 (.fin 0)) y).1.opts = _ ∧
      (exFresh.fit xNum init pick (Mat.ofRows [[.pinf]] 1 (.fin 0)) y).1.eta0 = _
    unfold Reg.fit
    have hc : (Mat.ofRows [[XReal.pinf]] 1 (XReal.fin 0)).c = 1 := rfl
    have hr : (Mat.ofRows [[XReal.pinf]] 1 (XReal.fin 0)).r = 1 := rfl
    have hmi : exFresh.opts.maxIter = 1 := rfl
    rw [hmi, hc, hb]
    simp only [Reg.fitLoop, hr, horder, Reg.trainRows, hlab, hrow']
    rw [hu { exFresh with coef := some [.fin 0], nFeatures := 1 } rfl rfl]
    simp only [he]
    split_ifs <;> exact ⟨rfl, rfl⟩
  exact ⟨hused.1, fitX exFresh 1 rfl rfl, fitX used (1 / 10) hused.1 hused.2⟩

end Scigo.Online
