import Verif.Online.FitProps
import Verif.Online.PAProps

/-!
# Histories of calls on the online models

For each of the four models: which states can arise from `Fit`, `PartialFit` and the setters in any order, with any data, failing calls included
(a call that panics leaves the state it had reached; the caller may recover and go on). All theorems are law-free.
-/

set_option linter.unusedSectionVars false

namespace Scigo.Online

variable {α : Type} [Add α] [Sub α] [Mul α] [Div α] [Neg α] [Zero α] [One α] [LT α] [DecidableLT α] [LE α] [DecidableLE α] [BEq α]

/-- one label per row -/
def Labelled (X y : Mat α) : Prop := X.r ≤ y.r ∧ 0 < y.c

theorem labelAt_some {X y : Mat α} (h : Labelled X y) {i : Nat} (hi : i < X.r) : labelAt y i = some (y.at' i 0) :=
  if_pos ⟨lt_of_lt_of_le hi h.1, h.2⟩

theorem mat_row_length (X : Mat α) (i : Nat) : (X.row i).length = X.c := by simp [Mat.row]

/-! ## SGDRegressor -/

/-- the states of an `SGDRegressor` -/
inductive RegState (N : Num α) : Reg α → Prop
  | new (o : Opts α) (eta0 : α) : RegState N ⟨o, eta0, none, 0, 0, 0, 0, [], false, false⟩
  | fit {m : Reg α} (h : RegState N m) (init : Nat → List α) (hinit : ∀ c, (init c).length = c) (pick : Nat → Nat → Nat) (X y : Mat α)
      (hw : m.opts.warmStart = false ∨ m.coef = none ∨ X.c = m.nFeatures) : RegState N (m.fit N init pick X y).1
  | partialFit {m : Reg α} (h : RegState N m) (init : Nat → List α) (hinit : ∀ c, (init c).length = c) (X y : Mat α) :
      RegState N (m.partialFit N init X y).1
  | setWarmStart {m : Reg α} (h : RegState N m) (b : Bool) : RegState N { m with opts := { m.opts with warmStart := b } }
  | setSchedule {m : Reg α} (h : RegState N m) (s : String) : RegState N { m with opts := { m.opts with schedule := s } }
  | setLearningRate {m : Reg α} (h : RegState N m) (lr : α) : RegState N { m with eta0 := lr }

/-- weights of the width that is expected -/
def Reg.Sized (m : Reg α) : Prop := ∀ w, m.coef = some w → w.length = m.nFeatures

theorem reg_update (N : Num α) (m : Reg α) (h : m.Sized) (hs : m.coef.isSome) (x : List α) (hx : x.length = m.nFeatures) (y : α) :
    ∃ m' l, m.updateWeights N x y = some (m', l) ∧ m'.Sized ∧ m'.coef.isSome ∧ m'.nFeatures = m.nFeatures ∧ m'.fitted = m.fitted ∧ m'.opts = m.opts := by
  obtain ⟨w, hw⟩ := Option.isSome_iff_exists.1 hs
  have hl := h w hw
  unfold Reg.updateWeights
  simp only [hw, Option.getD_some]
  rw [if_neg (by omega)]
  by_cases hu : N.unstable (score w m.intercept x) = true
  · rw [if_pos hu]
    exact ⟨_, _, rfl, fun v hv => h v (hw.trans hv), rfl, rfl, rfl, rfl⟩
  · rw [if_neg hu]
    refine ⟨_, _, rfl, fun v hv => ?_, rfl, rfl, rfl, rfl⟩
    have := Option.some.inj hv
    rw [← this]
    simpa using hl

theorem reg_rows (N : Num α) (X y : Mat α) (is : List Nat) (m : Reg α) (acc : α) (h : m.Sized) (hs : m.coef.isSome) (hc : X.c = m.nFeatures) :
    (m.trainRows N X y is acc).1.Sized ∧ (m.trainRows N X y is acc).1.coef.isSome ∧ (m.trainRows N X y is acc).1.nFeatures = m.nFeatures ∧
    (m.trainRows N X y is acc).1.fitted = m.fitted ∧ (m.trainRows N X y is acc).1.opts = m.opts ∧
    (Labelled X y → (∀ i ∈ is, i < X.r) → (m.trainRows N X y is acc).2.2 = false) := by
  induction is generalizing m acc with
  | nil => exact ⟨h, hs, rfl, rfl, rfl, fun _ _ => rfl⟩
  | cons i is ih =>
    simp only [Reg.trainRows]
    cases hy : labelAt y i with
    | none =>
      refine ⟨h, hs, rfl, rfl, rfl, fun hl hi => ?_⟩
      rw [labelAt_some hl (hi i (by simp))] at hy
      cases hy
    | some yi =>
      obtain ⟨m', l, e, a1, a2, a3, a4, a5⟩ := reg_update N m h hs (X.row i) (by rw [mat_row_length, hc]) yi
      simp only [e]
      obtain ⟨b1, b2, b3, b4, b5, b6⟩ := ih m' (acc + l) a1 a2 (by rw [hc, a3])
      exact ⟨b1, b2, b3.trans a3, b4.trans a4, b5.trans a5, fun hl hi => b6 hl fun j hj => hi j (by simp [hj])⟩

theorem epochOrder_mem (o : Opts α) (pick : Nat → Nat) (rows : Nat) : ∀ i ∈ epochOrder o pick rows, i < rows := by
  intro i hi
  have := (epoch_visits_each_row_once o pick rows).mem_iff.1 hi
  simpa using this

theorem reg_loop (N : Num α) (pick : Nat → Nat → Nat) (X y : Mat α) (n k : Nat) (m : Reg α) (h : m.Sized) (hs : m.coef.isSome) (hc : X.c = m.nFeatures) :
    (Reg.fitLoop N pick X y n k m).1.Sized ∧ (Reg.fitLoop N pick X y n k m).1.coef.isSome ∧ (Reg.fitLoop N pick X y n k m).1.nFeatures = m.nFeatures ∧
    (Reg.fitLoop N pick X y n k m).1.fitted = m.fitted ∧ (Reg.fitLoop N pick X y n k m).1.opts = m.opts ∧
    (Labelled X y → (Reg.fitLoop N pick X y n k m).2 = false) := by
  induction n generalizing k m with
  | zero => exact ⟨h, hs, rfl, rfl, rfl, fun _ => rfl⟩
  | succ n ih =>
    obtain ⟨a1, a2, a3, a4, a5, a6⟩ := reg_rows N X y (epochOrder m.opts (pick k) X.r) m 0 h hs hc
    simp only [Reg.fitLoop]
    rcases e : m.trainRows N X y (epochOrder m.opts (pick k) X.r) 0 with ⟨m', l, _ | _⟩
    · rw [e] at a1 a2 a3 a4 a5
      simp only
      split
      · exact ⟨fun w hw => a1 w hw, a2, a3, a4, a5, fun _ => rfl⟩
      · obtain ⟨b1, b2, b3, b4, b5, b6⟩ := ih (k + 1) { m' with hist := m'.hist ++ [l / N.ofNat X.r], nIter := m'.nIter + 1 } (fun w hw => a1 w hw) a2
          (by rw [hc]; exact a3.symm)
        exact ⟨b1, b2, b3.trans a3, b4.trans a4, b5.trans a5, b6⟩
    · rw [e] at a1 a2 a3 a4 a5 a6
      exact ⟨a1, a2, a3, a4, a5, fun hl => a6 hl (epochOrder_mem m.opts (pick k) X.r)⟩

theorem reg_fitBegin (init : Nat → List α) (hinit : ∀ c, (init c).length = c) (m : Reg α) (h : m.Sized) (cols : Nat)
    (hw : m.opts.warmStart = false ∨ m.coef = none ∨ cols = m.nFeatures) :
    (m.fitBegin init cols).Sized ∧ (m.fitBegin init cols).coef.isSome ∧ (m.fitBegin init cols).nFeatures = cols ∧ (m.fitBegin init cols).opts = m.opts := by
  unfold Reg.fitBegin
  by_cases hc : m.opts.warmStart = true ∧ m.coef.isSome = true
  · obtain ⟨w, hw'⟩ := Option.isSome_iff_exists.1 hc.2
    have hcol : cols = m.nFeatures := by
      rcases hw with hw | hw | hw
      · rw [hc.1] at hw; cases hw
      · rw [hw] at hw'; cases hw'
      · exact hw
    rw [if_pos hc]
    have e : Reg.ensureCoef init cols { m with nFeatures := cols } = { m with nFeatures := cols } := by
      unfold Reg.ensureCoef
      simp only [hw']
    show Reg.Sized (Reg.ensureCoef init cols { m with nFeatures := cols }) ∧ _
    rw [e]
    exact ⟨fun v hv => (h v hv).trans hcol.symm, hc.2, rfl, rfl⟩
  · rw [if_neg hc]
    refine ⟨fun v hv => ?_, rfl, rfl, rfl⟩
    rw [← Option.some.inj hv]
    exact hinit cols

theorem reg_begin (init : Nat → List α) (hinit : ∀ c, (init c).length = c) (m : Reg α) (h : m.Sized) (cols : Nat) :
    (m.begin init cols).Sized ∧ (m.begin init cols).coef.isSome ∧ (m.begin init cols).fitted = m.fitted ∧ (m.begin init cols).opts = m.opts ∧
    (m.coef = none → (m.begin init cols).nFeatures = cols) := by
  unfold Reg.begin
  cases e : m.coef with
  | none =>
    refine ⟨fun v hv => ?_, rfl, rfl, rfl, fun _ => rfl⟩
    rw [← Option.some.inj hv]
    exact hinit cols
  | some w => exact ⟨h, by simp [e], rfl, rfl, fun h => by cases h⟩

/-- what every history of an `SGDRegressor` keeps -/
theorem reg_state {N : Num α} {m : Reg α} (h : RegState N m) : m.Sized ∧ (m.fitted = true → m.coef.isSome) := by
  induction h with
  | new o eta0 => exact ⟨fun w hw => (by cases hw), fun h => (by cases h)⟩
  | @fit m h init hinit pick X y hw ih =>
    obtain ⟨a1, a2, a3, -⟩ := reg_fitBegin init hinit m ih.1 X.c hw
    obtain ⟨b1, b2, -⟩ := reg_loop N pick X y m.opts.maxIter 0 _ a1 a2 a3.symm
    unfold Reg.fit
    rcases e : Reg.fitLoop N pick X y m.opts.maxIter 0 (m.fitBegin init X.c) with ⟨m', _ | _⟩ <;> rw [e] at b1 b2
    · exact ⟨fun w hw => b1 w hw, fun _ => b2⟩
    · exact ⟨b1, fun _ => b2⟩
  | @partialFit m h init hinit X y ih =>
    obtain ⟨a1, a2, -⟩ := reg_begin init hinit m ih.1 X.c
    unfold Reg.partialFit
    simp only
    by_cases hc : X.c ≠ (m.begin init X.c).nFeatures
    · rw [if_pos hc]; exact ⟨a1, fun _ => a2⟩
    · rw [if_neg hc]
      obtain ⟨b1, b2, -⟩ := reg_rows N X y (List.range X.r) _ 0 a1 a2 (not_not.1 hc)
      rcases e : (m.begin init X.c).trainRows N X y (List.range X.r) 0 with ⟨m', l, _ | _⟩ <;> rw [e] at b1 b2
      · exact ⟨fun w hw => b1 w hw, fun _ => b2⟩
      · exact ⟨b1, fun _ => b2⟩
  | setWarmStart h b ih => exact ⟨fun w hw => ih.1 w hw, ih.2⟩
  | setSchedule h s ih => exact ⟨fun w hw => ih.1 w hw, ih.2⟩
  | setLearningRate h lr ih => exact ⟨fun w hw => ih.1 w hw, ih.2⟩

/-- the answer of `Predict` that the three checks leave -/
inductive Answers (fitted : Bool) (width : Nat) (X : Mat α) : Outcome (Mat α) → Prop
  | unfitted (h : fitted = false) : Answers fitted width X (.err .notFitted)
  | width (h : fitted = true) (hc : X.c ≠ width) : Answers fitted width X (.err (.dimension width X.c 1))
  | empty (h : fitted = true) (hc : X.c = width) (hr : X.r = 0) : Answers fitted width X (.panic "mat: zero length in matrix dimension")
  | values (h : fitted = true) (hc : X.c = width) (hr : 0 < X.r) (P : Mat α) (h1 : P.r = X.r) (h2 : P.c = 1) : Answers fitted width X (.ok P)

theorem checked_answers (fitted : Bool) (width : Nat) (X : Mat α) (k : Outcome (Mat α))
    (hk : fitted = true → X.c = width → 0 < X.r → ∃ P, k = .ok P ∧ P.r = X.r ∧ P.c = 1) : Answers fitted width X (checked fitted width X k) := by
  unfold checked
  cases hf : fitted with
  | false => exact .unfitted rfl
  | true =>
    simp only [Bool.not_true, Bool.false_eq_true, if_false]
    by_cases hc : X.c ≠ width
    · rw [if_pos hc]; exact .width rfl hc
    · rw [if_neg hc]
      by_cases hr : X.r = 0
      · rw [if_pos hr]; exact .empty rfl (not_not.1 hc) hr
      · rw [if_neg hr]
        obtain ⟨P, rfl, h1, h2⟩ := hk hf (not_not.1 hc) (Nat.pos_of_ne_zero hr)
        exact .values rfl (not_not.1 hc) (Nat.pos_of_ne_zero hr) P h1 h2

/-- **C173** for SGDRegressor: after every history (in which no warm-started `Fit` changes the width) `Predict` answers: it refuses before training, refuses
another width, and otherwise returns one value per row. It never panics for a matrix with rows. -/
theorem sgd_regressor_answers_partial {N : Num α} {m : Reg α} (h : RegState N m) (X : Mat α) : Answers m.fitted m.nFeatures X (m.predict X) := by
  obtain ⟨h1, h2⟩ := reg_state h
  refine checked_answers _ _ _ _ fun hf hc hr => ?_
  obtain ⟨w, hw⟩ := Option.isSome_iff_exists.1 (h2 hf)
  have hl := h1 w hw
  rw [hw, Option.getD_some, if_neg (by omega)]
  exact ⟨_, rfl, rfl, rfl⟩

/-- the outcome of a training call on labelled data: success, or refusal of another width that changes nothing -/
inductive Trains {σ : Type} (width : σ → Nat) (fitted : σ → Bool) (m : σ) (cols : Nat) : σ × Outcome Unit → Prop
  | ok (m' : σ) (h1 : width m' = cols) (h2 : fitted m' = true) : Trains width fitted m cols (m', .ok ())
  | refused (h : cols ≠ width m) : Trains width fitted m cols (m, .err (.dimension (width m) cols 1))

/-- **C174** for SGDRegressor: on labelled data `Fit` succeeds after every history, and `PartialFit` succeeds or refuses another width than the model
was trained on, changing nothing. Afterwards the model expects the width of the data. -/
theorem sgd_regressor_trains_partial {N : Num α} {m : Reg α} (h : RegState N m) (init : Nat → List α) (hinit : ∀ c, (init c).length = c)
    (X y : Mat α) (hl : Labelled X y) :
    (∀ pick, m.opts.warmStart = false ∨ m.coef = none ∨ X.c = m.nFeatures →
      ∃ m', m.fit N init pick X y = (m', .ok ()) ∧ m'.nFeatures = X.c ∧ m'.fitted = true) ∧
    Trains Reg.nFeatures Reg.fitted m X.c (m.partialFit N init X y) := by
  obtain ⟨h1, h2⟩ := reg_state h
  constructor
  · intro pick hw
    obtain ⟨a1, a2, a3, -⟩ := reg_fitBegin init hinit m h1 X.c hw
    obtain ⟨-, -, b3, -, -, b6⟩ := reg_loop N pick X y m.opts.maxIter 0 _ a1 a2 a3.symm
    have b6 := b6 hl
    unfold Reg.fit
    rcases e : Reg.fitLoop N pick X y m.opts.maxIter 0 (m.fitBegin init X.c) with ⟨m', _ | _⟩ <;> rw [e] at b3 b6
    · exact ⟨_, rfl, b3.trans a3, rfl⟩
    · cases b6
  · obtain ⟨a1, a2, -, -, a3⟩ := reg_begin init hinit m h1 X.c
    unfold Reg.partialFit
    simp only
    by_cases hc : X.c ≠ (m.begin init X.c).nFeatures
    · rw [if_pos hc]
      have : m.begin init X.c = m := by
        cases hm : m.coef with
        | none => exact absurd (a3 hm).symm hc
        | some w => exact begin_of_isSome init X.c m (by simp [hm])
      rw [this] at hc ⊢
      exact .refused hc
    · rw [if_neg hc]
      obtain ⟨-, -, b3, -, -, b6⟩ := reg_rows N X y (List.range X.r) _ 0 a1 a2 (not_not.1 hc)
      have b6 := b6 hl (fun i hi => List.mem_range.1 hi)
      rcases e : (m.begin init X.c).trainRows N X y (List.range X.r) 0 with ⟨m', l, _ | _⟩ <;> rw [e] at b3 b6
      · exact .ok _ (b3.trans (not_not.1 hc).symm) rfl
      · cases b6

end Scigo.Online
