import Verif.Online.SessionMore

/-!
# The classes of the online classifiers over whole histories (C177)

Law-free throughout: whatever the data, widths, labels and class lists of the calls, and whether they succeed or not.
-/

set_option linter.unusedSectionVars false

namespace Scigo.Online

section
variable {α : Type} [Add α] [Sub α] [Mul α] [Div α] [Neg α] [Zero α] [One α] [LT α] [DecidableLT α] [LE α] [DecidableLE α] [BEq α]

/-- a training call: `PartialFit` with a list of classes or nil, or `Fit` -/
inductive Training (α : Type)
  | part (X y : Mat α) (classes : Option (List Int))
  | full (X y : Mat α)

/-- whether it is a `Fit` -/
def Training.isFull : Training α → Bool
  | .part _ _ _ => false
  | .full _ _ => true

/-- one training call, whatever its outcome -/
def PAClf.train (N : Num α) (toInt : α → Int) (iter : List Int → List Int) (m : PAClf α) : Training α → PAClf α
  | .part X y cs => (m.partialFit N toInt iter X y cs).1
  | .full X y => (m.fit N toInt iter X y).1

/-- a history of training calls -/
def PAClf.history (N : Num α) (toInt : α → Int) (iter : List Int → List Int) (m : PAClf α) (calls : List (Training α)) : PAClf α :=
  calls.foldl (PAClf.train N toInt iter) m

/-- one training call of an `SGDClassifier`; `init` are the random weights, `pick` the random order of each epoch -/
def Clf.train (N : Num α) (toInt : α → Int) (iter : List Int → List Int) (init : Nat → Nat → List (List α)) (pick : Nat → Nat → Nat)
    (m : Clf α) : Training α → Clf α
  | .part X y cs => (m.partialFit N toInt iter init X y cs).1
  | .full X y => (m.fit N toInt iter init pick X y).1

/-- a history of training calls -/
def Clf.history (N : Num α) (toInt : α → Int) (iter : List Int → List Int) (init : Nat → Nat → List (List α)) (pick : Nat → Nat → Nat)
    (m : Clf α) (calls : List (Training α)) : Clf α :=
  calls.foldl (Clf.train N toInt iter init pick) m

/-! ## PassiveAggressiveClassifier -/

/-- same classes and option, and still initialised -/
def PAClf.Like (m m' : PAClf α) : Prop := m'.classes = m.classes ∧ m'.warmStart = m.warmStart ∧ (m.coef.isSome = true → m'.coef.isSome = true)

theorem PAClf.Like.trans {a b c : PAClf α} (h : a.Like b) (h' : b.Like c) : a.Like c :=
  ⟨h'.1.trans h.1, h'.2.1.trans h.2.1, fun x => h'.2.2 (h.2.2 x)⟩

theorem paClf_update_like (N : Num α) (m m' : PAClf α) (x : List α) (l : Int) (h : m.updateWeights N x l = some m') : m.Like m' := by
  unfold PAClf.updateWeights at h
  rcases e : m.classes.idxOf? l with _ | k <;> rw [e] at h <;> simp only at h
  · cases h; exact ⟨rfl, rfl, id⟩
  · split at h
    · cases h
    · cases h
      exact ⟨rfl, rfl, fun _ => rfl⟩

theorem paClf_rows_like (N : Num α) (toInt : α → Int) (X y : Mat α) (is : List Nat) (m : PAClf α) :
    m.Like (PAClf.trainRows N toInt X y is m).1 := by
  induction is generalizing m with
  | nil => exact ⟨rfl, rfl, id⟩
  | cons i is ih =>
    simp only [PAClf.trainRows]
    rcases labelAt y i with _ | yi
    · exact ⟨rfl, rfl, id⟩
    · simp only
      rcases e : m.updateWeights N (X.row i) (toInt yi) with _ | m'
      · exact ⟨rfl, rfl, id⟩
      · exact (paClf_update_like N m m' _ _ e).trans (ih m')

theorem paClf_epochs_like (N : Num α) (toInt : α → Int) (X y : Mat α) (n : Nat) (m : PAClf α) : m.Like (PAClf.epochs N toInt X y n m).1 := by
  induction n generalizing m with
  | zero => exact ⟨rfl, rfl, id⟩
  | succ n ih =>
    have a := paClf_rows_like N toInt X y (List.range X.r) m
    simp only [PAClf.epochs]
    rcases e : PAClf.trainRows N toInt X y (List.range X.r) m with ⟨m', _ | _⟩ <;> rw [e] at a
    · exact a.trans (ih { m' with nIter := m'.nIter + 1 })
    · exact a

theorem paClf_partialFit_like (N : Num α) (toInt : α → Int) (iter : List Int → List Int) (m : PAClf α) (X y : Mat α) (cs : Option (List Int)) :
    (m.begin toInt iter X y cs).Like (m.partialFit N toInt iter X y cs).1 := by
  have a := paClf_rows_like N toInt X y (List.range X.r) (m.begin toInt iter X y cs)
  unfold PAClf.partialFit
  simp only
  split_ifs
  · exact ⟨rfl, rfl, id⟩
  · rcases e : PAClf.trainRows N toInt X y (List.range X.r) (m.begin toInt iter X y cs) with ⟨m', _ | _⟩ <;> rw [e] at a <;> exact a

theorem paClf_fit_like (N : Num α) (toInt : α → Int) (iter : List Int → List Int) (m : PAClf α) (X y : Mat α) :
    (m.fitBegin toInt iter X y).Like (m.fit N toInt iter X y).1 := by
  have a := paClf_epochs_like N toInt X y m.maxIter (m.fitBegin toInt iter X y)
  unfold PAClf.fit
  rcases e : PAClf.epochs N toInt X y m.maxIter (m.fitBegin toInt iter X y) with ⟨m', _ | _⟩ <;> rw [e] at a <;> exact a

/-- **C177** for PassiveAggressiveClassifier: which classes a call leaves. The first `PartialFit` takes the list given, or the labels in its batch;
a later one changes nothing, whatever list it is given; `Fit` takes the labels in its data, unless the model is warm-started. It does not
matter whether the call succeeds. -/
theorem paClf_classes (N : Num α) (toInt : α → Int) (iter : List Int → List Int) (m : PAClf α) (X y : Mat α) (cs : Option (List Int)) :
    (m.partialFit N toInt iter X y cs).1.classes = (if m.coef.isSome then m.classes else cs.getD (extractClasses toInt iter y)) ∧
    (m.fit N toInt iter X y).1.classes = (if m.warmStart ∧ m.coef.isSome then m.classes else extractClasses toInt iter y) := by
  constructor
  · rw [(paClf_partialFit_like N toInt iter m X y cs).1]
    unfold PAClf.begin
    rcases m.coef with _ | W
    · cases cs <;> rfl
    · rfl
  · rw [(paClf_fit_like N toInt iter m X y).1]
    unfold PAClf.fitBegin
    by_cases h : m.warmStart = true ∧ m.coef.isSome = true
    · obtain ⟨W, hW⟩ := Option.isSome_iff_exists.1 h.2
      rw [if_pos h, if_pos h, paClf_begin_some toInt iter m X y none W hW]
    · rw [if_neg h, if_neg h]; rfl

/-- **C177** for PassiveAggressiveClassifier: once fixed, the classes stay through every history of `PartialFit` calls, with calls of `Fit` in between
if the model is warm-started. -/
theorem paClf_classes_stay (N : Num α) (toInt : α → Int) (iter : List Int → List Int) (m : PAClf α) (hc : m.coef.isSome = true)
    (calls : List (Training α)) (hw : m.warmStart = true ∨ ∀ c ∈ calls, c.isFull = false) :
    (m.history N toInt iter calls).classes = m.classes := by
  suffices h : m.Like (m.history N toInt iter calls) from h.1
  unfold PAClf.history
  induction calls generalizing m with
  | nil => exact ⟨rfl, rfl, id⟩
  | cons c calls ih =>
    obtain ⟨W, hW⟩ := Option.isSome_iff_exists.1 hc
    rw [List.foldl_cons]
    have step : m.Like (m.train N toInt iter c) := by
      cases c with
      | part X y cs =>
        have h := paClf_partialFit_like N toInt iter m X y cs
        rw [paClf_begin_some toInt iter m X y cs W hW] at h
        exact h
      | full X y =>
        have hws : m.warmStart = true := hw.resolve_right fun h => by have := h _ List.mem_cons_self; cases this
        refine PAClf.Like.trans ?_ (paClf_fit_like N toInt iter m X y)
        unfold PAClf.fitBegin
        rw [if_pos ⟨hws, hc⟩, paClf_begin_some toInt iter m X y none W hW]
        exact ⟨rfl, rfl, id⟩
    refine step.trans (ih _ (step.2.2 hc) ?_)
    rw [step.2.1]
    exact hw.imp_right fun h c' hc' => h c' (List.mem_cons_of_mem _ hc')

/-! ## SGDClassifier -/

/-- same classes and options, and still initialised -/
def Clf.Like (m m' : Clf α) : Prop := m'.classes = m.classes ∧ m'.opts = m.opts ∧ (m.coef.isSome = true → m'.coef.isSome = true)

theorem Clf.Like.trans {a b c : Clf α} (h : a.Like b) (h' : b.Like c) : a.Like c :=
  ⟨h'.1.trans h.1, h'.2.1.trans h.2.1, fun x => h'.2.2 (h.2.2 x)⟩

theorem clf_update_like (N : Num α) (m m' : Clf α) (x : List α) (l : Int) (v : α) (h : m.updateWeights N x l = some (m', v)) : m.Like m' := by
  unfold Clf.updateWeights at h
  rcases e : m.classes.idxOf? l with _ | k <;> rw [e] at h <;> simp only at h
  · cases h; exact ⟨rfl, rfl, id⟩
  · split at h
    · cases h
    · cases h
      exact ⟨rfl, rfl, fun _ => rfl⟩

theorem clf_rows_like (N : Num α) (toInt : α → Int) (X y : Mat α) (is : List Nat) (m : Clf α) (acc : α) :
    m.Like (Clf.trainRows N toInt X y is m acc).1 := by
  induction is generalizing m acc with
  | nil => exact ⟨rfl, rfl, id⟩
  | cons i is ih =>
    simp only [Clf.trainRows]
    rcases labelAt y i with _ | yi
    · exact ⟨rfl, rfl, id⟩
    · simp only
      rcases e : m.updateWeights N (X.row i) (toInt yi) with _ | ⟨m', v⟩
      · exact ⟨rfl, rfl, id⟩
      · exact (clf_update_like N m m' _ _ v e).trans (ih m' _)

theorem clf_loop_like (N : Num α) (toInt : α → Int) (pick : Nat → Nat → Nat) (X y : Mat α) (n k : Nat) (m : Clf α) :
    m.Like (Clf.fitLoop N toInt pick X y n k m).1 := by
  induction n generalizing m k with
  | zero => exact ⟨rfl, rfl, id⟩
  | succ n ih =>
    have a := clf_rows_like N toInt X y (epochOrder m.opts (pick k) X.r) m 0
    simp only [Clf.fitLoop]
    rcases e : Clf.trainRows N toInt X y (epochOrder m.opts (pick k) X.r) m 0 with ⟨m', l, _ | _⟩ <;> rw [e] at a
    · simp only
      split_ifs
      · exact a
      · exact a.trans (ih (k + 1) { m' with hist := m'.hist ++ [l / N.ofNat X.r], nIter := m'.nIter + 1 })
    · exact a

theorem clf_partialFit_like (N : Num α) (toInt : α → Int) (iter : List Int → List Int) (init : Nat → Nat → List (List α)) (m : Clf α) (X y : Mat α)
    (cs : Option (List Int)) : (m.begin toInt iter init X y cs).Like (m.partialFit N toInt iter init X y cs).1 := by
  have a := clf_rows_like N toInt X y (List.range X.r) (m.begin toInt iter init X y cs) 0
  unfold Clf.partialFit
  simp only
  split_ifs
  · exact ⟨rfl, rfl, id⟩
  · rcases e : Clf.trainRows N toInt X y (List.range X.r) (m.begin toInt iter init X y cs) 0 with ⟨m', l, _ | _⟩ <;> rw [e] at a <;> exact a

theorem clf_fit_like (N : Num α) (toInt : α → Int) (iter : List Int → List Int) (init : Nat → Nat → List (List α)) (pick : Nat → Nat → Nat)
    (m : Clf α) (X y : Mat α) : (m.fitBegin toInt iter init X y).Like (m.fit N toInt iter init pick X y).1 := by
  have a := clf_loop_like N toInt pick X y m.opts.maxIter 0 (m.fitBegin toInt iter init X y)
  unfold Clf.fit
  rcases e : Clf.fitLoop N toInt pick X y m.opts.maxIter 0 (m.fitBegin toInt iter init X y) with ⟨m', _ | _⟩ <;> rw [e] at a <;> exact a

/-- **C177** for SGDClassifier: which classes a call leaves -/
theorem sgdClf_classes (N : Num α) (toInt : α → Int) (iter : List Int → List Int) (init : Nat → Nat → List (List α)) (pick : Nat → Nat → Nat)
    (m : Clf α) (X y : Mat α) (cs : Option (List Int)) :
    (m.partialFit N toInt iter init X y cs).1.classes = (if m.coef.isSome then m.classes else cs.getD (extractClasses toInt iter y)) ∧
    (m.fit N toInt iter init pick X y).1.classes = (if m.opts.warmStart ∧ m.coef.isSome then m.classes else extractClasses toInt iter y) := by
  constructor
  · rw [(clf_partialFit_like N toInt iter init m X y cs).1]
    unfold Clf.begin
    rcases m.coef with _ | W
    · cases cs <;> rfl
    · rfl
  · rw [(clf_fit_like N toInt iter init pick m X y).1]
    unfold Clf.fitBegin
    by_cases h : m.opts.warmStart = true ∧ m.coef.isSome = true
    · obtain ⟨W, hW⟩ := Option.isSome_iff_exists.1 h.2
      rw [if_pos h, if_pos h, clf_begin_some toInt iter init m X y none W hW]
    · rw [if_neg h, if_neg h]; rfl

/-- **C177** for SGDClassifier: once fixed, the classes stay through every history of `PartialFit` calls, with calls of `Fit` in between if the model
is warm-started. -/
theorem sgdClf_classes_stay (N : Num α) (toInt : α → Int) (iter : List Int → List Int) (init : Nat → Nat → List (List α)) (pick : Nat → Nat → Nat)
    (m : Clf α) (hc : m.coef.isSome = true) (calls : List (Training α)) (hw : m.opts.warmStart = true ∨ ∀ c ∈ calls, c.isFull = false) :
    (m.history N toInt iter init pick calls).classes = m.classes := by
  suffices h : m.Like (m.history N toInt iter init pick calls) from h.1
  unfold Clf.history
  induction calls generalizing m with
  | nil => exact ⟨rfl, rfl, id⟩
  | cons c calls ih =>
    obtain ⟨W, hW⟩ := Option.isSome_iff_exists.1 hc
    rw [List.foldl_cons]
    have step : m.Like (m.train N toInt iter init pick c) := by
      cases c with
      | part X y cs =>
        have h := clf_partialFit_like N toInt iter init m X y cs
        rw [clf_begin_some toInt iter init m X y cs W hW] at h
        exact h
      | full X y =>
        have hws : m.opts.warmStart = true := hw.resolve_right fun h => by have := h _ List.mem_cons_self; cases this
        refine Clf.Like.trans ?_ (clf_fit_like N toInt iter init pick m X y)
        unfold Clf.fitBegin
        rw [if_pos ⟨hws, hc⟩, clf_begin_some toInt iter init m X y none W hW]
        exact ⟨rfl, rfl, id⟩
    refine step.trans (ih _ (step.2.2 hc) ?_)
    rw [step.2.1]
    exact hw.imp_right fun h c' hc' => h c' (List.mem_cons_of_mem _ hc')

end

/-- a model trained on the labels 0 and 1 keeps these two classes when it is then given the label 5, a list of other classes, and rows of another width -/
example : (qPC.history qNum qInt keysInOrder [.part qX1 qy none, .part qX1 (Mat.ofRows [[5], [0]] 1 0) (some [7]), .part qX2 qy none]).classes = [0, 1] := by
  decide +kernel

end Scigo.Online
