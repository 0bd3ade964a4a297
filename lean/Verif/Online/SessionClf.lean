import Verif.Online.SessionPA
import Verif.Online.ClfProps

/-!
# Histories of calls: SGDClassifier and PassiveAggressiveClassifier

Law-free throughout.
-/

set_option linter.unusedSectionVars false

namespace Scigo.Online

section
variable {α : Type} [Add α] [Sub α] [Mul α] [Div α] [Neg α] [Zero α] [One α] [LT α] [DecidableLT α] [LE α] [DecidableLE α] [BEq α]

/-- one weight row per class, all of width `c` -/
def Rect (classes : List Int) (c : Nat) (W : List (List α)) : Prop := W.length = classes.length ∧ ∀ w ∈ W, w.length = c

theorem rect_any {classes : List Int} {c : Nat} {W : List (List α)} (h : Rect classes c W) (n : Nat) (hn : n ≤ c) :
    ¬ W.any (fun w => decide (w.length < n)) = true := by
  rw [List.any_eq_true]
  rintro ⟨w, hw, hd⟩
  have := h.2 w hw
  simp only [decide_eq_true_eq] at hd
  omega

theorem rect_map {classes : List Int} {c : Nat} {W : List (List α)} (h : Rect classes c W) (f : Nat → List α → List α)
    (hf : ∀ i w, (f i w).length = w.length) : Rect classes c ((List.range classes.length).map fun i => f i (W.getD i [])) := by
  refine ⟨by simp, fun w hw => ?_⟩
  obtain ⟨i, hi, rfl⟩ := List.mem_map.1 hw
  have hi := List.mem_range.1 hi
  rw [hf, List.getD_eq_getElem _ _ (by rw [h.1]; exact hi)]
  exact h.2 _ (List.getElem_mem _)

theorem clfStep_length (o : Opts α) (lr d : α) (w x : List α) : (clfStep o lr d w x).length = w.length := by simp [clfStep]

theorem extractClasses_ne_nil {iter : List Int → List Int} (hit : MapKeys iter) (toInt : α → Int) (y : Mat α) (hy : 0 < y.r) :
    extractClasses toInt iter y ≠ [] := by
  intro h
  unfold extractClasses at h
  have hp := (exchangeSort_spec (iter ((List.range y.r).map fun i => toInt (y.at' i 0)))).1
  rw [h] at hp
  have h0 := (hit ((List.range y.r).map fun i => toInt (y.at' i 0))).2 (toInt (y.at' 0 0))
  rw [← hp.nil_eq] at h0
  exact absurd (h0.2 (List.mem_map.2 ⟨0, List.mem_range.2 hy, rfl⟩)) (by simp)

/-- the classes a first call adopts -/
def adopted (toInt : α → Int) (iter : List Int → List Int) (y : Mat α) : Option (List Int) → List Int
  | some cs => cs
  | none => extractClasses toInt iter y

theorem adopted_ne_nil {iter : List Int → List Int} (hit : MapKeys iter) (toInt : α → Int) (y : Mat α) (hy : 0 < y.r) (cs : Option (List Int))
    (hcs : cs ≠ some []) : adopted toInt iter y cs ≠ [] := by
  cases cs with
  | none => exact extractClasses_ne_nil hit toInt y hy
  | some cs => exact fun h => hcs (congrArg some h)

/-! ## PassiveAggressiveClassifier -/

/-- the states of a `PassiveAggressiveClassifier`; the class list given to `PartialFit` is nil or not empty -/
inductive PAClfState (N : Num α) (toInt : α → Int) (iter : List Int → List Int) : PAClf α → Prop
  | new (C : α) (loss : String) (fi ws : Bool) (maxIter : Nat) : PAClfState N toInt iter ⟨C, loss, fi, ws, maxIter, none, [], [], 0, 0, 0, false⟩
  | fit {m : PAClf α} (h : PAClfState N toInt iter m) (X y : Mat α) (hy : 0 < y.r)
      (hw : m.warmStart = false ∨ m.coef = none ∨ X.c = m.nFeatures) : PAClfState N toInt iter (m.fit N toInt iter X y).1
  | partialFit {m : PAClf α} (h : PAClfState N toInt iter m) (X y : Mat α) (hy : 0 < y.r) (cs : Option (List Int)) (hcs : cs ≠ some []) :
      PAClfState N toInt iter (m.partialFit N toInt iter X y cs).1
  | setWarmStart {m : PAClf α} (h : PAClfState N toInt iter m) (b : Bool) : PAClfState N toInt iter { m with warmStart := b }

/-- there are classes, and weights for them of the expected width `c` -/
def PAClf.Has (c : Nat) (m : PAClf α) : Prop := m.nFeatures = c ∧ m.classes ≠ [] ∧ ∃ W, m.coef = some W ∧ Rect m.classes c W

theorem paClf_update_has (N : Num α) (c : Nat) (m : PAClf α) (x : List α) (l : Int) (h : m.Has c) (hx : x.length = c) :
    ∃ m', m.updateWeights N x l = some m' ∧ m'.Has c ∧ m'.classes = m.classes := by
  obtain ⟨h1, h2, W, hW, hr⟩ := h
  unfold PAClf.updateWeights
  rcases m.classes.idxOf? l with _ | k
  · exact ⟨m, rfl, ⟨h1, h2, W, hW, hr⟩, rfl⟩
  · simp only [hW, Option.getD_some]
    rw [if_neg (rect_any hr x.length hx.le)]
    refine ⟨_, rfl, ⟨h1, h2, _, rfl, ?_⟩, rfl⟩
    refine rect_map hr (fun i w => if paClfTau N m.C (target i k) (score w (m.intercept.getD i 0) x) x == 0 then w
      else addScaled w x (paClfTau N m.C (target i k) (score w (m.intercept.getD i 0) x) x)) fun i w => ?_
    split
    · rfl
    · exact addScaled_length _ _ _

theorem paClf_trainRows_eq (N : Num α) (toInt : α → Int) (X y : Mat α) (is : List Nat) (m : PAClf α) :
    PAClf.trainRows N toInt X y is m = trainG (fun m x y => m.updateWeights N x (toInt y)) (is.map (fun i => (X.row i, labelAt y i))) m := by
  induction is generalizing m with
  | nil => rfl
  | cons i is ih =>
    simp only [PAClf.trainRows, List.map_cons, trainG]
    rcases labelAt y i with _ | yi
    · rfl
    · simp only
      rcases m.updateWeights N (X.row i) (toInt yi) with _ | m'
      · rfl
      · exact ih _

theorem paClf_rows_has (N : Num α) (toInt : α → Int) (X y : Mat α) (m : PAClf α) (h : m.Has X.c) :
    (PAClf.trainRows N toInt X y (List.range X.r) m).1.Has X.c ∧ (PAClf.trainRows N toInt X y (List.range X.r) m).1.classes = m.classes ∧
    (Labelled X y → (PAClf.trainRows N toInt X y (List.range X.r) m).2 = false) := by
  rw [paClf_trainRows_eq]
  obtain ⟨a, b⟩ := trainG_inv (fun m' : PAClf α => m'.Has X.c ∧ m'.classes = m.classes) X.c _
    (fun m1 x y h hx => (paClf_update_has N X.c m1 x (toInt y) h.1 hx).imp fun m2 h2 => ⟨h2.1, h2.2.1, h2.2.2.trans h.2⟩)
    _ m ⟨h, rfl⟩ (sample_width X y (List.range X.r))
  exact ⟨a.1, a.2, fun hl => b (sample_labelled hl _ fun i hi => List.mem_range.1 hi)⟩

theorem paClf_epochs_has (N : Num α) (toInt : α → Int) (X y : Mat α) (n : Nat) (m : PAClf α) (h : m.Has X.c) :
    (PAClf.epochs N toInt X y n m).1.Has X.c ∧ (PAClf.epochs N toInt X y n m).1.classes = m.classes ∧
    (Labelled X y → (PAClf.epochs N toInt X y n m).2 = false) := by
  induction n generalizing m with
  | zero => exact ⟨h, rfl, fun _ => rfl⟩
  | succ n ih =>
    obtain ⟨a, b, d⟩ := paClf_rows_has N toInt X y m h
    simp only [PAClf.epochs]
    rcases e : PAClf.trainRows N toInt X y (List.range X.r) m with ⟨m', _ | _⟩ <;> rw [e] at a b d
    · obtain ⟨i1, i2, i3⟩ := ih { m' with nIter := m'.nIter + 1 } a
      exact ⟨i1, i2.trans b, i3⟩
    · exact ⟨a, b, d⟩

theorem paClf_begin_some (toInt : α → Int) (iter : List Int → List Int) (m : PAClf α) (X y : Mat α) (cs : Option (List Int)) (W : List (List α))
    (h : m.coef = some W) : PAClf.begin toInt iter X y cs m = m := by
  unfold PAClf.begin; simp only [h]

theorem paClf_begin_none (toInt : α → Int) (iter : List Int → List Int) (m : PAClf α) (X y : Mat α) (cs : Option (List Int)) (h : m.coef = none) :
    PAClf.begin toInt iter X y cs m =
      { m with nFeatures := X.c, classes := adopted toInt iter y cs,
               coef := some (List.replicate (adopted toInt iter y cs).length (List.replicate X.c 0)),
               intercept := List.replicate (adopted toInt iter y cs).length 0 } := by
  unfold PAClf.begin; simp only [h]; cases cs <;> rfl

theorem rect_replicate (cs : List Int) (c : Nat) : Rect cs c (List.replicate cs.length (List.replicate c (0 : α))) :=
  ⟨by simp, fun w hw => by rw [List.eq_of_mem_replicate hw]; simp⟩

theorem paClf_fitBegin_has {iter : List Int → List Int} (hit : MapKeys iter) (toInt : α → Int) (m : PAClf α) (X y : Mat α) (hy : 0 < y.r)
    (hm : m.coef = none ∨ m.Has m.nFeatures) (hw : m.warmStart = false ∨ m.coef = none ∨ X.c = m.nFeatures) :
    (m.fitBegin toInt iter X y).Has X.c ∧
    (m.fitBegin toInt iter X y).classes = if m.warmStart ∧ m.coef.isSome then m.classes else extractClasses toInt iter y := by
  unfold PAClf.fitBegin
  by_cases hc : m.warmStart = true ∧ m.coef.isSome = true
  · rw [if_pos hc, if_pos hc]
    rcases hm with hm | ⟨-, h2, W, hW, hr⟩
    · rw [hm] at hc; simp at hc
    · rw [paClf_begin_some toInt iter m X y none W hW]
      refine ⟨⟨rfl, h2, W, hW, ?_⟩, rfl⟩
      rcases hw with hw | hw | hw
      · rw [hc.1] at hw; cases hw
      · rw [hw] at hW; cases hW
      · rw [hw]; exact hr
  · rw [if_neg hc, if_neg hc, paClf_begin_none toInt iter m.reset X y none rfl]
    exact ⟨⟨rfl, extractClasses_ne_nil hit toInt y hy, _, rfl, rect_replicate _ _⟩, rfl⟩

theorem paClf_begin_has {iter : List Int → List Int} (hit : MapKeys iter) (toInt : α → Int) (m : PAClf α) (X y : Mat α) (hy : 0 < y.r)
    (cs : Option (List Int)) (hcs : cs ≠ some []) (hm : m.coef = none ∨ m.Has m.nFeatures) :
    (m.begin toInt iter X y cs).Has (m.begin toInt iter X y cs).nFeatures := by
  rcases hm with hm | ⟨h1, h2, W, hW, hr⟩
  · rw [paClf_begin_none toInt iter m X y cs hm]
    exact ⟨rfl, adopted_ne_nil hit toInt y hy cs hcs, _, rfl, rect_replicate _ _⟩
  · rw [paClf_begin_some toInt iter m X y cs W hW]
    exact ⟨rfl, h2, W, hW, hr⟩

theorem PAClf.Has.self {c : Nat} {m : PAClf α} (h : m.Has c) : m.Has m.nFeatures :=
  ⟨rfl, h.2.1, h.2.2.imp fun W hW => ⟨hW.1, by rw [h.1]; exact hW.2⟩⟩

theorem paClf_state {N : Num α} {toInt : α → Int} {iter : List Int → List Int} (hit : MapKeys iter) {m : PAClf α} (h : PAClfState N toInt iter m) :
    (m.coef = none ∧ m.fitted = false) ∨ m.Has m.nFeatures := by
  induction h with
  | new => exact .inl ⟨rfl, rfl⟩
  | @fit m h X y hy hw ih =>
    right
    obtain ⟨a, -⟩ := paClf_epochs_has N toInt X y m.maxIter _ (paClf_fitBegin_has hit toInt m X y hy (ih.imp_left And.left) hw).1
    unfold PAClf.fit
    rcases e : PAClf.epochs N toInt X y m.maxIter (m.fitBegin toInt iter X y) with ⟨m', _ | _⟩ <;> rw [e] at a <;> exact a.self
  | @partialFit m h X y hy cs hcs ih =>
    right
    have hb := paClf_begin_has hit toInt m X y hy cs hcs (ih.imp_left And.left)
    unfold PAClf.partialFit
    simp only
    by_cases hc : X.c ≠ (m.begin toInt iter X y cs).nFeatures
    · rw [if_pos hc]; exact hb
    · rw [if_neg hc]
      rw [← not_not.1 hc] at hb
      obtain ⟨a, -⟩ := paClf_rows_has N toInt X y _ hb
      rcases e : PAClf.trainRows N toInt X y (List.range X.r) (m.begin toInt iter X y cs) with ⟨m', _ | _⟩ <;> rw [e] at a <;> exact a.self
  | setWarmStart h b ih => exact ih

/-- **C173** for PassiveAggressiveClassifier -/
theorem paClf_answers_partial {N : Num α} {toInt : α → Int} {iter : List Int → List Int} (hit : MapKeys iter) {m : PAClf α}
    (h : PAClfState N toInt iter m) (ofInt : Int → α) (ninf : α) (X : Mat α) : Answers m.fitted m.nFeatures X (m.predict ofInt ninf X) := by
  refine checked_answers _ _ _ _ fun hf hc hr => ?_
  rcases paClf_state hit h with h | ⟨-, h2, W, hW, hr⟩
  · rw [h.2] at hf; cases hf
  · rw [if_neg h2, hW, Option.getD_some, if_neg (rect_any hr X.c hc.le)]
    exact ⟨_, rfl, rfl, rfl⟩

/-- the classes the model knows after training: the ones it had, or those of the first call -/
def knows {σ : Type} (coefNone : Bool) (classes : σ → List Int) (m : σ) (new : List Int) : List Int := if coefNone then new else classes m

/-- **C174, C177** for PassiveAggressiveClassifier: training on labelled data succeeds, or refuses another width changing nothing; the set of classes
is fixed by the first call and by every `Fit` without warm start -/
theorem paClf_trains_partial {N : Num α} {toInt : α → Int} {iter : List Int → List Int} (hit : MapKeys iter) {m : PAClf α}
    (h : PAClfState N toInt iter m) (X y : Mat α) (hy : 0 < y.r) (hl : Labelled X y) :
    (m.warmStart = false ∨ m.coef = none ∨ X.c = m.nFeatures →
      ∃ m', m.fit N toInt iter X y = (m', .ok ()) ∧ m'.nFeatures = X.c ∧ m'.fitted = true ∧
        m'.classes = if m.warmStart ∧ m.coef.isSome then m.classes else extractClasses toInt iter y) ∧
    ∀ cs, cs ≠ some [] → Trains PAClf.nFeatures PAClf.fitted m X.c (m.partialFit N toInt iter X y cs) ∧
      (m.partialFit N toInt iter X y cs).1.classes = if m.coef.isSome then m.classes else cs.getD (extractClasses toInt iter y) := by
  have hs := paClf_state hit h
  constructor
  · intro hw
    obtain ⟨f1, f2⟩ := paClf_fitBegin_has hit toInt m X y hy (hs.imp_left And.left) hw
    obtain ⟨a, b, d⟩ := paClf_epochs_has N toInt X y m.maxIter _ f1
    have d := d hl
    unfold PAClf.fit
    rcases e : PAClf.epochs N toInt X y m.maxIter (m.fitBegin toInt iter X y) with ⟨m', _ | _⟩ <;> rw [e] at a b d
    · exact ⟨_, rfl, a.1, rfl, b.trans f2⟩
    · cases d
  · intro cs hcs
    have hb := paClf_begin_has hit toInt m X y hy cs hcs (hs.imp_left And.left)
    have hcl : (m.begin toInt iter X y cs).classes = if m.coef.isSome then m.classes else cs.getD (extractClasses toInt iter y) := by
      rcases e : m.coef with _ | W
      · rw [paClf_begin_none toInt iter m X y cs e]; cases cs <;> rfl
      · rw [paClf_begin_some toInt iter m X y cs W e]; rfl
    unfold PAClf.partialFit
    simp only
    by_cases hc : X.c ≠ (m.begin toInt iter X y cs).nFeatures
    · rw [if_pos hc]
      refine ⟨?_, hcl⟩
      rcases hs with hs | ⟨-, -, W, hW, -⟩
      · rw [paClf_begin_none toInt iter m X y cs hs.1] at hc; exact absurd rfl hc
      · rw [paClf_begin_some toInt iter m X y cs W hW] at hc ⊢; exact .refused hc
    · rw [if_neg hc]
      rw [← not_not.1 hc] at hb
      obtain ⟨a, b, d⟩ := paClf_rows_has N toInt X y _ hb
      have d := d hl
      rcases e : PAClf.trainRows N toInt X y (List.range X.r) (m.begin toInt iter X y cs) with ⟨m', _ | _⟩ <;> rw [e] at a b d
      · exact ⟨.ok _ a.1 rfl, b.trans hcl⟩
      · cases d

/-- **C175** for PassiveAggressiveClassifier -/
theorem paClf_fit_forgets (N : Num α) (toInt : α → Int) (iter : List Int → List Int) (a b : PAClf α) (X y : Mat α) (hw : a.warmStart = false)
    (ho : (a.C, a.loss, a.fitIntercept, a.warmStart, a.maxIter) = (b.C, b.loss, b.fitIntercept, b.warmStart, b.maxIter)) :
    a.fit N toInt iter X y = b.fit N toInt iter X y := by
  simp only [Prod.mk.injEq] at ho
  obtain ⟨h1, h2, h4, h5, h6⟩ := ho
  have hb : b.warmStart = false := h5 ▸ hw
  have e : a.fitBegin toInt iter X y = b.fitBegin toInt iter X y := by
    unfold PAClf.fitBegin PAClf.reset PAClf.begin
    simp only [hw, hb, Bool.false_eq_true, false_and, if_false, h1, h2, h4, h6]
  unfold PAClf.fit
  rw [e, h6]

/-- a sample of a class the model does not know leaves it as it is -/
theorem paClf_unknown (N : Num α) (m : PAClf α) (x : List α) (l : Int) (h : l ∉ m.classes) : m.updateWeights N x l = some m := by
  unfold PAClf.updateWeights
  rw [List.idxOf?_eq_none_iff.2 h]

theorem paClf_rows_unknown (N : Num α) (toInt : α → Int) (X y : Mat α) (m : PAClf α) (hl : Labelled X y)
    (hu : ∀ i < X.r, toInt (y.at' i 0) ∉ m.classes) (is : List Nat) (his : ∀ i ∈ is, i < X.r) :
    PAClf.trainRows N toInt X y is m = (m, false) := by
  induction is with
  | nil => rfl
  | cons i is ih =>
    have hi := his i (by simp)
    simp only [PAClf.trainRows, labelAt_some hl hi, paClf_unknown N m _ _ (hu i hi)]
    exact ih fun j hj => his j (by simp [hj])

/-- **C177** for PassiveAggressiveClassifier: a batch whose labels are all unknown is accepted and teaches nothing -/
theorem paClf_unknown_batch (N : Num α) (toInt : α → Int) (iter : List Int → List Int) (m : PAClf α) (X y : Mat α) (cs : Option (List Int))
    (hc : m.coef.isSome) (hw : X.c = m.nFeatures) (hl : Labelled X y) (hu : ∀ i < X.r, toInt (y.at' i 0) ∉ m.classes) :
    m.partialFit N toInt iter X y cs = ({ m with fitted := true }, .ok ()) := by
  obtain ⟨W, hW⟩ := Option.isSome_iff_exists.1 hc
  unfold PAClf.partialFit
  simp only [paClf_begin_some toInt iter m X y cs W hW]
  rw [if_neg (by simpa using hw), paClf_rows_unknown N toInt X y m hl hu _ fun i hi => List.mem_range.1 hi]

/-! ## SGDClassifier -/

/-- the states of an `SGDClassifier` -/
inductive ClfState (N : Num α) (toInt : α → Int) (iter : List Int → List Int) : Clf α → Prop
  | new (o : Opts α) (eta0 : α) : ClfState N toInt iter ⟨o, eta0, none, [], [], 0, 0, 0, [], false, false⟩
  | fit {m : Clf α} (h : ClfState N toInt iter m) (init : Nat → Nat → List (List α))
      (hinit : ∀ k c, (init k c).length = k ∧ ∀ w ∈ init k c, w.length = c) (pick : Nat → Nat → Nat) (X y : Mat α) (hy : 0 < y.r)
      (hw : m.opts.warmStart = false ∨ m.coef = none ∨ X.c = m.nFeatures) : ClfState N toInt iter (m.fit N toInt iter init pick X y).1
  | partialFit {m : Clf α} (h : ClfState N toInt iter m) (init : Nat → Nat → List (List α))
      (hinit : ∀ k c, (init k c).length = k ∧ ∀ w ∈ init k c, w.length = c) (X y : Mat α) (hy : 0 < y.r) (cs : Option (List Int)) (hcs : cs ≠ some []) :
      ClfState N toInt iter (m.partialFit N toInt iter init X y cs).1
  | setWarmStart {m : Clf α} (h : ClfState N toInt iter m) (b : Bool) : ClfState N toInt iter { m with opts := { m.opts with warmStart := b } }
  | setSchedule {m : Clf α} (h : ClfState N toInt iter m) (s : String) : ClfState N toInt iter { m with opts := { m.opts with schedule := s } }
  | setLearningRate {m : Clf α} (h : ClfState N toInt iter m) (lr : α) : ClfState N toInt iter { m with eta0 := lr }

/-- there are classes, and weights for them of the expected width `c` -/
def Clf.Has (c : Nat) (m : Clf α) : Prop := m.nFeatures = c ∧ m.classes ≠ [] ∧ ∃ W, m.coef = some W ∧ Rect m.classes c W

theorem Clf.Has.self {c : Nat} {m : Clf α} (h : m.Has c) : m.Has m.nFeatures :=
  ⟨rfl, h.2.1, h.2.2.imp fun W hW => ⟨hW.1, by rw [h.1]; exact hW.2⟩⟩

theorem clf_update_has (N : Num α) (c : Nat) (m : Clf α) (x : List α) (l : Int) (h : m.Has c) (hx : x.length = c) :
    ∃ r, m.updateWeights N x l = some r ∧ r.1.Has c ∧ r.1.classes = m.classes := by
  obtain ⟨h1, h2, W, hW, hr⟩ := h
  unfold Clf.updateWeights
  rcases m.classes.idxOf? l with _ | k
  · exact ⟨_, rfl, ⟨h1, h2, W, hW, hr⟩, rfl⟩
  · simp only [hW, Option.getD_some]
    rw [if_neg (rect_any hr x.length hx.le)]
    refine ⟨_, rfl, ⟨h1, h2, _, rfl, ?_⟩, rfl⟩
    exact rect_map hr (fun i w => clfStep m.opts (learningRate N m.opts m.eta0 m.t m.hist)
      (clfLoss N m.opts.loss (target i k) (score w (m.intercept.getD i 0) x)).2 w x) fun i w => clfStep_length _ _ _ _ _

/-- one update with the running loss -/
def clfUpd (N : Num α) (toInt : α → Int) (s : Clf α × α) (x : List α) (y : α) : Option (Clf α × α) :=
  (s.1.updateWeights N x (toInt y)).map fun r => (r.1, s.2 + r.2)

theorem clf_trainRows_eq (N : Num α) (toInt : α → Int) (X y : Mat α) (is : List Nat) (m : Clf α) (acc : α) :
    Clf.trainRows N toInt X y is m acc =
      ((trainG (clfUpd N toInt) (is.map (fun i => (X.row i, labelAt y i))) (m, acc)).1.1,
       (trainG (clfUpd N toInt) (is.map (fun i => (X.row i, labelAt y i))) (m, acc)).1.2,
       (trainG (clfUpd N toInt) (is.map (fun i => (X.row i, labelAt y i))) (m, acc)).2) := by
  induction is generalizing m acc with
  | nil => rfl
  | cons i is ih =>
    simp only [Clf.trainRows, List.map_cons, trainG]
    rcases labelAt y i with _ | yi
    · rfl
    · simp only [clfUpd]
      rcases m.updateWeights N (X.row i) (toInt yi) with _ | ⟨m', l⟩
      · rfl
      · exact ih _ _

theorem clf_rows_has (N : Num α) (toInt : α → Int) (X y : Mat α) (is : List Nat) (m : Clf α) (acc : α) (h : m.Has X.c) :
    (Clf.trainRows N toInt X y is m acc).1.Has X.c ∧ (Clf.trainRows N toInt X y is m acc).1.classes = m.classes ∧
    (Labelled X y → (∀ i ∈ is, i < X.r) → (Clf.trainRows N toInt X y is m acc).2.2 = false) := by
  rw [clf_trainRows_eq]
  obtain ⟨a, b⟩ := trainG_inv (fun s : Clf α × α => s.1.Has X.c ∧ s.1.classes = m.classes) X.c (clfUpd N toInt)
    (fun s x y h hx => by
      obtain ⟨r, e, h1, h2⟩ := clf_update_has N X.c s.1 x (toInt y) h.1 hx
      exact ⟨(r.1, s.2 + r.2), by rw [clfUpd, e]; rfl, h1, h2.trans h.2⟩)
    _ (m, acc) ⟨h, rfl⟩ (sample_width X y is)
  exact ⟨a.1, a.2, fun hl hi => b (sample_labelled hl _ hi)⟩

theorem clf_loop_has (N : Num α) (toInt : α → Int) (pick : Nat → Nat → Nat) (X y : Mat α) (n k : Nat) (m : Clf α) (h : m.Has X.c) :
    (Clf.fitLoop N toInt pick X y n k m).1.Has X.c ∧ (Clf.fitLoop N toInt pick X y n k m).1.classes = m.classes ∧
    (Labelled X y → (Clf.fitLoop N toInt pick X y n k m).2 = false) := by
  induction n generalizing k m with
  | zero => exact ⟨h, rfl, fun _ => rfl⟩
  | succ n ih =>
    obtain ⟨a, b, d⟩ := clf_rows_has N toInt X y (epochOrder m.opts (pick k) X.r) m 0 h
    simp only [Clf.fitLoop]
    rcases e : Clf.trainRows N toInt X y (epochOrder m.opts (pick k) X.r) m 0 with ⟨m', l, _ | _⟩ <;> rw [e] at a b d
    · simp only
      split
      · exact ⟨a, b, fun _ => rfl⟩
      · obtain ⟨i1, i2, i3⟩ := ih (k + 1) { m' with hist := m'.hist ++ [l / N.ofNat X.r], nIter := m'.nIter + 1 } a
        exact ⟨i1, i2.trans b, i3⟩
    · exact ⟨a, b, fun hl => d hl (epochOrder_mem m.opts (pick k) X.r)⟩

theorem clf_begin_some (toInt : α → Int) (iter : List Int → List Int) (init : Nat → Nat → List (List α)) (m : Clf α) (X y : Mat α)
    (cs : Option (List Int)) (W : List (List α)) (h : m.coef = some W) : Clf.begin toInt iter init X y cs m = m := by
  unfold Clf.begin; simp only [h]

theorem clf_begin_none (toInt : α → Int) (iter : List Int → List Int) (init : Nat → Nat → List (List α)) (m : Clf α) (X y : Mat α)
    (cs : Option (List Int)) (h : m.coef = none) :
    Clf.begin toInt iter init X y cs m =
      { m with nFeatures := X.c, classes := adopted toInt iter y cs, coef := some (init (adopted toInt iter y cs).length X.c),
               intercept := List.replicate (adopted toInt iter y cs).length 0 } := by
  unfold Clf.begin; simp only [h]; cases cs <;> rfl

theorem clf_fitBegin_has {iter : List Int → List Int} (hit : MapKeys iter) (toInt : α → Int) (init : Nat → Nat → List (List α))
    (hinit : ∀ k c, (init k c).length = k ∧ ∀ w ∈ init k c, w.length = c) (m : Clf α) (X y : Mat α) (hy : 0 < y.r)
    (hm : m.coef = none ∨ m.Has m.nFeatures) (hw : m.opts.warmStart = false ∨ m.coef = none ∨ X.c = m.nFeatures) :
    (m.fitBegin toInt iter init X y).Has X.c ∧
    (m.fitBegin toInt iter init X y).classes = if m.opts.warmStart ∧ m.coef.isSome then m.classes else extractClasses toInt iter y := by
  unfold Clf.fitBegin
  by_cases hc : m.opts.warmStart = true ∧ m.coef.isSome = true
  · rw [if_pos hc, if_pos hc]
    rcases hm with hm | ⟨-, h2, W, hW, hr⟩
    · rw [hm] at hc; simp at hc
    · rw [clf_begin_some toInt iter init m X y none W hW]
      refine ⟨⟨rfl, h2, W, hW, ?_⟩, rfl⟩
      rcases hw with hw | hw | hw
      · rw [hc.1] at hw; cases hw
      · rw [hw] at hW; cases hW
      · rw [hw]; exact hr
  · rw [if_neg hc, if_neg hc, clf_begin_none toInt iter init m.reset X y none rfl]
    exact ⟨⟨rfl, extractClasses_ne_nil hit toInt y hy, _, rfl, hinit _ _⟩, rfl⟩

theorem clf_begin_has {iter : List Int → List Int} (hit : MapKeys iter) (toInt : α → Int) (init : Nat → Nat → List (List α))
    (hinit : ∀ k c, (init k c).length = k ∧ ∀ w ∈ init k c, w.length = c) (m : Clf α) (X y : Mat α) (hy : 0 < y.r)
    (cs : Option (List Int)) (hcs : cs ≠ some []) (hm : m.coef = none ∨ m.Has m.nFeatures) :
    (m.begin toInt iter init X y cs).Has (m.begin toInt iter init X y cs).nFeatures := by
  rcases hm with hm | ⟨h1, h2, W, hW, hr⟩
  · rw [clf_begin_none toInt iter init m X y cs hm]
    exact ⟨rfl, adopted_ne_nil hit toInt y hy cs hcs, _, rfl, hinit _ _⟩
  · rw [clf_begin_some toInt iter init m X y cs W hW]
    exact ⟨rfl, h2, W, hW, hr⟩

theorem clf_state {N : Num α} {toInt : α → Int} {iter : List Int → List Int} (hit : MapKeys iter) {m : Clf α} (h : ClfState N toInt iter m) :
    (m.coef = none ∧ m.fitted = false) ∨ m.Has m.nFeatures := by
  induction h with
  | new => exact .inl ⟨rfl, rfl⟩
  | @fit m h init hinit pick X y hy hw ih =>
    right
    obtain ⟨a, -⟩ := clf_loop_has N toInt pick X y m.opts.maxIter 0 _ (clf_fitBegin_has hit toInt init hinit m X y hy (ih.imp_left And.left) hw).1
    unfold Clf.fit
    rcases e : Clf.fitLoop N toInt pick X y m.opts.maxIter 0 (m.fitBegin toInt iter init X y) with ⟨m', _ | _⟩ <;> rw [e] at a <;> exact a.self
  | @partialFit m h init hinit X y hy cs hcs ih =>
    right
    have hb := clf_begin_has hit toInt init hinit m X y hy cs hcs (ih.imp_left And.left)
    unfold Clf.partialFit
    simp only
    by_cases hc : X.c ≠ (m.begin toInt iter init X y cs).nFeatures
    · rw [if_pos hc]; exact hb
    · rw [if_neg hc]
      rw [← not_not.1 hc] at hb
      obtain ⟨a, -⟩ := clf_rows_has N toInt X y (List.range X.r) _ 0 hb
      rcases e : Clf.trainRows N toInt X y (List.range X.r) (m.begin toInt iter init X y cs) 0 with ⟨m', l, _ | _⟩ <;> rw [e] at a <;> exact a.self
  | setWarmStart h b ih => exact ih
  | setSchedule h s ih => exact ih
  | setLearningRate h lr ih => exact ih

/-- **C173** for SGDClassifier: `Predict`, `PredictProba` and `DecisionFunction` answer after every history -/
theorem sgdClf_answers_partial {N : Num α} {toInt : α → Int} {iter : List Int → List Int} (hit : MapKeys iter) {m : Clf α}
    (h : ClfState N toInt iter m) (ofInt : Int → α) (ninf : α) (exp : α → α) (X : Mat α) :
    Answers m.fitted m.nFeatures X (m.predict ofInt ninf X) ∧
    (0 < X.r → (m.fitted = false ∧ m.predictProba exp X = .err .notFitted ∧ m.decisionFunction X = .err .notFitted) ∨
      (m.fitted = true ∧ X.c ≠ m.nFeatures ∧ m.predictProba exp X = .err (.dimension m.nFeatures X.c 1) ∧
        m.decisionFunction X = .err (.dimension m.nFeatures X.c 1)) ∨
      (m.fitted = true ∧ X.c = m.nFeatures ∧ ∃ P D, m.predictProba exp X = .ok P ∧ m.decisionFunction X = .ok D ∧
        P.r = X.r ∧ P.c = m.classes.length ∧ D.r = X.r ∧ D.c = m.classes.length)) := by
  constructor
  · refine checked_answers _ _ _ _ fun hf hc hr => ?_
    rcases clf_state hit h with h | ⟨-, h2, W, hW, hr⟩
    · rw [h.2] at hf; cases hf
    · rw [if_neg h2, hW, Option.getD_some, if_neg (rect_any hr X.c hc.le)]
      exact ⟨_, rfl, rfl, rfl⟩
  · intro hr
    have hr0 : ¬ X.r = 0 := by omega
    unfold Clf.predictProba Clf.decisionFunction checked
    cases hf : m.fitted with
    | false => exact .inl ⟨rfl, rfl, rfl⟩
    | true =>
      simp only [Bool.not_true, Bool.false_eq_true, if_false]
      by_cases hc : X.c ≠ m.nFeatures
      · rw [if_pos hc, if_pos hc]; exact .inr (.inl ⟨trivial, hc, rfl, rfl⟩)
      · rw [if_neg hc, if_neg hc, if_neg hr0, if_neg hr0]
        rcases clf_state hit h with h | ⟨-, h2, W, hW, hr⟩
        · rw [h.2] at hf; cases hf
        · rw [if_neg h2, if_neg h2, hW, Option.getD_some, if_neg (rect_any hr X.c (not_not.1 hc).le), if_neg (rect_any hr X.c (not_not.1 hc).le)]
          exact .inr (.inr ⟨trivial, not_not.1 hc, _, _, rfl, rfl, rfl, rfl, rfl, rfl⟩)

/-- **C174, C177** for SGDClassifier -/
theorem sgdClf_trains_partial {N : Num α} {toInt : α → Int} {iter : List Int → List Int} (hit : MapKeys iter) {m : Clf α}
    (h : ClfState N toInt iter m) (init : Nat → Nat → List (List α)) (hinit : ∀ k c, (init k c).length = k ∧ ∀ w ∈ init k c, w.length = c)
    (X y : Mat α) (hy : 0 < y.r) (hl : Labelled X y) :
    (∀ pick, m.opts.warmStart = false ∨ m.coef = none ∨ X.c = m.nFeatures →
      ∃ m', m.fit N toInt iter init pick X y = (m', .ok ()) ∧ m'.nFeatures = X.c ∧ m'.fitted = true ∧
        m'.classes = if m.opts.warmStart ∧ m.coef.isSome then m.classes else extractClasses toInt iter y) ∧
    ∀ cs, cs ≠ some [] → Trains Clf.nFeatures Clf.fitted m X.c (m.partialFit N toInt iter init X y cs) ∧
      (m.partialFit N toInt iter init X y cs).1.classes = if m.coef.isSome then m.classes else cs.getD (extractClasses toInt iter y) := by
  have hs := clf_state hit h
  constructor
  · intro pick hw
    obtain ⟨f1, f2⟩ := clf_fitBegin_has hit toInt init hinit m X y hy (hs.imp_left And.left) hw
    obtain ⟨a, b, d⟩ := clf_loop_has N toInt pick X y m.opts.maxIter 0 _ f1
    have d := d hl
    unfold Clf.fit
    rcases e : Clf.fitLoop N toInt pick X y m.opts.maxIter 0 (m.fitBegin toInt iter init X y) with ⟨m', _ | _⟩ <;> rw [e] at a b d
    · exact ⟨_, rfl, a.1, rfl, b.trans f2⟩
    · cases d
  · intro cs hcs
    have hb := clf_begin_has hit toInt init hinit m X y hy cs hcs (hs.imp_left And.left)
    have hcl : (m.begin toInt iter init X y cs).classes = if m.coef.isSome then m.classes else cs.getD (extractClasses toInt iter y) := by
      rcases e : m.coef with _ | W
      · rw [clf_begin_none toInt iter init m X y cs e]; cases cs <;> rfl
      · rw [clf_begin_some toInt iter init m X y cs W e]; rfl
    unfold Clf.partialFit
    simp only
    by_cases hc : X.c ≠ (m.begin toInt iter init X y cs).nFeatures
    · rw [if_pos hc]
      refine ⟨?_, hcl⟩
      rcases hs with hs | ⟨-, -, W, hW, -⟩
      · rw [clf_begin_none toInt iter init m X y cs hs.1] at hc; exact absurd rfl hc
      · rw [clf_begin_some toInt iter init m X y cs W hW] at hc ⊢; exact .refused hc
    · rw [if_neg hc]
      rw [← not_not.1 hc] at hb
      obtain ⟨a, b, d⟩ := clf_rows_has N toInt X y (List.range X.r) _ 0 hb
      have d := d hl fun i hi => List.mem_range.1 hi
      rcases e : Clf.trainRows N toInt X y (List.range X.r) (m.begin toInt iter init X y cs) 0 with ⟨m', l, _ | _⟩ <;> rw [e] at a b d
      · exact ⟨.ok _ a.1 rfl, b.trans hcl⟩
      · cases d

/-- **C175** for SGDClassifier -/
theorem sgdClf_fit_forgets (N : Num α) (toInt : α → Int) (iter : List Int → List Int) (init : Nat → Nat → List (List α)) (pick : Nat → Nat → Nat)
    (a b : Clf α) (X y : Mat α) (hw : a.opts.warmStart = false) (ho : a.opts = b.opts) (he : a.eta0 = b.eta0) :
    a.fit N toInt iter init pick X y = b.fit N toInt iter init pick X y := by
  have hb : b.opts.warmStart = false := ho ▸ hw
  have e : a.fitBegin toInt iter init X y = b.fitBegin toInt iter init X y := by
    unfold Clf.fitBegin Clf.reset Clf.begin
    simp only [hw, hb, Bool.false_eq_true, false_and, if_false]
    rw [ho, he]
  unfold Clf.fit
  rw [e, ho]

theorem clf_unknown (N : Num α) (m : Clf α) (x : List α) (l : Int) (h : l ∉ m.classes) : m.updateWeights N x l = some (m, 0) := by
  unfold Clf.updateWeights
  rw [List.idxOf?_eq_none_iff.2 h]

theorem clf_rows_unknown (N : Num α) (toInt : α → Int) (X y : Mat α) (m : Clf α) (hl : Labelled X y)
    (hu : ∀ i < X.r, toInt (y.at' i 0) ∉ m.classes) (is : List Nat) (his : ∀ i ∈ is, i < X.r) (acc : α) :
    ∃ l, Clf.trainRows N toInt X y is m acc = (m, l, false) := by
  induction is generalizing acc with
  | nil => exact ⟨_, rfl⟩
  | cons i is ih =>
    have hi := his i (by simp)
    simp only [Clf.trainRows, labelAt_some hl hi, clf_unknown N m _ _ (hu i hi)]
    exact ih (fun j hj => his j (by simp [hj])) _

/-- **C177** for SGDClassifier: a batch whose labels are all unknown is accepted and teaches nothing (a loss is recorded) -/
theorem sgdClf_unknown_batch (N : Num α) (toInt : α → Int) (iter : List Int → List Int) (init : Nat → Nat → List (List α)) (m : Clf α) (X y : Mat α)
    (cs : Option (List Int)) (hc : m.coef.isSome) (hw : X.c = m.nFeatures) (hl : Labelled X y) (hu : ∀ i < X.r, toInt (y.at' i 0) ∉ m.classes) :
    ∃ l, m.partialFit N toInt iter init X y cs = ({ m with hist := m.hist ++ [l], fitted := true }, .ok ()) := by
  obtain ⟨W, hW⟩ := Option.isSome_iff_exists.1 hc
  obtain ⟨l, e⟩ := clf_rows_unknown N toInt X y m hl hu (List.range X.r) (fun i hi => List.mem_range.1 hi) 0
  unfold Clf.partialFit
  simp only [clf_begin_some toInt iter init m X y cs W hW]
  rw [if_neg (by simpa using hw), e]
  exact ⟨_, rfl⟩

end

end Scigo.Online
