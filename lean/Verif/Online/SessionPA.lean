import Verif.Online.SessionProps

/-!
# Histories of calls: PassiveAggressiveRegressor

Law-free throughout.
-/

set_option linter.unusedSectionVars false

namespace Scigo.Online

section
variable {α : Type} [Add α] [Sub α] [Mul α] [Div α] [Neg α] [Zero α] [One α] [LT α] [DecidableLT α] [LE α] [DecidableLE α] [BEq α]

/-! ## Loops over samples -/

/-- a training loop over explicit samples; a missing label or a failing update stops it -/
def trainG {σ : Type} (upd : σ → List α → α → Option σ) : List (List α × Option α) → σ → σ × Bool
  | [], m => (m, false)
  | s :: ss, m =>
    match s.2 with
    | none => (m, true)
    | some yi =>
      match upd m s.1 yi with
      | none => (m, true)
      | some m' => trainG upd ss m'

theorem trainG_append {σ : Type} (upd : σ → List α → α → Option σ) (a b : List (List α × Option α)) (m : σ) :
    trainG upd (a ++ b) m = cond (trainG upd a m).2 (trainG upd a m) (trainG upd b (trainG upd a m).1) := by
  induction a generalizing m with
  | nil => rfl
  | cons s ss ih =>
    rcases s with ⟨x, _ | yi⟩
    · rfl
    · simp only [List.cons_append, trainG]
      rcases upd m x yi with _ | m'
      · rfl
      · exact ih _

theorem trainG_sim {σ τ : Type} (R : σ → τ → Prop) (u : σ → List α → α → Option σ) (v : τ → List α → α → Option τ)
    (h : ∀ a b x y, R a b → (u a x y = none ∧ v b x y = none) ∨ ∃ a' b', u a x y = some a' ∧ v b x y = some b' ∧ R a' b')
    (ss : List (List α × Option α)) (a : σ) (b : τ) (hr : R a b) :
    R (trainG u ss a).1 (trainG v ss b).1 ∧ (trainG u ss a).2 = (trainG v ss b).2 := by
  induction ss generalizing a b with
  | nil => exact ⟨hr, rfl⟩
  | cons s ss ih =>
    simp only [trainG]
    rcases s.2 with _ | yi
    · exact ⟨hr, rfl⟩
    · rcases h a b s.1 yi hr with ⟨e1, e2⟩ | ⟨a', b', e1, e2, h'⟩
      · simp only [e1, e2]; exact ⟨hr, trivial⟩
      · simp only [e1, e2]; exact ih _ _ h'

/-- an invariant of the loop, and no failure on labelled rows of the right width -/
theorem trainG_inv {σ : Type} (I : σ → Prop) (width : Nat) (u : σ → List α → α → Option σ)
    (h : ∀ m x y, I m → x.length = width → ∃ m', u m x y = some m' ∧ I m') (ss : List (List α × Option α)) (m : σ) (hm : I m)
    (hw : ∀ s ∈ ss, s.1.length = width) : I (trainG u ss m).1 ∧ ((∀ s ∈ ss, s.2.isSome) → (trainG u ss m).2 = false) := by
  induction ss generalizing m with
  | nil => exact ⟨hm, fun _ => rfl⟩
  | cons s ss ih =>
    simp only [trainG]
    rcases e : s.2 with _ | yi
    · exact ⟨hm, fun h => by have := h s (by simp); simp [e] at this⟩
    · obtain ⟨m', e', h'⟩ := h m s.1 yi hm (hw s (by simp))
      simp only [e']
      obtain ⟨a, b⟩ := ih m' h' (fun t ht => hw t (by simp [ht]))
      exact ⟨a, fun hs => b fun t ht => hs t (by simp [ht])⟩

theorem sample_width (X y : Mat α) (is : List Nat) : ∀ s ∈ is.map (fun i => (X.row i, labelAt y i)), s.1.length = X.c := by
  intro s hs
  obtain ⟨i, -, rfl⟩ := List.mem_map.1 hs
  exact mat_row_length X i

theorem sample_labelled {X y : Mat α} (h : Labelled X y) (is : List Nat) (hi : ∀ i ∈ is, i < X.r) :
    ∀ s ∈ is.map (fun i => (X.row i, labelAt y i)), s.2.isSome := by
  intro s hs
  obtain ⟨i, hi', rfl⟩ := List.mem_map.1 hs
  simp [labelAt_some h (hi i hi')]

theorem pa_trainRows_eq (N : Num α) (X y : Mat α) (is : List Nat) (m : PA α) :
    PA.trainRows N X y is m = trainG (fun m x y => m.updateWeights N x y) (is.map (fun i => (X.row i, labelAt y i))) m := by
  induction is generalizing m with
  | nil => rfl
  | cons i is ih =>
    simp only [PA.trainRows, List.map_cons, trainG]
    rcases labelAt y i with _ | yi
    · rfl
    · simp only
      rcases m.updateWeights N (X.row i) yi with _ | m'
      · rfl
      · exact ih _

/-! ## States -/

/-- the states of a `PassiveAggressiveRegressor` -/
inductive PAState (N : Num α) : PA α → Prop
  | new (C : α) (loss : String) (eps : α) (fi ws : Bool) (maxIter : Nat) : PAState N ⟨C, loss, eps, fi, ws, maxIter, none, 0, 0, 0, 0, false⟩
  | fit {m : PA α} (h : PAState N m) (X y : Mat α) (hw : m.warmStart = false ∨ m.coef = none ∨ X.c = m.nFeatures) : PAState N (m.fit N X y).1
  | partialFit {m : PA α} (h : PAState N m) (X y : Mat α) : PAState N (m.partialFit N X y).1
  | setWarmStart {m : PA α} (h : PAState N m) (b : Bool) : PAState N { m with warmStart := b }

/-- there are weights, of the expected width `c` -/
def PA.Has (c : Nat) (m : PA α) : Prop := m.nFeatures = c ∧ ∃ w, m.coef = some w ∧ w.length = c

theorem addScaled_length (w x : List α) (t : α) : (addScaled w x t).length = w.length := by simp [addScaled]

theorem pa_update_has (N : Num α) (c : Nat) (m : PA α) (x : List α) (y : α) (h : m.Has c) (hx : x.length = c) :
    ∃ m', m.updateWeights N x y = some m' ∧ m'.Has c := by
  obtain ⟨h1, w, hw, hl⟩ := h
  unfold PA.updateWeights
  simp only [hw, Option.getD_some]
  rw [if_neg (by omega)]
  split
  · exact ⟨_, rfl, h1, w, rfl, hl⟩
  · exact ⟨_, rfl, h1, _, rfl, by rw [addScaled_length, hl]⟩

theorem pa_rows_has (N : Num α) (X y : Mat α) (m : PA α) (h : m.Has X.c) :
    (PA.trainRows N X y (List.range X.r) m).1.Has X.c ∧ (Labelled X y → (PA.trainRows N X y (List.range X.r) m).2 = false) := by
  rw [pa_trainRows_eq]
  obtain ⟨a, b⟩ := trainG_inv (PA.Has X.c) X.c _ (pa_update_has N X.c) _ m h (sample_width X y (List.range X.r))
  exact ⟨a, fun hl => b (sample_labelled hl _ fun i hi => List.mem_range.1 hi)⟩

theorem pa_epochs_has (N : Num α) (X y : Mat α) (n : Nat) (m : PA α) (h : m.Has X.c) :
    (PA.epochs N X y n m).1.Has X.c ∧ (Labelled X y → (PA.epochs N X y n m).2 = false) := by
  induction n generalizing m with
  | zero => exact ⟨h, fun _ => rfl⟩
  | succ n ih =>
    obtain ⟨a, b⟩ := pa_rows_has N X y m h
    simp only [PA.epochs]
    rcases e : PA.trainRows N X y (List.range X.r) m with ⟨m', _ | _⟩ <;> rw [e] at a b
    · exact ih _ a
    · exact ⟨a, b⟩

theorem pa_begin_some (m : PA α) (c : Nat) (w : List α) (h : m.coef = some w) : PA.begin c m = m := by
  unfold PA.begin; simp only [h]

theorem pa_begin_none (m : PA α) (c : Nat) (h : m.coef = none) : PA.begin c m = { m with nFeatures := c, coef := some (List.replicate c 0) } := by
  unfold PA.begin; simp only [h]

theorem pa_fitBegin_has (m : PA α) (c : Nat) (hm : m.coef = none ∨ m.Has m.nFeatures) (hw : m.warmStart = false ∨ m.coef = none ∨ c = m.nFeatures) :
    (m.fitBegin c).Has c := by
  unfold PA.fitBegin
  by_cases hc : m.warmStart = true ∧ m.coef.isSome = true
  · rw [if_pos hc]
    rcases hm with hm | ⟨-, w, hw', hl⟩
    · rw [hm] at hc; simp at hc
    · rw [pa_begin_some m c w hw']
      refine ⟨rfl, w, hw', ?_⟩
      rcases hw with hw | hw | hw
      · rw [hc.1] at hw; cases hw
      · rw [hw] at hw'; cases hw'
      · rw [hl, hw]
  · rw [if_neg hc]
    exact ⟨rfl, _, rfl, by simp⟩

theorem pa_state {N : Num α} {m : PA α} (h : PAState N m) : (m.coef = none ∧ m.fitted = false) ∨ m.Has m.nFeatures := by
  induction h with
  | new => exact .inl ⟨rfl, rfl⟩
  | @fit m h X y hw ih =>
    right
    obtain ⟨a, -⟩ := pa_epochs_has N X y m.maxIter _ (pa_fitBegin_has m X.c (ih.imp_left And.left) hw)
    unfold PA.fit
    rcases e : PA.epochs N X y m.maxIter (m.fitBegin X.c) with ⟨m', _ | _⟩ <;> rw [e] at a
    · exact ⟨rfl, a.2.imp fun w hw => ⟨hw.1, hw.2.trans a.1.symm⟩⟩
    · exact ⟨rfl, a.2.imp fun w hw => ⟨hw.1, hw.2.trans a.1.symm⟩⟩
  | @partialFit m h X y ih =>
    right
    have hb : (m.begin X.c).Has (m.begin X.c).nFeatures := by
      rcases ih with ih | ih
      · rw [pa_begin_none m X.c ih.1]; exact ⟨rfl, _, rfl, by simp⟩
      · obtain ⟨h1, w, hw, hl⟩ := ih
        rw [pa_begin_some m X.c w hw]; exact ⟨rfl, w, hw, hl⟩
    unfold PA.partialFit
    simp only
    by_cases hc : X.c ≠ (m.begin X.c).nFeatures
    · rw [if_pos hc]; exact hb
    · rw [if_neg hc]
      rw [← not_not.1 hc] at hb
      obtain ⟨a, -⟩ := pa_rows_has N X y _ hb
      rcases e : PA.trainRows N X y (List.range X.r) (m.begin X.c) with ⟨m', _ | _⟩ <;> rw [e] at a
      · exact ⟨rfl, a.2.imp fun w hw => ⟨hw.1, hw.2.trans a.1.symm⟩⟩
      · exact ⟨rfl, a.2.imp fun w hw => ⟨hw.1, hw.2.trans a.1.symm⟩⟩
  | setWarmStart h b ih => exact ih

/-- **C173** for PassiveAggressiveRegressor -/
theorem pa_answers_partial {N : Num α} {m : PA α} (h : PAState N m) (X : Mat α) : Answers m.fitted m.nFeatures X (m.predict X) := by
  refine checked_answers _ _ _ _ fun hf hc hr => ?_
  rcases pa_state h with h | ⟨-, w, hw, hl⟩
  · rw [h.2] at hf; cases hf
  · rw [hw, Option.getD_some, if_neg (by omega)]
    exact ⟨_, rfl, rfl, rfl⟩

/-- **C174** for PassiveAggressiveRegressor -/
theorem pa_trains_partial {N : Num α} {m : PA α} (h : PAState N m) (X y : Mat α) (hl : Labelled X y) :
    (m.warmStart = false ∨ m.coef = none ∨ X.c = m.nFeatures →
      ∃ m', m.fit N X y = (m', .ok ()) ∧ m'.nFeatures = X.c ∧ m'.fitted = true) ∧
    Trains PA.nFeatures PA.fitted m X.c (m.partialFit N X y) := by
  have hs := pa_state h
  constructor
  · intro hw
    obtain ⟨a, b⟩ := pa_epochs_has N X y m.maxIter _ (pa_fitBegin_has m X.c (hs.imp_left And.left) hw)
    have b := b hl
    unfold PA.fit
    rcases e : PA.epochs N X y m.maxIter (m.fitBegin X.c) with ⟨m', _ | _⟩ <;> rw [e] at a b
    · exact ⟨_, rfl, a.1, rfl⟩
    · cases b
  · unfold PA.partialFit
    simp only
    by_cases hc : X.c ≠ (m.begin X.c).nFeatures
    · rw [if_pos hc]
      rcases hs with hs | ⟨-, w, hw, -⟩
      · rw [pa_begin_none m X.c hs.1] at hc; exact absurd rfl hc
      · rw [pa_begin_some m X.c w hw] at hc ⊢; exact .refused hc
    · rw [if_neg hc]
      have hb : (m.begin X.c).Has X.c := by
        rcases hs with hs | ⟨h1, w, hw, hl⟩
        · rw [pa_begin_none m X.c hs.1]; exact ⟨rfl, _, rfl, by simp⟩
        · rw [pa_begin_some m X.c w hw] at hc ⊢
          exact ⟨(not_not.1 hc).symm, w, hw, hl.trans (not_not.1 hc).symm⟩
      obtain ⟨a, b⟩ := pa_rows_has N X y _ hb
      have b := b hl
      rcases e : PA.trainRows N X y (List.range X.r) (m.begin X.c) with ⟨m', _ | _⟩ <;> rw [e] at a b
      · exact .ok _ a.1 rfl
      · cases b

/-- **C175** for PassiveAggressiveRegressor: `Fit` without warm start gives the same model and result whatever happened before -/
theorem pa_fit_forgets (N : Num α) (a b : PA α) (X y : Mat α) (hw : a.warmStart = false)
    (ho : (a.C, a.loss, a.epsilon, a.fitIntercept, a.warmStart, a.maxIter) = (b.C, b.loss, b.epsilon, b.fitIntercept, b.warmStart, b.maxIter)) :
    a.fit N X y = b.fit N X y := by
  simp only [Prod.mk.injEq] at ho
  obtain ⟨h1, h2, h3, h4, h5, h6⟩ := ho
  have hb : b.warmStart = false := h5 ▸ hw
  have e : a.fitBegin X.c = b.fitBegin X.c := by
    unfold PA.fitBegin PA.reset PA.begin
    simp only [hw, hb, Bool.false_eq_true, false_and, if_false, h1, h2, h3, h4, h6]
  unfold PA.fit
  rw [e, h6]

/-- **C176** for PassiveAggressiveRegressor: two batches in a row train the very same model as one call on the stacked batch -/
theorem pa_partialFit_split (N : Num α) (m m1 m2 : PA α) (A B ya yb : Mat α) (hc : A.c = B.c) (hy : ya.r = A.r) (hyc : ya.c = yb.c)
    (h1 : m.partialFit N A ya = (m1, .ok ())) (h2 : m1.partialFit N B yb = (m2, .ok ())) :
    m.partialFit N (vstack A B) (vstack ya yb) = (m2, .ok ()) := by
  have hs := samplesOf_vstack A B ya yb hc hy hyc
  unfold samplesOf at hs
  have hsim : ∀ (a b : PA α) x y, ({ a with fitted := true } : PA α) = { b with fitted := true } →
      (a.updateWeights N x y = none ∧ b.updateWeights N x y = none) ∨
      ∃ a' b', a.updateWeights N x y = some a' ∧ b.updateWeights N x y = some b' ∧ ({ a' with fitted := true } : PA α) = { b' with fitted := true } := by
    intro a b x y hab
    cases a; cases b
    simp only [PA.mk.injEq, and_true] at hab
    obtain ⟨rfl, rfl, rfl, rfl, rfl, rfl, rfl, rfl, rfl, rfl, rfl⟩ := hab
    unfold PA.updateWeights
    simp only
    split
    · exact .inl ⟨rfl, rfl⟩
    · split
      · exact .inr ⟨_, _, rfl, rfl, rfl⟩
      · exact .inr ⟨_, _, rfl, rfl, rfl⟩
  have hinv : ∀ (a : PA α) x y a', a.updateWeights N x y = some a' → a.coef.isSome → a'.coef.isSome ∧ a'.nFeatures = a.nFeatures := by
    intro a x y a' h hs
    unfold PA.updateWeights at h
    simp only at h
    split at h
    · cases h
    · split at h <;> cases h
      · exact ⟨hs, rfl⟩
      · exact ⟨rfl, rfl⟩
  have hloop : ∀ (ss : List (List α × Option α)) (a : PA α), a.coef.isSome →
      (trainG (fun m x y => m.updateWeights N x y) ss a).1.coef.isSome ∧ (trainG (fun m x y => m.updateWeights N x y) ss a).1.nFeatures = a.nFeatures := by
    intro ss
    induction ss with
    | nil => exact fun a h => ⟨h, rfl⟩
    | cons s ss ih =>
      intro a h
      simp only [trainG]
      rcases s.2 with _ | yi
      · exact ⟨h, rfl⟩
      · rcases e : a.updateWeights N s.1 yi with _ | a'
        · simp only [e]; exact ⟨h, trivial⟩
        · simp only [e]
          obtain ⟨i1, i2⟩ := hinv a _ _ a' e h
          exact ⟨(ih a' i1).1, (ih a' i1).2.trans i2⟩
  unfold PA.partialFit at h1 h2 ⊢
  have hv : (vstack A B).c = A.c := rfl
  simp only [pa_trainRows_eq, hs, hv] at h1 h2 ⊢
  by_cases hcol : A.c ≠ (m.begin A.c).nFeatures
  · rw [if_pos hcol] at h1; cases h1
  · rw [if_neg hcol] at h1 ⊢
    have hbs : (m.begin A.c).coef.isSome := by
      rcases e : m.coef with _ | w
      · rw [pa_begin_none m A.c e]; rfl
      · rw [pa_begin_some m A.c w e, e]; rfl
    rw [trainG_append]
    rcases hr : trainG (fun m x y => PA.updateWeights N m x y) ((List.range A.r).map (fun i => (A.row i, labelAt ya i))) (m.begin A.c) with ⟨r1, _ | _⟩
    · have hl := hloop ((List.range A.r).map (fun i => (A.row i, labelAt ya i))) _ hbs
      rw [hr] at h1 hl
      simp only [cond_false]
      have e1 := (Prod.mk.inj h1).1
      obtain ⟨w, hw⟩ := Option.isSome_iff_exists.1 hl.1
      rw [pa_begin_some m1 B.c w (by rw [← e1]; exact hw)] at h2
      by_cases hcol2 : B.c ≠ m1.nFeatures
      · rw [if_pos hcol2] at h2; cases h2
      · rw [if_neg hcol2] at h2
        obtain ⟨k1, k2⟩ := trainG_sim (fun a b : PA α => ({ a with fitted := true } : PA α) = { b with fitted := true }) _ _ hsim
          ((List.range B.r).map (fun i => (B.row i, labelAt yb i))) m1 r1 (by rw [← e1])
        rcases e2 : trainG (fun m x y => PA.updateWeights N m x y) ((List.range B.r).map (fun i => (B.row i, labelAt yb i))) m1 with ⟨s1, f1⟩
        rcases e3 : trainG (fun m x y => PA.updateWeights N m x y) ((List.range B.r).map (fun i => (B.row i, labelAt yb i))) r1 with ⟨s2, f2⟩
        rw [e2, e3] at k1 k2
        rw [e2] at h2
        simp only at k1 k2
        subst k2
        cases f1
        · simp only at h2 ⊢
          rw [← k1]
          exact h2
        · cases h2
    · rw [hr] at h1; cases h1

end

end Scigo.Online
