import Verif.Online.SessionClf

/-!
# Histories of calls: splitting batches for the classifiers, the predicted label, and what fails

Law-free, except `paClf_predict_greatest` (a linear order) and the concrete witnesses (rational numbers).
-/

set_option linter.unusedSectionVars false

namespace Scigo.Online

section
variable {α : Type} [Add α] [Sub α] [Mul α] [Div α] [Neg α] [Zero α] [One α] [LT α] [DecidableLT α] [LE α] [DecidableLE α] [BEq α]

/-- a loop that keeps a relation -/
theorem trainG_keep {σ : Type} (R : σ → σ → Prop) (hr : ∀ a, R a a) (ht : ∀ a b c, R a b → R b c → R a c) (u : σ → List α → α → Option σ)
    (h : ∀ a x y a', u a x y = some a' → R a a') (ss : List (List α × Option α)) (a : σ) : R a (trainG u ss a).1 := by
  induction ss generalizing a with
  | nil => exact hr a
  | cons s ss ih =>
    simp only [trainG]
    rcases s.2 with _ | yi
    · exact hr a
    · rcases e : u a s.1 yi with _ | a'
      · simp only [e]; exact hr a
      · simp only [e]; exact ht _ _ _ (h _ _ _ _ e) (ih a')

/-- **C176** for PassiveAggressiveClassifier: two batches in a row train the very same model as one call on the stacked batch, provided the classes
are known: the model has been trained before, or the classes are given. What is missing: see `paClf_split_false`. -/
theorem paClf_partialFit_split_partial (N : Num α) (toInt : α → Int) (iter : List Int → List Int) (m m1 m2 : PAClf α) (A B ya yb : Mat α)
    (cs cs' : Option (List Int)) (hk : m.coef.isSome ∨ cs.isSome) (hc : A.c = B.c) (hy : ya.r = A.r) (hyc : ya.c = yb.c)
    (h1 : m.partialFit N toInt iter A ya cs = (m1, .ok ())) (h2 : m1.partialFit N toInt iter B yb cs' = (m2, .ok ())) :
    m.partialFit N toInt iter (vstack A B) (vstack ya yb) cs = (m2, .ok ()) := by
  have hs := samplesOf_vstack A B ya yb hc hy hyc
  unfold samplesOf at hs
  have hsim : ∀ (a b : PAClf α) x y, ({ a with fitted := true } : PAClf α) = { b with fitted := true } →
      (a.updateWeights N x (toInt y) = none ∧ b.updateWeights N x (toInt y) = none) ∨
      ∃ a' b', a.updateWeights N x (toInt y) = some a' ∧ b.updateWeights N x (toInt y) = some b' ∧
        ({ a' with fitted := true } : PAClf α) = { b' with fitted := true } := by
    intro a b x y hab
    cases a; cases b
    simp only [PAClf.mk.injEq, and_true] at hab
    obtain ⟨rfl, rfl, rfl, rfl, rfl, rfl, rfl, rfl, rfl, rfl, rfl⟩ := hab
    unfold PAClf.updateWeights
    simp only
    split
    · exact .inr ⟨_, _, rfl, rfl, rfl⟩
    · split
      · exact .inl ⟨rfl, rfl⟩
      · exact .inr ⟨_, _, rfl, rfl, rfl⟩
  have hkeep := trainG_keep (fun a b : PAClf α => a.coef.isSome → b.coef.isSome ∧ b.nFeatures = a.nFeatures) (fun a h => ⟨h, rfl⟩)
    (fun a b c h1 h2 h => ⟨(h2 (h1 h).1).1, (h2 (h1 h).1).2.trans (h1 h).2⟩) (fun m x y => PAClf.updateWeights N m x (toInt y))
    (fun a x y a' h hs => by
      unfold PAClf.updateWeights at h
      simp only at h
      split at h
      · cases h; exact ⟨hs, rfl⟩
      · split at h <;> cases h
        exact ⟨rfl, rfl⟩)
  have hbeg : m.begin toInt iter (vstack A B) (vstack ya yb) cs = m.begin toInt iter A ya cs := by
    rcases e : m.coef with _ | W
    · rw [paClf_begin_none _ _ _ _ _ _ e, paClf_begin_none _ _ _ _ _ _ e]
      rcases hk with hk | hk
      · rw [e] at hk; cases hk
      · obtain ⟨l, rfl⟩ := Option.isSome_iff_exists.1 hk
        rfl
    · rw [paClf_begin_some _ _ _ _ _ _ W e, paClf_begin_some _ _ _ _ _ _ W e]
  unfold PAClf.partialFit at h1 h2 ⊢
  have hv : (vstack A B).c = A.c := rfl
  simp only [paClf_trainRows_eq, hs, hv, hbeg] at h1 h2 ⊢
  by_cases hcol : A.c ≠ (m.begin toInt iter A ya cs).nFeatures
  · rw [if_pos hcol] at h1; cases h1
  · rw [if_neg hcol] at h1 ⊢
    have hbs : (m.begin toInt iter A ya cs).coef.isSome := by
      rcases e : m.coef with _ | w
      · rw [paClf_begin_none _ _ _ _ _ _ e]; rfl
      · rw [paClf_begin_some _ _ _ _ _ _ w e, e]; rfl
    rw [trainG_append]
    rcases hr : trainG (fun m x y => PAClf.updateWeights N m x (toInt y)) ((List.range A.r).map (fun i => (A.row i, labelAt ya i)))
      (m.begin toInt iter A ya cs) with ⟨r1, _ | _⟩
    · have hl := hkeep ((List.range A.r).map (fun i => (A.row i, labelAt ya i))) _ hbs
      rw [hr] at h1 hl
      simp only [cond_false]
      have e1 := (Prod.mk.inj h1).1
      obtain ⟨w, hw⟩ := Option.isSome_iff_exists.1 hl.1
      rw [paClf_begin_some _ _ m1 B _ _ w (by rw [← e1]; exact hw)] at h2
      by_cases hcol2 : B.c ≠ m1.nFeatures
      · rw [if_pos hcol2] at h2; cases h2
      · rw [if_neg hcol2] at h2
        obtain ⟨k1, k2⟩ := trainG_sim (fun a b : PAClf α => ({ a with fitted := true } : PAClf α) = { b with fitted := true }) _ _ hsim
          ((List.range B.r).map (fun i => (B.row i, labelAt yb i))) m1 r1 (by rw [← e1])
        rcases e2 : trainG (fun m x y => PAClf.updateWeights N m x (toInt y)) ((List.range B.r).map (fun i => (B.row i, labelAt yb i))) m1 with ⟨s1, f1⟩
        rcases e3 : trainG (fun m x y => PAClf.updateWeights N m x (toInt y)) ((List.range B.r).map (fun i => (B.row i, labelAt yb i))) r1 with ⟨s2, f2⟩
        rw [e2, e3] at k1 k2
        rw [e2] at h2
        simp only at k1 k2
        subst k2
        cases f1
        · simp only at h2 ⊢
          rw [← k1]
          exact h2
        · cases h2
    · rw [hr] at h1; cases h1

/-- everything of an `SGDClassifier` but the record of losses -/
def SameClf (a b : Clf α) : Prop :=
  a.opts = b.opts ∧ a.eta0 = b.eta0 ∧ a.coef = b.coef ∧ a.intercept = b.intercept ∧ a.classes = b.classes ∧ a.nFeatures = b.nFeatures ∧
  a.nIter = b.nIter ∧ a.t = b.t ∧ a.converged = b.converged

theorem clf_update_same (N : Num α) (a b : Clf α) (h : SameClf a b) (hs : a.opts.schedule ≠ "adaptive") (x : List α) (l : Int) :
    (a.updateWeights N x l = none ∧ b.updateWeights N x l = none) ∨
    ∃ a' b' v, a.updateWeights N x l = some (a', v) ∧ b.updateWeights N x l = some (b', v) ∧ SameClf a' b' ∧ a'.opts = a.opts := by
  obtain ⟨o, e, cf, ic, cl, nf, ni, t, hi, cv, ft⟩ := a
  obtain ⟨o', e', cf', ic', cl', nf', ni', t', hi', cv', ft'⟩ := b
  obtain ⟨h1, h2, h3, h4, h5, h6, h7, h8, h9⟩ := h
  simp only at h1 h2 h3 h4 h5 h6 h7 h8 h9 hs
  subst h1 h2 h3 h4 h5 h6 h7 h8 h9
  have hlr : learningRate N o e t hi = learningRate N o e t hi' := by
    unfold learningRate
    rw [if_neg hs, if_neg hs]
  unfold Clf.updateWeights
  simp only [hlr]
  rcases cl.idxOf? l with _ | k
  · exact .inr ⟨_, _, _, rfl, rfl, ⟨rfl, rfl, rfl, rfl, rfl, rfl, rfl, rfl, rfl⟩, rfl⟩
  · by_cases hw : (cf.getD []).any (fun w => decide (w.length < x.length)) = true
    · left; simp only [if_pos hw]; exact ⟨trivial, trivial⟩
    · right; simp only [if_neg hw]
      exact ⟨_, _, _, rfl, rfl, ⟨rfl, rfl, rfl, rfl, rfl, rfl, rfl, rfl, rfl⟩, rfl⟩

/-- **C176** for SGDClassifier: the same model as one call on the stacked batch, for every schedule but `adaptive`, provided the classes are known -/
theorem sgdClf_partialFit_split_partial (N : Num α) (toInt : α → Int) (iter : List Int → List Int) (init : Nat → Nat → List (List α))
    (m m1 m2 : Clf α) (A B ya yb : Mat α) (cs cs' : Option (List Int)) (hk : m.coef.isSome ∨ cs.isSome) (hsch : m.opts.schedule ≠ "adaptive")
    (hc : A.c = B.c) (hy : ya.r = A.r) (hyc : ya.c = yb.c)
    (h1 : m.partialFit N toInt iter init A ya cs = (m1, .ok ())) (h2 : m1.partialFit N toInt iter init B yb cs' = (m2, .ok ())) :
    ∃ m3, m.partialFit N toInt iter init (vstack A B) (vstack ya yb) cs = (m3, .ok ()) ∧ SameClf m2 m3 ∧ m3.fitted = m2.fitted := by
  have hs := samplesOf_vstack A B ya yb hc hy hyc
  unfold samplesOf at hs
  have hkeep := trainG_keep (fun a b : Clf α × α => (a.1.coef.isSome → b.1.coef.isSome ∧ b.1.nFeatures = a.1.nFeatures) ∧ b.1.opts = a.1.opts)
    (fun a => ⟨fun h => ⟨h, rfl⟩, rfl⟩)
    (fun a b c h1 h2 => ⟨fun h => ⟨(h2.1 (h1.1 h).1).1, (h2.1 (h1.1 h).1).2.trans (h1.1 h).2⟩, h2.2.trans h1.2⟩) (clfUpd N toInt)
    (fun a x y a' h => by
      unfold clfUpd Clf.updateWeights at h
      simp only at h
      split at h
      · cases h; exact ⟨fun h => ⟨h, rfl⟩, rfl⟩
      · split at h <;> cases h
        exact ⟨fun _ => ⟨rfl, rfl⟩, rfl⟩)
  have hbeg : m.begin toInt iter init (vstack A B) (vstack ya yb) cs = m.begin toInt iter init A ya cs := by
    rcases e : m.coef with _ | W
    · rw [clf_begin_none _ _ _ _ _ _ _ e, clf_begin_none _ _ _ _ _ _ _ e]
      rcases hk with hk | hk
      · rw [e] at hk; cases hk
      · obtain ⟨l, rfl⟩ := Option.isSome_iff_exists.1 hk
        rfl
    · rw [clf_begin_some _ _ _ _ _ _ _ W e, clf_begin_some _ _ _ _ _ _ _ W e]
  have hbo : (m.begin toInt iter init A ya cs).opts = m.opts := by
    unfold Clf.begin; cases m.coef <;> rfl
  unfold Clf.partialFit at h1 h2 ⊢
  have hv : (vstack A B).c = A.c := rfl
  simp only [clf_trainRows_eq, hs, hv, hbeg] at h1 h2 ⊢
  by_cases hcol : A.c ≠ (m.begin toInt iter init A ya cs).nFeatures
  · rw [if_pos hcol] at h1; cases h1
  · rw [if_neg hcol] at h1 ⊢
    have hbs : (m.begin toInt iter init A ya cs).coef.isSome := by
      rcases e : m.coef with _ | w
      · rw [clf_begin_none _ _ _ _ _ _ _ e]; rfl
      · rw [clf_begin_some _ _ _ _ _ _ _ w e, e]; rfl
    rw [trainG_append]
    rcases hr : trainG (clfUpd N toInt) ((List.range A.r).map (fun i => (A.row i, labelAt ya i)))
      (m.begin toInt iter init A ya cs, 0) with ⟨⟨r1, l1⟩, _ | _⟩
    · have hl := hkeep ((List.range A.r).map (fun i => (A.row i, labelAt ya i))) (m.begin toInt iter init A ya cs, 0)
      rw [hr] at h1 hl
      simp only [cond_false]
      have e1 := (Prod.mk.inj h1).1
      obtain ⟨w, hw⟩ := Option.isSome_iff_exists.1 (hl.1 hbs).1
      rw [clf_begin_some _ _ _ m1 B _ _ w (by rw [← e1]; exact hw)] at h2
      have ho : m1.opts.schedule ≠ "adaptive" := by
        rw [← e1]
        have := hl.2
        simp only at this
        rw [this, hbo]
        exact hsch
      by_cases hcol2 : B.c ≠ m1.nFeatures
      · rw [if_pos hcol2] at h2; cases h2
      · rw [if_neg hcol2] at h2
        obtain ⟨k1, k2⟩ := trainG_sim (fun a b : Clf α × α => SameClf a.1 b.1 ∧ a.1.opts.schedule ≠ "adaptive") (clfUpd N toInt) (clfUpd N toInt)
          (fun a b x y hab => by
            rcases clf_update_same N a.1 b.1 hab.1 hab.2 x (toInt y) with ⟨e1, e2⟩ | ⟨a', b', v, e1, e2, h3, h4⟩
            · left; simp only [clfUpd, e1, e2]; exact ⟨rfl, rfl⟩
            · right; simp only [clfUpd, e1, e2]; exact ⟨_, _, rfl, rfl, h3, by rw [h4]; exact hab.2⟩)
          ((List.range B.r).map (fun i => (B.row i, labelAt yb i))) (m1, 0) (r1, l1)
          ⟨by rw [← e1]; exact ⟨rfl, rfl, rfl, rfl, rfl, rfl, rfl, rfl, rfl⟩, ho⟩
        rcases e2 : trainG (clfUpd N toInt) ((List.range B.r).map (fun i => (B.row i, labelAt yb i))) (m1, 0) with ⟨⟨s1, q1⟩, f1⟩
        rcases e3 : trainG (clfUpd N toInt) ((List.range B.r).map (fun i => (B.row i, labelAt yb i))) (r1, l1) with ⟨⟨s2, q2⟩, f2⟩
        rw [e2, e3] at k1 k2
        rw [e2] at h2
        simp only at k1 k2
        subst k2
        cases f1
        · have e4 := (Prod.mk.inj h2).1
          refine ⟨_, rfl, ?_, ?_⟩
          · rw [← e4]; exact k1.1
          · rw [← e4]
        · cases h2
    · rw [hr] at h1; cases h1

end

/-! ## C178: the predicted label -/

section
variable {α : Type} [LinearOrder α]

theorem argmax_first (l : List (α × Int)) (b : α × Int) :
    let r := l.foldl (fun best p => if best.1 < p.1 then p else best) b
    (∀ p ∈ l, p.1 ≤ r.1) ∧ b.1 ≤ r.1 ∧
    ((r = b ∧ ∀ p ∈ l, p.1 ≤ b.1) ∨ ∃ c : Nat, l[c]? = some r ∧ b.1 < r.1 ∧ ∀ c' < c, ∀ p : α × Int, l[c']? = some p → p.1 < r.1) := by
  induction l generalizing b with
  | nil => exact ⟨by simp, le_rfl, .inl ⟨rfl, by simp⟩⟩
  | cons a l ih =>
    simp only [List.foldl_cons]
    by_cases h : b.1 < a.1
    · simp only [if_pos h]
      obtain ⟨i1, i2, i3⟩ := ih a
      refine ⟨fun p hp => ?_, h.le.trans i2, .inr ?_⟩
      · rcases List.mem_cons.1 hp with rfl | hp
        · exact i2
        · exact i1 p hp
      · rcases i3 with ⟨e, -⟩ | ⟨c, e, hlt, hc⟩
        · exact ⟨0, by rw [e]; rfl, by rw [e]; exact h, fun c' hc' => absurd hc' (by omega)⟩
        · refine ⟨c + 1, e, h.trans hlt, fun c' hc' p hp => ?_⟩
          cases c' with
          | zero => cases hp; exact hlt
          | succ c' => exact hc c' (by omega) p hp
    · simp only [if_neg h]
      obtain ⟨i1, i2, i3⟩ := ih b
      refine ⟨fun p hp => ?_, i2, ?_⟩
      · rcases List.mem_cons.1 hp with rfl | hp
        · exact (not_lt.1 h).trans i2
        · exact i1 p hp
      · rcases i3 with ⟨e, hb⟩ | ⟨c, e, hlt, hc⟩
        · refine .inl ⟨e, fun p hp => ?_⟩
          rcases List.mem_cons.1 hp with rfl | hp
          · exact not_lt.1 h
          · exact hb p hp
        · refine .inr ⟨c + 1, e, hlt, fun c' hc' p hp => ?_⟩
          cases c' with
          | zero => cases hp; exact lt_of_le_of_lt (not_lt.1 h) hlt
          | succ c' => exact hc c' (by omega) p hp

/-- the first class among those of greatest score -/
theorem argmaxClass_first (ninf : α) (classes : List Int) (scores : List α) (hl : scores.length = classes.length) (hne : classes ≠ [])
    (hi : ∀ s ∈ scores, ninf < s) :
    ∃ c s, scores[c]? = some s ∧ classes[c]? = some (argmaxClass ninf classes scores) ∧
      ∀ (c' : Nat) s', scores[c']? = some s' → s' ≤ s ∧ (c' < c → s' < s) := by
  obtain ⟨h1, -, h3⟩ := argmax_first (List.zip scores classes) (ninf, classes.headD 0)
  unfold argmaxClass
  set r := (List.zip scores classes).foldl (fun best p => if best.1 < p.1 then p else best) (ninf, classes.headD 0)
  have hpair : ∀ (c' : Nat) s', scores[c']? = some s' → ∃ k, (List.zip scores classes)[c']? = some (s', k) := by
    intro c' s' h
    have hlt : c' < scores.length := (List.getElem?_eq_some_iff.1 h).1
    exact ⟨classes[c'], List.getElem?_zip_eq_some.2 ⟨h, List.getElem?_eq_getElem (by omega)⟩⟩
  rcases h3 with ⟨e, hle⟩ | ⟨c, e, hlt, hc⟩
  · obtain ⟨s, ss, rfl⟩ : ∃ s ss, scores = s :: ss := by
      cases scores with
      | nil => exact absurd (List.length_eq_zero_iff.1 hl.symm) hne
      | cons s ss => exact ⟨s, ss, rfl⟩
    obtain ⟨k, hk⟩ := hpair 0 s rfl
    exact absurd (hi s (by simp)) (not_lt.2 (hle _ (List.mem_of_getElem? hk)))
  · obtain ⟨e1, e2⟩ := List.getElem?_zip_eq_some.1 e
    refine ⟨c, r.1, e1, e2, fun c' s' h => ?_⟩
    obtain ⟨k, hk⟩ := hpair c' s' h
    exact ⟨h1 _ (List.mem_of_getElem? hk), fun hlt => hc c' hlt _ hk⟩

end

section
variable {α : Type} [Add α] [Sub α] [Mul α] [Div α] [Neg α] [Zero α] [One α] [BEq α] [LinearOrder α]

/-- **C178** `PassiveAggressiveClassifier.Predict` returns, for every row, a class of the model: the first one whose score (the dot product of the
row with the weights of the class, added to its intercept) is greatest. Needs scores above the start value of the scan, which is minus infinity. -/
theorem paClf_predict_greatest (ofInt : Int → α) (ninf : α) (m : PAClf α) (X P : Mat α) (h : m.predict ofInt ninf X = .ok P) (i : Nat)
    (hfin : ∀ c < m.classes.length, ninf < predRow ((m.coef.getD []).getD c []) (m.intercept.getD c 0) X i) :
    ∃ (c : Nat) (k : Int), m.classes[c]? = some k ∧ P.at' i 0 = ofInt k ∧
      ∀ c' < m.classes.length,
        predRow ((m.coef.getD []).getD c' []) (m.intercept.getD c' 0) X i ≤ predRow ((m.coef.getD []).getD c []) (m.intercept.getD c 0) X i ∧
        (c' < c → predRow ((m.coef.getD []).getD c' []) (m.intercept.getD c' 0) X i < predRow ((m.coef.getD []).getD c []) (m.intercept.getD c 0) X i) := by
  unfold PAClf.predict checked at h
  have hP : m.classes ≠ [] ∧ P = ⟨X.r, 1, fun i _ => ofInt (argmaxClass ninf m.classes (m.scores X i))⟩ := by
    by_cases h1 : (!m.fitted) = true
    · rw [if_pos h1] at h; cases h
    rw [if_neg h1] at h
    by_cases h2 : X.c ≠ m.nFeatures
    · rw [if_pos h2] at h; cases h
    rw [if_neg h2] at h
    by_cases h3 : X.r = 0
    · rw [if_pos h3] at h; cases h
    rw [if_neg h3] at h
    by_cases h4 : m.classes = []
    · rw [if_pos h4] at h; cases h
    rw [if_neg h4] at h
    by_cases h5 : (m.coef.getD []).any (fun w => decide (w.length < X.c)) = true
    · rw [if_pos h5] at h; cases h
    rw [if_neg h5] at h
    exact ⟨h4, (Outcome.ok.inj h).symm⟩
  obtain ⟨hne, rfl⟩ := hP
  have hsc : ∀ c < m.classes.length, (m.scores X i)[c]? = some (predRow ((m.coef.getD []).getD c []) (m.intercept.getD c 0) X i) := by
    intro c hc
    simp [PAClf.scores, List.getElem?_map, List.getElem?_range hc]
  obtain ⟨c, s, e1, e2, e3⟩ := argmaxClass_first ninf m.classes (m.scores X i) (by simp [PAClf.scores]) hne (by
    intro s hs
    obtain ⟨c, hc, rfl⟩ := List.mem_map.1 hs
    exact hfin c (List.mem_range.1 hc))
  have hc : c < m.classes.length := (List.getElem?_eq_some_iff.1 e2).1
  rw [hsc c hc] at e1
  cases e1
  exact ⟨c, _, e2, rfl, fun c' hc' => e3 c' _ (hsc c' hc')⟩

end

/-! ## Witnesses -/

/-- rational arithmetic; the transcendental functions are not used by the witnesses -/
def qNum : Num ℚ where
  sqrt := id
  abs := fun x => |x|
  pow := fun x _ => x
  exp := id
  log := id
  unstable := fun _ => false
  ofNat := fun n => n
  half := 1 / 2
  tenth := 1 / 10
  ten := 10
  two := 2
  four := 4

/-- labels of the witnesses -/
def qInt (x : ℚ) : Int := x.floor

/-- a map ranged over in order of first occurrence -/
def keysInOrder (l : List Int) : List Int := l.dedup

theorem keysInOrder_keys : MapKeys keysInOrder := fun l => ⟨l.nodup_dedup, fun _ => List.mem_dedup⟩

/-- a fresh regressor with warm start -/
def qPA : PA ℚ := ⟨1, "epsilon_insensitive", 1 / 10, true, true, 2, none, 0, 0, 0, 0, false⟩

/-- a fresh classifier -/
def qPC : PAClf ℚ := ⟨1, "hinge", true, false, 2, none, [], [], 0, 0, 0, false⟩

/-- one feature, two samples -/
def qX1 : Mat ℚ := Mat.ofRows [[1], [2]] 1 0
/-- two features, two samples -/
def qX2 : Mat ℚ := Mat.ofRows [[1, 2], [3, 4]] 2 0
/-- their labels -/
def qy : Mat ℚ := Mat.ofRows [[0], [1]] 1 0

/-- the hypotheses of the session theorems are met by a model with history -/
example : PAState qNum (qPA.fit qNum qX1 qy).1 := .fit (.new 1 _ _ true true 2) qX1 qy (.inr (.inl rfl))

example (o : Opts ℚ) (ho : o.warmStart = false) : RegState qNum
    (Reg.partialFit qNum (fun c => List.replicate c 0) (Reg.fit qNum (fun c => List.replicate c 0) (fun _ _ => 0) ⟨o, 1, none, 0, 0, 0, 0, [], false, false⟩ qX1 qy).1
      qX2 qy).1 :=
  .partialFit (.fit (.new o 1) _ (fun c => by simp) _ qX1 qy (.inl ho)) _ (fun c => by simp) qX2 qy

example (o : Opts ℚ) (ho : o.warmStart = false) : ClfState qNum qInt keysInOrder
    (Clf.fit qNum qInt keysInOrder (fun k c => List.replicate k (List.replicate c 0)) (fun _ _ => 0) ⟨o, 1, none, [], [], 0, 0, 0, [], false, false⟩ qX1 qy).1 :=
  .fit (.new o 1) _ (fun k c => ⟨by simp, fun w hw => by rw [List.eq_of_mem_replicate hw]; simp⟩) _ qX1 qy Nat.two_pos (.inl ho)

example : PAClfState qNum qInt keysInOrder (PAClf.partialFit qNum qInt keysInOrder (PAClf.fit qNum qInt keysInOrder qPC qX1 qy).1 qX2 qy (some [3])).1 :=
  .partialFit (.fit (.new 1 _ true false 2) qX1 qy Nat.two_pos (.inl rfl)) qX2 qy Nat.two_pos _ (by simp)

example : Labelled qX1 qy ∧ Labelled qX2 qy := ⟨⟨le_rfl, Nat.one_pos⟩, ⟨le_rfl, Nat.one_pos⟩⟩

/-- **C173, C174** the part that fails: with warm start, `Fit` on data with more features than before panics (the weights of the earlier width are
kept), although the data are labelled and `PartialFit` would report a dimension error -/
theorem warm_fit_wider_panics :
    ((qPA.fit qNum qX1 qy).1.fit qNum qX2 qy).2 = .panic "index out of range" ∧
    ((qPA.fit qNum qX1 qy).1.partialFit qNum qX2 qy).2 = .err (.dimension 1 2 1) := by
  constructor <;> decide +kernel

/-- **C173** the part that fails: a model first trained with an empty list of classes panics in `Predict` -/
theorem empty_classes_panic :
    (qPC.partialFit qNum qInt keysInOrder qX1 qy (some [])).2 = .ok () ∧
    ((qPC.partialFit qNum qInt keysInOrder qX1 qy (some [])).1.predict (fun i => (i : ℚ)) (-1000) qX1).map (fun P => P.at' 0 0) =
      .panic "index out of range" := by
  constructor <;> decide +kernel

/-- **C176** the part that fails: without a list of classes, two first batches of one label each leave a model that knows only the first label,
while one call on both learns both -/
theorem paClf_split_false :
    let A := Mat.ofRows [[(1 : ℚ)]] 1 0
    let B := Mat.ofRows [[(2 : ℚ)]] 1 0
    let ya := Mat.ofRows [[(0 : ℚ)]] 1 0
    let yb := Mat.ofRows [[(1 : ℚ)]] 1 0
    ((qPC.partialFit qNum qInt keysInOrder A ya none).1.partialFit qNum qInt keysInOrder B yb none).1.classes = [0] ∧
    (qPC.partialFit qNum qInt keysInOrder (vstack A B) (vstack ya yb) none).1.classes = [0, 1] := by
  constructor <;> decide +kernel

/-- a split with the classes given: both calls succeed -/
example : (qPC.partialFit qNum qInt keysInOrder qX1 qy (some [0, 1])).2 = .ok () ∧
    ((qPC.partialFit qNum qInt keysInOrder qX1 qy (some [0, 1])).1.partialFit qNum qInt keysInOrder qX1 qy none).2 = .ok () := by
  constructor <;> decide +kernel

/-- the label predicted after two epochs: the sample with feature 2 has label 1 -/
example : ((qPC.fit qNum qInt keysInOrder qX1 qy).1.predict (fun i => (i : ℚ)) (-1000) qX1).map (fun P => P.at' 1 0) = .ok 1 := by decide +kernel

/-- a batch of unknown labels teaches nothing -/
example : ((qPC.fit qNum qInt keysInOrder qX1 qy).1.partialFit qNum qInt keysInOrder qX1 (Mat.ofRows [[7], [8]] 1 0) none).1.coef =
    (qPC.fit qNum qInt keysInOrder qX1 qy).1.coef := by decide +kernel

end Scigo.Online
