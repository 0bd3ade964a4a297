import Verif.NaiveBayes.Lemmas2

/-!
# Properties of `MultinomialNB` (C30–C32)

C30 and C32 are law-free. C31 is about `XReal`: exact arithmetic with NaN and infinities, so
classes never seen (log prior `-Inf`) are covered.
-/

set_option linter.unusedSectionVars false

namespace Scigo.NaiveBayes

variable {α K : Type _}

section
variable [Add α] [Sub α] [Mul α] [Div α] [Zero α] [One α] [NatCast α] [IntCast α]
  [LT α] [DecidableLT α]

/-- run `PartialFit` on each batch in turn -/
def runBatches (log : α → α) (toInt : α → Int) (iter : List Int → List Int)
    (cls : Option (List Int)) (bs : List (Mat α × Mat α)) (s : NB α) : NB α :=
  bs.foldl (fun s b => (s.partialFit log toInt iter b.1 b.2 cls).1) s

/-- **C30** (law-free). `PartialFit` over any sequence of non-rejected batches of one width,
with the classes given up front (or already known), leaves the model — counts, priors,
feature probabilities, everything predictions depend on — in the same state as one
`PartialFit` on the batches stacked into one table. -/
theorem partialFit_batches (log : α → α) (toInt : α → Int) (iter : List Int → List Int)
    (cls : Option (List Int)) (b : Mat α × Mat α) (bs : List (Mat α × Mat α)) (s : NB α)
    (hv : ∀ x ∈ b :: bs, ValidData x.1 x.2) (hc : ∀ x ∈ b :: bs, x.1.c = b.1.c)
    (hs : s.classes ≠ none → b.1.c = s.nFeatures) (hcls : s.classes = none → cls ≠ none) :
    runBatches log toInt iter cls (b :: bs) s
      = (s.partialFit log toInt iter (stack b bs).1 (stack b bs).2 cls).1 ∧
    (s.partialFit log toInt iter (stack b bs).1 (stack b bs).2 cls).2 = .ok () := by
  have main : ∀ (bs : List (Mat α × Mat α)) (b : Mat α × Mat α) (s : NB α),
      (∀ x ∈ b :: bs, ValidData x.1 x.2) → (∀ x ∈ b :: bs, x.1.c = b.1.c) →
      (s.classes ≠ none → b.1.c = s.nFeatures) → (s.classes = none → cls ≠ none) →
      runBatches log toInt iter cls (b :: bs) s
        = (s.partialFit log toInt iter (stack b bs).1 (stack b bs).2 cls).1 ∧
      (s.partialFit log toInt iter (stack b bs).1 (stack b bs).2 cls).2 = .ok () ∧
      ValidData (stack b bs).1 (stack b bs).2 ∧ (stack b bs).1.c = b.1.c := by
    intro bs
    induction bs with
    | nil =>
      intro b s hv hc hs hcls
      have hvb := hv b (by simp)
      refine ⟨rfl, ?_, hvb, rfl⟩
      change (s.partialFit log toInt iter b.1 b.2 cls).2 = _
      rw [partialFit_valid log toInt iter b.1 b.2 cls s hvb hs]
    | cons b' bs ih =>
      intro b s hv hc hs hcls
      have hvb := hv b (by simp)
      have hcb' : b'.1.c = b.1.c := hc b' (by simp)
      have key0 := partialFit_append log toInt iter b.1 b.2 b.1 b.2 cls cls s hvb hvb rfl hs hcls
      obtain ⟨-, -, k1, k2⟩ := key0
      obtain ⟨i1, i2, i3, i4⟩ := ih b' (s.partialFit log toInt iter b.1 b.2 cls).1
        (fun x hx => hv x (by simp [List.mem_cons.1 hx]))
        (fun x hx => by rw [hc x (by simp [List.mem_cons.1 hx]), hcb'])
        (fun _ => by rw [k2, hcb']) (fun h => absurd h k1)
      have key := partialFit_append log toInt iter b.1 b.2 (stack b' bs).1 (stack b' bs).2 cls cls s
        hvb i3 (by rw [i4, hcb']) hs hcls
      obtain ⟨-, k3, -, -⟩ := key
      refine ⟨?_, ?_, valid_append hvb i3 (by rw [i4, hcb']), rfl⟩
      · change runBatches log toInt iter cls (b' :: bs) (s.partialFit log toInt iter b.1 b.2 cls).1 = _
        rw [i1, k3]; rfl
      · change (s.partialFit log toInt iter (appendRows b.1 (stack b' bs).1)
          (appendRows b.2 (stack b' bs).2) cls).2 = _
        rw [← k3]; exact i2
  exact ⟨(main bs b s hv hc hs hcls).1, (main bs b s hv hc hs hcls).2.1⟩

/-- **C30** (law-free). `Fit` is a reset followed by one `PartialFit` with no class list — in
result and final state, for accepted and rejected data alike. -/
theorem fit_is_reset_partialFit (log : α → α) (toInt : α → Int) (iter : List Int → List Int)
    (X y : Mat α) (s : NB α) :
    s.fit log toInt iter X y = s.reset.partialFit log toInt iter X y none :=
  fit_eq log toInt iter X y s

/-- **C30** (law-free). The learned classes are the sorted distinct labels, whatever order the
map is iterated in. -/
theorem fit_classes (log : α → α) (toInt : α → Int) (iter : List Int → List Int)
    (hi : MapKeys iter) (X y : Mat α) (s : NB α) (hv : ValidData X y) :
    ∃ cls, (s.fit log toInt iter X y).1.classes = some cls ∧ cls.Pairwise (· < ·) ∧
      ∀ c, c ∈ cls ↔ ∃ i < X.r, toInt (y.at' i 0) = c := by
  rw [fit_eq, partialFit_valid log toInt iter X y none _ hv (fun h => absurd rfl h)]
  refine ⟨extractClasses toInt iter y, ?_, ?_, ?_⟩
  · change ((List.range X.r).foldl (NB.countRow toInt X y) _).classes = _
    rw [(foldl_countRow_classes toInt X y _ _).1]; rfl
  · obtain ⟨h1, h2⟩ := exchangeSort_spec (iter ((List.range y.r).map (fun i => toInt (y.at' i 0))))
    have hnd : (extractClasses toInt iter y).Nodup := h1.symm.nodup (hi _).1
    exact h2.imp₂ (fun a b hle hne => lt_of_le_of_ne hle hne) hnd
  · intro c
    obtain ⟨h1, -⟩ := exchangeSort_spec (iter ((List.range y.r).map (fun i => toInt (y.at' i 0))))
    unfold extractClasses
    rw [h1.mem_iff, (hi _).2, hv.1]
    simp

/-! ## C32 -/

/-- **C32** (law-free), the part that holds: `PartialFit` succeeds exactly on valid data of the
fitted width, and otherwise returns an error and changes nothing. Missing: `Fit`, which forgets
the model before validating (`fit_reject_forgets`). -/
theorem partialFit_validation_partial (log : α → α) (toInt : α → Int) (iter : List Int → List Int)
    (X y : Mat α) (cls : Option (List Int)) (s : NB α) :
    ((s.partialFit log toInt iter X y cls).2 = .ok () ↔
      ValidData X y ∧ (s.classes ≠ none → X.c = s.nFeatures)) ∧
    ((s.partialFit log toInt iter X y cls).2 ≠ .ok () →
      (s.partialFit log toInt iter X y cls).1 = s ∧
      ∃ e, (s.partialFit log toInt iter X y cls).2 = .err e) := by
  by_cases hv : ValidData X y
  · by_cases hc : s.classes ≠ none → X.c = s.nFeatures
    · rw [partialFit_valid log toInt iter X y cls s hv hc]
      exact ⟨⟨fun _ => ⟨hv, hc⟩, fun _ => rfl⟩, fun h => absurd rfl h⟩
    · push Not at hc
      have hb : s.begin toInt iter X y cls = s := by
        unfold NB.begin
        cases hcl : s.classes with
        | none => exact absurd hcl hc.1
        | some c => rfl
      unfold NB.partialFit
      rw [(validateInput_ok X y).2 hv]
      dsimp only
      rw [hb, if_pos hc.2]
      refine ⟨⟨fun h => by simp at h, fun h => absurd (h.2 hc.1) hc.2⟩, fun _ => ⟨rfl, _, rfl⟩⟩
  · obtain ⟨e, he⟩ := validateInput_err X y hv
    unfold NB.partialFit
    rw [he]
    refine ⟨⟨fun h => by simp at h, fun h => absurd h.1 hv⟩, fun _ => ⟨rfl, e, rfl⟩⟩

/-- **C32**, negation for `Fit` (law-free): rejected data makes `Fit` return an error *and*
leaves the model unfitted with no counts, whatever it had learned. -/
theorem fit_reject_forgets (log : α → α) (toInt : α → Int) (iter : List Int → List Int)
    (X y : Mat α) (s : NB α) (hv : ¬ ValidData X y) :
    (∃ e, (s.fit log toInt iter X y).2 = .err e) ∧ (s.fit log toInt iter X y).1 = s.reset := by
  obtain ⟨e, he⟩ := validateInput_err X y hv
  unfold NB.fit
  rw [he]
  exact ⟨⟨e, rfl⟩, rfl⟩

/-- **C32** (law-free). `Predict`, `PredictLogProba` and `PredictProba` reject an unfitted model,
a different number of columns, and negative features (given at least one row and class). -/
theorem predict_validation (log exp : α → α) (ninf : α) (X : Mat α) (s : NB α) :
    (s.fitted = false → s.predict ninf X = .err .notFitted ∧
      s.predictLogProba log exp ninf X = .err .notFitted ∧
      s.predictProba log exp ninf X = .err .notFitted) ∧
    (s.fitted = true → X.c ≠ s.nFeatures → s.predict ninf X = .err (.dimension s.nFeatures X.c 1) ∧
      s.predictLogProba log exp ninf X = .err (.dimension s.nFeatures X.c 1) ∧
      s.predictProba log exp ninf X = .err (.dimension s.nFeatures X.c 1)) ∧
    (s.fitted = true → X.c = s.nFeatures → 0 < s.nClasses →
      (∃ i < X.r, ∃ j < X.c, X.at' i j < 0) → s.predict ninf X = .err .value ∧
      s.predictLogProba log exp ninf X = .err .value ∧
      s.predictProba log exp ninf X = .err .value) := by
  refine ⟨?_, ?_, ?_⟩
  · intro h
    simp [NB.predict, NB.predictProba, NB.predictLogProba, h, Outcome.bind]
  · intro h hc
    simp [NB.predict, NB.predictProba, NB.predictLogProba, h, hc, Outcome.bind]
  · intro h hc hn hneg
    have hr : X.r ≠ 0 := by obtain ⟨i, hi, -⟩ := hneg; omega
    have hneg' := (hasNegative_iff X).2 hneg
    have e : s.predict ninf X = .err .value := by
      unfold NB.predict
      rw [if_neg (by simp [h]), if_neg (by simp [hc]), if_neg hr]
      cases hcl : s.classes.getD [] with
      | nil => unfold NB.nClasses at hn; rw [hcl] at hn; simp at hn
      | cons c cs => simp [hneg']
    have e2 : s.predictLogProba log exp ninf X = .err .value := by
      unfold NB.predictLogProba
      rw [if_neg (by simp [h]), if_neg (by simp [hc]), if_neg (by omega), if_pos hneg']
    refine ⟨e, e2, ?_⟩
    unfold NB.predictProba
    rw [e2]; rfl

/-- **C32** (law-free). Rows whose label is not a known class are ignored: dropping them all
gives the same state, and `NSamplesSeen` counts exactly the others. -/
theorem unknown_labels_ignored (toInt : α → Int) (X y : Mat α) (s : NB α) (n : Nat) :
    (List.range n).foldl (NB.countRow toInt X y) s
      = ((List.range n).filter (fun i => decide (toInt (y.at' i 0) ∈ s.classes.getD []))).foldl
          (NB.countRow toInt X y) s ∧
    ((List.range n).foldl (NB.countRow toInt X y) s).nSeen
      = s.nSeen + (List.range n).countP (fun i => decide (toInt (y.at' i 0) ∈ s.classes.getD [])) := by
  refine ⟨?_, nSeen_foldl toInt X y s n⟩
  generalize List.range n = l
  induction l generalizing s with
  | nil => rfl
  | cons i l ih =>
    rw [List.filter_cons]
    have hcl := (countRow_classes toInt X y s i).1
    have ih' := ih (s.countRow toInt X y i)
    rw [hcl] at ih'
    by_cases hm : toInt (y.at' i 0) ∈ s.classes.getD []
    · rw [if_pos (by simpa using hm), List.foldl_cons, List.foldl_cons, ih']
    · rw [if_neg (by simpa using hm), List.foldl_cons, ih']
      have : s.countRow toInt X y i = s := by
        unfold NB.countRow NB.classIndex
        rw [List.idxOf?_eq_none_iff.2 hm]
      rw [this]

end

/-- **C30, C32**. In exact arithmetic, `PartialFit` on an initialised model adds to the count of
each class the number of its rows, and to each feature count the sum of that feature over them. -/
theorem partialFit_counts [Field K] [LinearOrder K] [IsStrictOrderedRing K] (log : K → K)
    (toInt : K → Int) (iter : List Int → List Int) (X y : Mat K) (cls : List Int)
    (hv : ValidData X y) (alpha : K) (fp : Bool) (cp : Option (List K))
    (k : Nat) (hk : k < cls.length) :
    let s := ((NB.new alpha fp cp).partialFit log toInt iter X y (some cls)).1
    s.classCount.getD k 0
      = ((List.range X.r).countP (fun i => decide (cls.idxOf? (toInt (y.at' i 0)) = some k)) : K) ∧
    ∀ j < X.c, (s.featureCount.getD k []).getD j 0
      = (((List.range X.r).filter (fun i =>
          decide (cls.idxOf? (toInt (y.at' i 0)) = some k))).map (fun i => X.at' i j)).sum := by
  intro s
  have hs : s = ((List.range X.r).foldl (NB.countRow toInt X y)
      ((NB.new alpha fp cp).initCounts cls X.c)).updateModel log := by
    have := partialFit_valid log toInt iter X y (some cls) (NB.new alpha fp cp) hv
      (fun h => absurd rfl h)
    exact congrArg Prod.fst this
  have hc := count_foldl toInt X y ((NB.new alpha fp cp).initCounts cls X.c) rfl
    (shape_init _ _ _) X.r k (by simpa [NB.nClasses, NB.initCounts] using hk)
  rw [hs]
  obtain ⟨c1, c2⟩ := hc
  constructor
  · refine Eq.trans c1 ?_
    simp only [NB.initCounts, List.getD_eq_getElem?_getD, List.getElem?_replicate, hk, if_true,
      Option.getD_some, zero_add]
    rfl
  · intro j hj
    refine Eq.trans (c2 j hj) ?_
    simp only [NB.initCounts, List.getD_eq_getElem?_getD, List.getElem?_replicate, hk, hj, if_true,
      Option.getD_some, zero_add]
    rfl

/-! ## C31 -/

/-- the class conditional feature probabilities sum to 1 -/
theorem theta_sum_one (a : ℝ) (ha : 0 < a) (f : List ℝ) (hf : ∀ x ∈ f, 0 ≤ x) (hne : f ≠ []) :
    ((List.range f.length).map (theta a f)).sum = 1 ∧
    ∀ j < f.length, 0 < theta a f j := by
  refine ⟨?_, theta_pos a ha f hf⟩
  have hsum : 0 < (f.map (· + a)).sum := by
    apply sum_pos_of
    · intro w hw
      obtain ⟨x, hx, rfl⟩ := List.mem_map.1 hw
      have := hf x hx; linarith
    · obtain ⟨x, hx⟩ := List.exists_mem_of_ne_nil _ hne
      exact ⟨x + a, List.mem_map.2 ⟨x, hx, rfl⟩, by have := hf x hx; linarith⟩
  have e : (List.range f.length).map (theta a f) = (f.map (· + a)).map (· / (f.map (· + a)).sum) := by
    apply List.ext_getElem
    · simp
    · intro j h1 h2
      simp only [List.length_map, List.length_range] at h1
      simp [theta, List.getD_eq_getElem?_getD, List.getElem?_eq_getElem h1]
  rw [e]
  have : ∀ (l : List ℝ) (t : ℝ), (l.map (· / t)).sum = l.sum / t := by
    intro l t; induction l with
    | nil => simp
    | cons x l ih => simp [ih, add_div]
  rw [this, div_self hsum.ne']

/-- **C31**. After any history of training calls on finite data, with `alpha > 0`: the counts are
finite, the model's feature log probabilities are the logs of `theta`, and on every finite
non-negative query, `PredictProba` is the naive Bayes posterior
`prior_c ∏ θ_cj^x_j / Σ …`, `PredictLogProba` its logarithm (`-Inf` for 0), and `Predict` the
first class of greatest posterior. -/
theorem nb_posterior (a : ℝ) (ha : 0 < a) (fp : Bool) (q : Option (List ℝ)) (toInt : XReal → Int)
    (iter : List Int → List Int) (hist : List (NBCall XReal)) (hf : ∀ c ∈ hist, c.Finite)
    (X : Mat XReal) (x : Nat → Nat → ℝ) (hx : ∀ i < X.r, ∀ j < X.c, X.at' i j = .fin (x i j))
    (hx0 : ∀ i < X.r, ∀ j < X.c, 0 ≤ x i j) (hr : 0 < X.r) :
    let s := runNB XReal.log toInt iter hist (NB.new (.fin a) fp (q.map (List.map XReal.fin)))
    s.fitted = true → X.c = s.nFeatures → PriorOk fp q s →
    ∃ (N : List Nat) (F : List (List ℝ)),
      s.classCount = N.map (fun n : Nat => XReal.fin (n : ℝ)) ∧
      s.featureCount = F.map (List.map XReal.fin) ∧ N.sum = s.nSeen ∧
      (∀ f ∈ F, f.length = s.nFeatures ∧ ∀ v ∈ f, (0 : ℝ) ≤ v) ∧
      s.featLogProb = F.map (fun f => (List.range f.length).map (fun j => .fin (Real.log (theta a f j)))) ∧
      let ws := fun i => weights a (priorsOf fp q N) F ((List.range X.c).map (x i))
      (∀ i, (ws i).length = s.nClasses ∧ (∀ w ∈ ws i, 0 ≤ w) ∧ 0 < (ws i).sum) ∧
      (∃ P, s.predictProba XReal.log XReal.exp .ninf X = .ok P ∧ P.r = X.r ∧ P.c = s.nClasses ∧
        ∀ i < X.r, P.row i = (ws i).map (fun w => XReal.fin (w / (ws i).sum))) ∧
      (∃ L, s.predictLogProba XReal.log XReal.exp .ninf X = .ok L ∧ L.r = X.r ∧ L.c = s.nClasses ∧
        ∀ i < X.r, L.row i = (ws i).map (fun w => XReal.log (.fin (w / (ws i).sum)))) ∧
      (∃ Y, s.predict .ninf X = .ok Y ∧ Y.r = X.r ∧ Y.c = 1 ∧
        ∀ i < X.r, ∃ k, FirstMax (ws i) k ∧ ∃ hk : k < (s.classes.getD []).length,
          Y.at' i 0 = .fin (((s.classes.getD [])[k] : Int) : ℝ)) := by
  intro s hfit hXc hok
  obtain ⟨⟨N, F, hg⟩, -⟩ := run_good a fp (q.map (List.map XReal.fin)) toInt iter hist hf
  change Good a fp _ s N F at hg
  have hjr := fun i => jointRow_eq ha hg hfit hok ((List.range X.c).map (x i)) (by simp [hXc])
  refine ⟨N, F, hg.hN, hg.hF, hg.seen, hg.rows, ?_, ?_⟩
  · rw [(hg.fit hfit).2, hg.hF, hg.ha, List.map_map]
    apply List.map_congr_left
    intro f hfm
    exact featRow_fin a ha f (hg.rows f hfm).2
  intro ws
  have hws : ∀ i, (ws i).length = s.nClasses ∧ (∀ w ∈ ws i, 0 ≤ w) ∧ (∃ w ∈ ws i, 0 < w) :=
    fun i => (hjr i).2
  have hsum : ∀ i, 0 < (ws i).sum := fun i => sum_pos_of _ (hws i).2.1 (hws i).2.2
  have hrow : ∀ i < X.r, X.row i = ((List.range X.c).map (x i)).map XReal.fin := by
    intro i hi
    unfold Mat.row
    rw [List.map_map]
    apply List.map_congr_left
    intro j hj
    exact hx i hi j (List.mem_range.1 hj)
  have hncl : 0 < s.nClasses := by
    obtain ⟨w, hw, -⟩ := (hws 0).2.2
    rw [← (hws 0).1]; exact List.length_pos_of_mem hw
  have hneg : hasNegative X = false := by
    rw [← Bool.not_eq_true, hasNegative_iff]
    rintro ⟨i, hi, j, hj, hlt⟩
    rw [hx i hi j hj] at hlt
    exact absurd (hx0 i hi j hj) (not_le.2 hlt)
  have hjoint : ∀ i < X.r, s.jointRow (X.row i) = (ws i).map lg := by
    intro i hi
    unfold NB.jointRow
    apply List.ext_getElem
    · simp [(hws i).1]
    · intro c h1 h2
      simp only [List.length_map, List.length_range] at h1
      simp only [List.getElem_map, List.getElem_range]
      rw [hrow i hi, (hjr i).1 c h1, List.getD_eq_getElem?_getD,
        List.getElem?_eq_getElem (by rw [(hws i).1]; exact h1), Option.getD_some]
  have hL : s.predictLogProba XReal.log XReal.exp .ninf X = .ok ⟨X.r, s.nClasses, fun i c =>
      (logNormalize XReal.log XReal.exp .ninf (s.jointRow (X.row i))).getD c 0⟩ := by
    unfold NB.predictLogProba
    rw [if_neg (by simp [hfit]), if_neg (by simp [hXc]), if_neg (by omega), hneg]
    rfl
  have getD_map : ∀ (l : List XReal) (n : Nat), l.length = n →
      (List.range n).map (fun c => l.getD c 0) = l := by
    intro l n hl
    apply List.ext_getElem
    · simp [hl]
    · intro c h1 h2
      simp [List.getD_eq_getElem?_getD, List.getElem?_eq_getElem h2]
  have hLrow : ∀ i < X.r, (Mat.mk X.r s.nClasses (fun i c =>
      (logNormalize XReal.log XReal.exp .ninf (s.jointRow (X.row i))).getD c 0)).row i
      = (ws i).map (fun w => lg (w / (ws i).sum)) := by
    intro i hi
    change (List.range s.nClasses).map (fun c => _) = _
    rw [getD_map]
    · rw [hjoint i hi, logNormalize_lg _ (hws i).2.1 (hws i).2.2]
    · rw [hjoint i hi, logNormalize_lg _ (hws i).2.1 (hws i).2.2, List.length_map, (hws i).1]
  refine ⟨fun i => ⟨(hws i).1, (hws i).2.1, hsum i⟩, ?_, ?_, ?_⟩
  · unfold NB.predictProba
    rw [hL]
    refine ⟨_, rfl, rfl, rfl, ?_⟩
    intro i hi
    have hps : (ws i).map (fun w => lg (w / (ws i).sum))
        = ((ws i).map (fun w => w / (ws i).sum)).map lg := by rw [List.map_map]; rfl
    have hsum1 : ((ws i).map (fun w => w / (ws i).sum)).sum = 1 := by
      have : ∀ (l : List ℝ) (t : ℝ), (l.map (fun w => w / t)).sum = l.sum / t := by
        intro l t; induction l with
        | nil => simp
        | cons x l ih => simp [ih, add_div]
      rw [this, div_self (hsum i).ne']
    have hsm := softmaxRow_lg ((ws i).map (fun w => w / (ws i).sum))
      (by
        intro p hp
        obtain ⟨w, hw, rfl⟩ := List.mem_map.1 hp
        exact div_nonneg ((hws i).2.1 w hw) (hsum i).le)
      (by
        obtain ⟨w, hw, hw0⟩ := (hws i).2.2
        exact ⟨_, List.mem_map.2 ⟨w, hw, rfl⟩, div_pos hw0 (hsum i)⟩)
    rw [hsum1] at hsm
    change (List.range s.nClasses).map (fun c => (softmaxRow XReal.exp XReal.ninf
      ((Mat.mk X.r s.nClasses (fun i c => (logNormalize XReal.log XReal.exp .ninf
        (s.jointRow (X.row i))).getD c 0)).row i)).getD c 0) = _
    rw [hLrow i hi, hps, getD_map]
    · rw [hsm, List.map_map]
      apply List.map_congr_left
      intro w _
      simp
    · rw [hsm, List.length_map, List.length_map, (hws i).1]
  · exact ⟨_, hL, rfl, rfl, hLrow⟩
  · have hne : s.classes.getD [] ≠ [] := by
      intro h
      unfold NB.nClasses at hncl
      rw [h] at hncl
      simp at hncl
    obtain ⟨c0, cs, hcs⟩ := List.exists_cons_of_ne_nil hne
    have hP : s.predict .ninf X = .ok ⟨X.r, 1, fun i _ =>
        (((argmaxScan XReal.ninf c0 ((c0 :: cs).zipIdx.map
          (fun p => (s.joint p.2 (X.row i), p.1)))).2 : Int) : XReal)⟩ := by
      unfold NB.predict
      rw [if_neg (by simp [hfit]), if_neg (by simp [hXc]), if_neg (by omega), hcs]
      simp [hneg]
    refine ⟨_, hP, rfl, rfl, ?_⟩
    intro i hi
    have hlenc : (c0 :: cs).length = s.nClasses := by unfold NB.nClasses; rw [hcs]
    have hlist : (c0 :: cs).zipIdx.map (fun p => (s.joint p.2 (X.row i), p.1))
        = (List.zip (ws i) (c0 :: cs)).map (fun p => (lg p.1, p.2)) := by
      apply List.ext_getElem
      · simp [(hws i).1, ← hlenc]
      · intro c h1 h2
        simp only [List.length_map, List.length_zipIdx] at h1
        simp only [List.getElem_map, List.getElem_zipIdx, List.getElem_zip, Nat.zero_add]
        have e1 := (hjr i).1 c (by rw [← hlenc]; exact h1)
        rw [← hrow i hi, List.getD_eq_getElem?_getD,
          List.getElem?_eq_getElem (by rw [(hws i).1, ← hlenc]; exact h1), Option.getD_some] at e1
        exact congrArg (fun t => (t, (c0 :: cs)[c])) e1
    have hmem : ∀ p ∈ List.zip (ws i) (c0 :: cs), 0 ≤ p.1 := by
      intro p hp
      exact (hws i).2.1 p.1 (List.of_mem_zip hp).1
    have hscan := argmaxScan_aux (List.zip (ws i) (c0 :: cs)) hmem [] (0, c0) le_rfl
      (Or.inl ⟨rfl, by simp⟩)
    rw [lg_zero, ← hlist] at hscan
    simp only [List.nil_append] at hscan
    rcases hscan with ⟨-, -, hall⟩ | ⟨k, hk, e, hmax, hfirst⟩
    · exfalso
      obtain ⟨w, hw, hw0⟩ := (hws i).2.2
      obtain ⟨c, hc, rfl⟩ := List.mem_iff_getElem.1 hw
      have hc2 : c < (List.zip (ws i) (c0 :: cs)).length := by
        rw [List.length_zip, hlenc, (hws i).1, min_self, ← (hws i).1]; exact hc
      have := hall _ (List.getElem_mem hc2)
      rw [List.getElem_zip] at this
      simp only at this
      rw [this] at hw0
      exact lt_irrefl _ hw0
    · have hk' : k < s.nClasses := by
        rw [List.length_zip, hlenc, (hws i).1, min_self] at hk; exact hk
      have gD : ∀ j, (hj : j < s.nClasses) →
          (ws i).getD j 0 = ((List.zip (ws i) (c0 :: cs))[j]'(by
            rw [List.length_zip, hlenc, (hws i).1, min_self]; exact hj)).1 := by
        intro j hj
        rw [List.getElem_zip, List.getD_eq_getElem?_getD,
          List.getElem?_eq_getElem (by rw [(hws i).1]; exact hj), Option.getD_some]
      refine ⟨k, ⟨by rw [(hws i).1]; exact hk', ?_, ?_⟩, by rw [hcs, hlenc]; exact hk', ?_⟩
      · intro j hj
        rw [(hws i).1] at hj
        rw [gD j hj, gD k hk']
        exact hmax _ (List.getElem_mem _)
      · intro j hj
        rw [gD j (by omega), gD k hk']
        exact hfirst j hj
      · change (((argmaxScan XReal.ninf c0 _).2 : Int) : XReal) = _
        unfold argmaxScan
        rw [e, List.getElem_zip, XReal.intCast_def]
        simp only [hcs]

/-- **C31**. Hence rows of `PredictProba` are probability distributions. -/
theorem posterior_is_distribution (ws : List ℝ) (hnn : ∀ w ∈ ws, 0 ≤ w) (hpos : 0 < ws.sum) :
    (∀ p ∈ ws.map (fun w => w / ws.sum), 0 ≤ p ∧ p ≤ 1) ∧ (ws.map (fun w => w / ws.sum)).sum = 1 := by
  constructor
  · intro p hp
    obtain ⟨w, hw, rfl⟩ := List.mem_map.1 hp
    exact ⟨div_nonneg (hnn w hw) hpos.le, (div_le_one hpos).2 (List.single_le_sum hnn w hw)⟩
  · have : ∀ (l : List ℝ) (t : ℝ), (l.map (fun w => w / t)).sum = l.sum / t := by
      intro l t; induction l with
      | nil => simp
      | cons x l ih => simp [ih, add_div]
    rw [this, div_self hpos.ne']

/-- **C31**, for the calls themselves: after any history of training calls on finite data, every row of `PredictProba` on a finite non-negative query consists of finite
numbers between 0 and 1 with sum 1. -/
theorem nb_proba_distribution (a : ℝ) (ha : 0 < a) (fp : Bool) (q : Option (List ℝ)) (toInt : XReal → Int)
    (iter : List Int → List Int) (hist : List (NBCall XReal)) (hf : ∀ c ∈ hist, c.Finite)
    (X : Mat XReal) (x : Nat → Nat → ℝ) (hx : ∀ i < X.r, ∀ j < X.c, X.at' i j = .fin (x i j))
    (hx0 : ∀ i < X.r, ∀ j < X.c, 0 ≤ x i j) (hr : 0 < X.r) :
    let s := runNB XReal.log toInt iter hist (NB.new (.fin a) fp (q.map (List.map XReal.fin)))
    s.fitted = true → X.c = s.nFeatures → PriorOk fp q s →
    ∃ P, s.predictProba XReal.log XReal.exp .ninf X = .ok P ∧ P.r = X.r ∧ P.c = s.nClasses ∧
      ∀ i < X.r, ∃ ps : List ℝ, P.row i = ps.map XReal.fin ∧ ps.length = s.nClasses ∧ (∀ p ∈ ps, 0 ≤ p ∧ p ≤ 1) ∧ ps.sum = 1 := by
  intro s h1 h2 h3
  obtain ⟨N, F, -, -, -, -, -, hw, ⟨P, hP, hr', hc, hrow⟩, -⟩ := nb_posterior a ha fp q toInt iter hist hf X x hx hx0 hr h1 h2 h3
  refine ⟨P, hP, hr', hc, fun i hi => ?_⟩
  obtain ⟨hl, h0, hp⟩ := hw i
  exact ⟨_, by rw [hrow i hi, List.map_map]; rfl, by rw [List.length_map]; exact hl, posterior_is_distribution _ h0 hp⟩

/-! ## Concrete cases -/

/-- two batches, three given classes one of which never occurs (`log` stood in for) -/
example : (runBatches (fun x : ℚ => x) (fun x => x.floor) List.dedup (some [0, 1, 2])
      [(Mat.ofRows [[1, 0]] 2 0, Mat.ofRows [[0]] 1 0), (Mat.ofRows [[2, 3], [4, 4]] 2 0, Mat.ofRows [[1], [9]] 1 0)]
      (NB.new 1 true none)).featureCount = [[1, 0], [2, 3], [0, 0]] := by decide +kernel

/-- the hypotheses of `partialFit_batches` on the same data -/
example : (∀ x ∈ ((Mat.ofRows [[(1 : ℚ), 0]] 2 0, Mat.ofRows [[(0 : ℚ)]] 1 0) :
      Mat ℚ × Mat ℚ) :: [(Mat.ofRows [[2, 3]] 2 0, Mat.ofRows [[1]] 1 0)], ValidData x.1 x.2) := by
  intro x hx
  have key : ∀ X y : Mat ℚ, validateInput X y = .ok () → ValidData X y :=
    fun X y h => (validateInput_ok X y).1 h
  simp only [List.mem_cons, List.not_mem_nil, or_false] at hx
  rcases hx with rfl | rfl <;> apply key <;> decide +kernel

/-- the model that `fit_reject_forgets` destroys was fitted -/
example : ∃ s : NB ℚ, s.fitted = true ∧ s.nSeen = 1 ∧
    ((s.fit (fun x => x) (fun x => x.floor) List.dedup (Mat.ofRows [[-1]] 1 0) (Mat.ofRows [[0]] 1 0)).1).fitted
      = false :=
  ⟨((NB.new 1 true none).fit (fun x => x) (fun x => x.floor) List.dedup (Mat.ofRows [[3]] 1 0)
    (Mat.ofRows [[0]] 1 0)).1, by decide +kernel, by decide +kernel, by decide +kernel⟩

/-- weights with an unseen class are usable -/
example : (∀ w ∈ [(1 : ℝ) / 2, 0, 1 / 4], 0 ≤ w) ∧ 0 < ([(1 : ℝ) / 2, 0, 1 / 4]).sum := by
  constructor
  · intro w hw
    simp only [List.mem_cons, List.not_mem_nil, or_false] at hw
    rcases hw with rfl | rfl | rfl <;> norm_num
  · norm_num

/-- the hypotheses of `nb_posterior` are met after one real training call with two classes, one of
them unseen -/
example : let X : Mat XReal := ⟨1, 1, fun _ _ => .fin 2⟩
    let y : Mat XReal := ⟨1, 1, fun _ _ => .fin 0⟩
    let s := runNB XReal.log (fun _ => 0) List.dedup [NBCall.partialFit X y (some [0, 1])]
      (NB.new (.fin 1) true none)
    s.fitted = true ∧ X.c = s.nFeatures ∧ PriorOk true none s ∧
      (NBCall.partialFit X y (some [0, 1])).Finite := by
  intro X y s
  have hv : ValidData X y := by
    refine ⟨rfl, rfl, ?_⟩
    intro i _ j _ h
    have h' : (2 : ℝ) < 0 := h
    norm_num at h'
  have hs : s = ((List.range 1).foldl (NB.countRow (fun _ => 0) X y)
      ((NB.new (.fin 1) true none).initCounts [0, 1] 1)).updateModel XReal.log :=
    congrArg Prod.fst (partialFit_valid XReal.log (fun _ => 0) List.dedup X y (some [0, 1])
      (NB.new (.fin 1) true none) hv (fun h => absurd rfl h))
  refine ⟨by rw [hs]; rfl, by rw [hs]; rfl, ⟨fun _ => by rw [hs]; exact Nat.one_pos, fun h => by cases h⟩, ?_⟩
  intro i _ j _
  exact ⟨2, rfl⟩

end Scigo.NaiveBayes
