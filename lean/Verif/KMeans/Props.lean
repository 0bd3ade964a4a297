import Verif.KMeans.Lemmas
import Mathlib.Analysis.Real.Sqrt
import Mathlib.Tactic.NormNum
import Mathlib.Tactic.Positivity

/-!
# Properties of mini-batch k-means

C36 nearest centre and running means, C37 incremental training after `Fit`, C74 labels and inertia,
C75 a rejected `Fit`, C76 batching.
-/

set_option linter.unusedSectionVars false

namespace Scigo.KMeans

open Spec

section Law
variable {α : Type _} [Add α] [Sub α] [Mul α] [Div α] [Zero α] [One α] [NatCast α]
  [LT α] [LE α] [DecidableLT α] [DecidableLE α]

theorem rowsOf_length (X : Mat α) : (rowsOf X).length = X.r := by simp [rowsOf]

theorem rowsOf_ne {X : Mat α} (h : 0 < X.r) : rowsOf X ≠ [] := by
  intro e
  have := congrArg List.length e
  rw [rowsOf_length] at this
  simp at this; omega

/-- C37 fails: on a model that `Fit` trained and that never saw a `PartialFit` before, `PartialFit`
on data of the same width panics. Law-free. -/
theorem partialFit_after_fit_panics (sqrt : α → α) (inf : α) (o : Rng α) (g : Nat) (P : Params α)
    (X Y : Mat α) (hok : ((KM.new g).fit sqrt inf o P X).2 = .ok ())
    (hc : ((KM.new g).fit sqrt inf o P X).1.centers ≠ none) (hw : Y.c = X.c) (hr : 0 < Y.r) :
    (((KM.new g).fit sqrt inf o P X).1.partialFit sqrt inf o P Y).2 = .panic "index out of range" := by
  unfold KM.fit at hok hc ⊢
  simp only at hok hc ⊢
  split at hok
  · simp at hok
  · rename_i h
    simp only [h, if_false] at hc ⊢
    split at hok
    · rename_i best pos e
      simp only [e] at hc ⊢
      cases best with
      | none => simp at hc
      | some f =>
        simp only [KM.partialFit, KM.begin, KM.update, hw, ne_eq, not_true_eq_false, if_false,
          Option.map_some, Option.getD_some, KM.new, Option.getD_none]
        obtain ⟨y, ys, hys⟩ := List.exists_cons_of_ne_nil (rowsOf_ne hr)
        have key : ∀ (l : List (List α)) (m : String),
            l.foldl (fun o x => o.bind (fun cs => step sqrt inf cs x)) (.panic m)
              = Outcome.panic m := by
          intro l m
          induction l with
          | nil => rfl
          | cons x l ih => simpa using ih
        rw [hys]
        have hst : steps sqrt inf (f.centers, []) (y :: ys) = .panic "index out of range" := by
          simp only [steps, List.foldl_cons, Outcome.bind_ok]
          rw [show step sqrt inf (f.centers, []) y = .panic "index out of range" by simp [step], key]
        simp only [hst]
    · simp at hok
    · simp at hok

/-- C76: once the centres exist, feeding two batches one after the other or stacked in one call
gives the same model. Law-free. -/
theorem partialFit_batches (sqrt : α → α) (inf : α) (o : Rng α) (P : Params α) (s : KM α)
    (hs : s.centers ≠ none) (X Y Z : Mat α) (hY : Y.c = X.c) (hZ : Z.c = X.c)
    (hrows : rowsOf Z = rowsOf X ++ rowsOf Y)
    (h1 : (s.partialFit sqrt inf o P X).2 = .ok ()) :
    s.partialFit sqrt inf o P Z = (s.partialFit sqrt inf o P X).1.partialFit sqrt inf o P Y ∨
    (∃ v, (s.partialFit sqrt inf o P Z).2 = .panic v ∧
      ((s.partialFit sqrt inf o P X).1.partialFit sqrt inf o P Y).2 = .panic v) := by
  have happ : ∀ (cs : List (List α) × List Nat) (xs ys : List (List α)),
      steps sqrt inf cs (xs ++ ys) = (steps sqrt inf cs xs).bind (fun cs => steps sqrt inf cs ys) := by
    intro cs xs ys
    have key : ∀ (l : List (List α)) (m : Outcome (List (List α) × List Nat)),
        l.foldl (fun o x => o.bind (fun cs => step sqrt inf cs x)) m
          = m.bind (fun cs => steps sqrt inf cs l) := by
      intro l m
      cases m with
      | ok a => rfl
      | err e => induction l with
        | nil => rfl
        | cons x l ih => simpa using ih
      | panic e => induction l with
        | nil => rfl
        | cons x l ih => simpa using ih
    simp only [steps, List.foldl_append]
    rw [key ys]
    rfl
  have noerr : ∀ (xs : List (List α)) (cs : List (List α) × List Nat) e,
      steps sqrt inf cs xs ≠ .err e := by
    intro xs
    induction xs with
    | nil => intro cs e; simp [steps]
    | cons x xs ih =>
      intro cs e
      have := happ cs [x] xs
      simp only [List.singleton_append] at this
      rw [this]
      have h1 : steps sqrt inf cs [x] = step sqrt inf cs x := by simp [steps]
      rw [h1]
      unfold step
      simp only
      split
      · exact ih _ _
      · simp
  obtain ⟨cs, hcs⟩ := Option.ne_none_iff_exists'.1 hs
  simp only [KM.partialFit, KM.begin, hcs, KM.update, hY, hZ, hrows, happ, Option.getD_some] at h1 ⊢
  by_cases hn : X.c ≠ s.nFeatures
  · simp [hn] at h1
  · simp only [hn, if_false] at h1 ⊢
    cases e : steps sqrt inf (cs, s.counts.getD []) (rowsOf X) with
    | err x => exact absurd e (noerr _ _ _)
    | panic v => simp [e] at h1
    | ok r =>
      simp only [Outcome.bind_ok, Option.getD_some]
      cases hc : s.counts with
      | some n =>
        simp only [Option.isNone_some, Bool.false_eq_true, if_false, Option.getD_some]
        cases e2 : steps sqrt inf r (rowsOf Y) with
        | ok r2 => left; simp [hn]
        | err x => exact absurd e2 (noerr _ _ _)
        | panic v => right; exact ⟨v, by simp, by simp [hn]⟩
      | none =>
        simp only [hc, Option.getD_none] at e
        have hr0 : r = (cs, []) := by
          cases hx : rowsOf X with
          | nil => rw [hx] at e; simp [steps] at e; exact e.symm
          | cons x xs =>
            have h2 := happ (cs, []) [x] xs
            simp only [List.singleton_append] at h2
            rw [hx, h2] at e
            simp [steps, step] at e
        subst hr0
        simp only [Option.isNone_none, if_true, Option.getD_none]
        cases e2 : steps sqrt inf (cs, []) (rowsOf Y) with
        | ok r2 => left; simp [hn]
        | err x => exact absurd e2 (noerr _ _ _)
        | panic v => right; exact ⟨v, by simp, by simp [hn]⟩

/-- C75 fails: a `Fit` rejected for too few samples overwrites the expected width, so a model
that predicted for width `w` now rejects such data, and answers label 0 for every row of data of the
width it was never trained on. Law-free. -/
theorem rejected_fit_breaks_predict (sqrt : α → α) (inf : α) (o : Rng α) (P : Params α) (s : KM α)
    (cs : List (List α)) (hcs : s.centers = some cs) (hf : s.fitted = true)
    (hinf : ¬ inf < inf) (hw : ∀ c ∈ cs, c.length = s.nFeatures)
    (X Q R : Mat α) (hX : X.r < P.nClusters) (hXc : X.c ≠ s.nFeatures)
    (hQ : Q.c = s.nFeatures) (hQr : 0 < Q.r) (hR : R.c = X.c) (hRr : 0 < R.r) :
    let t := (s.fit sqrt inf o P X).1
    (s.fit sqrt inf o P X).2 = .err (.other "number of samples is less than number of clusters") ∧
    (s.predict sqrt inf Q).isOk = true ∧
    t.predict sqrt inf Q = .err (.other "feature dimension mismatch") ∧
    t.predict sqrt inf R = .ok (List.replicate R.r 0) := by
  have hfit : s.fit sqrt inf o P X = ({ s with nSamples := X.r, nFeatures := X.c },
      .err (.other "number of samples is less than number of clusters")) := by
    simp [KM.fit, hX]
  refine ⟨by rw [hfit], ?_, ?_, ?_⟩
  · simp [KM.predict, hf, hQ, hQr.ne', Outcome.isOk]
  · rw [hfit]
    simp only [KM.predict, hf, Bool.true_eq_false, if_false, hQ]
    rw [if_pos (fun h => hXc h.symm)]
  · rw [hfit]
    simp only [KM.predict, hf, Bool.true_eq_false, if_false, hR, ne_eq, not_true_eq_false,
      hRr.ne', hcs, Option.getD_some, Outcome.ok.injEq]
    have hz : ∀ x ∈ rowsOf R, nearest sqrt inf x cs = 0 := by
      intro x hx
      have hxl : x.length = X.c := by
        simp only [rowsOf, List.mem_map] at hx
        obtain ⟨i, _, rfl⟩ := hx
        simp [hR]
      unfold nearest
      have : ∀ (l : List (List α × Nat)), (∀ p ∈ l, p.1 ∈ cs) →
          l.foldl (fun (b : α × Nat) p =>
            if dist sqrt inf x p.1 < b.1 then (dist sqrt inf x p.1, p.2) else b) (inf, 0)
            = (inf, 0) := by
        intro l hl
        induction l with
        | nil => rfl
        | cons p l ih =>
          have hd : dist sqrt inf x p.1 = inf := by
            unfold dist
            rw [if_pos]
            rw [hxl, hw _ (hl p List.mem_cons_self)]
            exact hXc
          simp only [List.foldl_cons, hd, if_neg hinf]
          exact ih (fun q hq => hl q (List.mem_cons_of_mem _ hq))
      rw [this]
      intro p hp
      have := List.mem_zipIdx hp
      obtain ⟨_, h2, h3⟩ := this
      rw [h3]; exact List.getElem_mem _
    apply List.ext_getElem
    · simp [rowsOf]
    · intro i h1 h2
      simp only [List.getElem_map, List.getElem_replicate]
      exact hz _ (List.getElem_mem _)

/-- C75, the part that holds: a rejected `Fit` on data of the width the model was trained on
changes no answer of `Predict`, `Transform`, `Labels`, `Inertia`, `ClusterCenters`.
Missing: data of another width (see `rejected_fit_breaks_predict`). -/
theorem rejected_fit_keeps_model_partial (sqrt : α → α) (inf : α) (o : Rng α) (P : Params α)
    (s : KM α) (X : Mat α) (hX : X.r < P.nClusters) (hXc : X.c = s.nFeatures) (Q : Mat α) :
    let t := (s.fit sqrt inf o P X).1
    t.predict sqrt inf Q = s.predict sqrt inf Q ∧
    t.transform sqrt inf P Q = s.transform sqrt inf P Q ∧
    t.centers = s.centers ∧ t.labels = s.labels ∧ t.inertia = s.inertia ∧ t.fitted = s.fitted := by
  have hfit : s.fit sqrt inf o P X = ({ s with nSamples := X.r, nFeatures := X.c },
      .err (.other "number of samples is less than number of clusters")) := by
    simp [KM.fit, hX]
  simp [hfit, KM.predict, KM.transform, hXc]

end Law

section Order
variable {α : Type _} [Add α] [Sub α] [Mul α] [Div α] [Zero α] [One α] [NatCast α]
  [LinearOrder α]

/-- C36: `Predict` returns the first smallest entry of the row that `Transform` returns. Law-free
over a linear order; `inf` is `+Inf` and some distance is below it. -/
theorem predict_argmin_transform (sqrt : α → α) (inf : α) (P : Params α) (s : KM α) (X D : Mat α)
    (ys : List Nat) (hl : ∀ cs ∈ s.centers, cs.length = P.nClusters)
    (hp : s.predict sqrt inf X = .ok ys) (ht : s.transform sqrt inf P X = .ok D)
    (i : Nat) (hi : i < X.r) (hfin : ∃ c < P.nClusters, D.at' i c < inf) :
    ys.length = X.r ∧ D.r = X.r ∧ D.c = P.nClusters ∧
    ys.getD i 0 < P.nClusters ∧ (∀ c < P.nClusters, D.at' i (ys.getD i 0) ≤ D.at' i c) ∧
    (∀ c < ys.getD i 0, D.at' i (ys.getD i 0) < D.at' i c) := by
  unfold KM.predict at hp
  unfold KM.transform at ht
  split at hp
  · simp at hp
  rename_i hf
  rw [if_neg hf] at ht
  split at hp
  · simp at hp
  rename_i hf
  rw [if_neg hf] at ht
  split at hp
  · simp at hp
  split at ht
  · simp at ht
  split at ht
  · simp at ht
  rename_i hlen
  simp only [Outcome.ok.injEq] at hp ht
  cases hc : s.centers with
  | none => rw [hc] at hlen; simp at hlen; omega
  | some cs =>
    have hl' := hl cs (by rw [hc]; rfl)
    rw [hc] at hp ht
    simp only [Option.getD_some] at hp ht
    subst hp ht
    have hy : ((rowsOf X).map (fun x => nearest sqrt inf x cs)).getD i 0
        = nearest sqrt inf (X.row i) cs := by
      rw [List.getD_eq_getElem _ _ (by simpa [rowsOf] using hi)]
      simp [rowsOf]
    rw [hy]
    simp only at hfin ⊢
    refine ⟨by simp [rowsOf], trivial, trivial, ?_⟩
    obtain ⟨r, hr⟩ : ∃ r, cs.zipIdx.foldl (fun (b : α × Nat) p =>
      if dist sqrt inf (X.row i) p.1 < b.1 then (dist sqrt inf (X.row i) p.1, p.2) else b)
        (inf, 0) = r := ⟨_, rfl⟩
    have := scan_spec (dist sqrt inf (X.row i)) inf cs r hr
    rw [show nearest sqrt inf (X.row i) cs = r.2 by unfold nearest; rw [hr]]
    rcases this with ⟨_, h⟩ | ⟨h1, h2, _, h3, h4⟩
    · obtain ⟨c, hc1, hc2⟩ := hfin
      have hc3 : c < cs.length := by omega
      rw [List.getD_eq_getElem _ _ hc3] at hc2
      exact absurd hc2 (h _ (List.getElem_mem _))
    · rw [h2] at h3 h4
      rw [List.getD_eq_getElem _ _ h1]
      refine ⟨hl' ▸ h1, ?_, ?_⟩
      · intro c hc
        rw [List.getD_eq_getElem _ _ (show c < cs.length by omega)]
        exact h3 c _
      · intro c hc
        rw [List.getD_eq_getElem _ _ (show c < cs.length by omega)]
        exact h4 c hc

end Order

section Field
variable {K : Type _} [Field K] [LinearOrder K] [IsStrictOrderedRing K]

theorem rowsOf_mem {X : Mat K} {x : List K} (h : x ∈ rowsOf X) : ∃ i < X.r, x = X.row i := by
  simp only [rowsOf, List.mem_map, List.mem_range] at h
  obtain ⟨i, hi, rfl⟩ := h
  exact ⟨i, hi, rfl⟩

theorem partialFit_step {sqrt : K → K} (hs : IsSqrt sqrt) {inf : K} {lo hi : Nat → K} {c : Nat}
    (hov : NoOverflow sqrt inf lo hi c) (o : Rng K) (P : Params K) {init : List (List K)}
    (h0 : init ≠ []) (hin : ∀ x ∈ init, InBox lo hi c x) {p : List (List K × Nat)}
    (hp : ∀ q ∈ p, InBox lo hi c q.1) (ht : Trace init p) (X : Mat K) (hw : X.c = c)
    (hX : ∀ x ∈ rowsOf X, InBox lo hi c x) (s : KM K) (hc : s.centers = some (centersOf init p))
    (hn : s.counts = some (countsOf init.length p)) (hf : s.nFeatures = c) :
    ∃ ks : List Nat, ks.length = X.r ∧ Trace init (p ++ (rowsOf X).zip ks) ∧
      s.partialFit sqrt inf o P X =
        ({ s with centers := some (centersOf init (p ++ (rowsOf X).zip ks)),
                  counts := some (countsOf init.length (p ++ (rowsOf X).zip ks)),
                  fitted := true }, .ok ()) := by
  obtain ⟨ks, h1, h2, h3⟩ := steps_spec hs hov h0 hin hp ht (rowsOf X) hX
  refine ⟨ks, by rw [h1, rowsOf_length], h2, ?_⟩
  simp [KM.partialFit, KM.begin, KM.update, hc, hn, hf, hw, h3]

theorem runPartial_spec {sqrt : K → K} (hs : IsSqrt sqrt) {inf : K} {lo hi : Nat → K} {c : Nat}
    (hov : NoOverflow sqrt inf lo hi c) (o : Rng K) (P : Params K) {init : List (List K)}
    (h0 : init ≠ []) (hin : ∀ x ∈ init, InBox lo hi c x) (Xs : List (Mat K))
    (hw : ∀ X ∈ Xs, X.c = c) (hX : ∀ X ∈ Xs, ∀ x ∈ rowsOf X, InBox lo hi c x)
    {p : List (List K × Nat)} (hp : ∀ q ∈ p, InBox lo hi c q.1) (ht : Trace init p) (s : KM K)
    (hc : s.centers = some (centersOf init p)) (hn : s.counts = some (countsOf init.length p))
    (hf : s.nFeatures = c) (hfit : s.fitted = true) :
    (runPartial sqrt inf o P Xs s).2 = List.replicate Xs.length (.ok ()) ∧
    ∃ ks : List Nat, ks.length = (Xs.flatMap rowsOf).length ∧
      Trace init (p ++ (Xs.flatMap rowsOf).zip ks) ∧
      (runPartial sqrt inf o P Xs s).1.centers
        = some (centersOf init (p ++ (Xs.flatMap rowsOf).zip ks)) ∧
      (runPartial sqrt inf o P Xs s).1.counts
        = some (countsOf init.length (p ++ (Xs.flatMap rowsOf).zip ks)) ∧
      (runPartial sqrt inf o P Xs s).1.nFeatures = c ∧
      (runPartial sqrt inf o P Xs s).1.fitted = true := by
  induction Xs generalizing p s with
  | nil => exact ⟨rfl, [], rfl, by simpa using ht, by simpa [runPartial] using hc,
      by simpa [runPartial] using hn, hf, hfit⟩
  | cons X Xs ih =>
    have hX0 := hX X List.mem_cons_self
    obtain ⟨ks, h1, h2, h3⟩ := partialFit_step hs hov o P h0 hin hp ht X (hw X List.mem_cons_self)
      hX0 s hc hn hf
    have hp' : ∀ q ∈ p ++ (rowsOf X).zip ks, InBox lo hi c q.1 := by
      intro q hq
      rcases List.mem_append.1 hq with h | h
      · exact hp q h
      · exact hX0 _ (List.of_mem_zip h).1
    obtain ⟨i1, ks', i2, i3, i4, i5, i6, i7⟩ := ih (fun Y hY => hw Y (List.mem_cons_of_mem _ hY))
      (fun Y hY => hX Y (List.mem_cons_of_mem _ hY)) hp' h2 (s.partialFit sqrt inf o P X).1
      (by rw [h3]) (by rw [h3]) (by rw [h3]; exact hf) (by rw [h3])
    have hz : (List.flatMap rowsOf (X :: Xs)).zip (ks ++ ks')
        = (rowsOf X).zip ks ++ (Xs.flatMap rowsOf).zip ks' := by
      rw [List.flatMap_cons, List.zip_append (by rw [h1, rowsOf_length])]
    refine ⟨?_, ks ++ ks', ?_, ?_, ?_, ?_, i6, i7⟩
    · simp only [runPartial, i1, List.length_cons, List.replicate_succ]
      rw [h3]
    · rw [List.flatMap_cons, List.length_append, List.length_append, i2, h1, rowsOf_length]
    · rw [hz, ← List.append_assoc]; exact i3
    · rw [hz, ← List.append_assoc]; exact i4
    · rw [hz, ← List.append_assoc]; exact i5

/-- C36: train a fresh model by any sequence of `PartialFit` calls on data of one width (the first
call with a row). Every call succeeds; there are initial centres, which are rows of the first batch,
and one assignment per sample seen, each to the centre nearest at that moment, such that each centre
is now the mean of the samples assigned to it, or still its initial row if there are none.
Exact arithmetic; the data lie in a box where no distance overflows. -/
theorem partialFit_running_mean {sqrt : K → K} (hs : IsSqrt sqrt) {inf : K} {lo hi : Nat → K}
    {c : Nat} (hov : NoOverflow sqrt inf lo hi c) (o : Rng K) (g : Nat) (P : Params K)
    (hk : 0 < P.nClusters) (X : Mat K) (Xs : List (Mat K)) (hr : 0 < X.r)
    (hw : ∀ Y ∈ X :: Xs, Y.c = c) (hX : ∀ Y ∈ X :: Xs, ∀ x ∈ rowsOf Y, InBox lo hi c x) :
    (runPartial sqrt inf o P (X :: Xs) (KM.new g)).2 = List.replicate (Xs.length + 1) (.ok ()) ∧
    ∃ (init : List (List K)) (ks : List Nat), init.length = P.nClusters ∧
      (∀ v ∈ init, v ∈ rowsOf X) ∧ ks.length = ((X :: Xs).flatMap rowsOf).length ∧
      Trace init (((X :: Xs).flatMap rowsOf).zip ks) ∧
      (runPartial sqrt inf o P (X :: Xs) (KM.new g)).1.centers
        = some (centersOf init (((X :: Xs).flatMap rowsOf).zip ks)) := by
  obtain ⟨i, h1, h2, h3⟩ := initCenters_spec sqrt inf o P hk (rowsOf_ne hr) g
  have hX0 := hX X List.mem_cons_self
  have hne : i.1 ≠ [] := by intro e; rw [e] at h2; simp at h2; omega
  -- the first call behaves like a call on the initialised state
  obtain ⟨s, hsd⟩ : ∃ s : KM K, s = { (KM.new g : KM K) with
    nFeatures := X.c, centers := some i.1, counts := some (List.replicate P.nClusters 0),
    pos := i.2, fitted := true } := ⟨_, rfl⟩
  have hfirst : (KM.new g).partialFit sqrt inf o P X = s.partialFit sqrt inf o P X := by
    simp only [KM.partialFit, KM.begin, KM.new, hsd] at h1 ⊢
    simp only [h1, Outcome.map_ok]
    simp only [KM.update, ne_eq, not_true_eq_false, if_false, Option.getD_some]
    obtain ⟨ks, _, _, e⟩ := steps_spec hs hov hne (fun x hx => hX0 _ (h3 x hx))
      (p := []) (by simp) (by intro a b c d e; simp at e) (rowsOf X) hX0
    rw [centersOf_nil, countsOf_nil, h2] at e
    rw [e]
  have hrun : runPartial sqrt inf o P (X :: Xs) (KM.new g) = runPartial sqrt inf o P (X :: Xs) s := by
    simp only [runPartial, hfirst]
  obtain ⟨j1, ks, j2, j3, j4, -⟩ := runPartial_spec hs hov o P hne (fun x hx => hX0 _ (h3 x hx))
    (X :: Xs) hw hX (p := []) (by simp) (by intro a b c d e; simp at e) s
    (by rw [centersOf_nil, hsd]) (by rw [countsOf_nil, hsd, h2])
    (by rw [hsd]; exact hw X List.mem_cons_self) (by rw [hsd])
  rw [hrun]
  exact ⟨by simpa using j1, i.1, ks, h2, h3, j2, by simpa using j3, by simpa using j4⟩

/-- C36: after any sequence of `PartialFit` calls every centre has the data's width and lies, in
every coordinate, between the bounds of the data seen. -/
theorem partialFit_in_range {sqrt : K → K} (hs : IsSqrt sqrt) {inf : K} {lo hi : Nat → K}
    {c : Nat} (hov : NoOverflow sqrt inf lo hi c) (o : Rng K) (g : Nat) (P : Params K)
    (hk : 0 < P.nClusters) (X : Mat K) (Xs : List (Mat K)) (hr : 0 < X.r)
    (hw : ∀ Y ∈ X :: Xs, Y.c = c) (hX : ∀ Y ∈ X :: Xs, ∀ x ∈ rowsOf Y, InBox lo hi c x) :
    ∃ cs, (runPartial sqrt inf o P (X :: Xs) (KM.new g)).1.centers = some cs ∧
      cs.length = P.nClusters ∧ ∀ v ∈ cs, InBox lo hi c v := by
  obtain ⟨_, init, ks, h1, h2, h3, h4, h5⟩ := partialFit_running_mean hs hov o g P hk X Xs hr hw hX
  refine ⟨_, h5, by simp [h1], ?_⟩
  apply centersOf_inBox
  · intro v hv; exact hX X List.mem_cons_self v (h2 v hv)
  · intro q hq
    have := (List.of_mem_zip hq).1
    obtain ⟨Y, hY, hq'⟩ := List.mem_flatMap.1 this
    exact hX Y hY _ hq'

/-- C36: `Predict` gives every row the first of the nearest centres. -/
theorem predict_nearest {sqrt : K → K} (hs : IsSqrt sqrt) {inf : K} {lo hi : Nat → K} {c : Nat}
    (hov : NoOverflow sqrt inf lo hi c) (s : KM K) (cs : List (List K)) (hc : s.centers = some cs)
    (hne : cs ≠ []) (hf : s.fitted = true) (hw : s.nFeatures = c)
    (hcs : ∀ v ∈ cs, InBox lo hi c v) (X : Mat K) (hXc : X.c = c) (hr : 0 < X.r)
    (hX : ∀ x ∈ rowsOf X, InBox lo hi c x) :
    ∃ ys, s.predict sqrt inf X = .ok ys ∧ ys.length = X.r ∧
      ∀ i < X.r, IsNearest cs (X.row i) (ys.getD i 0) := by
  refine ⟨(rowsOf X).map (fun x => nearest sqrt inf x cs), ?_, by simp [rowsOf], ?_⟩
  · simp [KM.predict, hf, hw, hXc, hr.ne', hc]
  · intro i hlt
    have e : ((rowsOf X).map (fun x => nearest sqrt inf x cs)).getD i 0
        = nearest sqrt inf (X.row i) cs := by
      rw [List.getD_eq_getElem _ _ (by simpa [rowsOf] using hlt)]
      simp [rowsOf]
    have hx : InBox lo hi c (X.row i) := hX _ (by
      simp only [rowsOf, List.mem_map, List.mem_range]; exact ⟨i, hlt, rfl⟩)
    rw [e]
    apply nearest_isNearest hs hne
    · intro v hv; rw [hx.1, (hcs v hv).1]
    · intro v hv; exact hov _ _ hx (hcs v hv)

theorem computeInertia_eq {sqrt : K → K} (hs : IsSqrt sqrt) (inf : K) {rows cs : List (List K)}
    (h : ∀ x ∈ rows, IsNearest cs x (nearest sqrt inf x cs))
    (hl : ∀ x ∈ rows, ∀ v ∈ cs, x.length = v.length) :
    computeInertia sqrt inf rows cs
      = (rows.map (fun x => sqDist x (cs.getD (nearest sqrt inf x cs) []))).sum := by
  have key : ∀ x ∈ rows, ∀ s : K,
      s + dist sqrt inf x (cs.getD (nearest sqrt inf x cs) [])
        * dist sqrt inf x (cs.getD (nearest sqrt inf x cs) [])
      = s + sqDist x (cs.getD (nearest sqrt inf x cs) []) := by
    intro x hx s
    rw [dist_eq, (hs _ (sqDist_nonneg _ _)).2]
    rw [List.getD_eq_getElem _ _ (h x hx).1]
    exact hl x hx _ (List.getElem_mem _)
  have gen : ∀ (l : List (List K)) (s : K), (∀ x ∈ l, x ∈ rows) →
      l.foldl (fun s x => s + dist sqrt inf x (cs.getD (nearest sqrt inf x cs) [])
        * dist sqrt inf x (cs.getD (nearest sqrt inf x cs) [])) s
      = s + (l.map (fun x => sqDist x (cs.getD (nearest sqrt inf x cs) []))).sum := by
    intro l
    induction l with
    | nil => intro s _; simp
    | cons x l ih =>
      intro s hl
      rw [List.foldl_cons, key x (hl x List.mem_cons_self),
        ih _ (fun y hy => hl y (List.mem_cons_of_mem _ hy))]
      simp [add_assoc]
  have := gen rows 0 (fun x hx => hx)
  rw [zero_add] at this
  exact this

/-- C36 and C74: `Fit` on at least `nClusters` rows succeeds, for every sequence of random draws.
Its centres are running means of training rows, as for `PartialFit`, and lie in the range of the
data; `Labels` gives every training row the first of its nearest centres; `Inertia` is the sum of the
squared distances of the rows to the centres of their labels; and `Predict` on the training data
returns `Labels`. Exact arithmetic; the data lie in a box where no distance and no inertia
overflows. -/
theorem fit_labels_inertia {sqrt : K → K} (hs : IsSqrt sqrt) {inf : K} {lo hi : Nat → K}
    {c : Nat} (hov : NoOverflow sqrt inf lo hi c) (o : Rng K) (P : Params K)
    (hk : 0 < P.nClusters) (hrun : 0 < P.nInit) (hlab : P.computeLabels = true) (X : Mat K)
    (hr : P.nClusters ≤ X.r) (hX : ∀ x ∈ rowsOf X, InBox lo hi c x)
    (hI : ∀ a b, InBox lo hi c a → InBox lo hi c b → (X.r : K) * sqDist a b < inf) (s : KM K) :
    (s.fit sqrt inf o P X).2 = .ok () ∧
    ∃ cs ls, (s.fit sqrt inf o P X).1.centers = some cs ∧
      (s.fit sqrt inf o P X).1.labels = some ls ∧
      (∃ init p, init.length = P.nClusters ∧ (∀ x ∈ init, x ∈ rowsOf X) ∧
        (∀ q ∈ p, q.1 ∈ rowsOf X) ∧ Trace init p ∧ cs = centersOf init p) ∧
      (∀ v ∈ cs, InBox lo hi c v) ∧ ls.length = X.r ∧
      (∀ i < X.r, IsNearest cs (X.row i) (ls.getD i 0)) ∧
      (s.fit sqrt inf o P X).1.inertia
        = ((List.range X.r).map (fun i => sqDist (X.row i) (cs.getD (ls.getD i 0) []))).sum ∧
      (s.fit sqrt inf o P X).1.predict sqrt inf X = .ok ls := by
  have hr0 : 0 < X.r := by omega
  have hne := rowsOf_ne hr0
  -- facts about every run
  have facts : ∀ f, RunOk sqrt inf P (rowsOf X) f →
      (∀ v ∈ f.centers, InBox lo hi c v) ∧ f.centers ≠ [] ∧
      (∀ x ∈ rowsOf X, IsNearest f.centers x (nearest sqrt inf x f.centers)) := by
    intro f hf
    obtain ⟨⟨init, p, g1, g2, g3, g4, g5⟩, _, _⟩ := hf
    have b : ∀ v ∈ f.centers, InBox lo hi c v := by
      rw [g5]
      exact centersOf_inBox (fun v hv => hX _ (g2 v hv)) (fun q hq => hX _ (g3 q hq))
    have n : f.centers ≠ [] := by
      intro e
      have := congrArg List.length e
      rw [g5] at this
      simp [g1] at this
      omega
    refine ⟨b, n, ?_⟩
    intro x hx
    apply nearest_isNearest hs n
    · intro v hv; rw [(hX x hx).1, (b v hv).1]
    · intro v hv; exact hov _ _ (hX x hx) (b v hv)
  have hin : ∀ f, RunOk sqrt inf P (rowsOf X) f → f.inertia = ((rowsOf X).map (fun x =>
      sqDist x (f.centers.getD (nearest sqrt inf x f.centers) []))).sum := by
    intro f hf
    obtain ⟨b, n, nr⟩ := facts f hf
    rw [hf.2.2, computeInertia_eq hs inf nr]
    intro x hx v hv; rw [(hX x hx).1, (b v hv).1]
  have hlt : ∀ f, RunOk sqrt inf P (rowsOf X) f → f.inertia < inf := by
    intro f hf
    obtain ⟨b, n, nr⟩ := facts f hf
    rw [hin f hf]
    have sumlt : ∀ l : List K, l ≠ [] → (∀ t ∈ l, (X.r : K) * t < inf) →
        (X.r : K) * l.sum < l.length * inf := by
      intro l hl ht
      induction l with
      | nil => exact absurd rfl hl
      | cons t l ih =>
        have h1 := ht t List.mem_cons_self
        by_cases hl0 : l = []
        · subst hl0; simpa using h1
        · have h2 := ih hl0 (fun u hu => ht u (List.mem_cons_of_mem _ hu))
          simp only [List.sum_cons, List.length_cons, Nat.cast_add, Nat.cast_one]
          linarith
    have h3 := sumlt ((rowsOf X).map (fun x =>
      sqDist x (f.centers.getD (nearest sqrt inf x f.centers) []))) (by simpa using hne) (by
        intro t ht
        obtain ⟨x, hx, rfl⟩ := List.mem_map.1 ht
        apply hI _ _ (hX x hx)
        rw [List.getD_eq_getElem _ _ (nr x hx).1]
        exact b _ (List.getElem_mem _))
    rw [List.length_map, rowsOf_length] at h3
    exact lt_of_mul_lt_mul_left h3 (Nat.cast_nonneg _)
  obtain ⟨b, e, hb⟩ := bestOf_spec hs hov o P hk hne hX P.nInit none (by simp) s.pos
  have hsome : ∀ n best pos r, bestOf sqrt inf o P (rowsOf X) n best pos = .ok r →
      (0 < n ∨ best.isSome = true) → (∀ f ∈ best, f.inertia < inf) → r.1.isSome = true := by
    intro n
    induction n with
    | zero =>
      intro best pos r h1 h2 _
      simp only [bestOf, Outcome.ok.injEq] at h1
      subst h1
      simpa using h2
    | succ n ih =>
      intro best pos r h1 h2 h3
      obtain ⟨q, e1, e2⟩ := fitSingleRun_spec hs hov o P hk hne hX pos
      simp only [bestOf, e1, Outcome.bind_ok] at h1
      refine ih _ _ _ h1 ?_ ?_
      · right
        split
        · rfl
        · rename_i hnot
          cases best with
          | some f => rfl
          | none => simp at hnot; exact absurd (hlt _ e2) (not_lt.2 hnot)
      · split
        · intro f hf; simp at hf; subst hf; exact hlt _ e2
        · exact h3
  have hbs := hsome _ _ _ _ e (Or.inl hrun) (by simp)
  obtain ⟨best, pos⟩ := b
  cases best with
  | none => simp at hbs
  | some f =>
    have hf := hb f rfl
    obtain ⟨fb, fn, fnr⟩ := facts f hf
    have hfit : s.fit sqrt inf o P X =
        ({ s with nSamples := X.r, nFeatures := X.c, centers := some f.centers,
                  labels := f.labels, inertia := f.inertia, nIter := f.nIter, fitted := true,
                  pos := pos }, .ok ()) := by
      simp [KM.fit, not_lt.2 hr, e]
    rw [hfit]
    have hll := hf.2.1
    rw [hlab, if_pos rfl] at hll
    have hgl : ∀ i < X.r, ((rowsOf X).map (fun x => nearest sqrt inf x f.centers)).getD i 0
        = nearest sqrt inf (X.row i) f.centers := by
      intro i hi
      rw [List.getD_eq_getElem _ _ (by simpa [rowsOf] using hi)]
      simp [rowsOf]
    refine ⟨rfl, f.centers, _, rfl, hll, hf.1, fb, by simp [rowsOf], ?_, ?_, ?_⟩
    · intro i hi
      rw [hgl i hi]
      exact fnr _ (by simp only [rowsOf, List.mem_map, List.mem_range]; exact ⟨i, hi, rfl⟩)
    · simp only
      rw [hin f hf, rowsOf, List.map_map]
      congr 1
      apply List.map_congr_left
      intro i hi
      rw [List.mem_range] at hi
      have := hgl i hi
      rw [rowsOf] at this
      rw [this]
      rfl
    · simp [KM.predict, hr0.ne']

theorem move_inBox {lo hi : Nat → K} {c : Nat} {eta : K} (h0 : 0 ≤ eta) (h1 : eta ≤ 1)
    {v x : List K} (hv : InBox lo hi c v) (hx : InBox lo hi c x) :
    InBox lo hi c (move eta v x) := by
  refine ⟨by simp [move, hv.1, hx.1], ?_⟩
  intro j hj
  have e : (move eta v x).getD j 0 = (1 - eta) * v.getD j 0 + eta * x.getD j 0 := by
    have hjv : j < v.length := by rw [hv.1]; exact hj
    have hjx : j < x.length := by rw [hx.1]; exact hj
    rw [List.getD_eq_getElem _ _ (by simp [move, hv.1, hx.1, hj]), List.getD_eq_getElem _ _ hjv,
      List.getD_eq_getElem _ _ hjx]
    simp only [move]
    rw [List.getElem_append_left (by simp; omega)]
    simp
  rw [e]
  obtain ⟨a1, a2⟩ := hv.2 j hj
  obtain ⟨b1, b2⟩ := hx.2 j hj
  constructor <;> nlinarith

theorem steps_box {sqrt : K → K} (hs : IsSqrt sqrt) {inf : K} {lo hi : Nat → K} {c : Nat}
    (hov : NoOverflow sqrt inf lo hi c) (cs : List (List K) × List Nat) (h0 : cs.1 ≠ [])
    (hl : cs.2.length = cs.1.length) (hb : ∀ v ∈ cs.1, InBox lo hi c v) (xs : List (List K))
    (hxs : ∀ x ∈ xs, InBox lo hi c x) :
    ∃ r, steps sqrt inf cs xs = .ok r ∧ r.1.length = cs.1.length ∧ r.2.length = cs.2.length ∧
      ∀ v ∈ r.1, InBox lo hi c v := by
  induction xs generalizing cs with
  | nil => exact ⟨cs, rfl, rfl, rfl, hb⟩
  | cons x xs ih =>
    have hx := hxs x List.mem_cons_self
    have hn := nearest_isNearest hs (x := x) h0 (fun v hv => by rw [hx.1, (hb v hv).1])
      (fun v hv => hov _ _ hx (hb v hv))
    obtain ⟨k, hkd⟩ : ∃ k, nearest sqrt inf x cs.1 = k := ⟨_, rfl⟩
    rw [hkd] at hn
    have hcond : k < cs.2.length ∧ k < cs.1.length ∧ x.length ≤ (cs.1.getD k []).length := by
      refine ⟨hl ▸ hn.1, hn.1, ?_⟩
      rw [List.getD_eq_getElem _ _ hn.1, (hb _ (List.getElem_mem _)).1, hx.1]
    obtain ⟨m, hm⟩ : ∃ m : Nat, (cs.2.modify k (· + 1)).getD k 0 = m + 1 := by
      rw [List.getD_eq_getElem _ _ (by simpa using hcond.1)]
      simp
    have hstep : step sqrt inf cs x = .ok (cs.1.modify k (fun v => move (1 / ((m + 1 : Nat) : K)) v x),
        cs.2.modify k (· + 1)) := by
      unfold step
      simp only [hkd, if_pos hcond, hm]
    have he0 : (0 : K) ≤ 1 / ((m + 1 : Nat) : K) := by positivity
    have he1 : 1 / ((m + 1 : Nat) : K) ≤ 1 := by
      rw [div_le_one (by positivity)]
      push_cast
      have : (0 : K) ≤ m := Nat.cast_nonneg _
      linarith
    obtain ⟨r, e1, e2, e3, e4⟩ := ih (cs.1.modify k (fun v => move (1 / ((m + 1 : Nat) : K)) v x),
        cs.2.modify k (· + 1)) (by
          intro e
          have := congrArg List.length e
          simp at this
          exact h0 this) (by simpa using hl) (by
          intro v hv
          obtain ⟨i, hi', rfl⟩ := List.getElem_of_mem hv
          simp only [List.getElem_modify]
          simp only [List.length_modify] at hi'
          split
          · exact move_inBox he0 he1 (hb _ (List.getElem_mem hi')) hx
          · exact hb _ (List.getElem_mem hi'))
        (fun y hy => hxs y (List.mem_cons_of_mem _ hy))
    refine ⟨r, ?_, by simpa using e2, by simpa using e3, e4⟩
    simp only [steps, List.foldl_cons, Outcome.bind_ok, hstep]
    exact e1

/-- C37, the part that holds: a `PartialFit` that follows a `Fit` works when an earlier
`PartialFit` had already made the counters (they are then the counters from before the `Fit`).
Missing: the usual order, `Fit` first, which panics (`partialFit_after_fit_panics`). -/
theorem partialFit_after_fit_partial {sqrt : K → K} (hs : IsSqrt sqrt) {inf : K} {lo hi : Nat → K}
    {c : Nat} (hov : NoOverflow sqrt inf lo hi c) (o : Rng K) (g : Nat) (P : Params K)
    (hk : 0 < P.nClusters) (hrun : 0 < P.nInit) (hlab : P.computeLabels = true) (W X Y : Mat K)
    (hWr : 0 < W.r) (hW : W.c = c) (hWb : ∀ x ∈ rowsOf W, InBox lo hi c x)
    (hr : P.nClusters ≤ X.r) (hXc : X.c = c) (hX : ∀ x ∈ rowsOf X, InBox lo hi c x)
    (hI : ∀ a b, InBox lo hi c a → InBox lo hi c b → (X.r : K) * sqDist a b < inf)
    (hYc : Y.c = c) (hY : ∀ x ∈ rowsOf Y, InBox lo hi c x) :
    let s := ((KM.new g).partialFit sqrt inf o P W).1
    let t := (s.fit sqrt inf o P X).1.partialFit sqrt inf o P Y
    t.2 = .ok () ∧ ∃ cs, t.1.centers = some cs ∧ cs.length = P.nClusters ∧
      ∀ v ∈ cs, InBox lo hi c v := by
  intro s t
  have hcounts : ∃ n : List Nat, s.counts = some n ∧ n.length = P.nClusters := by
    obtain ⟨i, h1, h2, h3⟩ := initCenters_spec sqrt inf o P hk (rowsOf_ne hWr) g
    have hne : i.1 ≠ [] := by intro e; rw [e] at h2; simp at h2; omega
    obtain ⟨ks, _, _, e⟩ := steps_spec hs hov hne (fun x hx => hWb _ (h3 x hx))
      (p := []) (by simp) (by intro a b c d e; simp at e) (rowsOf W) hWb
    rw [centersOf_nil, countsOf_nil, h2] at e
    refine ⟨countsOf P.nClusters ([] ++ (rowsOf W).zip ks), ?_, by simp⟩
    simp only [s, KM.partialFit, KM.begin, KM.new] at h1 ⊢
    simp only [h1, Outcome.map_ok]
    simp only [KM.update, ne_eq, not_true_eq_false, if_false, Option.getD_some, e]
    rfl
  obtain ⟨n, hn, hnl⟩ := hcounts
  obtain ⟨h1, cs, ls, h2, -, ⟨init, p, g1, -, -, -, g5⟩, h4, -⟩ :=
    fit_labels_inertia hs hov o P hk hrun hlab X hr hX hI s
  have hfc : (s.fit sqrt inf o P X).1.counts = some n ∧
      (s.fit sqrt inf o P X).1.nFeatures = X.c := by
    unfold KM.fit at h1 ⊢
    simp only [not_lt.2 hr, if_false] at h1 ⊢
    split <;> simp_all
  have hcl : cs.length = P.nClusters := by rw [g5]; simp [g1]
  obtain ⟨r, e, e1, e2, e3⟩ := steps_box hs hov (cs, n) (by intro h; simp only at h; rw [h] at hcl; simp at hcl; omega)
    (by simp only; omega) h4 (rowsOf Y) hY
  have ht : t = ({ (s.fit sqrt inf o P X).1 with centers := some r.1, counts := some r.2,
                                                 fitted := true }, .ok ()) := by
    simp only [t, KM.partialFit, KM.begin, h2, KM.update, hfc.1, hfc.2, hYc, hXc, ne_eq,
      not_true_eq_false, if_false, Option.getD_some, e]
    rfl
  rw [ht]
  exact ⟨rfl, r.1, rfl, by rw [e1]; exact hcl, e3⟩

end Field

/-! Concrete cases meeting the hypotheses. -/

section Examples

/-- three rows of width 1, two clusters -/
private def exX : Mat ℝ := Mat.ofRows [[0], [1], [4]] 1 0

/-- parameters for the examples -/
private def exP (α : Type) [Zero α] : Params α := ⟨2, "random", 5, 2, true, 0, 10, 3⟩

private theorem exSqrt : IsSqrt Real.sqrt := fun a ha =>
  ⟨Real.sqrt_nonneg a, Real.mul_self_sqrt ha⟩

private theorem exSq (a b : List ℝ) (ha : InBox (fun _ => 0) (fun _ => 4) 1 a)
    (hb : InBox (fun _ => 0) (fun _ => 4) 1 b) : sqDist a b ≤ 16 := by
  obtain ⟨x, rfl⟩ := List.length_eq_one_iff.1 ha.1
  obtain ⟨y, rfl⟩ := List.length_eq_one_iff.1 hb.1
  have h1 := ha.2 0 (by omega)
  have h2 := hb.2 0 (by omega)
  simp only [List.getD_cons_zero] at h1 h2
  simp only [sqDist, List.zipWith_cons_cons, List.zipWith_nil_left, List.sum_cons, List.sum_nil,
    add_zero]
  nlinarith

private theorem exOv : NoOverflow Real.sqrt 1000 (fun _ => 0) (fun _ => 4) 1 := by
  intro a b ha hb
  have := Real.sqrt_le_sqrt (exSq a b ha hb)
  have h4 : Real.sqrt 16 = 4 := by
    rw [show (16 : ℝ) = 4 * 4 by norm_num, Real.sqrt_mul_self (by norm_num)]
  rw [h4] at this
  linarith

private theorem exBox : ∀ x ∈ rowsOf exX, InBox (fun _ => (0 : ℝ)) (fun _ => 4) 1 x := by
  intro x hx
  obtain ⟨i, hi, rfl⟩ := rowsOf_mem hx
  refine ⟨rfl, ?_⟩
  intro j hj
  simp only [exX, Mat.ofRows, List.length_cons, List.length_nil] at hi
  have : j = 0 := by omega
  subst this
  obtain rfl | rfl | rfl : i = 0 ∨ i = 1 ∨ i = 2 := by omega
  all_goals simp [exX, Mat.ofRows, Mat.row]

example (o : Rng ℝ) := fit_labels_inertia exSqrt exOv o (exP ℝ) (by decide) (by decide) rfl exX
  (by decide) exBox (by
    intro a b ha hb
    have := exSq a b ha hb
    simp only [exX, Mat.ofRows, List.length_cons, List.length_nil]
    norm_num
    linarith) (KM.new 0)

example (o : Rng ℝ) := partialFit_running_mean exSqrt exOv o 0 (exP ℝ) (by decide) exX [exX, exX]
  (by decide) (by intro Y hY; simp at hY; subst hY; rfl)
  (by intro Y hY; simp at hY; subst hY; exact exBox)

example (o : Rng ℝ) := partialFit_in_range exSqrt exOv o 0 (exP ℝ) (by decide) exX [exX]
  (by decide) (by intro Y hY; simp at hY; subst hY; rfl)
  (by intro Y hY; simp at hY; subst hY; exact exBox)

example (o : Rng ℝ) := partialFit_after_fit_partial exSqrt exOv o 0 (exP ℝ) (by decide)
  (by decide) rfl exX exX exX (by decide) rfl exBox (by decide) rfl exBox (by
    intro a b ha hb
    have := exSq a b ha hb
    simp only [exX, Mat.ofRows, List.length_cons, List.length_nil]
    norm_num
    linarith) rfl exBox

/-- rational data and draws; the "root" is the identity, enough to compare distances -/
private def exQ : Mat ℚ := Mat.ofRows [[0], [1], [4]] 1 0
/-- random draws for the examples -/
private def exO : Rng ℚ := ⟨fun a _ => a, fun s => (s, s + 1), fun s _ => (s, s + 1), fun s => (s, s + 1), fun s => (1 / 2, s + 1)⟩
/-- a fitted model for the examples -/
private def exS : KM ℚ := ((KM.new 0).fit id 1000 exO (exP ℚ) exQ).1

example : ((KM.new 0).fit id 1000 exO (exP ℚ) exQ).2 = .ok () ∧ exS.centers.isSome = true := by
  decide +kernel

example := partialFit_after_fit_panics id 1000 exO 0 (exP ℚ) exQ exQ (by decide +kernel)
  (by decide +kernel) rfl (by decide)

example : exS.fitted = true ∧ exS.nFeatures = 1 ∧
    exS.predict id 1000 exQ = .ok (exS.labels.getD []) ∧ (exS.labels.getD []).length = 3 := by
  decide +kernel

example := rejected_fit_breaks_predict id 1000 exO (exP ℚ) exS (exS.centers.getD [])
  (by decide +kernel) (by decide +kernel) (by decide) (by decide +kernel)
  (Mat.ofRows [[1, 2]] 2 0) exQ (Mat.ofRows [[1, 2], [3, 4]] 2 0)
  (by decide) (by decide +kernel) (by decide +kernel) (by decide) rfl (by decide)

example := rejected_fit_keeps_model_partial id 1000 exO (exP ℚ) exS (Mat.ofRows [[1]] 1 0)
  (by decide) (by decide +kernel) exQ

example := partialFit_batches id 1000 exO (exP ℚ)
  ((KM.new 0).partialFit id 1000 exO (exP ℚ) exQ).1 (by decide +kernel)
  (Mat.ofRows [[1], [2]] 1 0) (Mat.ofRows [[3]] 1 0) (Mat.ofRows [[1], [2], [3]] 1 0) rfl rfl
  (by decide +kernel) (by decide +kernel)

example : (exS.transform id 1000 (exP ℚ) exQ).isOk = true ∧
    ((exS.transform id 1000 (exP ℚ) exQ).map (fun D => decide (D.at' 1 0 < 1000))) = .ok true ∧
    (exS.predict id 1000 exQ).isOk = true := by
  decide +kernel

example : ∃ s : KM ℝ, ∃ cs, s.centers = some cs ∧ cs ≠ [] ∧ s.fitted = true ∧ s.nFeatures = 1 ∧
    ∀ v ∈ cs, InBox (fun _ => (0 : ℝ)) (fun _ => 4) 1 v := by
  obtain ⟨h0, cs, ls, h1, -, ⟨init, p, g1, -, -, -, g5⟩, h3, -⟩ := fit_labels_inertia exSqrt exOv
    ⟨fun a _ => a, fun s => (s, s), fun s _ => (s, s + 1), fun s => (0, s), fun s => (0, s)⟩ (exP ℝ) (by decide) (by decide) rfl exX (by decide) exBox (by
      intro a b ha hb
      have := exSq a b ha hb
      simp only [exX, Mat.ofRows, List.length_cons, List.length_nil]
      norm_num
      linarith) (KM.new 0)
  refine ⟨{ (KM.new 0 : KM ℝ) with centers := some cs, fitted := true, nFeatures := 1 }, cs, rfl, ?_,
    rfl, rfl, h3⟩
  intro e
  have := congrArg List.length e
  rw [g5] at this
  simp [g1, exP] at this

end Examples

end Scigo.KMeans
