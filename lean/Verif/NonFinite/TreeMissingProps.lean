import Verif.NonFinite.TreeProps
import Verif.NonFinite.ScalerProps

/-!
# C317: a missing feature value in the training data of a decision tree
-/

set_option linter.unusedSectionVars false

namespace Scigo.NonFinite

open Scigo.Tree F64

section
variable {κ : Type _} [LT κ] [DecidableLT κ]

/-- one round of the insertion sort: `x` moves down over the larger elements; the part that is in order is given from its end
(`insertionSortLessFunc` of Go's package sort, called by `sort.Slice` for up to twelve elements; sklearn/tree/tree.go:338-340) -/
def insertDown (key : Nat → κ) (x : Nat) : List Nat → List Nat
  | [] => [x]
  | y :: ys => if key x < key y then y :: insertDown key x ys else x :: y :: ys

/-- `sort.Slice` by value for up to twelve elements (sklearn/tree/tree.go:338-340); nothing is assumed of the order, so missing values may occur -/
def goSort (key : Nat → κ) (l : List Nat) : List Nat := (l.foldl (fun acc x => insertDown key x acc) []).reverse

theorem insertDown_perm (key : Nat → κ) (x : Nat) (l : List Nat) : (insertDown key x l).Perm (x :: l) := by
  induction l with
  | nil => exact List.Perm.refl _
  | cons y ys ih =>
    unfold insertDown
    split
    · exact (ih.cons y).trans (List.Perm.swap x y ys)
    · exact List.Perm.refl _

theorem goSort_perm (key : Nat → κ) (l : List Nat) : (goSort key l).Perm l := by
  have : ∀ (l acc : List Nat), (l.foldl (fun acc x => insertDown key x acc) acc).Perm (l ++ acc) := by
    intro l
    induction l with
    | nil => exact fun acc => List.Perm.refl _
    | cons x l ih => exact fun acc => (ih _).trans (((insertDown_perm key x acc).append_left l).trans List.perm_middle)
  have h := this l []
  rw [List.append_nil] at h
  exact (List.reverse_perm _).trans h

end

/-- without missing values it sorts -/
theorem goSort_sorts {κ : Type _} [LinearOrder κ] (key : Nat → κ) : SortsAsc key (goSort key) := by
  intro l
  refine ⟨goSort_perm key l, ?_⟩
  unfold goSort
  rw [List.pairwise_reverse]
  have : ∀ (l acc : List Nat), acc.Pairwise (fun a b => ¬ key a < key b) →
      (l.foldl (fun acc x => insertDown key x acc) acc).Pairwise (fun a b => ¬ key a < key b) := by
    intro l
    induction l with
    | nil => exact fun acc h => h
    | cons x l ih =>
      intro acc h
      refine ih _ ?_
      clear ih
      induction acc with
      | nil => exact List.pairwise_singleton _ _
      | cons y ys ih =>
        obtain ⟨h1, h2⟩ := List.pairwise_cons.1 h
        dsimp only
        unfold insertDown
        split
        · rename_i hlt
          refine List.pairwise_cons.2 ⟨fun z hz => ?_, ih h2⟩
          rcases List.mem_cons.1 ((insertDown_perm key x ys).subset hz) with rfl | hz
          · exact not_lt.2 hlt.le
          · exact h1 z hz
        · rename_i hlt
          refine List.pairwise_cons.2 ⟨fun z hz => ?_, h⟩
          rcases List.mem_cons.1 hz with rfl | hz
          · exact hlt
          · exact not_lt.2 ((not_lt.1 (h1 z hz)).trans (not_lt.1 hlt))
  exact this l [] List.Pairwise.nil

/-- rows whose value is missing stay at the end if they come last -/
theorem goSort_missing_last (key : Nat → F64) (A B : List Nat) (hB : ∀ i ∈ B, key i = nan) : goSort key (A ++ B) = goSort key A ++ B := by
  unfold goSort
  rw [List.foldl_append]
  generalize A.foldl (fun acc x => insertDown key x acc) [] = acc
  induction B generalizing acc with
  | nil => simp
  | cons b B ih =>
    rw [List.foldl_cons, ih (fun i hi => hB i (List.mem_cons_of_mem _ hi))]
    have : insertDown key b acc = b :: acc := by
      cases acc with
      | nil => rfl
      | cons y ys =>
        unfold insertDown
        rw [hB b (List.mem_cons_self ..), if_neg (not_nan_lt _)]
    rw [this]
    simp

/-- with a missing threshold all rows go right -/
theorem sides_nan (nClasses : Nat) (S : List (Sample F64)) (feature : Nat) : (sideCounts nClasses S feature nan).2.2.1 = 0 := by
  unfold sideCounts
  have : ∀ (S : List (Sample F64)) (a : List Nat × List Nat × Nat × Nat), a.2.2.1 = 0 →
      (S.foldl (fun (a : List Nat × List Nat × Nat × Nat) s =>
        if s.1 feature ≤ nan then (a.1.modify s.2 (· + 1), a.2.1, a.2.2.1 + 1, a.2.2.2)
        else (a.1, a.2.1.modify s.2 (· + 1), a.2.2.1, a.2.2.2 + 1)) a).2.2.1 = 0 := by
    intro S
    induction S with
    | nil => exact fun a h => h
    | cons s S ih =>
      intro a ha
      rw [List.foldl_cons, if_neg (not_le_nan _)]
      exact ih _ ha
  exact this S _ rfl

/-- a candidate with a missing value on either side is never accepted -/
theorem try_nan (log2 : F64 → F64) (P : Params F64) (hP : 1 ≤ P.minSamplesLeaf) (nClasses : Nat) (S : List (Sample F64)) (parent : F64) (feature : Nat)
    (best : Best F64) (v : F64 × F64) (hv : v.1 = nan ∨ v.2 = nan) : tryThreshold log2 P nClasses S parent feature best v = best := by
  unfold tryThreshold
  split
  · rfl
  · dsimp only
    have : v.1 + v.2 = nan := by
      rcases hv with h | h
      · rw [h]; exact nan_add _
      · rw [h]; exact add_nan _
    rw [this, nan_div, sides_nan, if_pos]
    left
    exact_mod_cast hP

/-- a tried candidate is not better than the result -/
theorem try_covers (log2 : F64 → F64) (P : Params F64) (nClasses : Nat) (S : List (Sample F64)) (parent : F64) (feature : Nat) (best : Best F64) (d : F64)
    (h : ¬ best.2.2 < d) (v : F64 × F64) : ¬ (tryThreshold log2 P nClasses S parent feature best v).2.2 < d := by
  unfold tryThreshold
  split
  · exact h
  · dsimp only
    split
    · exact h
    · split
      · rename_i hlt
        exact fun h' => h (lt_trans' hlt h')
      · exact h

/-- the threshold between two neighbours leaves enough rows on both sides (sklearn/tree/tree.go:372-374) -/
def Enough (P : Params F64) (nClasses : Nat) (S : List (Sample F64)) (feature : Nat) (v : F64 × F64) : Prop :=
  P.minSamplesLeaf ≤ (sideCounts nClasses S feature ((v.1 + v.2) / ((2 : Nat) : F64))).2.2.1 ∧
    P.minSamplesLeaf ≤ (sideCounts nClasses S feature ((v.1 + v.2) / ((2 : Nat) : F64))).2.2.2

theorem try_self (log2 : F64 → F64) (P : Params F64) (nClasses : Nat) (S : List (Sample F64)) (parent : F64) (feature : Nat) (best : Best F64)
    (v : F64 × F64) (hne : (v.1 == v.2) = false) (hs : Enough P nClasses S feature v) :
    ¬ (tryThreshold log2 P nClasses S parent feature best v).2.2 <
      decrease log2 P parent S.length (sideCounts nClasses S feature ((v.1 + v.2) / ((2 : Nat) : F64))) := by
  unfold tryThreshold
  rw [if_neg (by rw [hne]; exact Bool.false_ne_true)]
  dsimp only
  obtain ⟨h1, h2⟩ := hs
  rw [if_neg (by rintro (h | h) <;> omega)]
  split
  · exact lt_irrefl' _
  · assumption

/-- **C317** (part): if the rows whose value of a feature is missing come last in the data, every threshold of that feature that would be tried without them is
tried: the split found is at least as good (`sort.Slice` for up to twelve rows). Missing: other places, see `missing_hides_split`. -/
theorem missing_last_partial (log2 : F64 → F64) (P : Params F64) (nClasses nFeatures : Nat) (A B : List (Sample F64)) (parent : F64) (f : Nat) (hf : f < nFeatures)
    (hB : ∀ s ∈ B, s.1 f = nan) (v : F64 × F64)
    (hv : v ∈ (sortedValues goSort A f).zip (sortedValues goSort A f).tail) (hne : (v.1 == v.2) = false) (hs : Enough P nClasses (A ++ B) f v) :
    ¬ (findBestSplit log2 goSort P nClasses nFeatures (A ++ B) parent).2.2 <
      decrease log2 P parent (A ++ B).length (sideCounts nClasses (A ++ B) f ((v.1 + v.2) / ((2 : Nat) : F64))) := by
  have hsorted : ∃ t, sortedValues goSort (A ++ B) f = sortedValues goSort A f ++ t := by
    unfold sortedValues
    dsimp only
    have hr : List.range (A ++ B).length = List.range A.length ++ (List.range B.length).map (A.length + ·) := by
      rw [List.length_append, List.range_add]
    have hk : ∀ i ∈ (List.range B.length).map (A.length + ·), ((A ++ B).map fun s => s.1 f).getD i 0 = nan := by
      intro i hi
      obtain ⟨j, hj, rfl⟩ := List.mem_map.1 hi
      rw [List.map_append, List.getD_eq_getElem?_getD, List.getElem?_append_right (by rw [List.length_map]; omega), List.length_map, Nat.add_sub_cancel_left,
        ← List.getD_eq_getElem?_getD]
      have hj' := List.mem_range.1 hj
      rw [List.getD_eq_getElem?_getD, List.getElem?_map, List.getElem?_eq_getElem hj']
      exact hB _ (List.getElem_mem hj')
    rw [hr, goSort_missing_last _ _ _ hk, List.map_append]
    have hkey : ∀ i ∈ List.range A.length, ((A ++ B).map fun s => s.1 f).getD i 0 = (A.map fun s => s.1 f).getD i 0 := by
      intro i hi
      rw [List.map_append, List.getD_eq_getElem?_getD, List.getElem?_append_left (by rw [List.length_map]; exact List.mem_range.1 hi), ← List.getD_eq_getElem?_getD]
    have hgo : ∀ (k k' : Nat → F64) (l : List Nat), (∀ i ∈ l, k i = k' i) → goSort k l = goSort k' l := by
      intro k k' l h
      have hins : ∀ (x : Nat) (acc : List Nat), k x = k' x → (∀ i ∈ acc, k i = k' i) → insertDown k x acc = insertDown k' x acc := by
        intro x acc hx
        induction acc with
        | nil => exact fun _ => rfl
        | cons y ys ih =>
          intro hacc
          unfold insertDown
          rw [hx, hacc y (List.mem_cons_self ..), ih fun i hi => hacc i (List.mem_cons_of_mem _ hi)]
      have hfold : ∀ (l acc : List Nat), (∀ i ∈ l, k i = k' i) → (∀ i ∈ acc, k i = k' i) →
          l.foldl (fun acc x => insertDown k x acc) acc = l.foldl (fun acc x => insertDown k' x acc) acc := by
        intro l
        induction l with
        | nil => exact fun _ _ _ => rfl
        | cons x l ih =>
          intro acc hl hacc
          have hx := hl x (List.mem_cons_self ..)
          rw [List.foldl_cons, List.foldl_cons, hins x acc hx hacc]
          refine ih _ (fun i hi => hl i (List.mem_cons_of_mem _ hi)) fun i hi => ?_
          rcases List.mem_cons.1 ((insertDown_perm k' x acc).subset hi) with rfl | hi
          · exact hx
          · exact hacc i hi
      unfold goSort
      rw [hfold l [] h (fun i hi => by cases hi)]
    rw [hgo _ _ _ hkey]
    refine ⟨_, congrArg (· ++ _) (List.map_congr_left fun i hi => hkey i ((goSort_perm _ _).subset hi))⟩
  obtain ⟨t, ht⟩ := hsorted
  have hmem : v ∈ (sortedValues goSort (A ++ B) f).zip (sortedValues goSort (A ++ B) f).tail := by
    rw [ht]
    generalize sortedValues goSort A f = vs at hv
    cases vs with
    | nil => cases hv
    | cons a vs =>
      have hzip : ∀ (xs ys us ws : List F64), v ∈ xs.zip ys → ys.length ≤ xs.length → (∃ r, us = xs ++ r) → (∃ r, ws = ys ++ r) → v ∈ us.zip ws := by
        intro xs
        induction xs with
        | nil => intro ys us ws h; cases h
        | cons x xs ih =>
          intro ys us ws h hl hu hw
          cases ys with
          | nil => cases h
          | cons y ys =>
            obtain ⟨r, rfl⟩ := hu
            obtain ⟨r', rfl⟩ := hw
            rcases List.mem_cons.1 h with rfl | h
            · exact List.mem_cons_self ..
            · exact List.mem_cons_of_mem _ (ih ys _ _ h (by simpa using hl) ⟨r, rfl⟩ ⟨r', rfl⟩)
      exact hzip (a :: vs) vs _ _ hv (by simp) ⟨t, rfl⟩ ⟨t, rfl⟩
  generalize hd : decrease log2 P parent (A ++ B).length (sideCounts nClasses (A ++ B) f ((v.1 + v.2) / ((2 : Nat) : F64))) = d
  have keep : ∀ (g : Nat) (ps : List (F64 × F64)) (best : Best F64), ¬ best.2.2 < d →
      ¬ (ps.foldl (tryThreshold log2 P nClasses (A ++ B) parent g) best).2.2 < d := by
    intro g ps
    induction ps with
    | nil => exact fun _ h => h
    | cons p ps ih => exact fun best h => ih _ (try_covers log2 P nClasses (A ++ B) parent g best d h p)
  have hit : ∀ (ps : List (F64 × F64)) (best : Best F64), v ∈ ps →
      ¬ (ps.foldl (tryThreshold log2 P nClasses (A ++ B) parent f) best).2.2 < d := by
    intro ps
    induction ps with
    | nil => intro _ h; cases h
    | cons p ps ih =>
      intro best h
      rw [List.foldl_cons]
      rcases List.mem_cons.1 h with rfl | h
      · exact keep f ps _ (hd ▸ try_self log2 P nClasses (A ++ B) parent f best v hne hs)
      · exact ih _ h
  unfold findBestSplit
  have outer : ∀ (fs : List Nat) (best : Best F64), f ∈ fs ∨ ¬ best.2.2 < d →
      ¬ (fs.foldl (fun best feature =>
        let vs := sortedValues goSort (A ++ B) feature
        (vs.zip vs.tail).foldl (tryThreshold log2 P nClasses (A ++ B) parent feature) best) best).2.2 < d := by
    intro fs
    induction fs with
    | nil =>
      intro best h
      rcases h with h | h
      · cases h
      · exact h
    | cons g fs ih =>
      intro best h
      rw [List.foldl_cons]
      refine ih _ ?_
      rcases h with h | h
      · rcases List.mem_cons.1 h with rfl | h
        · exact Or.inr (hit _ _ hmem)
        · exact Or.inl h
      · exact Or.inr (keep g _ _ h)
  exact outer _ _ (Or.inl (List.mem_range.2 hf))

/-- **C317** (part): whatever the order of the rows, no split has a missing threshold, and a feature that is missing in all rows is never used -/
theorem missing_never_threshold (log2 : F64 → F64) (srt : (Nat → F64) → List Nat → List Nat) (hsrt : ∀ key l, ∀ i ∈ srt key l, i ∈ l) (P : Params F64)
    (hP : 1 ≤ P.minSamplesLeaf) (nClasses nFeatures : Nat) (S : List (Sample F64)) (parent : F64) :
    (findBestSplit log2 srt P nClasses nFeatures S parent).2.1 ≠ nan ∧
      ∀ f, (∀ s ∈ S, s.1 f = nan) → (findBestSplit log2 srt P nClasses nFeatures S parent).1 ≠ some f := by
  have hz : (0 : F64) ≠ nan := by decide +kernel
  have step : ∀ (g : Nat) (best : Best F64) (v : F64 × F64), best.2.1 ≠ nan →
      (tryThreshold log2 P nClasses S parent g best v).2.1 ≠ nan := by
    intro g best v h
    unfold tryThreshold
    split
    · exact h
    · dsimp only
      split
      · exact h
      · rename_i hc
        split
        · intro e
          apply hc
          left
          dsimp only at e
          rw [e, sides_nan]
          exact_mod_cast hP
        · exact h
  have inner : ∀ (g : Nat) (ps : List (F64 × F64)) (best : Best F64), best.2.1 ≠ nan →
      (ps.foldl (tryThreshold log2 P nClasses S parent g) best).2.1 ≠ nan := by
    intro g ps
    induction ps with
    | nil => exact fun _ h => h
    | cons p ps ih => exact fun best h => ih _ (step g best p h)
  refine ⟨?_, fun f hf => ?_⟩
  · unfold findBestSplit
    have : ∀ (fs : List Nat) (best : Best F64), best.2.1 ≠ nan → (fs.foldl (fun best feature =>
        let vs := sortedValues srt S feature
        (vs.zip vs.tail).foldl (tryThreshold log2 P nClasses S parent feature) best) best).2.1 ≠ nan := by
      intro fs
      induction fs with
      | nil => exact fun _ h => h
      | cons g fs ih => exact fun best h => ih _ (inner g _ _ h)
    exact this _ _ hz
  · have hvs : ∀ v ∈ sortedValues srt S f, v = nan := by
      intro v hv
      unfold sortedValues at hv
      obtain ⟨i, hi, rfl⟩ := List.mem_map.1 hv
      have hi' := List.mem_range.1 (hsrt _ _ i hi)
      rw [List.getD_eq_getElem?_getD, List.getElem?_map, List.getElem?_eq_getElem hi']
      exact hf _ (List.getElem_mem hi')
    have skip : ∀ (ps : List (F64 × F64)) (best : Best F64), (∀ p ∈ ps, p.1 = nan) →
        ps.foldl (tryThreshold log2 P nClasses S parent f) best = best := by
      intro ps
      induction ps with
      | nil => exact fun _ _ => rfl
      | cons p ps ih =>
        intro best hp
        rw [List.foldl_cons, try_nan log2 P hP nClasses S parent f best p (Or.inl (hp p (List.mem_cons_self ..)))]
        exact ih best fun q hq => hp q (List.mem_cons_of_mem _ hq)
    have other : ∀ (g : Nat), g ≠ f → ∀ (ps : List (F64 × F64)) (best : Best F64), best.1 ≠ some f →
        (ps.foldl (tryThreshold log2 P nClasses S parent g) best).1 ≠ some f := by
      intro g hg ps
      induction ps with
      | nil => exact fun _ h => h
      | cons p ps ih =>
        intro best h
        refine ih _ ?_
        unfold tryThreshold
        split
        · exact h
        · dsimp only
          split
          · exact h
          · split
            · exact fun e => hg (Option.some.inj e)
            · exact h
    unfold findBestSplit
    have : ∀ (fs : List Nat) (best : Best F64), best.1 ≠ some f → (fs.foldl (fun best feature =>
        let vs := sortedValues srt S feature
        (vs.zip vs.tail).foldl (tryThreshold log2 P nClasses S parent feature) best) best).1 ≠ some f := by
      intro fs
      induction fs with
      | nil => exact fun _ h => h
      | cons g fs ih =>
        intro best h
        rw [List.foldl_cons]
        refine ih _ ?_
        by_cases hg : g = f
        · subst hg
          dsimp only
          rw [skip _ best fun p hp => hvs _ (List.of_mem_zip hp).1]
          exact h
        · exact other g hg _ _ h
    exact this _ _ (by simp)

/-- **C317**: a missing value goes right at every split on its feature, in training and in prediction -/
theorem missing_goes_right (S : List (Sample F64)) (f : Nat) (thr : F64) (s : Sample F64) (hs : s ∈ S) (hm : s.1 f = nan) :
    s ∈ rightOf S f thr ∧ s ∉ leftOf S f thr ∧
      ∀ (cols : Nat) (info : Info F64) (l r : DTree F64), f < cols → (DTree.split info f thr l r).descend cols s.1 = r.descend cols s.1 := by
  refine ⟨List.mem_filter.2 ⟨hs, ?_⟩, fun h => ?_, fun cols info l r hc => ?_⟩
  · rw [hm, decide_eq_false (not_nan_le _)]; rfl
  · have := (List.mem_filter.1 h).2
    rw [hm, decide_eq_false (not_nan_le _)] at this
    cases this
  · show (if f < cols then if s.1 f ≤ thr then l.descend cols s.1 else r.descend cols s.1 else _) = _
    rw [if_pos hc, hm, if_neg (not_nan_le _)]

/-- a column of training data (input of sklearn/tree/tree.go:115) -/
def column (l : List F64) : Mat F64 := Mat.ofRows (l.map fun x => [x]) 1 0

/-- what a tree trained on one column predicts for it (sklearn/tree/tree.go:115-155, 447-471) -/
def trained (xs ys : List F64) : Option (Outcome (List Int)) :=
  ((Clf.new : Clf F64).fit id (fun x => match x with | .fin q => q.1.floor | _ => 0) goSort List.dedup ⟨"gini", 0, 2, 1, 0⟩ 4 (column xs) (column ys)).map
    fun t => t.1.predict (column xs)

/-- **C317**, negation: the values 3 and 1 of the classes 0 and 1 are separated, but no more once a row of class 0 with a missing value stands between them: then
every row gets the class 0. At the end of the data the same row does no harm. -/
theorem missing_hides_split :
    trained [F64.round 3, F64.round 1] [0, 1] = some (.ok [0, 1]) ∧
    trained [F64.round 3, nan, F64.round 1] [0, 0, 1] = some (.ok [0, 0, 0]) ∧
    trained [F64.round 3, F64.round 1, nan] [0, 1, 0] = some (.ok [0, 1, 0]) := by
  decide +kernel

/-- the rows of the last case meet the hypotheses of `missing_last_partial` -/
example : (F64.round 1, F64.round 3) ∈ (sortedValues goSort [(fun _ => F64.round 3, 0), (fun _ => F64.round 1, 1)] 0).zip
      (sortedValues goSort [((fun _ => F64.round 3, 0) : Sample F64), (fun _ => F64.round 1, 1)] 0).tail ∧ (F64.round 1 == F64.round 3) = false ∧
    Enough ⟨"gini", 0, 2, 1, 0⟩ 2 ([(fun _ => F64.round 3, 0), (fun _ => F64.round 1, 1)] ++ [(fun _ => nan, 0)]) 0 (F64.round 1, F64.round 3) := by
  have h : (sortedValues goSort [((fun _ => F64.round 3, 0) : Sample F64), (fun _ => F64.round 1, 1)] 0) = [F64.round 1, F64.round 3] := by decide +kernel
  rw [h]
  refine ⟨List.mem_cons_self .., ?_, ?_, ?_⟩ <;> decide +kernel

/-- Go's sort meets the hypothesis of `missing_never_threshold` -/
example (key : Nat → F64) (l : List Nat) : ∀ i ∈ goSort key l, i ∈ l := fun _ hi => (goSort_perm key l).subset hi

end Scigo.NonFinite
