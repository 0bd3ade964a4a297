import Verif.NonFinite.MetricsProps
import Verif.NonFinite.KMeansProps
import Verif.Trainer.Grow

/-!
# C318: a missing feature value in the training data of boosted trees
-/

set_option linter.unusedSectionVars false

namespace Scigo.NonFinite

open Scigo.Hist F64

/-- what `sort.Float64s` does: the values rearranged, the missing ones first, the others ascending -/
def Float64s (srt : List F64 → List F64) : Prop :=
  ∀ l, (srt l).Perm l ∧ (srt l).Pairwise fun a b => ¬ b < a ∧ (a = nan ∨ b ≠ nan)

/-- the loop collecting the values that differ from their predecessor; two missing values differ (sklearn/lightgbm/histogram_optimization.go:221-226) -/
def uniq64From (prev : F64) : List F64 → List F64
  | [] => []
  | b :: l => if b == prev then uniq64From b l else b :: uniq64From b l

/-- `unique`: sklearn/lightgbm/histogram_optimization.go:221-226 -/
def uniq64 : List F64 → List F64
  | [] => []
  | a :: l => a :: uniq64From a l

/-- `findBinBoundaries` with missing values: sklearn/lightgbm/histogram_optimization.go:214-262 -/
def bounds64 (L : Lits F64) (srt : List F64 → List F64) (maxBin : Nat) (values : List F64) : List F64 :=
  if values.length = 0 then [0, 1]
  else
    let sorted := srt values
    let unique := uniq64 sorted
    if unique.length ≤ maxBin then (unique.getD 0 0 - L.eps) :: unique.map (fun u => u + L.eps)
    else match quantileBounds L maxBin sorted with
      | [] => []
      | b :: l => b :: risingFrom b l

/-- `buildContinuousHistogram` with missing values: sklearn/lightgbm/histogram_optimization.go:119-158 -/
def hist64 (L : Lits F64) (srt : List F64 → List F64) (maxBin feature : Nat) (x g h : Nat → F64) (indices : List Nat) : Hist.Hist F64 :=
  let b := bounds64 L srt maxBin (indices.map x)
  ⟨feature, fill findBinIndex b x g h indices, b⟩

theorem beq_of (a b : F64) (h : ¬ (a = nan ∧ b = nan)) : (a == b) = decide (a = b) := by
  cases a <;> cases b <;> first | rfl | exact absurd ⟨rfl, rfl⟩ h

theorem uniq64From_eq (l : List F64) (prev : F64) (h : (prev :: l).countP (fun v => decide (v = nan)) ≤ 1) : uniq64From prev l = uniqFrom prev l := by
  induction l generalizing prev with
  | nil => rfl
  | cons b l ih =>
    have hb : ¬ (b = nan ∧ prev = nan) := by
      rintro ⟨rfl, rfl⟩
      rw [List.countP_cons, List.countP_cons] at h
      simp at h
    have hl : (b :: l).countP (fun v => decide (v = nan)) ≤ 1 := (List.Sublist.countP_le (List.sublist_cons_self prev (b :: l))).trans h
    unfold uniq64From uniqFrom
    rw [beq_of b prev hb, ih b hl]
    by_cases e : b = prev <;> simp [e]

/-- with at most one missing value this is the histogram of `Verif/Hist/Model.lean` -/
theorem hist64_eq (L : Lits F64) (srt : List F64 → List F64) (hsrt : Float64s srt) (maxBin feature : Nat) (x g h : Nat → F64) (indices : List Nat)
    (hc : (indices.map x).countP (fun v => decide (v = nan)) ≤ 1) : hist64 L srt maxBin feature x g h indices = buildContinuous L srt maxBin feature x g h indices := by
  have hu : uniq64 (srt (indices.map x)) = uniq (srt (indices.map x)) := by
    have := (hsrt (indices.map x)).1.countP_eq (fun v => decide (v = nan))
    generalize srt (indices.map x) = s at this
    cases s with
    | nil => rfl
    | cons a l =>
      show a :: uniq64From a l = a :: uniqFrom a l
      rw [uniq64From_eq l a (by omega)]
  have hb : bounds64 L srt maxBin (indices.map x) = findBinBoundaries L srt maxBin (indices.map x) := by
    unfold bounds64 findBinBoundaries
    dsimp only
    rw [hu]
    rfl
  unfold hist64 buildContinuous
  dsimp only
  rw [hb]

theorem uniq64From_subset (l : List F64) (prev : F64) : ∀ u ∈ uniq64From prev l, u ∈ l := by
  induction l generalizing prev with
  | nil => exact fun u h => h
  | cons b l ih =>
    intro u hu
    unfold uniq64From at hu
    split at hu
    · exact List.mem_cons_of_mem _ (ih b u hu)
    · rcases List.mem_cons.1 hu with rfl | hu
      · exact List.mem_cons_self ..
      · exact List.mem_cons_of_mem _ (ih b u hu)

theorem uniq64_subset (l : List F64) : ∀ u ∈ uniq64 l, u ∈ l := by
  cases l with
  | nil => exact fun u h => h
  | cons a l =>
    intro u hu
    rcases List.mem_cons.1 hu with rfl | hu
    · exact List.mem_cons_self ..
    · exact List.mem_cons_of_mem _ (uniq64From_subset l a u hu)

/-- missing values are sorted to the front -/
theorem sorted_nan (srt : List F64 → List F64) (hsrt : Float64s srt) (values : List F64) (hn : nan ∈ values) : ∃ l, srt values = nan :: l := by
  obtain ⟨hp, hs⟩ := hsrt values
  have hm : nan ∈ srt values := hp.symm.subset hn
  generalize srt values = s at hm hs
  cases s with
  | nil => cases hm
  | cons a l =>
    refine ⟨l, ?_⟩
    rcases List.mem_cons.1 hm with e | hm
    · rw [← e]
    · rcases ((List.pairwise_cons.1 hs).1 nan hm).2 with e | e
      · rw [e]
      · exact absurd rfl e

theorem rising_nan (l : List F64) : risingFrom nan l = [] := by
  induction l with
  | nil => rfl
  | cons b l ih =>
    unfold risingFrom
    rw [if_neg (not_nan_lt b), ih]

/-- **C318**, negation for features with more different values than bins: a single missing value among the rows of a node leaves the feature without bins, and
no split of that feature is found, whatever the other rows are -/
theorem missing_disables_feature (L : Lits F64) (srt : List F64 → List F64) (hsrt : Float64s srt) (hb : Builder F64) (feature : Nat) (x g h : Nat → F64)
    (indices : List Nat) (hn : nan ∈ indices.map x) (hm : hb.maxBin < (uniq64 (srt (indices.map x))).length) (special : F64 → Bool) (tg th : F64) (minData : Int) :
    (hist64 L srt hb.maxBin feature x g h indices).bins = [] ∧
      hb.findSplit L special (hist64 L srt hb.maxBin feature x g h indices) tg th minData = noSplit feature 0 := by
  have hbins : (hist64 L srt hb.maxBin feature x g h indices).bins = [] := by
    obtain ⟨l, hl⟩ := sorted_nan srt hsrt _ hn
    have hbounds : bounds64 L srt hb.maxBin (indices.map x) = [nan] := by
      unfold bounds64
      rw [if_neg (by intro e; rw [List.length_eq_zero_iff.1 e] at hn; cases hn)]
      dsimp only
      rw [if_neg (by omega), hl]
      show (nan - L.eps) :: risingFrom (nan - L.eps) _ = _
      rw [nan_sub, rising_nan]
    unfold hist64
    dsimp only
    rw [hbounds]
    unfold fill
    have : ∀ (I : List Nat), I.foldl (fun bins idx => addRow findBinIndex [nan] (x idx) (g idx) (h idx) bins) ([] : List (Bin F64)) = [] := by
      intro I
      induction I with
      | nil => rfl
      | cons i I ih =>
        rw [List.foldl_cons]
        have : addRow findBinIndex [nan] (x i) (g i) (h i) ([] : List (Bin F64)) = [] := by
          unfold addRow
          split <;> simp
        rw [this, ih]
    exact this indices
  refine ⟨hbins, ?_⟩
  unfold Builder.findSplit Builder.scan
  rw [hbins]
  rfl

/-- a bin found by the search begins at or below the value -/
theorem search_below (v : F64) (b : List F64) (hv : ∀ k : Nat, k + 1 < b.length → ¬ b.getD k 0 ≤ v) (n : Nat) (left right : Int) (hl : 0 ≤ left)
    (hr : right ≤ (b.length : Int) - 2) (hn : (right + 1 - left).toNat ≤ n) : searchBin v b left right = none := by
  induction n generalizing left right with
  | zero =>
    unfold searchBin
    rw [if_neg (by omega)]
  | succ n ih =>
    unfold searchBin
    split
    · dsimp only
      rw [if_neg (fun h => hv _ (by omega) h.1)]
      split
      · exact ih _ _ hl (by omega) (by omega)
      · exact ih _ _ (by omega) hr (by omega)
    · rfl

/-- **C318** (part): a row whose value is missing is counted in the last bin, the side to which training sends it -/
theorem missing_in_last_bin (b : List F64) : findBinIndex nan b = (b.length : Int) - 2 := by
  unfold findBinIndex
  rw [search_below nan b (fun _ _ => not_le_nan _) _ 0 _ le_rfl le_rfl le_rfl]
  dsimp only
  rw [if_neg (not_nan_lt _)]

theorem round_mono' {p q : ℚ} (h : p ≤ q) : ¬ F64.round q < F64.round p := by
  have hm := Binary64.rnd_mono h
  unfold F64.round
  split
  · split
    · exact fun h' => not_lt.2 hm (of_decide_eq_true h')
    · rename_i h1 h2
      rw [abs_le] at h1
      rw [not_le, lt_abs] at h2
      rcases h2 with h2 | h2
      · exact absurd (hm.trans h1.2) (not_le.2 h2)
      · have : p < 0 := by
          by_contra hp
          have h3 := Binary64.rnd_mono (not_lt.1 hp)
          have h4 : Binary64.rnd 0 = 0 := by decide +kernel
          rw [h4] at h3
          have := maxF64_pos
          linarith
        rw [decide_eq_true this]
        exact Bool.false_ne_true
  · rename_i h1
    split
    · rename_i h2
      rw [abs_le] at h2
      rw [not_le, lt_abs] at h1
      rcases h1 with h1 | h1
      · have : ¬ q < 0 := by
          intro hq
          have h3 := Binary64.rnd_mono hq.le
          have h4 : Binary64.rnd 0 = 0 := by decide +kernel
          rw [h4] at h3
          have := maxF64_pos
          linarith
        rw [decide_eq_false this]
        exact Bool.false_ne_true
      · linarith
    · by_cases hq : q < 0
      · rw [decide_eq_true hq, decide_eq_true (lt_of_le_of_lt h hq)]
        exact Bool.false_ne_true
      · rw [decide_eq_false hq]
        exact Bool.false_ne_true

/-- a value that is not smaller has no smaller bound -/
theorem bound_above {v w e : F64} (hvw : ¬ w < v) (hv : v < v + e) : ¬ w + e ≤ v := by
  cases w with
  | nan => rw [nan_add]; exact not_nan_le _
  | inf s =>
    cases e with
    | nan => rw [add_nan] at hv; exact absurd hv (not_lt_nan _)
    | fin e =>
      cases v with
      | nan => exact absurd hv (not_nan_lt _)
      | inf t => cases t <;> exact absurd hv Bool.false_ne_true
      | fin p =>
        cases s with
        | true => exact absurd rfl hvw
        | false => rintro (h | h) <;> cases h
    | inf t =>
      cases v with
      | nan => exact absurd hv (not_nan_lt _)
      | inf r => cases r <;> cases t <;> exact absurd hv Bool.false_ne_true
      | fin p =>
        cases s with
        | true => exact absurd rfl hvw
        | false => cases t <;> first | exact absurd hv Bool.false_ne_true | rintro (h | h) <;> cases h
  | fin q =>
    cases v with
    | nan => exact absurd hv (not_nan_lt _)
    | inf t =>
      cases t with
      | false => exact absurd rfl hvw
      | true => cases e with
        | nan => exact absurd hv Bool.false_ne_true
        | fin e => exact absurd hv Bool.false_ne_true
        | inf r => cases r <;> exact absurd hv Bool.false_ne_true
    | fin p =>
      cases e with
      | nan => exact absurd hv Bool.false_ne_true
      | inf r =>
        cases r with
        | true => exact absurd hv Bool.false_ne_true
        | false => rintro (h | h) <;> cases h
      | fin e =>
        have hpq : p.1 ≤ q.1 := not_lt.1 fun h => hvw (decide_eq_true h)
        have hm : ¬ F64.round (q.1 + e.1) < F64.round (p.1 + e.1) := round_mono' (by linarith)
        rintro (h | h)
        · exact hm (lt_trans' h hv)
        · have : F64.round (q.1 + e.1) = F64.fin p := by
            have h' : ((F64.round (q.1 + e.1)) == F64.fin p) = true := h
            rw [beq_of _ _ (by rintro ⟨-, h⟩; cases h)] at h'
            exact of_decide_eq_true h'
          rw [this] at hm
          exact hm hv

/-- **C318**, negation for features with few different values: once one value is missing, the rows with the smallest value of the feature are counted in the
last bin, with the largest values, although every threshold sends them left -/
theorem missing_moves_smallest (L : Lits F64) (srt : List F64 → List F64) (hsrt : Float64s srt) (maxBin : Nat) (values : List F64) (hn : nan ∈ values)
    (hm : (uniq64 (srt values)).length ≤ maxBin) (v : F64) (hmin : ∀ w ∈ values, ¬ w < v) (he : v < v + L.eps) :
    findBinIndex v (bounds64 L srt maxBin values) = ((bounds64 L srt maxBin values).length : Int) - 2 ∧
      ∀ k, 1 < k → k < (bounds64 L srt maxBin values).length → (bounds64 L srt maxBin values).getD k 0 ≠ nan → v ≤ (bounds64 L srt maxBin values).getD k 0 := by
  obtain ⟨l, hl⟩ := sorted_nan srt hsrt values hn
  have hb : bounds64 L srt maxBin values = nan :: (uniq64 (srt values)).map (fun u => u + L.eps) := by
    unfold bounds64
    rw [if_neg (by intro e; rw [List.length_eq_zero_iff.1 e] at hn; cases hn)]
    dsimp only
    rw [if_pos hm, hl]
    show (nan - L.eps) :: _ = _
    rw [nan_sub]
  have hall : ∀ k, k < (bounds64 L srt maxBin values).length → ¬ (bounds64 L srt maxBin values).getD k 0 ≤ v := by
    intro k hk
    rw [List.getD_eq_getElem?_getD, List.getElem?_eq_getElem hk]
    have hmem := List.getElem_mem hk
    generalize (bounds64 L srt maxBin values)[k] = c at hmem
    show ¬ c ≤ v
    rw [hb] at hmem
    rcases List.mem_cons.1 hmem with rfl | hmem
    · exact not_nan_le _
    · obtain ⟨u, hu, rfl⟩ := List.mem_map.1 hmem
      exact bound_above (hmin u ((hsrt values).1.subset (uniq64_subset _ u hu))) he
  refine ⟨?_, fun k _ hk hne => ?_⟩
  · unfold findBinIndex
    rw [search_below v _ (fun k hk => hall k (by omega)) _ 0 _ le_rfl le_rfl le_rfl]
    dsimp only
    rw [if_neg]
    rw [hb]
    exact not_lt_nan _
  · have h1 := hall k hk
    have hv : v ≠ nan := fun e => not_nan_lt _ (e ▸ he)
    generalize (bounds64 L srt maxBin values).getD k 0 = c at hne h1
    left
    cases v with
    | nan => exact absurd rfl hv
    | fin p => cases c with
      | nan => exact absurd rfl hne
      | fin q =>
        refine decide_eq_true (not_le.1 fun hle => h1 ?_)
        rcases lt_or_eq_of_le hle with h | h
        · exact Or.inl (decide_eq_true h)
        · right
          show decide (F64.fin q = F64.fin p) = true
          exact decide_eq_true (congrArg F64.fin (Subtype.ext h))
      | inf s =>
        cases s with
        | false => rfl
        | true => exact absurd (Or.inl rfl) h1
    | inf t => cases c with
      | nan => exact absurd rfl hne
      | fin q =>
        cases t with
        | true => rfl
        | false => exact absurd (Or.inl rfl) h1
      | inf s => cases s <;> cases t <;> first | rfl | exact absurd (Or.inl rfl) h1 | exact absurd (Or.inr rfl) h1

/-- **C318** (part): the split found for a feature does not depend on missing values of other features -/
theorem missing_elsewhere_partial (lib : Trainer.Lib F64) (hb : Builder F64) (categorical : List Int) (minData : Int) (D : Trainer.Data F64)
    (x' : Nat → Nat → F64) (indices : List Nat) (j : Nat) (hx : ∀ i, x' i j = D.x i j) :
    Trainer.featureSplit lib hb categorical minData { D with x := x' } indices j = Trainer.featureSplit lib hb categorical minData D indices j := by
  unfold Trainer.featureSplit
  simp only [funext hx]

/-- a new value goes before the first that does not precede it (`sort.Float64s`, sklearn/lightgbm/histogram_optimization.go:218) -/
def ins64 (x : F64) : List F64 → List F64
  | [] => [x]
  | y :: ys => if y < x ∨ (y = nan ∧ x ≠ nan) then y :: ins64 x ys else x :: y :: ys

/-- `sort.Float64s`: sklearn/lightgbm/histogram_optimization.go:218 -/
def sort64 (l : List F64) : List F64 := l.foldr ins64 []

theorem ins64_perm (x : F64) (l : List F64) : (ins64 x l).Perm (x :: l) := by
  induction l with
  | nil => exact List.Perm.refl _
  | cons y ys ih =>
    unfold ins64
    split
    · exact (ih.cons y).trans (List.Perm.swap x y ys)
    · exact List.Perm.refl _

theorem asymm' {a b : F64} (h : a < b) : ¬ b < a := fun h' => by
  have := lt_trans' h h'
  cases a with
  | nan => exact not_nan_lt _ this
  | fin p => exact lt_irrefl _ (of_decide_eq_true this)
  | inf s => cases s <;> exact Bool.false_ne_true this

theorem not_lt_trans' {a b c : F64} (hb : b ≠ nan) (h1 : ¬ b < a) (h2 : ¬ c < b) : ¬ c < a := by
  cases a with
  | nan => exact not_lt_nan _
  | fin p => cases b with
    | nan => exact absurd rfl hb
    | fin q => cases c with
      | nan => exact not_nan_lt _
      | fin r =>
        exact fun h => h2 (decide_eq_true (lt_of_lt_of_le (of_decide_eq_true h) (not_lt.1 fun h' => h1 (decide_eq_true h'))))
      | inf s => exact h2
    | inf t =>
      cases t with
      | true => exact absurd rfl h1
      | false => cases c with
        | nan => exact not_nan_lt _
        | fin r => exact absurd rfl h2
        | inf s => cases s <;> first | exact absurd rfl h2 | exact Bool.false_ne_true
  | inf t => cases b with
    | nan => exact absurd rfl hb
    | fin q =>
      cases t with
      | false => exact absurd rfl h1
      | true => cases c with
        | nan => exact not_nan_lt _
        | fin r => exact Bool.false_ne_true
        | inf s => cases s <;> exact Bool.false_ne_true
    | inf u => cases c with
      | nan => exact not_nan_lt _
      | fin r => cases t <;> cases u <;> first | exact absurd rfl h1 | exact absurd rfl h2 | exact Bool.false_ne_true
      | inf s => cases s <;> cases t <;> cases u <;> first | exact absurd rfl h1 | exact absurd rfl h2 | exact Bool.false_ne_true

/-- Go's order of numbers is met by an insertion sort -/
theorem sort64_sorts : Float64s sort64 := by
  intro l
  induction l with
  | nil => exact ⟨List.Perm.refl _, List.Pairwise.nil⟩
  | cons x l ih =>
    obtain ⟨hp, hs⟩ := ih
    refine ⟨(ins64_perm x _).trans (hp.cons x), ?_⟩
    show (ins64 x (sort64 l)).Pairwise _
    generalize sort64 l = s at hs
    clear hp
    induction s with
    | nil => exact List.pairwise_singleton _ _
    | cons y ys ih =>
      obtain ⟨h1, h2⟩ := List.pairwise_cons.1 hs
      unfold ins64
      split
      · rename_i hlt
        refine List.pairwise_cons.2 ⟨fun z hz => ?_, ih h2⟩
        rcases List.mem_cons.1 ((ins64_perm x ys).subset hz) with rfl | hz
        · rcases hlt with h | ⟨rfl, h⟩
          · exact ⟨asymm' h, Or.inr fun e => not_lt_nan _ (e ▸ h)⟩
          · exact ⟨not_lt_nan _, Or.inl rfl⟩
        · exact h1 z hz
      · rename_i hlt
        obtain ⟨h3, h4⟩ := not_or.1 hlt
        by_cases hx : x = nan
        · subst hx
          exact List.pairwise_cons.2 ⟨fun z _ => ⟨not_lt_nan _, Or.inl rfl⟩, hs⟩
        · have hy : y ≠ nan := fun e => h4 ⟨e, hx⟩
          refine List.pairwise_cons.2 ⟨fun z hz => ?_, hs⟩
          rcases List.mem_cons.1 hz with rfl | hz
          · exact ⟨h3, Or.inr hy⟩
          · obtain ⟨h5, h6⟩ := h1 z hz
            exact ⟨not_lt_trans' hy h3 h5, Or.inr (h6.resolve_left hy)⟩

/-- the library in `float64` for numerical features (sklearn/lightgbm/histogram_optimization.go:214-262, 423-455) -/
def lib64 : Trainer.Lib F64 where
  lits := ⟨F64.round (1 / 10 ^ 10), F64.round (1 / 10 ^ 16), F64.round (1 / 2)⟩
  eps := F64.round (1 / 10 ^ 10)
  special := fun a => !decide a.IsFin
  srt := sort64
  iter := id
  byCategory := id
  byRatio := id
  catByRatio := id
  toInt := fun _ => 0
  ofInt := fun n => F64.round n
  scale := fun n _ => n

/-- one column with gradients, all hessians 1 (input of sklearn/lightgbm/trainer.go:1026) -/
def columnData (xs gs : List F64) : Trainer.Data F64 := ⟨1, fun i _ => xs.getD i 0, fun i => gs.getD i 0, fun _ => 1⟩

/-- the trainer on such a column: at most 255 bins, no penalties, one row per leaf (sklearn/lightgbm/trainer.go:1026-1139) -/
def columnGrower (xs gs : List F64) : Trainer.Grower F64 := Trainer.grower lib64 ⟨255, 0, 0⟩ ⟨-1, 31, 1, F64.round (1 / 10), none⟩ [] (columnData xs gs)

/-- **C318**, negation: the rows 1 and 2 are split, but not once a row with a missing value is added; and with the rows 1, 2, 3 and a missing value the split is
chosen for a left side of one row, while two rows go left -/
theorem missing_hides_boosted_split :
    ((columnGrower [1, F64.round 2] [1, -1]).find [0, 1]).leftCount = 1 ∧
    (columnGrower [1, F64.round 2] [1, -1]).refuses ((columnGrower [1, F64.round 2] [1, -1]).find [0, 1]) = false ∧
    (columnGrower [1, F64.round 2, nan] [1, -1, 0]).refuses ((columnGrower [1, F64.round 2, nan] [1, -1, 0]).find [0, 1, 2]) = true ∧
    ((columnGrower [1, F64.round 2, F64.round 3, nan] [1, -1, 1, 1]).find [0, 1, 2, 3]).leftCount = 1 ∧
    (columnGrower [1, F64.round 2, F64.round 3, nan] [1, -1, 1, 1]).leftOf [0, 1, 2, 3]
      ((columnGrower [1, F64.round 2, F64.round 3, nan] [1, -1, 1, 1]).find [0, 1, 2, 3]) = [0, 1] := by
  decide +kernel

/-- a column meeting the hypotheses of `missing_moves_smallest` -/
example : nan ∈ [1, F64.round 2, nan] ∧ (uniq64 (sort64 [1, F64.round 2, nan])).length ≤ 255 ∧ (∀ w ∈ [1, F64.round 2, nan], ¬ w < (1 : F64)) ∧
    (1 : F64) < 1 + F64.round (1 / 10 ^ 10) := by
  refine ⟨by simp, by decide +kernel, ?_, by decide +kernel⟩
  simp only [List.forall_mem_cons]
  exact ⟨by decide +kernel, by decide +kernel, not_nan_lt _, fun w h => by cases h⟩

/-- and of `missing_disables_feature` with two bins -/
example : nan ∈ [1, F64.round 2, nan] ∧ 2 < (uniq64 (sort64 [1, F64.round 2, nan])).length := ⟨by simp, by decide +kernel⟩

end Scigo.NonFinite
