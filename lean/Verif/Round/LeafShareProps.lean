import Verif.Round.GiniProps
import Verif.Round.GainProps

/-!
# C323: probabilities and feature importances of a decision tree when every operation is rounded
-/

set_option linter.unusedSectionVars false

namespace Scigo.Round

open Scigo.Tree

variable {K : Type} [Field K] [LinearOrder K] [IsStrictOrderedRing K] {R : Rounding K} {eps eta : K}

theorem probaRow_map (counts : List Nat) (hpos : 0 < counts.sum) :
    (probaRow counts.length counts : List (Fl R)) = counts.map (fun c : Nat => (c : Fl R) / (counts.sum : Fl R)) := by
  have hf : counts.foldl (· + ·) 0 = counts.sum := List.sum_eq_foldl.symm
  unfold probaRow
  simp only [hf, if_pos hpos]
  apply List.ext_getElem
  · simp
  · intro i h1 h2
    have h3 : i < counts.length := by simpa using h2
    simp [h3]

/-- two shares with different counts are told apart -/
theorem share_lt (hR : R.Accurate eps eta) (he : 0 ≤ eps) (T : Nat) (hT : 0 < T) (hn : ∀ m ≤ T, R.rnd (m : K) = m)
    (hsm : 2 * T * (eps + eta) < 1) (c d : Nat) (hcd : c < d) (hd : d ≤ T) : (c : Fl R) / (T : Fl R) < (d : Fl R) / (T : Fl R) := by
  have hT0 : (0 : K) < T := by exact_mod_cast hT
  rw [Fl.lt_iff, Fl.val_div, Fl.val_div, Fl.val_natCast, Fl.val_natCast, Fl.val_natCast, hn c (by omega), hn d hd, hn T le_rfl]
  have h1 := abs_le.1 (hR ((c : K) / T))
  have h2 := abs_le.1 (hR ((d : K) / T))
  have c0 : (0 : K) ≤ (c : K) / T := by positivity
  have d0 : (0 : K) ≤ (d : K) / T := by positivity
  have d1 : (d : K) / T ≤ 1 := by
    rw [div_le_one hT0]; exact_mod_cast hd
  have hstep : (c : K) / T + 1 / T ≤ (d : K) / T := by
    rw [← add_div]
    exact div_le_div_of_nonneg_right (by exact_mod_cast hcd) hT0.le
  have hc1 : (c : K) / T ≤ 1 := le_trans (by linarith [show (0 : K) < 1 / T by positivity]) d1
  rw [abs_of_nonneg c0] at h1
  rw [abs_of_nonneg d0] at h2
  have e1 : eps * ((c : K) / T) ≤ eps := mul_le_of_le_one_right he hc1
  have e2 : eps * ((d : K) / T) ≤ eps := mul_le_of_le_one_right he d1
  have h3 : 2 * (eps + eta) < 1 / T := by
    rw [lt_div_iff₀ hT0]; linarith
  linarith [h1.2, h2.1]

/-- sum of rounded quotients by one divisor -/
theorem quotients_sum (hR : R.Accurate eps eta) {β : Type} (l : List β) (f : β → Fl R) (T : Fl R) (hT : 0 < T) (hf : ∀ x ∈ l, 0 ≤ f x) :
    |(l.map fun x => (f x / T).val).sum - (l.map fun x => (f x).val).sum / T.val| ≤ eps * ((l.map fun x => (f x).val).sum / T.val) + l.length * eta := by
  induction l with
  | nil => simp
  | cons x l ih =>
    have ih := ih fun y hy => hf y (List.mem_cons_of_mem _ hy)
    have hx0 : 0 ≤ (f x).val := hf x List.mem_cons_self
    have hT0 : 0 < T.val := hT
    have hx := hR ((f x).val / T.val)
    rw [abs_of_nonneg (div_nonneg hx0 hT0.le)] at hx
    simp only [List.map_cons, List.sum_cons, List.length_cons, Fl.val_div, add_div]
    simp only [Fl.val_div] at ih
    rw [show ∀ a b c d : K, a + b - (c + d) = (a - c) + (b - d) from fun _ _ _ _ => by ring]
    refine (abs_add_le _ _).trans ?_
    push_cast
    linarith

theorem natSum_cast (l : List Nat) : (l.map fun c : Nat => (c : K)).sum = (l.sum : K) := by
  induction l with
  | nil => simp
  | cons a l ih => rw [List.map_cons, List.sum_cons, List.sum_cons, ih, Nat.cast_add]

/-- rows that are told apart by their labels are counted once -/
theorem counted_once (cls : List Int) (hnd : cls.Nodup) (L : List Nat) (a : Nat → Prop) [DecidablePred a] (lab : Nat → Int) :
    (cls.map fun c => L.countP fun j => decide (a j ∧ lab j = c)).sum ≤ L.length := by
  induction L with
  | nil => simp
  | cons j L ih =>
    have e : (cls.map fun c => (j :: L).countP fun j => decide (a j ∧ lab j = c)).sum =
        (cls.map fun c => L.countP fun j => decide (a j ∧ lab j = c)).sum + (cls.map fun c => if a j ∧ lab j = c then 1 else 0).sum := by
      rw [← List.sum_map_add]
      congr 1
      apply List.map_congr_left
      intro c _
      rw [List.countP_cons]
      simp
    have h1 : ∀ l : List Int, (l.map fun c => if a j ∧ lab j = c then 1 else 0).sum ≤ l.count (lab j) := by
      intro l
      induction l with
      | nil => simp
      | cons c l ih2 =>
        rw [List.map_cons, List.sum_cons, List.count_cons]
        by_cases hc : lab j = c
        · by_cases ha : a j
          · simp [hc, ha] at ih2 ⊢; omega
          · simp [hc, ha] at ih2 ⊢
        · have : ¬ c = lab j := fun h => hc h.symm
          simp [hc, this] at ih2 ⊢; exact ih2
    have h2 := List.nodup_iff_count_le_one.1 hnd (lab j)
    have h3 := h1 cls
    rw [e, List.length_cons]
    omega

/-- one row of `PredictProba` -/
theorem proba_row_float (he : 0 ≤ eps) (hR : R.Accurate eps eta) (counts : List Nat) (hpos : 0 < counts.sum)
    (hn : ∀ m ≤ counts.sum, R.rnd (m : K) = m) :
    (probaRow counts.length counts : List (Fl R)).length = counts.length ∧
    (∀ p ∈ (probaRow counts.length counts : List (Fl R)), 0 ≤ p ∧ p ≤ 1) ∧
    |((probaRow counts.length counts : List (Fl R)).map Fl.val).sum - 1| ≤ eps + counts.length * eta ∧
    (2 * counts.sum * (eps + eta) < 1 → ∀ i < counts.length, ∀ j < counts.length,
      ((probaRow counts.length counts : List (Fl R)).getD i 0 < (probaRow counts.length counts : List (Fl R)).getD j 0 ↔ counts.getD i 0 < counts.getD j 0)) := by
  rw [probaRow_map counts hpos]
  have hT : (0 : Fl R) < (counts.sum : Fl R) := Fl.natCast_pos hpos
  have hT0 : (0 : K) < counts.sum := by exact_mod_cast hpos
  refine ⟨by simp, ?_, ?_, ?_⟩
  · intro p hp
    obtain ⟨c, hc, rfl⟩ := List.mem_map.1 hp
    exact ⟨Fl.div_nonneg' (Fl.natCast_nonneg' c) hT.le, Fl.div_le_one' (Fl.natCast_nonneg' c) (Fl.natCast_le (List.le_sum_of_mem hc))⟩
  · have h := quotients_sum hR counts (fun c : Nat => (c : Fl R)) (counts.sum : Fl R) hT (fun c _ => Fl.natCast_nonneg' c)
    have e : (counts.map fun c : Nat => ((c : Fl R)).val) = counts.map fun c : Nat => (c : K) :=
      List.map_congr_left fun c hc => hn c (List.le_sum_of_mem hc)
    rw [e, natSum_cast, Fl.val_natCast, hn _ le_rfl, div_self hT0.ne', mul_one] at h
    rw [List.map_map]
    exact h
  · intro hsm
    have lt : ∀ i < counts.length, ∀ j < counts.length, counts.getD i 0 < counts.getD j 0 →
        (counts.map (fun c : Nat => (c : Fl R) / (counts.sum : Fl R))).getD i 0 < (counts.map (fun c : Nat => (c : Fl R) / (counts.sum : Fl R))).getD j 0 := by
      intro i hi j hj hlt
      simp only [List.getD_eq_getElem?_getD, List.getElem?_map, List.getElem?_eq_getElem hi, List.getElem?_eq_getElem hj, Option.map_some, Option.getD_some] at hlt ⊢
      exact share_lt hR he _ hpos hn hsm _ _ hlt (List.le_sum_of_mem (List.getElem_mem hj))
    intro i hi j hj
    refine ⟨fun h => ?_, lt i hi j hj⟩
    rcases lt_trichotomy (counts.getD i 0) (counts.getD j 0) with h' | h' | h'
    · exact h'
    · exfalso
      simp only [List.getD_eq_getElem?_getD, List.getElem?_map, List.getElem?_eq_getElem hi, List.getElem?_eq_getElem hj, Option.map_some, Option.getD_some] at h h'
      rw [h'] at h
      exact lt_irrefl _ h
    · exact absurd (lt j hj i hi h') (not_lt.2 h.le)

/-! ## Importances -/

theorem credit_nonneg_float (gs : List (Nat × Fl R)) (l : List (Fl R)) (hg : ∀ g ∈ gs, 0 ≤ g.2) (h : ∀ x ∈ l, 0 ≤ x) : ∀ x ∈ credit l gs, 0 ≤ x := by
  induction gs generalizing l with
  | nil => exact h
  | cons g gs ih =>
    unfold credit
    rw [List.foldl_cons]
    apply ih _ (fun g' hg' => hg g' (by simp [hg']))
    intro x hx
    obtain ⟨i, hi, rfl⟩ := List.mem_iff_getElem.1 hx
    rw [List.getElem_modify]
    have hi' : i < l.length := by simpa using hi
    have h1 := h l[i] (List.getElem_mem hi')
    split
    · exact Fl.add_nonneg' h1 (hg g (by simp))
    · exact h1

theorem credit_length {α : Type _} [Add α] (gs : List (Nat × α)) (l : List α) : (credit l gs).length = l.length := by
  induction gs generalizing l with
  | nil => rfl
  | cons g gs ih =>
    unfold credit
    rw [List.foldl_cons]
    have := ih (l.modify g.1 (· + g.2))
    unfold credit at this
    rw [this, List.length_modify]

theorem credit_other (gs : List (Nat × Fl R)) (l : List (Fl R)) (f : Nat) (h : f ∉ gs.map Prod.fst) : (credit l gs).getD f 0 = l.getD f 0 := by
  induction gs generalizing l with
  | nil => rfl
  | cons g gs ih =>
    unfold credit
    rw [List.foldl_cons]
    have h' : f ≠ g.1 ∧ f ∉ gs.map Prod.fst := by simpa using h
    have := ih (l.modify g.1 (· + g.2)) h'.2
    unfold credit at this
    rw [this, List.getD_eq_getElem?_getD, List.getD_eq_getElem?_getD, List.getElem?_modify]
    simp [Ne.symm h'.1]

/-- the normalised list: entries in [0, 1] and a sum close to one -/
theorem normalize_float (he : 0 ≤ eps) (hR : R.Accurate eps eta) (hA : R.AddAccurate eps) (l : List (Fl R)) (hl : ∀ x ∈ l, 0 ≤ x)
    (hg : (1 + eps) ^ l.length < 2) (h0 : ∃ x ∈ l, x ≠ 0) :
    (∀ p ∈ Tree.normalize l, 0 ≤ p ∧ p ≤ 1) ∧
    |((Tree.normalize l).map Fl.val).sum - 1| ≤ ((1 + eps) ^ l.length - 1 + eps) / (2 - (1 + eps) ^ l.length) + l.length * eta := by
  have hsum : l.foldl (· + ·) 0 = sumOver l id := rfl
  have hterm := term_le_sumOver l id hl
  obtain ⟨x, hx, hx0⟩ := h0
  have hxpos : 0 < x := lt_of_le_of_ne (hl x hx) (Ne.symm hx0)
  have hT : 0 < sumOver l id := lt_of_lt_of_le hxpos (hterm x hx)
  unfold Tree.normalize
  simp only [hsum, if_pos hT]
  constructor
  · intro p hp
    obtain ⟨y, hy, rfl⟩ := List.mem_map.1 hp
    exact ⟨Fl.div_nonneg' (hl y hy) hT.le, Fl.div_le_one' (hl y hy) (hterm y hy)⟩
  · set T := (sumOver l id).val with hTdef
    set S := (l.map Fl.val).sum with hS
    have hT0 : 0 < T := hT
    set g := (1 + eps) ^ l.length - 1 with hgdef
    have hg0 : 0 ≤ g := by
      have := one_le_pow₀ (n := l.length) (show (1 : K) ≤ 1 + eps by linarith)
      linarith
    have habs : (l.map fun i => |(id i : Fl R).val|).sum = S := by
      rw [hS]
      congr 1
      exact List.map_congr_left fun y hy => abs_of_nonneg (hl y hy)
    have h1 := sum_list_error he hA l (id : Fl R → Fl R)
    rw [habs] at h1
    change |T - S| ≤ g * S at h1
    have h2 := quotients_sum hR l (id : Fl R → Fl R) (sumOver l id) hT hl
    change |(l.map fun x => (x / sumOver l id).val).sum - S / T| ≤ eps * (S / T) + l.length * eta at h2
    have h1' := abs_le.1 h1
    have hST : S / T ≤ 1 / (1 - g) := by
      rw [div_le_div_iff₀ hT0 (by linarith)]
      linarith
    have hST1 : |S / T - 1| ≤ g / (1 - g) := by
      have : S / T - 1 = -(T - S) / T := by field_simp; ring
      rw [this, abs_div, abs_neg, abs_of_pos hT0]
      calc |T - S| / T ≤ g * S / T := div_le_div_of_nonneg_right h1 hT0.le
        _ = g * (S / T) := by ring
        _ ≤ g * (1 / (1 - g)) := mul_le_mul_of_nonneg_left hST hg0
        _ = g / (1 - g) := by ring
    have e : ((l.map fun x => x / sumOver l id).map Fl.val).sum - 1 = ((l.map fun x => (x / sumOver l id).val).sum - S / T) + (S / T - 1) := by
      rw [List.map_map]
      show (l.map fun x => (x / sumOver l id).val).sum - 1 = _
      ring
    rw [e]
    refine (abs_add_le _ _).trans ?_
    have h3 : eps * (S / T) ≤ eps / (1 - g) := by
      calc eps * (S / T) ≤ eps * (1 / (1 - g)) := mul_le_mul_of_nonneg_left hST he
        _ = eps / (1 - g) := by ring
    have e2 : (2 : K) - (1 + eps) ^ l.length = 1 - g := by rw [hgdef]; ring
    rw [e2, add_div]
    linarith

/-! ## The property -/

/-- **C323.** Every row of `PredictProba` of a fitted decision tree is, in float64, a list of numbers in [0, 1], one per class, whose exact sum differs from 1 by at most one
rounding error and the smallest number per class; the predicted label is that of the first class with the greatest probability, if the training set has fewer rows
than `1/(2(eps+eta))`, about 2^52. -/
theorem tree_proba_float (he : 0 ≤ eps) (hη : 0 ≤ eta) (hR : R.Accurate eps eta) (log2 : Fl R → Fl R) (toInt : Fl R → Int) (srt : (Nat → Fl R) → List Nat → List Nat)
    (iter : List Int → List Int) (hi : MapKeys iter) (P : Params (Fl R)) (fuel : Nat) (X y : Mat (Fl R)) (hX : 0 < X.r) (t t' : Clf (Fl R))
    (h : t.fit log2 toInt srt iter P fuel X y = some (t', .ok ())) (hn : ∀ m ≤ X.r, R.rnd (m : K) = m) (hsm : 2 * X.r * (eps + eta) < 1)
    (Q : Mat (Fl R)) (hQ : 0 < Q.r) (hQc : X.c ≤ Q.c) :
    ∃ (lab : Nat → Int) (p : Nat → List (Fl R)), t'.predict Q = .ok ((List.range Q.r).map lab) ∧ t'.predictProba Q = .ok ((List.range Q.r).map p) ∧
      ∀ i < Q.r, (p i).length = t'.classes.length ∧ (∀ x ∈ p i, 0 ≤ x ∧ x ≤ 1) ∧
        |((p i).map Fl.val).sum - 1| ≤ eps + t'.classes.length * eta ∧
        ∃ k, t'.classes[k]? = some (lab i) ∧ (∀ j < t'.classes.length, (p i).getD j 0 ≤ (p i).getD k 0) ∧ ∀ j < k, (p i).getD j 0 < (p i).getD k 0 := by
  obtain ⟨root, hroot, counts, k, lab, hp1, hp2, hrow⟩ := predict_from_leaf log2 toInt srt iter hi P fuel X y hX t t' h Q hQ hQc
  refine ⟨lab, fun i => probaRow t'.classes.length (counts i), hp1, hp2, fun i hi' => ?_⟩
  obtain ⟨hlen, hpos, hmax, hlab, -, hcount⟩ := hrow i hi'
  have hle : (counts i).sum ≤ X.r := by
    have e : counts i = t'.classes.map fun c => (List.range X.r).countP fun j =>
        decide ((root.route (X.at' j)).1 = (root.route (Q.at' i)).1 ∧ toInt (y.at' j 0) = c) := by
      apply List.ext_getElem
      · simp [hlen]
      · intro c hc1 hc2
        have hc : c < t'.classes.length := by omega
        have := hcount c hc
        rw [List.getD_eq_getElem?_getD, List.getElem?_eq_getElem hc1, Option.getD_some] at this
        rw [this, List.getElem_map]
    have hnd : t'.classes.Nodup := by
      obtain ⟨-, -, root', gs, -, rfl⟩ := fit_ok _ _ _ _ _ _ _ _ _ _ h
      exact classes_nodup toInt iter hi y
    rw [e]
    refine (counted_once t'.classes hnd (List.range X.r) (fun j => (root.route (X.at' j)).1 = (root.route (Q.at' i)).1) fun j => toInt (y.at' j 0)).trans ?_
    simp
  have hle' : ((counts i).sum : K) ≤ X.r := by exact_mod_cast hle
  obtain ⟨a1, a2, a3, a4⟩ := proba_row_float he hR (counts i) hpos fun m hm => hn m (hm.trans hle)
  have a4 := a4 (lt_of_le_of_lt (by
    apply mul_le_mul_of_nonneg_right _ (add_nonneg he hη)
    linarith) hsm)
  rw [hlen] at a1 a2 a3 a4
  refine ⟨a1, a2, a3, k i, hlab, fun j hj => ?_, fun j hj => ?_⟩
  · have hk : k i < t'.classes.length := hlen ▸ hmax.1
    by_contra hc
    have := (a4 (k i) hk j hj).1 (not_le.1 hc)
    exact absurd (hmax.2.1 j (hlen ▸ hj)) (not_le.2 this)
  · have hk : k i < t'.classes.length := hlen ▸ hmax.1
    exact (a4 j (hj.trans hk) (k i) hk).2 (hmax.2.2 j hj)

/-- the 15 rows of `sameMixX` -/
theorem sameMix_fits : ∃ t', Clf.new.fit id (fun x => x.val.floor) stableAsc List.dedup exTreeP 15 sameMixX sameMixY = some (t', .ok ()) := by
  have h : (Clf.new.fit id (fun x => x.val.floor) stableAsc List.dedup exTreeP 15 sameMixX sameMixY).map (fun r => r.2) = some (.ok ()) := by decide +kernel
  cases e : Clf.new.fit id (fun x => x.val.floor) stableAsc List.dedup exTreeP 15 sameMixX sameMixY with
  | none => rw [e] at h; simp at h
  | some r =>
    rw [e] at h
    obtain ⟨t', o⟩ := r
    simp only [Option.map_some, Option.some.injEq] at h
    exact ⟨t', by rw [h]⟩

theorem small15 : 2 * ((15 : Nat) : ℚ) * (1 / 2 ^ 53 + 1 / 2 ^ 1075) < 1 := by
  have : (1 : ℚ) / 2 ^ 1075 ≤ 1 / 2 ^ 53 := one_div_le_one_div_of_le (by positivity) (pow_le_pow_right₀ (by norm_num) (by norm_num))
  have h2 : (1 : ℚ) / 2 ^ 53 < 1 / 100 := by norm_num
  push_cast
  linarith

example : ∃ t', Clf.new.fit id (fun x => x.val.floor) stableAsc List.dedup exTreeP 15 sameMixX sameMixY = some (t', .ok ()) ∧
    ∃ (p : Nat → List (Fl Binary64.rounding)), t'.predictProba sameMixX = .ok ((List.range 15).map p) ∧
      ∀ i < 15, |((p i).map Fl.val).sum - 1| ≤ 1 / 2 ^ 53 + t'.classes.length * (1 / 2 ^ 1075) := by
  obtain ⟨t', h⟩ := sameMix_fits
  obtain ⟨lab, p, -, h2, h3⟩ := tree_proba_float (by positivity) (by positivity) Binary64.accurate id (fun x => x.val.floor) stableAsc List.dedup dedup_keys exTreeP 15
    sameMixX sameMixY (by decide) Clf.new t' h (fun m hm => Binary64.nat_exact m (lt_of_le_of_lt hm (by decide))) small15 sameMixX (by decide) le_rfl
  exact ⟨t', h, p, h2, fun i hi => (h3 i hi).2.2.1⟩

/-- three rows that no feature tells apart, one of each class -/
def threeX : Mat (Fl Binary64.rounding) := table 1 [[0], [0], [0]]
/-- their labels -/
def threeY : Mat (Fl Binary64.rounding) := table 1 [[0], [1], [2]]

/-- **C323** is false with an error of 0: three classes with one row each get 1/3 rounded down, and the probabilities do not add up to 1. -/
theorem tree_proba_sum_not_one :
    ((Clf.new.fit id (fun x => x.val.floor) stableAsc List.dedup exTreeP 3 threeX threeY).map fun r => (r.1.predictProba threeX).map fun p =>
      p.map fun row => decide ((row.map Fl.val).sum < 1)) = some (.ok [true, true, true]) := by decide +kernel

/-- **C323.** The feature importances of a fitted decision tree are, in float64, one number in [0, 1] per feature; a feature that is not tested in the tree has importance
exactly 0; and unless all of them are 0 their exact sum differs from 1 by at most the stated error, which depends on the number of features only. -/
theorem tree_importances_float (he : 0 ≤ eps) (hR : R.Accurate eps eta) (hA : R.AddAccurate eps) (log2 : Fl R → Fl R) (toInt : Fl R → Int)
    (srt : (Nat → Fl R) → List Nat → List Nat) (iter : List Int → List Int) (P : Params (Fl R)) (fuel : Nat) (X y : Mat (Fl R)) (t t' : Clf (Fl R))
    (h : t.fit log2 toInt srt iter P fuel X y = some (t', .ok ())) (hg : (1 + eps) ^ X.c < 2) :
    ∃ root imps, t'.tree = some root ∧ t'.importances = some imps ∧ imps.length = X.c ∧ (∀ v ∈ imps, 0 ≤ v ∧ v ≤ 1) ∧
      (∀ f < X.c, f ∉ root.features → imps.getD f 0 = 0) ∧
      ((∃ v ∈ imps, v ≠ 0) → |(imps.map Fl.val).sum - 1| ≤ ((1 + eps) ^ X.c - 1 + eps) / (2 - (1 + eps) ^ X.c) + X.c * eta) := by
  obtain ⟨h1, h2, root, gs, hgr, rfl⟩ := fit_ok _ _ _ _ _ _ _ _ _ _ h
  have hgp : ∀ g ∈ gs, 0 ≤ g.2 := by
    intro g hgm
    obtain ⟨dec, n, hd, hn, e, hf⟩ := hgr.gains_pos g hgm
    rw [e]
    exact Fl.mul_nonneg' hd.le (Fl.natCast_nonneg' n)
  set l := credit (List.replicate X.c (0 : Fl R)) gs with hl
  have hlen : l.length = X.c := by rw [hl, credit_length]; simp
  have hnn : ∀ x ∈ l, 0 ≤ x := credit_nonneg_float gs _ hgp (by simp)
  have hnlen : (Tree.normalize l).length = X.c := by
    unfold Tree.normalize
    simp only
    split <;> simp [hlen]
  by_cases hz : ∃ x ∈ l, x ≠ 0
  · obtain ⟨b1, b2⟩ := normalize_float he hR hA l hnn (by rw [hlen]; exact hg) hz
    rw [hlen] at b2
    refine ⟨root, Tree.normalize l, rfl, rfl, hnlen, b1, ?_, fun _ => b2⟩
    intro f hf hnf
    have hz0 : l.getD f 0 = 0 := by
      rw [hl, credit_other gs _ f (by rw [hgr.gains_features]; exact hnf)]
      simp [hf]
    unfold Tree.normalize
    simp only
    split
    · have hf' : f < l.length := by omega
      rw [List.getD_eq_getElem?_getD, List.getElem?_eq_getElem hf', Option.getD_some] at hz0
      rw [List.getD_eq_getElem?_getD, List.getElem?_map, List.getElem?_eq_getElem hf', Option.map_some, Option.getD_some, hz0]
      exact Fl.zero_div' _
    · exact hz0
  · have hz' : ∀ x ∈ l, x = 0 := by
      intro x hx
      by_contra hne
      exact hz ⟨x, hx, hne⟩
    have hn0 : ∀ x ∈ Tree.normalize l, x = 0 := by
      intro x hx
      unfold Tree.normalize at hx
      simp only at hx
      split at hx
      · obtain ⟨y, hy, rfl⟩ := List.mem_map.1 hx
        rw [hz' y hy]
        exact Fl.zero_div' _
      · exact hz' x hx
    refine ⟨root, Tree.normalize l, rfl, rfl, hnlen, fun v hv => ?_, ?_, fun ⟨v, hv, hv0⟩ => absurd (hn0 v hv) hv0⟩
    · rw [hn0 v hv]
      exact ⟨le_rfl, (zero_le_one : (0 : K) ≤ 1)⟩
    · intro f hf _
      have hf' : f < (Tree.normalize l).length := by omega
      rw [List.getD_eq_getElem?_getD, List.getElem?_eq_getElem hf', Option.getD_some]
      exact hn0 _ (List.getElem_mem hf')

example : ∃ t', Clf.new.fit id (fun x => x.val.floor) stableAsc List.dedup exTreeP 15 sameMixX sameMixY = some (t', .ok ()) ∧
    ∃ imps, t'.importances = some imps ∧ imps.length = 1 ∧ ∀ v ∈ imps, 0 ≤ v ∧ v ≤ 1 := by
  obtain ⟨t', h⟩ := sameMix_fits
  obtain ⟨root, imps, -, h2, h3, h4, -, -⟩ := tree_importances_float (by positivity) Binary64.accurate Binary64.add_accurate id (fun x => x.val.floor) stableAsc List.dedup
    exTreeP 15 sameMixX sameMixY Clf.new t' h (by norm_num [sameMixX, table])
  exact ⟨t', h, imps, h2, h3, h4⟩

end Scigo.Round
