import Verif.NonFinite.ScalerProps
import Verif.NaiveBayes.Model

/-!
# C302: MultinomialNB without smoothing
-/

namespace Scigo.NonFinite

open Scigo.NaiveBayes F64

/-- `float64(predictedClass)` (sklearn/naive_bayes/multinomial_nb.go:284) -/
instance : IntCast F64 := ⟨fun n => F64.round n⟩

theorem nat_val (n : Nat) (h : n < 2 ^ 53) : ((n : Fl Binary64.rounding)).val = n := by rw [Fl.val_natCast, Binary64.nat_exact n h]

theorem nat_le_max (n : Nat) (h : n < 2 ^ 53) : |((n : Fl Binary64.rounding)).val| ≤ maxF64 := by
  rw [nat_val n h, abs_of_nonneg (Nat.cast_nonneg n)]
  exact le_trans (by exact_mod_cast h.le) (pow_le_max (k := 53) (by decide))

theorem natCast_add (m n : Nat) (h : m + n < 2 ^ 53) : (m : F64) + (n : F64) = ((m + n : Nat) : F64) := by
  rw [← lift_natCast, ← lift_natCast, lift_add (nat_le_max m (by omega)) (nat_le_max n (by omega)), ← lift_natCast]
  congr 1
  apply Fl.ext
  rw [Fl.val_add, nat_val m (by omega), nat_val n (by omega), ← Nat.cast_add]
  rfl

theorem zero_cast : (0 : F64) = ((0 : Nat) : F64) := rfl

theorem total_counts (ns : List Nat) (a : Nat) (h : a + ns.sum < 2 ^ 53) :
    (ns.map (Nat.cast : Nat → F64)).foldl (fun t c => t + (c + 0)) (a : F64) = ((a + ns.sum : Nat) : F64) := by
  induction ns generalizing a with
  | nil => rfl
  | cons n ns ih =>
    rw [List.sum_cons] at h
    rw [List.map_cons, List.foldl_cons, zero_cast, natCast_add n 0 (by omega), Nat.add_zero, natCast_add a n (by omega), ← zero_cast, ih _ (by omega), List.sum_cons,
      Nat.add_assoc]

theorem foldl_joint_nan (l : List (F64 × F64)) (a : F64) (h : a = nan ∨ ∃ p ∈ l, p.1 * p.2 = nan) : l.foldl (fun acc p => acc + p.1 * p.2) a = nan := by
  induction l generalizing a with
  | nil => exact h.resolve_right (by simp)
  | cons q l ih =>
    rw [List.foldl_cons]
    apply ih
    rcases h with h | ⟨p, hp, e⟩
    · exact Or.inl (by rw [h, nan_add])
    · rcases List.mem_cons.1 hp with rfl | hp
      · exact Or.inl (by rw [e, add_nan])
      · exact Or.inr ⟨p, hp, e⟩

/-- **C302**, negation: without smoothing the score of a class is NaN for every sample that, like the class itself, does not use some feature: `0 * log 0`. -/
theorem unseen_nan (log : F64 → F64) (hl : log 0 = .inf true) (s : NB F64) (ha : s.alpha = 0) (c j : Nat) (ns : List Nat)
    (hrow : s.featureCount[c]? = some (ns.map Nat.cast)) (hn : ns.sum < 2 ^ 53) (hpos : 0 < ns.sum) (hj : ns[j]? = some 0) (x : List F64) (hx : x[j]? = some 0) :
    (s.updateModel log).joint c x = nan := by
  unfold NB.joint NB.updateModel
  apply foldl_joint_nan
  right
  refine ⟨(0, .inf true), ?_, by decide +kernel⟩
  have e : (List.map (featRow log s.alpha) s.featureCount).getD c [] = featRow log 0 (ns.map Nat.cast) := by
    rw [List.getD_eq_getElem?_getD, List.getElem?_map, hrow, ha]
    rfl
  rw [e]
  have ht := total_counts ns 0 (by omega)
  rw [← zero_cast, Nat.zero_add] at ht
  have hz : (featRow log 0 (ns.map (Nat.cast : Nat → F64)))[j]? = some (.inf true) := by
    unfold featRow
    dsimp only
    rw [ht, List.getElem?_map, List.getElem?_map, hj]
    show some (log ((((0 : Nat) : F64) + ((0 : Nat) : F64)) / _)) = _
    rw [natCast_add 0 0 (by decide), ← lift_natCast, ← lift_natCast, lift_div (nat_le_max _ (by decide)) (nat_le_max _ hn)]
    · have : ((0 + 0 : Nat) : Fl Binary64.rounding) / (ns.sum : Fl Binary64.rounding) = 0 := by
        apply Fl.ext
        rw [Fl.val_div, nat_val 0 (by decide), Nat.cast_zero, zero_div]
        rfl
      rw [this, lift_zero, hl]
    · rw [nat_val _ hn]
      exact_mod_cast hpos.ne'
  exact List.mem_iff_getElem?.2 ⟨j, by rw [List.getElem?_zip_eq_some]; exact ⟨hx, hz⟩⟩

/-- what the scan returns -/
theorem scan_max (l : List (F64 × Int)) (b : F64 × Int) (seen : List (F64 × Int)) (hs : ∀ p ∈ seen, ¬ b.1 < p.1) (n : F64 × Int) (hb : b = n ∨ b ∈ seen ∧ n.1 < b.1) :
    let r := l.foldl (fun best p => if best.1 < p.1 then p else best) b
    (∀ p ∈ seen ++ l, ¬ r.1 < p.1) ∧ (r = n ∨ r ∈ seen ++ l ∧ n.1 < r.1) := by
  induction l generalizing b seen with
  | nil => rw [List.append_nil]; exact ⟨hs, hb⟩
  | cons q l ih =>
    rw [List.foldl_cons, show seen ++ q :: l = (seen ++ [q]) ++ l by simp]
    by_cases hq : b.1 < q.1
    · rw [if_pos hq]
      refine ih _ (seen ++ [q]) ?_ (Or.inr ⟨by simp, ?_⟩)
      · intro p hp hlt
        rcases List.mem_append.1 hp with hp | hp
        · exact hs p hp (lt_trans' hq hlt)
        · rw [List.mem_singleton.1 hp] at hlt
          exact lt_irrefl' _ hlt
      · rcases hb with rfl | hb
        · exact hq
        · exact lt_trans' hb.2 hq
    · rw [if_neg hq]
      refine ih _ (seen ++ [q]) ?_ ?_
      · intro p hp
        rcases List.mem_append.1 hp with hp | hp
        · exact hs p hp
        · rw [List.mem_singleton.1 hp]
          exact hq
      · rcases hb with h | ⟨hp, e⟩
        · exact Or.inl h
        · exact Or.inr ⟨List.mem_append_left _ hp, e⟩

/-- what `Predict` returns for a row -/
theorem predict_row (s : NB F64) (X Z : Mat F64) (cls : List Int) (hcls : s.classes = some cls) (h : s.predict (.inf true) X = .ok Z) (i : Nat) :
    ∃ c k, cls[c]? = some k ∧ Z.at' i 0 = ((k : Int) : F64) ∧ (∀ c' k', cls[c']? = some k' → ¬ s.joint c (X.row i) < s.joint c' (X.row i) ∨ c = 0 ∧ ¬ (.inf true) < s.joint c' (X.row i)) ∧
      (c = 0 ∨ (.inf true) < s.joint c (X.row i)) := by
  unfold NB.predict at h
  rw [hcls] at h
  split at h
  · cases h
  · split at h
    · cases h
    · split at h
      · cases h
      · cases cls with
        | nil => cases h
        | cons c0 cs =>
          simp only [Option.getD_some] at h
          split at h
          · cases h
          · rw [← Outcome.ok.inj h]
            dsimp only
            unfold argmaxScan
            obtain ⟨h1, h2⟩ := scan_max ((c0 :: cs).zipIdx.map (fun p => (s.joint p.2 (X.row i), p.1))) (.inf true, c0) [] (by simp) (.inf true, c0) (Or.inl rfl)
            rw [List.nil_append] at h1 h2
            have hmem : ∀ c' k', (c0 :: cs)[c']? = some k' → (s.joint c' (X.row i), k') ∈ (c0 :: cs).zipIdx.map (fun p => (s.joint p.2 (X.row i), p.1)) := fun c' k' e =>
              List.mem_map.2 ⟨(k', c'), List.mem_zipIdx_iff_getElem?.2 e, rfl⟩
            rcases h2 with h2 | ⟨h2, h3⟩
            · rw [h2] at h1 ⊢
              exact ⟨0, c0, rfl, rfl, fun c' k' e => Or.inr ⟨rfl, h1 _ (hmem c' k' e)⟩, Or.inl rfl⟩
            · obtain ⟨p, hp, e⟩ := List.mem_map.1 h2
              rw [← e] at h1 h3 ⊢
              exact ⟨p.2, p.1, List.mem_zipIdx_iff_getElem?.1 hp, rfl, fun c' k' e => Or.inl (h1 _ (hmem c' k' e)), Or.inr h3⟩

/-- **C302**, negation, continued: without smoothing a class other than the first is never predicted for a sample that, like the class, does not use some feature. -/
theorem unseen_never_predicted (log : F64 → F64) (hl : log 0 = .inf true) (s : NB F64) (ha : s.alpha = 0) (cls : List Int) (hcls : s.classes = some cls) (c j : Nat)
    (hc : c ≠ 0) (ns : List Nat) (hrow : s.featureCount[c]? = some (ns.map Nat.cast)) (hn : ns.sum < 2 ^ 53) (hpos : 0 < ns.sum) (hj : ns[j]? = some 0)
    (X Z : Mat F64) (i : Nat) (hjc : j < X.c) (hx : X.at' i j = 0) (h : (s.updateModel log).predict (.inf true) X = .ok Z) :
    ∃ c' k, c' ≠ c ∧ cls[c']? = some k ∧ Z.at' i 0 = ((k : Int) : F64) := by
  obtain ⟨c', k, h1, h2, -, h4⟩ := predict_row (s.updateModel log) X Z cls hcls h i
  refine ⟨c', k, ?_, h1, h2⟩
  rintro rfl
  have hx' : (X.row i)[j]? = some 0 := by
    unfold Mat.row
    rw [List.getElem?_map, List.getElem?_range hjc, ← hx]
    rfl
  have := unseen_nan log hl s ha c' j ns hrow hn hpos hj (X.row i) hx'
  rw [this] at h4
  exact not_lt_nan _ (h4.resolve_left hc)

/-- **C302** (partial): if the scores of a sample are not NaN and one of them is not minus infinity, `Predict` returns a class with the greatest score. Missing: NaN scores, which
are usual without smoothing (`unseen_nan`). -/
theorem predict_greatest_partial (s : NB F64) (X Z : Mat F64) (cls : List Int) (hcls : s.classes = some cls) (h : s.predict (.inf true) X = .ok Z) (i : Nat)
    (hnan : ∀ c, c < cls.length → s.joint c (X.row i) ≠ nan) (hfin : ∃ c, c < cls.length ∧ s.joint c (X.row i) ≠ .inf true) :
    ∃ c k, cls[c]? = some k ∧ Z.at' i 0 = ((k : Int) : F64) ∧ ∀ c', c' < cls.length → ¬ s.joint c (X.row i) < s.joint c' (X.row i) := by
  obtain ⟨c, k, h1, h2, h3, h4⟩ := predict_row s X Z cls hcls h i
  refine ⟨c, k, h1, h2, fun c' hc' => ?_⟩
  rcases h3 c' _ (List.getElem?_eq_getElem hc') with h5 | ⟨rfl, h5⟩
  · exact h5
  · obtain ⟨d, hd, e⟩ := hfin
    have hlow : ∀ x : F64, x ≠ nan → ¬ (.inf true) < x → x = .inf true := by
      intro x hx hn
      cases x with
      | nan => exact absurd rfl hx
      | fin q => exact absurd rfl hn
      | inf b => cases b with
        | true => rfl
        | false => exact absurd rfl hn
    rw [hlow _ (hnan c' hc') h5]
    cases s.joint 0 (X.row i) with
    | nan => exact not_nan_lt _
    | fin q => exact Bool.false_ne_true
    | inf b => cases b <;> exact Bool.false_ne_true

/-- the training data of the witness: two samples, one for each class, without a common feature (`Fit`, sklearn/naive_bayes/multinomial_nb.go:91-136) -/
def twoTopics : Mat F64 := ⟨2, 2, fun i j => if i = j then 1 else 0⟩

/-- the labels of the witness (`Fit`, sklearn/naive_bayes/multinomial_nb.go:91-136) -/
def twoLabels : Mat F64 := ⟨2, 1, fun i _ => if i = 0 then 0 else 1⟩

/-- **C302**, negation, continued: fitted without smoothing on the samples `(1, 0)` of class 0 and `(0, 1)` of class 1, `Predict` puts `(0, 1)` into class 0, whatever
the iteration order of the map of labels. -/
theorem training_sample_misplaced (log : F64 → F64) (hl : log 0 = .inf true) (toInt : F64 → Int) (h0 : toInt 0 = 0) (h1 : toInt 1 = 1)
    (iter : List Int → List Int) (hiter : iter [0, 1] = [0, 1] ∨ iter [0, 1] = [1, 0]) :
    let s := (NB.new 0 true none).fit log toInt iter twoTopics twoLabels
    s.2 = .ok () ∧ ∃ Z, s.1.predict (.inf true) twoTopics = .ok Z ∧ Z.at' 1 0 = 0 := by
  intro s
  have hv : validateInput twoTopics twoLabels = .ok () := by decide +kernel
  have hy : (List.range twoLabels.r).map (fun i => toInt (twoLabels.at' i 0)) = [0, 1] := by
    show [toInt 0, toInt 1] = _
    rw [h0, h1]
  have he : extractClasses toInt iter twoLabels = [0, 1] := by
    unfold extractClasses
    rw [hy]
    rcases hiter with e | e <;> rw [e] <;> decide
  let s0 : NB F64 := ⟨0, true, none, some [0, 1], [], [], [[1, 0], [0, 1]], [1, 1], 2, 2, false⟩
  have hf : (List.range twoTopics.r).foldl (NB.countRow toInt twoTopics twoLabels) (((NB.new 0 true none).reset).initCounts [0, 1] twoTopics.c) = s0 := by
    show NB.countRow toInt twoTopics twoLabels (NB.countRow toInt twoTopics twoLabels (((NB.new 0 true none).reset).initCounts [0, 1] 2) 0) 1 = s0
    have c0 : twoLabels.at' 0 0 = 0 := rfl
    have c1 : twoLabels.at' 1 0 = 1 := rfl
    unfold NB.countRow
    rw [c0, c1, h0, h1]
    decide +kernel
  have hs : s = (s0.updateModel log, .ok ()) := by
    show (match validateInput twoTopics twoLabels with
      | .ok () => _
      | e => _) = _
    rw [hv]
    dsimp only
    rw [he, hf]
  rw [hs]
  refine ⟨rfl, ?_⟩
  have hneg : hasNegative twoTopics = false := by decide +kernel
  have hp : ∃ Z, (s0.updateModel log).predict (.inf true) twoTopics = .ok Z := by
    unfold NB.predict
    rw [hneg]
    exact ⟨_, rfl⟩
  obtain ⟨Z, hZ⟩ := hp
  refine ⟨Z, hZ, ?_⟩
  obtain ⟨c, k, hc, hk, e⟩ := unseen_never_predicted log hl s0 rfl [0, 1] rfl 1 0 (by decide) [0, 1] (by decide +kernel) (by decide) (by decide) rfl twoTopics Z 1 (by decide)
    (by decide +kernel) hZ
  have hc' : c = 0 := by
    have := (List.getElem?_eq_some_iff.1 hk).1
    simp only [List.length_cons, List.length_nil] at this
    omega
  subst hc'
  cases hk
  rw [e]
  decide +kernel

end Scigo.NonFinite
