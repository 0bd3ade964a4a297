import Verif.Round.LabelProps

/-!
# C331: naive Bayes in `float64`: log probabilities are never positive, and the predicted class is a most probable one
-/

set_option linter.unusedSectionVars false

namespace Scigo.Round

open Scigo.NaiveBayes

variable {K : Type} [Field K] [LinearOrder K] [IsStrictOrderedRing K] {R : Rounding K}

/-! ## Specification -/

/-- what is used of `math.Log`: it is not negative from one on and not positive up to one (cf. sklearn/naive_bayes/multinomial_nb.go:241, 373) -/
structure LogLike (log : Fl R → Fl R) : Prop where
  nonneg : ∀ x, 1 ≤ x → 0 ≤ log x
  nonpos : ∀ x, x ≤ 1 → log x ≤ 0

/-- a call of `PartialFit`: samples, labels and the list of classes, if any (sklearn/naive_bayes/multinomial_nb.go:139) -/
structure NbBatch (R : Rounding K) where
  X : Mat (Fl R)
  y : Mat (Fl R)
  classes : Option (List Int)

/-- the model after a new one received the batches (sklearn/naive_bayes/multinomial_nb.go:139-198); rejected batches are part of the history -/
def nbAfter (log : Fl R → Fl R) (toInt : Fl R → Int) (iter : List Int → List Int) (alpha : Fl R) (fitPrior : Bool) (bs : List (NbBatch R)) : NB (Fl R) :=
  bs.foldl (fun s b => (s.partialFit log toInt iter b.X b.y b.classes).1) (NB.new alpha fitPrior none)

/-! ## Helpers -/

theorem nb_log_ok {log exp : Fl R → Fl R} {ninf : Fl R} {X L : Mat (Fl R)} {s : NB (Fl R)} (h : s.predictLogProba log exp ninf X = .ok L) :
    s.nClasses ≠ 0 ∧ L = ⟨X.r, s.nClasses, fun i c => (logNormalize log exp ninf (s.jointRow (X.row i))).getD c 0⟩ := by
  unfold NB.predictLogProba at h
  split at h
  · cases h
  split at h
  · cases h
  split at h
  · cases h
  rename_i hz
  split at h
  · cases h
  exact ⟨fun e => hz (Or.inr e), (Outcome.ok.inj h).symm⟩

theorem nb_log_entry (log exp : Fl R → Fl R) (ninf : Fl R) (s : NB (Fl R)) (x : List (Fl R)) (c : Nat) (hc : c < s.nClasses) :
    (logNormalize log exp ninf (s.jointRow x)).getD c 0 =
      s.joint c x - (log (sumOver (s.jointRow x) fun v => exp (v - maxFrom ninf (s.jointRow x))) + maxFrom ninf (s.jointRow x)) := by
  unfold logNormalize NB.jointRow sumOver
  simp [List.getD_eq_getElem?_getD, hc]

theorem nb_scan [IntCast (Fl R)] (l : List (Fl R × Int)) (b : Fl R × Int) :
    ((l.foldl (fun best p => if best.1 < p.1 then p else best) b) = b ∨ (l.foldl (fun best p => if best.1 < p.1 then p else best) b) ∈ l) ∧
      b.1 ≤ (l.foldl (fun best p => if best.1 < p.1 then p else best) b).1 ∧ ∀ p ∈ l, p.1 ≤ (l.foldl (fun best p => if best.1 < p.1 then p else best) b).1 := by
  induction l generalizing b with
  | nil => exact ⟨Or.inl rfl, le_rfl, by simp⟩
  | cons y l ih =>
    obtain ⟨h1, h2, h3⟩ := ih (if b.1 < y.1 then y else b)
    rw [List.foldl_cons]
    have hy : y.1 ≤ (if b.1 < y.1 then y else b).1 := by
      split
      · exact le_rfl
      · exact not_lt.1 ‹_›
    have hb : b.1 ≤ (if b.1 < y.1 then y else b).1 := by
      split
      · exact le_of_lt ‹_›
      · exact le_rfl
    refine ⟨?_, hb.trans h2, fun p hp => ?_⟩
    · rcases h1 with h1 | h1
      · rw [h1]
        split
        · exact Or.inr List.mem_cons_self
        · exact Or.inl rfl
      · exact Or.inr (List.mem_cons_of_mem _ h1)
    · rcases List.mem_cons.1 hp with rfl | hp
      · exact hy.trans h2
      · exact h3 p hp

/-- counts that are not negative -/
def CountsNonneg (s : NB (Fl R)) : Prop := (∀ row ∈ s.featureCount, ∀ v ∈ row, 0 ≤ v) ∧ ∀ v ∈ s.classCount, 0 ≤ v

theorem mem_modify' {β : Type _} {l : List β} {k : Nat} {f : β → β} {x : β} (h : x ∈ l.modify k f) : x ∈ l ∨ ∃ y ∈ l, x = f y := by
  obtain ⟨i, hi, rfl⟩ := List.mem_iff_getElem.1 h
  rw [List.getElem_modify]
  simp only [List.length_modify] at hi
  split
  · exact Or.inr ⟨_, List.getElem_mem hi, rfl⟩
  · exact Or.inl (List.getElem_mem hi)

theorem row_nonneg {X y : Mat (Fl R)} (h : validateInput X y = .ok ()) (i : Nat) (hi : i < X.r) : ∀ v ∈ X.row i, 0 ≤ v := by
  unfold validateInput at h
  split at h
  · cases h
  split at h
  · cases h
  split at h
  · cases h
  rename_i hneg
  intro v hv
  unfold Mat.row at hv
  obtain ⟨j, hj, rfl⟩ := List.mem_map.1 hv
  by_contra hlt
  refine hneg ?_
  unfold hasNegative
  rw [List.any_eq_true]
  refine ⟨i, List.mem_range.2 hi, ?_⟩
  rw [List.any_eq_true]
  exact ⟨j, hj, decide_eq_true (not_le.1 hlt)⟩

theorem countRow_nonneg (toInt : Fl R → Int) {X y : Mat (Fl R)} (h : validateInput X y = .ok ()) (i : Nat) (hi : i < X.r) (s : NB (Fl R)) (hs : CountsNonneg s) :
    CountsNonneg (s.countRow toInt X y i) := by
  unfold NB.countRow
  split
  · exact hs
  · refine ⟨fun row hr v hv => ?_, fun v hv => ?_⟩
    · rcases mem_modify' hr with hr | ⟨row', hr', rfl⟩
      · exact hs.1 row hr v hv
      · rw [List.mem_iff_getElem] at hv
        obtain ⟨j, hj, rfl⟩ := hv
        rw [List.getElem_zipWith]
        exact Fl.add_nonneg' (hs.1 row' hr' _ (List.getElem_mem _)) (row_nonneg h i hi _ (List.getElem_mem _))
    · rcases mem_modify' hv with hv | ⟨w, hw, rfl⟩
      · exact hs.2 v hv
      · exact Fl.add_nonneg' (hs.2 w hw) (show (0 : K) ≤ 1 from zero_le_one)

theorem init_nonneg (s : NB (Fl R)) (cls : List Int) (cols : Nat) : CountsNonneg (s.initCounts cls cols) := by
  refine ⟨fun row hr v hv => ?_, fun v hv => ?_⟩
  · rw [(List.mem_replicate.1 hr).2] at hv
    rw [(List.mem_replicate.1 hv).2]
  · rw [(List.mem_replicate.1 hv).2]

/-- log probabilities that are not positive -/
def LogsNonpos (s : NB (Fl R)) : Prop := (∀ row ∈ s.featLogProb, ∀ v ∈ row, v ≤ 0) ∧ ∀ v ∈ s.logPrior, v ≤ 0

theorem update_nonpos {log : Fl R → Fl R} (hlog : LogLike log) (s : NB (Fl R)) (ha : 0 ≤ s.alpha) (hp : s.classPrior = none) (hs : CountsNonneg s) : LogsNonpos (s.updateModel log) := by
  refine ⟨fun row hr v hv => ?_, fun v hv => ?_⟩
  · obtain ⟨cs, hcs, rfl⟩ := List.mem_map.1 hr
    unfold featRow at hv
    obtain ⟨c, hc, rfl⟩ := List.mem_map.1 hv
    have hnn : ∀ c ∈ cs, 0 ≤ c + s.alpha := fun c hc => Fl.add_nonneg' (hs.1 cs hcs c hc) ha
    exact hlog.nonpos _ (Fl.div_le_one' (hnn c hc) (term_le_sumOver cs (fun c => c + s.alpha) hnn c hc))
  · change v ∈ s.priors log at hv
    unfold NB.priors at hv
    split at hv
    · obtain ⟨n, hn, rfl⟩ := List.mem_map.1 hv
      exact hlog.nonpos _ (Fl.div_le_one' (hs.2 n hn) (term_le_sumOver s.classCount id hs.2 n hn))
    · rw [hp] at hv
      obtain ⟨h0, rfl⟩ := List.mem_replicate.1 hv
      exact hlog.nonpos _ (Fl.div_le_one' (show (0 : K) ≤ 1 from zero_le_one) (Fl.one_le_natCast (by omega)))

/-! ## C331 -/

/-- **C331.** Whatever batches a naive Bayes model has received, with a smoothing parameter that is not negative its fitted log probabilities are never positive, so neither is the joint log probability of a class and a sample
without negative entries. -/
theorem nb_fitted_logs {log : Fl R → Fl R} (hlog : LogLike log) (toInt : Fl R → Int) (iter : List Int → List Int) (alpha : Fl R) (ha : 0 ≤ alpha) (fitPrior : Bool) (bs : List (NbBatch R)) :
    let s := nbAfter log toInt iter alpha fitPrior bs
    (∀ row ∈ s.featLogProb, ∀ v ∈ row, v ≤ 0) ∧ (∀ v ∈ s.logPrior, v ≤ 0) ∧ ∀ c x, (∀ v ∈ x, 0 ≤ v) → s.joint c x ≤ 0 := by
  intro s
  have key : CountsNonneg s ∧ LogsNonpos s ∧ s.alpha = alpha ∧ s.classPrior = none := by
    refine List.foldlRecOn bs _ (motive := fun s : NB (Fl R) => CountsNonneg s ∧ LogsNonpos s ∧ s.alpha = alpha ∧ s.classPrior = none)
      ⟨⟨by simp [NB.new], by simp [NB.new]⟩, ⟨by simp [NB.new], by simp [NB.new]⟩, rfl, rfl⟩ ?_
    rintro s ⟨h1, h2, h3, h4⟩ b -
    unfold NB.partialFit
    split
    · rename_i hv
      have hb : CountsNonneg (s.begin toInt iter b.X b.y b.classes) ∧ LogsNonpos (s.begin toInt iter b.X b.y b.classes) ∧
          (s.begin toInt iter b.X b.y b.classes).alpha = alpha ∧ (s.begin toInt iter b.X b.y b.classes).classPrior = none := by
        unfold NB.begin
        split
        · exact ⟨h1, h2, h3, h4⟩
        · exact ⟨init_nonneg _ _ _, h2, h3, h4⟩
      dsimp only
      generalize s.begin toInt iter b.X b.y b.classes = s1 at hb
      split
      · exact hb
      · have hc : CountsNonneg ((List.range b.X.r).foldl (NB.countRow toInt b.X b.y) s1) ∧ ((List.range b.X.r).foldl (NB.countRow toInt b.X b.y) s1).alpha = alpha ∧
            ((List.range b.X.r).foldl (NB.countRow toInt b.X b.y) s1).classPrior = none := by
          refine List.foldlRecOn (List.range b.X.r) _ (motive := fun s : NB (Fl R) => CountsNonneg s ∧ s.alpha = alpha ∧ s.classPrior = none) ⟨hb.1, hb.2.2.1, hb.2.2.2⟩ ?_
          rintro s2 ⟨q1, q2, q3⟩ i hi
          refine ⟨countRow_nonneg toInt hv i (List.mem_range.1 hi) s2 q1, ?_, ?_⟩
          · unfold NB.countRow; split <;> exact q2
          · unfold NB.countRow; split <;> exact q3
        exact ⟨hc.1, update_nonpos hlog _ (hc.2.1 ▸ ha) hc.2.2 hc.1, hc.2⟩
    · exact ⟨h1, h2, h3, h4⟩
  obtain ⟨-, ⟨h1, h2⟩, -, -⟩ := key
  refine ⟨h1, h2, fun c x hx => ?_⟩
  unfold NB.joint
  refine List.foldlRecOn (List.zip x (s.featLogProb.getD c [])) _ (motive := fun v : Fl R => v ≤ 0) ?_ ?_
  · rw [List.getD_eq_getElem?_getD]
    rcases e : s.logPrior[c]? with _ | v
    · exact le_rfl
    · exact h2 v (List.mem_of_getElem? e)
  · rintro v hv ⟨a, b⟩ hab
    have hm := List.of_mem_zip hab
    have hb : b ≤ 0 := by
      rw [List.getD_eq_getElem?_getD] at hm
      rcases e : s.featLogProb[c]? with _ | row
      · rw [e] at hm; simp at hm
      · rw [e] at hm
        exact h1 row (List.mem_of_getElem? e) b hm.2
    have hmul : a * b ≤ 0 := R.nonpos (mul_nonpos_of_nonneg_of_nonpos (hx a hm.1) hb)
    exact R.nonpos (add_nonpos hv hmul)

/-- **C331.** The log probabilities that `PredictLogProba` returns are never positive, and they are ordered like the joint log probabilities of the classes. -/
theorem nb_log_proba {log exp : Fl R → Fl R} (hlog : LogLike log) (hexp : ExpLike exp) (ninf : Fl R) (s : NB (Fl R)) (X L : Mat (Fl R)) (hL : s.predictLogProba log exp ninf X = .ok L) (i : Nat)
    (hlow : ∀ c < s.nClasses, ninf ≤ s.joint c (X.row i)) :
    ∀ c < s.nClasses, L.at' i c ≤ 0 ∧ ∀ c' < s.nClasses, s.joint c' (X.row i) ≤ s.joint c (X.row i) → L.at' i c' ≤ L.at' i c := by
  obtain ⟨hne, rfl⟩ := nb_log_ok hL
  intro c hc
  dsimp only
  rw [nb_log_entry log exp ninf s _ c hc]
  have hlen : (s.jointRow (X.row i)).length = s.nClasses := by simp [NB.jointRow]
  have hmem : ∀ c < s.nClasses, s.joint c (X.row i) ∈ s.jointRow (X.row i) := fun c hc => List.mem_map.2 ⟨c, List.mem_range.2 hc, rfl⟩
  obtain ⟨q1, q2⟩ := runMax_spec ninf (s.jointRow (X.row i)) (fun e => hne (by rw [← hlen, e]; rfl)) (fun x hx => by
    obtain ⟨k, hk, rfl⟩ := List.mem_map.1 hx
    exact hlow k (List.mem_range.1 hk))
  change maxFrom ninf (s.jointRow (X.row i)) ∈ _ at q1
  change ∀ x ∈ _, x ≤ maxFrom ninf (s.jointRow (X.row i)) at q2
  refine ⟨?_, fun c' hc' hle => ?_⟩
  · have h1 : (1 : Fl R) ≤ sumOver (s.jointRow (X.row i)) fun v => exp (v - maxFrom ninf (s.jointRow (X.row i))) := by
      have := term_le_sumOver (s.jointRow (X.row i)) (fun v => exp (v - maxFrom ninf (s.jointRow (X.row i)))) (fun x _ => hexp.nonneg _) _ q1
      rwa [Fl.sub_self', hexp.zero] at this
    have h2 := hlog.nonneg _ h1
    have h3 : s.joint c (X.row i) ≤ log (sumOver (s.jointRow (X.row i)) fun v => exp (v - maxFrom ninf (s.jointRow (X.row i)))) + maxFrom ninf (s.jointRow (X.row i)) :=
      (q2 _ (hmem c hc)).trans (Fl.le_add_left' h2)
    exact R.nonpos (sub_nonpos.2 h3)
  · rw [nb_log_entry log exp ninf s _ c' hc']
    exact Fl.sub_le hle le_rfl

/-- **C331.** The label that `Predict` returns belongs to a class whose log probability and whose probability, as `PredictLogProba` and `PredictProba` return them, are the greatest of the row. -/
theorem nb_label_most_probable [IntCast (Fl R)] {log exp : Fl R → Fl R} (hlog : LogLike log) (hexp : ExpLike exp) (hm : Monotone exp) (ninf : Fl R) (s : NB (Fl R)) (X P Q M : Mat (Fl R))
    (hP : s.predict ninf X = .ok P) (hQ : s.predictLogProba log exp ninf X = .ok Q) (hM : s.predictProba log exp ninf X = .ok M) (i : Nat)
    (hlow : ∀ c < s.nClasses, ninf < s.joint c (X.row i)) :
    ∃ c < s.nClasses, P.at' i 0 = (((s.classes.getD []).getD c 0 : Int) : Fl R) ∧ ∀ c' < s.nClasses, Q.at' i c' ≤ Q.at' i c ∧ M.at' i c' ≤ M.at' i c := by
  have hpred : ∃ c < s.nClasses, P.at' i 0 = (((s.classes.getD []).getD c 0 : Int) : Fl R) ∧ ∀ c' < s.nClasses, s.joint c' (X.row i) ≤ s.joint c (X.row i) := by
    unfold NB.predict at hP
    split at hP
    · cases hP
    split at hP
    · cases hP
    split at hP
    · cases hP
    split at hP
    · cases hP
    rename_i c0 cs hcs
    split at hP
    · cases hP
    rw [← Outcome.ok.inj hP]
    dsimp only
    unfold NB.nClasses at *
    rw [hcs] at hlow ⊢
    unfold argmaxScan
    obtain ⟨h1, h2, h3⟩ := nb_scan ((c0 :: cs).zipIdx.map (fun p => (s.joint p.2 (X.row i), p.1))) (ninf, c0)
    have hin : ∀ c < (c0 :: cs).length, (s.joint c (X.row i), (c0 :: cs).getD c 0) ∈ (c0 :: cs).zipIdx.map (fun p => (s.joint p.2 (X.row i), p.1)) := by
      intro c hc
      refine List.mem_map.2 ⟨((c0 :: cs).getD c 0, c), ?_, rfl⟩
      rw [List.getD_eq_getElem _ _ hc, List.mk_mem_zipIdx_iff_getElem?]
      exact List.getElem?_eq_getElem hc
    generalize ((c0 :: cs).zipIdx.map (fun p => (s.joint p.2 (X.row i), p.1))).foldl (fun best p => if best.1 < p.1 then p else best) (ninf, c0) = best at h1 h2 h3 ⊢
    rcases h1 with rfl | h1
    · exact absurd (h3 _ (hin 0 (by simp))) (not_le.2 (hlow 0 (by simp)))
    · obtain ⟨⟨l, c⟩, hp, rfl⟩ := List.mem_map.1 h1
      rw [List.mk_mem_zipIdx_iff_getElem?] at hp
      obtain ⟨hc, he⟩ := List.getElem?_eq_some_iff.1 hp
      refine ⟨c, hc, ?_, fun c' hc' => h3 _ (hin c' hc')⟩
      rw [List.getD_eq_getElem _ _ hc, he]
  obtain ⟨c, hc, hl, hmax⟩ := hpred
  have hq := nb_log_proba hlog hexp ninf s X Q hQ i (fun c hc => (hlow c hc).le) c hc
  refine ⟨c, hc, hl, fun c' hc' => ⟨hq.2 c' hc' (hmax c' hc'), ?_⟩⟩
  unfold NB.predictProba at hM
  rw [hQ] at hM
  rw [← Outcome.ok.inj hM]
  have hQc : Q.c = s.nClasses := by rw [(nb_log_ok hQ).2]
  dsimp only
  unfold softmaxRow
  dsimp only
  have hrow : ∀ k < s.nClasses, (Q.row i)[k]? = some (Q.at' i k) := by
    intro k hk
    simp [Mat.row, hQc, hk]
  have ht : 0 ≤ sumOver ((Q.row i).map fun x => exp (x - maxFrom ninf (Q.row i))) id := by
    refine sumOver_nonneg _ _ fun x hx => ?_
    obtain ⟨s, _, rfl⟩ := List.mem_map.1 hx
    exact hexp.nonneg _
  change 0 ≤ List.foldl (· + ·) 0 ((Q.row i).map fun x => exp (x - maxFrom ninf (Q.row i))) at ht
  simp only [List.getD_eq_getElem?_getD, List.getElem?_map, hrow c hc, hrow c' hc', Option.map_some, Option.getD_some]
  exact scaled_mono (hm (Fl.sub_le (hq.2 c' hc' (hmax c' hc')) le_rfl)) ht

/-! ## Concrete cases -/

/-- a logarithm as assumed (the chord of the true one at 1) -/
example : LogLike (R := Binary64.rounding) (fun x => x - 1) :=
  ⟨fun _ h => Binary64.rounding.nonneg (sub_nonneg.2 h), fun _ h => Binary64.rounding.nonpos (sub_nonpos.2 h)⟩

/-- an exponential as assumed, which is monotone -/
example : ExpLike exExp ∧ Monotone exExp := by
  refine ⟨exExp_like, fun a b h => ?_⟩
  unfold exExp
  split
  · rw [if_pos (le_trans ‹_› h)]
  · split
    · decide +kernel
    · exact le_rfl

/-- two samples of two classes, as they are passed to sklearn/naive_bayes/multinomial_nb.go:139 -/
def exBatch : NbBatch Binary64.rounding :=
  ⟨Mat.ofRows [[Binary64.lit 3, Binary64.lit 1], [Binary64.lit 0, Binary64.lit 2]] 2 0, Mat.ofRows [[Binary64.lit 0], [Binary64.lit 1]] 1 0, some [0, 1]⟩

/-- the model fitted to them with smoothing 1 (sklearn/naive_bayes/multinomial_nb.go:139-198) -/
def exNB : NB (Fl Binary64.rounding) := nbAfter (fun x => x - 1) (fun x => ⌊x.val⌋) id (Binary64.lit 1) true [exBatch]

/-- it has positive counts, all three predictions are made, and the second sample gets the second label -/
example : letI : IntCast (Fl Binary64.rounding) := ⟨fun z => Binary64.lit z⟩
    exNB.featureCount = [[Binary64.lit 3, Binary64.lit 1], [Binary64.lit 0, Binary64.lit 2]] ∧
    (exNB.predict (Binary64.lit (-1000)) exBatch.X).map (fun P => P.at' 1 0) = .ok (Binary64.lit 1) ∧
    ((exNB.predictLogProba (fun x => x - 1) exExp (Binary64.lit (-1000)) exBatch.X).map fun P => (P.r, P.c)) = .ok (2, 2) ∧
    ((exNB.predictProba (fun x => x - 1) exExp (Binary64.lit (-1000)) exBatch.X).map fun P => (P.r, P.c)) = .ok (2, 2) ∧
    ∀ c < exNB.nClasses, Binary64.lit (-1000) < exNB.joint c (exBatch.X.row 1) := by decide +kernel

end Scigo.Round
