import Verif.Eval.Report
import Verif.Eval.Props
import Verif.Metrics.RegProps

/-!
# What the evaluation reports contain (C204, C205)
-/

set_option linter.unusedSectionVars false

namespace Scigo.Eval

section
variable {K : Type} [Field K] [LinearOrder K] [IsStrictOrderedRing K]

/-- **C204.** `EvaluateRegression` of two vectors succeeds exactly when they have the same non-zero length and the targets are
not all equal; nil vectors panic, everything else is an error. -/
theorem regression_report_ok_iff (sqrt : K → K) (nan : K) (a b : List K) :
    ((∃ r, evaluateRegression abs sqrt 100 nan (some a) (some b) = .ok r) ↔
      a.length = b.length ∧ ∃ x ∈ a, ∃ y ∈ a, x ≠ y) ∧
    (∀ s, evaluateRegression abs sqrt 100 nan (some a) (some b) ≠ .panic s) ∧
    (∃ s, evaluateRegression abs sqrt 100 nan none (some b) = .panic s) := by
  have hsplit : ∀ x : Outcome (RegReport K), (∃ e, x = .err e) →
      ((∃ r, x = .ok r) ↔ False) ∧ ∀ s, x ≠ .panic s := by
    rintro x ⟨e, rfl⟩; simp
  have key : ((∃ r, evaluateRegression abs sqrt 100 nan (some a) (some b) = .ok r) ↔
      a.length = b.length ∧ ∃ x ∈ a, ∃ y ∈ a, x ≠ y) ∧
      ∀ s, evaluateRegression abs sqrt 100 nan (some a) (some b) ≠ .panic s := by
    by_cases ha : a = []
    · subst ha
      have : ∃ e, evaluateRegression abs sqrt 100 nan (some ([] : List K)) (some b) = .err e := ⟨_, rfl⟩
      obtain ⟨h1, h2⟩ := hsplit _ this
      exact ⟨h1.trans (by simp), h2⟩
    by_cases hl : a.length = b.length
    · by_cases hd : ∃ x ∈ a, ∃ y ∈ a, x ≠ y
      · obtain ⟨r, e, hr, he, _⟩ := Metrics.r2_le_explained_variance a b hl hd
        have hx : ∃ x ∈ a, x ≠ 0 := by
          obtain ⟨x, hx, y, hy, hxy⟩ := hd
          by_cases h0 : x = 0
          · exact ⟨y, hy, fun h => hxy (h0.trans h.symm)⟩
          · exact ⟨x, hx, h0⟩
        have hm := (Metrics.mape_spec a b ha hl).2 hx
        unfold evaluateRegression
        rw [hr, he, hm]
        unfold Metrics.mse Metrics.mae
        rw [Metrics.regGuard_some ha hl, Metrics.regGuard_some ha hl]
        simp only [Outcome.bind_ok, orNaN]
        exact ⟨⟨fun _ => ⟨hl, hd⟩, fun _ => ⟨_, rfl⟩⟩, fun s h => by cases h⟩
      · have hd' := hd
        push Not at hd
        obtain ⟨e, he⟩ := (Metrics.r2_spec a b ha hl).2 hd
        have : ∃ e, evaluateRegression abs sqrt 100 nan (some a) (some b) = .err e := by
          refine ⟨e, ?_⟩
          unfold evaluateRegression
          rw [he]
          unfold Metrics.mse Metrics.mae
          rw [Metrics.regGuard_some ha hl, Metrics.regGuard_some ha hl]
          rfl
        obtain ⟨h1, h2⟩ := hsplit _ this
        exact ⟨h1.trans (iff_of_false id (fun h => hd' h.2)), h2⟩
    · have : ∃ e, evaluateRegression abs sqrt 100 nan (some a) (some b) = .err e := by
        refine ⟨.dimension a.length b.length 0, ?_⟩
        unfold evaluateRegression Metrics.mse Metrics.regGuard
        have h0 : ¬ a.length = 0 := fun h => ha (List.length_eq_zero_iff.1 h)
        have hl' : b.length ≠ a.length := fun h => hl h.symm
        simp only [if_neg h0, if_pos hl']
        rfl
      obtain ⟨h1, h2⟩ := hsplit _ this
      exact ⟨h1.trans (iff_of_false id (fun h => hl h.1)), h2⟩
  exact ⟨key.1, key.2, ⟨_, rfl⟩⟩

/-- **C204.** The entries of a report are the metrics of package `metrics`, `rmse` is the root of `mse`, `r2 ≤ explained
variance ≤ 1`, `r2 = 1` exactly for a perfect prediction; and the percentage error is a number: the fallback to NaN is never
taken, since targets that are all zero fail before. -/
theorem regression_report_entries (sqrt : K → K) (nan : K) (a b : List K) (r : RegReport K)
    (h : evaluateRegression abs sqrt 100 nan (some a) (some b) = .ok r) :
    Metrics.mse (some a) (some b) = .ok r.mse ∧ Metrics.rmse sqrt (some a) (some b) = .ok r.rmse ∧
    Metrics.mae abs (some a) (some b) = .ok r.mae ∧ Metrics.r2Score (some a) (some b) = .ok r.r2 ∧
    Metrics.mape abs 100 (some a) (some b) = .ok r.mape ∧ Metrics.explainedVariance (some a) (some b) = .ok r.evs ∧
    r.r2 ≤ r.evs ∧ r.evs ≤ 1 ∧ (r.r2 = 1 ↔ a = b) := by
  obtain ⟨hl, hd⟩ := (regression_report_ok_iff sqrt nan a b).1.1 ⟨r, h⟩
  have ha : a ≠ [] := by rintro rfl; simp at hd
  obtain ⟨v, e, hr, he, h1, h2, -⟩ := Metrics.r2_le_explained_variance a b hl hd
  have h3 := (Metrics.r2_le_one a b ha hl v hr).2
  have hx : ∃ x ∈ a, x ≠ 0 := by
    obtain ⟨x, hx, y, hy, hxy⟩ := hd
    by_cases h0 : x = 0
    · exact ⟨y, hy, fun h => hxy (h0.trans h.symm)⟩
    · exact ⟨x, hx, h0⟩
  have hm := (Metrics.mape_spec a b ha hl).2 hx
  have hmse : ∃ u, Metrics.mse (some a) (some b) = .ok u := by
    unfold Metrics.mse; rw [Metrics.regGuard_some ha hl]; exact ⟨_, rfl⟩
  have hmae : ∃ u, Metrics.mae abs (some a) (some b) = .ok u := by
    unfold Metrics.mae; rw [Metrics.regGuard_some ha hl]; exact ⟨_, rfl⟩
  obtain ⟨u, hu⟩ := hmse
  obtain ⟨u', hu'⟩ := hmae
  generalize Metrics.mean _ * (100 : K) = w at hm
  unfold evaluateRegression at h
  rw [hr, he, hm, hu, hu'] at h
  simp only [Outcome.bind_ok, orNaN] at h
  cases h
  refine ⟨hu, ?_, hu', hr, hm, he, h1, h2, h3⟩
  unfold Metrics.rmse
  rw [hu]; rfl

example : evaluateRegression abs (fun x : ℚ => x) 100 (-1) (some [1, 2, 0]) (some [1, 1, 0]) =
    .ok ⟨1 / 3, 1 / 3, 1 / 3, 1 / 2, 25, 2 / 3⟩ := by decide +kernel

example : evaluateRegression abs (fun x : ℚ => x) 100 (-1) (some [0, 0]) (some [1, 1]) = .err (.other "no variance") := by
  decide +kernel

theorem perClass_fold {β : Type} (g : Nat → β) (cs : List Int) (hn : cs.Nodup) (y : Int) (n : Nat) (f : Int → Option β) :
    ((cs.zipIdx n).foldl (fun (f : Int → Option β) x => Function.update f x.1 (some (g x.2))) f) y =
      if y ∈ cs then some (g (n + cs.idxOf y)) else f y := by
  induction cs generalizing n f with
  | nil => simp
  | cons c cs ih =>
    rw [List.nodup_cons] at hn
    rw [List.zipIdx_cons, List.foldl_cons, ih hn.2]
    by_cases hy : y = c
    · subst hy
      simp [hn.1]
    · have hc : c ≠ y := Ne.symm hy
      by_cases hm : y ∈ cs
      · rw [if_pos hm, if_pos (List.mem_cons_of_mem _ hm), List.idxOf_cons_ne _ hc]
        congr 2; omega
      · rw [if_neg hm, if_neg (by simp [hy, hm]), Function.update_of_ne hy]

/-- **C205.** The report of a metrics object has an entry per class exactly for the labels that occur among the true or the
predicted ones, with that class's precision, recall, F1 and number of samples; an AUC and a log loss exactly when there are
two classes and probabilities. -/
theorem classification_report (two half eps : K) (log : K → K) (m : ClsMetrics K) (hb : Built m) :
    (∀ y, ((m.report two half eps log).perClass y).isSome = true ↔ y ∈ m.yTrue ∨ y ∈ m.yPred) ∧
    (∀ y s, (m.report two half eps log).perClass y = some s → ∃ k, k < m.classes.length ∧ m.classes.getD k 0 = y ∧
      s.precision = m.classPrecision k ∧ s.recall = m.classRecall k ∧ s.f1 = m.classF1 two k ∧ s.support = (m.yTrue.count y : K)) ∧
    ((m.report two half eps log).auc.isSome = true ↔ m.classes.length = 2 ∧ m.yProba.isSome = true) ∧
    ((m.report two half eps log).logLoss.isSome = true ↔ m.classes.length = 2 ∧ m.yProba.isSome = true) := by
  have hn := hb.nodup
  obtain ⟨_, _, _, _, hmem⟩ := hb.facts
  have hpc : ∀ y, (m.report two half eps log).perClass y =
      if y ∈ m.classes then some (m.scores two (m.classes.idxOf y)) else none := by
    intro y
    have := perClass_fold (m.scores two) m.classes hn y 0 (fun _ => none)
    rw [Nat.zero_add] at this
    exact this
  refine ⟨?_, ?_, ?_, ?_⟩
  · intro y
    rw [hpc, ← hmem]
    by_cases hy : y ∈ m.classes <;> simp [hy]
  · intro y s hs
    rw [hpc] at hs
    by_cases hy : y ∈ m.classes
    · rw [if_pos hy] at hs
      cases hs
      have hk := List.idxOf_lt_length_of_mem hy
      have hg : m.classes.getD (m.classes.idxOf y) 0 = y := by
        rw [List.getD_eq_getElem _ _ hk]; exact List.getElem_idxOf hk
      refine ⟨_, hk, hg, rfl, rfl, rfl, ?_⟩
      show ((m.classSupport (m.classes.idxOf y) : Nat) : K) = _
      unfold ClsMetrics.classSupport
      rw [hg]
      exact congrArg _ (countLabel_eq y m.yTrue)
    · rw [if_neg hy] at hs; cases hs
  · show (if m.classes.length = 2 then entry (m.auc half) else none).isSome = true ↔ _
    by_cases h2 : m.classes.length = 2
    · rw [if_pos h2]
      unfold ClsMetrics.auc
      have h2' : ¬ m.classes.length ≠ 2 := fun h => h h2
      rw [if_neg h2']
      rcases m.yProba with _ | q
      · simp [entry]
      · simp only [Option.isSome_some, and_true, h2, iff_true]
        split_ifs <;> rfl
    · simp [h2]
  · show (if m.classes.length = 2 then entry (m.logLoss log eps) else none).isSome = true ↔ _
    by_cases h2 : m.classes.length = 2
    · rw [if_pos h2]
      unfold ClsMetrics.logLoss
      rcases m.yProba with _ | q
      · simp [entry]
      · simp [h2, entry]
    · simp [h2]

/-- **C205.** The numbers of samples of the classes in a report sum to the number of samples, and the accuracy is the mean of
the recalls weighted with them. -/
theorem report_totals (two half eps : K) (log : K → K) (m : ClsMetrics K) (hb : Built m) :
    ∃ S : Nat → ClassScores K,
      (∀ k, k < m.classes.length → (m.report two half eps log).perClass (m.classes.getD k 0) = some (S k)) ∧
      ∑ k ∈ Finset.range m.classes.length, (S k).support = (m.yTrue.length : K) ∧
      ∑ k ∈ Finset.range m.classes.length, (S k).recall * (S k).support =
        (m.report two half eps log).accuracy * (m.yTrue.length : K) := by
  have hn := hb.nodup
  refine ⟨m.scores two, ?_, ?_, ?_⟩
  · intro k hk
    have h := perClass_fold (m.scores two) m.classes hn (m.classes.getD k 0) 0 (fun _ => none)
    have hg : m.classes.getD k 0 = m.classes[k] := List.getD_eq_getElem _ _ hk
    rw [if_pos (by rw [hg]; exact List.getElem_mem hk), hg, hn.idxOf_getElem, Nat.zero_add] at h
    rw [hg]
    exact h
  · rw [← confusion_total m hb]
    refine Finset.sum_congr rfl (fun k hk => ?_)
    obtain ⟨h1, h2, _⟩ := confusion_marginals m hb k (Finset.mem_range.1 hk)
    show ((m.classSupport k : Nat) : K) = _
    rw [h1, h2]
  · have hne : (m.yTrue.length : K) ≠ 0 := by
      have := hb.facts.1
      rw [Nat.cast_ne_zero]
      exact fun h => this (List.length_eq_zero_iff.1 h)
    show _ = m.accuracy * _
    rw [accuracy_trace m hb, div_mul_cancel₀ _ hne]
    refine Finset.sum_congr rfl (fun k hk => ?_)
    have hk := Finset.mem_range.1 hk
    obtain ⟨h1, h2, _⟩ := confusion_marginals m hb k hk
    show m.classRecall k * ((m.classSupport k : Nat) : K) = _
    rw [(class_precision_recall m hb k hk).2, h2, h1]
    by_cases h0 : (m.yTrue.count (m.classes.getD k 0) : K) = 0
    · rw [h0, mul_zero]
      have hle : m.confusion.at' k k ≤ ∑ j ∈ Finset.range m.classes.length, m.confusion.at' k j :=
        Finset.single_le_sum (f := fun j => m.confusion.at' k j) (fun j hj => by
          show 0 ≤ m.confusion.at' k j
          rw [confusion_entry m hb k j hk (Finset.mem_range.1 hj)]
          exact Nat.cast_nonneg _) (Finset.mem_range.2 hk)
      have hge : 0 ≤ m.confusion.at' k k := by
        rw [confusion_entry m hb k k hk hk]
        exact Nat.cast_nonneg _
      rw [h1, h0] at hle
      exact (le_antisymm hle hge).symm
    · rw [div_mul_cancel₀ _ h0]

/-- **C205.** `EvaluateClassification` refuses empty labels and labels, predictions or probabilities of different lengths, and
otherwise returns the report of these labels. -/
theorem classification_report_ok (srt iter : List Int → List Int) (two half eps : K) (log : K → K) (yTrue yPred : List Int)
    (yProba : Option (List K)) :
    ((∃ r, evaluateClassification srt iter two half eps log yTrue yPred yProba = .ok r) ↔
      yTrue ≠ [] ∧ yPred.length = yTrue.length ∧ ∀ q, yProba = some q → q.length = yTrue.length) ∧
    (∀ s, evaluateClassification srt iter two half eps log yTrue yPred yProba ≠ .panic s) := by
  unfold evaluateClassification ClsMetrics.new
  by_cases h1 : yTrue.length = 0
  · have : yTrue = [] := List.length_eq_zero_iff.1 h1
    subst this
    constructor
    · simp
    · intro s h; cases h
  · have hne : yTrue ≠ [] := fun h => h1 (by rw [h]; rfl)
    rw [if_neg h1]
    by_cases h2 : yTrue.length ≠ yPred.length
    · rw [if_pos h2]
      refine ⟨?_, fun s h => by cases h⟩
      constructor
      · rintro ⟨r, h⟩; cases h
      · rintro ⟨_, h, _⟩; exact absurd h.symm h2
    · rw [if_neg h2]
      have h2' : yPred.length = yTrue.length := (not_not.1 h2).symm
      by_cases h3 : (yProba.any fun q => decide (q.length ≠ yTrue.length)) = true
      · rw [if_pos h3]
        refine ⟨?_, fun s h => by cases h⟩
        constructor
        · rintro ⟨r, h⟩; cases h
        · rintro ⟨_, _, h⟩
          rcases yProba with _ | q
          · simp at h3
          · have := h q rfl
            simp [this] at h3
      · rw [if_neg h3]
        refine ⟨⟨fun _ => ⟨hne, h2', ?_⟩, fun _ => ⟨_, rfl⟩⟩, fun s h => by cases h⟩
        rintro q rfl
        simpa using h3

end

/-- the classes -1, 3 with probabilities -/
def exReport : ClsMetrics ℚ := ⟨[3, -1, 3], [3, 3, -1], some [1/2, 1/3, 1/4], [-1, 3]⟩

example : Built exReport :=
  ⟨stableAsc (fun x => x), List.dedup, stableAsc_sorts _, fun l => ⟨List.nodup_dedup l, fun _ => List.mem_dedup⟩, by decide +kernel⟩

example : (exReport.report 2 (1/2) 0 (fun x => x)).perClass 3 = some ⟨1/2, 1/2, 1/2, 2⟩ ∧
    (exReport.report 2 (1/2) 0 (fun x => x)).perClass 0 = none ∧
    (exReport.report 2 (1/2) 0 (fun x => x)).auc = some (1/2) ∧
    (exReport.report 2 (1/2) 0 (fun x => x)).accuracy = 1/3 := by decide +kernel

end Scigo.Eval
