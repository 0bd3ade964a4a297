import Verif.Eval.Model
import Verif.Preprocessing.Lemmas
import Verif.Metrics.AucProps
import Verif.Metrics.ClsProps
import Mathlib.Data.List.GetD
import Mathlib.Algebra.Order.Field.Basic
import Mathlib.Algebra.BigOperators.Group.Finset.Basic
import Mathlib.Algebra.BigOperators.Intervals
import Mathlib.Tactic.Ring
import Mathlib.Tactic.Linarith
import Mathlib.Tactic.FieldSimp
import Mathlib.Data.Rat.Defs
import Mathlib.Data.List.Dedup

/-!
# Classification evaluation (C66, C113)
-/

set_option linter.unusedSectionVars false

namespace Scigo.Eval

/-- number of samples with true label `a` and predicted label `b` -/
def pairCount (a b : Int) (z : List (Int × Int)) : Nat := z.countP fun x => decide (x.1 = a ∧ x.2 = b)

/-- the metrics object is the one `NewClassificationMetrics` returns for these labels -/
def Built {α : Type} (m : ClsMetrics α) : Prop :=
  ∃ srt iter, SortsAsc (fun x : Int => x) srt ∧ MapKeys iter ∧ ClsMetrics.new srt iter m.yTrue m.yPred m.yProba = .ok m

section
variable {α : Type}

/-- what a metrics object looks like -/
theorem Built.facts {m : ClsMetrics α} (h : Built m) :
    m.yTrue ≠ [] ∧ m.yTrue.length = m.yPred.length ∧ (∀ q, m.yProba = some q → q.length = m.yTrue.length) ∧
      m.classes.Pairwise (· < ·) ∧ (∀ y, y ∈ m.classes ↔ y ∈ m.yTrue ∨ y ∈ m.yPred) := by
  obtain ⟨srt, iter, hs, hi, h⟩ := h
  unfold ClsMetrics.new at h
  split_ifs at h with h1 h2 h3
  have h := Outcome.ok.inj h
  have hc : m.classes = srt (iter (m.yTrue ++ m.yPred)) := by rw [← h]
  have hp := (hs (iter (m.yTrue ++ m.yPred))).1
  have hnd : (srt (iter (m.yTrue ++ m.yPred))).Nodup := hp.nodup_iff.2 (hi _).1
  refine ⟨fun e => h1 (by rw [e]; rfl), not_not.1 h2, ?_, ?_, ?_⟩
  · intro q hq
    rw [hq] at h3
    simpa using h3
  · rw [hc]
    have hso := (hs (iter (m.yTrue ++ m.yPred))).2
    have := hso.and hnd
    exact this.imp (fun {a b} hab => lt_of_le_of_ne (not_lt.1 hab.1) hab.2)
  · intro y
    rw [hc, hp.mem_iff, (hi _).2, List.mem_append]

theorem Built.nodup {m : ClsMetrics α} (h : Built m) : m.classes.Nodup :=
  h.facts.2.2.2.1.imp (fun hab => ne_of_lt hab)

theorem Built.mem_pairs {m : ClsMetrics α} (h : Built m) {x : Int × Int} (hx : x ∈ m.pairs) :
    x.1 ∈ m.classes ∧ x.2 ∈ m.classes := by
  obtain ⟨-, -, -, -, hm⟩ := h.facts
  have := List.of_mem_zip hx
  exact ⟨(hm _).2 (.inl this.1), (hm _).2 (.inr this.2)⟩

theorem count_foldl {β : Type} (p : β → Prop) [DecidablePred p] (l : List β) (n : Nat) :
    l.foldl (fun s x => if p x then s + 1 else s) n = n + l.countP (fun x => decide (p x)) := by
  induction l generalizing n with
  | nil => simp
  | cons a l ih =>
    rw [List.foldl_cons, ih, List.countP_cons]
    by_cases h : p a <;> simp [h] <;> omega

theorem tpfp_eq (label : Int) (z : List (Int × Int)) :
    tpfp label z = (z.countP (fun x => decide (x.1 = label ∧ x.2 = label)),
      z.countP (fun x => decide (x.1 ≠ label ∧ x.2 = label))) := by
  have gen : ∀ a b : Nat, z.foldl (fun s x => if x.2 = label then (if x.1 = label then (s.1 + 1, s.2) else (s.1, s.2 + 1))
      else s) (a, b) = (a + z.countP (fun x => decide (x.1 = label ∧ x.2 = label)),
      b + z.countP (fun x => decide (x.1 ≠ label ∧ x.2 = label))) := by
    induction z with
    | nil => simp
    | cons x z ih =>
      intro a b
      rw [List.foldl_cons, List.countP_cons, List.countP_cons]
      by_cases h2 : x.2 = label <;> by_cases h1 : x.1 = label <;> simp only [h1, h2, if_true, if_false] <;> rw [ih] <;>
        simp [h1, h2] <;> omega
  have h := gen 0 0
  rw [Nat.zero_add, Nat.zero_add] at h
  exact h

theorem tpfn_eq (label : Int) (z : List (Int × Int)) :
    tpfn label z = (z.countP (fun x => decide (x.1 = label ∧ x.2 = label)),
      z.countP (fun x => decide (x.1 = label ∧ x.2 ≠ label))) := by
  have gen : ∀ a b : Nat, z.foldl (fun s x => if x.1 = label then (if x.2 = label then (s.1 + 1, s.2) else (s.1, s.2 + 1))
      else s) (a, b) = (a + z.countP (fun x => decide (x.1 = label ∧ x.2 = label)),
      b + z.countP (fun x => decide (x.1 = label ∧ x.2 ≠ label))) := by
    induction z with
    | nil => simp
    | cons x z ih =>
      intro a b
      rw [List.foldl_cons, List.countP_cons, List.countP_cons]
      by_cases h2 : x.2 = label <;> by_cases h1 : x.1 = label <;> simp only [h1, h2, if_true, if_false] <;> rw [ih] <;>
        simp [h1, h2] <;> omega
  have h := gen 0 0
  rw [Nat.zero_add, Nat.zero_add] at h
  exact h

theorem countP_split {β : Type} (p q r : β → Bool) (l : List β) (h : ∀ x ∈ l, (p x = true ↔ q x = true ∨ r x = true) ∧ ¬ (q x = true ∧ r x = true)) :
    l.countP p = l.countP q + l.countP r := by
  induction l with
  | nil => rfl
  | cons a l ih =>
    rw [List.countP_cons, List.countP_cons, List.countP_cons, ih (fun x hx => h x (by simp [hx]))]
    have := h a (by simp)
    cases hp : p a <;> cases hq : q a <;> cases hr : r a <;> simp_all <;> omega

end

section
variable {K : Type} [Field K] [LinearOrder K] [IsStrictOrderedRing K]

theorem classIndex_eq (classes : List Int) (hn : classes.Nodup) (y : Int) (hy : y ∈ classes) :
    (classIndex classes y).getD 0 = classes.idxOf y := by
  have : classIndex classes y = Preprocessing.buildIndex classes y := rfl
  rw [this, Preprocessing.buildIndex_eq classes hn, if_pos hy, Option.getD_some]

theorem bump_fold (classes : List Int) (hn : classes.Nodup) (z : List (Int × Int))
    (hz : ∀ x ∈ z, x.1 ∈ classes ∧ x.2 ∈ classes) (M : Nat → Nat → K) (i j : Nat) (hi : i < classes.length) (hj : j < classes.length) :
    z.foldl (bump (classIndex classes)) M i j = M i j + (pairCount (classes.getD i 0) (classes.getD j 0) z : K) := by
  induction z generalizing M with
  | nil => simp [pairCount]
  | cons x z ih =>
    rw [List.foldl_cons, ih (fun x hx => hz x (by simp [hx]))]
    obtain ⟨h1, h2⟩ := hz x (by simp)
    have e1 : i = classes.idxOf x.1 ↔ x.1 = classes.getD i 0 := by
      rw [List.getD_eq_getElem _ _ hi]
      constructor
      · intro h; subst h; rw [List.getElem_idxOf]
      · intro h; rw [h, hn.idxOf_getElem]
    have e2 : j = classes.idxOf x.2 ↔ x.2 = classes.getD j 0 := by
      rw [List.getD_eq_getElem _ _ hj]
      constructor
      · intro h; subst h; rw [List.getElem_idxOf]
      · intro h; rw [h, hn.idxOf_getElem]
    unfold bump
    rw [classIndex_eq classes hn _ h1, classIndex_eq classes hn _ h2]
    unfold pairCount
    rw [List.countP_cons]
    by_cases h : i = classes.idxOf x.1 ∧ j = classes.idxOf x.2
    · rw [if_pos h, if_pos (by simpa using ⟨e1.1 h.1, e2.1 h.2⟩)]
      push_cast; ring
    · rw [if_neg h, if_neg (by
        simp only [decide_eq_true_eq]
        rintro ⟨a, b⟩; exact h ⟨e1.2 a, e2.2 b⟩)]
      push_cast; ring

/-- C66: entry `(i, j)` of the confusion matrix counts the samples of class `i` predicted as class `j` -/
theorem confusion_entry (m : ClsMetrics K) (hb : Built m) (i j : Nat) (hi : i < m.classes.length) (hj : j < m.classes.length) :
    m.confusion.at' i j = (pairCount (m.classes.getD i 0) (m.classes.getD j 0) (m.yTrue.zip m.yPred) : K) := by
  show m.pairs.foldl (bump (classIndex m.classes)) (fun _ _ => 0) i j = _
  rw [bump_fold m.classes hb.nodup m.pairs (fun x hx => hb.mem_pairs hx) _ i j hi hj, zero_add]
  rfl

theorem sum_countP_classes {β : Type} (f : β → Int) (g : β → Bool) (classes : List Int) (hn : classes.Nodup) (z : List β)
    (hz : ∀ x ∈ z, g x = true → f x ∈ classes) :
    (∑ j ∈ Finset.range classes.length, z.countP (fun x => g x && decide (f x = classes.getD j 0))) = z.countP g := by
  induction z with
  | nil => simp
  | cons x z ih =>
    simp only [List.countP_cons]
    rw [Finset.sum_add_distrib, ih (fun x hx => hz x (by simp [hx]))]
    congr 1
    by_cases hg : g x = true
    · have hx := hz x (by simp) hg
      rw [if_pos hg, Finset.sum_eq_single (classes.idxOf (f x))]
      · rw [if_pos]
        have hlt := List.idxOf_lt_length_of_mem hx
        rw [List.getD_eq_getElem _ _ hlt, List.getElem_idxOf]
        simp [hg]
      · intro j hj hne
        rw [if_neg]
        simp only [hg, Bool.true_and, decide_eq_true_eq]
        intro h
        apply hne
        have hj := Finset.mem_range.1 hj
        rw [h, List.getD_eq_getElem _ _ hj, hn.idxOf_getElem]
      · intro h
        exact absurd (Finset.mem_range.2 (List.idxOf_lt_length_of_mem hx)) h
    · rw [if_neg hg]
      apply Finset.sum_eq_zero
      intro j _
      rw [if_neg (by simp [hg])]

theorem countP_zip_fst {β γ : Type} (p : β → Bool) (l : List β) (r : List γ) (h : l.length = r.length) :
    (l.zip r).countP (fun x => p x.1) = l.countP p := by
  induction l generalizing r with
  | nil => simp
  | cons a l ih =>
    cases r with
    | nil => simp at h
    | cons b r => rw [List.zip_cons_cons, List.countP_cons, List.countP_cons, ih r (by simpa using h)]

theorem countP_zip_snd {β γ : Type} (p : γ → Bool) (l : List β) (r : List γ) (h : l.length = r.length) :
    (l.zip r).countP (fun x => p x.2) = r.countP p := by
  induction l generalizing r with
  | nil => cases r with
    | nil => rfl
    | cons b r => simp at h
  | cons a l ih =>
    cases r with
    | nil => simp at h
    | cons b r => rw [List.zip_cons_cons, List.countP_cons, List.countP_cons, ih r (by simpa using h)]

theorem row_count (m : ClsMetrics K) (hb : Built m) (a : Int) :
    (∑ j ∈ Finset.range m.classes.length, pairCount a (m.classes.getD j 0) m.pairs) = m.yTrue.count a := by
  have h := sum_countP_classes (fun x : Int × Int => x.2) (fun x => decide (x.1 = a)) m.classes hb.nodup m.pairs
    (fun x hx _ => (hb.mem_pairs hx).2)
  have e : m.pairs.countP (fun x => decide (x.1 = a)) = m.yTrue.count a := by
    show (m.yTrue.zip m.yPred).countP (fun x => decide (x.1 = a)) = _
    rw [countP_zip_fst (fun y => decide (y = a)) _ _ hb.facts.2.1]
    unfold List.count
    apply List.countP_congr
    intro x _; simp
  rw [← e, ← h]
  apply Finset.sum_congr rfl
  intro j _
  unfold pairCount
  apply List.countP_congr
  intro x _; simp

theorem col_count (m : ClsMetrics K) (hb : Built m) (b : Int) :
    (∑ i ∈ Finset.range m.classes.length, pairCount (m.classes.getD i 0) b m.pairs) = m.yPred.count b := by
  have h := sum_countP_classes (fun x : Int × Int => x.1) (fun x => decide (x.2 = b)) m.classes hb.nodup m.pairs
    (fun x hx _ => (hb.mem_pairs hx).1)
  have e : m.pairs.countP (fun x => decide (x.2 = b)) = m.yPred.count b := by
    show (m.yTrue.zip m.yPred).countP (fun x => decide (x.2 = b)) = _
    rw [countP_zip_snd (fun y => decide (y = b)) _ _ hb.facts.2.1]
    unfold List.count
    apply List.countP_congr
    intro x _; simp
  rw [← e, ← h]
  apply Finset.sum_congr rfl
  intro j _
  unfold pairCount
  apply List.countP_congr
  intro x _; simp [and_comm]

/-- C66: row sums are the supports of the classes, column sums the numbers of predictions -/
theorem confusion_marginals (m : ClsMetrics K) (hb : Built m) (k : Nat) (hk : k < m.classes.length) :
    (∑ j ∈ Finset.range m.classes.length, m.confusion.at' k j) = (m.yTrue.count (m.classes.getD k 0) : K) ∧
      m.classSupport k = m.yTrue.count (m.classes.getD k 0) ∧
      (∑ i ∈ Finset.range m.classes.length, m.confusion.at' i k) = (m.yPred.count (m.classes.getD k 0) : K) := by
  refine ⟨?_, ?_, ?_⟩
  · rw [← row_count m hb, Nat.cast_sum]
    exact Finset.sum_congr rfl (fun j hj => confusion_entry m hb k j hk (Finset.mem_range.1 hj))
  · unfold ClsMetrics.classSupport
    rw [count_foldl, Nat.zero_add]
    unfold List.count
    apply List.countP_congr
    intro x _; simp
  · rw [← col_count m hb, Nat.cast_sum]
    exact Finset.sum_congr rfl (fun j hj => confusion_entry m hb j k (Finset.mem_range.1 hj) hk)

/-- C66: the entries of the confusion matrix sum to the number of samples -/
theorem confusion_total (m : ClsMetrics K) (hb : Built m) :
    (∑ i ∈ Finset.range m.classes.length, ∑ j ∈ Finset.range m.classes.length, m.confusion.at' i j) = (m.yTrue.length : K) := by
  have h1 : (∑ i ∈ Finset.range m.classes.length, ∑ j ∈ Finset.range m.classes.length, m.confusion.at' i j) =
      ∑ i ∈ Finset.range m.classes.length, (m.yTrue.count (m.classes.getD i 0) : K) :=
    Finset.sum_congr rfl (fun i hi => (confusion_marginals m hb i (Finset.mem_range.1 hi)).1)
  rw [h1, ← Nat.cast_sum]
  congr 1
  have h := sum_countP_classes (fun x : Int => x) (fun _ => true) m.classes hb.nodup m.yTrue
    (fun x hx _ => (hb.facts.2.2.2.2 x).2 (.inl hx))
  rw [List.countP_true] at h
  rw [← h]
  apply Finset.sum_congr rfl
  intro j _
  unfold List.count
  apply List.countP_congr
  intro x _; simp

/-- C66: accuracy is the trace of the confusion matrix over the number of samples -/
theorem accuracy_trace (m : ClsMetrics K) (hb : Built m) :
    m.accuracy = (∑ i ∈ Finset.range m.classes.length, m.confusion.at' i i) / (m.yTrue.length : K) := by
  unfold ClsMetrics.accuracy
  congr 1
  have h1 : (∑ i ∈ Finset.range m.classes.length, m.confusion.at' i i) =
      ∑ i ∈ Finset.range m.classes.length, (pairCount (m.classes.getD i 0) (m.classes.getD i 0) m.pairs : K) :=
    Finset.sum_congr rfl (fun i hi => confusion_entry m hb i i (Finset.mem_range.1 hi) (Finset.mem_range.1 hi))
  rw [h1, ← Nat.cast_sum]
  congr 1
  rw [count_foldl, Nat.zero_add]
  have h := sum_countP_classes (fun x : Int × Int => x.1) (fun x => decide (x.1 = x.2)) m.classes hb.nodup m.pairs
    (fun x hx _ => (hb.mem_pairs hx).1)
  rw [← h]
  apply Finset.sum_congr rfl
  intro j _
  unfold pairCount
  apply List.countP_congr
  intro x _
  simp only [Bool.and_eq_true, decide_eq_true_eq]
  constructor
  · rintro ⟨a, b⟩; exact ⟨b, by rw [← a]; exact b⟩
  · rintro ⟨a, b⟩; exact ⟨a.trans b.symm, a⟩

/-- C66: precision and recall of a class are the diagonal entry over the column and the row sum, zero when that is zero -/
theorem class_precision_recall (m : ClsMetrics K) (hb : Built m) (k : Nat) (hk : k < m.classes.length) :
    m.classPrecision k = m.confusion.at' k k / (∑ i ∈ Finset.range m.classes.length, m.confusion.at' i k) ∧
      m.classRecall k = m.confusion.at' k k / (∑ j ∈ Finset.range m.classes.length, m.confusion.at' k j) := by
  obtain ⟨hr, -, hc⟩ := confusion_marginals m hb k hk
  rw [hr, hc, confusion_entry m hb k k hk hk]
  set c := m.classes.getD k 0
  constructor
  · have hs : m.pairs.countP (fun x => decide (x.1 = c ∧ x.2 = c)) + m.pairs.countP (fun x => decide (x.1 ≠ c ∧ x.2 = c)) =
        m.yPred.count c := by
      rw [← countP_split (fun x => decide (x.2 = c))]
      · show (m.yTrue.zip m.yPred).countP (fun x => decide (x.2 = c)) = _
        rw [countP_zip_snd (fun y => decide (y = c)) _ _ hb.facts.2.1]
        unfold List.count
        apply List.countP_congr
        intro x _; simp
      · intro x _
        by_cases h1 : x.1 = c <;> by_cases h2 : x.2 = c <;> simp [h1, h2]
    show (if (tpfp c m.pairs).1 + (tpfp c m.pairs).2 = 0 then 0 else ((tpfp c m.pairs).1 : K) /
      (((tpfp c m.pairs).1 + (tpfp c m.pairs).2 : Nat) : K)) = _
    rw [tpfp_eq]
    simp only [hs]
    split_ifs with h0
    · rw [h0]; simp
    · rfl
  · have hs : m.pairs.countP (fun x => decide (x.1 = c ∧ x.2 = c)) + m.pairs.countP (fun x => decide (x.1 = c ∧ x.2 ≠ c)) =
        m.yTrue.count c := by
      rw [← countP_split (fun x => decide (x.1 = c))]
      · show (m.yTrue.zip m.yPred).countP (fun x => decide (x.1 = c)) = _
        rw [countP_zip_fst (fun y => decide (y = c)) _ _ hb.facts.2.1]
        unfold List.count
        apply List.countP_congr
        intro x _; simp
      · intro x _
        by_cases h1 : x.1 = c <;> by_cases h2 : x.2 = c <;> simp [h1, h2]
    show (if (tpfn c m.pairs).1 + (tpfn c m.pairs).2 = 0 then 0 else ((tpfn c m.pairs).1 : K) /
      (((tpfn c m.pairs).1 + (tpfn c m.pairs).2 : Nat) : K)) = _
    rw [tpfn_eq]
    simp only [hs]
    split_ifs with h0
    · rw [h0]; simp
    · rfl

/-- C66: F1 of a class is twice the diagonal entry over the sum of its row and its column, zero when that is zero -/
theorem class_f1 (m : ClsMetrics K) (hb : Built m) (k : Nat) (hk : k < m.classes.length) :
    m.classF1 2 k = 2 * m.confusion.at' k k /
      ((∑ i ∈ Finset.range m.classes.length, m.confusion.at' i k) + ∑ j ∈ Finset.range m.classes.length, m.confusion.at' k j) := by
  obtain ⟨hp, hr⟩ := class_precision_recall m hb k hk
  have hn : ∀ i j, i < m.classes.length → j < m.classes.length → 0 ≤ m.confusion.at' i j := by
    intro i j hi hj
    rw [confusion_entry m hb i j hi hj]
    exact Nat.cast_nonneg _
  have hc : m.confusion.at' k k ≤ ∑ i ∈ Finset.range m.classes.length, m.confusion.at' i k :=
    Finset.single_le_sum (f := fun i => m.confusion.at' i k) (fun i hi => hn i k (Finset.mem_range.1 hi) hk) (Finset.mem_range.2 hk)
  have hr' : m.confusion.at' k k ≤ ∑ j ∈ Finset.range m.classes.length, m.confusion.at' k j :=
    Finset.single_le_sum (f := fun j => m.confusion.at' k j) (fun j hj => hn k j hk (Finset.mem_range.1 hj)) (Finset.mem_range.2 hk)
  have hd := hn k k hk hk
  unfold ClsMetrics.classF1
  rw [hp, hr]
  generalize m.confusion.at' k k = d at *
  generalize (∑ i ∈ Finset.range m.classes.length, m.confusion.at' i k) = c at *
  generalize (∑ j ∈ Finset.range m.classes.length, m.confusion.at' k j) = r at *
  unfold harmonic
  rcases hd.eq_or_lt with h0 | h0
  · rw [← h0]; simp
  · have h1 : 0 < c := h0.trans_le hc
    have h2 : 0 < r := h0.trans_le hr'
    have h3 : d / c + d / r ≠ 0 := (add_pos (div_pos h0 h1) (div_pos h0 h2)).ne'
    rw [if_neg (by simpa using h3)]
    have h4 : c + r ≠ 0 := (add_pos h1 h2).ne'
    rw [div_eq_div_iff h3 h4]
    field_simp
    ring

theorem ratio_unit (a b : Nat) : 0 ≤ (if a + b = 0 then (0 : K) else (a : K) / ((a + b : Nat) : K)) ∧
    (if a + b = 0 then (0 : K) else (a : K) / ((a + b : Nat) : K)) ≤ 1 := by
  split_ifs with h
  · exact ⟨le_rfl, zero_le_one⟩
  · have : (0 : K) < ((a + b : Nat) : K) := by exact_mod_cast Nat.pos_of_ne_zero h
    refine ⟨by positivity, (div_le_one this).2 ?_⟩
    exact_mod_cast Nat.le_add_right a b

theorem harmonic_unit (p r : K) (hp : 0 ≤ p ∧ p ≤ 1) (hr : 0 ≤ r ∧ r ≤ 1) : 0 ≤ harmonic 2 p r ∧ harmonic 2 p r ≤ 1 := by
  unfold harmonic
  split_ifs with h
  · exact ⟨le_rfl, zero_le_one⟩
  · have h : p + r ≠ 0 := by simpa using h
    have hpos : 0 < p + r := lt_of_le_of_ne (by linarith [hp.1, hr.1]) (Ne.symm h)
    refine ⟨div_nonneg (by nlinarith [hp.1, hr.1, mul_nonneg hp.1 hr.1]) hpos.le, (div_le_one hpos).2 ?_⟩
    nlinarith [mul_nonneg hp.1 (sub_nonneg.2 hr.2), mul_nonneg hr.1 (sub_nonneg.2 hp.2)]

theorem macro_unit (m : ClsMetrics K) (f : Nat → K) (hf : ∀ k, 0 ≤ f k ∧ f k ≤ 1) : 0 ≤ m.macroAvg f ∧ m.macroAvg f ≤ 1 := by
  unfold ClsMetrics.macroAvg
  have gen : ∀ n, 0 ≤ (List.range n).foldl (fun s k => s + f k) 0 ∧ (List.range n).foldl (fun s k => s + f k) 0 ≤ (n : K) := by
    intro n
    induction n with
    | zero => simp
    | succ n ih =>
      rw [List.range_succ, List.foldl_append]
      simp only [List.foldl_cons, List.foldl_nil]
      push_cast
      exact ⟨add_nonneg ih.1 (hf n).1, add_le_add ih.2 (hf n).2⟩
  obtain ⟨a, b⟩ := gen m.classes.length
  refine ⟨div_nonneg a (Nat.cast_nonneg _), div_le_one_of_le₀ b (Nat.cast_nonneg _)⟩

/-- C66: accuracy, precision, recall and F1, overall and per class, lie in `[0, 1]` -/
theorem scores_unit (m : ClsMetrics K) (hb : Built m) :
    (0 ≤ m.accuracy ∧ m.accuracy ≤ 1) ∧ (0 ≤ m.precision ∧ m.precision ≤ 1) ∧ (0 ≤ m.recall ∧ m.recall ≤ 1) ∧
      (0 ≤ m.f1 2 ∧ m.f1 2 ≤ 1) ∧ ∀ k, (0 ≤ m.classPrecision k ∧ m.classPrecision k ≤ 1) ∧
        (0 ≤ m.classRecall k ∧ m.classRecall k ≤ 1) ∧ (0 ≤ m.classF1 2 k ∧ m.classF1 2 k ≤ 1) := by
  have hp : ∀ k, 0 ≤ m.classPrecision k ∧ m.classPrecision k ≤ 1 := fun k => ratio_unit _ _
  have hr : ∀ k, 0 ≤ m.classRecall k ∧ m.classRecall k ≤ 1 := fun k => ratio_unit _ _
  have hP : 0 ≤ m.precision ∧ m.precision ≤ 1 := by
    unfold ClsMetrics.precision
    split_ifs
    · exact hp 1
    · exact macro_unit m _ hp
  have hR : 0 ≤ m.recall ∧ m.recall ≤ 1 := by
    unfold ClsMetrics.recall
    split_ifs
    · exact hr 1
    · exact macro_unit m _ hr
  refine ⟨?_, hP, hR, harmonic_unit _ _ hP hR, fun k => ⟨hp k, hr k, harmonic_unit _ _ (hp k) (hr k)⟩⟩
  unfold ClsMetrics.accuracy
  rw [count_foldl, Nat.zero_add]
  refine ⟨by positivity, div_le_one_of_le₀ ?_ (Nat.cast_nonneg _)⟩
  have h1 : m.pairs.countP (fun x => decide (x.1 = x.2)) ≤ m.pairs.length := List.countP_le_length
  have h2 : m.pairs.length = m.yTrue.length := by
    show (m.yTrue.zip m.yPred).length = _
    rw [List.length_zip, ← hb.facts.2.1, Nat.min_self]
  exact_mod_cast h2 ▸ h1

/-! ### AUC and log loss agree with package `metrics` -/

theorem inner_sum (c0 : Int) (z : List (Int × K)) (v s : K) :
    z.foldl (fun s y => if y.1 = c0 then (if y.2 < v then s + 1 else if v == y.2 then s + 1 / 2 else s) else s) s =
      s + (((z.filter (fun y => decide (y.1 = c0))).map Prod.snd).map
        (fun q => if q < v then (1 : K) else if v = q then 1 / 2 else 0)).sum := by
  induction z generalizing s with
  | nil => simp
  | cons y z ih =>
    rw [List.foldl_cons, ih]
    by_cases h : y.1 = c0
    · rw [List.filter_cons_of_pos (by simpa using h), if_pos h, List.map_cons, List.map_cons, List.sum_cons]
      by_cases h1 : y.2 < v
      · rw [if_pos h1, if_pos h1, add_assoc]
      · rw [if_neg h1, if_neg h1]
        by_cases h2 : v = y.2
        · rw [if_pos (by simpa using h2), if_pos h2, add_assoc]
        · rw [if_neg (by simpa using h2), if_neg h2, zero_add]
    · rw [List.filter_cons_of_neg (by simpa using h), if_neg h]

theorem aucPairs_eq (c0 c1 : Int) (z : List (Int × K)) :
    aucPairs (1 / 2) c0 c1 z = Metrics.mannWhitney ((z.filter (fun y => decide (y.1 = c1))).map Prod.snd)
      ((z.filter (fun y => decide (y.1 = c0))).map Prod.snd) := by
  unfold aucPairs
  have gen : ∀ (w : List (Int × K)) (s : K), w.foldl (fun s x => if x.1 = c1 then
      z.foldl (fun s y => if y.1 = c0 then (if y.2 < x.2 then s + 1 else if x.2 == y.2 then s + 1 / 2 else s) else s) s
      else s) s = s + Metrics.mannWhitney ((w.filter (fun y => decide (y.1 = c1))).map Prod.snd)
        ((z.filter (fun y => decide (y.1 = c0))).map Prod.snd) := by
    intro w
    induction w with
    | nil => intro s; simp [Metrics.mannWhitney]
    | cons x w ih =>
      intro s
      rw [List.foldl_cons, ih]
      by_cases h : x.1 = c1
      · rw [if_pos h, inner_sum, List.filter_cons_of_pos (by simpa using h)]
        unfold Metrics.mannWhitney
        rw [List.map_cons, List.map_cons, List.sum_cons, add_assoc]
      · rw [if_neg h, List.filter_cons_of_neg (by simpa using h)]
  rw [gen, zero_add]

/-- labels as `0.0`/`1.0` for package `metrics` -/
def indicator (c1 : Int) (l : List Int) : List K := l.map fun y => if y = c1 then 1 else 0

theorem scoresOf_one (c1 : Int) (l : List Int) (q : List K) :
    Metrics.scoresOf 1 (indicator c1 l) q = ((l.zip q).filter (fun y => decide (y.1 = c1))).map Prod.snd := by
  unfold Metrics.scoresOf indicator
  induction l generalizing q with
  | nil => simp
  | cons a l ih =>
    cases q with
    | nil => simp
    | cons b q =>
      have := ih q
      by_cases h : a = c1 <;> simp_all

theorem scoresOf_zero (c0 c1 : Int) (hne : c0 ≠ c1) (l : List Int) (hl : ∀ y ∈ l, y = c0 ∨ y = c1) (q : List K) :
    Metrics.scoresOf 0 (indicator c1 l) q = ((l.zip q).filter (fun y => decide (y.1 = c0))).map Prod.snd := by
  unfold Metrics.scoresOf indicator
  induction l generalizing q with
  | nil => simp
  | cons a l ih =>
    cases q with
    | nil => simp
    | cons b q =>
      have := ih (fun y hy => hl y (by simp [hy])) q
      rcases hl a (by simp) with h | h
      · subst h; simp_all
      · subst h; simp_all [Ne.symm hne]

theorem countLabel_eq (c : Int) (l : List Int) : countLabel c l = l.count c := by
  unfold countLabel
  rw [count_foldl, Nat.zero_add]
  unfold List.count
  apply List.countP_congr
  intro x _; simp

theorem filter_zip_length (c : Int) (l : List Int) (q : List K) (h : l.length = q.length) :
    (((l.zip q).filter (fun y => decide (y.1 = c))).map Prod.snd).length = l.count c := by
  rw [List.length_map, ← List.countP_eq_length_filter, countP_zip_fst (fun y => decide (y = c)) l q h]
  unfold List.count
  apply List.countP_congr
  intro x _; simp

/-- C66: the AUC of the metrics object is `metrics.AUC` of the indicator of the larger class -/
theorem auc_eq_metrics (m : ClsMetrics K) (hb : Built m) (h2 : m.classes.length = 2) (q : List K) (hq : m.yProba = some q)
    (srt : List (K × K) → List (K × K)) (hs : SortsDesc Prod.fst srt) :
    m.auc (1 / 2) = Metrics.auc (1 / 2) 2 srt (some (indicator (m.classes.getD 1 0) m.yTrue)) (some q) := by
  obtain ⟨f1, f2, f3, f4, f5⟩ := hb.facts
  have hlen := f3 q hq
  obtain ⟨c0, c1, hcl⟩ : ∃ c0 c1, m.classes = [c0, c1] := List.length_eq_two.1 h2
  have hlt : c0 < c1 := by rw [hcl] at f4; simpa using f4
  have hmem : ∀ y ∈ m.yTrue, y = c0 ∨ y = c1 := by
    intro y hy
    have := (f5 y).2 (.inl hy)
    rw [hcl] at this
    simpa using this
  have g0 : m.classes.getD 0 0 = c0 := by rw [hcl]; rfl
  have g1 : m.classes.getD 1 0 = c1 := by rw [hcl]; rfl
  have hil : (indicator c1 m.yTrue : List K).length = q.length := by simp [indicator, hlen]
  have hbin : ∀ y ∈ (indicator c1 m.yTrue : List K), y = 0 ∨ y = 1 := by
    intro y hy
    obtain ⟨a, _, rfl⟩ := List.mem_map.1 hy
    split_ifs <;> simp
  have hcount : m.yTrue.length = m.yTrue.count c0 + m.yTrue.count c1 := by
    have : m.yTrue.length = m.yTrue.countP (fun _ => true) := by simp
    rw [this]
    unfold List.count
    apply countP_split
    intro x hx
    rcases hmem x hx with h | h
    · subst h; simp [hlt.ne]
    · subst h; simp [hlt.ne']
  have hev : m.auc (1 / 2) = if m.yTrue.count c1 = 0 ∨ m.yTrue.length - m.yTrue.count c1 = 0 then .ok (1 / 2)
      else .ok (aucPairs (1 / 2) c0 c1 (m.yTrue.zip q) /
        ((m.yTrue.count c1 : K) * ((m.yTrue.length - m.yTrue.count c1 : Nat) : K))) := by
    unfold ClsMetrics.auc
    rw [if_neg (by simp [h2]), hq, g0, g1]
    simp only [countLabel_eq]
  rw [hev, g1]
  by_cases hd : m.yTrue.count c1 = 0 ∨ m.yTrue.length - m.yTrue.count c1 = 0
  · rw [if_pos hd, Metrics.auc_one_class srt _ q (by simpa [indicator] using f1) hil]
    rcases hd with hd | hd
    · right
      intro y hy
      obtain ⟨a, ha, rfl⟩ := List.mem_map.1 hy
      rw [if_neg]
      rintro rfl
      exact absurd ha (List.count_eq_zero.1 hd)
    · left
      intro y hy
      obtain ⟨a, ha, rfl⟩ := List.mem_map.1 hy
      rw [if_pos]
      rcases hmem a ha with h | h
      · subst h
        have : 0 < m.yTrue.count a := List.count_pos_iff.2 ha
        omega
      · exact h
  · rw [if_neg hd]
    have hc1 : 0 < m.yTrue.count c1 := by omega
    have hc0 : 0 < m.yTrue.count c0 := by omega
    rw [Metrics.auc_mann_whitney srt hs _ q hil hbin, scoresOf_one, scoresOf_zero c0 c1 hlt.ne _ hmem, aucPairs_eq,
      filter_zip_length c1 _ _ hlen.symm, filter_zip_length c0 _ _ hlen.symm, show m.yTrue.length - m.yTrue.count c1 =
      m.yTrue.count c0 by omega]
    · exact List.mem_map.2 ⟨c1, List.count_pos_iff.1 hc1, by simp⟩
    · exact List.mem_map.2 ⟨c0, List.count_pos_iff.1 hc0, by simp [hlt.ne]⟩

/-- C113 is false for three or more classes: the reported F1 is the harmonic mean of the averages -/
theorem macro_f1_wrong : ∃ m : ClsMetrics ℚ, Built m ∧ m.f1 2 ≠ m.macroAvg (m.classF1 2) := by
  refine ⟨⟨[0, 0, 1, 2], [0, 1, 1, 2], none, [0, 1, 2]⟩, ⟨stableAsc (fun x => x), List.dedup, stableAsc_sorts _, ?_, ?_⟩, ?_⟩
  · intro l; exact ⟨List.nodup_dedup l, fun x => List.mem_dedup⟩
  · decide +kernel
  · decide +kernel

theorem class_scores_counts (m : ClsMetrics K) (hb : Built m) (k : Nat) (hk : k < m.classes.length) :
    m.classPrecision k = (pairCount m.classes[k] m.classes[k] (m.yTrue.zip m.yPred) : K) / m.yPred.count m.classes[k] ∧
      m.classRecall k = (pairCount m.classes[k] m.classes[k] (m.yTrue.zip m.yPred) : K) / m.yTrue.count m.classes[k] := by
  obtain ⟨h1, h2⟩ := class_precision_recall m hb k hk
  obtain ⟨h3, -, h4⟩ := confusion_marginals m hb k hk
  rw [h1, h2, h3, h4, confusion_entry m hb k k hk hk, List.getD_eq_getElem _ _ hk]
  exact ⟨rfl, rfl⟩

/-- C113 (partial): for two classes the reported precision, recall and F1 are those of the larger label: its samples predicted as such over its predictions, over
its samples, and twice over both; for any other number of classes precision and recall are the averages of these ratios over the labels that occur. Missing: then
F1 is not the average of the classes' F1 (`macro_f1_wrong`). -/
theorem f1_partial (m : ClsMetrics K) (hb : Built m) :
    let hits : Int → K := fun c => (pairCount c c (m.yTrue.zip m.yPred) : K)
    (∀ c0 c1, m.classes = [c0, c1] → c0 < c1 ∧ m.precision = hits c1 / m.yPred.count c1 ∧ m.recall = hits c1 / m.yTrue.count c1 ∧
      m.f1 2 = 2 * hits c1 / (m.yTrue.count c1 + m.yPred.count c1)) ∧
    (m.classes.length ≠ 2 → m.precision = (m.classes.map fun c => hits c / m.yPred.count c).sum / m.classes.length ∧
      m.recall = (m.classes.map fun c => hits c / m.yTrue.count c).sum / m.classes.length) := by
  intro hits
  have hs : ∀ (f : Nat → K) (g : Int → K), (∀ k (hk : k < m.classes.length), f k = g m.classes[k]) →
      (List.range m.classes.length).foldl (fun s k => s + f k) 0 = (m.classes.map g).sum := by
    intro f g hfg
    have h1 : (List.range m.classes.length).foldl (fun s k => s + f k) 0 = ((List.range m.classes.length).map f).sum := by
      rw [List.sum_eq_foldl, List.foldl_map]
    rw [h1]
    congr 1
    apply List.ext_getElem
    · simp
    · intro k h1 h2
      simp only [List.getElem_map, List.getElem_range]
      exact hfg k (by simpa using h2)
  constructor
  · intro c0 c1 hc
    have hl : m.classes.length = 2 := by rw [hc]; rfl
    have hk : 1 < m.classes.length := by omega
    have he : m.classes[1] = c1 := by simp only [hc]; rfl
    have hg : m.classes.getD 1 0 = c1 := by rw [List.getD_eq_getElem _ _ hk, he]
    obtain ⟨h1, h2⟩ := class_scores_counts m hb 1 hk
    rw [he] at h1 h2
    have hp : m.precision = hits c1 / m.yPred.count c1 := by unfold ClsMetrics.precision; rw [if_pos hl, h1]
    have hr : m.recall = hits c1 / m.yTrue.count c1 := by unfold ClsMetrics.recall; rw [if_pos hl, h2]
    have hlt : c0 < c1 := by
      have := hb.facts.2.2.2.1
      rw [hc] at this
      simpa using this
    refine ⟨hlt, hp, hr, ?_⟩
    unfold ClsMetrics.f1 harmonic
    rw [hp, hr]
    have hT : pairCount c1 c1 (m.yTrue.zip m.yPred) ≤ m.yTrue.count c1 := by
      rw [← row_count m hb c1]
      have := Finset.single_le_sum (f := fun j => pairCount c1 (m.classes.getD j 0) m.pairs) (fun _ _ => Nat.zero_le _) (Finset.mem_range.2 hk)
      rwa [hg] at this
    have hP : pairCount c1 c1 (m.yTrue.zip m.yPred) ≤ m.yPred.count c1 := by
      rw [← col_count m hb c1]
      have := Finset.single_le_sum (f := fun i => pairCount (m.classes.getD i 0) c1 m.pairs) (fun _ _ => Nat.zero_le _) (Finset.mem_range.2 hk)
      rwa [hg] at this
    by_cases h0 : pairCount c1 c1 (m.yTrue.zip m.yPred) = 0
    · have : hits c1 = 0 := by show ((_ : Nat) : K) = 0; rw [h0]; simp
      rw [this]; simp
    · have hh : 0 < hits c1 := by show 0 < ((_ : Nat) : K); exact Nat.cast_pos.2 (by omega)
      have hT' : (0 : K) < m.yTrue.count c1 := Nat.cast_pos.2 (by omega)
      have hP' : (0 : K) < m.yPred.count c1 := Nat.cast_pos.2 (by omega)
      have hsum : 0 < hits c1 / (m.yPred.count c1 : K) + hits c1 / (m.yTrue.count c1 : K) := by positivity
      rw [if_neg (by simpa using hsum.ne')]
      field_simp
  · intro h
    unfold ClsMetrics.precision ClsMetrics.recall ClsMetrics.macroAvg
    rw [if_neg h, if_neg h, hs _ (fun c => hits c / m.yPred.count c) (fun k hk => (class_scores_counts m hb k hk).1),
      hs _ (fun c => hits c / m.yTrue.count c) (fun k hk => (class_scores_counts m hb k hk).2)]
    exact ⟨rfl, rfl⟩

end

/-- C66: the log loss of the metrics object is `metrics.BinaryLogLoss` of the indicator of the larger class -/
theorem logLoss_eq_metrics (m : ClsMetrics ℝ) (hb : Built m) (h2 : m.classes.length = 2) (q : List ℝ) (hq : m.yProba = some q) :
    m.logLoss Real.log Metrics.llEps =
      Metrics.binaryLogLoss Real.log Metrics.llEps (-10 ^ 10) (some (indicator (m.classes.getD 1 0) m.yTrue)) (some q) := by
  obtain ⟨f1, f2, f3, f4, f5⟩ := hb.facts
  have hlen := f3 q hq
  set c1 := m.classes.getD 1 0
  have hil : (indicator c1 m.yTrue : List ℝ).length = q.length := by simp [indicator, hlen]
  have hbin : ∀ y ∈ (indicator c1 m.yTrue : List ℝ), y = 0 ∨ y = 1 := by
    intro y hy
    obtain ⟨a, _, rfl⟩ := List.mem_map.1 hy
    split_ifs <;> simp
  obtain ⟨v, hv, he, -⟩ := Metrics.logLoss_spec _ q (by simpa [indicator] using f1) hil hbin
  rw [hv, he]
  unfold ClsMetrics.logLoss
  rw [hq]
  simp only [h2, if_true]
  congr 1
  unfold binaryLogLoss
  have hz : (m.yTrue.zip q).length = m.yTrue.length := by rw [List.length_zip, hlen, Nat.min_self]
  have hi : (indicator c1 m.yTrue : List ℝ).length = m.yTrue.length := by simp [indicator]
  rw [hz, hi]
  congr 1
  have hclip : ∀ p : ℝ, clip Metrics.llEps p = max Metrics.llEps (min p (1 - Metrics.llEps)) := by
    intro p
    unfold clip
    simp only [max_def, min_def]
    split_ifs <;> linarith
  have gen : ∀ (l : List Int) (q : List ℝ) (s : ℝ),
      -((l.zip q).foldl (fun s x => if x.1 = c1 then s + Real.log (clip Metrics.llEps x.2) else
        s + Real.log (1 - clip Metrics.llEps x.2)) s) =
      -s + (((indicator c1 l).zip q).map (fun x => Metrics.crossEntropy Metrics.llEps x.1 x.2)).sum := by
    intro l
    induction l with
    | nil => intro q s; simp [indicator]
    | cons a l ih =>
      intro q s
      cases q with
      | nil => simp [indicator]
      | cons b q =>
        rw [List.zip_cons_cons, List.foldl_cons, ih]
        unfold indicator
        rw [List.map_cons, List.zip_cons_cons, List.map_cons, List.sum_cons]
        unfold Metrics.crossEntropy
        by_cases h : a = c1
        · simp only [h, if_true, hclip]; ring
        · simp only [h, if_false, hclip, zero_ne_one]; ring
  have := gen m.yTrue q 0
  rw [neg_zero, zero_add] at this
  exact this

example : Built (⟨[0, 1, 1], [1, 1, 0], some [1 / 2, 3 / 4, 1 / 4], [0, 1]⟩ : ClsMetrics ℚ) := by
  refine ⟨stableAsc (fun x => x), List.dedup, stableAsc_sorts _, fun l => ⟨List.nodup_dedup l, fun x => List.mem_dedup⟩, ?_⟩
  decide +kernel

end Scigo.Eval
