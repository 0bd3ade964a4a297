import Verif.Eval.Props
import Verif.Round.ProbaProps

/-!
# C332: classification reports in `float64`

Accuracy, precision, recall and F1 of the LightGBM evaluation (exact statements: C66, C113) with every operation rounded.
-/

set_option linter.unusedSectionVars false

namespace Scigo.Round

open Scigo.Eval

variable {K : Type} [Field K] [LinearOrder K] [IsStrictOrderedRing K] {R : Rounding K}

/-! ## Helpers -/

theorem count_ratio_unit (a b : Nat) : 0 ≤ (if a + b = 0 then (0 : Fl R) else (a : Fl R) / ((a + b : Nat) : Fl R)) ∧
    (if a + b = 0 then (0 : Fl R) else (a : Fl R) / ((a + b : Nat) : Fl R)) ≤ 1 := by
  split_ifs with h
  · exact ⟨le_rfl, show (0 : K) ≤ 1 from zero_le_one⟩
  · exact ⟨Fl.div_nonneg' (Fl.natCast_nonneg' _) (Fl.natCast_nonneg' _), Fl.div_le_one' (Fl.natCast_nonneg' _) (Fl.natCast_le (Nat.le_add_right a b))⟩

theorem harmonic_range (two p r : Fl R) (h2 : two.val = 2) (hp : 0 ≤ p ∧ p ≤ 1) (hr : 0 ≤ r ∧ r ≤ 1) : 0 ≤ harmonic two p r ∧ harmonic two p r ≤ 1 := by
  have h20 : 0 ≤ two := by
    show (0 : K) ≤ two.val
    rw [h2]; norm_num
  unfold harmonic
  split_ifs with h
  · exact ⟨le_rfl, show (0 : K) ≤ 1 from zero_le_one⟩
  · have hn : 0 ≤ two * (p * r) := Fl.mul_nonneg' h20 (Fl.mul_nonneg' hp.1 hr.1)
    refine ⟨Fl.div_nonneg' hn (Fl.add_nonneg' hp.1 hr.1), Fl.div_le_one' hn ?_⟩
    have p0 : 0 ≤ p.val := hp.1
    have p1 : p.val ≤ 1 := hp.2
    have r0 : 0 ≤ r.val := hr.1
    have r1 : r.val ≤ 1 := hr.2
    have hpr : (p * r).val ≤ p.val := by
      rw [Fl.val_mul]
      refine (R.mono ?_).trans p.rep.le
      nlinarith
    have hrp : (p * r).val ≤ r.val := by
      rw [Fl.val_mul]
      refine (R.mono ?_).trans r.rep.le
      nlinarith
    refine R.mono ?_
    rw [h2]
    linarith

theorem macro_range (m : ClsMetrics (Fl R)) (hN : ∀ k : Nat, k ≤ m.classes.length → R.rnd (k : K) = k) (f : Nat → Fl R) (hf : ∀ k, 0 ≤ f k ∧ f k ≤ 1) :
    0 ≤ m.macroAvg f ∧ m.macroAvg f ≤ 1 := by
  unfold ClsMetrics.macroAvg
  have gen : ∀ n ≤ m.classes.length, 0 ≤ (List.range n).foldl (fun s k => s + f k) 0 ∧ (List.range n).foldl (fun s k => s + f k) 0 ≤ ((n : Nat) : Fl R) := by
    intro n
    induction n with
    | zero =>
      intro _
      refine ⟨le_rfl, ?_⟩
      show (0 : K) ≤ R.rnd ((0 : Nat) : K)
      exact R.nonneg (by simp)
    | succ n ih =>
      intro hn
      obtain ⟨h1, h2⟩ := ih (by omega)
      rw [List.range_succ, List.foldl_append]
      simp only [List.foldl_cons, List.foldl_nil]
      refine ⟨Fl.add_nonneg' h1 (hf n).1, ?_⟩
      have h2' : ((List.range n).foldl (fun s k => s + f k) 0).val ≤ (n : K) := by
        have : ((List.range n).foldl (fun s k => s + f k) 0).val ≤ R.rnd (n : K) := h2
        rwa [hN n (by omega)] at this
      have h3 : (f n).val ≤ 1 := (hf n).2
      refine R.mono ?_
      push_cast
      linarith
  obtain ⟨a, b⟩ := gen m.classes.length le_rfl
  exact ⟨Fl.div_nonneg' a (Fl.natCast_nonneg' _), Fl.div_le_one' a b⟩

theorem macro_ones (m : ClsMetrics (Fl R)) (hne : m.classes ≠ []) (hN : ∀ k : Nat, k ≤ m.classes.length → R.rnd (k : K) = k) (f : Nat → Fl R) (hf : ∀ k < m.classes.length, f k = 1) :
    m.macroAvg f = 1 := by
  unfold ClsMetrics.macroAvg
  have gen : ∀ n ≤ m.classes.length, (List.range n).foldl (fun s k => s + f k) 0 = ((n : Nat) : Fl R) := by
    intro n
    induction n with
    | zero => intro _; exact Fl.ext (by rw [Fl.val_natCast]; simp [R.zero])
    | succ n ih =>
      intro hn
      rw [List.range_succ, List.foldl_append]
      simp only [List.foldl_cons, List.foldl_nil]
      rw [ih (by omega), hf n (by omega)]
      refine Fl.ext ?_
      rw [Fl.val_add, Fl.val_natCast, Fl.val_natCast, Fl.val_one, hN n (by omega)]
      push_cast
      rfl
  rw [gen _ le_rfl]
  exact Fl.div_self' _ (Fl.natCast_pos (List.length_pos_iff.2 hne)).ne'

theorem pairs_length (m : ClsMetrics (Fl R)) (hb : Built m) : m.pairs.length = m.yTrue.length := by
  show (m.yTrue.zip m.yPred).length = _
  rw [List.length_zip, ← hb.facts.2.1, Nat.min_self]

theorem same_pairs {l : List Int} {x : Int × Int} (h : x ∈ l.zip l) : x.1 = x.2 ∧ x.1 ∈ l := by
  induction l with
  | nil => simp at h
  | cons y l ih =>
    rw [List.zip_cons_cons] at h
    rcases List.mem_cons.1 h with rfl | h
    · simp
    · exact ⟨(ih h).1, List.mem_cons_of_mem _ (ih h).2⟩

theorem same_mem {l : List Int} {y : Int} (h : y ∈ l) : (y, y) ∈ l.zip l := by
  induction l with
  | nil => simp at h
  | cons z l ih =>
    rw [List.zip_cons_cons]
    rcases List.mem_cons.1 h with rfl | h
    · exact List.mem_cons_self
    · exact List.mem_cons_of_mem _ (ih h)

/-! ## C332 -/

/-- **C332.** Accuracy, precision, recall and F1, overall and per class, are in `[0, 1]` in every rounding in which the numbers up to the number of classes are exact. -/
theorem report_range (m : ClsMetrics (Fl R)) (hb : Built m) (hN : ∀ k : Nat, k ≤ m.classes.length → R.rnd (k : K) = k) (two : Fl R) (h2 : two.val = 2) :
    (0 ≤ m.accuracy ∧ m.accuracy ≤ 1) ∧ (0 ≤ m.precision ∧ m.precision ≤ 1) ∧ (0 ≤ m.recall ∧ m.recall ≤ 1) ∧ (0 ≤ m.f1 two ∧ m.f1 two ≤ 1) ∧
      ∀ k, (0 ≤ m.classPrecision k ∧ m.classPrecision k ≤ 1) ∧ (0 ≤ m.classRecall k ∧ m.classRecall k ≤ 1) ∧ (0 ≤ m.classF1 two k ∧ m.classF1 two k ≤ 1) := by
  have hp : ∀ k, 0 ≤ m.classPrecision k ∧ m.classPrecision k ≤ 1 := fun k => count_ratio_unit _ _
  have hr : ∀ k, 0 ≤ m.classRecall k ∧ m.classRecall k ≤ 1 := fun k => count_ratio_unit _ _
  have hP : 0 ≤ m.precision ∧ m.precision ≤ 1 := by
    unfold ClsMetrics.precision
    split_ifs
    · exact hp 1
    · exact macro_range m hN _ hp
  have hR : 0 ≤ m.recall ∧ m.recall ≤ 1 := by
    unfold ClsMetrics.recall
    split_ifs
    · exact hr 1
    · exact macro_range m hN _ hr
  refine ⟨?_, hP, hR, harmonic_range two _ _ h2 hP hR, fun k => ⟨hp k, hr k, harmonic_range two _ _ h2 (hp k) (hr k)⟩⟩
  unfold ClsMetrics.accuracy
  rw [count_foldl, Nat.zero_add]
  refine ⟨Fl.div_nonneg' (Fl.natCast_nonneg' _) (Fl.natCast_nonneg' _), Fl.div_le_one' (Fl.natCast_nonneg' _) (Fl.natCast_le ?_)⟩
  rw [← pairs_length m hb]
  exact List.countP_le_length

/-- **C332.** If every prediction is right, accuracy, precision, recall and F1 are exactly 1. -/
theorem report_perfect (m : ClsMetrics (Fl R)) (hb : Built m) (hsame : m.yPred = m.yTrue) (hN : ∀ k : Nat, k ≤ m.classes.length → R.rnd (k : K) = k) (two : Fl R) (h2 : two.val = 2) :
    m.accuracy = 1 ∧ m.precision = 1 ∧ m.recall = 1 ∧ m.f1 two = 1 ∧ ∀ k < m.classes.length, m.classPrecision k = 1 ∧ m.classRecall k = 1 ∧ m.classF1 two k = 1 := by
  obtain ⟨hne, -, -, -, hcls⟩ := hb.facts
  have hz : m.pairs = m.yTrue.zip m.yTrue := by
    show m.yTrue.zip m.yPred = _
    rw [hsame]
  have hratio : ∀ a : Nat, 0 < a → (if a + 0 = 0 then (0 : Fl R) else (a : Fl R) / ((a + 0 : Nat) : Fl R)) = 1 := by
    intro a ha
    rw [if_neg (by omega), Nat.add_zero]
    exact Fl.div_self' _ (Fl.natCast_pos ha).ne'
  have hcount : ∀ k < m.classes.length, 0 < m.pairs.countP (fun x => decide (x.1 = m.classes.getD k 0 ∧ x.2 = m.classes.getD k 0)) := by
    intro k hk
    rw [List.countP_pos_iff]
    have hmem : m.classes.getD k 0 ∈ m.yTrue := by
      rw [List.getD_eq_getElem _ _ hk]
      rcases (hcls _).1 (List.getElem_mem hk) with h | h
      · exact h
      · rwa [hsame] at h
    exact ⟨_, by rw [hz]; exact same_mem hmem, by simp⟩
  have hp : ∀ k < m.classes.length, m.classPrecision k = 1 := by
    intro k hk
    unfold ClsMetrics.classPrecision
    rw [tpfp_eq]
    dsimp only
    have h0 : m.pairs.countP (fun x => decide (x.1 ≠ m.classes.getD k 0 ∧ x.2 = m.classes.getD k 0)) = 0 := by
      rw [List.countP_eq_zero]
      intro x hx h
      rw [hz] at hx
      have := of_decide_eq_true h
      exact this.1 ((same_pairs hx).1.trans this.2)
    rw [h0]
    exact hratio _ (hcount k hk)
  have hr : ∀ k < m.classes.length, m.classRecall k = 1 := by
    intro k hk
    unfold ClsMetrics.classRecall
    rw [tpfn_eq]
    dsimp only
    have h0 : m.pairs.countP (fun x => decide (x.1 = m.classes.getD k 0 ∧ x.2 ≠ m.classes.getD k 0)) = 0 := by
      rw [List.countP_eq_zero]
      intro x hx h
      rw [hz] at hx
      have := of_decide_eq_true h
      exact this.2 ((same_pairs hx).1.symm.trans this.1)
    rw [h0]
    exact hratio _ (hcount k hk)
  have hcne : m.classes ≠ [] := by
    obtain ⟨y, hy⟩ := List.exists_mem_of_ne_nil _ hne
    exact List.ne_nil_of_mem ((hcls y).2 (Or.inl hy))
  have hP : m.precision = 1 := by
    unfold ClsMetrics.precision
    split_ifs with h
    · exact hp 1 (by omega)
    · exact macro_ones m hcne hN _ hp
  have hR : m.recall = 1 := by
    unfold ClsMetrics.recall
    split_ifs with h
    · exact hr 1 (by omega)
    · exact macro_ones m hcne hN _ hr
  have h11 : (1 + 1 : Fl R) = two := by
    refine Fl.ext ?_
    rw [Fl.val_add, Fl.val_one, one_add_one_eq_two, ← h2, two.rep]
  have hne2 : two ≠ 0 := by
    intro h
    rw [h, Fl.val_zero] at h2
    norm_num at h2
  have hF : harmonic two (1 : Fl R) 1 = 1 := by
    unfold harmonic
    rw [h11, if_neg (by simpa using hne2), Fl.mul_one', Fl.mul_one', Fl.div_self' _ hne2]
  refine ⟨?_, hP, hR, by unfold ClsMetrics.f1; rw [hP, hR, hF], fun k hk => ⟨hp k hk, hr k hk, by unfold ClsMetrics.classF1; rw [hp k hk, hr k hk, hF]⟩⟩
  unfold ClsMetrics.accuracy
  have hall : m.pairs.countP (fun x => decide (x.1 = x.2)) = m.yTrue.length := by
    rw [← pairs_length m hb, List.countP_eq_length]
    intro x hx
    rw [hz] at hx
    exact decide_eq_true (same_pairs hx).1
  rw [count_foldl, Nat.zero_add, hall]
  exact Fl.div_self' _ (Fl.natCast_pos (List.length_pos_iff.2 hne)).ne'

/-- a proper fraction of numbers below `2^53` is below 1 in binary64 -/
theorem proper_fraction (a b : Nat) (h : a < b) (hb : b < 2 ^ 53) : ((a : Nat) : Fl Binary64.rounding) / ((b : Nat) : Fl Binary64.rounding) < 1 := by
  rw [Fl.lt_iff, Fl.val_one]
  show (((a : Nat) : Fl Binary64.rounding) / ((b : Nat) : Fl Binary64.rounding)).val < 1
  rw [Fl.val_div, Fl.val_natCast, Fl.val_natCast, Binary64.nat_exact a (by omega), Binary64.nat_exact b hb]
  have hb0 : (0 : ℚ) < b := by exact_mod_cast (by omega : 0 < b)
  have h1 : (a : ℚ) / b ≤ (9007199254740991 : ℚ) / 9007199254740992 := by
    rw [div_le_div_iff₀ hb0 (by norm_num)]
    have h2 : a + 1 ≤ b := h
    have h3 : a * 9007199254740992 ≤ 9007199254740991 * b := by
      have : 2 ^ 53 = 9007199254740992 := by norm_num
      omega
    exact_mod_cast h3
  refine lt_of_le_of_lt (Binary64.rounding.mono h1) ?_
  have : Binary64.rounding.rnd ((9007199254740991 : ℚ) / 9007199254740992) < 1 := by decide +kernel
  exact this

/-- **C332.** With fewer than `2^53` samples, an accuracy of 1 is reported only if every prediction is right: in `float64` no error is rounded away. -/
theorem accuracy_one (m : ClsMetrics (Fl Binary64.rounding)) (hb : Built m) (hn : m.yTrue.length < 2 ^ 53) : m.accuracy = 1 ↔ m.yPred = m.yTrue := by
  constructor
  · intro h
    unfold ClsMetrics.accuracy at h
    rw [count_foldl, Nat.zero_add] at h
    have hle : m.pairs.countP (fun x => decide (x.1 = x.2)) ≤ m.yTrue.length := by
      rw [← pairs_length m hb]
      exact List.countP_le_length
    rcases hle.lt_or_eq with hlt | heq
    · exact absurd h (proper_fraction _ _ hlt hn).ne
    · rw [← pairs_length m hb, List.countP_eq_length] at heq
      have hlen := hb.facts.2.1
      refine List.ext_getElem hlen.symm fun i h1 h2 => ?_
      have hz : (m.yTrue[i], m.yPred[i]) ∈ m.pairs := by
        show _ ∈ m.yTrue.zip m.yPred
        rw [List.mem_iff_getElem]
        exact ⟨i, by rw [List.length_zip]; omega, by rw [List.getElem_zip]⟩
      exact (of_decide_eq_true (heq _ hz)).symm
  · intro h
    have hne := hb.facts.1
    have hz : m.pairs = m.yTrue.zip m.yTrue := by
      show m.yTrue.zip m.yPred = _
      rw [h]
    unfold ClsMetrics.accuracy
    have hall : m.pairs.countP (fun x => decide (x.1 = x.2)) = m.yTrue.length := by
      rw [← pairs_length m hb, List.countP_eq_length]
      intro x hx
      rw [hz] at hx
      exact decide_eq_true (same_pairs hx).1
    rw [count_foldl, Nat.zero_add, hall]
    exact Fl.div_self' _ (Fl.natCast_pos (List.length_pos_iff.2 hne)).ne'

/-- labels with four of five positives found and one false alarm (`NewClassificationMetrics`, sklearn/lightgbm/evaluation_metrics.go:24-61) -/
def exFour : ClsMetrics (Fl Binary64.rounding) := ⟨[1, 1, 1, 1, 1, 0], [1, 1, 1, 1, 0, 1], none, [0, 1]⟩

theorem exFour_built : Built exFour := by
  refine ⟨stableAsc (fun x => x), List.dedup, stableAsc_sorts _, fun l => ⟨List.nodup_dedup l, fun x => List.mem_dedup⟩, ?_⟩
  decide +kernel

/-- **C332, what does not hold.** F1 need not lie between precision and recall: with precision and recall both 0.8 the reported F1 is greater than 0.8. -/
theorem f1_above_both : ∃ m : ClsMetrics (Fl Binary64.rounding), Built m ∧ m.precision = Binary64.lit (8 / 10) ∧ m.recall = Binary64.lit (8 / 10) ∧ Binary64.lit (8 / 10) < m.f1 (Binary64.lit 2) :=
  ⟨exFour, exFour_built, by decide +kernel, by decide +kernel, by decide +kernel⟩

/-- the hypotheses of the range theorem are met by these labels -/
example : Built exFour ∧ (∀ k : Nat, k ≤ exFour.classes.length → Binary64.rounding.rnd (k : ℚ) = k) ∧ (Binary64.lit 2).val = 2 :=
  ⟨exFour_built, fun k hk => Binary64.nat_exact k (lt_of_le_of_lt hk (by decide)), by decide +kernel⟩

/-- three classes and right predictions meet those of the second theorem -/
example : Built (⟨[2, 0, 1, 2], [2, 0, 1, 2], none, [0, 1, 2]⟩ : ClsMetrics (Fl Binary64.rounding)) := by
  refine ⟨stableAsc (fun x => x), List.dedup, stableAsc_sorts _, fun l => ⟨List.nodup_dedup l, fun x => List.mem_dedup⟩, ?_⟩
  decide +kernel

end Scigo.Round
