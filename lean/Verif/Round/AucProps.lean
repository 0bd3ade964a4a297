import Verif.Metrics.AucProps
import Verif.Round.TreeProps
import Verif.Round.ErrorProps

/-!
# C285: the area under the ROC curve with every operation rounded
-/

set_option linter.unusedSectionVars false

namespace Scigo.Round

open Scigo.Metrics

variable {K : Type _} [Field K] [LinearOrder K] [IsStrictOrderedRing K] {R : Rounding K} {eps eta : K}

/-! ## The points of the curve -/

/-- a computed point is the rounding of an exact one -/
def Pt (p : Fl R × Fl R) (q : K × K) : Prop := p.1.val = R.rnd q.1 ∧ p.2.val = R.rnd q.2

/-- the curve runs from the left to the right and upwards, inside the unit square -/
def Up (p q : K × K) : Prop := 0 ≤ p.1 ∧ 0 ≤ p.2 ∧ p.1 ≤ q.1 ∧ p.2 ≤ q.2 ∧ q.1 ≤ 1 ∧ q.2 ≤ 1

/-- the pair of exact numbers -/
def exactPair (q : Fl R × Fl R) : K × K := (q.1.val, q.2.val)

theorem val_inj {a b : Fl R} : a.val = b.val ↔ a = b := ⟨Fl.ext, fun h => h ▸ rfl⟩

theorem count_succ {n k : Nat} (hn : ∀ m ≤ n, R.rnd (m : K) = m) (hk : k + 1 ≤ n) (x : Fl R) (hx : x.val = k) :
    (x + 1).val = ((k + 1 : Nat) : K) := by
  rw [Fl.val_add, hx, Fl.val_one, ← Nat.cast_succ, hn _ hk]

theorem sweep_rounded (n : Nat) (hn : ∀ m ≤ n, R.rnd (m : K) = m) (P N : Fl R) :
    ∀ (l : List (Fl R × Fl R)) (k j : Nat) (tp fp prev : Fl R), tp.val = k → fp.val = j → k + l.length ≤ n → j + l.length ≤ n →
      List.Forall₂ Pt (sweep P N l tp fp prev) (sweep P.val N.val (l.map exactPair) (k : K) (j : K) prev.val) := by
  intro l
  induction l with
  | nil => intro k j tp fp prev _ _ _ _; exact .nil
  | cons q l ih =>
    intro k j tp fp prev hk hj h1 h2
    rw [List.length_cons] at h1 h2
    have e1 : ((exactPair q).2 == 1) = (q.2 == 1) := by
      rw [Bool.eq_iff_iff, beq_iff_eq, beq_iff_eq]
      exact val_inj (b := 1)
    have e2 : ((exactPair q).1 != prev.val) = (q.1 != prev) := by
      rw [Bool.eq_iff_iff, bne_iff_ne, bne_iff_ne, Ne, Ne]
      exact not_congr val_inj
    have hp := count_succ hn (by omega : k + 1 ≤ n) tp hk
    have hf := count_succ hn (by omega : j + 1 ≤ n) fp hj
    have rest : ∀ pr : Fl R, List.Forall₂ Pt (if q.2 == 1 then sweep P N l (tp + 1) fp pr else sweep P N l tp (fp + 1) pr)
        (if (exactPair q).2 == 1 then sweep P.val N.val (l.map exactPair) ((k : K) + 1) (j : K) pr.val
          else sweep P.val N.val (l.map exactPair) (k : K) ((j : K) + 1) pr.val) := by
      intro pr
      rw [e1]
      split
      · have := ih (k + 1) j (tp + 1) fp pr hp hj (by omega) (by omega)
        rwa [Nat.cast_succ] at this
      · have := ih k (j + 1) tp (fp + 1) pr hk hf (by omega) (by omega)
        rwa [Nat.cast_succ] at this
    rw [sweep, List.map_cons, sweep]
    dsimp only
    rw [e2]
    split
    · refine .cons ⟨?_, ?_⟩ (rest q.1)
      · rw [Fl.val_div, hj]
      · rw [Fl.val_div, hk]
    · exact rest prev

theorem sweep_up (P N : K) (hP : 0 < P) (hN : 0 < N) :
    ∀ (l : List (K × K)) (tp fp prev : K) (s : K × K), 0 ≤ s.1 → 0 ≤ s.2 → s.1 ≤ fp / N → s.2 ≤ tp / P →
      tp + (l.countP isPos : K) ≤ P → fp + (l.countP (fun q => !isPos q) : K) ≤ N →
      List.IsChain Up (s :: (sweep P N l tp fp prev ++ [(1, 1)])) := by
  intro l
  induction l with
  | nil =>
    intro tp fp prev s h1 h2 h3 h4 h5 h6
    simp only [List.countP_nil, Nat.cast_zero, add_zero] at h5 h6
    rw [sweep, List.nil_append, List.isChain_cons_cons]
    exact ⟨⟨h1, h2, h3.trans ((div_le_one hN).2 h6), h4.trans ((div_le_one hP).2 h5), le_refl _, le_refl _⟩, List.isChain_singleton _⟩
  | cons q l ih =>
    intro tp fp prev s h1 h2 h3 h4 h5 h6
    have cnn : ∀ m : Nat, (0 : K) ≤ m := fun m => Nat.cast_nonneg m
    have rest : ∀ (pr : K) (s : K × K), 0 ≤ s.1 → 0 ≤ s.2 → s.1 ≤ fp / N → s.2 ≤ tp / P →
        List.IsChain Up (s :: ((if q.2 == 1 then sweep P N l (tp + 1) fp pr else sweep P N l tp (fp + 1) pr) ++ [(1, 1)])) := by
      intro pr s h1 h2 h3 h4
      by_cases hq : q.2 = 1
      · rw [if_pos (by simpa using hq)]
        rw [List.countP_cons_of_pos (by simpa [isPos] using hq)] at h5
        rw [List.countP_cons_of_neg (by simpa [isPos] using hq)] at h6
        push_cast at h5
        exact ih _ _ _ s h1 h2 h3 (h4.trans (div_le_div_of_nonneg_right (by linarith) hP.le)) (by linarith) h6
      · rw [if_neg (by simpa using hq)]
        rw [List.countP_cons_of_neg (by simpa [isPos] using hq)] at h5
        rw [List.countP_cons_of_pos (by simpa [isPos] using hq)] at h6
        push_cast at h6
        exact ih _ _ _ s h1 h2 (h3.trans (div_le_div_of_nonneg_right (by linarith) hN.le)) h4 h5 (by linarith)
    rw [sweep]
    dsimp only
    split
    · rw [List.cons_append, List.isChain_cons_cons]
      have h7 : tp / P ≤ 1 := (div_le_one hP).2 (by linarith [cnn ((q :: l).countP isPos)])
      have h8 : fp / N ≤ 1 := (div_le_one hN).2 (by linarith [cnn ((q :: l).countP (fun q => !isPos q))])
      exact ⟨⟨h1, h2, h3, h4, h8, h7⟩, rest _ _ (h1.trans h3) (h2.trans h4) (le_refl _) (le_refl _)⟩
    · exact rest _ _ h1 h2 h3 h4

theorem sweep_length {α : Type _} [Add α] [Sub α] [Mul α] [Div α] [Zero α] [One α] [NatCast α] [BEq α] (P N : α) :
    ∀ (l : List (α × α)) (tp fp prev : α), (sweep P N l tp fp prev).length ≤ l.length := by
  intro l
  induction l with
  | nil => intro tp fp prev; simp [sweep]
  | cons q l ih =>
    intro tp fp prev
    rw [sweep]
    dsimp only
    split <;> split <;> simp only [List.length_cons] <;> first | exact Nat.succ_le_succ (ih _ _ _) | exact (ih _ _ _).trans (Nat.le_succ _)

/-! ## The sum of the trapezoids -/

theorem rnd_unit {x : K} (h0 : 0 ≤ x) (h1 : x ≤ 1) : 0 ≤ R.rnd x ∧ R.rnd x ≤ 1 :=
  ⟨R.nonneg h0, by have := R.mono h1; rwa [R.one] at this⟩

/-- the error of rounding a number of size at most `c` -/
theorem rnd_close (he : 0 ≤ eps) (hR : R.Accurate eps eta) {x c : K} (h : |x| ≤ c) : |R.rnd x - x| ≤ eps * c + eta :=
  (hR x).trans (by linarith [mul_le_mul_of_nonneg_left h he])

theorem rnd_from (he : 0 ≤ eps) (hR : R.Accurate eps eta) {x y c d : K} (h : |x| ≤ c) (hd : |x - y| ≤ d) : |R.rnd x - y| ≤ eps * c + eta + d := by
  have := abs_add_le (R.rnd x - x) (x - y)
  rw [sub_add_sub_cancel] at this
  linarith [rnd_close he hR h]

/-- one trapezoid -/
theorem term_error (he : 0 ≤ eps) (hη : 0 ≤ eta) (hR : R.Accurate eps eta) (two : Fl R) (h2 : two.val = 2) (a b : Fl R × Fl R) (x y : K × K)
    (ha : Pt a x) (hb : Pt b y) (hg : Up x y) :
    |((b.1 - a.1) * ((b.2 + a.2) / two)).val - (y.1 - x.1) * ((y.2 + x.2) / 2)| ≤ 7 * (eps + eta) ∧
      0 ≤ ((b.1 - a.1) * ((b.2 + a.2) / two)).val := by
  obtain ⟨g1, g2, g3, g4, g5, g6⟩ := hg
  have hx1 := rnd_unit (R := R) g1 (g3.trans g5)
  have hx2 := rnd_unit (R := R) g2 (g4.trans g6)
  have hy1 := rnd_unit (R := R) (g1.trans g3) g5
  have hy2 := rnd_unit (R := R) (g2.trans g4) g6
  have c1 : ∀ z : K, 0 ≤ z → z ≤ 1 → |R.rnd z - z| ≤ eps + eta := fun z h0 h1 => by
    have := rnd_close he hR (abs_le.2 ⟨by linarith, h1⟩ : |z| ≤ 1)
    linarith
  have ex1 := abs_le.1 (c1 _ g1 (g3.trans g5))
  have ex2 := abs_le.1 (c1 _ g2 (g4.trans g6))
  have ey1 := abs_le.1 (c1 _ (g1.trans g3) g5)
  have ey2 := abs_le.1 (c1 _ (g2.trans g4) g6)
  have hm1 := R.mono g3
  have hd0 : 0 ≤ b.1.val - a.1.val ∧ b.1.val - a.1.val ≤ 1 := by rw [ha.1, hb.1]; constructor <;> linarith
  have hd : |(b.1 - a.1).val - (y.1 - x.1)| ≤ 3 * (eps + eta) := by
    have : |b.1.val - a.1.val - (y.1 - x.1)| ≤ 2 * (eps + eta) := by rw [ha.1, hb.1, abs_le]; constructor <;> linarith
    have := rnd_from he hR (abs_le.2 ⟨by linarith, hd0.2⟩ : |b.1.val - a.1.val| ≤ 1) this
    rw [Fl.val_sub]
    linarith
  have hdu : 0 ≤ (b.1 - a.1).val ∧ (b.1 - a.1).val ≤ 1 := rnd_unit hd0.1 hd0.2
  have hs0 : 0 ≤ b.2.val + a.2.val ∧ b.2.val + a.2.val ≤ 2 := by rw [ha.2, hb.2]; constructor <;> linarith
  have hs : |(b.2 + a.2).val - (y.2 + x.2)| ≤ 4 * (eps + eta) := by
    have : |b.2.val + a.2.val - (y.2 + x.2)| ≤ 2 * (eps + eta) := by rw [ha.2, hb.2, abs_le]; constructor <;> linarith
    have := rnd_from he hR (abs_le.2 ⟨by linarith, hs0.2⟩ : |b.2.val + a.2.val| ≤ 2) this
    rw [Fl.val_add]
    linarith
  have hsu : 0 ≤ (b.2 + a.2).val ∧ (b.2 + a.2).val ≤ 2 := by
    refine ⟨R.nonneg hs0.1, ?_⟩
    have := R.mono hs0.2
    rw [← h2, two.rep, h2] at this
    exact this
  have hmu0 : 0 ≤ (b.2 + a.2).val / 2 ∧ (b.2 + a.2).val / 2 ≤ 1 := by constructor <;> linarith [hsu.1]
  have hm : |((b.2 + a.2) / two).val - (y.2 + x.2) / 2| ≤ 3 * (eps + eta) := by
    have : |(b.2 + a.2).val / 2 - (y.2 + x.2) / 2| ≤ 2 * (eps + eta) := by
      rw [← sub_div, abs_div, abs_of_pos (two_pos : (0 : K) < 2)]
      linarith
    have := rnd_from he hR (abs_le.2 ⟨by linarith, hmu0.2⟩ : |(b.2 + a.2).val / 2| ≤ 1) this
    rw [Fl.val_div, h2]
    linarith
  have hmu : 0 ≤ ((b.2 + a.2) / two).val ∧ ((b.2 + a.2) / two).val ≤ 1 := by
    rw [Fl.val_div, h2]
    exact rnd_unit hmu0.1 hmu0.2
  generalize b.1 - a.1 = D at *
  generalize (b.2 + a.2) / two = M at *
  have hprod : |D.val * M.val - (y.1 - x.1) * ((y.2 + x.2) / 2)| ≤ 6 * (eps + eta) := by
    have e : D.val * M.val - (y.1 - x.1) * ((y.2 + x.2) / 2) =
        D.val * (M.val - (y.2 + x.2) / 2) + (D.val - (y.1 - x.1)) * ((y.2 + x.2) / 2) := by ring
    have h1 : |D.val * (M.val - (y.2 + x.2) / 2)| ≤ 3 * (eps + eta) := by
      rw [abs_mul, abs_of_nonneg hdu.1]
      exact (mul_le_of_le_one_left (abs_nonneg _) hdu.2).trans hm
    have h3 : |(D.val - (y.1 - x.1)) * ((y.2 + x.2) / 2)| ≤ 3 * (eps + eta) := by
      rw [abs_mul, abs_of_nonneg (by linarith : 0 ≤ (y.2 + x.2) / 2)]
      exact (mul_le_of_le_one_right (abs_nonneg _) (by linarith)).trans hd
    rw [e]
    exact (abs_add_le _ _).trans (by linarith)
  have hp0 : 0 ≤ D.val * M.val := mul_nonneg hdu.1 hmu.1
  have hp1 : D.val * M.val ≤ 1 := (mul_le_of_le_one_right hdu.1 hmu.2).trans hdu.2
  refine ⟨?_, R.nonneg hp0⟩
  have := rnd_from he hR (abs_le.2 ⟨by linarith, hp1⟩ : |D.val * M.val| ≤ 1) hprod
  rw [Fl.val_mul]
  linarith

/-- the sum of the trapezoids -/
theorem trapezoid_error (he : 0 ≤ eps) (hη : 0 ≤ eta) (hR : R.Accurate eps eta) (two : Fl R) (h2 : two.val = 2) :
    ∀ (l : List (Fl R × Fl R)) (m : List (K × K)) (p : Fl R × Fl R) (q : K × K) (acc : Fl R) (s E : K), List.Forall₂ Pt (p :: l) (q :: m) →
      List.IsChain Up (q :: m) → 0 ≤ acc → 0 ≤ s → s ≤ q.1 → 0 ≤ E → |acc.val - s| ≤ E →
      0 ≤ trapezoid two (p :: l) acc ∧
        |(trapezoid two (p :: l) acc).val - trapezoid 2 (q :: m) s| ≤ (E + l.length * (8 * (eps + eta))) * (1 + eps) ^ l.length := by
  intro l
  induction l with
  | nil =>
    intro m p q acc s E hf _ h0 hs0 hs hE hE'
    cases hf with
    | cons _ hf =>
      cases hf
      simpa [trapezoid] using ⟨h0, hE'⟩
  | cons p' l ih =>
    intro m p q acc s E hf hc h0 hs0 hs hE hE'
    cases hf with
    | cons hpq hf =>
      cases hf with
      | @cons _ q' _ m hpq' hf =>
        rw [List.isChain_cons_cons] at hc
        obtain ⟨hu, hc⟩ := hc
        obtain ⟨ht, ht0⟩ := term_error he hη hR two h2 p p' q q' hpq hpq' hu
        obtain ⟨g1, g2, g3, g4, g5, g6⟩ := hu
        rw [trapezoid, trapezoid]
        have hpos : 0 ≤ (q'.1 - q.1) * ((q'.2 + q.2) / 2) := mul_nonneg (by linarith) (by linarith)
        have hle : (q'.1 - q.1) * ((q'.2 + q.2) / 2) ≤ q'.1 - q.1 := mul_le_of_le_one_right (by linarith) (by linarith)
        generalize (p'.1 - p.1) * ((p'.2 + p.2) / two) = t at *
        generalize (q'.1 - q.1) * ((q'.2 + q.2) / 2) = u at *
        have h3 : |acc.val + t.val - (s + u)| ≤ E + 7 * (eps + eta) := by
          rw [add_sub_add_comm]
          exact (abs_add_le _ _).trans (by linarith)
        have h4 : |acc.val + t.val| ≤ 1 + (E + 7 * (eps + eta)) := by
          have := abs_near h3
          rw [abs_of_nonneg (by linarith : 0 ≤ s + u)] at this
          linarith
        have h5 := rnd_from he hR h4 h3
        have h6 : |(acc + t).val - (s + u)| ≤ (1 + eps) * (E + 8 * (eps + eta)) := by
          rw [Fl.val_add]
          have := mul_nonneg he (add_nonneg he hη)
          linarith
        obtain ⟨i1, i2⟩ := ih m p' q' (acc + t) (s + u) ((1 + eps) * (E + 8 * (eps + eta))) (.cons hpq' hf) hc
          (Fl.add_nonneg' h0 ht0) (by linarith) (by linarith) (mul_nonneg (by linarith) (by linarith)) h6
        refine ⟨i1, i2.trans ?_⟩
        rw [List.length_cons, pow_succ]
        have hg := grow he l.length
        have h7 : ((1 + eps) * (E + 8 * (eps + eta)) + l.length * (8 * (eps + eta))) ≤
            (E + ((l.length + 1 : Nat) : K) * (8 * (eps + eta))) * (1 + eps) := by
          have : (0 : K) ≤ l.length * (8 * (eps + eta)) * eps := by positivity
          push_cast
          linarith
        calc _ ≤ (E + ((l.length + 1 : Nat) : K) * (8 * (eps + eta))) * (1 + eps) * (1 + eps) ^ l.length :=
              mul_le_mul_of_nonneg_right h7 (by linarith)
          _ = _ := by ring

/-! ## The property -/

theorem map_stableDesc (l : List (Fl R × Fl R)) :
    (stableDesc Prod.fst l).map exactPair = stableDesc Prod.fst (l.map exactPair) :=
  List.map_insertionSort _ _ _ _ (fun _ _ _ _ => Iff.rfl)

theorem countLabels_rounded (n : Nat) (hn : ∀ m ≤ n, R.rnd (m : K) = m) (o : Bool) (ts : List (Fl R)) (h : ts.length ≤ n) :
    (countLabels o ts).val = countLabels o (ts.map Fl.val) ∧ countLabels o (ts.map Fl.val) = ((ts.countP (fun y => (y == 1) == o) : Nat) : K) := by
  have h1 : ∀ y : Fl R, (y.val == 1) = (y == 1) := fun y => by
    rw [Bool.eq_iff_iff, beq_iff_eq, beq_iff_eq]
    exact val_inj (b := 1)
  have h2 : countLabels o (ts.map Fl.val) = ((ts.countP (fun y => (y == 1) == o) : Nat) : K) := by
    rw [countLabels_eq, incs_eq, zero_add, List.countP_map]
    congr 1
    apply List.countP_congr
    intro y _
    simp only [Function.comp, h1]
  refine ⟨?_, h2⟩
  rw [h2, countLabels_eq]
  have h3 : ∀ k ≤ n, (incs k (0 : Fl R)).val = (k : K) := by
    intro k
    induction k with
    | zero => intro _; simp [incs]
    | succ k ih =>
      intro hk
      have : incs (k + 1) (0 : Fl R) = incs k 0 + 1 := by simp only [incs, Function.iterate_succ_apply']
      rw [this]
      exact count_succ hn hk _ (ih (by omega))
  exact h3 _ (List.countP_le_length.trans h)

theorem fst_zip {β γ : Type _} {a : List β} {b : List γ} (h : a.length = b.length) : (a.zip b).map Prod.fst = a :=
  List.map_fst_zip (le_of_eq h)

/-- a first point at the origin adds nothing -/
theorem first_prev (P N : K) (q : K × K) (l : List (K × K)) (prev : K) :
    trapezoid 2 ((0, 0) :: (sweep P N (q :: l) 0 0 prev ++ [(1, 1)])) 0 =
      trapezoid 2 ((0, 0) :: ((if q.2 == 1 then sweep P N l (0 + 1) 0 q.1 else sweep P N l 0 (0 + 1) q.1) ++ [(1, 1)])) 0 := by
  rw [sweep]
  dsimp only
  by_cases h : q.1 = prev
  · rw [if_neg (by simpa using h), h]
  · rw [if_pos (by simpa using h), List.cons_append, trapezoid]
    simp only [zero_div, sub_self, zero_mul, add_zero]

/-- **C285** (partial): with every operation rounded, the area under the curve of `n` samples with both labels is never negative and differs
from the fraction of correctly ordered pairs of a positive and a negative (ties counting one half) by at most
`8 (n + 1) (1 + eps)^(n+1) (eps + eta)`, as long as whole numbers up to `n` are representable. Missing: a perfect ranking is not always
given exactly 1 (`perfect_ranking_below_one`), see `auc_distinct_scores_partial`. -/
theorem auc_error_partial (he : 0 ≤ eps) (hη : 0 ≤ eta) (hR : R.Accurate eps eta) (half two : Fl R) (h2 : two.val = 2)
    (srt : List (Fl R × Fl R) → List (Fl R × Fl R)) (hs : SortsDesc Prod.fst srt) (a b : List (Fl R)) (hl : a.length = b.length)
    (hn : ∀ m ≤ a.length, R.rnd (m : K) = m) (hbin : ∀ y ∈ a, y = 0 ∨ y = 1) (h1 : 1 ∈ a) (h0 : 0 ∈ a) :
    ∃ v, auc half two srt (some a) (some b) = .ok v ∧ 0 ≤ v ∧
      |v.val - mannWhitney (scoresOf 1 (a.map Fl.val) (b.map Fl.val)) (scoresOf 0 (a.map Fl.val) (b.map Fl.val)) /
          (((scoresOf 1 (a.map Fl.val) (b.map Fl.val)).length : K) * ((scoresOf 0 (a.map Fl.val) (b.map Fl.val)).length : K))| ≤
        8 * (a.length + 1) * (1 + eps) ^ (a.length + 1) * (eps + eta) := by
  rw [auc_order_independent half two srt (stableDesc Prod.fst) hs (stableDesc_sorts _) a b a b hl hl (List.Perm.refl _)]
  have hbin' : ∀ y ∈ a.map Fl.val, y = 0 ∨ y = 1 := by
    intro y hy
    obtain ⟨x, hx, rfl⟩ := List.mem_map.1 hy
    rcases hbin x hx with rfl | rfl
    · exact Or.inl rfl
    · exact Or.inr rfl
  have key := auc_mann_whitney (stableDesc Prod.fst) (stableDesc_sorts _) (a.map Fl.val) (b.map Fl.val) (by simpa using hl) hbin'
    (List.mem_map.2 ⟨1, h1, rfl⟩) (List.mem_map.2 ⟨0, h0, rfl⟩)
  generalize mannWhitney (scoresOf 1 (a.map Fl.val) (b.map Fl.val)) (scoresOf 0 (a.map Fl.val) (b.map Fl.val)) /
          (((scoresOf 1 (a.map Fl.val) (b.map Fl.val)).length : K) * ((scoresOf 0 (a.map Fl.val) (b.map Fl.val)).length : K)) = W at *
  have ha : a ≠ [] := List.ne_nil_of_mem h1
  have ha' : a.map Fl.val ≠ [] := by simpa using ha
  unfold auc at key ⊢
  rw [clsGuard_some ha hl]
  rw [clsGuard_some ha' (by simpa using hl)] at key
  have hz : (a.map Fl.val).zip (b.map Fl.val) = (a.zip b).map (fun x => (x.1.val, x.2.val)) := by
    rw [List.zip_map]
    rfl
  have hnb : ∀ {α : Type _} [BEq α] [LawfulBEq α] [Zero α] [One α] (z : List (α × α)), (∀ x ∈ z, x.1 = 0 ∨ x.1 = 1) →
      ¬ (z.any (fun x => notBinary x.1) = true) := by
    intro α _ _ _ _ z hz
    rw [List.any_eq_true]
    rintro ⟨x, hx, hb⟩
    rcases hz x hx with h | h <;> simp [notBinary, h] at hb
  rw [if_neg (hnb _ (fun x hx => hbin x.1 (List.of_mem_zip hx).1))]
  rw [if_neg (hnb _ (fun x hx => hbin' x.1 (List.of_mem_zip hx).1))] at key
  dsimp only at key ⊢
  rw [fst_zip hl]
  rw [fst_zip (by simpa using hl)] at key
  obtain ⟨p1, p2⟩ := countLabels_rounded a.length hn true a (le_refl _)
  obtain ⟨n1, n2⟩ := countLabels_rounded a.length hn false a (le_refl _)
  have hpc : 0 < a.countP (fun y => (y == 1) == true) := List.countP_pos_iff.2 ⟨1, h1, by simp⟩
  have hnc : 0 < a.countP (fun y => (y == 1) == false) := by
    refine List.countP_pos_iff.2 ⟨0, h0, ?_⟩
    have : ¬ ((0 : Fl R) = 1) := fun e => zero_ne_one (α := K) (congrArg Fl.val e)
    simpa using this
  have hP : 0 < (countLabels true a).val := by rw [p1, p2]; exact_mod_cast hpc
  have hN : 0 < (countLabels false a).val := by rw [n1, n2]; exact_mod_cast hnc
  rw [← p1, ← n1] at key
  rw [if_neg (by
    simp only [Bool.or_eq_true, beq_iff_eq, not_or]
    exact ⟨fun e => hP.ne' (congrArg Fl.val e), fun e => hN.ne' (congrArg Fl.val e)⟩)]
  rw [if_neg (by
    simp only [Bool.or_eq_true, beq_iff_eq, not_or]
    exact ⟨hP.ne', hN.ne'⟩)] at key
  have hsw : ((a.map Fl.val).zip (b.map Fl.val)).map (fun x => (x.2, x.1)) = ((a.zip b).map (fun x => (x.2, x.1))).map exactPair := by
    rw [hz, List.map_map, List.map_map]
    rfl
  rw [hsw, ← map_stableDesc] at key
  obtain ⟨hperm, -⟩ := stableDesc_sorts (Prod.fst) ((a.zip b).map (fun x => (x.2, x.1)))
  have hlen : (stableDesc Prod.fst ((a.zip b).map (fun x => (x.2, x.1)))).length = a.length := by
    rw [hperm.length_eq, List.length_map, List.length_zip, ← hl, min_self]
  have hcp : (stableDesc Prod.fst ((a.zip b).map (fun x => (x.2, x.1)))).countP isPos = a.countP (fun y => (y == 1) == true) := by
    rw [hperm.countP_eq, List.countP_map, ← fst_zip hl, List.countP_map, fst_zip hl]
    apply List.countP_congr
    intro x _
    simp [isPos]
  have hcn : (stableDesc Prod.fst ((a.zip b).map (fun x => (x.2, x.1)))).countP (fun q => !isPos q) = a.countP (fun y => (y == 1) == false) := by
    rw [hperm.countP_eq, List.countP_map, ← fst_zip hl, List.countP_map, fst_zip hl]
    apply List.countP_congr
    intro x _
    simp [isPos]
  generalize stableDesc Prod.fst ((a.zip b).map (fun x => (x.2, x.1))) = L at *
  cases L with
  | nil => exact absurd (List.length_eq_zero_iff.1 hlen.symm) ha
  | cons q l =>
    dsimp only [List.map_cons] at key ⊢
    injection key with key
    rw [List.map_cons, first_prev, ← first_prev _ _ _ _ (q.1 + 1).val] at key
    have hpos1 : ∀ x : Fl R × Fl R, isPos (exactPair x) = isPos x := by
      intro x
      unfold isPos
      rw [Bool.eq_iff_iff, beq_iff_eq, beq_iff_eq]
      exact val_inj (b := 1)
    have f := sweep_rounded a.length hn (countLabels true a) (countLabels false a) (q :: l) 0 0 0 0 (q.1 + 1) (by simp) (by simp)
      (by omega) (by omega)
    rw [Nat.cast_zero] at f
    have c := sweep_up (countLabels true a).val (countLabels false a).val hP hN ((q :: l).map exactPair) 0 0 (q.1 + 1).val (0, 0)
      (le_refl _) (le_refl _) (by rw [zero_div]) (by rw [zero_div])
      (by
        rw [zero_add, List.countP_map, p1, p2, ← hcp]
        refine le_of_eq (congrArg _ (List.countP_congr fun x _ => ?_))
        simp only [Function.comp, hpos1])
      (by
        rw [zero_add, List.countP_map, n1, n2, ← hcn]
        refine le_of_eq (congrArg _ (List.countP_congr fun x _ => ?_))
        simp only [Function.comp, hpos1])
    obtain ⟨r1, r2⟩ := trapezoid_error he hη hR two h2 (sweep (countLabels true a) (countLabels false a) (q :: l) 0 0 (q.1 + 1) ++ [(1, 1)])
      (sweep (countLabels true a).val (countLabels false a).val ((q :: l).map exactPair) 0 0 (q.1 + 1).val ++ [(1, 1)]) (0, 0) (0, 0) 0 0 0
      (.cons ⟨R.zero.symm, R.zero.symm⟩ (List.rel_append f (.cons ⟨R.one.symm, R.one.symm⟩ .nil))) c (le_refl _) (le_refl _) (le_refl _)
      (le_refl _) (by rw [Fl.val_zero, sub_zero, abs_zero])
    refine ⟨_, rfl, r1, ?_⟩
    rw [List.map_cons, key, zero_add] at r2
    refine r2.trans ?_
    have hk : (sweep (countLabels true a) (countLabels false a) (q :: l) 0 0 (q.1 + 1) ++ [(1, 1)]).length ≤ a.length + 1 := by
      rw [List.length_append, List.length_singleton, ← hlen]
      exact Nat.succ_le_succ (sweep_length _ _ _ _ _ _)
    generalize (sweep (countLabels true a) (countLabels false a) (q :: l) 0 0 (q.1 + 1) ++ [(1, 1)]).length = k at *
    have hk' : (k : K) ≤ a.length + 1 := by exact_mod_cast hk
    have e1 : (k : K) * (8 * (eps + eta)) * (1 + eps) ^ k ≤ (a.length + 1) * (8 * (eps + eta)) * (1 + eps) ^ (a.length + 1) :=
      mul_le_mul (mul_le_mul_of_nonneg_right hk' (by positivity)) (pow_le_pow_right₀ (by linarith) hk) (by positivity) (by positivity)
    refine e1.trans (le_of_eq ?_)
    ring

example : ∃ v, auc (Binary64.lit (1 / 2)) (Binary64.lit 2) (stableDesc Prod.fst) (some [1, 0, 0, 1]) (some [Binary64.lit (1 / 10), Binary64.lit 7,
    Binary64.lit (1 / 10), Binary64.lit 5]) = .ok v ∧ 0 ≤ v ∧ |v.val - 3 / 8| ≤ 8 * 5 * (1 + 1 / 2 ^ 53) ^ 5 * (1 / 2 ^ 53 + 1 / 2 ^ 1075) := by
  obtain ⟨v, h, h0, h1⟩ := auc_error_partial (by positivity) (by positivity) Binary64.accurate (Binary64.lit (1 / 2)) (Binary64.lit 2)
    (Binary64.nat_exact 2 (by norm_num)) (stableDesc Prod.fst) (stableDesc_sorts _) [1, 0, 0, 1] [Binary64.lit (1 / 10), Binary64.lit 7,
    Binary64.lit (1 / 10), Binary64.lit 5] rfl (fun m hm => Binary64.nat_exact m (lt_of_le_of_lt hm (by norm_num))) (by decide +kernel)
    (by decide +kernel) (by decide +kernel)
  refine ⟨v, h, h0, ?_⟩
  have e : mannWhitney (scoresOf 1 (List.map Fl.val [(1 : Fl Binary64.rounding), 0, 0, 1]) (List.map Fl.val [Binary64.lit (1 / 10), Binary64.lit 7,
        Binary64.lit (1 / 10), Binary64.lit 5])) (scoresOf 0 (List.map Fl.val [(1 : Fl Binary64.rounding), 0, 0, 1]) (List.map Fl.val
        [Binary64.lit (1 / 10), Binary64.lit 7, Binary64.lit (1 / 10), Binary64.lit 5])) /
      (((scoresOf 1 (List.map Fl.val [(1 : Fl Binary64.rounding), 0, 0, 1]) (List.map Fl.val [Binary64.lit (1 / 10), Binary64.lit 7,
        Binary64.lit (1 / 10), Binary64.lit 5])).length : ℚ) * ((scoresOf 0 (List.map Fl.val [(1 : Fl Binary64.rounding), 0, 0, 1]) (List.map Fl.val
        [Binary64.lit (1 / 10), Binary64.lit 7, Binary64.lit (1 / 10), Binary64.lit 5])).length : ℚ)) = 3 / 8 := by
    decide +kernel
  rw [e] at h1
  refine h1.trans (le_of_eq ?_)
  generalize (1 / 2 ^ 53 : ℚ) = e at *
  generalize (1 / 2 ^ 1075 : ℚ) = f at *
  simp only [List.length_cons, List.length_nil]
  push_cast
  norm_num

/-! ## Distinct scores -/

/-- between two points the computed width is exact -/
def Wide (perf : Prop) (p q : Fl R × Fl R) : Prop :=
  p.1 ≤ q.1 ∧ (q.1 - p.1).val = q.1.val - p.1.val ∧ 0 ≤ p.2 ∧ p.2 ≤ 1 ∧ 0 ≤ q.2 ∧ q.2 ≤ 1 ∧ q.1 ≤ 1 ∧ (perf → p.1 = q.1 ∨ p.2 = 1 ∧ q.2 = 1)

theorem trapezoid_wide (perf : Prop) (hd : DoubleExact R) (two : Fl R) (h2 : two.val = 2) :
    ∀ (l : List (Fl R × Fl R)) (p : Fl R × Fl R) (acc : Fl R), List.IsChain (Wide perf) (p :: l) → p.1 ≤ 1 → acc ≤ p.1 → (perf → acc = p.1) →
      trapezoid two (p :: l) acc ≤ 1 ∧ (perf → ((p :: l).getLast (List.cons_ne_nil _ _)).1 = 1 → trapezoid two (p :: l) acc = 1) := by
  intro l
  induction l with
  | nil =>
    intro p acc _ h1 ha he
    rw [trapezoid]
    · exact ⟨ha.trans h1, fun h e => (he h).trans e⟩
    · rintro a b rest h
      cases h
  | cons q l ih =>
    intro p acc hc h1 ha he
    rw [List.isChain_cons_cons] at hc
    obtain ⟨⟨w1, w2, w3, w4, w5, w6, w7, w8⟩, hc⟩ := hc
    have e2 : two = ((2 : Nat) : Fl R) := Fl.ext (by rw [h2, two_val hd])
    have hm : (q.2 + p.2) / two ≤ 1 := by
      rw [e2]
      refine midpoint_le hd _ _ _ ?_
      have h3 : p.2.val ≤ 1 := w4
      have h4 : q.2.val ≤ 1 := w6
      rw [Fl.val_one]
      linarith
    have ht : (q.1 - p.1) * ((q.2 + p.2) / two) ≤ q.1 - p.1 := by
      have := Fl.mul_le (le_refl (q.1 - p.1)) hm (Fl.div_nonneg' (Fl.add_nonneg' w5 w3) (by show (0 : K) ≤ two.val; rw [h2]; exact zero_le_two))
        (Fl.sub_nonneg' w1)
      rwa [Fl.mul_one'] at this
    have hsum : p.1 + (q.1 - p.1) = q.1 := Fl.ext (by rw [Fl.val_add, w2, add_sub_cancel, q.1.rep])
    rw [trapezoid, List.getLast_cons (List.cons_ne_nil _ _)]
    refine ih q _ hc w7 ?_ ?_
    · have := Fl.add_le ha ht
      rwa [hsum] at this
    · intro hp
      rcases w8 hp with h | ⟨h, h'⟩
      · rw [← h, Fl.sub_self', Fl.zero_mul', Fl.add_zero', he hp]
      · have : (q.2 + p.2) / two = 1 := by
          refine Fl.ext ?_
          rw [Fl.val_div, Fl.val_add, h, h', h2, Fl.val_one, one_add_one_eq_two, ← h2, two.rep, h2, div_self two_ne_zero, R.one]
        rw [this, Fl.mul_one', he hp, hsum]

theorem width_exact (hst : R.Sterbenz) (N j j' : Nat) (hj : j ≤ j') (hj' : j' ≤ j + 1) (x y : Fl R)
    (hsc : 0 < j → R.rnd (2 * ((j : K) / N)) = 2 * R.rnd ((j : K) / N))
    (hx : x.val = R.rnd ((j : K) / N)) (hy : y.val = R.rnd ((j' : K) / N)) : x ≤ y ∧ (y - x).val = y.val - x.val := by
  have hN : (0 : K) ≤ N := Nat.cast_nonneg N
  have hle : x.val ≤ y.val := by
    rw [hx, hy]
    exact R.mono (div_le_div_of_nonneg_right (by exact_mod_cast hj) hN)
  refine ⟨hle, ?_⟩
  rw [Fl.val_sub]
  rcases Nat.eq_zero_or_pos j with h0 | h0
  · subst h0
    rw [Nat.cast_zero, zero_div, R.zero] at hx
    rw [hx, sub_zero, y.rep]
  · refine hst _ _ x.rep y.rep hle ?_
    rw [hx, ← hsc h0, hy]
    have h3 : (j' : K) / N ≤ 2 * ((j : K) / N) := by
      rw [← mul_div_assoc]
      refine div_le_div_of_nonneg_right ?_ hN
      have : j' ≤ 2 * j := by omega
      exact_mod_cast this
    exact R.mono h3

theorem sweep_wide (hst : R.Sterbenz) (n : Nat) (hn : ∀ m ≤ n, R.rnd (m : K) = m) (perf : Prop) (P N : Fl R)
    (P' N' : Nat) (hP : P.val = P') (hN : N.val = N') (hN0 : 0 < N') (hP0 : 0 < P')
    (hsc : ∀ j : Nat, 0 < j → R.rnd (2 * ((j : K) / N')) = 2 * R.rnd ((j : K) / N')) :
    ∀ (l : List (Fl R × Fl R)) (k j j0 : Nat) (tp fp prev : Fl R) (s : Fl R × Fl R), tp.val = k → fp.val = j → k + l.length ≤ n →
      j + l.length ≤ n → k + l.countP isPos = P' → j + l.countP (fun q => !isPos q) = N' → j0 ≤ j → j ≤ j0 + 1 → s.1.val = R.rnd ((j0 : K) / N') →
      0 ≤ s.2 → s.2 ≤ 1 → (∀ x ∈ l, x.1 ≠ prev) → l.Pairwise (fun x y => x.1 ≠ y.1) →
      (perf → l.Pairwise (fun x y => isPos y = true → isPos x = true) ∧ (j = 0 ∨ k = P') ∧ (j0 = j ∨ s.2 = 1)) →
      List.IsChain (Wide perf) (s :: (sweep P N l tp fp prev ++ [(1, 1)])) := by
  have hNpos : (0 : K) < N' := by exact_mod_cast hN0
  have hPpos : (0 : K) < P' := by exact_mod_cast hP0
  intro l
  induction l with
  | nil =>
    intro k j j0 tp fp prev s hk hj h1 h2 h3 h4 h5 h6 hs s0 s1 _ _ hperf
    simp only [List.countP_nil, add_zero] at h3 h4
    rw [sweep, List.nil_append, List.isChain_cons_cons]
    have h1v : (1 : Fl R).val = R.rnd ((j : K) / N') := by rw [h4, div_self hNpos.ne', R.one, Fl.val_one]
    obtain ⟨w1, w2⟩ := width_exact hst N' j0 j h5 h6 s.1 1 (hsc j0) hs h1v
    refine ⟨⟨w1, w2, s0, s1, (zero_le_one : (0 : K) ≤ 1), le_refl _, le_refl _, fun hp => ?_⟩, List.isChain_singleton _⟩
    rcases (hperf hp).2.2 with h | h
    · exact Or.inl (Fl.ext (by rw [hs, h, ← h1v]))
    · exact Or.inr ⟨h, rfl⟩
  | cons q l ih =>
    intro k j j0 tp fp prev s hk hj h1 h2 h3 h4 h5 h6 hs s0 s1 hprev hnd hperf
    rw [List.length_cons] at h1 h2
    rw [List.pairwise_cons] at hnd
    have hp1 := count_succ hn (by omega : k + 1 ≤ n) tp hk
    have hf1 := count_succ hn (by omega : j + 1 ≤ n) fp hj
    have hkP : k ≤ P' := by omega
    have hjN : j ≤ N' := by omega
    have v1 : (fp / N).val = R.rnd ((j : K) / N') := by rw [Fl.val_div, hj, hN]
    have v2 : 0 ≤ tp / P := R.nonneg (by rw [hk, hP]; positivity)
    have v3 : tp / P ≤ 1 := by
      refine Fl.div_le_one' (by show (0 : K) ≤ tp.val; rw [hk]; positivity) ?_
      show tp.val ≤ P.val
      rw [hk, hP]
      exact_mod_cast hkP
    have v4 : fp / N ≤ 1 := by
      refine Fl.div_le_one' (by show (0 : K) ≤ fp.val; rw [hj]; positivity) ?_
      show fp.val ≤ N.val
      rw [hj, hN]
      exact_mod_cast hjN
    have v5 : k = P' → tp / P = 1 := by
      intro e
      refine Fl.ext ?_
      rw [Fl.val_div, hk, hP, e, div_self hPpos.ne', R.one, Fl.val_one]
    rw [sweep]
    dsimp only
    rw [if_pos (by simpa using hprev q (by simp)), List.cons_append, List.isChain_cons_cons]
    obtain ⟨w1, w2⟩ := width_exact hst N' j0 j h5 h6 s.1 (fp / N) (hsc j0) hs v1
    refine ⟨⟨w1, w2, s0, s1, v2, v3, v4, fun hp => ?_⟩, ?_⟩
    · obtain ⟨-, a1, a2⟩ := hperf hp
      rcases a2 with a2 | a2
      · exact Or.inl (Fl.ext (by rw [hs, a2, ← v1]))
      · rcases a1 with a1 | a1
        · exact Or.inl (Fl.ext (by rw [hs, (by omega : j0 = j), ← v1]))
        · exact Or.inr ⟨a2, v5 a1⟩
    · have hpr : ∀ x ∈ l, x.1 ≠ q.1 := fun x hx e => hnd.1 x hx e.symm
      by_cases hq : isPos q = true
      · rw [if_pos (show (q.2 == 1) = true from hq)]
        rw [List.countP_cons_of_pos hq] at h3
        rw [List.countP_cons_of_neg (by simpa using hq)] at h4
        refine ih (k + 1) j j (tp + 1) fp q.1 (fp / N, tp / P) hp1 hj (by omega) (by omega) (by omega) (by omega) (le_refl _) (by omega) v1 v2 v3
          hpr hnd.2 (fun hp => ?_)
        obtain ⟨b1, b2, -⟩ := hperf hp
        exact ⟨(List.pairwise_cons.1 b1).2, Or.inl (b2.resolve_right (by omega)), Or.inl rfl⟩
      · rw [if_neg (show ¬ (q.2 == 1) = true from hq)]
        rw [List.countP_cons_of_neg hq] at h3
        rw [List.countP_cons_of_pos (by simpa using hq)] at h4
        refine ih k (j + 1) j tp (fp + 1) q.1 (fp / N, tp / P) hk hf1 (by omega) (by omega) (by omega) (by omega) (by omega) (le_refl _) v1 v2 v3
          hpr hnd.2 (fun hp => ?_)
        obtain ⟨b1, -, -⟩ := hperf hp
        rw [List.pairwise_cons] at b1
        have hc0 : l.countP isPos = 0 := List.countP_eq_zero.2 fun x hx hx' => hq (b1.1 x hx hx')
        exact ⟨b1.2, Or.inr (by omega), Or.inr (v5 (by omega))⟩

/-- **C285** (partial): in float64, when no two samples have the same score, the area under the curve is at most 1, and exactly 1 if every
positive has a higher score than every negative. Missing: samples with equal scores, where the second half fails
(`perfect_ranking_below_one`). -/
theorem auc_distinct_scores_partial (half : Fl Binary64.rounding)
    (srt : List (Fl Binary64.rounding × Fl Binary64.rounding) → List (Fl Binary64.rounding × Fl Binary64.rounding)) (hs : SortsDesc Prod.fst srt)
    (a b : List (Fl Binary64.rounding)) (hl : a.length = b.length) (hlen : a.length < 2 ^ 53) (hbin : ∀ y ∈ a, y = 0 ∨ y = 1) (h1 : 1 ∈ a)
    (h0 : 0 ∈ a) (hnd : b.Nodup) :
    ∃ v, auc half (Binary64.lit 2) srt (some a) (some b) = .ok v ∧ v ≤ 1 ∧
      ((∀ x ∈ a.zip b, ∀ y ∈ a.zip b, x.1 = 1 → y.1 = 0 → y.2 < x.2) → v = 1) := by
  have hn : ∀ m ≤ a.length, Binary64.rounding.rnd (m : ℚ) = m := fun m hm => Binary64.nat_exact m (lt_of_le_of_lt hm hlen)
  have h2 : (Binary64.lit 2).val = 2 := Binary64.nat_exact 2 (by norm_num)
  have ha : a ≠ [] := List.ne_nil_of_mem h1
  unfold auc
  rw [clsGuard_some ha hl]
  have hnb : ¬ ((a.zip b).any (fun x => notBinary x.1) = true) := by
    rw [List.any_eq_true]
    rintro ⟨x, hx, hb⟩
    rcases hbin x.1 (List.of_mem_zip hx).1 with h | h <;> simp [notBinary, h] at hb
  rw [if_neg hnb]
  dsimp only
  rw [fst_zip hl]
  obtain ⟨p1, p2⟩ := countLabels_rounded a.length hn true a (le_refl _)
  obtain ⟨n1, n2⟩ := countLabels_rounded a.length hn false a (le_refl _)
  rw [p2] at p1
  rw [n2] at n1
  have h01 : ¬ ((0 : Fl Binary64.rounding) = 1) := fun e => zero_ne_one (α := ℚ) (congrArg Fl.val e)
  have hpc : 0 < a.countP (fun y => (y == 1) == true) := List.countP_pos_iff.2 ⟨1, h1, by simp⟩
  have hnc : 0 < a.countP (fun y => (y == 1) == false) := List.countP_pos_iff.2 ⟨0, h0, by simpa using h01⟩
  have hP : 0 < (countLabels true a).val := by rw [p1]; exact_mod_cast hpc
  have hN : 0 < (countLabels false a).val := by rw [n1]; exact_mod_cast hnc
  rw [if_neg (by
    simp only [Bool.or_eq_true, beq_iff_eq, not_or]
    exact ⟨fun e => hP.ne' (congrArg Fl.val e), fun e => hN.ne' (congrArg Fl.val e)⟩)]
  obtain ⟨hperm, hsort⟩ := hs ((a.zip b).map (fun x => (x.2, x.1)))
  have hlen' : (srt ((a.zip b).map (fun x => (x.2, x.1)))).length = a.length := by
    rw [hperm.length_eq, List.length_map, List.length_zip, ← hl, min_self]
  have hcp : (srt ((a.zip b).map (fun x => (x.2, x.1)))).countP isPos = a.countP (fun y => (y == 1) == true) := by
    rw [hperm.countP_eq, List.countP_map, ← fst_zip hl, List.countP_map, fst_zip hl]
    apply List.countP_congr
    intro x _
    simp [isPos]
  have hcn : (srt ((a.zip b).map (fun x => (x.2, x.1)))).countP (fun q => !isPos q) = a.countP (fun y => (y == 1) == false) := by
    rw [hperm.countP_eq, List.countP_map, ← fst_zip hl, List.countP_map, fst_zip hl]
    apply List.countP_congr
    intro x _
    simp [isPos]
  have hdist : (srt ((a.zip b).map (fun x => (x.2, x.1)))).Pairwise (fun x y => x.1 ≠ y.1) := by
    have e : ((a.zip b).map (fun x => (x.2, x.1))).map Prod.fst = b := by
      rw [List.map_map]
      exact List.map_snd_zip (le_of_eq hl.symm)
    have : ((srt ((a.zip b).map (fun x => (x.2, x.1)))).map Prod.fst).Nodup := by
      rw [(hperm.map Prod.fst).nodup_iff, e]
      exact hnd
    exact List.pairwise_map.1 this
  have hperf : (∀ x ∈ a.zip b, ∀ y ∈ a.zip b, x.1 = 1 → y.1 = 0 → y.2 < x.2) →
      (srt ((a.zip b).map (fun x => (x.2, x.1)))).Pairwise (fun x y => isPos y = true → isPos x = true) := by
    intro hx
    refine (List.Pairwise.imp_of_mem ?_ hsort)
    intro x y hx1 hy1 hxy hy
    by_contra hxn
    obtain ⟨x', hx', rfl⟩ := List.mem_map.1 (hperm.mem_iff.1 hx1)
    obtain ⟨y', hy', rfl⟩ := List.mem_map.1 (hperm.mem_iff.1 hy1)
    refine hxy (hx y' hy' x' hx' (by simpa [isPos] using hy) ?_)
    exact (hbin x'.1 (List.of_mem_zip hx').1).resolve_right (by simpa [isPos] using hxn)
  generalize (∀ x ∈ a.zip b, ∀ y ∈ a.zip b, x.1 = 1 → y.1 = 0 → y.2 < x.2) = perf at *
  generalize srt ((a.zip b).map (fun x => (x.2, x.1))) = L at *
  cases L with
  | nil => exact absurd (List.length_eq_zero_iff.1 hlen'.symm) ha
  | cons q l =>
    dsimp only
    have hsc : ∀ j : Nat, 0 < j → Binary64.rounding.rnd (2 * ((j : ℚ) / (a.countP (fun y => (y == 1) == false) : Nat))) =
        2 * Binary64.rounding.rnd ((j : ℚ) / (a.countP (fun y => (y == 1) == false) : Nat)) := by
      intro j hj
      refine Binary64.rnd_two_mul ?_
      have hc : a.countP (fun y => (y == 1) == false) < 2 ^ 53 := lt_of_le_of_lt List.countP_le_length hlen
      generalize a.countP (fun y => (y == 1) == false) = c at *
      have hcp' : (0 : ℚ) < c := by exact_mod_cast hnc
      refine (Binary64.pow2_le (by norm_num : (-1022 : Int) ≤ -53)).trans ?_
      have e53 : Binary64.pow2 (-53) = 1 / 2 ^ 53 := by rw [Binary64.pow2_eq, zpow_neg, one_div]; norm_cast
      rw [e53]
      have hc' : (c : ℚ) ≤ 2 ^ 53 := by exact_mod_cast hc.le
      have hj' : (1 : ℚ) ≤ j := by exact_mod_cast hj
      exact div_le_div₀ (by linarith) hj' hcp' hc'
    have hq1 : ∀ x ∈ q :: l, x.1 ≤ q.1 := head_max hsort
    have hz0 : ((0 : Fl Binary64.rounding)).val = ((0 : Nat) : ℚ) := by simp
    have hz1 : ((0 : Fl Binary64.rounding) + 1).val = ((1 : Nat) : ℚ) := count_succ hn (by rw [← hlen']; simp) 0 hz0
    have h0v : (0 : Fl Binary64.rounding).val = Binary64.rounding.rnd (((0 : Nat) : ℚ) / (a.countP (fun y => (y == 1) == false) : Nat)) := by
      rw [Nat.cast_zero, zero_div, Binary64.rounding.zero, Fl.val_zero]
    have chain : List.IsChain (Wide perf) ((0, 0) :: (sweep (countLabels true a) (countLabels false a) (q :: l) 0 0 (q.1 + 1) ++ [(1, 1)])) := by
      rw [List.length_cons] at hlen'
      by_cases hx : q.1 = q.1 + 1
      · rw [sweep]
        dsimp only
        rw [if_neg (by simpa using hx), ← hx]
        rw [List.pairwise_cons] at hdist
        have hpr : ∀ x ∈ l, x.1 ≠ q.1 := fun x hx e => hdist.1 x hx e.symm
        by_cases hq : isPos q = true
        · rw [if_pos (show (q.2 == 1) = true from hq)]
          rw [List.countP_cons_of_pos hq] at hcp
          rw [List.countP_cons_of_neg (by simpa using hq)] at hcn
          exact sweep_wide Binary64.sterbenz a.length hn perf _ _ _ _ p1 n1 hnc hpc hsc l 1 0 0 (0 + 1) 0 q.1 (0, 0) hz1 hz0 (by omega)
            (by omega) (by omega) (by omega) (le_refl _) (by omega) h0v (le_refl _) (zero_le_one : (0 : ℚ) ≤ 1) hpr hdist.2
            (fun hp => ⟨(List.pairwise_cons.1 (hperf hp)).2, Or.inl rfl, Or.inl rfl⟩)
        · rw [if_neg (show ¬ (q.2 == 1) = true from hq)]
          rw [List.countP_cons_of_neg hq] at hcp
          rw [List.countP_cons_of_pos (by simpa using hq)] at hcn
          refine sweep_wide Binary64.sterbenz a.length hn perf _ _ _ _ p1 n1 hnc hpc hsc l 0 1 0 0 (0 + 1) q.1 (0, 0) hz0 hz1 (by omega)
            (by omega) (by omega) (by omega) (by omega) (by omega) h0v (le_refl _) (zero_le_one : (0 : ℚ) ≤ 1) hpr hdist.2
            (fun hp => ?_)
          have b1 := List.pairwise_cons.1 (hperf hp)
          have hc0 : l.countP isPos = 0 := List.countP_eq_zero.2 fun x hx hx' => hq (b1.1 x hx hx')
          omega
      · refine sweep_wide Binary64.sterbenz a.length hn perf _ _ _ _ p1 n1 hnc hpc hsc (q :: l) 0 0 0 0 0 (q.1 + 1) (0, 0) hz0 hz0
          (by rw [List.length_cons]; omega) (by rw [List.length_cons]; omega) (by omega) (by omega) (le_refl _) (by omega) h0v (le_refl _)
          (zero_le_one : (0 : ℚ) ≤ 1) ?_ hdist (fun hp => ⟨hperf hp, Or.inl rfl, Or.inl rfl⟩)
        intro x hx1 e
        refine hx (le_antisymm (Fl.le_add_right' (zero_le_one : (0 : ℚ) ≤ 1)) ?_)
        rw [← e]
        exact hq1 x hx1
    obtain ⟨r1, r2⟩ := trapezoid_wide perf binary64_doubleExact (Binary64.lit 2) h2 _ (0, 0) 0 chain (zero_le_one : (0 : ℚ) ≤ 1) (le_refl _)
      (fun _ => rfl)
    refine ⟨_, rfl, r1, fun hp => r2 hp ?_⟩
    rw [List.getLast_cons (by simp), List.getLast_append_of_ne_nil _ (by simp)]
    rfl

example : auc (Binary64.lit (1 / 2)) (Binary64.lit 2) (stableDesc Prod.fst) (some [0, 1, 0, 1]) (some [Binary64.lit (1 / 10), Binary64.lit 7,
    Binary64.lit (3 / 10), Binary64.lit 5]) = .ok 1 := by
  obtain ⟨v, h, -, h1⟩ := auc_distinct_scores_partial (Binary64.lit (1 / 2)) (stableDesc Prod.fst) (stableDesc_sorts _) [0, 1, 0, 1]
    [Binary64.lit (1 / 10), Binary64.lit 7, Binary64.lit (3 / 10), Binary64.lit 5] rfl (by norm_num) (by decide +kernel) (by decide +kernel)
    (by decide +kernel) (by decide +kernel)
  rw [h, h1 (by decide +kernel)]

/-- **C285** (negation): in float64 a perfect ranking need not have an area of 1. One positive with the highest score and six negatives with the
scores 3, 3, 2, 2, 2, 1 give 0.9999999999999999. -/
theorem perfect_ranking_below_one :
    auc (Binary64.lit (1 / 2)) (Binary64.lit 2) (stableDesc Prod.fst) (some [1, 0, 0, 0, 0, 0, 0])
      (some [Binary64.lit 4, Binary64.lit 3, Binary64.lit 3, Binary64.lit 2, Binary64.lit 2, Binary64.lit 2, Binary64.lit 1]) =
    .ok (Binary64.lit (1 - 1 / 2 ^ 53)) := by
  decide +kernel

end Scigo.Round
