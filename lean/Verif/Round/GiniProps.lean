import Verif.Round.AucProps
import Verif.Round.TreeProps
import Verif.Round.CountProps
import Verif.Base.Binary64Add
import Mathlib.Tactic.FieldSimp

/-!
# C289, C290: splits and pure nodes of the decision tree when every operation is rounded

The exact Gini impurity is the specification; the code computes it, and the decrease of a split, with every operation rounded.
-/

set_option linter.unusedSectionVars false

namespace Scigo.Round

open Scigo.Tree

variable {K : Type _} [Field K] [LinearOrder K] [IsStrictOrderedRing K] {R : Rounding K} {eps eta : K}

/-- the exact Gini impurity of a set of rows: one minus the squared fractions of the classes -/
def gini (K : Type _) [Field K] {β : Type _} (nC : Nat) (S : List (Sample β)) : K :=
  1 - ((List.range nC).map (fun k => ((S.countP (fun s => decide (s.2 = k)) : K) / (S.length : K)) ^ 2)).sum

/-- the exact decrease of the Gini impurity when the rows `S` are split at a threshold -/
def exactGain (nC : Nat) (S : List (Sample (Fl R))) (f : Nat) (thr : Fl R) : K :=
  gini K nC S - (((leftOf S f thr).length : K) * gini K nC (leftOf S f thr) + ((rightOf S f thr).length : K) * gini K nC (rightOf S f thr)) / (S.length : K)

theorem count_le_length {β : Type _} (S : List (Sample β)) (k : Nat) : S.countP (fun s => decide (s.2 = k)) ≤ S.length := List.countP_le_length

/-- the sum of squared fractions as the code computes it -/
theorem squares_error (he : 0 ≤ eps) (hη : 0 ≤ eta) (hR : R.Accurate eps eta) (T : Nat) (hT : 0 < T) (hn : ∀ m ≤ T, R.rnd (m : K) = m) (l : List Nat)
    (hl : ∀ c ∈ l, c ≤ T) (a : Fl R) (e d : K) (he0 : 0 ≤ e) (hae : |a.val - e| ≤ d)
    (hsum : e + (l.map (fun (c : Nat) => ((c : K) / (T : K)) ^ 2)).sum ≤ 1) (hd : d + 5 * l.length * (eps + eta) ≤ 1) :
    |(l.foldl (fun (acc : Fl R) (c : Nat) => if 0 < c then (let p : Fl R := (c : Fl R) / (T : Fl R); acc + p * p) else acc) a).val
        - (e + (l.map (fun (c : Nat) => ((c : K) / (T : K)) ^ 2)).sum)| ≤ d + 5 * l.length * (eps + eta) := by
  induction l generalizing a e d with
  | nil => simpa using hae
  | cons c l ih =>
    have hT0 : (0 : K) < T := by exact_mod_cast hT
    have hc := hl c List.mem_cons_self
    have hq0 : (0 : K) ≤ (c : K) / T := by positivity
    have hq1 : (c : K) / T ≤ 1 := by
      rw [div_le_one hT0]
      exact_mod_cast hc
    have hnn : ∀ l : List Nat, (0 : K) ≤ (l.map (fun (c : Nat) => ((c : K) / (T : K)) ^ 2)).sum := fun l =>
      List.sum_nonneg (by intro x hx; obtain ⟨_, _, rfl⟩ := List.mem_map.1 hx; positivity)
    have hu : 0 ≤ eps + eta := by linarith
    rw [List.map_cons, List.sum_cons] at hsum ⊢
    rw [List.length_cons] at hd ⊢
    push_cast at hd ⊢
    have hlu : 0 ≤ (l.length : K) * (eps + eta) := by positivity
    have hd0 : 0 ≤ d := le_trans (abs_nonneg _) hae
    rw [List.foldl_cons]
    have key : |(if 0 < c then (let p : Fl R := (c : Fl R) / (T : Fl R); a + p * p) else a).val - (e + ((c : K) / T) ^ 2)| ≤ d + 5 * (eps + eta) := by
      split
      · dsimp only
        have hp : ((c : Fl R) / (T : Fl R)).val = R.rnd ((c : K) / T) := by
          rw [Fl.val_div, Fl.val_natCast, Fl.val_natCast, hn c hc, hn T le_rfl]
        have h1 : |R.rnd ((c : K) / T) - (c : K) / T| ≤ eps + eta := by
          have := rnd_close he hR (x := (c : K) / T) (c := 1) (by rw [abs_of_nonneg hq0]; exact hq1)
          linarith
        obtain ⟨hp0, hp1⟩ := rnd_unit (R := R) hq0 hq1
        generalize (c : Fl R) / (T : Fl R) = p at hp
        generalize (c : K) / T = q at *
        rw [← hp] at h1 hp0 hp1
        have h2 : |p.val * p.val - q ^ 2| ≤ 2 * (eps + eta) := by
          have : p.val * p.val - q ^ 2 = (p.val - q) * (p.val + q) := by ring
          rw [this, abs_mul, abs_of_nonneg (by linarith : 0 ≤ p.val + q)]
          have := mul_le_mul h1 (by linarith : p.val + q ≤ 2) (by linarith) hu
          linarith
        have h3 : |(p * p).val - q ^ 2| ≤ 3 * (eps + eta) := by
          rw [Fl.val_mul]
          have h4 : |p.val * p.val| ≤ 1 := by
            rw [abs_of_nonneg (mul_self_nonneg _)]
            nlinarith
          have := rnd_from he hR h4 h2
          linarith
        have h5 : |a.val + (p * p).val - (e + q ^ 2)| ≤ d + 3 * (eps + eta) := by
          have : a.val + (p * p).val - (e + q ^ 2) = (a.val - e) + ((p * p).val - q ^ 2) := by ring
          rw [this]
          exact (abs_add_le _ _).trans (add_le_add hae h3)
        have h6 : |a.val + (p * p).val| ≤ 2 := by
          have := abs_near h5
          rw [abs_of_nonneg (by positivity : 0 ≤ e + q ^ 2)] at this
          have h7 := hnn l
          linarith
        rw [Fl.val_add]
        have := rnd_from he hR h6 h5
        linarith
      · rename_i h0
        have : c = 0 := by omega
        subst this
        simp only [Nat.cast_zero, zero_div, ne_eq, OfNat.ofNat_ne_zero, not_false_eq_true, zero_pow, add_zero]
        linarith
    have := ih (fun c' hc' => hl c' (List.mem_cons_of_mem _ hc')) _ (e + ((c : K) / T) ^ 2) (d + 5 * (eps + eta)) (by positivity) key (by linarith)
      (by linarith)
    rw [← add_assoc]
    refine this.trans (le_of_eq ?_)
    ring

theorem squares_le (nC : Nat) (S : List (Sample (Fl R))) (hr : InRange nC S) (hne : S ≠ []) :
    0 ≤ ((List.range nC).map (fun k => ((S.countP (fun s => decide (s.2 = k)) : K) / (S.length : K)) ^ 2)).sum ∧
      ((List.range nC).map (fun k => ((S.countP (fun s => decide (s.2 = k)) : K) / (S.length : K)) ^ 2)).sum ≤ 1 := by
  have hpos : (0 : K) < S.length := by exact_mod_cast List.length_pos_iff.2 hne
  constructor
  · exact List.sum_nonneg (by intro x hx; obtain ⟨_, _, rfl⟩ := List.mem_map.1 hx; positivity)
  · have h1 : ((List.range nC).map (fun k => ((S.countP (fun s => decide (s.2 = k)) : K) / (S.length : K)) ^ 2)).sum
        ≤ ((List.range nC).map (fun k => (S.countP (fun s => decide (s.2 = k)) : K) / (S.length : K))).sum := by
      apply List.sum_le_sum
      intro k _
      have h0 : (0 : K) ≤ (S.countP (fun s => decide (s.2 = k)) : K) / (S.length : K) := by positivity
      have h1 : (S.countP (fun s => decide (s.2 = k)) : K) / (S.length : K) ≤ 1 := by
        rw [div_le_one hpos]
        exact_mod_cast count_le_length S k
      nlinarith
    have h2 : ((List.range nC).map (fun k => (S.countP (fun s => decide (s.2 = k)) : K) / (S.length : K))).sum = 1 := by
      have hs := classCounts_sum nC S hr
      rw [classCounts_eq] at hs
      have h3 : ((List.range nC).map (fun k => (S.countP (fun s => decide (s.2 = k)) : K) / (S.length : K))).sum
          = (((List.range nC).map (fun k => S.countP (fun s => decide (s.2 = k)))).sum : Nat) / (S.length : K) := by
        generalize List.range nC = l
        induction l with
        | nil => simp
        | cons a l ih => simp only [List.map_cons, List.sum_cons, ih]; push_cast; ring
      rw [h3, hs, div_self hpos.ne']
    linarith

theorem gini_unit (nC : Nat) (S : List (Sample (Fl R))) (hr : InRange nC S) (hne : S ≠ []) : 0 ≤ gini K nC S ∧ gini K nC S ≤ 1 := by
  obtain ⟨h1, h2⟩ := squares_le (K := K) nC S hr hne
  unfold gini
  constructor <;> linarith

/-- the Gini impurity the code computes -/
theorem impurity_error (he : 0 ≤ eps) (hη : 0 ≤ eta) (hR : R.Accurate eps eta) (log2 : Fl R → Fl R) (crit : String) (hcrit : crit ≠ "entropy") (nC : Nat)
    (S : List (Sample (Fl R))) (hr : InRange nC S) (hne : S ≠ []) (hn : ∀ m ≤ S.length, R.rnd (m : K) = m) (hsmall : (5 * nC + 2) * (eps + eta) ≤ 1) :
    |(impurity log2 crit (classCounts nC S)).val - gini K nC S| ≤ (5 * nC + 2) * (eps + eta) := by
  have hs := classCounts_sum nC S hr
  have hpos := List.length_pos_iff.2 hne
  obtain ⟨q0, q1⟩ := squares_le (K := K) nC S hr hne
  have hu : 0 ≤ eps + eta := by linarith
  unfold impurity
  simp only [foldl_add_nat, hs, if_neg hpos.ne', if_neg hcrit]
  have hlist : ((classCounts nC S).map (fun (c : Nat) => ((c : K) / (S.length : K)) ^ 2)).sum =
      ((List.range nC).map (fun k => ((S.countP (fun s => decide (s.2 = k)) : K) / (S.length : K)) ^ 2)).sum := by
    rw [classCounts_eq, List.map_map]
    rfl
  have h := squares_error he hη hR S.length hpos hn (classCounts nC S) (by
      intro c hc
      rw [classCounts_eq] at hc
      obtain ⟨k, _, rfl⟩ := List.mem_map.1 hc
      exact count_le_length S k) 0 0 0 le_rfl (by simp) (by rw [zero_add, hlist]; exact q1) (by rw [classCounts_length]; linarith)
  rw [classCounts_length, zero_add, zero_add, hlist] at h
  unfold gini
  generalize ((List.range nC).map (fun k => ((S.countP (fun s => decide (s.2 = k)) : K) / (S.length : K)) ^ 2)).sum = q at *
  dsimp only at h
  generalize List.foldl _ _ _ = s at *
  rw [Fl.val_sub, Fl.val_one]
  have h1 : |1 - s.val - (1 - q)| ≤ 5 * nC * (eps + eta) := by
    rw [show 1 - s.val - (1 - q) = -(s.val - q) by ring, abs_neg]
    exact h
  have h2 : |1 - s.val| ≤ 2 := by
    have := abs_near h1
    rw [abs_of_nonneg (by linarith : 0 ≤ 1 - q)] at this
    linarith
  have := rnd_from he hR h2 h1
  linarith

/-- the decrease the code computes -/
theorem gain_error (he : 0 ≤ eps) (hη : 0 ≤ eta) (hR : R.Accurate eps eta) (log2 : Fl R → Fl R) (P : Params (Fl R)) (hcrit : P.criterion ≠ "entropy") (nC : Nat)
    (S : List (Sample (Fl R))) (hr : InRange nC S) (hne : S ≠ []) (hn : ∀ m ≤ S.length, R.rnd (m : K) = m) (hsmall : (5 * nC + 2) * (eps + eta) ≤ 1)
    (f : Nat) (thr : Fl R) :
    |(gain log2 P nC S (impurity log2 P.criterion (classCounts nC S)) f thr).val - exactGain nC S f thr| ≤ (10 * nC + 17) * (eps + eta) := by
  obtain ⟨s0, hs0⟩ := List.exists_mem_of_ne_nil S hne
  have hnC : (1 : K) ≤ nC := by exact_mod_cast (Nat.succ_le_of_lt (lt_of_le_of_lt (Nat.zero_le _) (hr s0 hs0)))
  have hu : 0 ≤ eps + eta := by linarith
  have hu1 : 7 * (eps + eta) ≤ 1 := by nlinarith
  have hpos : (0 : K) < S.length := by exact_mod_cast List.length_pos_iff.2 hne
  have hlen := length_left_right S f thr
  obtain ⟨I, hI⟩ : ∃ I, I = (5 * (nC : K) + 2) * (eps + eta) := ⟨_, rfl⟩
  have hI0 : 0 ≤ I := by rw [hI]; positivity
  rw [← hI] at hsmall
  -- one side of the split
  have side : ∀ T : List (Sample (Fl R)), InRange nC T → T.length ≤ S.length →
      |((T.length : Fl R) * impurity log2 P.criterion (classCounts nC T)).val - (T.length : K) * gini K nC T| ≤ T.length * (I + 2 * (eps + eta)) ∧
      0 ≤ (T.length : K) * gini K nC T ∧ (T.length : K) * gini K nC T ≤ T.length := by
    intro T hrT hTl
    by_cases hT : T = []
    · subst hT
      simp [Fl.val_mul, Fl.val_natCast, R.zero]
    · have h := impurity_error he hη hR log2 P.criterion hcrit nC T hrT hT (fun m hm => hn m (hm.trans hTl)) (by rw [← hI]; exact hsmall)
      obtain ⟨g0, g1⟩ := gini_unit (K := K) nC T hrT hT
      rw [← hI] at h
      have hT1 : (1 : K) ≤ T.length := by exact_mod_cast List.length_pos_iff.2 hT
      rw [Fl.val_mul, Fl.val_natCast, hn _ hTl]
      generalize impurity log2 P.criterion (classCounts nC T) = x at *
      generalize gini K nC T = g at *
      generalize (T.length : K) = t at *
      have h1 : |t * x.val - t * g| ≤ t * I := by
        rw [← mul_sub, abs_mul, abs_of_nonneg (by linarith : 0 ≤ t)]
        exact mul_le_mul_of_nonneg_left h (by linarith)
      have h2 : |t * x.val| ≤ 2 * t := by
        have := abs_near h1
        rw [abs_of_nonneg (mul_nonneg (by linarith) g0)] at this
        nlinarith
      have := rnd_from he hR h2 h1
      refine ⟨?_, mul_nonneg (by linarith) g0, by nlinarith⟩
      have h3 : eta ≤ t * eta := by nlinarith
      have h4 : 0 ≤ t * eta := by nlinarith
      linarith
  have hrL : InRange nC (leftOf S f thr) := fun s hs => hr s (List.mem_filter.1 hs).1
  have hrR : InRange nC (rightOf S f thr) := fun s hs => hr s (List.mem_filter.1 hs).1
  obtain ⟨l1, l2, l3⟩ := side _ hrL (by omega)
  obtain ⟨r1, r2, r3⟩ := side _ hrR (by omega)
  have hp := impurity_error he hη hR log2 P.criterion hcrit nC S hr hne hn (by rw [← hI]; exact hsmall)
  obtain ⟨p0, p1⟩ := gini_unit (K := K) nC S hr hne
  rw [← hI] at hp
  have hlenK : ((leftOf S f thr).length : K) + ((rightOf S f thr).length : K) = S.length := by exact_mod_cast congrArg (Nat.cast : Nat → K) hlen
  have hn1 : (1 : K) ≤ S.length := by exact_mod_cast List.length_pos_iff.2 hne
  have hnS := hn S.length le_rfl
  have hS : ((S.length : Nat) : Fl R).val = (S.length : K) := by rw [Fl.val_natCast, hnS]
  unfold gain exactGain
  rw [Fl.val_sub, Fl.val_div, hS, Fl.val_add]
  generalize ((leftOf S f thr).length : Fl R) * impurity log2 P.criterion (classCounts nC (leftOf S f thr)) = x at *
  generalize ((rightOf S f thr).length : Fl R) * impurity log2 P.criterion (classCounts nC (rightOf S f thr)) = y at *
  generalize ((leftOf S f thr).length : K) * gini K nC (leftOf S f thr) = gx at *
  generalize ((rightOf S f thr).length : K) * gini K nC (rightOf S f thr) = gy at *
  generalize impurity log2 P.criterion (classCounts nC S) = par at *
  generalize gini K nC S = g at *
  generalize ((leftOf S f thr).length : K) = a at *
  generalize ((rightOf S f thr).length : K) = b at *
  generalize (S.length : K) = n at *
  have e1 : |x.val + y.val - (gx + gy)| ≤ n * (I + 2 * (eps + eta)) := by
    rw [show x.val + y.val - (gx + gy) = (x.val - gx) + (y.val - gy) by ring]
    refine (abs_add_le _ _).trans ((add_le_add l1 r1).trans (le_of_eq ?_))
    rw [← hlenK]
    ring
  have e2 : |x.val + y.val| ≤ 3 * n := by
    have := abs_near e1
    rw [abs_of_nonneg (by linarith : 0 ≤ gx + gy)] at this
    nlinarith
  have e3 : |R.rnd (x.val + y.val) - (gx + gy)| ≤ n * (I + 5 * (eps + eta)) := by
    have := rnd_from he hR e2 e1
    nlinarith
  have e4 : |R.rnd (x.val + y.val) / n - (gx + gy) / n| ≤ I + 5 * (eps + eta) := by
    rw [← sub_div, abs_div, abs_of_pos hpos, div_le_iff₀ hpos, mul_comm]
    exact e3
  have w0 : 0 ≤ (gx + gy) / n := div_nonneg (by linarith) hpos.le
  have w1 : (gx + gy) / n ≤ 1 := by rw [div_le_one hpos]; linarith
  generalize R.rnd (x.val + y.val) / n = z at *
  generalize (gx + gy) / n = w at *
  have e5 : |z| ≤ 3 := by
    have := abs_near e4
    rw [abs_of_nonneg w0] at this
    linarith
  have e6 := rnd_from he hR e5 e4
  generalize R.rnd z = v at *
  have e7 : |par.val - v - (g - w)| ≤ 2 * I + 8 * (eps + eta) := by
    rw [show par.val - v - (g - w) = (par.val - g) - (v - w) by ring]
    refine (abs_sub _ _).trans ?_
    linarith
  have e8 : |par.val - v| ≤ 5 := by
    have := abs_near e7
    have : |g - w| ≤ 1 := abs_le.2 ⟨by linarith, by linarith⟩
    linarith
  have e9 := rnd_from he hR e8 e7
  have : (10 * (nC : K) + 17) * (eps + eta) = 2 * I + 13 * (eps + eta) := by rw [hI]; ring
  linarith

/-- **C289** (part that holds): the split chosen with every operation rounded (Gini) is optimal up to rounding. With
`B = (10 * classes + 17) * (eps + eta)`: the decrease it reports is within `B` of the exact decrease; no admissible split between neighbouring values has an
exact decrease larger by more than `2 B`; and a node is left unsplit only if no admissible split has an exact decrease above `B`. Rows and classes are
counted exactly. Missing: `B = 0`, see `uninformative_split_made`. -/
theorem split_near_optimal_partial (he : 0 ≤ eps) (hη : 0 ≤ eta) (hR : R.Accurate eps eta) (log2 : Fl R → Fl R) (srt : (Nat → Fl R) → List Nat → List Nat)
    (hs : ∀ key, SortsAsc key (srt key)) (P : Params (Fl R)) (hcrit : P.criterion ≠ "entropy") (nC nF : Nat) (S : List (Sample (Fl R))) (hr : InRange nC S)
    (hne : S ≠ []) (hn : ∀ m ≤ S.length, R.rnd (m : K) = m) (hsmall : (5 * nC + 2) * (eps + eta) ≤ 1) :
    (∀ f thr dec, findBestSplit log2 srt P nC nF S (impurity log2 P.criterion (classCounts nC S)) = (some f, thr, dec) →
      |dec.val - exactGain nC S f thr| ≤ (10 * nC + 17) * (eps + eta) ∧
      ∀ f' < nF, ∀ v, Neighbours S f' v → Admissible P S f' v →
        exactGain nC S f' ((v.1 + v.2) / ((2 : Nat) : Fl R)) ≤ exactGain nC S f thr + 2 * ((10 * nC + 17) * (eps + eta))) ∧
    ((findBestSplit log2 srt P nC nF S (impurity log2 P.criterion (classCounts nC S))).1 = none →
      ∀ f' < nF, ∀ v, Neighbours S f' v → Admissible P S f' v →
        exactGain nC S f' ((v.1 + v.2) / ((2 : Nat) : Fl R)) ≤ (10 * nC + 17) * (eps + eta)) := by
  have ge := gain_error he hη hR log2 P hcrit nC S hr hne hn hsmall
  obtain ⟨h1, h2⟩ := findBestSplit_optimal log2 srt hs P nC nF S (impurity log2 P.criterion (classCounts nC S))
  constructor
  · intro f thr dec hb
    obtain ⟨-, -, hd, -, hbest⟩ := h1 f thr dec hb
    have g1 := ge f thr
    rw [← hd] at g1
    refine ⟨g1, fun f' hf' v hv hadm => ?_⟩
    have g2 := abs_le.1 (ge f' ((v.1 + v.2) / ((2 : Nat) : Fl R)))
    have g3 : (gain log2 P nC S (impurity log2 P.criterion (classCounts nC S)) f' ((v.1 + v.2) / ((2 : Nat) : Fl R))).val ≤ dec.val := hbest f' hf' v hv hadm
    have g4 := abs_le.1 g1
    linarith [g2.1, g4.2]
  · intro hb f' hf' v hv hadm
    have g2 := abs_le.1 (ge f' ((v.1 + v.2) / ((2 : Nat) : Fl R)))
    have g3 : (gain log2 P nC S (impurity log2 P.criterion (classCounts nC S)) f' ((v.1 + v.2) / ((2 : Nat) : Fl R))).val ≤ 0 := h2.1 hb f' hf' v hv hadm
    linarith [g2.1]

/-- 15 rows with one feature: five rows with value 0 (classes 0, 1, 1, 1, 1), ten rows with value 1 (two of class 0, eight of class 1) -/
def sameMix : List (Sample (Fl Binary64.rounding)) :=
  [(0, 0), (0, 1), (0, 1), (0, 1), (0, 1), (1, 0), (1, 0), (1, 1), (1, 1), (1, 1), (1, 1), (1, 1), (1, 1), (1, 1), (1, 1)].map
    (fun (p : Nat × Nat) => ((fun _ => Binary64.lit p.1), p.2))

/-- the same rows as the arguments of `Fit` (sklearn/tree/tree.go:115-155) -/
def sameMixX : Mat (Fl Binary64.rounding) := table 1 [[0], [0], [0], [0], [0], [1], [1], [1], [1], [1], [1], [1], [1], [1], [1]]
/-- their labels (sklearn/tree/tree.go:115-155) -/
def sameMixY : Mat (Fl Binary64.rounding) := table 1 [[0], [1], [1], [1], [1], [0], [0], [1], [1], [1], [1], [1], [1], [1], [1]]

example : (∀ f thr dec, findBestSplit id stableAsc exTreeP 2 1 sameMix (impurity id exTreeP.criterion (classCounts 2 sameMix)) = (some f, thr, dec) →
      |dec.val - exactGain 2 sameMix f thr| ≤ (10 * 2 + 17) * (1 / 2 ^ 53 + 1 / 2 ^ 1075)) ∧
    (findBestSplit id stableAsc exTreeP 2 1 sameMix (impurity id exTreeP.criterion (classCounts 2 sameMix))).1 = some 0 := by
  refine ⟨fun f thr dec h => ?_, by decide +kernel⟩
  have hsm : (5 * ((2 : Nat) : ℚ) + 2) * (1 / 2 ^ 53 + 1 / 2 ^ 1075) ≤ 1 := by
    have : (1 : ℚ) / 2 ^ 1075 ≤ 1 / 2 ^ 53 := one_div_le_one_div_of_le (by positivity) (pow_le_pow_right₀ (by norm_num) (by norm_num))
    have h2 : (1 : ℚ) / 2 ^ 53 ≤ 1 / 100 := by norm_num
    push_cast
    linarith
  have := ((split_near_optimal_partial (by positivity) (by positivity) Binary64.accurate id stableAsc stableAsc_sorts exTreeP (by decide) 2 1 sameMix
    (by intro s hs; revert s hs; decide +kernel) (by decide) (fun m hm => Binary64.nat_exact m (lt_of_le_of_lt hm (by decide))) hsm).1 f thr dec h).1
  exact_mod_cast this

/-- feature and threshold of the first split of a tree -/
def firstSplit {α : Type _} : Option (DTree α) → Option (Nat × α)
  | some (.split _ f thr _ _) => some (f, thr)
  | _ => none

/-- **C289** is false with `B = 0`: five rows with classes mixed 1 : 4 and ten rows with classes mixed 2 : 8 have the same mixture, the exact decrease of
separating them is 0, yet in float64 `Fit` with the default parameters splits them at 1/2 (the computed decrease is about 5.6e-17). -/
theorem uninformative_split_made :
    ((Clf.new.fit id (fun x => x.val.floor) stableAsc List.dedup exTreeP 15 sameMixX sameMixY).map
      (fun r => (firstSplit r.1.tree, r.1.getNLeaves, r.1.classes, r.2))) = some (some (0, Binary64.lit (1 / 2)), 2, [0, 1], .ok ()) ∧
    exactGain 2 (samples (fun x => x.val.floor) [0, 1] sameMixX sameMixY) 0 (Binary64.lit (1 / 2)) = 0 := by
  refine ⟨by decide +kernel, by decide +kernel⟩

/-! ## Pure nodes -/

theorem pure_fold_one (T : Nat) (hT : 0 < T) (F : Fl R → Fl R → Fl R) (acc0 acc1 : Fl R) (hF : F acc0 1 = acc1) (l : List Nat)
    (hl : ∀ c ∈ l, c = 0 ∨ c = T) (hs : l.sum = T) :
    l.foldl (fun (acc : Fl R) (c : Nat) => if 0 < c then F acc ((c : Fl R) / (T : Fl R)) else acc) acc0 = acc1 := by
  have zero : ∀ (l : List Nat) (a : Fl R), l.sum = 0 → l.foldl (fun (acc : Fl R) (c : Nat) => if 0 < c then F acc ((c : Fl R) / (T : Fl R)) else acc) a = a := by
    intro l
    induction l with
    | nil => intro a _; rfl
    | cons c l ih =>
      intro a h
      rw [List.sum_cons] at h
      have hc : c = 0 := by omega
      rw [List.foldl_cons, if_neg (by omega), ih a (by omega)]
  have hT1 : (T : Fl R) ≠ 0 := (Fl.natCast_pos hT).ne'
  induction l with
  | nil => simp at hs; omega
  | cons c l ih =>
    rw [List.sum_cons] at hs
    rcases hl c List.mem_cons_self with h | h
    · rw [List.foldl_cons, if_neg (by omega)]
      exact ih (fun c' hc' => hl c' (List.mem_cons_of_mem _ hc')) (by omega)
    · rw [List.foldl_cons, if_pos (by omega), h, Fl.div_self' _ hT1, hF]
      exact zero l _ (by omega)

/-- a node with rows of one class has impurity exactly 0, for both criteria -/
theorem impurity_pure (log2 : Fl R → Fl R) (hlog : log2 1 = 0) (crit : String) (nC : Nat) (S : List (Sample (Fl R))) (hr : InRange nC S) (hne : S ≠ [])
    (hp : OneClass S) : impurity log2 crit (classCounts nC S) = 0 := by
  have hs := classCounts_sum nC S hr
  have hpos := List.length_pos_iff.2 hne
  have hl : ∀ c ∈ classCounts nC S, c = 0 ∨ c = S.length := by
    intro c hc
    rw [classCounts_eq] at hc
    obtain ⟨k, _, rfl⟩ := List.mem_map.1 hc
    by_cases h : ∃ s ∈ S, s.2 = k
    · right
      obtain ⟨s, hs, rfl⟩ := h
      rw [List.countP_eq_length]
      intro s' hs'
      simpa using hp s' hs' s hs
    · left
      rw [List.countP_eq_zero]
      intro s hs
      simpa using fun e => h ⟨s, hs, e⟩
  unfold impurity
  simp only [foldl_add_nat, hs, if_neg hpos.ne']
  split
  · refine pure_fold_one S.length hpos (fun acc p => acc - p * log2 p) 0 0 ?_ _ hl hs
    rw [hlog, Fl.one_mul', Fl.sub_self']
  · rw [pure_fold_one S.length hpos (fun acc p => acc + p * p) 0 1 (by rw [Fl.one_mul', Fl.zero_add']) _ hl hs, Fl.sub_self']

theorem gini_mixed (nC : Nat) (S : List (Sample (Fl R))) (hr : InRange nC S) (hp : ¬ OneClass S) : 1 / (2 * (S.length : K)) ≤ gini K nC S := by
  unfold OneClass at hp
  push Not at hp
  obtain ⟨s, hs, s', hs', hne⟩ := hp
  have hn : S ≠ [] := List.ne_nil_of_mem hs
  have c1 : 0 < S.countP (fun t => decide (t.2 = s.2)) := List.countP_pos_iff.2 ⟨s, hs, by simp⟩
  have c2 : S.countP (fun t => decide (t.2 = s.2)) < S.length := by
    refine lt_of_le_of_ne List.countP_le_length fun e => ?_
    rw [List.countP_eq_length] at e
    have := e s' hs'
    simp at this
    exact hne this.symm
  have hposn : 0 < S.length := by omega
  have hpos : (0 : K) < S.length := by exact_mod_cast hposn
  have hsum := classCounts_sum nC S hr
  rw [classCounts_eq] at hsum
  have h3 : ((List.range nC).map (fun k => (S.countP (fun s => decide (s.2 = k)) : K) / (S.length : K))).sum = 1 := by
    have h3 : ((List.range nC).map (fun k => (S.countP (fun s => decide (s.2 = k)) : K) / (S.length : K))).sum
        = (((List.range nC).map (fun k => S.countP (fun s => decide (s.2 = k)))).sum : Nat) / (S.length : K) := by
      generalize List.range nC = l
      induction l with
      | nil => simp
      | cons a l ih => simp only [List.map_cons, List.sum_cons, ih]; push_cast; ring
    rw [h3, hsum, div_self hpos.ne']
  have h4 : gini K nC S = ((List.range nC).map (fun k => (S.countP (fun s => decide (s.2 = k)) : K) / (S.length : K)
      * (1 - (S.countP (fun s => decide (s.2 = k)) : K) / (S.length : K)))).sum := by
    have aux : ∀ l : List Nat, (l.map (fun k => (S.countP (fun s => decide (s.2 = k)) : K) / (S.length : K))).sum
        - (l.map (fun k => ((S.countP (fun s => decide (s.2 = k)) : K) / (S.length : K)) ^ 2)).sum
        = (l.map (fun k => (S.countP (fun s => decide (s.2 = k)) : K) / (S.length : K)
          * (1 - (S.countP (fun s => decide (s.2 = k)) : K) / (S.length : K)))).sum := by
      intro l
      induction l with
      | nil => simp
      | cons a l ih => simp only [List.map_cons, List.sum_cons] at ih ⊢; rw [← ih]; ring
    rw [← aux, h3]
    rfl
  rw [h4]
  have hterm := List.single_le_sum (l := (List.range nC).map (fun k => (S.countP (fun s => decide (s.2 = k)) : K) / (S.length : K)
      * (1 - (S.countP (fun s => decide (s.2 = k)) : K) / (S.length : K)))) (by
    intro x hx
    obtain ⟨k, _, rfl⟩ := List.mem_map.1 hx
    have h1 : (S.countP (fun s => decide (s.2 = k)) : K) / (S.length : K) ≤ 1 := by
      rw [div_le_one hpos]
      exact_mod_cast count_le_length S k
    exact mul_nonneg (by positivity) (by linarith)) _ (List.mem_map.2 ⟨s.2, List.mem_range.2 (hr s hs), rfl⟩)
  refine le_trans ?_ hterm
  have a1 : (1 : K) ≤ (S.countP (fun t => decide (t.2 = s.2)) : K) := by exact_mod_cast c1
  have a2 : (S.countP (fun t => decide (t.2 = s.2)) : K) + 1 ≤ S.length := by exact_mod_cast c2
  generalize (S.countP (fun t => decide (t.2 = s.2)) : K) = c at *
  generalize (S.length : K) = n at *
  have e : c / n * (1 - c / n) = c * (n - c) / (n * n) := by field_simp
  rw [e, div_le_div_iff₀ (by positivity) (by positivity)]
  nlinarith [mul_nonneg (sub_nonneg.2 a1) (by linarith : 0 ≤ n - c - 1)]

/-- **C290**: with every operation rounded (Gini) a node counts as pure, and is not split further, exactly when its rows have one class. The number of
rows times the number of classes must be small against the precision (in float64: up to about 10^14 rows for two classes). -/
theorem pure_iff (he : 0 ≤ eps) (hη : 0 ≤ eta) (hR : R.Accurate eps eta) (log2 : Fl R → Fl R) (hlog : log2 1 = 0) (crit : String) (hcrit : crit ≠ "entropy")
    (nC : Nat) (S : List (Sample (Fl R))) (hr : InRange nC S) (hne : S ≠ []) (hn : ∀ m ≤ S.length, R.rnd (m : K) = m)
    (hsmall : 2 * S.length * ((5 * nC + 2) * (eps + eta)) < 1) : impurity log2 crit (classCounts nC S) = 0 ↔ OneClass S := by
  refine ⟨fun h => ?_, impurity_pure log2 hlog crit nC S hr hne⟩
  by_contra hp
  have h1 := gini_mixed (K := K) nC S hr hp
  have hn1 : (1 : K) ≤ S.length := by exact_mod_cast List.length_pos_iff.2 hne
  have hI : 0 ≤ (5 * (nC : K) + 2) * (eps + eta) := by positivity
  have h2 := impurity_error he hη hR log2 crit hcrit nC S hr hne hn (by nlinarith)
  rw [h, Fl.val_zero, zero_sub, abs_neg] at h2
  have h3 := (le_abs_self _).trans h2
  have h4 := h1.trans h3
  rw [div_le_iff₀ (by linarith)] at h4
  linarith

/-- **C290**, both criteria: the rows of one class have impurity exactly 0 and form a leaf, whatever the rounding. -/
theorem pure_leaf (log2 : Fl R → Fl R) (hlog : log2 1 = 0) (srt : (Nat → Fl R) → List Nat → List Nat) (P : Params (Fl R)) (nC nF fuel depth : Nat)
    (S : List (Sample (Fl R))) (hr : InRange nC S) (hne : S ≠ []) (hp : OneClass S) (imps : List (Fl R)) :
    ∃ info, build log2 srt P nC nF (fuel + 1) S depth imps = some (.ok (.leaf info, imps)) ∧ info.impurity = 0 := by
  refine ⟨mkInfo log2 P nC S depth, ?_, impurity_pure log2 hlog _ nC S hr hne hp⟩
  have h := impurity_pure log2 hlog P.criterion nC S hr hne hp
  simp [build, mkInfo, h, shouldStop]

example : ¬ OneClass sameMix := by
  refine (not_congr (pure_iff (eps := 1 / 2 ^ 53) (eta := 1 / 2 ^ 1075) (by positivity) (by positivity) Binary64.accurate (fun _ => 0) rfl "gini" (by decide) 2
    sameMix (by intro s hs; revert s hs; decide +kernel) (by decide) (fun m hm => Binary64.nat_exact m (lt_of_le_of_lt hm (by decide))) ?_)).1
    (by decide +kernel)
  have : (1 : ℚ) / 2 ^ 1075 ≤ 1 / 2 ^ 53 := one_div_le_one_div_of_le (by positivity) (pow_le_pow_right₀ (by norm_num) (by norm_num))
  have h2 : (1 : ℚ) / 2 ^ 53 ≤ 1 / 1000 := by norm_num
  have h3 : ((sameMix.length : Nat) : ℚ) = 15 := by simp [sameMix]
  rw [h3]
  push_cast
  linarith

example : ∃ info, build (fun _ => 0) stableAsc exTreeP 2 1 1 (leftOf sameMix 0 (Binary64.lit (1 / 2))).tail 0 [] = some (.ok (.leaf info, [])) ∧ info.impurity = 0 :=
  pure_leaf _ rfl _ _ 2 1 0 0 _ (by intro s hs; revert s hs; decide +kernel) (by decide +kernel) (by unfold OneClass; decide +kernel) []

end Scigo.Round
