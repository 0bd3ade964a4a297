import Verif.Round.MetricsProps
import Verif.Tree.Props

/-!
# C272: thresholds of the decision tree when every operation is rounded
-/

set_option linter.unusedSectionVars false

namespace Scigo.Round

open Scigo.Tree

variable {K : Type _} [Field K] [LinearOrder K] [IsStrictOrderedRing K] {R : Rounding K}

/-- doubling is exact, as in binary arithmetic without overflow (sklearn/tree/tree.go:353) -/
def DoubleExact (R : Rounding K) : Prop := ∀ x, R.rnd x = x → R.rnd (2 * x) = 2 * x

/-- binary64 without overflow is such an arithmetic -/
theorem binary64_doubleExact : DoubleExact Binary64.rounding := by
  intro x hx
  by_cases h0 : x = 0
  · subst h0; rw [mul_zero]; exact Binary64.rounding.zero
  have hx' : Binary64.rnd x = x := hx
  have hl : -1074 ≤ Binary64.last x := by unfold Binary64.last; omega
  have hp := Binary64.pow2_pos (Binary64.last x)
  have e1 : (Binary64.roundEven (x / Binary64.pow2 (Binary64.last x)) : ℚ) * Binary64.pow2 (Binary64.last x) = x := by
    have : Binary64.rnd x = (Binary64.roundEven (x / Binary64.pow2 (Binary64.last x)) : ℚ) * Binary64.pow2 (Binary64.last x) := by
      unfold Binary64.rnd; rw [if_neg h0]
    rw [← this, hx']
  generalize hm : Binary64.roundEven (x / Binary64.pow2 (Binary64.last x)) = m at e1
  have hq := Binary64.quot_bounds x h0
  have e2 : x / Binary64.pow2 (Binary64.last x) = m := by
    rw [div_eq_iff hp.ne', e1]
  rw [e2, Binary64.pow2_53] at hq
  have hmb : |m| < 2 ^ 53 := by exact_mod_cast hq
  have e3 : 2 * x = (m : ℚ) * Binary64.pow2 (Binary64.last x + 1) := by
    rw [Binary64.pow2_add, ← mul_assoc, e1, mul_comm]
    have : Binary64.pow2 1 = 2 := by decide +kernel
    rw [this]
  show Binary64.rnd (2 * x) = 2 * x
  rw [e3]
  exact Binary64.rnd_exact m _ hmb (by omega)

theorem two_val (h : DoubleExact R) : ((2 : Nat) : Fl R).val = 2 := by
  rw [Fl.val_natCast]
  have := h 1 R.one
  rw [mul_one] at this
  push_cast
  exact this

theorem midpoint_le (h : DoubleExact R) (a b c : Fl R) (hle : a.val + b.val ≤ 2 * c.val) : (a + b) / ((2 : Nat) : Fl R) ≤ c := by
  show R.rnd ((a + b).val / ((2 : Nat) : Fl R).val) ≤ c.val
  rw [two_val h]
  have h1 : (a + b).val ≤ 2 * c.val := by
    rw [Fl.val_add, ← h c.val c.rep]; exact R.mono hle
  calc R.rnd ((a + b).val / 2) ≤ R.rnd c.val := R.mono (by rw [div_le_iff₀ two_pos, mul_comm]; exact h1)
    _ = c.val := c.rep

theorem le_midpoint (h : DoubleExact R) (a b c : Fl R) (hle : 2 * c.val ≤ a.val + b.val) : c ≤ (a + b) / ((2 : Nat) : Fl R) := by
  show c.val ≤ R.rnd ((a + b).val / ((2 : Nat) : Fl R).val)
  rw [two_val h]
  have h1 : 2 * c.val ≤ (a + b).val := by
    rw [Fl.val_add, ← h c.val c.rep]; exact R.mono hle
  calc c.val = R.rnd c.val := c.rep.symm
    _ ≤ R.rnd ((a + b).val / 2) := R.mono (by rw [le_div_iff₀ two_pos, mul_comm]; exact h1)

/-- **C272** (partial): with every operation rounded, the threshold of a split still lies between the two neighbouring values `a < b` of
the feature it was computed from, so the rows with values up to `a` go left; and the rows with values from `b` on go right if a
representable number lies in the upper half of the gap. Missing: values without a representable number between them
(`adjacent_values_not_separated`). -/
theorem rounded_split_partial (hd : DoubleExact R) (log2 : Fl R → Fl R) (srt : (Nat → Fl R) → List Nat → List Nat) (hs : ∀ key, SortsAsc key (srt key))
    (P : Params (Fl R)) (nC nF : Nat) (S : List (Sample (Fl R))) (parent : Fl R) (f : Nat) (thr dec : Fl R)
    (h : findBestSplit log2 srt P nC nF S parent = (some f, thr, dec)) :
    ∃ a b, Neighbours S f (a, b) ∧ a ≤ thr ∧ thr ≤ b ∧ (∀ s ∈ S, s.1 f ≤ a → s ∈ leftOf S f thr) ∧ (∀ s ∈ S, b < s.1 f → s ∈ rightOf S f thr) ∧
      ((∃ c : Fl R, c < b ∧ a.val + b.val ≤ 2 * c.val) → leftOf S f thr = S.filter (fun s => decide (s.1 f ≤ a)) ∧
        rightOf S f thr = S.filter (fun s => decide (b ≤ s.1 f))) := by
  obtain ⟨-, -, -, ⟨⟨a, b⟩, hv, -, ht⟩, -⟩ := (findBestSplit_optimal log2 srt hs P nC nF S parent).1 f thr dec h
  dsimp only at ht
  have hab : a < b := hv.1
  have hab' : a.val < b.val := hab
  have h1 : a ≤ thr := ht ▸ le_midpoint hd a b a (by rw [two_mul]; exact add_le_add (le_refl _) hab'.le)
  have h2 : thr ≤ b := ht ▸ midpoint_le hd a b b (by rw [two_mul]; exact add_le_add hab'.le (le_refl _))
  refine ⟨a, b, hv, h1, h2, ?_, ?_, ?_⟩
  · intro s hs' hle
    exact List.mem_filter.2 ⟨hs', decide_eq_true (hle.trans h1)⟩
  · intro s hs' hlt
    refine List.mem_filter.2 ⟨hs', ?_⟩
    rw [decide_eq_false (not_le.2 (h2.trans_lt hlt))]
    rfl
  · rintro ⟨c, hcb, hc⟩
    have h3 : thr < b := lt_of_le_of_lt (ht ▸ midpoint_le hd a b c hc) hcb
    have hno := hv.2.2.2
    constructor
    · apply List.filter_congr
      intro s hs'
      rw [decide_eq_decide]
      refine ⟨fun hle => ?_, fun hle => hle.trans h1⟩
      by_contra hn
      exact hno s hs' ⟨not_le.1 hn, hle.trans_lt h3⟩
    · apply List.filter_congr
      intro s hs'
      rw [← decide_not, decide_eq_decide]
      refine ⟨fun hn => ?_, fun hle hle' => absurd (hle.trans hle') (not_le.2 h3)⟩
      by_contra hb
      exact hno s hs' ⟨h1.trans_lt (not_le.1 hn), not_le.1 hb⟩

/-- two rows whose values are neighbouring binary64 numbers (the data of a call of sklearn/tree/tree.go:115-155) -/
def exNear : Mat (Fl Binary64.rounding) := Mat.ofRows [[Binary64.lit (1 + 1 / 2 ^ 52)], [Binary64.lit (1 + 2 / 2 ^ 52)]] 1 0
/-- two rows further apart (the data of a call of sklearn/tree/tree.go:115-155) -/
def exFar : Mat (Fl Binary64.rounding) := Mat.ofRows [[Binary64.lit (1 + 1 / 2 ^ 52)], [Binary64.lit (1 + 3 / 2 ^ 52)]] 1 0
/-- labels 0 and 1 (the data of a call of sklearn/tree/tree.go:115-155) -/
def exNearY : Mat (Fl Binary64.rounding) := Mat.ofRows [[0], [1]] 1 0
/-- the default parameters (sklearn/tree/tree.go:56-66) -/
def exTreeP : Params (Fl Binary64.rounding) := ⟨"gini", 0, 2, 1, 0⟩

/-- **C272** is false: the rows `1 + 2^-52` and `1 + 2·2^-52` with labels 0 and 1 differ, but the rounded midpoint is the larger value; the
tree has one leaf and predicts 0 for both rows. With `1 + 3·2^-52` instead the rows are separated. -/
theorem adjacent_values_not_separated : exNear.at' 0 0 ≠ exNear.at' 1 0 ∧
    ((Clf.new.fit id (fun x => x.val.floor) stableAsc List.dedup exTreeP 2 exNear exNearY).map
      (fun r => (r.1.getNLeaves, r.1.predict exNear))) = some (1, .ok [0, 0]) ∧
    ((Clf.new.fit id (fun x => x.val.floor) stableAsc List.dedup exTreeP 2 exFar exNearY).map
      (fun r => (r.1.getNLeaves, r.1.predict exFar))) = some (2, .ok [0, 1]) := by
  refine ⟨by decide +kernel, by decide +kernel, by decide +kernel⟩

end Scigo.Round
