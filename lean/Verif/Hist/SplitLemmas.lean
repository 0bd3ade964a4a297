import Verif.Hist.Lemmas
import Mathlib.Data.List.Induction

/-!
# Lemmas about the split scan
-/

set_option linter.unusedSectionVars false

namespace Scigo.Hist

variable {α : Type}

section scan
variable [LinearOrder α] [Zero α] [One α] [Add α] [Sub α] [Neg α] [Mul α] [Div α]

/-- gain of the boundary after bin `i` -/
def gainAt (hb : Builder α) (L : Lits α) (special : α → Bool) (bins : List (Bin α)) (tg th : α) (i : Nat) : α :=
  hb.gain L special (sumOver (bins.take (i + 1)) (·.grad)) (sumOver (bins.take (i + 1)) (·.hess))
    (tg - sumOver (bins.take (i + 1)) (·.grad)) (th - sumOver (bins.take (i + 1)) (·.hess)) tg th

/-- rows in the bins -/
def countOf (bins : List (Bin α)) : Int := (bins.map (·.count)).sum

/-- both sides of the boundary after bin `i` have enough rows -/
def Admissible (bins : List (Bin α)) (minData : Int) (i : Nat) : Prop :=
  minData ≤ countOf (bins.take (i + 1)) ∧ minData ≤ countOf (bins.drop (i + 1))

/-- the split at the boundary after bin `i` -/
def splitAt (hb : Builder α) (L : Lits α) (special : α → Bool) (bins : List (Bin α)) (tg th : α) (feature : Int) (thr : Nat → α)
    (cats : Nat → List Int) (i : Nat) : Split α :=
  ⟨feature, thr i, gainAt hb L special bins tg th i, countOf (bins.take (i + 1)), countOf (bins.drop (i + 1)),
    sumOver (bins.take (i + 1)) (·.grad), tg - sumOver (bins.take (i + 1)) (·.grad),
    sumOver (bins.take (i + 1)) (·.hess), th - sumOver (bins.take (i + 1)) (·.hess), cats i⟩

/-- `r` is the first of the best splits among the boundaries below `n`, or no split when none of them has a positive gain -/
def IsBest (hb : Builder α) (L : Lits α) (special : α → Bool) (bins : List (Bin α)) (tg th : α) (feature : Int) (thr : Nat → α)
    (cats : Nat → List Int) (minData : Int) (n : Nat) (r : Split α) : Prop :=
  (r = noSplit feature 0 ∧ ∀ i < n, Admissible bins minData i → gainAt hb L special bins tg th i ≤ 0) ∨
  ∃ i < n, Admissible bins minData i ∧ 0 < gainAt hb L special bins tg th i ∧ r = splitAt hb L special bins tg th feature thr cats i ∧
    (∀ j < n, Admissible bins minData j → gainAt hb L special bins tg th j ≤ gainAt hb L special bins tg th i) ∧
    ∀ j < i, Admissible bins minData j → gainAt hb L special bins tg th j < gainAt hb L special bins tg th i

theorem foldl_int_sum (l : List Int) (a : Int) : l.foldl (· + ·) a = a + l.sum := by
  induction l generalizing a with
  | nil => simp
  | cons b l ih => rw [List.foldl_cons, ih, List.sum_cons, add_assoc]

theorem rightCount_eq (bins : List (Bin α)) (i : Nat) : rightCount bins i = countOf (bins.drop (i + 1)) := by
  unfold rightCount countOf
  rw [foldl_int_sum, zero_add]

theorem sumOver_take_succ (bins : List (Bin α)) (f : Bin α → α) (n : Nat) (b : Bin α) (hb : bins[n]? = some b) :
    sumOver (bins.take (n + 1)) f = sumOver (bins.take n) f + f b := by
  rw [List.take_add_one, hb]
  unfold sumOver
  rw [List.foldl_append]
  rfl

theorem countOf_take_succ (bins : List (Bin α)) (n : Nat) (b : Bin α) (hb : bins[n]? = some b) :
    countOf (bins.take (n + 1)) = countOf (bins.take n) + b.count := by
  rw [List.take_add_one, hb]
  unfold countOf
  simp

theorem scan_best (hb : Builder α) (L : Lits α) (special : α → Bool) (bins : List (Bin α)) (describe : Nat → Split α → Split α)
    (feature : Int) (tg th : α) (minData : Int) (thr : Nat → α) (cats : Nat → List Int) (Q : Split α → Prop)
    (hQ0 : Q (noSplit feature 0)) (hQ : ∀ i < bins.length, Q (splitAt hb L special bins tg th feature thr cats i))
    (hd : ∀ i < bins.length, ∀ s : Split α, Q s → ∀ g a b c d e f, describe i (s.fill g a b c d e f) =
      ⟨s.feature, thr i, g, a, b, c, d, e, f, cats i⟩) :
    IsBest hb L special bins tg th feature thr cats minData (bins.length - 1)
      (hb.scan L special bins describe feature tg th minData) := by
  unfold Builder.scan
  have key : ∀ n, n ≤ bins.length - 1 →
      IsBest hb L special bins tg th feature thr cats minData n ((List.range n).foldl (hb.scanStep L special bins describe tg th minData) ⟨noSplit feature 0, 0, 0, 0⟩).best ∧
      ((List.range n).foldl (hb.scanStep L special bins describe tg th minData) ⟨noSplit feature 0, 0, 0, 0⟩).lg = sumOver (bins.take n) (·.grad) ∧
      ((List.range n).foldl (hb.scanStep L special bins describe tg th minData) ⟨noSplit feature 0, 0, 0, 0⟩).lh = sumOver (bins.take n) (·.hess) ∧
      ((List.range n).foldl (hb.scanStep L special bins describe tg th minData) ⟨noSplit feature 0, 0, 0, 0⟩).lc = countOf (bins.take n) := by
    intro n hn
    induction n with
    | zero => exact ⟨Or.inl ⟨rfl, by simp⟩, by simp [sumOver], by simp [sumOver], by simp [countOf]⟩
    | succ n ih =>
      obtain ⟨i1, i2, i3, i4⟩ := ih (by omega)
      rw [List.range_succ, List.foldl_append, List.foldl_cons, List.foldl_nil]
      set s := (List.range n).foldl (hb.scanStep L special bins describe tg th minData) ⟨noSplit feature 0, 0, 0, 0⟩ with hs
      clear_value s
      obtain ⟨b, hbn⟩ : ∃ b, bins[n]? = some b := ⟨_, List.getElem?_eq_getElem (by omega)⟩
      unfold Builder.scanStep
      rw [hbn]
      simp only
      have eg : s.lg + b.grad = sumOver (bins.take (n + 1)) (·.grad) := by rw [sumOver_take_succ bins (·.grad) n b hbn, i2]
      have eh : s.lh + b.hess = sumOver (bins.take (n + 1)) (·.hess) := by rw [sumOver_take_succ bins (·.hess) n b hbn, i3]
      have ec : s.lc + b.count = countOf (bins.take (n + 1)) := by rw [countOf_take_succ bins n b hbn, i4]
      rw [eg, eh, ec, rightCount_eq]
      have hfeat : s.best.feature = feature := by
        rcases i1 with ⟨r, -⟩ | ⟨i, -, -, -, r, -⟩ <;> rw [r] <;> rfl
      have hQs : Q s.best := by
        rcases i1 with ⟨r, -⟩ | ⟨i, hi, -, -, r, -⟩
        · rw [r]; exact hQ0
        · rw [r]; exact hQ i (by omega)
      have hga : hb.gain L special (sumOver (bins.take (n + 1)) (·.grad)) (sumOver (bins.take (n + 1)) (·.hess))
          (tg - sumOver (bins.take (n + 1)) (·.grad)) (th - sumOver (bins.take (n + 1)) (·.hess)) tg th =
          gainAt hb L special bins tg th n := rfl
      rw [hga]
      by_cases hadm : Admissible bins minData n
      · rw [if_neg (by rintro (h | h); exacts [absurd hadm.1 (not_le.2 h), absurd hadm.2 (not_le.2 h)])]
        by_cases hg : s.best.gain < gainAt hb L special bins tg th n
        · rw [if_pos hg]
          refine ⟨Or.inr ⟨n, by omega, hadm, ?_, ?_, ?_, ?_⟩, rfl, rfl, rfl⟩
          · rcases i1 with ⟨r, -⟩ | ⟨i, -, -, h0, r, -⟩
            · rw [r] at hg; exact hg
            · rw [r] at hg; exact lt_trans h0 hg
          · simp only
            rw [hd n (by omega) s.best hQs, hfeat]
            rfl
          · intro j hj ha
            rcases Nat.lt_succ_iff_lt_or_eq.1 hj with hj | rfl
            · rcases i1 with ⟨r, h⟩ | ⟨i, -, -, h0, r, h, -⟩
              · rw [r] at hg; exact (h j hj ha).trans hg.le
              · rw [r] at hg; exact (h j hj ha).trans hg.le
            · exact le_refl _
          · intro j hj ha
            rcases i1 with ⟨r, h⟩ | ⟨i, -, -, h0, r, h, -⟩
            · rw [r] at hg; exact lt_of_le_of_lt (h j hj ha) hg
            · rw [r] at hg; exact lt_of_le_of_lt (h j hj ha) hg
        · rw [if_neg hg]
          refine ⟨?_, rfl, rfl, rfl⟩
          rw [not_lt] at hg
          rcases i1 with ⟨r, h⟩ | ⟨i, hi, hadm', h0, r, h, h'⟩
          · refine Or.inl ⟨r, fun j hj ha => ?_⟩
            rcases Nat.lt_succ_iff_lt_or_eq.1 hj with hj | rfl
            · exact h j hj ha
            · rw [r] at hg; exact hg
          · refine Or.inr ⟨i, by omega, hadm', h0, r, fun j hj ha => ?_, h'⟩
            rcases Nat.lt_succ_iff_lt_or_eq.1 hj with hj | rfl
            · exact h j hj ha
            · rw [r] at hg; exact hg
      · have hif : countOf (bins.take (n + 1)) < minData ∨ countOf (bins.drop (n + 1)) < minData := by
          unfold Admissible at hadm
          rw [not_and_or, not_le, not_le] at hadm
          exact hadm
        rw [if_pos hif]
        refine ⟨?_, rfl, rfl, rfl⟩
        rcases i1 with ⟨r, h⟩ | ⟨i, hi, hadm', h0, r, h, h'⟩
        · refine Or.inl ⟨r, fun j hj ha => ?_⟩
          rcases Nat.lt_succ_iff_lt_or_eq.1 hj with hj | rfl
          · exact h j hj ha
          · exact absurd ha hadm
        · refine Or.inr ⟨i, by omega, hadm', h0, r, fun j hj ha => ?_, h'⟩
          rcases Nat.lt_succ_iff_lt_or_eq.1 hj with hj | rfl
          · exact h j hj ha
          · exact absurd ha hadm
  exact (key (bins.length - 1) (le_refl _)).1

end scan

end Scigo.Hist
