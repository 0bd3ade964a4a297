import Verif.Round.ErrorProps
import Verif.LGB.Ensemble

/-!
# C284: the scores of a boosted ensemble when every addition is rounded
-/

set_option linter.unusedSectionVars false

namespace Scigo.Round

open Scigo.LGB

variable {K : Type _} [Field K] [LinearOrder K] [IsStrictOrderedRing K] {R : Rounding K} {eps : K}

/-- the error of a rounded sum that starts from `a` -/
theorem fold_from_error {β : Type _} (he : 0 ≤ eps) (hA : R.AddAccurate eps) (l : List β) (f : β → Fl R) (a : Fl R) :
    |(l.foldl (fun s x => s + f x) a).val - (a.val + (l.map fun x => (f x).val).sum)| ≤
        ((1 + eps) ^ l.length - 1) * (|a.val| + (l.map fun x => |(f x).val|).sum) ∧
      |a.val + (l.map fun x => (f x).val).sum| ≤ |a.val| + (l.map fun x => |(f x).val|).sum := by
  induction l using List.reverseRecOn with
  | nil => simp
  | append_singleton l b ih =>
    obtain ⟨i1, i2⟩ := ih
    rw [List.foldl_append, List.map_append, List.map_append, List.sum_append, List.sum_append]
    simp only [List.foldl_cons, List.foldl_nil, List.map_cons, List.map_nil, List.sum_cons, List.sum_nil, add_zero, List.length_append,
      List.length_cons, List.length_nil, zero_add]
    set s := l.foldl (fun s x => s + f x) a
    set S := (l.map fun x => (f x).val).sum
    set A := (l.map fun x => |(f x).val|).sum
    have h1 := hA s.val (f b).val s.rep (f b).rep
    rw [← Fl.val_add] at h1
    have h2 := abs_near i1
    have h3 := abs_add_le s.val (f b).val
    have h4 := abs_add_le ((s + f b).val - (s.val + (f b).val)) (s.val - (a.val + S))
    have e : (s + f b).val - (s.val + (f b).val) + (s.val - (a.val + S)) = (s + f b).val - (a.val + (S + (f b).val)) := by ring
    rw [e] at h4
    have h5 : |a.val + (S + (f b).val)| ≤ |a.val| + (A + |(f b).val|) := by
      have := abs_add_le (a.val + S) (f b).val
      rw [add_assoc] at this
      linarith
    refine ⟨?_, h5⟩
    have hg := grow he l.length
    have h6 : |s.val + (f b).val| ≤ (1 + eps) ^ l.length * (|a.val| + A) + |(f b).val| := by linarith
    have h7 := mul_le_mul_of_nonneg_left h6 he
    have h8 : 0 ≤ eps * ((1 + eps) ^ l.length - 1) * |(f b).val| :=
      mul_nonneg (mul_nonneg he (by linarith)) (abs_nonneg _)
    have h9 : 0 ≤ ((1 + eps) ^ l.length - 1) * |(f b).val| := mul_nonneg (by linarith) (abs_nonneg _)
    rw [pow_succ]
    nlinarith

/-- every score is the sum of its own trees, in their order -/
theorem accumulate_scores {α : Type _} [BEq α] [LE α] [DecidableLE α] [LT α] [DecidableLT α] [Zero α] [One α] [Add α] [Sub α] [Neg α] [Mul α] [Div α]
    (m : Model α) (out : LGB.Tree α → Outcome α) (l : List (LGB.Tree α × Nat)) (p q : List α) (h : m.accumulate out (fun _ s v => s + v) l p = .ok q) :
    ∃ v : LGB.Tree α → α, (∀ t ∈ l, out t.1 = .ok (v t.1)) ∧ q.length = p.length ∧ ∀ c < p.length,
      q.getD c 0 = (l.filter fun t => m.slot t.2 = c).foldl (fun s t => s + v t.1) (p.getD c 0) := by
  refine ⟨fun t => match out t with | .ok v => v | _ => 0, ?_⟩
  induction l generalizing p with
  | nil =>
    simp only [Model.accumulate] at h
    cases h
    simp
  | cons a l ih =>
    obtain ⟨t, i⟩ := a
    unfold Model.accumulate at h
    cases ho : out t with
    | err e => rw [ho] at h; cases h
    | panic s => rw [ho] at h; cases h
    | ok v =>
      rw [ho] at h
      dsimp only at h
      obtain ⟨h1, h2, h3⟩ := ih _ h
      rw [List.length_modify] at h2 h3
      refine ⟨?_, h2, fun c hc => ?_⟩
      · intro t' ht'
        rcases List.mem_cons.1 ht' with rfl | ht'
        · simp only [ho]
        · exact h1 t' ht'
      · rw [h3 c hc, List.filter_cons]
        by_cases hs : m.slot i = c
        · rw [if_pos (by simpa using hs), List.foldl_cons]
          simp only [ho]
          congr 1
          subst hs
          simp [List.getD_eq_getElem?_getD, hc]
        · rw [if_neg (by simpa using hs)]
          congr 1
          simp [List.getD_eq_getElem?_getD, List.getElem?_modify, hs]

/-! ## C284 -/

/-- **C284**: the raw score of a class, computed with rounded additions, is the initial score plus the outputs of the class's own trees up to one
relative error per tree of the sum of their magnitudes, and no trees are left out -/
theorem raw_score_error (he : 0 ≤ eps) (hA : R.AddAccurate eps) (toInt : Fl R → Int) (m : Model (Fl R)) (k : Nat) (x q : List (Fl R))
    (h : m.raw toInt k x = .ok q) :
    ∃ v : LGB.Tree (Fl R) → Fl R, (∀ t ∈ m.trees.take k, t.predict toInt x = .ok (v t)) ∧
      q.length = (if m.numClass > 2 then m.numClass.toNat else 1) ∧
      ∀ c < q.length, ∀ own : List (LGB.Tree (Fl R)),
        own = (((m.trees.take k).zipIdx).filter fun t => (if m.numClass > 2 then t.2 % m.numClass.toNat else 0) = c).map Prod.fst →
        |(q.getD c 0).val - (m.initScore.val + (own.map fun t => (v t).val).sum)| ≤
          ((1 + eps) ^ own.length - 1) * (|m.initScore.val| + (own.map fun t => |(v t).val|).sum) := by
  obtain ⟨v, h1, h2, h3⟩ := accumulate_scores m _ _ _ _ h
  have hlen : m.start.length = if m.numClass > 2 then m.numClass.toNat else 1 := by
    unfold Model.start
    split <;> simp
  refine ⟨v, ?_, h2.trans hlen, ?_⟩
  · intro t ht
    obtain ⟨i, hi, rfl⟩ := List.mem_iff_getElem.1 ht
    exact h1 ((m.trees.take k)[i], i) (List.mk_mem_zipIdx_iff_getElem?.2 (List.getElem?_eq_getElem hi))
  · intro c hc own hown
    have hc' : c < m.start.length := h2 ▸ hc
    have e := h3 c hc'
    have hs : m.start.getD c 0 = m.initScore := by
      unfold Model.start at hc' ⊢
      split
      · rename_i hm
        rw [if_pos hm, List.length_replicate] at hc'
        rw [List.getD_eq_getElem?_getD, List.getElem?_replicate, if_pos hc']
        rfl
      · rename_i hm
        rw [if_neg hm] at hc'
        have : c = 0 := by simpa using hc'
        subst this
        rfl
    rw [hs] at e
    have e2 : q.getD c 0 = own.foldl (fun s t => s + v t) m.initScore := by
      rw [e, hown, List.foldl_map]
      rfl
    rw [e2]
    exact (fold_from_error he hA own v m.initScore).1

/-- a tree with one leaf (cf. sklearn/lightgbm/model.go:256) -/
def stump (v : ℚ) : LGB.Tree (Fl Binary64.rounding) :=
  ⟨[⟨-1, -1, .leaf, -1, 0, [], false, 0, Binary64.lit v, 1, 0, 0⟩], [], 1, 1, 0⟩

/-- three trees in float64 whose rounded score is not the exact sum of their outputs -/
example : ∃ q, (⟨"regression", 1, 3, 1, [stump (1 / 10), stump (2 / 10), stump (3 / 10)], 1, 0, 0, false⟩ : Model (Fl Binary64.rounding)).raw
      (fun v => v.val.floor) 3 [0] = .ok [q] ∧
    q.val ≠ (Binary64.lit (1 / 10)).val + (Binary64.lit (2 / 10)).val + (Binary64.lit (3 / 10)).val ∧
    |q.val - ((Binary64.lit (1 / 10)).val + (Binary64.lit (2 / 10)).val + (Binary64.lit (3 / 10)).val)| ≤ 1 / 2 ^ 53 := by
  refine ⟨_, rfl, ?_, ?_⟩ <;> decide +kernel

end Scigo.Round
