import Verif.Round.MomentProps
import Verif.Hist.Props

/-!
# C295: histogram subtraction when every operation is rounded
-/

set_option linter.unusedSectionVars false

namespace Scigo.Round

open Scigo.Hist

variable {K : Type} [Field K] [LinearOrder K] [IsStrictOrderedRing K] {R : Rounding K} {eps : K}

/-- the error of a rounded sum over a list of rows -/
theorem sum_rows_error (he : 0 ≤ eps) (hA : R.AddAccurate eps) (l : List Nat) (f : Nat → Fl R) :
    |(sumOver l f).val - (l.map fun i => (f i).val).sum| ≤ ((1 + eps) ^ l.length - 1) * (l.map fun i => |(f i).val|).sum := by
  induction l using List.reverseRecOn with
  | nil => simp [sumOver]
  | append_singleton l a ih =>
    have hsum : sumOver (l ++ [a]) f = sumOver l f + f a := by
      unfold sumOver
      rw [List.foldl_append]
      rfl
    rw [hsum, Fl.val_add, List.map_append, List.sum_append, List.map_append, List.sum_append, List.length_append]
    simp only [List.map_cons, List.map_nil, List.sum_cons, List.sum_nil, add_zero, List.length_cons, List.length_nil, zero_add]
    set S := (sumOver l f).val
    set T := (l.map fun i => (f i).val).sum
    set B := (l.map fun i => |(f i).val|).sum
    have hTB : |T| ≤ B := by
      have : ∀ l : List Nat, |(l.map fun i => (f i).val).sum| ≤ (l.map fun i => |(f i).val|).sum := by
        intro l
        induction l with
        | nil => simp
        | cons b l ih => simpa using (abs_add_le _ _).trans (by linarith)
      exact this l
    have hr := hA S (f a).val (sumOver l f).rep (f a).rep
    have hG : 1 ≤ (1 + eps) ^ l.length := one_le_pow₀ (by linarith)
    have hB : 0 ≤ B := (abs_nonneg _).trans hTB
    set G := (1 + eps) ^ l.length
    have hS : |S| ≤ G * B := by
      have := abs_add_le (S - T) T
      rw [sub_add_cancel] at this
      linarith
    have h1 : |S + (f a).val| ≤ G * B + |(f a).val| := (abs_add_le _ _).trans (by linarith)
    have h2 : eps * |S + (f a).val| ≤ eps * (G * B + |(f a).val|) := mul_le_mul_of_nonneg_left h1 he
    have h3 : |R.rnd (S + (f a).val) - (T + (f a).val)| ≤ |R.rnd (S + (f a).val) - (S + (f a).val)| + |S - T| := by
      have := abs_add_le (R.rnd (S + (f a).val) - (S + (f a).val)) (S - T)
      refine le_trans (le_of_eq ?_) this
      congr 1
      ring
    have ha := abs_nonneg (f a).val
    rw [pow_succ]
    have h4 : 0 ≤ (G - 1) * |(f a).val| := mul_nonneg (by linarith) ha
    have h5 : 0 ≤ eps * ((G - 1) * |(f a).val|) := mul_nonneg he h4
    calc |R.rnd (S + (f a).val) - (T + (f a).val)| ≤ eps * (G * B + |(f a).val|) + (G - 1) * B := by linarith
      _ ≤ (G * (1 + eps) - 1) * (B + |(f a).val|) := by nlinarith

/-- a rounded sum of non-negative terms over some of the rows, in the same order, is at most that over all of them -/
theorem sum_sublist_le (f : Nat → Fl R) {l p : List Nat} (hl : l.Sublist p) (hf : ∀ i ∈ p, 0 ≤ f i) : sumOver l f ≤ sumOver p f := by
  have key : ∀ {l p : List Nat}, l.Sublist p → (∀ i ∈ p, 0 ≤ f i) → ∀ a b : Fl R, a ≤ b →
      l.foldl (fun s i => s + f i) a ≤ p.foldl (fun s i => s + f i) b := by
    intro l p hl
    induction hl with
    | slnil => intro _ a b hab; exact hab
    | cons c _ ih =>
      intro hf a b hab
      rw [List.foldl_cons]
      refine ih (fun i hi => hf i (List.mem_cons_of_mem _ hi)) a _ (hab.trans ?_)
      exact Fl.le_add_right' (hf c List.mem_cons_self)
    | cons_cons c _ ih =>
      intro hf a b hab
      rw [List.foldl_cons, List.foldl_cons]
      exact ih (fun i hi => hf i (List.mem_cons_of_mem _ hi)) _ _ (Fl.add_le hab le_rfl)
  exact key hl hf 0 0 le_rfl

/-- difference of two rounded sums against a third -/
theorem sub_sum_error (he : 0 ≤ eps) (hA : R.AddAccurate eps) (f : Nat → Fl R) (p l r : List Nat) (hp : p.Perm (l ++ r))
    (hn : p.length * eps ≤ 1 / 2) :
    |(sumOver p f - sumOver l f).val - (sumOver r f).val| ≤ 7 * p.length * eps * (p.map fun i => |(f i).val|).sum := by
  by_cases hp0 : p = []
  · subst hp0
    have := List.nil_perm.1 hp
    obtain ⟨rfl, rfl⟩ := List.append_eq_nil_iff.1 this
    have : sumOver ([] : List Nat) f = 0 := rfl
    rw [this, Fl.sub_self']
    simp
  have hlen : 1 ≤ p.length := List.length_pos_iff.2 hp0
  have e1 := sum_rows_error he hA p f
  have e2 := sum_rows_error he hA l f
  have e3 := sum_rows_error he hA r f
  have hll : l.length ≤ p.length := by have := hp.length_eq; rw [List.length_append] at this; omega
  have hrl : r.length ≤ p.length := by have := hp.length_eq; rw [List.length_append] at this; omega
  have hpow := pow_sub_one_le he p.length hn
  have hmono : ∀ k ≤ p.length, (1 + eps) ^ k - 1 ≤ 2 * p.length * eps := fun k hk =>
    le_trans (sub_le_sub_right (pow_le_pow_right₀ (by linarith) hk) 1) hpow
  have hS : (p.map fun i => |(f i).val|).sum = (l.map fun i => |(f i).val|).sum + (r.map fun i => |(f i).val|).sum := by
    rw [(hp.map _).sum_eq, List.map_append, List.sum_append]
  have hT : (p.map fun i => (f i).val).sum = (l.map fun i => (f i).val).sum + (r.map fun i => (f i).val).sum := by
    rw [(hp.map _).sum_eq, List.map_append, List.sum_append]
  have habs : ∀ l : List Nat, |(l.map fun i => (f i).val).sum| ≤ (l.map fun i => |(f i).val|).sum := by
    intro l
    induction l with
    | nil => simp
    | cons b l ih => simpa using (abs_add_le _ _).trans (by linarith)
  have hnn : ∀ l : List Nat, 0 ≤ (l.map fun i => |(f i).val|).sum := fun l => (abs_nonneg _).trans (habs l)
  have hr := hA.sub (sumOver p f).val (sumOver l f).val (sumOver p f).rep (sumOver l f).rep
  rw [Fl.val_sub]
  have a3 := habs r
  rw [hS]
  rw [hS] at e1
  rw [hT] at e1
  set N : K := (p.length : K) * eps with hN
  have hN1 : eps ≤ N := by
    have : (1 : K) ≤ p.length := by exact_mod_cast hlen
    rw [hN]
    nlinarith
  have hB1 := hnn l
  have hB2 := hnn r
  set B1 := (l.map fun i => |(f i).val|).sum
  set B2 := (r.map fun i => |(f i).val|).sum
  set T1 := (l.map fun i => (f i).val).sum
  set T2 := (r.map fun i => (f i).val).sum
  set P := (sumOver p f).val
  set A := (sumOver l f).val
  set C := (sumOver r f).val
  have hm1 := hmono p.length le_rfl
  have hm2 := hmono l.length hll
  have hm3 := hmono r.length hrl
  have f1 : |P - (T1 + T2)| ≤ 2 * N * (B1 + B2) := e1.trans (by
    refine (mul_le_mul_of_nonneg_right hm1 (by linarith)).trans (le_of_eq ?_)
    rw [hN]; ring)
  have f2 : |A - T1| ≤ 2 * N * B1 := e2.trans (by
    refine (mul_le_mul_of_nonneg_right hm2 hB1).trans (le_of_eq ?_)
    rw [hN]; ring)
  have f3 : |C - T2| ≤ 2 * N * B2 := e3.trans (by
    refine (mul_le_mul_of_nonneg_right hm3 hB2).trans (le_of_eq ?_)
    rw [hN]; ring)
  have hN0 : 0 ≤ N := he.trans hN1
  have hPA : |P - A| ≤ 3 * (B1 + B2) := by
    have h1 : |P - A| ≤ |P - (T1 + T2)| + |A - T1| + |T2| := by
      have g1 := abs_add_le (P - (T1 + T2)) (T1 - A + T2)
      have g2 := abs_add_le (T1 - A) T2
      rw [abs_sub_comm T1 A] at g2
      refine le_trans (le_of_eq ?_) (g1.trans (by linarith))
      congr 1
      ring
    have h2 : 2 * N * (B1 + B2) ≤ 1 * (B1 + B2) := mul_le_mul_of_nonneg_right (by linarith) (by linarith)
    have h3 : 2 * N * B1 ≤ 1 * B1 := mul_le_mul_of_nonneg_right (by linarith) hB1
    linarith
  have h4 : eps * |P - A| ≤ N * (3 * (B1 + B2)) := mul_le_mul hN1 hPA (abs_nonneg _) hN0
  have h5 : |R.rnd (P - A) - C| ≤ |R.rnd (P - A) - (P - A)| + |P - (T1 + T2)| + |A - T1| + |C - T2| := by
    have g1 := abs_add_le (R.rnd (P - A) - (P - A)) (P - (T1 + T2) + (T1 - A) + (T2 - C))
    have g2 := abs_add_le (P - (T1 + T2) + (T1 - A)) (T2 - C)
    have g3 := abs_add_le (P - (T1 + T2)) (T1 - A)
    rw [abs_sub_comm T1 A] at g3
    rw [abs_sub_comm T2 C] at g2
    refine le_trans (le_of_eq ?_) (g1.trans (by linarith))
    congr 1
    ring
  have : 7 * (p.length : K) * eps = 7 * N := by rw [hN]; ring
  rw [this]
  nlinarith

/-- C295, the part that holds: subtracting the histogram of a child from that of its parent (same bounds, the child's rows a part of the
parent's in the same order) gives in every bin the exact count of the other child's rows, a hessian sum that is not negative when the
hessians are not, and gradient and hessian sums within `7·n` roundings of the sums built directly, relative to the absolute sums, for
the `n` rows of the parent in the bin -/
theorem subtraction_partial (he : 0 ≤ eps) (hA : R.AddAccurate eps) (find : Fl R → List (Fl R) → Int) (b : List (Fl R)) (feature f' : Nat)
    (x g h : Nat → Fl R) (parent l r : List Nat) (hp : parent.Perm (l ++ r)) (hl : l.Sublist parent) (hn : parent.length * eps ≤ 1 / 2)
    (hh : ∀ i ∈ parent, 0 ≤ h i) :
    ∃ H, subtract ⟨feature, fill find b x g h parent, b⟩ ⟨f', fill find b x g h l, b⟩ = .ok H ∧ H.bounds = b ∧
      H.bins.length = (fill find b x g h r).length ∧
      ∀ (k : Nat) (s d : Bin (Fl R)), H.bins[k]? = some s → (fill find b x g h r)[k]? = some d →
        s.lo = d.lo ∧ s.hi = d.hi ∧ s.count = d.count ∧ 0 ≤ s.hess ∧
        let rows := parent.filter fun i => find (x i) b = (k : Int)
        |s.grad.val - d.grad.val| ≤ 7 * rows.length * eps * (rows.map fun i => |(g i).val|).sum ∧
        |s.hess.val - d.hess.val| ≤ 7 * rows.length * eps * (rows.map fun i => |(h i).val|).sum := by
  unfold subtract
  rw [if_neg (by simp [fill_length])]
  refine ⟨_, rfl, rfl, by simp [fill_length], ?_⟩
  intro k s d hs hd
  have hk : k < b.length - 1 := by
    rw [← fill_length find b x g h r]
    exact (List.getElem?_eq_some_iff.1 hd).1
  dsimp only at hs
  rw [List.getElem?_zipWith, fill_get find b x g h parent k hk, fill_get find b x g h l k hk] at hs
  rw [fill_get find b x g h r k hk] at hd
  simp only [Option.some.injEq] at hs hd
  subst hs hd
  have hperm : (rowsIn find b x parent k).Perm (rowsIn find b x l k ++ rowsIn find b x r k) := by
    unfold rowsIn
    rw [← List.filter_append]
    exact hp.filter _
  have hsub : (rowsIn find b x l k).Sublist (rowsIn find b x parent k) := hl.filter _
  have hlen : ((rowsIn find b x parent k).length : K) * eps ≤ 1 / 2 := by
    refine le_trans (mul_le_mul_of_nonneg_right ?_ he) hn
    exact_mod_cast List.length_filter_le _ _
  refine ⟨rfl, rfl, ?_, ?_, ?_⟩
  · dsimp only
    rw [hperm.length_eq, List.length_append]
    push_cast
    ring
  · exact Fl.sub_nonneg' (sum_sublist_le h hsub fun i hi => hh i (List.mem_of_mem_filter hi))
  · exact ⟨sub_sum_error he hA g _ _ _ hperm hlen, sub_sum_error he hA h _ _ _ hperm hlen⟩

/-- three rows with the hessians `2^53`, 1 and 1 -/
def bigHess : Nat → Fl Binary64.rounding := fun i => Fl.of _ ([2 ^ 53, 1, 1].getD i 0)

/-- C295, false of the code: in float64 the histogram obtained by subtraction is not the one built directly. One bin holds rows with the
hessians `2^53`, 1 and 1; when the rows with hessian 1 go left, the sibling's hessian sum is `2^53 - 2` instead of `2^53`. -/
theorem subtraction_not_sibling :
    let one : Nat → Fl Binary64.rounding := fun _ => 1
    let b : List (Fl Binary64.rounding) := [0, Fl.of _ 2]
    let parent : Hist (Fl Binary64.rounding) := ⟨0, fill findBinIndex b one one bigHess [0, 1, 2], b⟩
    let left : Hist (Fl Binary64.rounding) := ⟨0, fill findBinIndex b one one bigHess [1, 2], b⟩
    ∃ H, subtract parent left = .ok H ∧ H.bins.map (fun c => c.hess.val) = [2 ^ 53 - 2] ∧
      (fill findBinIndex b one one bigHess [0]).map (fun c => c.hess.val) = [2 ^ 53] := by
  intro one b parent left
  have hs : ¬ left.bins.length < parent.bins.length := by decide +kernel
  refine ⟨_, if_neg hs, ?_, ?_⟩ <;> decide +kernel

/-- the hypotheses of `subtraction_partial` -/
example : [0, 1, 2].Perm ([1, 2] ++ [0]) ∧ [1, 2].Sublist [0, 1, 2] ∧ (([0, 1, 2] : List Nat).length : ℚ) * (1 / 2 ^ 53) ≤ 1 / 2 ∧
    ∀ i ∈ [0, 1, 2], 0 ≤ bigHess i := by
  refine ⟨by decide, by decide, by norm_num, by decide +kernel⟩

end Scigo.Round
