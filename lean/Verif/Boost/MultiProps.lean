import Verif.Boost.InitProps
import Verif.Parallel.Lemmas

/-!
# Multiclass objective (C112)

`stableSoftmax`, the gradients and Hessians of `MulticlassLogLoss` and its goroutines.
-/

set_option linter.unusedSectionVars false

namespace Scigo.Boost

open Scigo.Online Scigo.Parallel

/-- the sum of the exponentials of the logits -/
noncomputable def expSum (l : List ℝ) : ℝ := (l.map Real.exp).sum

theorem expSum_pos (l : List ℝ) (hl : l ≠ []) : 0 < expSum l := by
  apply List.sum_pos
  · intro x hx
    obtain ⟨y, _, rfl⟩ := List.mem_map.1 hx
    exact Real.exp_pos y
  · simpa using hl

theorem shifted_sum (l : List ℝ) (m : ℝ) :
    (l.map fun x => Real.exp (x - m)).foldl (· + ·) 0 = expSum l * Real.exp (-m) := by
  have h := foldl_add_eq (l.map fun x => Real.exp (x - m)) (fun x => x) (0 : ℝ)
  rw [h, zero_add, List.map_id']
  unfold expSum
  induction l with
  | nil => simp
  | cons a l ih =>
    simp only [List.map_cons, List.sum_cons]
    rw [ih (foldl_add_eq _ _ _), add_mul, ← Real.exp_add, sub_eq_add_neg]

/-- C112: the probabilities are the softmax of the logits, whatever maximum is subtracted -/
theorem softmax_getD (l : List ℝ) (hl : l ≠ []) (k : Nat) (hk : k < l.length) :
    (softmax realNum l).getD k 0 = Real.exp (l.getD k 0) / expSum l := by
  have hp := expSum_pos l hl
  have hs := shifted_sum l (maxLogit l)
  have he := Real.exp_pos (-maxLogit l)
  have : softmax realNum l = (l.map fun x => Real.exp (x - maxLogit l)).map (· / (expSum l * Real.exp (-maxLogit l))) := by
    have h0 : 0 < (l.map fun x => Real.exp (x - maxLogit l)).foldl (· + ·) 0 := by rw [hs]; positivity
    rw [← hs]
    exact if_pos h0
  rw [this, List.map_map, List.getD_eq_getElem _ _ (by simpa using hk), List.getD_eq_getElem _ _ hk, List.getElem_map]
  show Real.exp (l[k] - maxLogit l) / _ = _
  rw [sub_eq_add_neg, Real.exp_add]
  field_simp

theorem softmax_length (l : List ℝ) : (softmax realNum l).length = l.length := by
  unfold softmax
  simp only
  split_ifs <;> simp

/-- C112: every probability is positive -/
theorem softmax_pos (l : List ℝ) (k : Nat) (hk : k < l.length) : 0 < (softmax realNum l).getD k 0 := by
  have hl : l ≠ [] := by rintro rfl; simp at hk
  rw [softmax_getD l hl k hk]
  exact div_pos (Real.exp_pos _) (expSum_pos l hl)

theorem sum_eq_range (l : List ℝ) : l.sum = ((List.range l.length).map fun k => l.getD k 0).sum := by
  congr 1
  apply List.ext_getElem
  · simp
  · intro i h1 h2
    rw [List.getElem_map, List.getElem_range, List.getD_eq_getElem _ _ h1]

/-- C112: the probabilities of a sample sum to one -/
theorem softmax_sum (l : List ℝ) (hl : l ≠ []) : (softmax realNum l).sum = 1 := by
  have hp := expSum_pos l hl
  rw [sum_eq_range, softmax_length]
  have : (List.range l.length).map (fun k => (softmax realNum l).getD k 0) =
      (List.range l.length).map (fun k => (l.map Real.exp).getD k 0 * (expSum l)⁻¹) := by
    apply List.map_congr_left
    intro k hk
    have hk := List.mem_range.1 hk
    rw [softmax_getD l hl k hk, List.getD_eq_getElem (l.map Real.exp) _ (by simpa using hk), List.getElem_map,
      List.getD_eq_getElem l _ hk, div_eq_mul_inv]
  rw [this, List.sum_map_mul_right]
  have h2 := sum_eq_range (l.map Real.exp)
  rw [List.length_map] at h2
  rw [← h2]
  exact mul_inv_cancel₀ hp.ne'

theorem sum_indicator (n t : Nat) (ht : t < n) : ((List.range n).map fun k => if k = t then (1 : ℝ) else 0).sum = 1 := by
  induction n with
  | zero => omega
  | succ n ih =>
    rw [List.range_succ, List.map_append, List.sum_append]
    by_cases h : t = n
    · subst h
      have : ((List.range t).map fun k => if k = t then (1 : ℝ) else 0) = (List.range t).map fun _ => 0 := by
        apply List.map_congr_left; intro k hk; rw [if_neg (List.mem_range.1 hk).ne]
      rw [this]; simp
    · rw [ih (by omega)]; simp [Ne.symm h]

theorem multiRow_getD (l : List ℝ) (t k : Nat) (hk : k < l.length) :
    (multiRow realNum realLits t l).getD k (0, 0) = ((softmax realNum l).getD k 0 - (if k = t then 1 else 0),
      if (softmax realNum l).getD k 0 * (1 - (softmax realNum l).getD k 0) < realLits.e16 then realLits.e16 else
        (softmax realNum l).getD k 0 * (1 - (softmax realNum l).getD k 0)) := by
  unfold multiRow
  rw [List.getD_eq_getElem _ _ (by simpa using hk)]
  simp only [List.getElem_map, List.getElem_range]
  split_ifs <;> simp

/-- C112: the gradients of a sample sum to zero -/
theorem multi_gradient_sum_zero (l : List ℝ) (t : Nat) (ht : t < l.length) :
    ((multiRow realNum realLits t l).map Prod.fst).sum = 0 := by
  have hl : l ≠ [] := by rintro rfl; simp at ht
  have h1 := softmax_sum l hl
  rw [sum_eq_range, softmax_length] at h1
  have h2 := sum_indicator l.length t ht
  have e : (multiRow realNum realLits t l).map Prod.fst =
      (List.range l.length).map fun k => (softmax realNum l).getD k 0 - (if k = t then 1 else 0) := by
    unfold multiRow
    rw [List.map_map]
    apply List.map_congr_left
    intro k _
    simp only [Function.comp]
    split_ifs <;> simp
  rw [e]
  have gen : ∀ (r : List Nat) (f g : Nat → ℝ), (r.map fun k => f k - g k).sum = (r.map f).sum - (r.map g).sum := by
    intro r f g
    induction r with
    | nil => simp
    | cons a r ih => simp only [List.map_cons, List.sum_cons, ih]; ring
  rw [gen, h1, h2, sub_self]

/-- C112: every Hessian is positive -/
theorem multi_hessian_pos (l : List ℝ) (t k : Nat) (hk : k < l.length) :
    0 < ((multiRow realNum realLits t l).getD k (0, 0)).2 := by
  rw [multiRow_getD l t k hk]
  have he : (0 : ℝ) < realLits.e16 := by show (0 : ℝ) < 1 / 10 ^ 16; positivity
  simp only
  split_ifs with h
  · exact he
  · exact lt_of_lt_of_le he (not_lt.1 h)

theorem expSum_set (l : List ℝ) (k : Nat) (hk : k < l.length) :
    ∃ C : ℝ, ∀ x : ℝ, expSum (l.set k x) = C + Real.exp x := by
  induction l generalizing k with
  | nil => simp at hk
  | cons a l ih =>
    cases k with
    | zero => exact ⟨expSum l, fun x => by simp [expSum, add_comm]⟩
    | succ k =>
      obtain ⟨C, hC⟩ := ih k (by simpa using hk)
      refine ⟨Real.exp a + C, fun x => ?_⟩
      have := hC x
      simp only [expSum, List.set_cons_succ, List.map_cons, List.sum_cons] at this ⊢
      rw [this]; ring

theorem multiLoss_eq (l : List ℝ) (hl : l ≠ []) (t : Nat) : multiLoss realNum l t = Real.log (expSum l) - l.getD t 0 := by
  show -(l.getD t 0 - (Real.log ((l.map fun x => Real.exp (x - maxLogit l)).foldl (· + ·) 0) + maxLogit l)) = _
  rw [shifted_sum, Real.log_mul (expSum_pos l hl).ne' (Real.exp_pos _).ne', Real.log_exp]
  ring

theorem set_getD_self (l : List ℝ) (k : Nat) (hk : k < l.length) : l.set k (l.getD k 0) = l := by
  rw [List.getD_eq_getElem _ _ hk, List.set_getElem_self]

/-- C112: the loss is the negative logarithm of the probability of the true class -/
theorem multiLoss_neg_log (l : List ℝ) (t : Nat) (ht : t < l.length) :
    multiLoss realNum l t = -Real.log ((softmax realNum l).getD t 0) := by
  have hl : l ≠ [] := by rintro rfl; simp at ht
  rw [multiLoss_eq l hl, softmax_getD l hl t ht, Real.log_div (Real.exp_pos _).ne' (expSum_pos l hl).ne', Real.log_exp]
  ring

/-- C112: the number subtracted from the logits is the largest of them, so no exponent is positive (nothing overflows) and one is zero; for
every linear order -/
theorem maxLogit_max {α : Type _} [LinearOrder α] [Zero α] (l : List α) (hl : l ≠ []) : maxLogit l ∈ l ∧ ∀ x ∈ l, x ≤ maxLogit l := by
  cases l with
  | nil => exact absurd rfl hl
  | cons a l =>
    clear hl
    show l.foldl (fun m l => if m < l then l else m) a ∈ a :: l ∧ ∀ x ∈ a :: l, x ≤ l.foldl (fun m l => if m < l then l else m) a
    induction l generalizing a with
    | nil => simp
    | cons b l ih =>
      rw [List.foldl_cons]
      by_cases h : a < b
      · rw [if_pos h]
        obtain ⟨h1, h2⟩ := ih b
        refine ⟨List.mem_cons_of_mem _ h1, fun x hx => ?_⟩
        rcases List.mem_cons.1 hx with rfl | hx
        · exact h.le.trans (h2 b List.mem_cons_self)
        · exact h2 x hx
      · rw [if_neg h]
        obtain ⟨h1, h2⟩ := ih a
        refine ⟨?_, fun x hx => ?_⟩
        · rcases List.mem_cons.1 h1 with e | e
          · rw [e]; exact List.mem_cons_self
          · exact List.mem_cons_of_mem _ (List.mem_cons_of_mem _ e)
        · rcases List.mem_cons.1 hx with rfl | hx
          · exact h2 x List.mem_cons_self
          · rcases List.mem_cons.1 hx with rfl | hx
            · exact (not_lt.1 h).trans (h2 a List.mem_cons_self)
            · exact h2 x (List.mem_cons_of_mem _ hx)

/-- C112: the loss reported is the mean of minus the logarithm of the probability of the true class -/
theorem multiTotal_mean (rows : Nat → List ℝ) (y : Nat → Nat) (n : Nat) (h : ∀ i < n, y i < (rows i).length) :
    multiTotal realNum rows y n * n = ∑ i ∈ Finset.range n, -Real.log ((softmax realNum (rows i)).getD (y i) 0) := by
  have hs : (List.range n).foldl (fun s i => s + multiLoss realNum (rows i) (y i)) 0 =
      ∑ i ∈ Finset.range n, multiLoss realNum (rows i) (y i) := by
    clear h
    induction n with
    | zero => simp
    | succ n ih => rw [List.range_succ, List.foldl_append, ih, Finset.sum_range_succ]; rfl
  show (List.range n).foldl (fun s i => s + multiLoss realNum (rows i) (y i)) 0 / (n : ℝ) * n = _
  rw [hs, Finset.sum_congr rfl (fun i hi => multiLoss_neg_log (rows i) (y i) (h i (Finset.mem_range.1 hi)))]
  by_cases hn : n = 0
  · subst hn; simp
  · rw [div_mul_cancel₀]
    exact_mod_cast hn

/-- C112: each gradient is the derivative of the sample's loss in that logit -/
theorem multi_gradient (l : List ℝ) (t k : Nat) (hk : k < l.length) :
    HasDerivAt (fun x => multiLoss realNum (l.set k x) t) ((multiRow realNum realLits t l).getD k (0, 0)).1 (l.getD k 0) := by
  have hl : l ≠ [] := by rintro rfl; simp at hk
  obtain ⟨C, hC⟩ := expSum_set l k hk
  have hself := hC (l.getD k 0)
  rw [set_getD_self l k hk] at hself
  have hne : ∀ x : ℝ, l.set k x ≠ [] := fun x => by simpa using hl
  have hpos : C + Real.exp (l.getD k 0) ≠ 0 := by rw [← hself]; exact (expSum_pos l hl).ne'
  have hf : (fun x => multiLoss realNum (l.set k x) t) =
      fun x => Real.log (C + Real.exp x) - (if k = t then x else l.getD t 0) := by
    funext x
    rw [multiLoss_eq _ (hne x), hC x]
    congr 1
    by_cases h : k = t
    · subst h
      rw [if_pos rfl, List.getD_eq_getElem _ _ (by simpa using hk), List.getElem_set_self]
    · rw [if_neg h]
      simp [List.getD_eq_getElem?_getD, List.getElem?_set_ne h]
  rw [hf]
  have h1 : HasDerivAt (fun x => Real.log (C + Real.exp x)) (Real.exp (l.getD k 0) / (C + Real.exp (l.getD k 0))) (l.getD k 0) :=
    ((Real.hasDerivAt_exp _).const_add C).log hpos
  have h2 : HasDerivAt (fun x : ℝ => if k = t then x else l.getD t 0) (if k = t then 1 else 0) (l.getD k 0) := by
    by_cases h : k = t
    · simp only [h, if_true]; exact hasDerivAt_id _
    · simp only [h, if_false]; exact hasDerivAt_const _ _
  refine (h1.sub h2).congr_deriv ?_
  rw [multiRow_getD l t k hk]
  simp only
  rw [softmax_getD l hl k hk, hself]

section
variable {α : Type} [Add α] [Sub α] [Mul α] [Div α] [Neg α] [Zero α] [One α] [LT α] [LE α] [DecidableLT α] [DecidableLE α]

theorem batches_flat (n : Nat) : (batches n).flatMap (fun r => List.range' r.1 (r.2 - r.1)) = List.range n := by
  unfold batches
  rw [List.flatMap_map]
  have gen : ∀ m, m ≤ (n + 100 - 1) / 100 → (List.range m).flatMap
      (fun b => List.range' (b * 100) ((if n < b * 100 + 100 then n else b * 100 + 100) - b * 100)) =
      List.range (min n (m * 100)) := by
    intro m hm
    induction m with
    | zero => simp
    | succ m ih =>
      rw [List.range_succ, List.flatMap_append, ih (by omega), List.flatMap_singleton]
      have h1 : min n (m * 100) = m * 100 := by omega
      rw [h1, List.range_eq_range', List.range_eq_range']
      have h2 : (if n < m * 100 + 100 then n else m * 100 + 100) = min n ((m + 1) * 100) := by
        split_ifs <;> omega
      rw [h2]
      have := List.range'_append_1 (s := 0) (m := m * 100) (n := min n ((m + 1) * 100) - m * 100)
      rw [Nat.zero_add] at this
      rw [this]
      congr 1
      omega
  have := gen ((n + 100 - 1) / 100) (le_refl _)
  rw [show min n ((n + 100 - 1) / 100 * 100) = n by omega] at this
  exact this

theorem batches_pairwise (n : Nat) : (batches n).Pairwise (fun r s => r.2 ≤ s.1) := by
  unfold batches
  rw [List.pairwise_map]
  refine List.pairwise_lt_range.imp ?_
  intro a b hab
  simp only
  split_ifs <;> omega

end

section
variable {α : Type} [Add α] [Sub α] [Mul α] [Div α] [Neg α] [Zero α] [One α] [LT α] [LE α] [DecidableLT α] [DecidableLE α]

theorem writes_pairs (k : Nat) (p row : List (α × α)) (hl : row.length = k) :
    applyAll ((List.range k).map (fun j (row : List (α × α)) => row.set j (p.getD j (0, 0)))) row
      = (List.range k).map (fun j => p.getD j (0, 0)) := by
  have gen : ∀ n ≤ k, applyAll ((List.range n).map (fun j (row : List (α × α)) => row.set j (p.getD j (0, 0)))) row
      = (List.range n).map (fun j => p.getD j (0, 0)) ++ row.drop n := by
    intro n hn
    induction n with
    | zero => simp [applyAll]
    | succ n ih =>
      have h0 := ih (by omega)
      simp only [applyAll] at h0 ⊢
      rw [List.range_succ, List.map_append, List.foldl_append, h0]
      simp only [List.map_cons, List.map_nil, List.foldl_cons, List.foldl_nil, List.map_append]
      rw [List.set_append_right _ _ (by simp)]
      simp only [List.length_map, List.length_range, Nat.sub_self, List.append_assoc]
      congr 1
      rw [List.drop_eq_getElem_cons (by omega), List.set_cons_zero]
      rfl
  rw [gen k le_rfl, ← hl]
  simp

/-- C112 (law-free, every schedule): when all goroutines have finished, row `i` holds the gradients and Hessians computed
from sample `i` alone -/
theorem multi_schedule_independent (N : Num α) (L : Lits α) (rows : Nat → List α) (y : Nat → Nat) (n numClasses : Nat)
    (hc : ∀ i < n, (rows i).length = numClasses) (c : Config (List (α × α)))
    (hr : Reaches (multiBody N L rows y) (multiStart n numClasses) c) (hret : c.returned = true) :
    ∀ i < n, c.mem i = multiRow N L (y i) (rows i) := by
  intro i hi
  have h := inv_returned (inv_reaches hr (inv_ranges (multiBody N L rows y) n (batches n) (batches_flat n) (batches_pairwise n)
    (fun _ => List.replicate numClasses (0, 0)) 0)) hret
  rw [h, sequential_at, if_pos hi]
  unfold multiBody
  rw [writes_pairs _ _ _ (by simp [hc i hi])]
  apply List.ext_getElem
  · simp [multiRow]
  · intro k h1 h2
    rw [List.getElem_map, List.getElem_range, List.getD_eq_getElem _ _ h2]

/-- C112: until the call has returned some goroutine can move -/
theorem multi_no_deadlock (N : Num α) (L : Lits α) (rows : Nat → List α) (y : Nat → Nat) (n numClasses : Nat)
    (c : Config (List (α × α))) (hr : Reaches (multiBody N L rows y) (multiStart n numClasses) c) (hret : c.returned = false) :
    ∃ c', Step (multiBody N L rows y) c c' := by
  have hw := wg_eq hr (by simp [multiStart])
  obtain ⟨pend, ws, k, mem, ret⟩ := c
  simp only at hret hw
  subst hret hw
  match pend, ws with
  | r :: rest, ws => exact ⟨_, .spawn ..⟩
  | [], [] => exact ⟨_, .wait ..⟩
  | [], [] :: ws => exact ⟨_, .done [] [] ws ws.length mem⟩
  | [], (a :: p) :: ws => exact ⟨_, .work [] [] a p ws _ mem⟩

end

example : ((multiRow realNum realLits 1 [0, 2, 1]).map Prod.fst).sum = 0 := multi_gradient_sum_zero [0, 2, 1] 1 (by simp)

end Scigo.Boost
