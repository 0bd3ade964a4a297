import Verif.Boost.ObjectiveProps
import Mathlib.Algebra.BigOperators.Group.List.Lemmas
import Mathlib.Algebra.Order.BigOperators.Group.List
import Mathlib.Data.List.GetD
import Mathlib.Algebra.BigOperators.Ring.List

/-!
# Objective functions: initial scores (C56, C111)
-/

namespace Scigo.Boost

open Scigo.Online

/-- total loss of the constant prediction `c` -/
noncomputable def total (loss : ℝ → ℝ → ℝ) (l : List ℝ) (c : ℝ) : ℝ := (l.map fun t => loss c t).sum

/-! ## Helper lemmas -/

theorem total_le {loss : ℝ → ℝ → ℝ} {l : List ℝ} {m c : ℝ} (h : 0 ≤ (l.map fun t => loss c t - loss m t).sum) :
    total loss l m ≤ total loss l c := by
  have : (l.map fun t => loss c t - loss m t).sum = total loss l c - total loss l m := by
    clear h
    unfold total
    induction l with
    | nil => simp
    | cons a l ih => simp only [List.map_cons, List.sum_cons]; rw [ih]; ring
  linarith

theorem sum_lower {f g : ℝ → ℝ} (l : List ℝ) (h : ∀ t ∈ l, g t ≤ f t) (hg : 0 ≤ (l.map g).sum) : 0 ≤ (l.map f).sum :=
  hg.trans (List.sum_le_sum h)

theorem sum_ite (l : List ℝ) (P : ℝ → Prop) [DecidablePred P] (a b : ℝ) :
    (l.map fun t => if P t then a else b).sum = a * (l.countP fun t => decide (P t)) +
      b * ((l.length : ℝ) - (l.countP fun t => decide (P t))) := by
  induction l with
  | nil => simp
  | cons t l ih =>
    simp only [List.map_cons, List.sum_cons, ih, List.countP_cons, List.length_cons, decide_eq_true_eq]
    split_ifs <;> push_cast <;> ring

/-- the loss `a·d` above and `(a - 1)·d` below -/
theorem pin_min (l : List ℝ) (a m : ℝ) (ha : 0 ≤ a) (ha1 : a ≤ 1)
    (h1 : (1 - a) * l.length ≤ (l.countP fun t => decide (t ≤ m) : Nat))
    (h2 : a * l.length ≤ (l.countP fun t => decide (m ≤ t) : Nat)) (c : ℝ) :
    total (fun p t => if 0 < p - t then a * (p - t) else (a - 1) * (p - t)) l m ≤
      total (fun p t => if 0 < p - t then a * (p - t) else (a - 1) * (p - t)) l c := by
  apply total_le
  rcases le_total m c with hc | hc
  · refine sum_lower (g := fun t => (c - m) * (if t ≤ m then a else a - 1)) l ?_ ?_
    · intro t _
      split_ifs <;> nlinarith
    · rw [List.sum_map_mul_left, sum_ite]
      refine mul_nonneg (by linarith) ?_
      nlinarith
  · refine sum_lower (g := fun t => (m - c) * (if m ≤ t then 1 - a else -a)) l ?_ ?_
    · intro t _
      split_ifs <;> nlinarith
    · rw [List.sum_map_mul_left, sum_ite]
      refine mul_nonneg (by linarith) ?_
      nlinarith

/-- after `m` passes the first `m` positions are final -/
theorem exchangeLoop_prefix {κ : Type _} [LinearOrder κ] [Zero κ] (m : Nat) (l : List κ) :
    (exchangeLoop m l).Perm l ∧ ∀ i j : Nat, i < m → i < j → j < l.length →
      (exchangeLoop m l).getD i 0 ≤ (exchangeLoop m l).getD j 0 := by
  induction m generalizing l with
  | zero => exact ⟨List.Perm.refl _, fun i j h => absurd h (Nat.not_lt_zero _)⟩
  | succ m ih =>
    cases l with
    | nil => exact ⟨List.Perm.refl _, fun i j _ _ h => absurd h (Nat.not_lt_zero _)⟩
    | cons x xs =>
      obtain ⟨h1, h2⟩ := exchangePass_spec x xs
      have hl := h1.length_eq
      simp only [List.length_cons] at hl
      obtain ⟨i1, i2⟩ := ih (exchangePass x xs).2
      simp only [exchangeLoop]
      refine ⟨(i1.cons _).trans h1, ?_⟩
      intro i j hi hij hj
      obtain ⟨j, rfl⟩ : ∃ j', j = j' + 1 := ⟨j - 1, by omega⟩
      rw [List.length_cons] at hj
      cases i with
      | zero =>
        rw [List.getD_cons_zero, List.getD_cons_succ]
        have hlen : j < (exchangeLoop m (exchangePass x xs).2).length := by rw [i1.length_eq]; omega
        rw [List.getD_eq_getElem _ _ hlen]
        exact h2 _ (h1.subset (List.mem_cons_of_mem _ (i1.subset (List.getElem_mem hlen))))
      | succ i =>
        rw [List.getD_cons_succ, List.getD_cons_succ]
        exact i2 i j (by omega) (by omega) (by omega)

theorem countP_take {P : ℝ → Bool} (r : List ℝ) (k : Nat) (hk : k ≤ r.length) (h : ∀ i : Nat, i < k → P (r.getD i 0) = true) :
    k ≤ r.countP P := by
  have h1 : (r.take k).countP P ≤ r.countP P := (List.take_sublist k r).countP_le
  have h2 : (r.take k).countP P = (r.take k).length := by
    rw [List.countP_eq_length]
    intro a ha
    obtain ⟨i, hi, rfl⟩ := List.getElem_of_mem ha
    rw [List.length_take] at hi
    have := h i (by omega)
    rw [List.getD_eq_getElem _ _ (by omega)] at this
    simpa using this
  rw [List.length_take] at h2
  omega

theorem countP_drop {P : ℝ → Bool} (r : List ℝ) (k : Nat) (h : ∀ i : Nat, k ≤ i → i < r.length → P (r.getD i 0) = true) :
    r.length - k ≤ r.countP P := by
  have h1 : (r.drop k).countP P ≤ r.countP P := (List.drop_sublist k r).countP_le
  have h2 : (r.drop k).countP P = (r.drop k).length := by
    rw [List.countP_eq_length]
    intro a ha
    obtain ⟨i, hi, rfl⟩ := List.getElem_of_mem ha
    rw [List.length_drop] at hi
    have := h (k + i) (by omega) (by omega)
    rw [List.getD_eq_getElem _ _ (by omega)] at this
    simpa using this
  rw [List.length_drop] at h2
  omega

/-- the number between the two middle elements of a list sorted around its middle splits it in half -/
theorem middle_counts (l r : List ℝ) (hp : r.Perm l) (m : ℝ) (lo hi : Nat) (hlo : lo < l.length) (hhi : hi < l.length)
    (hge : lo ≤ hi) (hle : hi ≤ lo + 1) (hsum : lo + hi + 1 = l.length)
    (hs : ∀ i j : Nat, i ≤ hi → i < j → j < l.length → r.getD i 0 ≤ r.getD j 0)
    (hm1 : r.getD lo 0 ≤ m) (hm2 : m ≤ r.getD hi 0) :
    (1 - 1 / 2 : ℝ) * l.length ≤ (l.countP fun t => decide (t ≤ m) : Nat) ∧
      (1 / 2 : ℝ) * l.length ≤ (l.countP fun t => decide (m ≤ t) : Nat) := by
  rw [← hp.countP_eq, ← hp.countP_eq]
  have hlen := hp.length_eq
  have h1 : lo + 1 ≤ r.countP fun t => decide (t ≤ m) := by
    refine countP_take r (lo + 1) (by omega) ?_
    intro i hi'
    rw [decide_eq_true_iff]
    rcases Nat.lt_succ_iff_lt_or_eq.1 hi' with h | h
    · exact (hs i lo (by omega) h hlo).trans hm1
    · rw [h]; exact hm1
  have h2 : r.length - hi ≤ r.countP fun t => decide (m ≤ t) := by
    refine countP_drop r hi ?_
    intro i hi' hi2
    rw [decide_eq_true_iff]
    rcases Nat.eq_or_lt_of_le hi' with h | h
    · rw [← h]; exact hm2
    · exact hm2.trans (hs hi i (le_refl _) h (by omega))
  have c1 : ((lo + 1 : Nat) : ℝ) ≤ ((r.countP fun t => decide (t ≤ m) : Nat) : ℝ) := by exact_mod_cast h1
  have c2 : ((lo + 1 : Nat) : ℝ) ≤ ((r.countP fun t => decide (m ≤ t) : Nat) : ℝ) := by
    exact_mod_cast (by omega : lo + 1 ≤ r.countP fun t => decide (m ≤ t))
  have c3 : ((l.length : Nat) : ℝ) ≤ 2 * ((lo + 1 : Nat) : ℝ) := by exact_mod_cast (by omega : l.length ≤ 2 * (lo + 1))
  constructor <;> linarith

/-! ## C56 -/

theorem meanOf_eq (l : List ℝ) : meanOf realNum l = l.sum / l.length := by
  show l.foldl (· + ·) 0 / (l.length : ℝ) = _
  have := foldl_add_eq l (fun x => x) (0 : ℝ)
  rw [this]; simp

/-- C56, squared error: the mean is the best constant -/
theorem l2_init_optimal (l : List ℝ) (hl : l ≠ []) (c : ℝ) :
    total (l2 realNum).loss l ((l2 realNum).init l) ≤ total (l2 realNum).loss l c := by
  have hlen : l.length ≠ 0 := fun h => hl (List.length_eq_zero_iff.1 h)
  have hi : (l2 realNum).init l = l.sum / l.length := by
    show (if l.length = 0 then 0 else meanOf realNum l) = _
    rw [if_neg hlen, meanOf_eq]
  rw [hi]
  set m := l.sum / l.length with hm
  have hn : (0 : ℝ) < l.length := by exact_mod_cast Nat.pos_of_ne_zero hlen
  have hs : l.sum = m * l.length := by rw [hm]; field_simp
  apply total_le
  refine sum_lower (g := fun t => (c - m) * (m - t)) l ?_ ?_
  · intro t _
    show (c - m) * (m - t) ≤ 1 / 2 * (c - t) * (c - t) - 1 / 2 * (m - t) * (m - t)
    nlinarith [sq_nonneg (c - m)]
  · rw [List.sum_map_mul_left]
    have : (l.map fun t => m - t).sum = m * l.length - l.sum := by
      clear_value m
      clear hs hm hi hn hlen hl
      induction l with
      | nil => simp
      | cons a l ih => simp only [List.map_cons, List.sum_cons, List.length_cons, ih]; push_cast; ring
    rw [this, hs]; simp

/-- the median splits the targets in half -/
theorem median_counts (l : List ℝ) (hl : l ≠ []) :
    (1 - 1 / 2 : ℝ) * l.length ≤ (l.countP fun t => decide (t ≤ calculateMedian realNum l) : Nat) ∧
      (1 / 2 : ℝ) * l.length ≤ (l.countP fun t => decide (calculateMedian realNum l ≤ t) : Nat) := by
  have hlen : l.length ≠ 0 := fun h => hl (List.length_eq_zero_iff.1 h)
  obtain ⟨hp, hs⟩ := exchangeLoop_prefix (min (l.length / 2 + 1) (l.length - 1)) l
  have hs' : ∀ i j : Nat, i ≤ l.length / 2 → i < j → j < l.length →
      (medianSort l).getD i 0 ≤ (medianSort l).getD j 0 := fun i j a b c => hs i j (by omega) b c
  unfold calculateMedian
  rw [if_neg hlen]
  by_cases hodd : l.length % 2 = 1
  · rw [if_pos hodd]
    exact middle_counts l (medianSort l) hp _ (l.length / 2) (l.length / 2) (by omega) (by omega) (by omega) (by omega) (by omega) hs'
      le_rfl le_rfl
  · rw [if_neg hodd]
    have hle := hs' (l.length / 2 - 1) (l.length / 2) (by omega) (by omega) (by omega)
    refine middle_counts l (medianSort l) hp _ (l.length / 2 - 1) (l.length / 2) (by omega) (by omega)
      (by omega) (by omega) (by omega)
      hs' ?_ ?_
    · show _ ≤ _ / (2 : ℝ)
      linarith
    · show _ / (2 : ℝ) ≤ _
      linarith

/-- positions that are final after some passes hold what the sorted list holds there -/
theorem prefix_sorted {κ : Type _} [LinearOrder κ] [Zero κ] (r s : List κ) (m : Nat) (hm : m ≤ r.length)
    (hs : ∀ i j : Nat, i < m → i < j → j < r.length → r.getD i 0 ≤ r.getD j 0)
    (hp : s.Perm r) (ho : s.Pairwise (· ≤ ·)) (i : Nat) (hi : i < m) : r.getD i 0 = s.getD i 0 := by
  have e : s = r.take m ++ (r.drop m).mergeSort (· ≤ ·) := by
    refine List.Perm.eq_of_pairwise (le := (· ≤ ·)) (fun a b _ _ h1 h2 => le_antisymm h1 h2) ho ?_ ?_
    · rw [List.pairwise_append]
      refine ⟨?_, ?_, ?_⟩
      · rw [List.pairwise_iff_getElem]
        intro a b ha hb hab
        rw [List.length_take] at ha hb
        have := hs a b (by omega) hab (by omega)
        rw [List.getD_eq_getElem _ _ (by omega), List.getD_eq_getElem _ _ (by omega)] at this
        simpa using this
      · have := List.pairwise_mergeSort (le := fun a b : κ => decide (a ≤ b))
          (fun a b c h1 h2 => by simp only [decide_eq_true_eq] at *; exact le_trans h1 h2)
          (fun a b => by simp only [Bool.or_eq_true, decide_eq_true_eq]; exact le_total a b) (r.drop m)
        exact this.imp fun h => by simpa using h
      · intro a ha b hb
        obtain ⟨x, hx, rfl⟩ := List.getElem_of_mem ha
        obtain ⟨y, hy, rfl⟩ := List.getElem_of_mem ((List.mergeSort_perm _ _).subset hb)
        rw [List.length_take] at hx
        rw [List.length_drop] at hy
        have := hs x (m + y) (by omega) (by omega) (by omega)
        rw [List.getD_eq_getElem _ _ (by omega), List.getD_eq_getElem _ _ (by omega)] at this
        simpa using this
    · have h2 : (r.take m ++ r.drop m).Perm (r.take m ++ (r.drop m).mergeSort (· ≤ ·)) :=
        (List.mergeSort_perm _ _).symm.append_left _
      rw [List.take_append_drop] at h2
      exact hp.trans h2
  rw [e, List.getD_append _ _ _ _ (by rw [List.length_take]; omega), List.getD_eq_getElem _ _ (by omega),
    List.getD_eq_getElem _ _ (by rw [List.length_take]; omega)]
  simp

/-- C56: the starting score of the absolute error is the median: the mean of the two middle targets of the sorted
targets, which for an odd number of targets are the same one -/
theorem l1_init_median (l s : List ℝ) (hl : l ≠ []) (hp : s.Perm l) (ho : s.Pairwise (· ≤ ·)) :
    (l1 realNum realLits).init l = (s.getD ((l.length - 1) / 2) 0 + s.getD (l.length / 2) 0) / 2 := by
  have hlen : l.length ≠ 0 := fun h => hl (List.length_eq_zero_iff.1 h)
  obtain ⟨hq, hs⟩ := exchangeLoop_prefix (min (l.length / 2 + 1) (l.length - 1)) l
  have hr : (medianSort l).length = l.length := hq.length_eq
  have key : ∀ i, i ≤ l.length / 2 → (medianSort l).getD i 0 = s.getD i 0 := fun i hi =>
    prefix_sorted (medianSort l) s (l.length / 2 + 1) (by omega) (fun i j a b c => hs i j (by omega) b (by omega))
      (hp.trans hq.symm) ho i (by omega)
  show (if l.length = 0 then 0 else calculateMedian realNum l) = _
  rw [if_neg hlen]
  unfold calculateMedian
  rw [if_neg hlen]
  by_cases hodd : l.length % 2 = 1
  · rw [if_pos hodd, key _ le_rfl, show (l.length - 1) / 2 = l.length / 2 by omega]
    ring
  · rw [if_neg hodd, key _ le_rfl, key _ (by omega), show (l.length - 1) / 2 = l.length / 2 - 1 by omega]
    rfl

/-- C56, absolute error: the median is a best constant -/
theorem l1_init_optimal (l : List ℝ) (hl : l ≠ []) (c : ℝ) :
    total (l1 realNum realLits).loss l ((l1 realNum realLits).init l) ≤ total (l1 realNum realLits).loss l c := by
  have hlen : l.length ≠ 0 := fun h => hl (List.length_eq_zero_iff.1 h)
  have hi : (l1 realNum realLits).init l = calculateMedian realNum l := by
    show (if l.length = 0 then 0 else calculateMedian realNum l) = _
    rw [if_neg hlen]
  rw [hi]
  obtain ⟨h1, h2⟩ := median_counts l hl
  have := pin_min l (1 / 2) _ (by norm_num) (by norm_num) h1 h2 c
  have e : ∀ m : ℝ, total (fun p t => if 0 < p - t then 1 / 2 * (p - t) else (1 / 2 - 1) * (p - t)) l m =
      1 / 2 * total (l1 realNum realLits).loss l m := by
    intro m
    unfold total
    rw [← List.sum_map_mul_left]
    congr 1
    apply List.map_congr_left
    intro t _
    show (if 0 < m - t then 1 / 2 * (m - t) else (1 / 2 - 1) * (m - t)) = 1 / 2 * |m - t|
    split_ifs with h
    · rw [abs_of_pos h]
    · rw [abs_of_nonpos (not_lt.1 h)]; ring
  rw [e, e] at this
  linarith

/-- C56 is false for quantiles other than one half: the loss charges the wrong side, so its minimiser is the quantile of the
complementary level -/
theorem quantile_init_not_optimal :
    ∃ (l : List ℝ) (c : ℝ), total (quantile realNum Nat.floor Nat.ceil (9 / 10)).loss l c <
      total (quantile realNum Nat.floor Nat.ceil (9 / 10)).loss l ((quantile realNum Nat.floor Nat.ceil (9 / 10)).init l) := by
  refine ⟨[0, 1], 0, ?_⟩
  have hi : (quantile realNum Nat.floor Nat.ceil (9 / 10)).init [0, 1] = 9 / 10 := by
    show (if ([0, 1] : List ℝ).length = 0 then 0 else calculateQuantile realNum Nat.floor Nat.ceil [0, 1] (9 / 10)) = _
    rw [if_neg (by simp)]
    have hf : Nat.floor ((9 / 10 : ℝ) * ((1 : Nat) : ℝ)) = 0 := by rw [Nat.floor_eq_iff (by norm_num)]; norm_num
    have hc : Nat.ceil ((9 / 10 : ℝ) * ((1 : Nat) : ℝ)) = 1 := by rw [Nat.ceil_eq_iff (by norm_num)]; norm_num
    have hs : exchangeLoop 1 ([0, 1] : List ℝ) = [0, 1] := by
      norm_num [exchangeLoop, exchangePass]
    unfold calculateQuantile
    simp only [List.length_cons, List.length_nil]
    show (if Nat.floor ((9 / 10 : ℝ) * ((1 : Nat) : ℝ)) = Nat.ceil ((9 / 10 : ℝ) * ((1 : Nat) : ℝ)) then _ else
      (exchangeLoop 1 ([0, 1] : List ℝ)).getD (Nat.floor ((9 / 10 : ℝ) * ((1 : Nat) : ℝ))) 0 *
        (1 - ((9 / 10 : ℝ) * ((1 : Nat) : ℝ) - (Nat.floor ((9 / 10 : ℝ) * ((1 : Nat) : ℝ)) : ℝ))) +
      (exchangeLoop 1 ([0, 1] : List ℝ)).getD (Nat.ceil ((9 / 10 : ℝ) * ((1 : Nat) : ℝ))) 0 *
        ((9 / 10 : ℝ) * ((1 : Nat) : ℝ) - (Nat.floor ((9 / 10 : ℝ) * ((1 : Nat) : ℝ)) : ℝ))) = 9 / 10
    rw [hf, hc, hs]
    norm_num
  rw [hi]
  show (([0, 1] : List ℝ).map fun t => if 0 < 0 - t then 9 / 10 * (0 - t) else (9 / 10 - 1) * (0 - t)).sum <
    (([0, 1] : List ℝ).map fun t => if 0 < 9 / 10 - t then 9 / 10 * (9 / 10 - t) else (9 / 10 - 1) * (9 / 10 - t)).sum
  norm_num

/-- C56 (partial): at level one half the quantile objective starts at a best constant. Missing: every other level
(`quantile_init_not_optimal`). -/
theorem quantile_init_partial (l : List ℝ) (hl : l ≠ []) (c : ℝ) :
    total (quantile realNum Nat.floor Nat.ceil (1 / 2)).loss l ((quantile realNum Nat.floor Nat.ceil (1 / 2)).init l) ≤
      total (quantile realNum Nat.floor Nat.ceil (1 / 2)).loss l c := by
  have hlen : l.length ≠ 0 := fun h => hl (List.length_eq_zero_iff.1 h)
  obtain ⟨hp, hs⟩ := exchangeLoop_prefix (l.length - 1) l
  have key : ∃ lo hi : Nat, lo < l.length ∧ hi < l.length ∧ lo ≤ hi ∧ hi ≤ lo + 1 ∧ lo + hi + 1 = l.length ∧
      (exchangeLoop (l.length - 1) l).getD lo 0 ≤ (quantile realNum Nat.floor Nat.ceil (1 / 2)).init l ∧
      (quantile realNum Nat.floor Nat.ceil (1 / 2)).init l ≤ (exchangeLoop (l.length - 1) l).getD hi 0 := by
    have hi : (quantile realNum Nat.floor Nat.ceil (1 / 2)).init l = 
        if Nat.floor ((1 / 2 : ℝ) * ((l.length - 1 : Nat) : ℝ)) = Nat.ceil ((1 / 2 : ℝ) * ((l.length - 1 : Nat) : ℝ)) then
          (exchangeLoop (l.length - 1) l).getD (Nat.floor ((1 / 2 : ℝ) * ((l.length - 1 : Nat) : ℝ))) 0
        else (exchangeLoop (l.length - 1) l).getD (Nat.floor ((1 / 2 : ℝ) * ((l.length - 1 : Nat) : ℝ))) 0 *
            (1 - ((1 / 2 : ℝ) * ((l.length - 1 : Nat) : ℝ) - (Nat.floor ((1 / 2 : ℝ) * ((l.length - 1 : Nat) : ℝ)) : ℝ))) +
          (exchangeLoop (l.length - 1) l).getD (Nat.ceil ((1 / 2 : ℝ) * ((l.length - 1 : Nat) : ℝ))) 0 *
            ((1 / 2 : ℝ) * ((l.length - 1 : Nat) : ℝ) - (Nat.floor ((1 / 2 : ℝ) * ((l.length - 1 : Nat) : ℝ)) : ℝ)) := by
      show (if l.length = 0 then 0 else calculateQuantile realNum Nat.floor Nat.ceil l (1 / 2)) = _
      rw [if_neg hlen]
      unfold calculateQuantile
      rw [if_neg hlen]
      rfl
    rcases Nat.even_or_odd' (l.length - 1) with ⟨k, hk | hk⟩
    · have e : (1 / 2 : ℝ) * ((l.length - 1 : Nat) : ℝ) = (k : ℝ) := by rw [hk]; push_cast; ring
      rw [e, Nat.floor_natCast, Nat.ceil_natCast, if_pos rfl] at hi
      exact ⟨k, k, by omega, by omega, by omega, by omega, by omega, hi.ge, hi.le⟩
    · have e : (1 / 2 : ℝ) * ((l.length - 1 : Nat) : ℝ) = (k : ℝ) + 1 / 2 := by rw [hk]; push_cast; ring
      have hf : Nat.floor ((k : ℝ) + 1 / 2) = k := by
        rw [Nat.floor_eq_iff (by positivity)]; constructor <;> linarith
      have hc : Nat.ceil ((k : ℝ) + 1 / 2) = k + 1 := by
        rw [Nat.ceil_eq_iff (by omega)]; push_cast; constructor <;> simp <;> linarith
      rw [e, hf, hc, if_neg (by omega)] at hi
      have hle := hs k (k + 1) (by omega) (by omega) (by omega)
      refine ⟨k, k + 1, by omega, by omega, by omega, by omega, by omega, ?_, ?_⟩ <;> rw [hi] <;> linarith
  obtain ⟨lo, hi, k1, k2, k0, k3, k4, k5, k6⟩ := key
  obtain ⟨h1, h2⟩ := middle_counts l _ hp _ lo hi k1 k2 k0 k3 k4 (fun i j a b c => hs i j (by omega) b c) k5 k6
  exact pin_min l (1 / 2) _ (by norm_num) (by norm_num) h1 h2 c

example : total (l1 realNum realLits).loss [3, 1, 2] 2 ≤ total (l1 realNum realLits).loss [3, 1, 2] 5 := by
  have := l1_init_optimal [3, 1, 2] (by simp) 5
  have e : (l1 realNum realLits).init [3, 1, 2] = 2 := by
    show (if ([3, 1, 2] : List ℝ).length = 0 then 0 else calculateMedian realNum [3, 1, 2]) = 2
    have hs : exchangeLoop 2 ([3, 1, 2] : List ℝ) = [1, 2, 3] := by
      norm_num [exchangeLoop, exchangePass]
    have : medianSort ([3, 1, 2] : List ℝ) = [1, 2, 3] := hs
    simp [calculateMedian, this]
  rwa [e] at this

/-! ## C111: logarithmic links -/

theorem sum_affine (l : List ℝ) (a b : ℝ) : (l.map fun t => a - t * b).sum = a * l.length - l.sum * b := by
  induction l with
  | nil => simp
  | cons x l ih => simp only [List.map_cons, List.sum_cons, List.length_cons, ih]; push_cast; ring

/-- C111, Poisson: the logarithm of the mean is the best constant below the clamp -/
theorem poisson_init_optimal_partial (l : List ℝ) (hpos : 0 < l.sum) (hmax : Real.log (l.sum / l.length) ≤ 700) (c : ℝ) (hc : c ≤ 700) :
    total (poisson realNum realLits).loss l ((poisson realNum realLits).init l) ≤ total (poisson realNum realLits).loss l c := by
  have hlen : l.length ≠ 0 := by
    intro h; rw [List.length_eq_zero_iff.1 h] at hpos; simp at hpos
  have hn : (0 : ℝ) < l.length := by exact_mod_cast Nat.pos_of_ne_zero hlen
  have hi : (poisson realNum realLits).init l = Real.log (l.sum / l.length) := by
    show (if l.length = 0 then 0 else if meanOf realNum l ≤ 0 then -(10 : ℝ) else Real.log (meanOf realNum l)) = _
    rw [if_neg hlen, meanOf_eq, if_neg (not_le.2 (by positivity))]
  rw [hi]
  set m := Real.log (l.sum / l.length) with hm
  have hem : Real.exp m = l.sum / l.length := by rw [hm, Real.exp_log (by positivity)]
  have hloss : ∀ x : ℝ, x ≤ 700 → total (poisson realNum realLits).loss l x = Real.exp x * l.length - l.sum * x := by
    intro x hx
    rw [← sum_affine]
    unfold total
    congr 1
    apply List.map_congr_left
    intro t _
    show Real.exp (minA x realLits.big) - t * x = _
    rw [minA_id hx]
  rw [hloss m hmax, hloss c hc]
  have h1 : Real.exp c = Real.exp m * Real.exp (c - m) := by rw [← Real.exp_add]; congr 1; ring
  have h2 : c - m + 1 ≤ Real.exp (c - m) := Real.add_one_le_exp _
  have h3 : Real.exp m * l.length = l.sum := by rw [hem]; field_simp
  have h4 : l.sum * (c - m + 1) ≤ l.sum * Real.exp (c - m) := mul_le_mul_of_nonneg_left h2 hpos.le
  rw [h1]
  have h5 : Real.exp m * Real.exp (c - m) * l.length = l.sum * Real.exp (c - m) := by rw [← h3]; ring
  rw [h5, h3]
  linarith

/-- C111, Gamma: the logarithm of the mean of the positive targets is the best constant inside the clamp -/
theorem gamma_init_optimal_partial (l : List ℝ) (hpos : ∃ t ∈ l, 0 < t)
    (hm1 : -700 ≤ (gamma realNum realLits).init l) (hm2 : (gamma realNum realLits).init l ≤ 700)
    (c : ℝ) (hc1 : -700 ≤ c) (hc2 : c ≤ 700) :
    total (gamma realNum realLits).loss l ((gamma realNum realLits).init l) ≤ total (gamma realNum realLits).loss l c := by
  set P := l.filter fun t => decide (0 < t) with hP
  obtain ⟨t0, ht0, ht0'⟩ := hpos
  have hmem : t0 ∈ P := by rw [hP, List.mem_filter]; exact ⟨ht0, by simpa using ht0'⟩
  have hPlen : P.length ≠ 0 := fun h => by rw [List.length_eq_zero_iff.1 h] at hmem; simp at hmem
  have hlen : l.length ≠ 0 := fun h => by rw [List.length_eq_zero_iff.1 h] at ht0; simp at ht0
  have hn : (0 : ℝ) < P.length := by exact_mod_cast Nat.pos_of_ne_zero hPlen
  have hall : ∀ t ∈ P, 0 < t := fun t ht => by rw [hP, List.mem_filter] at ht; simpa using ht.2
  have hsum : 0 < P.sum := List.sum_pos _ hall (fun h => by rw [h] at hmem; simp at hmem)
  have hi : (gamma realNum realLits).init l = Real.log (P.sum / P.length) := by
    show logMeanPos realNum l = _
    unfold logMeanPos
    rw [if_neg hlen, if_neg hPlen, meanOf_eq]
    rfl
  rw [hi] at hm1 hm2 ⊢
  set m := Real.log (P.sum / P.length) with hm
  have hem : Real.exp m = P.sum / P.length := by rw [hm, Real.exp_log (by positivity)]
  have hloss : ∀ x : ℝ, -700 ≤ x → x ≤ 700 → total (gamma realNum realLits).loss l x =
      2 * (x * P.length + P.sum * Real.exp (-x)) + (P.map fun t => -2 * (Real.log t + 1)).sum := by
    intro x h1 h2
    unfold total
    have e1 : (l.map fun t => (gamma realNum realLits).loss x t).sum = (P.map fun t => (gamma realNum realLits).loss x t).sum := by
      rw [hP]
      clear * -
      induction l with
      | nil => rfl
      | cons a l ih =>
        by_cases ha : 0 < a
        · rw [List.filter_cons_of_pos (by simpa using ha)]
          simp only [List.map_cons, List.sum_cons, ih]
        · rw [List.filter_cons_of_neg (by simpa using ha)]
          simp only [List.map_cons, List.sum_cons, ih]
          have : (gamma realNum realLits).loss x a = 0 := by
            show (if a ≤ 0 then (0 : ℝ) else _) = 0
            rw [if_pos (not_lt.1 ha)]
          rw [this, zero_add]
    rw [e1]
    have e2 : ∀ t ∈ P, (gamma realNum realLits).loss x t = 2 * (x + t * Real.exp (-x)) + -2 * (Real.log t + 1) := by
      intro t ht
      have hpt := hall t ht
      show (if t ≤ 0 then 0 else 2 * (Real.log (Real.exp (clampA realLits x) / t) + t / Real.exp (clampA realLits x) - 1)) = _
      rw [clampA_id h1 h2, if_neg (not_le.2 hpt), Real.log_div (Real.exp_pos x).ne' hpt.ne', Real.log_exp, Real.exp_neg,
        div_eq_mul_inv]
      ring
    rw [List.map_congr_left e2]
    clear * -
    generalize P = P
    induction P with
    | nil => simp
    | cons a P ih => simp only [List.map_cons, List.sum_cons, List.length_cons, ih]; push_cast; ring
  rw [hloss m hm1 hm2, hloss c hc1 hc2]
  have h1 : Real.exp (-c) = Real.exp (-m) * Real.exp (m - c) := by rw [← Real.exp_add]; congr 1; ring
  have h2 : m - c + 1 ≤ Real.exp (m - c) := Real.add_one_le_exp _
  have h3 : P.sum * Real.exp (-m) = P.length := by rw [Real.exp_neg, hem]; field_simp
  have h4 : (P.length : ℝ) * (m - c + 1) ≤ P.length * Real.exp (m - c) := mul_le_mul_of_nonneg_left h2 hn.le
  have h5 : P.sum * Real.exp (-c) = P.length * Real.exp (m - c) := by rw [h1, ← mul_assoc, h3]
  rw [h5, h3]
  linarith

/-- C111, binary: the log-odds of the mean are the best constant for the cross entropy -/
theorem binary_init_optimal_partial (l : List ℝ) (h1 : 1 / 10 ^ 15 ≤ l.sum / l.length) (h2 : l.sum / l.length ≤ 1 - 1 / 10 ^ 15) (c : ℝ) :
    total crossEntropy l ((binary realNum realLits).init l) ≤ total crossEntropy l c := by
  have he : (0 : ℝ) < 1 / 10 ^ 15 := by positivity
  have hlen : l.length ≠ 0 := by
    intro h; rw [h] at h1; simp at h1; linarith
  have hn : (0 : ℝ) < l.length := by exact_mod_cast Nat.pos_of_ne_zero hlen
  set q := l.sum / l.length with hq
  have hi : (binary realNum realLits).init l = Real.log (q / (1 - q)) := by
    show (if l.length = 0 then 0 else Real.log (maxA (1 / 10 ^ 15) (minA (1 - 1 / 10 ^ 15) (meanOf realNum l)) /
      (1 - maxA (1 / 10 ^ 15) (minA (1 - 1 / 10 ^ 15) (meanOf realNum l))))) = _
    rw [if_neg hlen, meanOf_eq, ← hq]
    have a1 : minA (1 - 1 / 10 ^ 15) q = q := by
      unfold minA; split_ifs with h
      · rfl
      · exact le_antisymm (not_lt.1 h) h2
    have a2 : maxA (1 / 10 ^ 15) q = q := by
      unfold maxA; split_ifs with h
      · rfl
      · exact le_antisymm h1 (not_lt.1 h)
    rw [a1, a2]
  rw [hi]
  have q0 : 0 < q := lt_of_lt_of_le he h1
  have q1 : 0 < 1 - q := by linarith
  have hs : l.sum = q * l.length := by rw [hq]; field_simp
  have htot : ∀ x : ℝ, total crossEntropy l x = l.length * (Real.log (1 + Real.exp x) - q * x) := by
    intro x
    have : total crossEntropy l x = (l.map fun t => Real.log (1 + Real.exp x) - t * x).sum := by
      unfold total; congr 1; apply List.map_congr_left; intro t _; exact crossEntropy_eq x t
    rw [this, sum_affine, hs]; ring
  rw [htot, htot]
  refine mul_le_mul_of_nonneg_left ?_ hn.le
  -- Gibbs' inequality
  have hec := Real.exp_pos c
  have e1 : 1 + Real.exp (Real.log (q / (1 - q))) = 1 / (1 - q) := by
    rw [Real.exp_log (by positivity)]; field_simp; ring
  rw [e1, one_div, Real.log_inv, Real.log_div q0.ne' q1.ne']
  have g1 : Real.log (Real.exp c / (1 + Real.exp c) / q) ≤ Real.exp c / (1 + Real.exp c) / q - 1 :=
    Real.log_le_sub_one_of_pos (by positivity)
  have g2 : Real.log (1 / (1 + Real.exp c) / (1 - q)) ≤ 1 / (1 + Real.exp c) / (1 - q) - 1 :=
    Real.log_le_sub_one_of_pos (by positivity)
  rw [Real.log_div (by positivity) q0.ne', Real.log_div hec.ne' (by positivity), Real.log_exp] at g1
  rw [Real.log_div (by positivity) q1.ne', one_div, Real.log_inv] at g2
  have k1 := mul_le_mul_of_nonneg_left g1 q0.le
  have k2 := mul_le_mul_of_nonneg_left g2 q1.le
  have k3 : q * (Real.exp c / (1 + Real.exp c) / q - 1) + (1 - q) * ((1 + Real.exp c)⁻¹ / (1 - q) - 1) = 0 := by
    field_simp; ring
  nlinarith

/-- C111 is false for Tweedie: zero targets are left out of the mean although they enter the loss -/
theorem tweedie_init_not_optimal :
    ∃ (l : List ℝ) (c : ℝ), (∀ t ∈ l, 0 ≤ t) ∧ total (tweedie realNum realLits (3 / 2)).loss l c <
      total (tweedie realNum realLits (3 / 2)).loss l ((tweedie realNum realLits (3 / 2)).init l) := by
  refine ⟨[0, 1], 2 * Real.log (3 / 4), by simp, ?_⟩
  have hi : (tweedie realNum realLits (3 / 2)).init [0, 1] = 0 := by
    show logMeanPos realNum ([0, 1] : List ℝ) = 0
    have hf : (([0, 1] : List ℝ).filter fun t => decide (0 < t)) = [1] := by simp
    unfold logMeanPos
    rw [hf, meanOf_eq]
    simp [realNum]
  rw [hi]
  have hval : ∀ x y : ℝ, -700 ≤ x → x ≤ 700 → Real.exp (x / 2) = y → total (tweedie realNum realLits (3 / 2)).loss [0, 1] x =
      8 * y + 4 * y⁻¹ - 8 := by
    intro x y h1 h2 hy
    have hp1 : Real.exp x ^ (2 - 3 / 2 : ℝ) = y := by rw [← Real.exp_mul, ← hy]; congr 1; ring
    have hp2 : Real.exp x ^ (1 - 3 / 2 : ℝ) = y⁻¹ := by rw [← Real.exp_mul, ← hy, ← Real.exp_neg]; congr 1; ring
    show (([0, 1] : List ℝ).map fun t => if t == 0 then 2 * Real.exp (clampA realLits x) ^ (2 - 3 / 2 : ℝ) / (2 - 3 / 2)
      else 2 * (t ^ (2 - 3 / 2 : ℝ) / ((1 - 3 / 2) * (2 - 3 / 2)) - t * Real.exp (clampA realLits x) ^ (1 - 3 / 2 : ℝ) / (1 - 3 / 2) +
        Real.exp (clampA realLits x) ^ (2 - 3 / 2 : ℝ) / (2 - 3 / 2))).sum = _
    rw [clampA_id h1 h2, hp1, hp2]
    simp only [List.map_cons, List.map_nil, List.sum_cons, List.sum_nil, beq_self_eq_true, if_true, Real.one_rpow]
    rw [if_neg (by simp)]
    ring
  have hlog : Real.exp (2 * Real.log (3 / 4) / 2) = 3 / 4 := by
    rw [show 2 * Real.log (3 / 4) / 2 = Real.log (3 / 4) by ring, Real.exp_log (by norm_num)]
  have hb1 : -1 / 3 ≤ Real.log (3 / 4) := by
    have := Real.one_sub_inv_le_log_of_pos (show (0 : ℝ) < 3 / 4 by norm_num)
    norm_num at this ⊢; linarith
  have hb2 : Real.log (3 / 4) ≤ 0 := Real.log_nonpos (by norm_num) (by norm_num)
  rw [hval _ _ (by linarith) (by linarith) hlog, hval 0 1 (by norm_num) (by norm_num) (by simp)]
  norm_num

/-- C111 is false for Huber: the mean is not the best constant -/
theorem huber_init_not_optimal :
    ∃ (l : List ℝ) (c : ℝ), total (huber realNum realLits 1).loss l c <
      total (huber realNum realLits 1).loss l ((huber realNum realLits 1).init l) := by
  refine ⟨[0, 0, 9], 0, ?_⟩
  have hi : (huber realNum realLits 1).init [0, 0, 9] = 3 := by
    show (if ([0, 0, 9] : List ℝ).length = 0 then 0 else meanOf realNum [0, 0, 9]) = 3
    rw [if_neg (by simp), meanOf_eq]; norm_num
  rw [hi]
  show (([0, 0, 9] : List ℝ).map fun t => if |0 - t| ≤ 1 then 1 / 2 * (0 - t) * (0 - t) else 1 * (|0 - t| - 1 / 2 * 1)).sum <
    (([0, 0, 9] : List ℝ).map fun t => if |3 - t| ≤ 1 then 1 / 2 * (3 - t) * (3 - t) else 1 * (|3 - t| - 1 / 2 * 1)).sum
  norm_num [abs_of_pos, abs_of_neg]

end Scigo.Boost
