import Verif.Round.R2Props
import Verif.Round.CentreProps
import Verif.Round.TreeProps
import Verif.Boost.InitProps
import Verif.NonFinite.BoostProps

/-!
# C316: the starting score of boosting in float64

Training starts from a constant computed from the targets. With every operation rounded, the median lies between the two middle targets, so it stays in the range
of the targets; the mean and the interpolated quantile can leave it, by a few roundings.
-/

set_option linter.unusedSectionVars false

namespace Scigo.Round

open Scigo.Boost Binary64

variable {K : Type} [Field K] [LinearOrder K] [IsStrictOrderedRing K] {R : Rounding K} {eps eta : K}

/-- **C316** for the absolute error: the starting score is a number between the two middle targets (which are the same one when their number is odd) -/
theorem l1_start_between (hd : DoubleExact R) (N : Online.Num (Fl R)) (hN : N.two = ((2 : Nat) : Fl R)) (L : Lits (Fl R)) (l s : List (Fl R)) (hl : l ≠ [])
    (hp : s.Perm l) (ho : s.Pairwise (· ≤ ·)) :
    s.getD ((l.length - 1) / 2) 0 ≤ (l1 N L).init l ∧ (l1 N L).init l ≤ s.getD (l.length / 2) 0 := by
  have hlen : l.length ≠ 0 := fun h => hl (List.length_eq_zero_iff.1 h)
  obtain ⟨hq, hs⟩ := exchangeLoop_prefix (min (l.length / 2 + 1) (l.length - 1)) l
  have hr : (medianSort l).length = l.length := hq.length_eq
  have key : ∀ i, i ≤ l.length / 2 → (medianSort l).getD i 0 = s.getD i 0 := fun i hi =>
    prefix_sorted (medianSort l) s (l.length / 2 + 1) (by omega) (fun i j a b c => hs i j (by omega) b (by omega))
      (hp.trans hq.symm) ho i (by omega)
  show _ ≤ (if l.length = 0 then 0 else calculateMedian N l) ∧ (if l.length = 0 then 0 else calculateMedian N l) ≤ _
  rw [if_neg hlen]
  unfold calculateMedian
  rw [if_neg hlen]
  by_cases hodd : l.length % 2 = 1
  · rw [if_pos hodd, key _ le_rfl, show (l.length - 1) / 2 = l.length / 2 by omega]
    exact ⟨le_rfl, le_rfl⟩
  · rw [if_neg hodd, key _ le_rfl, key _ (by omega), show (l.length - 1) / 2 = l.length / 2 - 1 by omega, hN]
    have hle : s.getD (l.length / 2 - 1) 0 ≤ s.getD (l.length / 2) 0 := by
      rw [← key _ le_rfl, ← key _ (by omega)]
      exact hs _ _ (by omega) (by omega) (by omega)
    have hle' : (s.getD (l.length / 2 - 1) 0).val ≤ (s.getD (l.length / 2) 0).val := hle
    exact ⟨le_midpoint hd _ _ _ (by linarith), midpoint_le hd _ _ _ (by linarith)⟩

/-- **C316** for the absolute error: the starting score is in the range of the targets; for equal targets it is the target -/
theorem l1_start_in_range (hd : DoubleExact R) (N : Online.Num (Fl R)) (hN : N.two = ((2 : Nat) : Fl R)) (L : Lits (Fl R)) (l : List (Fl R)) (hl : l ≠ [])
    (lo hi : Fl R) (hlo : ∀ t ∈ l, lo ≤ t) (hhi : ∀ t ∈ l, t ≤ hi) : lo ≤ (l1 N L).init l ∧ (l1 N L).init l ≤ hi := by
  have hlen : 0 < l.length := List.length_pos_iff.2 hl
  obtain ⟨h1, h2⟩ := exchangeSort_spec l
  have hb := l1_start_between hd N hN L l (exchangeSort l) hl h1 h2
  have mem : ∀ i < l.length, (exchangeSort l).getD i 0 ∈ l := by
    intro i hi
    rw [List.getD_eq_getElem _ _ (by rw [h1.length_eq]; exact hi)]
    exact h1.subset (List.getElem_mem _)
  exact ⟨(hlo _ (mem _ (by omega))).trans hb.1, hb.2.trans (hhi _ (mem _ (by omega)))⟩

/-- the error of the rounded mean -/
theorem mean_list_error (he : 0 ≤ eps) (hR : R.Accurate eps eta) (hA : R.AddAccurate eps) (N : Online.Num (Fl R)) (l : List (Fl R))
    (hl : l ≠ []) (hN : (N.ofNat l.length).val = l.length) :
    |(meanOf N l).val - listMean (l.map Fl.val)| ≤ ((1 + eps) ^ (l.length + 1) - 1) * listMean (l.map fun x => |x.val|) + eta := by
  have hn0 : (0 : K) < l.length := Nat.cast_pos.2 (List.length_pos_iff.2 hl)
  have hs := sum_list_error he hA l (fun x => x)
  have hB : |(l.map Fl.val).sum| ≤ (l.map fun x => |x.val|).sum := by
    clear hN hs hn0 hl
    induction l with
    | nil => simp
    | cons b l ih => simpa using (abs_add_le _ _).trans (by linarith)
  have e : meanOf N l = sumOver l (fun x => x) / N.ofNat l.length := rfl
  rw [e, Fl.val_div, hN]
  unfold listMean
  rw [List.length_map, List.length_map]
  change |(sumOver l fun x => x).val - (l.map Fl.val).sum| ≤ _ at hs
  set S := (l.map Fl.val).sum
  set B := (l.map fun x => |x.val|).sum
  have hB0 : 0 ≤ B := (abs_nonneg _).trans hB
  have r := hR ((sumOver l fun x => x).val / l.length)
  set z := (sumOver l fun x => x).val / (l.length : K) with hz
  have q1 : |z - S / l.length| ≤ ((1 + eps) ^ l.length - 1) * (B / l.length) := by
    rw [hz, ← sub_div, abs_div, abs_of_pos hn0, ← mul_div_assoc]
    exact div_le_div_of_nonneg_right hs hn0.le
  have q2 := abs_near q1
  have q3 : |S / l.length| ≤ B / l.length := by
    rw [abs_div, abs_of_pos hn0]; exact div_le_div_of_nonneg_right hB hn0.le
  have q4 : |z| ≤ (1 + eps) ^ l.length * (B / l.length) := by linarith
  have q5 := mul_le_mul_of_nonneg_left q4 he
  have q6 := abs_add_le (R.rnd z - z) (z - S / l.length)
  rw [sub_add_sub_cancel] at q6
  rw [pow_succ]
  have e2 : ((1 + eps) ^ l.length * (1 + eps) - 1) * (B / l.length) =
      eps * ((1 + eps) ^ l.length * (B / l.length)) + ((1 + eps) ^ l.length - 1) * (B / l.length) := by ring
  rw [e2]
  linarith

/-- **C316** (part) for the squared error, LambdaRank and Huber: the starting score is in the range of the targets up to `n + 1` roundings of their mean size.
Missing: it can be outside, see `l2_start_outside`. -/
theorem l2_start_near_range_partial (he : 0 ≤ eps) (hR : R.Accurate eps eta) (hA : R.AddAccurate eps) (N : Online.Num (Fl R))
    (l : List (Fl R)) (hl : l ≠ []) (hN : (N.ofNat l.length).val = l.length) (lo hi : K) (hlo : ∀ t ∈ l, lo ≤ t.val) (hhi : ∀ t ∈ l, t.val ≤ hi) :
    lo - (((1 + eps) ^ (l.length + 1) - 1) * listMean (l.map fun x => |x.val|) + eta) ≤ ((l2 N).init l).val ∧
      ((l2 N).init l).val ≤ hi + (((1 + eps) ^ (l.length + 1) - 1) * listMean (l.map fun x => |x.val|) + eta) := by
  have hlen : l.length ≠ 0 := fun h => hl (List.length_eq_zero_iff.1 h)
  have hn0 : (0 : K) < l.length := Nat.cast_pos.2 (List.length_pos_iff.2 hl)
  have h := abs_le.1 (mean_list_error he hR hA N l hl hN)
  have h1 : lo * l.length ≤ (l.map Fl.val).sum := by
    clear hN hn0 h hlen hl hhi
    induction l with
    | nil => simp
    | cons a l ih =>
      have := ih (fun t ht => hlo t (List.mem_cons_of_mem _ ht))
      have h2 := hlo a (by simp)
      simp only [List.map_cons, List.sum_cons, List.length_cons]
      push_cast
      linarith
  have h2 : (l.map Fl.val).sum ≤ hi * l.length := by
    clear hN hn0 h hlen hl hlo h1
    induction l with
    | nil => simp
    | cons a l ih =>
      have := ih (fun t ht => hhi t (List.mem_cons_of_mem _ ht))
      have h2 := hhi a (by simp)
      simp only [List.map_cons, List.sum_cons, List.length_cons]
      push_cast
      linarith
  have e : (l2 N).init l = meanOf N l := by
    show (if l.length = 0 then 0 else meanOf N l) = _
    rw [if_neg hlen]
  rw [e]
  have m1 : lo ≤ listMean (l.map Fl.val) := by
    unfold listMean; rw [List.length_map, le_div_iff₀ hn0]; exact h1
  have m2 : listMean (l.map Fl.val) ≤ hi := by
    unfold listMean; rw [List.length_map, div_le_iff₀ hn0]; exact h2
  constructor <;> linarith [h.1, h.2]

/-- `int(math.Floor(x))` for `x ≥ 0` (`sklearn/lightgbm/objectives.go:667`) -/
def floor64 (x : Fl rounding) : Nat := ⌊x.val⌋₊

/-- `int(math.Ceil(x))` for `x ≥ 0` (`sklearn/lightgbm/objectives.go:668`) -/
def ceilNat64 (x : Fl rounding) : Nat := ⌈x.val⌉₊

/-- **C316** (part) for the quantile: the two targets used exist, and the starting score lies between them up to three roundings. `pos` is the rounded position.
Missing: it can be outside of the range of the targets, see `quantile_start_outside`. -/
theorem quantile_start_near_partial (N : Online.Num (Fl rounding)) (hN : ∀ n, N.ofNat n = (n : Fl rounding)) (q : Fl rounding) (h0 : 0 < q) (h1 : q < 1)
    (l s : List (Fl rounding)) (hl : l ≠ []) (hn : l.length < 2 ^ 53) (hp : s.Perm l) (ho : s.Pairwise (· ≤ ·)) :
    let pos := (q * ((l.length - 1 : Nat) : Fl rounding)).val
    ∃ i j : Nat, (i : ℚ) ≤ pos ∧ pos ≤ j ∧ i ≤ j ∧ j ≤ i + 1 ∧ j < l.length ∧ (i = j → (quantile N floor64 ceilNat64 q).init l = s.getD i 0) ∧
      (s.getD i 0).val - (((1 + 1 / 2 ^ 53) ^ 3 - 1) * max |(s.getD i 0).val| |(s.getD j 0).val| + 2 * (1 + 1 / 2 ^ 53) * (1 / 2 ^ 1075)) ≤
        ((quantile N floor64 ceilNat64 q).init l).val ∧
      ((quantile N floor64 ceilNat64 q).init l).val ≤
        (s.getD j 0).val + (((1 + 1 / 2 ^ 53) ^ 3 - 1) * max |(s.getD i 0).val| |(s.getD j 0).val| + 2 * (1 + 1 / 2 ^ 53) * (1 / 2 ^ 1075)) := by
  intro pos
  have hlen : l.length ≠ 0 := fun h => hl (List.length_eq_zero_iff.1 h)
  have hlen0 : 0 < l.length := Nat.pos_of_ne_zero hlen
  obtain ⟨hq, hs⟩ := exchangeLoop_prefix (l.length - 1) l
  have key : ∀ i, i < l.length → (exchangeLoop (l.length - 1) l).getD i 0 = s.getD i 0 := fun i hi =>
    prefix_sorted _ s l.length (by rw [hq.length_eq]) (fun i j a b c => hs i j (by rw [hq.length_eq] at c; omega) b (by rwa [hq.length_eq] at c))
      (hp.trans hq.symm) ho i hi
  have hnat : ∀ n : Nat, n < 2 ^ 53 → ((n : Fl rounding)).val = n := fun n h => nat_exact n h
  have hq0 : (0 : ℚ) < q.val := h0
  have hq1 : q.val < 1 := h1
  have hpos : pos = rounding.rnd (q.val * ((l.length - 1 : Nat) : ℚ)) := by
    show (q * ((l.length - 1 : Nat) : Fl rounding)).val = _
    rw [Fl.val_mul, hnat _ (by omega)]
  have hn' : (0 : ℚ) ≤ ((l.length - 1 : Nat) : ℚ) := Nat.cast_nonneg _
  have hpos0 : 0 ≤ pos := by rw [hpos]; exact rounding.nonneg (mul_nonneg hq0.le hn')
  have hpos1 : pos ≤ ((l.length - 1 : Nat) : ℚ) := by
    rw [hpos, ← nat_exact (l.length - 1) (by omega)]
    exact rounding.mono (by rw [nat_exact (l.length - 1) (by omega)]; nlinarith)
  have hi1 : (⌊pos⌋₊ : ℚ) ≤ pos := Nat.floor_le hpos0
  have hi2 : pos < ⌊pos⌋₊ + 1 := Nat.lt_floor_add_one pos
  have hj1 : pos ≤ (⌈pos⌉₊ : ℚ) := Nat.le_ceil pos
  have hj2 : ⌈pos⌉₊ ≤ l.length - 1 := Nat.ceil_le.2 hpos1
  have hij : ⌊pos⌋₊ ≤ ⌈pos⌉₊ := Nat.floor_le_ceil pos
  have hji : ⌈pos⌉₊ ≤ ⌊pos⌋₊ + 1 := Nat.ceil_le.2 (by push_cast; exact hi2.le)
  have hinit : (quantile N floor64 ceilNat64 q).init l = if ⌊pos⌋₊ = ⌈pos⌉₊ then s.getD ⌊pos⌋₊ 0
      else s.getD ⌊pos⌋₊ 0 * (1 - (q * ((l.length - 1 : Nat) : Fl rounding) - (⌊pos⌋₊ : Fl rounding))) +
        s.getD ⌈pos⌉₊ 0 * (q * ((l.length - 1 : Nat) : Fl rounding) - (⌊pos⌋₊ : Fl rounding)) := by
    show (if l.length = 0 then 0 else calculateQuantile N floor64 ceilNat64 l q) = _
    rw [if_neg hlen]
    unfold calculateQuantile
    rw [if_neg hlen]
    simp only [hN]
    have e1 : floor64 (q * ((l.length - 1 : Nat) : Fl rounding)) = ⌊pos⌋₊ := rfl
    have e2 : ceilNat64 (q * ((l.length - 1 : Nat) : Fl rounding)) = ⌈pos⌉₊ := rfl
    rw [e1, e2, key _ (by omega), key _ (by omega)]
  refine ⟨⌊pos⌋₊, ⌈pos⌉₊, hi1, hj1, hij, hji, by omega, fun h => by rw [hinit, if_pos h], ?_⟩
  have hle : (s.getD ⌊pos⌋₊ 0).val ≤ (s.getD ⌈pos⌉₊ 0).val := by
    rcases Nat.lt_or_ge ⌊pos⌋₊ ⌈pos⌉₊ with h | h
    · have := hs ⌊pos⌋₊ ⌈pos⌉₊ (by omega) h (by omega)
      rw [key _ (by omega), key _ (by omega)] at this
      exact this
    · rw [Nat.le_antisymm hij h]
  have hη : (0 : ℚ) ≤ 1 / 2 ^ 1075 := by positivity
  rw [hinit]
  set a := s.getD ⌊pos⌋₊ 0
  set b := s.getD ⌈pos⌉₊ 0
  split_ifs with hc
  · have e : b = a := by show s.getD ⌈pos⌉₊ 0 = s.getD ⌊pos⌋₊ 0; rw [hc]
    have : 0 ≤ ((1 + 1 / 2 ^ 53 : ℚ) ^ 3 - 1) * max |a.val| |b.val| + 2 * (1 + 1 / 2 ^ 53) * (1 / 2 ^ 1075) := by
      refine add_nonneg (mul_nonneg (by norm_num) (le_trans (abs_nonneg _) (le_max_left _ _))) (mul_nonneg (by norm_num) hη)
    rw [e] at *
    constructor <;> linarith
  · set w := q * ((l.length - 1 : Nat) : Fl rounding) - (⌊pos⌋₊ : Fl rounding) with hw
    have hwv : w.val = rounding.rnd (pos - ⌊pos⌋₊) := by
      rw [hw, Fl.val_sub, hnat _ (by omega)]
    have w0 : 0 ≤ w.val := by rw [hwv]; exact rounding.nonneg (by linarith)
    have w1 : w.val ≤ 1 := by
      rw [hwv, ← rounding.one]
      exact rounding.mono (by linarith)
    have hm := move_error (by norm_num) hη Binary64.accurate Binary64.add_accurate w a b w0 w1 (le_max_left |a.val| |b.val|) (le_max_right |a.val| |b.val|)
    rw [Fl.mul_comm' a, Fl.mul_comm' b]
    have c1 : a.val ≤ (1 - w.val) * a.val + w.val * b.val := by nlinarith
    have c2 : (1 - w.val) * a.val + w.val * b.val ≤ b.val := by nlinarith
    have hm' := abs_le.1 hm
    generalize (1 : ℚ) / 2 ^ 1075 = η at *
    constructor <;> linarith [hm'.1, hm'.2]

/-- **C316** (part) in float64: for up to a million targets of size at most `M` the starting score of the squared error is in the range of the targets up to
`(n + 1) M / 2 ^ 52`. Missing: see `l2_start_outside`. -/
theorem l2_start_float_partial (N : Online.Num (Fl rounding)) (hN : ∀ n, N.ofNat n = (n : Fl rounding)) (l : List (Fl rounding)) (hl : l ≠ [])
    (hn : l.length ≤ 10 ^ 6) (lo hi M : ℚ) (hlo : ∀ t ∈ l, lo ≤ t.val) (hhi : ∀ t ∈ l, t.val ≤ hi) (hM : ∀ t ∈ l, |t.val| ≤ M) :
    lo - ((l.length + 1) * M / 2 ^ 52 + 1 / 2 ^ 1075) ≤ ((l2 N).init l).val ∧
      ((l2 N).init l).val ≤ hi + ((l.length + 1) * M / 2 ^ 52 + 1 / 2 ^ 1075) := by
  have hn0 : (0 : ℚ) < l.length := Nat.cast_pos.2 (List.length_pos_iff.2 hl)
  have hnq : (l.length : ℚ) ≤ 10 ^ 6 := by exact_mod_cast hn
  have hη : (0 : ℚ) ≤ 1 / 2 ^ 1075 := by positivity
  have hv : (N.ofNat l.length).val = (l.length : ℚ) := by rw [hN]; exact nat_exact _ (by omega)
  have h := l2_start_near_range_partial (by norm_num) Binary64.accurate Binary64.add_accurate N l hl hv lo hi hlo hhi
  have hpow := pow_sub_one_le (show (0 : ℚ) ≤ 1 / 2 ^ 53 by norm_num) (l.length + 1) (by push_cast; linarith)
  have hpow0 := grow (show (0 : ℚ) ≤ 1 / 2 ^ 53 by norm_num) (l.length + 1)
  have hmean : listMean (l.map fun x => |x.val|) ≤ M := by
    unfold listMean
    rw [List.length_map, div_le_iff₀ hn0]
    clear h hpow hpow0 hv hnq hn0 hn hl hlo hhi
    induction l with
    | nil => simp
    | cons a l ih =>
      have := ih (fun t ht => hM t (List.mem_cons_of_mem _ ht))
      have h2 := hM a (by simp)
      simp only [List.map_cons, List.sum_cons, List.length_cons]
      push_cast
      linarith
  have hM0 : 0 ≤ M := by
    obtain ⟨t, ht⟩ := List.exists_mem_of_ne_nil l hl
    exact (abs_nonneg _).trans (hM t ht)
  have hb : ((1 + 1 / 2 ^ 53 : ℚ) ^ (l.length + 1) - 1) * listMean (l.map fun x => |x.val|) ≤ (l.length + 1) * M / 2 ^ 52 := by
    refine (mul_le_mul_of_nonneg_left hmean (by linarith)).trans ?_
    refine (mul_le_mul_of_nonneg_right hpow hM0).trans (le_of_eq ?_)
    push_cast
    ring
  generalize (1 : ℚ) / 2 ^ 1075 = η at *
  constructor <;> linarith [h.1, h.2]

/-- **C316** is false for the squared error: three equal targets 0.1 start from a score above 0.1 -/
theorem l2_start_outside (N : Online.Num (Fl rounding)) (hN : ∀ n, N.ofNat n = (n : Fl rounding)) :
    lit (1 / 10) < (l2 N).init [lit (1 / 10), lit (1 / 10), lit (1 / 10)] := by
  have e : (l2 N).init [lit (1 / 10), lit (1 / 10), lit (1 / 10)] = (0 + lit (1 / 10) + lit (1 / 10) + lit (1 / 10)) / N.ofNat 3 := rfl
  rw [e, hN]
  decide +kernel

/-- **C316** is false for the quantile objective: two equal targets 0.3 and the level 0.1 start from a score above 0.3 -/
theorem quantile_start_outside (N : Online.Num (Fl rounding)) (hN : ∀ n, N.ofNat n = (n : Fl rounding)) :
    lit (3 / 10) < (quantile N floor64 ceilNat64 (lit (1 / 10))).init [lit (3 / 10), lit (3 / 10)] := by
  have e : (quantile N floor64 ceilNat64 (lit (1 / 10))).init [lit (3 / 10), lit (3 / 10)] =
      if floor64 (lit (1 / 10) * N.ofNat 1) = ceilNat64 (lit (1 / 10) * N.ofNat 1)
      then (exchangeLoop 1 [lit (3 / 10), lit (3 / 10)]).getD (floor64 (lit (1 / 10) * N.ofNat 1)) 0
      else (exchangeLoop 1 [lit (3 / 10), lit (3 / 10)]).getD (floor64 (lit (1 / 10) * N.ofNat 1)) 0 *
          (1 - (lit (1 / 10) * N.ofNat 1 - N.ofNat (floor64 (lit (1 / 10) * N.ofNat 1)))) +
        (exchangeLoop 1 [lit (3 / 10), lit (3 / 10)]).getD (ceilNat64 (lit (1 / 10) * N.ofNat 1)) 0 *
          (lit (1 / 10) * N.ofNat 1 - N.ofNat (floor64 (lit (1 / 10) * N.ofNat 1))) := rfl
  rw [e]
  simp only [hN]
  decide +kernel

/-- **C316** is false for the absolute error when the sum of the two middle targets overflows: two equal targets `2 ^ 1023` start from infinity -/
theorem l1_start_overflows (N : Online.Num F64) (hN : N.two = F64.round 2) (L : Lits F64) :
    F64.IsFin (F64.round (2 ^ 1023)) ∧ (l1 N L).init [F64.round (2 ^ 1023), F64.round (2 ^ 1023)] = F64.inf false := by
  refine ⟨by decide +kernel, ?_⟩
  have e : (l1 N L).init [F64.round (2 ^ 1023), F64.round (2 ^ 1023)] =
      ((exchangeLoop 1 [F64.round (2 ^ 1023), F64.round (2 ^ 1023)]).getD 0 0 +
        (exchangeLoop 1 [F64.round (2 ^ 1023), F64.round (2 ^ 1023)]).getD 1 0) / N.two := rfl
  rw [e, hN]
  decide +kernel

/-- the hypotheses can be met, with five targets whose middle one is 0.3 -/
example (N : Online.Num (Fl rounding)) (hN : N.two = ((2 : Nat) : Fl rounding)) (L : Lits (Fl rounding)) :
    (l1 N L).init ([7, 3, 1, 9, 2].map fun n : ℚ => lit (n / 10)) = lit (3 / 10) := by
  have h := l1_start_between binary64_doubleExact N hN L ([7, 3, 1, 9, 2].map fun n : ℚ => lit (n / 10)) ([1, 2, 3, 7, 9].map fun n : ℚ => lit (n / 10))
    (by simp) (by decide +kernel) (by decide +kernel)
  exact le_antisymm h.2 h.1

/-- three targets and the level 0.1: position 0.2, so the first two targets are used -/
example : 0 < lit (1 / 10) ∧ lit (1 / 10) < (1 : Fl rounding) ∧ floor64 (lit (1 / 10) * ((2 : Nat) : Fl rounding)) = 0 ∧
    ceilNat64 (lit (1 / 10) * ((2 : Nat) : Fl rounding)) = 1 := by decide +kernel

end Scigo.Round
