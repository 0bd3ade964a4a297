import Mathlib.Algebra.BigOperators.Intervals
import Mathlib.Tactic.Ring
import Verif.Metrics.RegProps
import Verif.Metrics.RankProps

/-!
# What the metrics are equal to, and exactly when they are defined
-/

namespace Scigo.Metrics

variable {K : Type _}

section
variable [Field K] [LinearOrder K] [IsStrictOrderedRing K]

/-- **C08**. `MSE` is the mean of the squared residuals, `MAE` the mean of their absolute values. -/
theorem mse_mae_value (a b : List K) (ha : a ≠ []) (hl : a.length = b.length) :
    mse (some a) (some b) = .ok (mean ((a.zip b).map (fun x => (x.1 - x.2) ^ 2))) ∧
    mae abs (some a) (some b) = .ok (mean ((a.zip b).map (fun x => |x.1 - x.2|))) := by
  unfold mse mae
  rw [regGuard_some ha hl, regGuard_some ha hl, sumOver_eq, sumOver_eq]
  refine ⟨?_, ?_⟩ <;> simp only [mean, List.length_map, pow_two]

/-- **C09**. `R2Score` and `ExplainedVarianceScore` return a value exactly for non-nil vectors of equal, non-zero length whose true values
are not all identical. -/
theorem r2_ok_iff (t p : Vec K) :
    ((∃ v, r2Score t p = .ok v) ↔ ∃ a b, t = some a ∧ p = some b ∧ a.length = b.length ∧ ∃ x ∈ a, ∃ y ∈ a, x ≠ y) ∧
    ((∃ v, explainedVariance t p = .ok v) ↔ ∃ a b, t = some a ∧ p = some b ∧ a.length = b.length ∧ ∃ x ∈ a, ∃ y ∈ a, x ≠ y) := by
  have key : ∀ a b : List K, a ≠ [] → a.length = b.length → (∀ x ∈ a, ∀ y ∈ a, x = y) →
      (∃ e, r2Score (some a) (some b) = .err e) ∧ ∃ e, explainedVariance (some a) (some b) = .err e := by
    intro a b ha hl h
    refine ⟨(r2_spec a b ha hl).2 h, ?_⟩
    have hz := zip_ne_nil ha hl
    have hn := length_pos_cast (K := K) hz
    unfold explainedVariance
    rw [regGuard_some ha hl]
    simp only [sumOver_eq]
    have hv : ((a.zip b).map (fun x => (x.1 - ((a.zip b).map (fun x => x.1)).sum / ((a.zip b).length : K)) *
        (x.1 - ((a.zip b).map (fun x => x.1)).sum / ((a.zip b).length : K)))).sum = 0 := by
      rw [sum_map_eq_zero_iff _ _ (fun x _ => mul_self_nonneg _)]
      intro x hx
      have hc : ∀ y ∈ (a.zip b).map (fun x => x.1), y = x.1 := by
        intro y hy
        obtain ⟨q, hq, rfl⟩ := List.mem_map.1 hy
        exact h _ (List.of_mem_zip hq).1 _ (List.of_mem_zip hx).1
      have hs : ((a.zip b).map (fun x => x.1)).sum = ((a.zip b).length : K) * x.1 := by
        rw [List.eq_replicate_of_mem hc, List.sum_replicate, List.length_map, nsmul_eq_mul]
      rw [hs, mul_div_cancel_left₀ _ hn.ne', sub_self, mul_zero]
    rw [hv, zero_div]
    exact ⟨_, by simp; rfl⟩
  have none1 : ∀ p : Vec K, (¬ ∃ v, r2Score none p = .ok v) ∧ ¬ ∃ v, explainedVariance none p = .ok v := by
    intro p; constructor <;> rintro ⟨v, h⟩ <;> exact nomatch h
  have some1 : ∀ (f : List (K × K) → Outcome K) (t p : Vec K) (v : K), regGuard t p f = .ok v →
      ∃ a b, t = some a ∧ p = some b ∧ a ≠ [] ∧ a.length = b.length := by
    intro f t p v h
    have := (regGuard_ok_iff t p f).1 ⟨v, h⟩
    obtain ⟨a, b, h1, h2, h3, h4, _⟩ := this
    exact ⟨a, b, h1, h2, h3, h4⟩
  constructor
  · constructor
    · rintro ⟨v, h⟩
      obtain ⟨a, b, rfl, rfl, ha, hl⟩ := some1 _ _ _ _ h
      refine ⟨a, b, rfl, rfl, hl, ?_⟩
      by_contra hne
      push Not at hne
      obtain ⟨e, he⟩ := (key a b ha hl hne).1
      rw [he] at h; exact nomatch h
    · rintro ⟨a, b, rfl, rfl, hl, hd⟩
      obtain ⟨r, _, hr, _⟩ := r2_le_explained_variance a b hl hd
      exact ⟨r, hr⟩
  · constructor
    · rintro ⟨v, h⟩
      obtain ⟨a, b, rfl, rfl, ha, hl⟩ := some1 _ _ _ _ h
      refine ⟨a, b, rfl, rfl, hl, ?_⟩
      by_contra hne
      push Not at hne
      obtain ⟨e, he⟩ := (key a b ha hl hne).2
      rw [he] at h; exact nomatch h
    · rintro ⟨a, b, rfl, rfl, hl, hd⟩
      obtain ⟨_, e, _, he, _⟩ := r2_le_explained_variance a b hl hd
      exact ⟨e, he⟩

/-- **C17**. `MAPE` returns a value exactly for non-nil vectors of equal length with some non-zero true value; otherwise non-nil vectors
give an error. -/
theorem mape_ok_iff (t p : Vec K) :
    ((∃ v, mape abs 100 t p = .ok v) ↔ ∃ a b, t = some a ∧ p = some b ∧ a.length = b.length ∧ ∃ x ∈ a, x ≠ 0) ∧
    ∀ a b, t = some a → p = some b → (a.length ≠ b.length ∨ ∀ x ∈ a, x = 0) → ∃ e, mape abs 100 t p = .err e := by
  constructor
  · constructor
    · rintro ⟨v, h⟩
      obtain ⟨a, b, rfl, rfl, ha, hl, _⟩ := (regGuard_ok_iff t p _).1 ⟨v, h⟩
      refine ⟨a, b, rfl, rfl, hl, ?_⟩
      by_contra hne
      push Not at hne
      obtain ⟨e, he⟩ := (mape_spec a b ha hl).1 hne
      rw [he] at h; exact nomatch h
    · rintro ⟨a, b, rfl, rfl, hl, x, hx, hx0⟩
      exact ⟨_, (mape_spec a b (List.ne_nil_of_mem hx) hl).2 ⟨x, hx, hx0⟩⟩
  · rintro a b rfl rfl h
    by_cases ha : a = []
    · subst ha; exact ⟨_, rfl⟩
    · by_cases hl : a.length = b.length
      · rcases h with h | h
        · exact absurd hl h
        · exact (mape_spec a b ha hl).1 h
      · have h0 : a.length ≠ 0 := by simpa using ha
        exact ⟨.dimension a.length b.length 0, by simp only [mape, regGuard, if_neg h0]; rw [if_pos (Ne.symm hl)]⟩

/-- precision at cutoff `i`: the share of ones among the first `i` -/
def precisionAt (rel : List K) (i : Nat) : K := ((rel.take i).countP (· == 1) : K) / (i : K)

theorem apLoop_value (rs done : List K) (s : K) :
    apLoop rs done.length (done.countP (· == 1)) s =
      s + ∑ i ∈ Finset.range rs.length, if rs.getD i 0 = 1 then precisionAt (done ++ rs) (done.length + i + 1) else 0 := by
  induction rs generalizing done s with
  | nil => simp [apLoop]
  | cons r rs ih =>
    have e : done ++ r :: rs = (done ++ [r]) ++ rs := by simp
    have hlen : (done ++ [r]).length = done.length + 1 := by simp
    have hs : (∑ i ∈ Finset.range (r :: rs).length, if (r :: rs).getD i 0 = 1 then precisionAt (done ++ r :: rs) (done.length + i + 1) else 0) =
        (∑ i ∈ Finset.range rs.length, if rs.getD i 0 = 1 then precisionAt ((done ++ [r]) ++ rs) ((done ++ [r]).length + i + 1) else 0) +
        if r = 1 then precisionAt (done ++ r :: rs) (done.length + 1) else 0 := by
      rw [List.length_cons, Finset.sum_range_succ']
      congr 1
      refine Finset.sum_congr rfl fun i _ => ?_
      rw [List.getD_cons_succ, hlen, ← e]
      congr 2
      omega
    rw [hs]
    unfold apLoop
    by_cases hr : r = 1
    · subst hr
      have hc : (done ++ [(1 : K)]).countP (· == 1) = done.countP (· == 1) + 1 := by simp
      have hp : precisionAt (done ++ (1 : K) :: rs) (done.length + 1) = ((done.countP (· == 1) + 1 : Nat) : K) / ((done.length + 1 : Nat) : K) := by
        unfold precisionAt
        rw [e, ← hlen, List.take_left, hc]
      have := ih (done ++ [1]) (s + ((done.countP (· == 1) + 1 : Nat) : K) / ((done.length + 1 : Nat) : K))
      rw [hlen, hc] at this
      rw [if_pos rfl, hp, hlen, if_pos (by simp), this]
      ring
    · have hb : (r == 1) = false := by simpa using hr
      have hc : (done ++ [r]).countP (· == 1) = done.countP (· == 1) := by simp [hb]
      have := ih (done ++ [r]) s
      rw [hlen, hc] at this
      rw [if_neg hr, hb, add_zero, hlen]
      exact this

/-- **C16**. The value of `AveragePrecision`: with `rel` the labels in the order in which the scores were sorted, the mean over the relevant
positions of the precision at that position. -/
theorem ap_formula (srt : List (K × K) → List (K × K)) (hs : SortsDesc Prod.fst srt)
    (a b : List K) (hl : a.length = b.length) (hb : ∀ y ∈ a, y = 0 ∨ y = 1) (h1 : 1 ∈ a) :
    ∃ pairs : List (K × K), pairs.Perm (b.zip a) ∧ pairs.Pairwise (fun x y => y.1 ≤ x.1) ∧
      averagePrecision srt (some a) (some b) = .ok
        ((∑ i ∈ Finset.range a.length, if (pairs.map Prod.snd).getD i 0 = 1 then precisionAt (pairs.map Prod.snd) (i + 1) else 0) /
          (a.countP (· == 1) : K)) := by
  have hperm := (hs (b.zip a)).1
  refine ⟨srt (b.zip a), hperm, ((hs (b.zip a)).2).imp (fun h => not_lt.1 h), ?_⟩
  have hswap : (a.zip b).map (fun x => (x.2, x.1)) = b.zip a := by rw [← List.zip_swap a b]; rfl
  have hlen : ((srt (b.zip a)).map Prod.snd).length = a.length := by
    rw [List.length_map, hperm.length_eq, List.length_zip, hl, min_self]
  have h0 : a.countP (· == 1) ≠ 0 := by
    rw [Ne, List.countP_eq_zero]; intro h; exact h 1 h1 (by simp)
  rw [ap_eq srt a b (List.ne_nil_of_mem h1) hl hb, if_neg h0, hswap]
  have := apLoop_value ((srt (b.zip a)).map Prod.snd) [] (0 : K)
  simp only [List.length_nil, List.countP_nil, List.nil_append, zero_add] at this
  rw [this, hlen]

end

example : averagePrecision (stableDesc Prod.fst) (some [(0 : ℚ), 1, 1]) (some [9, 8, 7]) = .ok ((1 / 2 + 2 / 3) / 2) := by decide +kernel
example : precisionAt [(0 : ℚ), 1, 1] 3 = 2 / 3 := by decide +kernel
example : (∃ v, r2Score (some [(1 : ℚ), 2]) (some [3, 4]) = .ok v) := (r2_ok_iff _ _).1.2 ⟨_, _, rfl, rfl, rfl, 1, by simp, 2, by simp, by norm_num⟩
example : ∃ e, mape abs 100 (some [(0 : ℚ), 0]) (some [3, 4]) = .err e := (mape_ok_iff _ _).2 _ _ rfl rfl (.inr (by simp))

end Scigo.Metrics
