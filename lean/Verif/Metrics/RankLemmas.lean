import Verif.Metrics.RegLemmas
import Mathlib.Analysis.SpecialFunctions.Log.Base
import Mathlib.Analysis.SpecialFunctions.Pow.Real

set_option linter.unusedSectionVars false

namespace Scigo.Metrics

variable {α K : Type _}

/-! ### rearrangement -/

section
variable [Field K] [LinearOrder K] [IsStrictOrderedRing K]

/-- weighted sum `Σ dᵢ lᵢ` -/
def wsum (d : Nat → K) : List K → K
  | [] => 0
  | x :: l => d 0 * x + wsum (fun i => d (i + 1)) l

theorem wsum_front (d : Nat → K) (hd : ∀ i, d (i + 1) ≤ d i) (m : K) (l1 l2 : List K)
    (hm : ∀ x ∈ l1, x ≤ m) : wsum d (l1 ++ m :: l2) ≤ wsum d (m :: (l1 ++ l2)) := by
  induction l1 generalizing d with
  | nil => simp
  | cons x l1 ih =>
    have h := ih (fun i => d (i + 1)) (fun i => hd (i + 1)) (fun y hy => hm y (by simp [hy]))
    have hx : x ≤ m := hm x (by simp)
    have h0 := hd 0
    simp only [List.cons_append, wsum, zero_add] at h ⊢
    nlinarith

theorem wsum_le_sorted (d : Nat → K) (hd : ∀ i, d (i + 1) ≤ d i) (l' : List K) :
    ∀ (l : List K), l.Perm l' → l'.Pairwise (fun a b => ¬ a < b) → wsum d l ≤ wsum d l' := by
  induction l' generalizing d with
  | nil => intro l hp _; rw [hp.eq_nil]
  | cons m r ih =>
    intro l hp hs
    rw [List.pairwise_cons] at hs
    obtain ⟨l1, l2, rfl⟩ := List.append_of_mem (hp.mem_iff.2 (List.mem_cons_self ..))
    have hp' : (l1 ++ l2).Perm r :=
      (List.perm_cons m).1 (List.perm_middle.symm.trans hp)
    refine (wsum_front d hd m l1 l2 ?_).trans ?_
    · intro x hx
      exact not_lt.1 (hs.1 x (hp'.mem_iff.1 (by simp [hx])))
    · simp only [wsum]
      have := ih (fun i => d (i + 1)) (fun i => hd (i + 1)) (l1 ++ l2) hp' hs.2
      linarith

theorem wsum_nonneg (d : Nat → K) (hd : ∀ i, 0 ≤ d i) (l : List K) (hl : ∀ x ∈ l, 0 ≤ x) :
    0 ≤ wsum d l := by
  induction l generalizing d with
  | nil => simp [wsum]
  | cons x l ih =>
    simp only [wsum]
    have h1 := ih (fun i => d (i + 1)) (fun i => hd (i + 1)) (fun y hy => hl y (by simp [hy]))
    have h2 := mul_nonneg (hd 0) (hl x (by simp))
    linarith

theorem wsum_zero (d : Nat → K) (l : List K) (hl : ∀ x ∈ l, x = 0) : wsum d l = 0 := by
  induction l generalizing d with
  | nil => simp [wsum]
  | cons x l ih =>
    simp only [wsum]
    rw [ih (fun i => d (i + 1)) (fun y hy => hl y (by simp [hy])), hl x (by simp)]
    ring

theorem wsum_take (d : Nat → K) (k : Nat) (l : List K) :
    wsum d (l.take k) = wsum (fun i => if i < k then d i else 0) l := by
  induction l generalizing d k with
  | nil => simp [wsum]
  | cons x l ih =>
    cases k with
    | zero =>
      simp only [List.take_zero, wsum, Nat.not_lt_zero, if_false, zero_mul, zero_add]
      have : ∀ l : List K, wsum (fun _ => (0 : K)) l = 0 := by
        intro l
        induction l with
        | nil => rfl
        | cons y l ih => simp [wsum, ih]
      rw [this]
    | succ k =>
      simp only [List.take_succ_cons, wsum, Nat.zero_lt_succ, if_true, Nat.add_lt_add_iff_right]
      rw [ih]

theorem dcg_fold (g : K → K) (w : Nat → K) (l : List K) (j : Nat) (s : K) :
    (l.zipIdx j).foldl (fun s x => s + g x.1 / w x.2) s
      = s + wsum (fun i => (w (i + j))⁻¹) (l.map g) := by
  induction l generalizing j s with
  | nil => simp [wsum]
  | cons x l ih =>
    rw [List.zipIdx_cons, List.foldl_cons, ih]
    simp only [List.map_cons, wsum, zero_add]
    have : (fun i => (w (i + (j + 1)))⁻¹) = (fun i => (w (i + 1 + j))⁻¹) := by
      funext i; congr 2; omega
    rw [this]
    rw [div_eq_inv_mul]; ring

end

/-! ### NDCG over the reals -/

/-- `math.Pow(2, r)` -/
noncomputable def rpow2 (r : ℝ) : ℝ := (2 : ℝ) ^ r
/-- `math.Log2(float64(i))` -/
noncomputable def rlog2 (i : Nat) : ℝ := Real.logb 2 i

theorem rlog2_pos (i : Nat) : 0 < rlog2 (i + 2) := by
  unfold rlog2
  apply Real.logb_pos (by norm_num)
  push_cast
  have : (0 : ℝ) ≤ (i : ℝ) := Nat.cast_nonneg i
  linarith

theorem rlog2_mono (i : Nat) : rlog2 (i + 2) ≤ rlog2 (i + 1 + 2) := by
  unfold rlog2
  apply Real.logb_le_logb_of_le (by norm_num)
  · push_cast; have : (0 : ℝ) ≤ (i : ℝ) := Nat.cast_nonneg i; linarith
  · push_cast; linarith

theorem gain_nonneg {r : ℝ} (h : 0 ≤ r) : 0 ≤ rpow2 r - 1 := by
  unfold rpow2
  have := Real.one_le_rpow (x := 2) (by norm_num) h
  linarith

theorem gain_pos {r : ℝ} (h : 0 < r) : 0 < rpow2 r - 1 := by
  unfold rpow2
  have := Real.one_lt_rpow (x := 2) (by norm_num) h
  linarith

theorem gain_mono {r s : ℝ} (h : r ≤ s) : rpow2 r - 1 ≤ rpow2 s - 1 := by
  unfold rpow2
  have := Real.rpow_le_rpow_of_exponent_le (x := 2) (by norm_num) h
  linarith

/-- weights with the cutoff -/
noncomputable def ndcgW (k : Nat) (i : Nat) : ℝ := if i < k then (rlog2 (i + 2))⁻¹ else 0

theorem ndcgW_nonneg (k i : Nat) : 0 ≤ ndcgW k i := by
  unfold ndcgW; split_ifs
  · exact (inv_pos.2 (rlog2_pos i)).le
  · exact le_refl _

theorem ndcgW_anti (k i : Nat) : ndcgW k (i + 1) ≤ ndcgW k i := by
  unfold ndcgW
  by_cases h : i + 1 < k
  · rw [if_pos h, if_pos (by omega)]
    exact inv_anti₀ (rlog2_pos i) (rlog2_mono i)
  · rw [if_neg h]
    have := ndcgW_nonneg k i
    unfold ndcgW at this
    exact this

theorem dcg_eq (l : List ℝ) (k : Nat) :
    dcg rpow2 rlog2 l k = wsum (ndcgW k) (l.map (fun r => rpow2 r - 1)) := by
  unfold dcg
  dsimp only
  have : l.take (if k > l.length then l.length else k) = l.take k := by
    split_ifs with h
    · rw [List.take_of_length_le (le_refl _), List.take_of_length_le h.le]
    · rfl
  rw [this, dcg_fold (fun r => rpow2 r - 1) (fun i => rlog2 (i + 2)) (l.take k) 0 0, zero_add,
    List.map_take, wsum_take]
  rfl

theorem wsum_eq_sum (d : Nat → ℝ) (g : ℝ → ℝ) (l : List ℝ) :
    wsum d (l.map g) = ∑ i ∈ Finset.range l.length, d i * g (l.getD i 0) := by
  induction l generalizing d with
  | nil => simp [wsum]
  | cons x l ih =>
    rw [List.map_cons, wsum, ih, List.length_cons, Finset.sum_range_succ']
    simp [add_comm]

theorem dcg_eq_sum (l : List ℝ) (k : Nat) (hk : k ≤ l.length) :
    dcg rpow2 rlog2 l k
      = ∑ i ∈ Finset.range k, ((2 : ℝ) ^ (l.getD i 0) - 1) / Real.logb 2 (i + 2) := by
  rw [dcg_eq, wsum_eq_sum]
  rw [← Finset.sum_subset (Finset.range_mono hk)]
  · apply Finset.sum_congr rfl
    intro i hi
    have hi : i < k := Finset.mem_range.1 hi
    rw [ndcgW, if_pos hi, rlog2, rpow2, div_eq_inv_mul]
    push_cast; rfl
  · intro i _ hi
    rw [Finset.mem_range] at hi
    rw [ndcgW, if_neg hi, zero_mul]

/-! ### Average precision -/

section
variable [Field K] [LinearOrder K] [IsStrictOrderedRing K]

theorem apLoop_bounds (rs : List K) (i hits : Nat) (s : K) (hi : hits ≤ i) :
    s ≤ apLoop rs i hits s ∧ apLoop rs i hits s ≤ s + (rs.countP (· == 1) : K) := by
  induction rs generalizing i hits s with
  | nil => simp [apLoop]
  | cons r rs ih =>
    rw [apLoop]
    by_cases h : r = 1
    · subst h
      rw [if_pos (by simp)]
      obtain ⟨h1, h2⟩ := ih (i + 1) (hits + 1) (s + ((hits + 1 : Nat) : K) / ((i + 1 : Nat) : K))
        (by omega)
      have hpos : (0 : K) < ((i + 1 : Nat) : K) := by exact_mod_cast Nat.succ_pos i
      have hq0 : (0 : K) ≤ ((hits + 1 : Nat) : K) / ((i + 1 : Nat) : K) := by positivity
      have hq1 : ((hits + 1 : Nat) : K) / ((i + 1 : Nat) : K) ≤ 1 := by
        rw [div_le_one hpos]; exact_mod_cast (by omega)
      have hc : (((1 : K) :: rs).countP (· == 1) : K) = (rs.countP (· == 1) : K) + 1 := by
        rw [List.countP_cons_of_pos (by simp)]; push_cast; ring
      rw [hc]
      constructor <;> linarith
    · rw [if_neg (by simpa using h)]
      obtain ⟨h1, h2⟩ := ih (i + 1) hits s (by omega)
      rw [List.countP_cons_of_neg (by simpa using h)]
      exact ⟨h1, h2⟩

/-- once an irrelevant item has been passed, precision stays below one -/
theorem apLoop_lt (rs : List K) (i hits : Nat) (s : K) (hi : hits < i)
    (hr : 1 ∈ rs) : apLoop rs i hits s < s + (rs.countP (· == 1) : K) := by
  induction rs generalizing i hits s with
  | nil => simp at hr
  | cons r rs ih =>
    rw [apLoop]
    by_cases h : r = 1
    · subst h
      rw [if_pos (by simp)]
      have h2 := (apLoop_bounds rs (i + 1) (hits + 1)
        (s + ((hits + 1 : Nat) : K) / ((i + 1 : Nat) : K)) (by omega)).2
      have hpos : (0 : K) < ((i + 1 : Nat) : K) := by exact_mod_cast Nat.succ_pos i
      have hq1 : ((hits + 1 : Nat) : K) / ((i + 1 : Nat) : K) < 1 := by
        rw [div_lt_one hpos]; exact_mod_cast (by omega)
      have hc : (((1 : K) :: rs).countP (· == 1) : K) = (rs.countP (· == 1) : K) + 1 := by
        rw [List.countP_cons_of_pos (by simp)]; push_cast; ring
      rw [hc]
      linarith
    · rw [if_neg (by simpa using h), List.countP_cons_of_neg (by simpa using h)]
      exact ih (i + 1) hits s (by omega) (by
        rcases List.mem_cons.1 hr with e | e
        · exact absurd e.symm h
        · exact e)

theorem apLoop_full (rs : List K) (i : Nat) (s : K) :
    apLoop rs i i s = s + (rs.countP (· == 1) : K) ↔
      rs.Pairwise (fun a b => b = 1 → a = 1) := by
  induction rs generalizing i s with
  | nil => simp [apLoop]
  | cons r rs ih =>
    rw [apLoop, List.pairwise_cons]
    by_cases h : r = 1
    · subst h
      have hpos : ((i + 1 : Nat) : K) ≠ 0 := by exact_mod_cast Nat.succ_ne_zero i
      rw [if_pos (by simp), div_self hpos, List.countP_cons_of_pos (by simp)]
      have hc : s + ((rs.countP (· == 1) + 1 : Nat) : K) = (s + 1) + (rs.countP (· == 1) : K) := by
        push_cast; ring
      rw [hc, ih (i + 1) (s + 1)]
      simp
    · rw [if_neg (by simpa using h), List.countP_cons_of_neg (by simpa using h)]
      by_cases hr : (1 : K) ∈ rs
      · have := apLoop_lt rs (i + 1) i s (by omega) hr
        constructor
        · intro e; exact absurd e this.ne
        · rintro ⟨h1, -⟩; exact absurd (h1 1 hr rfl) h
      · have hc : rs.countP (· == (1 : K)) = 0 := by
          rw [List.countP_eq_zero]; intro x hx
          simp only [beq_iff_eq]
          rintro rfl; exact hr hx
        have hb := apLoop_bounds rs (i + 1) i s (by omega)
        rw [hc] at hb ⊢
        have hnot : ∀ x ∈ rs, ¬ x = 1 := by rintro x hx rfl; exact hr hx
        constructor
        · intro _
          refine ⟨fun x hx e => absurd e (hnot x hx), ?_⟩
          rw [List.pairwise_iff_forall_sublist]
          intro a b hab e
          exact absurd e (hnot b (hab.subset (by simp)))
        · intro _
          simp only [Nat.cast_zero, add_zero] at hb ⊢
          exact le_antisymm hb.2 hb.1

end

theorem countRel_eq [BEq α] [One α] (ts : List α) (s : Nat) :
    ts.foldl (fun s y => if y == 1 then s + 1 else s) s = s + ts.countP (· == 1) := by
  induction ts generalizing s with
  | nil => simp
  | cons y ts ih =>
    rw [List.foldl_cons, ih]
    by_cases h : (y == 1) = true
    · rw [if_pos h, List.countP_cons_of_pos (p := (· == 1)) h]; omega
    · rw [if_neg h, List.countP_cons_of_neg (p := (· == 1)) h]

/-- The cutoff `NDCG` uses: `k = -1` and `k > n` mean `n`. -/
def effectiveK (n : Nat) (k : Int) : Nat := if k = -1 ∨ k > n then n else k.toNat

theorem ndcg_eq (srtP : List (ℝ × ℝ) → List (ℝ × ℝ)) (srtR : List ℝ → List ℝ)
    (a b : List ℝ) (ha : a ≠ []) (hl : a.length = b.length) (k : Int) (hk : k = -1 ∨ 0 < k)
    (hr : ∀ r ∈ a, 0 ≤ r) :
    ndcg rpow2 rlog2 srtP srtR (some a) (some b) k
      = (if dcg rpow2 rlog2 (srtR a) (effectiveK a.length k) = 0 then .ok 0
          else .ok (dcg rpow2 rlog2 ((srtP ((a.zip b).map (fun x => (x.2, x.1)))).map Prod.snd)
            (effectiveK a.length k) / dcg rpow2 rlog2 (srtR a) (effectiveK a.length k))) := by
  unfold ndcg
  have hz : (a.zip b).length = a.length := by rw [List.length_zip, ← hl, Nat.min_self]
  rw [clsGuard_some ha hl, if_neg (by omega)]
  dsimp only
  rw [if_neg]
  · rw [hz, List.map_fst_zip hl.le]
    simp only [beq_iff_eq]
    rfl
  · rw [List.any_eq_true]
    rintro ⟨x, hx, hb⟩
    exact absurd (hr x.1 (List.of_mem_zip hx).1) (by simpa using hb)

theorem effectiveK_spec {n : Nat} {k : Int} (hn : 0 < n) (hk : k = -1 ∨ 0 < k) :
    0 < effectiveK n k ∧ effectiveK n k ≤ n := by
  unfold effectiveK
  split_ifs with h <;> omega

/-- relevances in predicted order are a permutation of the relevances -/
theorem ranked_perm (srtP : List (ℝ × ℝ) → List (ℝ × ℝ)) (hP : SortsDesc Prod.fst srtP)
    (a b : List ℝ) (hl : a.length = b.length) :
    ((srtP ((a.zip b).map (fun x => (x.2, x.1)))).map Prod.snd).Perm a := by
  have := ((hP ((a.zip b).map (fun x => (x.2, x.1)))).1).map Prod.snd
  refine this.trans (List.Perm.of_eq ?_)
  rw [List.map_map]
  exact List.map_fst_zip hl.le

theorem ap_eq [LinearOrder α] [Add α] [Div α] [Zero α] [One α] [NatCast α]
    (srt : List (α × α) → List (α × α)) (a b : List α) (ha : a ≠ [])
    (hl : a.length = b.length) (hb : ∀ y ∈ a, y = 0 ∨ y = 1) :
    averagePrecision srt (some a) (some b)
      = if a.countP (· == 1) = 0 then .ok 0
        else .ok (apLoop ((srt ((a.zip b).map (fun x => (x.2, x.1)))).map Prod.snd) 0 0 0
          / ((a.countP (· == 1) : Nat) : α)) := by
  unfold averagePrecision
  rw [clsGuard_some ha hl, if_neg, List.map_fst_zip hl.le]
  · dsimp only
    rw [countRel_eq, zero_add]
  · rw [List.any_eq_true]
    rintro ⟨x, hx, hn⟩
    rcases hb x.1 (List.of_mem_zip hx).1 with h | h <;> simp [notBinary, h] at hn

theorem mapLoop_ok [LinearOrder α] [Add α] [Div α] [Zero α] [One α] [NatCast α]
    (srt : List (α × α) → List (α × α)) (qs : List (Vec α × Vec α)) (vs : List α)
    (h : List.Forall₂ (fun q v => averagePrecision srt q.1 q.2 = .ok v) qs vs) (s : α) :
    mapLoop srt qs s = .ok (vs.foldl (· + ·) s) := by
  induction h generalizing s with
  | nil => rfl
  | cons hq _ ih => rw [mapLoop, hq, Outcome.bind_ok, ih, List.foldl_cons]

theorem forall₂_zip {β γ δ : Type _} {R : β × γ → δ → Prop} :
    ∀ (ts : List β) (ps : List γ) (vs : List δ), ts.length = ps.length → vs.length = ts.length →
      (∀ i (hi : i < ts.length) (hp : i < ps.length) (hv : i < vs.length), R (ts[i], ps[i]) vs[i]) →
      List.Forall₂ R (ts.zip ps) vs
  | [], [], [], _, _, _ => List.Forall₂.nil
  | t :: ts, p :: ps, v :: vs, h1, h2, h => by
    refine List.Forall₂.cons (h 0 (by simp) (by simp) (by simp)) ?_
    refine forall₂_zip ts ps vs (by simpa using h1) (by simpa using h2) ?_
    intro i hi hp hv
    exact h (i + 1) (by simp; omega) (by simp; omega) (by simp; omega)
  | _ :: _, [], _, h, _, _ => by simp at h
  | [], _ :: _, _, h, _, _ => by simp at h
  | [], [], _ :: _, _, h, _ => by simp at h
  | _ :: _, _, [], _, h, _ => by simp at h

end Scigo.Metrics
