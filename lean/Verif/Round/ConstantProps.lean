import Verif.Round.AdwinProps

/-!
# C329: ADWIN on a constant stream in `float64`

In exact arithmetic a constant stream never signals drift (C29).  In `float64` this holds as long as the multiples of the value are exact; for large values the rounding of the sums is taken for drift.
-/

set_option linter.unusedSectionVars false

namespace Scigo.Round

open Scigo.Drift

variable {K : Type} [Field K] [LinearOrder K] [IsStrictOrderedRing K] {R : Rounding K}

/-! ## Helpers -/

/-- specification: the buckets of sklearn/drift/ddm.go:239-242 hold multiples of `c`, at most `n` values in all -/
def ConstBuckets (c : Fl R) (n : Nat) (bs : List (Bucket (Fl R))) : Prop :=
  (∀ b ∈ bs, b.sum.val = b.count * c.val) ∧ (bs.map (·.count)).sum ≤ n

theorem ConstBuckets.sub {c : Fl R} {n : Nat} {bs bs' : List (Bucket (Fl R))} (h : ConstBuckets c n bs) (hs : bs'.Sublist bs) : ConstBuckets c n bs' :=
  ⟨fun b hb => h.1 b (hs.subset hb), le_trans ((hs.map _).sum_le_sum (fun _ _ => Nat.zero_le _)) h.2⟩

theorem const_totals {c : Fl R} {n : Nat} (hc : ∀ k : Nat, k ≤ n → R.rnd (k * c.val) = k * c.val) (bs : List (Bucket (Fl R))) (a : Fl R) (k : Nat) (ha : a.val = k * c.val)
    (hb : ∀ b ∈ bs, b.sum.val = b.count * c.val) (hn : k + (bs.map (·.count)).sum ≤ n) :
    (bs.foldl (fun acc b => (acc.1 + b.sum, acc.2 + b.count)) (a, k)).1.val = ((bs.foldl (fun acc b => (acc.1 + b.sum, acc.2 + b.count)) (a, k)).2 : K) * c.val ∧
      (bs.foldl (fun acc b => (acc.1 + b.sum, acc.2 + b.count)) (a, k)).2 = k + (bs.map (·.count)).sum := by
  induction bs generalizing a k with
  | nil => simpa using ha
  | cons b bs ih =>
    simp only [List.map_cons, List.sum_cons] at hn
    have h1 : (a + b.sum).val = ((k + b.count : Nat) : K) * c.val := by
      rw [Fl.val_add, ha, hb b (by simp), ← add_mul, ← Nat.cast_add]
      exact hc _ (by omega)
    have := ih (a + b.sum) (k + b.count) h1 (fun x hx => hb x (by simp [hx])) (by omega)
    simp only [List.foldl_cons, List.map_cons, List.sum_cons]
    refine ⟨this.1, this.2.trans (by omega)⟩

theorem const_mean {c : Fl R} {n : Nat} (hc : ∀ k : Nat, k ≤ n → R.rnd (k * c.val) = k * c.val) (hN : ∀ k : Nat, k ≤ n → R.rnd (k : K) = k) (bs : List (Bucket (Fl R))) (h : ConstBuckets c n bs)
    (hp : (bucketTotals bs).2 ≠ 0) : bucketMean (bucketTotals bs) = c := by
  obtain ⟨h1, h2⟩ := const_totals hc bs 0 0 (by simp) h.1 (by simpa using h.2)
  change (bucketTotals bs).1.val = ((bucketTotals bs).2 : K) * c.val at h1
  change (bucketTotals bs).2 = _ at h2
  unfold bucketMean
  rw [if_pos (Nat.pos_of_ne_zero hp)]
  refine Fl.ext ?_
  rw [Fl.val_div, h1, Fl.val_natCast, hN _ (by rw [h2]; simpa using h.2), mul_div_cancel_left₀ _ (Nat.cast_ne_zero.2 hp), c.rep]

theorem const_detect {c : Fl R} {n : Nat} (hc : ∀ k : Nat, k ≤ n → R.rnd (k * c.val) = k * c.val) (hN : ∀ k : Nat, k ≤ n → R.rnd (k : K) = k) (sqrt log abs : Fl R → Fl R) (hs : ∀ x, 0 ≤ sqrt x) (habs : abs 0 = 0)
    (half two : Fl R) (s : ADWIN (Fl R)) (h : ConstBuckets c n s.buckets) : s.detectDrift sqrt log abs half two = (false, s) := by
  unfold ADWIN.detectDrift
  split
  · rfl
  · split
    · rfl
    · have : (List.range' 1 (s.buckets.length - 1)).find? (splitDrifts sqrt log abs half two s.delta s.buckets) = none := by
        rw [List.find?_eq_none]
        intro i _
        unfold splitDrifts
        dsimp only
        split
        · simp
        · rename_i hne
          rw [not_or] at hne
          rw [const_mean hc hN _ (h.sub (List.take_sublist _ _)) hne.1, const_mean hc hN _ (h.sub (List.drop_sublist _ _)) hne.2, Fl.sub_self', habs]
          rw [decide_eq_true_iff, not_lt]
          unfold hoeffding
          split
          · exact le_rfl
          · exact hs _
      rw [this]

theorem const_push {c : Fl R} {n : Nat} (hc : ∀ k ≤ n + 1, R.rnd (k * c.val) = k * c.val) (bs : List (Bucket (Fl R))) (h : ConstBuckets c n bs) : ConstBuckets c (n + 1) (pushBucket bs c) := by
  have plain : ConstBuckets c (n + 1) (bs ++ [⟨c, 1⟩]) := by
    refine ⟨fun b hb => ?_, by have := h.2; simp; omega⟩
    rcases List.mem_append.1 hb with hb | hb
    · exact h.1 b hb
    · rw [List.mem_singleton.1 hb]; simp
  unfold pushBucket
  split
  · exact plain
  · rename_i last hl
    split
    · obtain ⟨l, rfl⟩ := List.getLast?_eq_some_iff.1 hl
      have hsum : ((l.map (·.count)).sum + last.count) ≤ n := by have := h.2; simpa using this
      refine ⟨fun b hb => ?_, by simp; omega⟩
      rw [List.dropLast_concat] at hb
      rcases List.mem_append.1 hb with hb | hb
      · exact h.1 b (by simp [hb])
      · rw [List.mem_singleton.1 hb]
        dsimp only
        rw [Fl.val_add, h.1 last (by simp), ← add_one_mul, ← Nat.cast_add_one]
        exact hc _ (by omega)
    · exact plain

theorem const_add {c : Fl R} {n : Nat} (hc : ∀ k ≤ n + 1, R.rnd (k * c.val) = k * c.val) (s : ADWIN (Fl R)) (h : ConstBuckets c n s.buckets) : ConstBuckets c (n + 1) (s.addElement c).buckets := by
  have hp := const_push hc s.buckets h
  unfold ADWIN.addElement
  dsimp only
  split
  · unfold ADWIN.removeOldest
    split
    · exact hp
    · rename_i b bs e
      dsimp only at e ⊢
      exact hp.sub (e ▸ List.sublist_cons_self b bs)
  · exact hp

/-- **C329 (partial: the multiples of the value have to be exact).** If all values are the same and their multiples up to the number of calls are exact, no call of `Update` signals drift: for every history of `Update` and
`Reset`, every rounding and every square root that is not negative. -/
theorem adwin_constant_partial (c : Fl R) (hist : List (AdwinCall (Fl R))) (hc : ∀ k : Nat, k ≤ hist.length + 1 → R.rnd (k * c.val) = k * c.val) (hN : ∀ k : Nat, k ≤ hist.length + 1 → R.rnd (k : K) = k)
    (sqrt log abs : Fl R → Fl R) (hs : ∀ x, 0 ≤ sqrt x) (habs : abs 0 = 0) (half two delta : Fl R) (mb : Int) (hall : ∀ v, AdwinCall.update v ∈ hist → v = c) :
    ((runADWIN sqrt log abs half two hist (ADWIN.new delta mb)).update sqrt log abs half two c).1 = false := by
  have key : ∀ (l : List (AdwinCall (Fl R))) (s : ADWIN (Fl R)) (n : Nat), n + l.length ≤ hist.length → (∀ v, AdwinCall.update v ∈ l → v = c) → ConstBuckets c n s.buckets →
      ConstBuckets c (n + l.length) (runADWIN sqrt log abs half two l s).buckets := by
    intro l
    induction l with
    | nil => exact fun s n _ _ h => h
    | cons a l ih =>
      intro s n hn hl h
      simp only [List.length_cons] at hn ⊢
      rw [show n + (l.length + 1) = n + 1 + l.length by omega]
      cases a with
      | update v =>
        have hv : v = c := hl v (by simp)
        subst hv
        have h1 := const_add (fun k hk => hc k (by omega)) s h
        have h2 := const_detect (fun k hk => hc k (by omega)) (fun k hk => hN k (by omega)) sqrt log abs hs habs half two (s.addElement v) h1
        refine ih (s.update sqrt log abs half two v).2 (n + 1) (by omega) (fun w hw => hl w (by simp [hw])) ?_
        unfold ADWIN.update
        rw [h2]
        exact h1
      | reset =>
        exact ih s.reset (n + 1) (by omega) (fun w hw => hl w (by simp [hw])) ⟨by simp [ADWIN.reset], by simp [ADWIN.reset]⟩
  have h := key hist (ADWIN.new delta mb) 0 (by omega) hall ⟨by simp [ADWIN.new], by simp [ADWIN.new]⟩
  rw [Nat.zero_add] at h
  have h1 := const_add (fun k hk => hc k (by omega)) _ h
  unfold ADWIN.update
  rw [const_detect hc hN sqrt log abs hs habs half two _ h1]

/-- the fifth of five equal values signals drift if the rounding of the sum of three of them exceeds the bound for windows of two and three values -/
theorem adwin_fifth (sqrt log abs : Fl R → Fl R) (half two delta c : Fl R)
    (hb : hoeffding sqrt log half two delta 2 3 < abs ((0 + (c + c)) / ((2 : Nat) : Fl R) - ((0 + (c + c)) + c) / ((3 : Nat) : Fl R))) :
    ((runADWIN sqrt log abs half two [.update c, .update c, .update c, .update c] (ADWIN.new delta 1000)).update sqrt log abs half two c).1 = true := by
  have h4 : runADWIN sqrt log abs half two [.update c, .update c, .update c, .update c] (ADWIN.new delta 1000) =
      ⟨delta, 1000, [⟨c + c, 2⟩, ⟨c + c, 2⟩], 0 + c + c + c + c, 4, 4⟩ := by
    simp [runADWIN, ADWIN.new, ADWIN.update, ADWIN.addElement, pushBucket, ADWIN.detectDrift]
  rw [h4]
  have h5 : splitDrifts sqrt log abs half two delta [⟨c + c, 2⟩, ⟨c + c, 2⟩, ⟨c, 1⟩] 1 = true := by
    unfold splitDrifts
    exact decide_eq_true hb
  simp [ADWIN.update, ADWIN.addElement, pushBucket, ADWIN.detectDrift, List.range', h5]

/-- **C329, what does not hold.** The value 1600000000000000512, a time in nanoseconds, five times in a row: the fifth `Update` signals drift, if only the bound for windows of two and three values is below 200 (it is about
1.7 for the default confidence 0.002). -/
theorem adwin_constant_alarm (sqrt log : Fl Binary64.rounding → Fl Binary64.rounding) (half two delta : Fl Binary64.rounding) (hb : hoeffding sqrt log half two delta 2 3 < Binary64.lit 200) :
    ((runADWIN sqrt log Fl.abs half two (List.replicate 4 (.update (Binary64.lit 1600000000000000512))) (ADWIN.new delta 1000)).update sqrt log Fl.abs half two
      (Binary64.lit 1600000000000000512)).1 = true := by
  refine adwin_fifth sqrt log Fl.abs half two delta _ (lt_of_lt_of_le hb ?_)
  decide +kernel

/-- the value is a `float64` -/
example : (Binary64.lit 1600000000000000512).val = 1600000000000000512 := by decide +kernel

/-- the bound is below 200 for a square root and a logarithm that are larger than the true ones -/
example : hoeffding (fun x => x + 1) (fun x => x / Binary64.lit 100) (Binary64.lit (1 / 2)) (Binary64.lit 2) (Binary64.lit (2 / 1000)) 2 3 < Binary64.lit 200 := by decide +kernel

/-- the hypotheses of `adwin_constant_partial` are met by the value 0.5 and histories of up to a million calls -/
example : ∀ k : Nat, k ≤ 1000000 → Binary64.rounding.rnd ((k : ℚ) * (Binary64.lit (1 / 2)).val) = k * (Binary64.lit (1 / 2)).val ∧ Binary64.rounding.rnd (k : ℚ) = k := by
  intro k hk
  have h2 : (Binary64.lit (1 / 2)).val = 1 / 2 := by decide +kernel
  refine ⟨?_, Binary64.nat_exact k (by omega)⟩
  rw [h2]
  have := Binary64.rnd_exact k (-1) (by rw [Nat.abs_cast]; exact_mod_cast (show k < 2 ^ 53 by omega)) (by norm_num)
  rw [Binary64.pow2_eq] at this
  have e : ((k : Int) : ℚ) * (2 : ℚ) ^ (-1 : Int) = k * (1 / 2) := by norm_num
  rw [e] at this
  exact this

end Scigo.Round
