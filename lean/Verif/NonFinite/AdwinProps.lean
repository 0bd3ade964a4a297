import Verif.NonFinite.MetricsProps
import Verif.Drift.Spec

/-!
# C300: an adaptive window forgets a missing value
-/

namespace Scigo.NonFinite

open Scigo.Drift F64

/-- did some update of a run report drift (the result of `Update`, sklearn/drift/ddm.go:277-286) -/
def driftIn (sqrt log abs : F64 → F64) (half two : F64) : List F64 → ADWIN F64 → Bool
  | [], _ => false
  | v :: vs, s => (s.update sqrt log abs half two v).1 || driftIn sqrt log abs half two vs (s.update sqrt log abs half two v).2

/-- the state after a run of updates (`Update`, sklearn/drift/ddm.go:277-286) -/
def updates (sqrt log abs : F64 → F64) (half two : F64) (vs : List F64) (s : ADWIN F64) : ADWIN F64 :=
  vs.foldl (fun s v => (s.update sqrt log abs half two v).2) s

theorem addElement_nan (v : F64) (s : ADWIN F64) (h : s.totalSum = nan ∨ v = nan) : (s.addElement v).totalSum = nan := by
  have h1 : s.totalSum + v = nan := by
    rcases h with h | h <;> rw [h]
    · exact nan_add _
    · exact add_nan _
  unfold ADWIN.addElement
  dsimp only
  split
  · unfold ADWIN.removeOldest
    dsimp only
    split
    · exact h1
    · show s.totalSum + v - _ = nan
      rw [h1, nan_sub]
  · exact h1

theorem detect_false (sqrt log abs : F64 → F64) (half two : F64) (s : ADWIN F64) (h : (s.detectDrift sqrt log abs half two).1 = false) :
    (s.detectDrift sqrt log abs half two).2 = s := by
  unfold ADWIN.detectDrift at h ⊢
  split
  · rfl
  · split
    · rfl
    · rename_i h1 h2
      rw [if_neg h1, if_neg h2] at h
      split
      · rfl
      · rename_i h3
        rw [h3] at h
        cases h

theorem updates_nan (sqrt log abs : F64 → F64) (half two : F64) (vs : List F64) (s : ADWIN F64) (h : s.totalSum = nan ∨ nan ∈ vs)
    (hd : driftIn sqrt log abs half two vs s = false) : (updates sqrt log abs half two vs s).totalSum = nan := by
  induction vs generalizing s with
  | nil => exact h.resolve_right (by simp)
  | cons v vs ih =>
    rw [driftIn, Bool.or_eq_false_iff] at hd
    show (updates sqrt log abs half two vs (s.update sqrt log abs half two v).2).totalSum = nan
    refine ih _ ?_ hd.2
    have e : (s.update sqrt log abs half two v).2 = s.addElement v := detect_false _ _ _ _ _ _ hd.1
    rw [e]
    rcases h with h | h
    · exact Or.inl (addElement_nan v s (Or.inl h))
    · rcases List.mem_cons.1 h with h | h
      · exact Or.inl (addElement_nan v s (Or.inr h.symm))
      · exact Or.inr h

/-- **C300**, negation: once `Update` was given NaN, `GetMean` is NaN after every further run of updates without drift, however long, also when the window holds only
later values. -/
theorem missing_value_in_mean (sqrt log abs : F64 → F64) (half two : F64) (s : ADWIN F64) (vs : List F64) (hv : nan ∈ vs)
    (hd : driftIn sqrt log abs half two vs s = false) (h0 : (updates sqrt log abs half two vs s).totalCount ≠ 0) :
    (updates sqrt log abs half two vs s).mean = nan := by
  unfold ADWIN.mean
  rw [if_neg h0, updates_nan sqrt log abs half two vs s (Or.inr hv) hd, nan_div]

theorem totals_nan (bs : List (Bucket F64)) (h : ∃ b ∈ bs, b.sum = nan) : (bucketTotals bs).1 = nan := by
  have key : ∀ (bs : List (Bucket F64)) (a : F64 × Nat), ((∃ b ∈ bs, b.sum = nan) ∨ a.1 = nan) →
      (bs.foldl (fun acc b => (acc.1 + b.sum, acc.2 + b.count)) a).1 = nan := by
    intro bs
    induction bs with
    | nil =>
      rintro a (⟨b, hb, -⟩ | h)
      · cases hb
      · exact h
    | cons c bs ih =>
      intro a h
      rw [List.foldl_cons]
      apply ih
      rcases h with ⟨b, hb, e⟩ | h
      · rcases List.mem_cons.1 hb with rfl | hb
        · right
          show a.1 + b.sum = nan
          rw [e, add_nan]
        · exact Or.inl ⟨b, hb, e⟩
      · right
        show a.1 + c.sum = nan
        rw [h, nan_add]
  exact key bs _ (Or.inl h)

/-- **C300**, negation, continued: as long as NaN is in the window (in the sum of one of its buckets), no update reports drift. -/
theorem missing_value_hides_drift (sqrt log abs : F64 → F64) (habs : abs nan = nan) (half two : F64) (s : ADWIN F64) (h : ∃ b ∈ s.buckets, b.sum = nan) :
    s.detectDrift sqrt log abs half two = (false, s) := by
  unfold ADWIN.detectDrift
  split
  · rfl
  · split
    · rfl
    · have hf : (List.range' 1 (s.buckets.length - 1)).find? (splitDrifts sqrt log abs half two s.delta s.buckets) = none := by
        rw [List.find?_eq_none]
        intro i _ hsd
        unfold splitDrifts at hsd
        dsimp only at hsd
        split at hsd
        · cases hsd
        · rename_i hc
          rw [not_or] at hc
          have hm : bucketMean (bucketTotals (s.buckets.take i)) - bucketMean (bucketTotals (s.buckets.drop i)) = nan := by
            obtain ⟨b, hb, e⟩ := h
            rw [← List.take_append_drop i s.buckets] at hb
            unfold bucketMean
            rw [if_pos (Nat.pos_of_ne_zero hc.1), if_pos (Nat.pos_of_ne_zero hc.2)]
            rcases List.mem_append.1 hb with hb | hb
            · rw [totals_nan _ ⟨b, hb, e⟩, nan_div, nan_sub]
            · rw [totals_nan _ ⟨b, hb, e⟩, nan_div, sub_nan]
          rw [hm, habs] at hsd
          exact not_lt_nan _ (of_decide_eq_true hsd)
      rw [hf]

/-- **C300**, negation, continued: with at most one bucket, after NaN, 1, 1 the window holds the last value 1 only and `GetMean` is NaN; this does not depend on
`sqrt` and `log`, as there are too few values for a drift test. -/
theorem mean_of_number_not_a_number (sqrt log : F64 → F64) (delta : F64) :
    let s := runADWIN sqrt log F64.abs (F64.round (1 / 2)) (F64.round 2) [.update nan, .update 1, .update 1] (ADWIN.new delta 1)
    s.width = 1 ∧ s.buckets = [⟨1, 1⟩] ∧ s.mean = nan := by
  intro s
  have hs : s = (((ADWIN.new delta 1).addElement nan).addElement 1).addElement 1 := by
    have few : ∀ t : ADWIN F64, t.totalCount < 5 → (t.detectDrift sqrt log F64.abs (F64.round (1 / 2)) (F64.round 2)).2 = t := by
      intro t ht
      unfold ADWIN.detectDrift
      split
      · rfl
      · first | rfl | rw [if_pos ht]
    show ((((ADWIN.new delta 1).update sqrt log F64.abs _ _ nan).2.update sqrt log F64.abs _ _ 1).2.update sqrt log F64.abs _ _ 1).2 = _
    unfold ADWIN.update
    rw [few ((ADWIN.new delta 1).addElement nan) (show (1 : Nat) < 5 by decide), few (((ADWIN.new delta 1).addElement nan).addElement 1) (show (2 : Nat) < 5 by decide),
      few ((((ADWIN.new delta 1).addElement nan).addElement 1).addElement 1) (show (1 : Nat) < 5 by decide)]
  rw [hs]
  refine ⟨rfl, rfl, ?_⟩
  unfold ADWIN.mean
  rw [addElement_nan 1 _ (Or.inl (addElement_nan 1 _ (Or.inl (addElement_nan nan _ (Or.inr rfl)))))]
  rfl

/-- **C300** (partial): an update that reports drift, and `Reset`, repair the mean: afterwards the sum is that of the buckets in the window, so it is a number if they are
and do not overflow. Missing: runs without drift (`missing_value_in_mean`). -/
theorem drift_repairs_partial (sqrt log abs : F64 → F64) (habs : abs nan = nan) (half two v : F64) (s : ADWIN F64) (h : (s.update sqrt log abs half two v).1 = true) :
    let s' := (s.update sqrt log abs half two v).2
    (s'.totalSum = s'.buckets.foldl (fun a b => a + b.sum) 0 ∧ s'.totalCount = (s'.buckets.map (·.count)).sum ∧ ∀ b ∈ s'.buckets, b.sum ≠ nan) ∧
    s.reset.mean = 0 := by
  refine ⟨?_, rfl⟩
  have key : ∀ (bs : List (Bucket F64)) (a : F64 × Nat), bs.foldl (fun acc b => (acc.1 + b.sum, acc.2 + b.count)) a =
      (bs.foldl (fun a b => a + b.sum) a.1, a.2 + (bs.map (·.count)).sum) := by
    intro bs
    induction bs with
    | nil => intro a; rfl
    | cons b bs ih => intro a; rw [List.foldl_cons, ih, List.foldl_cons, List.map_cons, List.sum_cons, Nat.add_assoc]
  have hno : ∀ t : ADWIN F64, (t.detectDrift sqrt log abs half two).1 = true →
      let t' := (t.detectDrift sqrt log abs half two).2
      t'.totalSum = t'.buckets.foldl (fun a b => a + b.sum) 0 ∧ t'.totalCount = (t'.buckets.map (·.count)).sum := by
    intro t ht
    unfold ADWIN.detectDrift at ht ⊢
    split at ht
    · cases ht
    · split at ht
      · cases ht
      · rename_i h1 h2
        rw [if_neg h1, if_neg h2]
        split at ht
        · cases ht
        · rename_i i h3
          dsimp only
          unfold bucketTotals
          rw [key]
          exact ⟨rfl, Nat.zero_add _⟩
  have hmem : ∀ t : ADWIN F64, ∀ b ∈ (t.detectDrift sqrt log abs half two).2.buckets, b ∈ t.buckets := by
    intro t
    unfold ADWIN.detectDrift
    split
    · exact fun b hb => hb
    · split
      · exact fun b hb => hb
      · split
        · exact fun b hb => hb
        · exact fun b hb => List.mem_of_mem_drop hb
  obtain ⟨a1, a2⟩ := hno _ h
  refine ⟨a1, a2, fun b hb e => ?_⟩
  have := missing_value_hides_drift sqrt log abs habs half two (s.addElement v) ⟨b, hmem _ b hb, e⟩
  have h' : ((s.addElement v).detectDrift sqrt log abs half two).1 = true := h
  rw [this] at h'
  cases h'

end Scigo.NonFinite
