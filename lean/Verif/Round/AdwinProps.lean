import Verif.Base.Binary64
import Verif.Drift.Spec
import Mathlib.Algebra.Order.BigOperators.Group.List
import Mathlib.Data.List.Flatten

/-!
# C286: the mean of the adaptive window with every operation rounded
-/

set_option linter.unusedSectionVars false

namespace Scigo.Round

open Scigo.Drift

variable {K : Type _} [Field K] [LinearOrder K] [IsStrictOrderedRing K] {R : Rounding K} {B : K}

/-! ## Exact sums of whole numbers -/

/-- whole numbers whose absolute values add up to at most `B` -/
def InRange (B : K) (l : List (Fl R)) : Prop := (∀ v ∈ l, ∃ z : Int, v.val = z) ∧ (l.map (fun v => |v.val|)).sum ≤ B

/-- the exact sum -/
def exactSum (l : List (Fl R)) : K := (l.map Fl.val).sum

theorem exactSum_append (l m : List (Fl R)) : exactSum (l ++ m) = exactSum l + exactSum m := by simp [exactSum]

theorem InRange.sub {l m : List (Fl R)} (h : InRange B m) (hs : l.Sublist m) : InRange B l :=
  ⟨fun v hv => h.1 v (hs.subset hv), ((hs.map _).sum_le_sum (by
    intro x hx
    obtain ⟨v, -, rfl⟩ := List.mem_map.1 hx
    exact abs_nonneg _)).trans h.2⟩

theorem exactSum_spec (l : List (Fl R)) (h : ∀ v ∈ l, ∃ z : Int, v.val = z) :
    (∃ z : Int, exactSum l = z) ∧ |exactSum l| ≤ (l.map (fun v => |v.val|)).sum := by
  induction l with
  | nil => exact ⟨⟨0, by simp [exactSum]⟩, by simp [exactSum]⟩
  | cons v l ih =>
    obtain ⟨⟨z, hz⟩, h2⟩ := ih (fun x hx => h x (by simp [hx]))
    obtain ⟨y, hy⟩ := h v (by simp)
    have e : exactSum (v :: l) = v.val + exactSum l := by simp [exactSum]
    refine ⟨⟨y + z, by rw [e, hy, hz]; push_cast; rfl⟩, ?_⟩
    rw [e, List.map_cons, List.sum_cons]
    exact (abs_add_le _ _).trans (by linarith)

theorem exactSum_rnd (hB : ∀ z : Int, |(z : K)| ≤ B → R.rnd z = z) (l : List (Fl R)) (h : InRange B l) : R.rnd (exactSum l) = exactSum l := by
  obtain ⟨⟨z, hz⟩, h2⟩ := exactSum_spec l h.1
  rw [hz]
  exact hB z (by rw [← hz]; exact h2.trans h.2)

/-- a bucket holds the values `c` -/
def Holds (b : Bucket (Fl R)) (c : List (Fl R)) : Prop := b.sum.val = exactSum c ∧ b.count = c.length

/-- the state describes the window `cs.flatten`, a suffix of `vals` -/
structure Window (s : ADWIN (Fl R)) (cs : List (List (Fl R))) (vals : List (Fl R)) : Prop where
  hb : List.Forall₂ Holds s.buckets cs
  hs : s.totalSum.val = exactSum cs.flatten
  hc : s.totalCount = cs.flatten.length
  hw : s.width = cs.flatten.length
  hsuf : cs.flatten <:+ vals

theorem totals_aux (hB : ∀ z : Int, |(z : K)| ≤ B → R.rnd z = z) (bs : List (Bucket (Fl R))) (cs : List (List (Fl R)))
    (h : List.Forall₂ Holds bs cs) : ∀ (pre : List (Fl R)) (a : Fl R) (n : Nat), a.val = exactSum pre → n = pre.length → InRange B (pre ++ cs.flatten) →
      (bs.foldl (fun acc b => (acc.1 + b.sum, acc.2 + b.count)) (a, n)).1.val = exactSum (pre ++ cs.flatten) ∧
      (bs.foldl (fun acc b => (acc.1 + b.sum, acc.2 + b.count)) (a, n)).2 = (pre ++ cs.flatten).length := by
  induction h with
  | nil => intro pre a n ha hn _; simpa using ⟨ha, hn⟩
  | @cons b c bs cs hbc hf ih =>
    intro pre a n ha hn hr
    rw [List.flatten_cons, ← List.append_assoc] at hr ⊢
    rw [List.foldl_cons]
    refine ih (pre ++ c) _ _ ?_ ?_ hr
    · dsimp only
      rw [Fl.val_add, ha, hbc.1, ← exactSum_append]
      exact exactSum_rnd hB _ (hr.sub (List.sublist_append_left _ _))
    · dsimp only
      rw [hn, hbc.2, List.length_append]

theorem push_holds (hB : ∀ z : Int, |(z : K)| ≤ B → R.rnd z = z) (bs : List (Bucket (Fl R))) (cs : List (List (Fl R))) (v : Fl R)
    (h : List.Forall₂ Holds bs cs) (hr : InRange B (cs.flatten ++ [v])) :
    ∃ cs', List.Forall₂ Holds (pushBucket bs v) cs' ∧ cs'.flatten = cs.flatten ++ [v] := by
  have single : Holds (⟨v, 1⟩ : Bucket (Fl R)) [v] := ⟨by simp [exactSum], rfl⟩
  have plain : ∃ cs', List.Forall₂ Holds (bs ++ [⟨v, 1⟩]) cs' ∧ cs'.flatten = cs.flatten ++ [v] :=
    ⟨cs ++ [[v]], List.rel_append h (.cons single .nil), by simp⟩
  unfold pushBucket
  cases hg : bs.getLast? with
  | none => exact plain
  | some last =>
    dsimp only
    split
    · obtain ⟨ys, rfl⟩ := List.getLast?_eq_some_iff.1 hg
      rw [List.dropLast_concat]
      have e := List.take_append_drop ys.length cs
      have h1 := List.forall₂_take_append cs ys [last] (List.Forall₂.flip h)
      have h2 := List.forall₂_drop_append cs ys [last] (List.Forall₂.flip h)
      generalize cs.take ys.length = cs1 at *
      generalize cs.drop ys.length = cs2 at *
      subst e
      cases h2 with
      | @cons c _ _ _ hc hn =>
        cases hn
        refine ⟨cs1 ++ [c ++ [v]], List.rel_append (List.Forall₂.flip h1) (.cons ⟨?_, ?_⟩ .nil), by simp⟩
        · dsimp only
          have : last.sum.val + v.val = exactSum (c ++ [v]) := by rw [exactSum_append, hc.1]; simp [exactSum]
          rw [Fl.val_add, this]
          refine exactSum_rnd hB _ (hr.sub ?_)
          rw [List.flatten_append, List.flatten_singleton, List.append_assoc]
          exact List.sublist_append_right _ _
        · dsimp only
          rw [hc.2, List.length_append]
          rfl
    · exact plain

theorem detect_window (hB : ∀ z : Int, |(z : K)| ≤ B → R.rnd z = z) (sqrt log abs : Fl R → Fl R) (half two : Fl R) (s : ADWIN (Fl R))
    (cs : List (List (Fl R))) (vals : List (Fl R)) (h : Window s cs vals) (hr : InRange B vals) :
    ∃ cs', Window (s.detectDrift sqrt log abs half two).2 cs' vals := by
  unfold ADWIN.detectDrift
  split
  · exact ⟨cs, h⟩
  · split
    · exact ⟨cs, h⟩
    · split
      · exact ⟨cs, h⟩
      · rename_i i _
        have hf := List.forall₂_drop i h.hb
        have hsuf : (cs.drop i).flatten <:+ vals := by
          refine List.IsSuffix.trans ⟨(cs.take i).flatten, ?_⟩ h.hsuf
          rw [← List.flatten_append, List.take_append_drop]
        obtain ⟨t1, t2⟩ := totals_aux hB _ _ hf [] 0 0 (by simp [exactSum]) rfl (hr.sub hsuf.sublist)
        exact ⟨cs.drop i, hf, t1, t2, t2, hsuf⟩

theorem add_window (hB : ∀ z : Int, |(z : K)| ≤ B → R.rnd z = z) (s : ADWIN (Fl R)) (cs : List (List (Fl R))) (vals : List (Fl R)) (v : Fl R)
    (h : Window s cs vals) (hr : InRange B (vals ++ [v])) : ∃ cs', Window (s.addElement v) cs' (vals ++ [v]) := by
  have hsuf : cs.flatten ++ [v] <:+ vals ++ [v] := by
    obtain ⟨t, ht⟩ := h.hsuf
    exact ⟨t, by rw [← ht]; simp⟩
  have hr' := hr.sub hsuf.sublist
  obtain ⟨cs', hp, hfl⟩ := push_holds hB s.buckets cs v h.hb hr'
  have hsum : (s.totalSum + v).val = exactSum (cs.flatten ++ [v]) := by
    have : s.totalSum.val + v.val = exactSum (cs.flatten ++ [v]) := by rw [exactSum_append, h.hs]; simp [exactSum]
    rw [Fl.val_add, this]
    exact exactSum_rnd hB _ hr'
  rw [← hfl] at hsum hr' hsuf
  have hlen : cs'.flatten.length = cs.flatten.length + 1 := by rw [hfl]; simp
  unfold ADWIN.addElement
  dsimp only
  generalize pushBucket s.buckets v = bs at *
  split
  · unfold ADWIN.removeOldest
    dsimp only
    cases hp with
    | nil => exact ⟨[], .nil, hsum, by rw [h.hc, hlen], by rw [h.hw, hlen], hsuf⟩
    | @cons b c bs cs' hbc hf =>
      rw [List.flatten_cons] at hsum hr' hsuf hlen
      rw [List.length_append] at hlen
      refine ⟨cs', hf, ?_, ?_, ?_, (List.suffix_append _ _).trans hsuf⟩
      · dsimp only
        have : (s.totalSum + v).val - b.sum.val = exactSum cs'.flatten := by rw [hsum, hbc.1, exactSum_append]; ring
        rw [Fl.val_sub, this]
        exact exactSum_rnd hB _ (hr'.sub (List.sublist_append_right _ _))
      · dsimp only
        rw [h.hc, hbc.2]
        omega
      · dsimp only
        rw [h.hw, hbc.2]
        omega
  · exact ⟨cs', hp, hsum, by rw [h.hc, hlen], by rw [h.hw, hlen], hsuf⟩

/-- the values of all the updates of a history -/
def updatesOf (hist : List (AdwinCall (Fl R))) : List (Fl R) :=
  hist.filterMap (fun c => match c with | .update v => some v | .reset => none)

theorem run_window (hB : ∀ z : Int, |(z : K)| ≤ B → R.rnd z = z) (sqrt log abs : Fl R → Fl R) (half two δ : Fl R) (mb : Int)
    (hist : List (AdwinCall (Fl R))) (hr : InRange B (updatesOf hist)) :
    (valuesOf hist).Sublist (updatesOf hist) ∧
      ∃ cs, Window (runADWIN sqrt log abs half two hist (ADWIN.new δ mb)) cs (valuesOf hist) := by
  induction hist using List.reverseRecOn with
  | nil => exact ⟨List.Sublist.refl _, [], .nil, by simp [runADWIN, ADWIN.new, exactSum], rfl, rfl, List.suffix_refl _⟩
  | append_singleton hist c ih =>
    have e0 : updatesOf (hist ++ [c]) = updatesOf hist ++ updatesOf [c] := by unfold updatesOf; rw [List.filterMap_append]
    obtain ⟨hsub, cs, hw⟩ := ih (hr.sub (by rw [e0]; exact List.sublist_append_left _ _))
    unfold runADWIN valuesOf at *
    rw [List.foldl_append, List.foldl_append, List.foldl_cons, List.foldl_nil, List.foldl_cons, List.foldl_nil]
    cases c with
    | update v =>
      have e1 : updatesOf [AdwinCall.update v] = [v] := rfl
      rw [e0, e1] at hr ⊢
      have hs := List.Sublist.append hsub (List.Sublist.refl [v])
      obtain ⟨cs1, h1⟩ := add_window hB _ cs _ v hw (hr.sub hs)
      exact ⟨hs, detect_window hB sqrt log abs half two _ cs1 _ h1 (hr.sub hs)⟩
    | reset => exact ⟨List.nil_sublist _, [], .nil, by simp [ADWIN.reset, exactSum], rfl, rfl, List.suffix_refl _⟩

/-! ## The property -/

/-- **C286** (partial): with every operation rounded, as long as all values are whole numbers whose absolute values add up to at most `B`, and
whole numbers up to `B` and up to the number of calls are representable, the mean that `GetMean` returns after any history is the exact mean
of the last `GetWidth` values since the last `Reset`, rounded once. Missing: other values, for which the error of buckets that left the
window remains in the sum (`adwin_mean_forgets`). -/
theorem adwin_whole_numbers_partial (hB : ∀ z : Int, |(z : K)| ≤ B → R.rnd z = z) (sqrt log abs : Fl R → Fl R) (half two δ : Fl R) (mb : Int)
    (hist : List (AdwinCall (Fl R))) (hint : ∀ v, AdwinCall.update v ∈ hist → ∃ z : Int, v.val = z)
    (hsum : ((updatesOf hist).map (fun v => |v.val|)).sum ≤ B) (hn : ∀ m ≤ hist.length, R.rnd (m : K) = m) :
    let s := runADWIN sqrt log abs half two hist (ADWIN.new δ mb)
    let vals := valuesOf hist
    s.width ≤ vals.length ∧ s.mean.val = R.rnd (((vals.drop (vals.length - s.width)).map Fl.val).sum / (s.width : K)) := by
  intro s vals
  have hmem : ∀ v ∈ updatesOf hist, ∃ z : Int, v.val = z := by
    intro v hv
    obtain ⟨c, hc, e⟩ := List.mem_filterMap.1 hv
    cases c with
    | update w =>
      dsimp only at e
      obtain rfl := Option.some.inj e
      exact hint _ hc
    | reset => cases e
  obtain ⟨hsub, cs, h⟩ := run_window hB sqrt log abs half two δ mb hist ⟨hmem, hsum⟩
  have hw : s.width = cs.flatten.length := h.hw
  have hle : cs.flatten.length ≤ vals.length := h.hsuf.length_le
  refine ⟨by rw [hw]; exact hle, ?_⟩
  have hdrop : vals.drop (vals.length - s.width) = cs.flatten := by
    rw [hw]; exact (List.suffix_iff_eq_drop.1 h.hsuf).symm
  rw [hdrop, hw]
  have hlen : cs.flatten.length ≤ hist.length :=
    hle.trans (hsub.length_le.trans (List.length_filterMap_le _ _))
  unfold ADWIN.mean
  rw [show s.totalCount = cs.flatten.length from h.hc]
  split
  · rename_i h0
    rw [h0, Nat.cast_zero, div_zero, R.zero, Fl.val_zero]
  · rw [Fl.val_div, Fl.val_natCast, hn _ hlen, show s.totalSum.val = exactSum cs.flatten from h.hs]
    rfl

theorem binary64_int (z : Int) (h : |(z : ℚ)| ≤ 2 ^ 52) : Binary64.rounding.rnd z = z := by
  have h1 : |z| ≤ 2 ^ 52 := by exact_mod_cast h
  have := Binary64.rnd_exact z 0 (lt_of_le_of_lt h1 (by norm_num)) (by norm_num)
  rwa [show Binary64.pow2 0 = 1 from by norm_num [Binary64.pow2], mul_one] at this

example (sqrt log : Fl Binary64.rounding → Fl Binary64.rounding) :
    (runADWIN sqrt log Fl.abs (Binary64.lit (1 / 2)) (Binary64.lit 2) [.update (Binary64.lit 5), .update (Binary64.lit (-3)), .update (Binary64.lit 4),
      .update (Binary64.lit 8), .update (Binary64.lit 9)] (ADWIN.new (Binary64.lit (1 / 500)) 1)).mean.val =
    Binary64.rounding.rnd ((([Binary64.lit 5, Binary64.lit (-3), Binary64.lit 4, Binary64.lit 8, Binary64.lit 9].drop
      (5 - (runADWIN sqrt log Fl.abs (Binary64.lit (1 / 2)) (Binary64.lit 2) [.update (Binary64.lit 5), .update (Binary64.lit (-3)),
      .update (Binary64.lit 4), .update (Binary64.lit 8), .update (Binary64.lit 9)] (ADWIN.new (Binary64.lit (1 / 500)) 1)).width)).map Fl.val).sum /
      ((runADWIN sqrt log Fl.abs (Binary64.lit (1 / 2)) (Binary64.lit 2) [.update (Binary64.lit 5), .update (Binary64.lit (-3)),
      .update (Binary64.lit 4), .update (Binary64.lit 8), .update (Binary64.lit 9)] (ADWIN.new (Binary64.lit (1 / 500)) 1)).width : ℚ)) := by
  refine (adwin_whole_numbers_partial (B := 2 ^ 52) binary64_int sqrt log Fl.abs (Binary64.lit (1 / 2)) (Binary64.lit 2) (Binary64.lit (1 / 500)) 1
    [.update (Binary64.lit 5), .update (Binary64.lit (-3)), .update (Binary64.lit 4), .update (Binary64.lit 8), .update (Binary64.lit 9)]
    ?_ ?_ (fun m hm => Binary64.nat_exact m (lt_of_le_of_lt hm (by norm_num)))).2
  · intro v hv
    simp only [List.mem_cons, AdwinCall.update.injEq, List.not_mem_nil, or_false] at hv
    rcases hv with rfl | rfl | rfl | rfl | rfl
    · exact ⟨5, by decide +kernel⟩
    · exact ⟨-3, by decide +kernel⟩
    · exact ⟨4, by decide +kernel⟩
    · exact ⟨8, by decide +kernel⟩
    · exact ⟨9, by decide +kernel⟩
  · decide +kernel

theorem detect_few (sqrt log abs : Fl R → Fl R) (half two : Fl R) (s : ADWIN (Fl R)) (h : s.buckets.length < 2) :
    s.detectDrift sqrt log abs half two = (false, s) := by
  unfold ADWIN.detectDrift
  rw [if_pos h]

/-- **C286** (negation): in float64, with at most one bucket, after the values 2^53, 1, 1 the window holds the last value 1 and `GetMean`
returns 0: the ones were lost when they were added to 2^53, and 2^53 was subtracted when its bucket left the window. -/
theorem adwin_mean_forgets (sqrt log : Fl Binary64.rounding → Fl Binary64.rounding) :
    let s := runADWIN sqrt log Fl.abs (Binary64.lit (1 / 2)) (Binary64.lit 2)
      [.update (Binary64.lit (2 ^ 53)), .update (Binary64.lit 1), .update (Binary64.lit 1)] (ADWIN.new (Binary64.lit (1 / 500)) 1)
    s.width = 1 ∧ s.buckets = [⟨1, 1⟩] ∧ s.mean = 0 := by
  intro s
  have hs : s = (((ADWIN.new (Binary64.lit (1 / 500)) 1).addElement (Binary64.lit (2 ^ 53))).addElement (Binary64.lit 1)).addElement
      (Binary64.lit 1) := by
    show ((((ADWIN.new (Binary64.lit (1 / 500)) 1).update sqrt log Fl.abs (Binary64.lit (1 / 2)) (Binary64.lit 2) (Binary64.lit (2 ^ 53))).2.update
      sqrt log Fl.abs (Binary64.lit (1 / 2)) (Binary64.lit 2) (Binary64.lit 1)).2.update sqrt log Fl.abs (Binary64.lit (1 / 2)) (Binary64.lit 2)
      (Binary64.lit 1)).2 = _
    unfold ADWIN.update
    rw [detect_few _ _ _ _ _ ((ADWIN.new (Binary64.lit (1 / 500)) 1).addElement (Binary64.lit (2 ^ 53))) (by decide +kernel)]
    dsimp only
    rw [detect_few _ _ _ _ _ (((ADWIN.new (Binary64.lit (1 / 500)) 1).addElement (Binary64.lit (2 ^ 53))).addElement (Binary64.lit 1))
      (by decide +kernel)]
    dsimp only
    rw [detect_few _ _ _ _ _ ((((ADWIN.new (Binary64.lit (1 / 500)) 1).addElement (Binary64.lit (2 ^ 53))).addElement (Binary64.lit 1)).addElement
      (Binary64.lit 1)) (by decide +kernel)]
  rw [hs]
  decide +kernel

end Scigo.Round
