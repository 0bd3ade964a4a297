import Verif.Drift.Lemmas
import Mathlib.Analysis.SpecialFunctions.Log.Basic
import Mathlib.Data.Real.Sqrt

/-!
# Properties of the drift detectors (C24–C29)

DDM: any linearly ordered carrier unless arithmetic laws are named; ADWIN: exact arithmetic.
-/

set_option linter.unusedSectionVars false

namespace Scigo.Drift

variable {α K : Type _}

/-! ## C24 -/

section
variable [Add α] [Sub α] [Mul α] [Div α] [Zero α] [One α] [NatCast α] [LinearOrder α]

/-- **C24** (law-free). After any history, with `seg` the outcomes since the last reset or
reported drift: an update that does not bring the segment to `minNumInstances` reports
neither warning nor drift. -/
theorem ddm_silent_in_warmup (sqrt : α → α) (mn : Int) (wl ol : α) (hist : List DDMCall) (b : Bool)
    (hshort : (((segment (runDDM sqrt hist (DDM.new mn wl ol)).2).length : Int) + 1 < mn)) :
    ((runDDM sqrt hist (DDM.new mn wl ol)).1.update sqrt b).1.warningDetected = false ∧
    ((runDDM sqrt hist (DDM.new mn wl ol)).1.update sqrt b).1.driftDetected = false := by
  have h := (update_spec sqrt mn wl ol _ _ b (ddm_run_inv sqrt mn wl ol hist)).1
    (fun hw => by
      have := hw.2
      simp only [List.length_append, List.length_cons, List.length_nil] at this
      push_cast at this
      omega)
  rw [h.1]; exact ⟨rfl, rfl⟩

/-- **C24** (law-free). Right after a reported drift the detector is the freshly constructed
one with the same parameters, so all later behaviour is that of a new detector. `Reset` does
the same after any history. -/
theorem ddm_drift_restarts (sqrt : α → α) (mn : Int) (wl ol : α) (hist : List DDMCall) (b : Bool) :
    (((runDDM sqrt hist (DDM.new mn wl ol)).1.update sqrt b).1.driftDetected = true →
      ((runDDM sqrt hist (DDM.new mn wl ol)).1.update sqrt b).2 = DDM.new mn wl ol) ∧
    (runDDM sqrt hist (DDM.new mn wl ol)).1.reset = DDM.new mn wl ol := by
  have inv := ddm_run_inv sqrt mn wl ol hist
  refine ⟨?_, dinv_reset sqrt mn wl ol _ _ inv⟩
  intro hd
  obtain ⟨u1, u2⟩ := update_spec sqrt mn wl ol _ _ b inv
  by_cases hw : warm mn (segment (runDDM sqrt hist (DDM.new mn wl ol)).2 ++ [b])
  · obtain ⟨p, -, hr, -, h2⟩ := u2 hw
    rw [hr] at hd
    exact h2 (of_decide_eq_true hd)
  · rw [(u1 hw).1] at hd; cases hd

/-- **C24, C25** (law-free). What an update past the warm-up returns: the error rate of the
segment, and the two threshold decisions against the best (least `rate + sd`) prefix. -/
theorem ddm_update_result (sqrt : α → α) (mn : Int) (wl ol : α) (hist : List DDMCall) (b : Bool)
    (hwarm : mn ≤ ((segment (runDDM sqrt hist (DDM.new mn wl ol)).2).length : Int) + 1) :
    let seg := segment (runDDM sqrt hist (DDM.new mn wl ol)).2 ++ [b]
    ∃ p, IsBest sqrt mn seg p ∧
      let r := ((runDDM sqrt hist (DDM.new mn wl ol)).1.update sqrt b).1
      r.errorRate = rateOf seg ∧
      (r.warningDetected = true ↔ rateOf p + wl * sdOf sqrt p < levelOf sqrt seg) ∧
      (r.driftDetected = true ↔ rateOf p + ol * sdOf sqrt p < levelOf sqrt seg) ∧
      (0 < sdOf sqrt p → r.confidenceLevel = levelOf sqrt seg / levelOf sqrt p) := by
  intro seg
  obtain ⟨p, hp, hr, -⟩ := (update_spec sqrt mn wl ol _ _ b (ddm_run_inv sqrt mn wl ol hist)).2
    ⟨by simp, by
      simp only [List.length_append, List.length_cons, List.length_nil]
      push_cast
      omega⟩
  refine ⟨p, hp, ?_⟩
  rw [hr]
  refine ⟨rfl, decide_eq_true_iff, decide_eq_true_iff, ?_⟩
  intro h
  exact if_pos h

/-- **C25** (law-free). After any history `GetStatistics` reports the exact counts of the
segment; past the warm-up the exact error rate and standard deviation, and the stored minimum
is the pair of a prefix of the segment that minimises `rate + sd`. -/
theorem ddm_statistics (sqrt : α → α) (mn : Int) (wl ol : α) (hist : List DDMCall) :
    let s := (runDDM sqrt hist (DDM.new mn wl ol)).1
    let seg := segment (runDDM sqrt hist (DDM.new mn wl ol)).2
    s.numInstances = seg.length ∧ s.numErrors = seg.count false ∧
    (warm mn seg → s.errorRate = rateOf seg ∧ s.stdDev = sdOf sqrt seg ∧
      ∃ p, IsBest sqrt mn seg p ∧ s.min = some (rateOf p, sdOf sqrt p)) ∧
    (¬ warm mn seg → s.errorRate = 0 ∧ s.stdDev = 0 ∧ s.min = none) := by
  intro s seg
  have inv := ddm_run_inv sqrt mn wl ol hist
  refine ⟨inv.h4, inv.h5, ?_, ?_⟩
  · intro hw
    obtain ⟨a, b, p, hp, hm, -⟩ := inv.hot hw
    exact ⟨a, b, p, hp, hm⟩
  · intro hw
    obtain ⟨a, b, c, -⟩ := inv.cold hw
    exact ⟨a, b, c⟩

/-- **C26**, negation (law-free). `GetStatistics` never shows `DriftDetected = true`, after any
history whatsoever — also right after an update that reported drift. -/
theorem ddm_statistics_never_show_drift (sqrt : α → α) (mn : Int) (wl ol : α)
    (hist : List DDMCall) : (runDDM sqrt hist (DDM.new mn wl ol)).1.driftDetected = false :=
  (ddm_run_inv sqrt mn wl ol hist).h6

end

/-- **C24**. With `outControlLevel ≥ warningLevel` every drift report is a warning report. -/
theorem ddm_drift_implies_warning [Field K] [LinearOrder K] [IsStrictOrderedRing K]
    (sqrt : K → K) (hsq : ∀ x, 0 ≤ sqrt x) (mn : Int) (wl ol : K)
    (hlev : wl ≤ ol) (hist : List DDMCall) (b : Bool)
    (hd : ((runDDM sqrt hist (DDM.new mn wl ol)).1.update sqrt b).1.driftDetected = true) :
    ((runDDM sqrt hist (DDM.new mn wl ol)).1.update sqrt b).1.warningDetected = true := by
  obtain ⟨u1, u2⟩ := update_spec sqrt mn wl ol _ _ b (ddm_run_inv sqrt mn wl ol hist)
  by_cases hw : warm mn (segment (runDDM sqrt hist (DDM.new mn wl ol)).2 ++ [b])
  · obtain ⟨p, -, hr, -⟩ := u2 hw
    rw [hr] at hd ⊢
    have h1 := of_decide_eq_true hd
    apply decide_eq_true
    have h2 : wl * sdOf sqrt p ≤ ol * sdOf sqrt p := mul_le_mul_of_nonneg_right hlev (hsq _)
    linarith
  · rw [(u1 hw).1] at hd; cases hd

/-- **C26**, the part that holds: as long as the segment (with the new outcome) has no error,
neither warning nor drift is reported, and after an update that reports no drift, the warning
flag in the statistics is the one returned. Missing: the drift flag in the statistics
(`ddm_statistics_never_show_drift`). -/
theorem ddm_statistics_partial [Field K] [LinearOrder K] [IsStrictOrderedRing K]
    (sqrt : K → K) (hsq : sqrt 0 = 0) (mn : Int) (wl ol : K) (hist : List DDMCall) (b : Bool) :
    let seg := segment (runDDM sqrt hist (DDM.new mn wl ol)).2
    let u := (runDDM sqrt hist (DDM.new mn wl ol)).1.update sqrt b
    (false ∉ seg ++ [b] → u.1.driftDetected = false ∧ u.1.warningDetected = false) ∧
    (u.1.driftDetected = false → mn ≤ (seg.length : Int) + 1 →
      u.2.warningDetected = u.1.warningDetected) := by
  intro seg u
  obtain ⟨u1, u2⟩ := update_spec sqrt mn wl ol _ _ b (ddm_run_inv sqrt mn wl ol hist)
  have zero_of : ∀ q : List Bool, false ∉ q → rateOf q = (0 : K) ∧ sdOf sqrt q = 0 := by
    intro q hq
    have h0 : rateOf q = (0 : K) := by
      unfold rateOf; rw [List.count_eq_zero_of_not_mem hq]; simp
    exact ⟨h0, by unfold sdOf; rw [h0]; simp [hsq]⟩
  constructor
  · intro hno
    by_cases hw : warm mn (seg ++ [b])
    · obtain ⟨p, hp, hr, -⟩ := u2 hw
      have hr' : u.1 = _ := hr
      obtain ⟨a1, a2⟩ := zero_of _ hno
      obtain ⟨b1, b2⟩ := zero_of p (fun hf => hno (hp.1.subset hf))
      rw [hr']
      have e : levelOf sqrt (seg ++ [b]) = 0 := by unfold levelOf; rw [a1, a2, add_zero]
      refine ⟨decide_eq_false ?_, decide_eq_false ?_⟩
      · rw [b1, b2]; simp only [mul_zero, add_zero]; rw [e]; exact lt_irrefl _
      · rw [b1, b2]; simp only [mul_zero, add_zero]; rw [e]; exact lt_irrefl _
    · have hr' : u.1 = _ := (u1 hw).1
      rw [hr']; exact ⟨rfl, rfl⟩
  · intro hnd hmn
    have hw : warm mn (seg ++ [b]) := ⟨by simp, by
      simp only [List.length_append, List.length_cons, List.length_nil]
      push_cast
      omega⟩
    have inv := ddm_run_inv sqrt mn wl ol hist
    refine update_warning_flag sqrt b _ ?_ hnd
    rw [inv.h4, inv.h1]
    have : seg.length = (segment (runDDM sqrt hist (DDM.new mn wl ol)).2).length := rfl
    push_cast
    omega

/-- **C26**, companion to the negation: drift *is* reported on real streams. After at least
`minNumInstances` correct outcomes on a fresh segment, the very first error is reported as a
drift, whatever the levels (`minStdDev` is 0, so both thresholds are 0). -/
theorem ddm_first_error_is_drift [Field K] [LinearOrder K] [IsStrictOrderedRing K]
    (sqrt : K → K) (hsq0 : sqrt 0 = 0) (hsq : ∀ x, 0 ≤ sqrt x) (mn : Int) (wl ol : K) (n : Nat)
    (hn : 0 < n) (hmn : mn ≤ n) (hist : List DDMCall)
    (hseg : segment (runDDM sqrt hist (DDM.new mn wl ol)).2 = List.replicate n true) :
    ((runDDM sqrt hist (DDM.new mn wl ol)).1.update sqrt false).1.driftDetected = true := by
  obtain ⟨-, u2⟩ := update_spec sqrt mn wl ol _ _ false (ddm_run_inv sqrt mn wl ol hist)
  rw [hseg] at u2
  obtain ⟨p, hp, hr, -⟩ := u2 ⟨by simp, by simp; omega⟩
  rw [hr]
  have z0 : rateOf (List.replicate n true) = (0 : K) := by
    unfold rateOf; rw [List.count_eq_zero_of_not_mem (by simp)]; simp
  have z1 : sdOf sqrt (List.replicate n true) = 0 := by unfold sdOf; rw [z0]; simp [hsq0]
  have hple : levelOf sqrt p ≤ 0 := by
    have := hp.2.2 (List.replicate n true) (List.prefix_append _ _)
      ⟨by simp; omega, by simpa using hmn⟩
    unfold levelOf at this ⊢
    rw [z0, z1, add_zero] at this
    exact this
  have hrp : (0 : K) ≤ rateOf p := by unfold rateOf; positivity
  have hsp : 0 ≤ sdOf sqrt p := hsq _
  have e1 : rateOf p = (0 : K) := by unfold levelOf at hple; linarith
  have e2 : sdOf sqrt p = 0 := by unfold levelOf at hple; linarith
  apply decide_eq_true
  rw [e1, e2]
  have hpos : (0 : K) < rateOf (List.replicate n true ++ [false]) := by
    unfold rateOf
    rw [List.count_append]
    simp only [List.count_replicate, List.length_append, List.length_replicate]
    simp
    positivity
  have := hsq (rateOf (List.replicate n true ++ [false])
    * (1 - rateOf (List.replicate n true ++ [false]))
    / (((List.replicate n true ++ [false]).length : Nat) : K))
  simp only [mul_zero, add_zero]
  unfold levelOf
  exact lt_of_lt_of_le hpos (le_add_of_nonneg_right this)

/-- The C26 property is false: an update reports drift, and the statistics then deny it. -/
theorem ddm_drift_statistics_false : ∃ hist : List DDMCall, ∃ b : Bool,
    let u := (runDDM Real.sqrt hist (DDM.new 30 2 3)).1.update Real.sqrt b
    u.1.driftDetected = true ∧ u.2.driftDetected = false := by
  have hseg : ∀ n : Nat, segment (runDDM Real.sqrt (List.replicate n (.update true))
      (DDM.new 30 2 3)).2 = List.replicate n true := by
    intro n
    induction n with
    | zero => rfl
    | succ n ih =>
      rw [List.replicate_succ', runDDM_snoc, segment_snoc]
      simp only
      rw [ih, List.replicate_succ']
      have h := ((ddm_statistics_partial Real.sqrt Real.sqrt_zero 30 2 3
        (List.replicate n (.update true)) true).1 (by rw [ih]; simp)).1
      rw [h]; rfl
  have key : ∀ n : Nat, 0 < n → (30 : Int) ≤ n →
      let u := (runDDM Real.sqrt (List.replicate n (.update true)) (DDM.new 30 2 3)).1.update
        Real.sqrt false
      u.1.driftDetected = true ∧ u.2.driftDetected = false := by
    intro n hn hmn u
    have hd := ddm_first_error_is_drift Real.sqrt Real.sqrt_zero Real.sqrt_nonneg 30 2 3 n
      hn hmn (List.replicate n (.update true)) (hseg n)
    refine ⟨hd, ?_⟩
    have := (ddm_drift_restarts Real.sqrt 30 2 3 (List.replicate n (.update true)) false).1 hd
    change u.2 = _ at this
    rw [this]; rfl
  exact ⟨_, false, key 30 (by norm_num) (by norm_num)⟩

/-- a history with a drift in the middle, on rationals (root replaced by a stand-in) -/
example : (runDDM (fun x : ℚ => x) [.update true, .update true, .update false, .update true]
    (DDM.new 2 2 3)).2.map (fun x => x.2.map (·.driftDetected))
    = [some false, some false, some true, some false] := by decide +kernel

example : segment (runDDM (fun x : ℚ => x) [.update true, .update true, .update false, .update true]
    (DDM.new 2 2 3)).2 = [true] := by decide +kernel

/-! ## C27–C29 -/

section
variable [Field K] [LinearOrder K] [IsStrictOrderedRing K]

/-- **C27**. After any history `GetWidth` is the number of elements in the retained buckets,
and `GetMean` is the mean of exactly the last `GetWidth` values passed to `Update` since the
last `Reset` (0 for an empty window). -/
theorem adwin_window (sqrt log : K → K) (δ : K) (mb : Int) (hist : List (AdwinCall K)) :
    let s := runADWIN sqrt log abs (1 / 2) 2 hist (ADWIN.new δ mb)
    let vals := valuesOf hist
    s.width = (s.buckets.map (·.count)).sum ∧ s.width ≤ vals.length ∧
    s.mean = avg (vals.drop (vals.length - s.width)) := by
  intro s vals
  obtain ⟨cs, h⟩ := adwin_run_inv sqrt log δ mb hist
  have hw : s.width = cs.flatten.length := h.hw
  have hle := h.hsuf.length_le
  refine ⟨?_, by rw [hw]; exact hle, ?_⟩
  · rw [hw, show s.buckets = cs.map mk from h.hb, List.map_map, List.length_flatten]
    rfl
  · have hdrop : vals.drop (vals.length - s.width) = cs.flatten := by
      rw [hw]; exact (List.suffix_iff_eq_drop.1 h.hsuf).symm
    rw [hdrop]
    unfold ADWIN.mean avg
    rw [show s.totalCount = cs.flatten.length from h.hc, show s.totalSum = cs.flatten.sum from h.hs]
    split_ifs with h0
    · rw [h0]; simp
    · rfl

/-- **C28**, the part that holds: the number of buckets never exceeds `maxBuckets` (for
`maxBuckets ≥ 1`; a smaller limit keeps none). Missing: exponential compression. -/
theorem adwin_buckets_bounded_partial (sqrt log : K → K) (δ : K) (mb : Int)
    (hist : List (AdwinCall K)) :
    (runADWIN sqrt log abs (1 / 2) 2 hist (ADWIN.new δ mb)).buckets.length ≤ mb.toNat := by
  obtain ⟨cs, h⟩ := adwin_run_inv sqrt log δ mb hist
  rw [h.hb, List.length_map]; exact h.hlen

/-- **C28**, negation: buckets never hold more than two samples, so the window never exceeds
twice the bucket budget — it is linear, not exponential. -/
theorem adwin_window_linear (sqrt log : K → K) (δ : K) (mb : Int) (hist : List (AdwinCall K)) :
    (∀ b ∈ (runADWIN sqrt log abs (1 / 2) 2 hist (ADWIN.new δ mb)).buckets, b.count ≤ 2) ∧
    (runADWIN sqrt log abs (1 / 2) 2 hist (ADWIN.new δ mb)).width ≤ 2 * mb.toNat := by
  obtain ⟨cs, h⟩ := adwin_run_inv sqrt log δ mb hist
  constructor
  · rw [h.hb]
    intro b hb
    obtain ⟨c, hc, rfl⟩ := List.mem_map.1 hb
    exact (h.hne c hc).2
  · rw [h.hw]
    have : ∀ cs : List (List K), (∀ c ∈ cs, c ≠ [] ∧ c.length ≤ 2) →
        cs.flatten.length ≤ 2 * cs.length := by
      intro cs
      induction cs with
      | nil => simp
      | cons c cs ih =>
        intro h
        have h1 := (h c (by simp)).2
        have h2 := ih (fun x hx => h x (by simp [hx]))
        simp only [List.flatten_cons, List.length_append, List.length_cons]
        omega
    have h1 := this cs h.hne
    have h2 := h.hlen
    omega

/-- The exponential-window half of C28 is false (already for a budget of three buckets). -/
theorem adwin_not_exponential (sqrt log : K → K) (δ : K) :
    ¬ ∀ m : Nat, 1 ≤ m → ∃ hist : List (AdwinCall K),
      2 ^ m ≤ (runADWIN sqrt log abs (1 / 2) 2 hist (ADWIN.new δ m)).width := by
  intro h
  obtain ⟨hist, hh⟩ := h 3 (by norm_num)
  have := (adwin_window_linear sqrt log δ 3 hist).2
  have e : (3 : Int).toNat = 3 := rfl
  rw [e] at this
  have : 2 ^ 3 ≤ 2 * 3 := le_trans hh this
  norm_num at this

/-- **C29**, first half. On a constant stream `Update` never returns true. -/
theorem adwin_constant_no_drift (sqrt log : K → K) (hsq : ∀ x, 0 ≤ sqrt x) (δ : K) (mb : Int)
    (c : K) (hist : List (AdwinCall K)) (hconst : ∀ x ∈ valuesOf hist, x = c) :
    ((runADWIN sqrt log abs (1 / 2) 2 hist (ADWIN.new δ mb)).update sqrt log abs (1 / 2) 2 c).1
      = false := by
  obtain ⟨cs, h⟩ := adwin_run_inv sqrt log δ mb hist
  obtain ⟨cs', h', -⟩ := addElement_inv δ mb _ cs _ c h
  rcases detect_inv sqrt log δ mb _ cs' _ h' with ⟨e, -⟩ | ⟨i, h1, h2, -, -, -, hlt⟩
  · exact e
  · exfalso
    have hall : ∀ x ∈ cs'.flatten, x = c := by
      intro x hx
      rcases List.mem_append.1 (h'.hsuf.subset hx) with hx | hx
      · exact hconst x hx
      · exact List.mem_singleton.1 hx
    have a0 : (cs'.take i).flatten ≠ [] :=
      flatten_ne_nil (fun c hc => h'.hne c (List.mem_of_mem_take hc))
        (by intro h; have := congrArg List.length h; rw [List.length_take] at this
            simp only [List.length_nil] at this; omega)
    have a1 : (cs'.drop i).flatten ≠ [] :=
      flatten_ne_nil (fun c hc => h'.hne c (List.mem_of_mem_drop hc))
        (by intro h; have := congrArg List.length h; rw [List.length_drop] at this
            simp only [List.length_nil] at this; omega)
    have e0 : avg (cs'.take i).flatten = c := by
      apply avg_const c _ a0
      intro x hx
      apply hall
      rw [← List.take_append_drop i cs', List.flatten_append]
      exact List.mem_append_left _ hx
    have e1 : avg (cs'.drop i).flatten = c := by
      apply avg_const c _ a1
      intro x hx
      apply hall
      rw [← List.take_append_drop i cs', List.flatten_append]
      exact List.mem_append_right _ hx
    rw [e0, e1, sub_self, abs_zero] at hlt
    exact absurd (hsq _) (not_le.2 hlt)

/-- **C29**, second half. When `Update(v)` returns true, the window (the last values, `v`
included) splits into a non-empty older part and a non-empty newer part whose means differ by
more than the Hoeffding bound, and exactly the newer part is kept. -/
theorem adwin_drift_sound (sqrt log : K → K) (δ : K) (mb : Int) (hist : List (AdwinCall K)) (v : K)
    (hd : ((runADWIN sqrt log abs (1 / 2) 2 hist (ADWIN.new δ mb)).update sqrt log abs (1 / 2) 2 v).1
      = true) :
    let s' := ((runADWIN sqrt log abs (1 / 2) 2 hist (ADWIN.new δ mb)).update sqrt log abs (1 / 2) 2 v).2
    ∃ old new : List K, old ≠ [] ∧ new ≠ [] ∧ old ++ new <:+ valuesOf hist ++ [v] ∧
      5 ≤ (old ++ new).length ∧
      (runADWIN sqrt log abs (1 / 2) 2 hist (ADWIN.new δ mb)).width ≤ (old ++ new).length + 1 ∧
      sqrt (1 / 2 * (1 / (old.length : K) + 1 / (new.length : K)) * log (2 / δ))
        < |avg old - avg new| ∧
      s'.width = new.length ∧ s'.mean = avg new := by
  intro s'
  obtain ⟨cs, h⟩ := adwin_run_inv sqrt log δ mb hist
  obtain ⟨cs', h', hgrow⟩ := addElement_inv δ mb _ cs _ v h
  rcases detect_inv sqrt log δ mb _ cs' _ h' with ⟨e, -⟩ | ⟨i, h1, h2, h5, -, hi, hlt⟩
  · rw [ADWIN.update, e] at hd; cases hd
  · have e : (cs'.take i).flatten ++ (cs'.drop i).flatten = cs'.flatten := by
      rw [← List.flatten_append, List.take_append_drop]
    refine ⟨(cs'.take i).flatten, (cs'.drop i).flatten,
      flatten_ne_nil (fun c hc => h'.hne c (List.mem_of_mem_take hc))
        (by intro h; have := congrArg List.length h; rw [List.length_take] at this
            simp only [List.length_nil] at this; omega),
      flatten_ne_nil (fun c hc => h'.hne c (List.mem_of_mem_drop hc))
        (by intro h; have := congrArg List.length h; rw [List.length_drop] at this
            simp only [List.length_nil] at this; omega), ?_, ?_, ?_, hlt, hi.hw, ?_⟩
    · rw [e]; exact h'.hsuf
    · rw [e]; exact h5
    · rw [e, h.hw]; exact hgrow
    · unfold ADWIN.mean avg
      rw [show s'.totalCount = _ from hi.hc, show s'.totalSum = _ from hi.hs]
      split_ifs with h0
      · rw [h0]; simp
      · rfl

/-- **C29**, completeness. When `Update(v)` returns false on a window of at least five values,
no split at a bucket boundary of the retained window violates the bound; and at most the
oldest bucket (at most two values) left the window. -/
theorem adwin_no_drift_complete (sqrt log : K → K) (δ : K) (mb : Int) (hist : List (AdwinCall K))
    (v : K)
    (hd : ((runADWIN sqrt log abs (1 / 2) 2 hist (ADWIN.new δ mb)).update sqrt log abs (1 / 2) 2 v).1
      = false) :
    let s' := ((runADWIN sqrt log abs (1 / 2) 2 hist (ADWIN.new δ mb)).update sqrt log abs (1 / 2) 2 v).2
    (runADWIN sqrt log abs (1 / 2) 2 hist (ADWIN.new δ mb)).width ≤ s'.width + 1 ∧
    ∀ old new : List (Bucket K), old ++ new = s'.buckets → old ≠ [] → new ≠ [] → 5 ≤ s'.width →
      |(old.map (·.sum)).sum / ((old.map (·.count)).sum : Nat)
        - (new.map (·.sum)).sum / ((new.map (·.count)).sum : Nat)|
      ≤ sqrt (1 / 2 * (1 / (((old.map (·.count)).sum : Nat) : K)
          + 1 / (((new.map (·.count)).sum : Nat) : K)) * log (2 / δ)) := by
  intro s'
  obtain ⟨cs, h⟩ := adwin_run_inv sqrt log δ mb hist
  obtain ⟨cs', h', hgrow⟩ := addElement_inv δ mb _ cs _ v h
  rcases detect_inv sqrt log δ mb _ cs' _ h' with ⟨-, e, hall⟩ | ⟨i, -, -, -, e, -⟩
  · have hs' : s' = (runADWIN sqrt log abs (1 / 2) 2 hist (ADWIN.new δ mb)).addElement v := e
    rw [hs', h'.hw, h'.hb, h.hw]
    refine ⟨hgrow, ?_⟩
    intro old new hon hold hnew h5
    have hlo : 0 < old.length := List.length_pos_iff.2 hold
    have hln : 0 < new.length := List.length_pos_iff.2 hnew
    have hl := congrArg List.length hon
    rw [List.length_append, List.length_map] at hl
    have ho : old = (cs'.take old.length).map mk := by
      rw [List.map_take, ← hon]; simp
    have hn : new = (cs'.drop old.length).map mk := by
      rw [List.map_drop, ← hon]; simp
    have hspec := hall h5 old.length hlo (by omega)
    have s1 : ∀ l : List (List K), ((l.map mk).map (·.sum)).sum = l.flatten.sum := by
      intro l; induction l with
      | nil => rfl
      | cons a l ih => simp only [List.map_cons, List.sum_cons, ih, List.flatten_cons, List.sum_append]; rfl
    have s2 : ∀ l : List (List K), ((l.map mk).map (·.count)).sum = l.flatten.length := by
      intro l; rw [List.map_map, List.length_flatten]; rfl
    have o1 := s1 (cs'.take old.length)
    have o2 := s2 (cs'.take old.length)
    have n1 := s1 (cs'.drop old.length)
    have n2 := s2 (cs'.drop old.length)
    rw [← ho] at o1 o2
    rw [← hn] at n1 n2
    rw [o1, o2, n1, n2]
    exact not_lt.1 hspec
  · rw [ADWIN.update, e] at hd; cases hd

end

/-- a stream that triggers the cut: six zeros and then hundreds (root and log stood in for) -/
example : ((runADWIN (fun x : ℚ => x) (fun x => x) abs (1 / 2) 2
      [.update 0, .update 0, .update 0, .update 0, .update 0, .update 0] (ADWIN.new 2 4)).update
      (fun x => x) (fun x => x) abs (1 / 2) 2 100).1 = true := by decide +kernel

example : ((runADWIN (fun x : ℚ => x) (fun x => x) abs (1 / 2) 2
      [.update 0, .update 0, .update 0, .update 0, .update 0, .update 0, .update 100]
      (ADWIN.new 2 4)).width, (runADWIN (fun x : ℚ => x) (fun x => x) abs (1 / 2) 2
      [.update 1, .update 1, .update 0, .update 1, .update 1, .update 0, .update 1]
      (ADWIN.new 2 2)).width) = (5, 3) := by decide +kernel

end Scigo.Drift
