import Verif.Round.MomentProps
import Verif.Drift.Props

/-!
# C314: the drift detector DDM with every operation rounded

The protocol of C24 to C26 for any monotone rounding: rates and deviations stay numbers in their range, so that no comparison meets `NaN`, and warnings and
drifts keep their meaning.
-/

set_option linter.unusedSectionVars false

namespace Scigo.Round

open Scigo.Drift

variable {K : Type} [Field K] [LinearOrder K] [IsStrictOrderedRing K] {R : Rounding K}

theorem rate_range (seg : List Bool) : (0 : Fl R) ≤ rateOf seg ∧ (rateOf seg : Fl R) ≤ 1 :=
  ⟨Fl.div_nonneg' (Fl.natCast_nonneg' _) (Fl.natCast_nonneg' _), Fl.div_le_one' (Fl.natCast_nonneg' _) (Fl.natCast_le List.count_le_length)⟩

theorem radicand_nonneg (seg : List Bool) : (0 : Fl R) ≤ rateOf seg * (1 - rateOf seg) / (seg.length : Fl R) :=
  Fl.div_nonneg' (Fl.mul_nonneg' (rate_range seg).1 (Fl.sub_nonneg' (rate_range seg).2)) (Fl.natCast_nonneg' _)

/-- **C314**: the square root is never taken of a negative number: histories run alike with any two square roots that agree on the others -/
theorem ddm_no_negative_root (sqrt sqrt' : Fl R → Fl R) (hs : ∀ x, 0 ≤ x → sqrt x = sqrt' x) (mn : Int) (wl ol : Fl R) (hist : List DDMCall) :
    runDDM sqrt hist (DDM.new mn wl ol) = runDDM sqrt' hist (DDM.new mn wl ol) := by
  have key : ∀ (s : DDM (Fl R)) (b : Bool), s.numErrors ≤ s.numInstances → s.update sqrt b = s.update sqrt' b := by
    intro s b h
    have hr : (0 : Fl R) ≤ (((if b then s.numErrors else s.numErrors + 1 : Nat) : Fl R) / ((s.numInstances + 1 : Nat) : Fl R)) ∧
        (((if b then s.numErrors else s.numErrors + 1 : Nat) : Fl R) / ((s.numInstances + 1 : Nat) : Fl R)) ≤ 1 :=
      ⟨Fl.div_nonneg' (Fl.natCast_nonneg' _) (Fl.natCast_nonneg' _), Fl.div_le_one' (Fl.natCast_nonneg' _) (Fl.natCast_le (by split <;> omega))⟩
    have e := hs _ (Fl.div_nonneg' (Fl.mul_nonneg' hr.1 (Fl.sub_nonneg' hr.2)) (Fl.natCast_nonneg' (s.numInstances + 1)))
    unfold DDM.update
    simp only
    rw [e]
  induction hist using List.reverseRecOn with
  | nil => rfl
  | append_singleton hist c ih =>
    have inv := ddm_run_inv sqrt mn wl ol hist
    unfold runDDM at ih inv ⊢
    rw [List.foldl_append, List.foldl_append, ← ih]
    cases c with
    | reset => rfl
    | update b =>
      simp only [List.foldl_cons, List.foldl_nil]
      rw [key _ b ?_]
      rw [inv.h4, inv.h5]
      exact List.count_le_length

/-- **C314**: after any history, the next update reports a rate between 0 and 1; with `outControlLevel ≥ warningLevel` a drift comes with a warning; with
levels of at least 1 an update whose error level is the least since the last reset reports neither; past the warm-up the confidence is at least 1; and without
an error since the last reset nothing is reported -/
theorem ddm_rounded (sqrt : Fl R → Fl R) (hs0 : sqrt 0 = 0) (hs : ∀ x, 0 ≤ x → 0 ≤ sqrt x) (mn : Int) (wl ol : Fl R) (hist : List DDMCall) (b : Bool) :
    let seg := segment (runDDM sqrt hist (DDM.new mn wl ol)).2 ++ [b]
    let r := ((runDDM sqrt hist (DDM.new mn wl ol)).1.update sqrt b).1
    (0 ≤ r.errorRate ∧ r.errorRate ≤ 1) ∧
    (wl ≤ ol → r.driftDetected = true → r.warningDetected = true) ∧
    ((∀ q, q <+: seg → warm mn q → levelOf sqrt seg ≤ levelOf sqrt q) → (1 ≤ wl → r.warningDetected = false) ∧ (1 ≤ ol → r.driftDetected = false)) ∧
    (mn ≤ seg.length → 1 ≤ r.confidenceLevel) ∧
    (false ∉ seg → r.warningDetected = false ∧ r.driftDetected = false) := by
  intro seg r
  have sd0 : ∀ q : List Bool, (0 : Fl R) ≤ sdOf sqrt q := fun q => hs _ (radicand_nonneg q)
  obtain ⟨u1, u2⟩ := update_spec sqrt mn wl ol _ _ b (ddm_run_inv sqrt mn wl ol hist)
  by_cases hw : warm mn seg
  · obtain ⟨p, hp, hr, -⟩ := u2 hw
    have hr' : r = _ := hr
    have hlp : levelOf sqrt p ≤ levelOf sqrt seg := hp.2.2 seg (List.prefix_refl _) hw
    rw [hr']
    refine ⟨rate_range _, fun hlev hd => ?_, fun hmin => ⟨fun h1 => decide_eq_false ?_, fun h1 => decide_eq_false ?_⟩, fun _ => ?_, fun hno => ?_⟩
    · have h1 := of_decide_eq_true hd
      apply decide_eq_true
      refine lt_of_le_of_lt (Fl.add_le le_rfl ?_) h1
      exact R.mono (mul_le_mul_of_nonneg_right hlev (sd0 p))
    · refine not_lt.2 ((hmin p hp.1 hp.2.1).trans (Fl.add_le le_rfl ?_))
      have := Fl.mul_le h1 (le_refl (sdOf sqrt p)) (sd0 p) (le_trans (zero_le_one : (0 : K) ≤ 1) h1)
      rwa [Fl.one_mul'] at this
    · refine not_lt.2 ((hmin p hp.1 hp.2.1).trans (Fl.add_le le_rfl ?_))
      have := Fl.mul_le h1 (le_refl (sdOf sqrt p)) (sd0 p) (le_trans (zero_le_one : (0 : K) ≤ 1) h1)
      rwa [Fl.one_mul'] at this
    · show 1 ≤ if 0 < sdOf sqrt p then _ else _
      split
      · rename_i h
        have hpos : 0 < levelOf sqrt p := lt_of_lt_of_le h (Fl.le_add_left' (rate_range p).1)
        have := Fl.div_le hlp hpos.le
        rwa [Fl.div_self' _ hpos.ne'] at this
      · exact le_rfl
    · have zero_of : ∀ q : List Bool, false ∉ q → rateOf q = (0 : Fl R) ∧ sdOf sqrt q = 0 := by
        intro q hq
        have h0 : rateOf q = (0 : Fl R) := by
          unfold rateOf
          rw [List.count_eq_zero_of_not_mem hq, show ((0 : Nat) : Fl R) = 0 from Fl.ext (by rw [Fl.val_natCast, Nat.cast_zero, R.zero]; rfl)]
          exact Fl.zero_div' _
        exact ⟨h0, by unfold sdOf; rw [h0, Fl.zero_mul', Fl.zero_div', hs0]⟩
      obtain ⟨a1, a2⟩ := zero_of _ hno
      obtain ⟨b1, b2⟩ := zero_of p (fun hf => hno (hp.1.subset hf))
      have e : levelOf sqrt seg = 0 := by unfold levelOf; rw [a1, a2, Fl.add_zero']
      refine ⟨decide_eq_false ?_, decide_eq_false ?_⟩
      · rw [b1, b2, Fl.mul_zero', Fl.add_zero']
        show ¬ 0 < levelOf sqrt seg
        rw [e]; exact lt_irrefl _
      · rw [b1, b2, Fl.mul_zero', Fl.add_zero']
        show ¬ 0 < levelOf sqrt seg
        rw [e]; exact lt_irrefl _
  · have hr' : r = _ := (u1 hw).1
    rw [hr']
    refine ⟨⟨le_rfl, (zero_le_one : (0 : K) ≤ 1)⟩, fun _ h => (Bool.false_ne_true h).elim, fun _ => ⟨fun _ => rfl, fun _ => rfl⟩, fun h => ?_, fun _ => ⟨rfl, rfl⟩⟩
    exact absurd ⟨by simp [seg], h⟩ hw

open Binary64 in
/-- **C314** (float64): after `n` correct predictions and nothing else since the last reset, the first wrong one is reported as a drift, whatever the levels, for
every `n` below 2^53 - 1 -/
theorem ddm_first_error_float (sqrt : Fl rounding → Fl rounding) (hs0 : sqrt 0 = 0) (hs : ∀ x, 0 ≤ x → 0 ≤ sqrt x) (mn : Int) (wl ol : Fl rounding) (n : Nat)
    (hn : 0 < n) (hn2 : n + 1 < 2 ^ 53) (hmn : mn ≤ n) (hist : List DDMCall)
    (hseg : segment (runDDM sqrt hist (DDM.new mn wl ol)).2 = List.replicate n true) :
    ((runDDM sqrt hist (DDM.new mn wl ol)).1.update sqrt false).1.driftDetected = true := by
  obtain ⟨-, u2⟩ := update_spec sqrt mn wl ol _ _ false (ddm_run_inv sqrt mn wl ol hist)
  rw [hseg] at u2
  obtain ⟨p, hp, hr, -⟩ := u2 ⟨by simp, by simp; omega⟩
  rw [hr]
  have c0 : ((0 : Nat) : Fl rounding) = 0 := Fl.ext (by rw [Fl.val_natCast, Nat.cast_zero, rounding.zero]; rfl)
  have z0 : rateOf (List.replicate n true) = (0 : Fl rounding) := by
    unfold rateOf
    rw [List.count_eq_zero_of_not_mem (by simp), c0]
    exact Fl.zero_div' _
  have z1 : sdOf sqrt (List.replicate n true) = 0 := by unfold sdOf; rw [z0, Fl.zero_mul', Fl.zero_div', hs0]
  have hple : levelOf sqrt p ≤ 0 := by
    have := hp.2.2 (List.replicate n true) (List.prefix_append _ _) ⟨by simp; omega, by simpa using hmn⟩
    unfold levelOf at this ⊢
    rwa [z0, z1, Fl.add_zero'] at this
  have hrp := (rate_range (R := rounding) p).1
  have hsp : 0 ≤ sdOf sqrt p := hs _ (radicand_nonneg p)
  have e1 : rateOf p = (0 : Fl rounding) := le_antisymm ((Fl.le_add_right' hsp).trans hple) hrp
  have e2 : sdOf sqrt p = 0 := le_antisymm ((Fl.le_add_left' hrp).trans hple) hsp
  apply decide_eq_true
  rw [e1, e2, Fl.mul_zero', Fl.add_zero']
  refine lt_of_lt_of_le ?_ (Fl.le_add_right' (hs _ (radicand_nonneg _)))
  show (0 : ℚ) < (rateOf (List.replicate n true ++ [false]) : Fl rounding).val
  unfold rateOf
  rw [Fl.val_div, Fl.val_natCast, Fl.val_natCast]
  have c1 : (List.replicate n true ++ [false]).count false = 1 := by
    rw [List.count_append, List.count_eq_zero_of_not_mem (by simp)]; rfl
  have c2 : (List.replicate n true ++ [false]).length = n + 1 := by simp
  rw [c1, c2, Nat.cast_one, show rounding.rnd (1 : ℚ) = 1 from rounding.one, nat_exact (n + 1) (by omega)]
  have hnK : ((n + 1 : Nat) : ℚ) ≤ 2 ^ 53 := by exact_mod_cast hn2.le
  have hx : (1 : ℚ) / 2 ^ 53 ≤ 1 / ((n + 1 : Nat) : ℚ) := one_div_le_one_div_of_le (by positivity) hnK
  have hm := rounding.mono hx
  refine lt_of_lt_of_le ?_ hm
  have : rounding.rnd (1 / 2 ^ 53) = (1 : ℚ) / 2 ^ 53 := by decide +kernel
  rw [this]
  positivity

/-- a stream of correct predictions is one segment -/
theorem correct_segment (sqrt : Fl R → Fl R) (hs0 : sqrt 0 = 0) (hs : ∀ x, 0 ≤ x → 0 ≤ sqrt x) (mn : Int) (wl ol : Fl R) (n : Nat) :
    segment (runDDM sqrt (List.replicate n (.update true)) (DDM.new mn wl ol)).2 = List.replicate n true := by
  induction n with
  | zero => rfl
  | succ n ih =>
    have h := (ddm_rounded sqrt hs0 hs mn wl ol (List.replicate n (.update true)) true).2.2.2.2
    rw [ih] at h
    have hd := (h (by simp)).2
    have e : runDDM sqrt (List.replicate (n + 1) (.update true)) (DDM.new mn wl ol) =
        (((runDDM sqrt (List.replicate n (.update true)) (DDM.new mn wl ol)).1.update sqrt true).2,
          (runDDM sqrt (List.replicate n (.update true)) (DDM.new mn wl ol)).2 ++
            [(.update true, some ((runDDM sqrt (List.replicate n (.update true)) (DDM.new mn wl ol)).1.update sqrt true).1)]) := by
      rw [List.replicate_succ']
      unfold runDDM
      rw [List.foldl_append]
      rfl
    rw [e]
    show segment (_ ++ [_]) = _
    unfold segment at ih ⊢
    rw [List.foldl_append, ih]
    show (if _ then _ else _) = _
    rw [hd, List.replicate_succ']
    rfl

open Binary64 in
/-- 30 correct predictions and one wrong one, with the default levels; a square root as required exists -/
example : ∃ sqrt : Fl rounding → Fl rounding, sqrt 0 = 0 ∧ (∀ x, 0 ≤ x → 0 ≤ sqrt x) ∧
    segment (runDDM sqrt (List.replicate 30 (.update true)) (DDM.new 30 (lit 2) (lit 3))).2 = List.replicate 30 true ∧
    ((runDDM sqrt (List.replicate 30 (.update true)) (DDM.new 30 (lit 2) (lit 3))).1.update sqrt false).1.driftDetected = true := by
  obtain ⟨s, hs⟩ := exists_sqrt
  have h0 : s 0 = 0 := by
    obtain ⟨-, h⟩ := hs 0 le_rfl
    rw [Fl.val_zero, mul_zero, sub_zero, abs_nonpos_iff, pow_eq_zero_iff (by norm_num)] at h
    exact Fl.ext h
  have key := correct_segment s h0 (fun x hx => (hs x hx).1) 30 (lit 2) (lit 3) 30
  exact ⟨s, h0, fun x hx => (hs x hx).1, key, ddm_first_error_float s h0 (fun x hx => (hs x hx).1) 30 _ _ 30 (by norm_num) (by norm_num) (by norm_num) _ key⟩

end Scigo.Round
