import Verif.Drift.Spec
import Mathlib.Tactic.Ring
import Mathlib.Tactic.Linarith
import Mathlib.Tactic.Positivity
import Mathlib.Tactic.FieldSimp
import Mathlib.Algebra.BigOperators.Group.List.Basic

set_option linter.unusedSectionVars false

namespace Scigo.Drift

variable {α K : Type _}

/-! ## DDM -/

section
variable [Add α] [Sub α] [Mul α] [Div α] [Zero α] [One α] [NatCast α] [LinearOrder α]

/-- what the state says about the outcomes `seg` of the current segment -/
structure DInv (sqrt : α → α) (mn : Int) (wl ol : α) (s : DDM α) (seg : List Bool) : Prop where
  h1 : s.minNumInstances = mn
  h2 : s.warningLevel = wl
  h3 : s.outControlLevel = ol
  h4 : s.numInstances = seg.length
  h5 : s.numErrors = seg.count false
  h6 : s.driftDetected = false
  cold : ¬ warm mn seg → s.errorRate = 0 ∧ s.stdDev = 0 ∧ s.min = none ∧ s.warningDetected = false
  hot : warm mn seg → s.errorRate = rateOf seg ∧ s.stdDev = sdOf sqrt seg ∧
    ∃ p, IsBest sqrt mn seg p ∧ s.min = some (rateOf p, sdOf sqrt p) ∧
      s.warningDetected = decide (rateOf p + wl * sdOf sqrt p < levelOf sqrt seg)

theorem dinv_new (sqrt : α → α) (mn : Int) (wl ol : α) : DInv sqrt mn wl ol (DDM.new mn wl ol) [] :=
  ⟨rfl, rfl, rfl, rfl, rfl, rfl, fun _ => ⟨rfl, rfl, rfl, rfl⟩, fun h => absurd rfl h.1⟩

theorem dinv_reset (sqrt : α → α) (mn : Int) (wl ol : α) (s : DDM α) (seg : List Bool)
    (h : DInv sqrt mn wl ol s seg) : s.reset = DDM.new mn wl ol := by
  obtain ⟨h1, h2, h3, -⟩ := h
  subst h1 h2 h3
  rfl

theorem warm_snoc_of_warm {mn : Int} {seg : List Bool} (b : Bool) (h : warm mn seg) :
    warm mn (seg ++ [b]) := by
  refine ⟨by simp, ?_⟩
  have := h.2
  simp only [List.length_append, List.length_cons, List.length_nil]
  push_cast
  omega

/-- the new reference pair is the best prefix of the longer segment -/
theorem best_snoc (sqrt : α → α) (mn : Int) (wl ol : α) (s : DDM α) (seg : List Bool) (b : Bool)
    (h : DInv sqrt mn wl ol s seg) (hw : warm mn (seg ++ [b])) :
    ∃ p, IsBest sqrt mn (seg ++ [b]) p ∧
      newMin (rateOf (seg ++ [b])) (sdOf sqrt (seg ++ [b])) s.min = (rateOf p, sdOf sqrt p) := by
  by_cases hs : warm mn seg
  · obtain ⟨-, -, p, ⟨hp1, hp2, hp3⟩, hm, -⟩ := h.hot hs
    rw [hm, newMin]
    change ∃ p', _ ∧ (if levelOf sqrt (seg ++ [b]) < levelOf sqrt p then _ else _) = _
    by_cases hlt : levelOf sqrt (seg ++ [b]) < levelOf sqrt p
    · refine ⟨seg ++ [b], ⟨List.prefix_rfl, hw, ?_⟩, by rw [if_pos hlt]⟩
      intro q hq hqw
      rcases List.prefix_concat_iff.1 hq with e | e
      · rw [e]
      · exact le_trans hlt.le (hp3 q e hqw)
    · refine ⟨p, ⟨hp1.trans (List.prefix_append _ _), hp2, ?_⟩, by rw [if_neg hlt]⟩
      intro q hq hqw
      rcases List.prefix_concat_iff.1 hq with e | e
      · rw [e]; exact not_lt.1 hlt
      · exact hp3 q e hqw
  · rw [(h.cold hs).2.2.1, newMin]
    refine ⟨seg ++ [b], ⟨List.prefix_rfl, hw, ?_⟩, rfl⟩
    intro q hq hqw
    rcases List.prefix_concat_iff.1 hq with e | e
    · rw [e]
    · exfalso
      apply hs
      have hl := e.length_le
      have hq0 := List.length_pos_iff.2 hqw.1
      have hq2 := hqw.2
      refine ⟨?_, by omega⟩
      intro hnil
      rw [hnil] at hl
      simp at hl
      exact hqw.1 hl

theorem not_warm_iff (mn : Int) (seg : List Bool) (b : Bool) :
    ((((seg ++ [b]).length : Nat) : Int) < mn) ↔ ¬ warm mn (seg ++ [b]) := by
  constructor
  · intro h hw; exact absurd hw.2 (not_le.2 h)
  · intro h
    by_contra hc
    exact h ⟨by simp, not_lt.1 hc⟩

theorem count_snoc (seg : List Bool) (b : Bool) :
    (if b then seg.count false else seg.count false + 1) = (seg ++ [b]).count false := by
  rw [List.count_append]; cases b <;> simp

/-- one update, in terms of the segment -/
theorem update_spec (sqrt : α → α) (mn : Int) (wl ol : α) (s : DDM α) (seg : List Bool) (b : Bool)
    (h : DInv sqrt mn wl ol s seg) :
    (¬ warm mn (seg ++ [b]) → (s.update sqrt b).1 = ⟨false, false, 0, 0⟩ ∧
      DInv sqrt mn wl ol (s.update sqrt b).2 (seg ++ [b])) ∧
    (warm mn (seg ++ [b]) → ∃ p, IsBest sqrt mn (seg ++ [b]) p ∧
      (s.update sqrt b).1
        = ⟨decide (rateOf p + wl * sdOf sqrt p < levelOf sqrt (seg ++ [b])),
           decide (rateOf p + ol * sdOf sqrt p < levelOf sqrt (seg ++ [b])),
           rateOf (seg ++ [b]),
           if 0 < sdOf sqrt p then levelOf sqrt (seg ++ [b]) / levelOf sqrt p else 1⟩ ∧
      (¬ rateOf p + ol * sdOf sqrt p < levelOf sqrt (seg ++ [b]) →
        DInv sqrt mn wl ol (s.update sqrt b).2 (seg ++ [b])) ∧
      (rateOf p + ol * sdOf sqrt p < levelOf sqrt (seg ++ [b]) →
        (s.update sqrt b).2 = DDM.new mn wl ol)) := by
  have hn : s.numInstances + 1 = (seg ++ [b]).length := by rw [h.h4]; simp
  have he : (if b then s.numErrors else s.numErrors + 1) = (seg ++ [b]).count false := by
    rw [h.h5, count_snoc]
  have hrate : (((seg ++ [b]).count false : Nat) : α) / (((seg ++ [b]).length : Nat) : α)
      = rateOf (seg ++ [b]) := rfl
  constructor
  · intro hw
    have hlt := (not_warm_iff mn seg b).2 hw
    have hs : ¬ warm mn seg := fun h' => hw (warm_snoc_of_warm b h')
    unfold DDM.update
    simp only [hn, he, h.h1, if_pos hlt, true_and]
    obtain ⟨c1, c2, c3, c4⟩ := h.cold hs
    exact ⟨rfl, h.h2, h.h3, rfl, rfl, h.h6, fun _ => ⟨c1, c2, c3, c4⟩, fun h' => absurd h' hw⟩
  · intro hw
    have hlt := fun h' => (not_warm_iff mn seg b).1 h' hw
    obtain ⟨p, hp, hm⟩ := best_snoc sqrt mn wl ol s seg b h hw
    refine ⟨p, hp, ?_⟩
    have hsd : sqrt (rateOf (seg ++ [b]) * (1 - rateOf (seg ++ [b]))
        / (((seg ++ [b]).length : Nat) : α)) = sdOf sqrt (seg ++ [b]) := rfl
    have hlev : rateOf (seg ++ [b]) + sdOf sqrt (seg ++ [b]) = levelOf sqrt (seg ++ [b]) := rfl
    unfold DDM.update
    simp only [hn, he, h.h1, if_neg hlt, hrate, hsd, hm, h.h2, h.h3, hlev]
    refine ⟨rfl, ?_, ?_⟩
    · intro hd
      simp only [hd, decide_false, Bool.false_eq_true, if_false]
      exact ⟨rfl, rfl, rfl, rfl, rfl, rfl, fun h' => absurd hw h', fun _ => ⟨rfl, rfl, p, hp, rfl, rfl⟩⟩
    · intro hd
      simp only [hd, decide_true, if_true]
      rfl

theorem update_warning_flag (sqrt : α → α) (b : Bool) (s : DDM α)
    (hn : ¬ ((s.numInstances + 1 : Nat) : Int) < s.minNumInstances)
    (hd : (s.update sqrt b).1.driftDetected = false) :
    (s.update sqrt b).2.warningDetected = (s.update sqrt b).1.warningDetected := by
  unfold DDM.update at hd ⊢
  simp only [if_neg hn] at hd ⊢
  rw [hd]
  rfl

theorem runDDM_snoc (sqrt : α → α) (hist : List DDMCall) (c : DDMCall) (s : DDM α) :
    runDDM sqrt (hist ++ [c]) s = (match c with
      | .update b => (((runDDM sqrt hist s).1.update sqrt b).2,
          (runDDM sqrt hist s).2 ++ [(c, some ((runDDM sqrt hist s).1.update sqrt b).1)])
      | .reset => ((runDDM sqrt hist s).1.reset, (runDDM sqrt hist s).2 ++ [(c, none)])) := by
  unfold runDDM
  rw [List.foldl_append]
  rfl

theorem segment_snoc (tr : List (DDMCall × Option (Result α))) (x : DDMCall × Option (Result α)) :
    segment (tr ++ [x]) = (match x with
      | (.update b, some r) => if r.driftDetected then [] else segment tr ++ [b]
      | _ => []) := by
  unfold segment
  rw [List.foldl_append]
  rfl

theorem ddm_run_inv (sqrt : α → α) (mn : Int) (wl ol : α) (hist : List DDMCall) :
    DInv sqrt mn wl ol (runDDM sqrt hist (DDM.new mn wl ol)).1
      (segment (runDDM sqrt hist (DDM.new mn wl ol)).2) := by
  induction hist using List.reverseRecOn with
  | nil => exact dinv_new sqrt mn wl ol
  | append_singleton hist c ih =>
    rw [runDDM_snoc]
    cases c with
    | reset =>
      simp only [segment_snoc]
      rw [dinv_reset sqrt mn wl ol _ _ ih]
      exact dinv_new sqrt mn wl ol
    | update b =>
      simp only [segment_snoc]
      obtain ⟨u1, u2⟩ := update_spec sqrt mn wl ol _ _ b ih
      by_cases hw : warm mn (segment (runDDM sqrt hist (DDM.new mn wl ol)).2 ++ [b])
      · obtain ⟨p, -, hr, hnd, hd⟩ := u2 hw
        rw [hr]
        by_cases hdr : rateOf p + ol * sdOf sqrt p
            < levelOf sqrt (segment (runDDM sqrt hist (DDM.new mn wl ol)).2 ++ [b])
        · simp only [hdr, decide_true, if_true]
          rw [hd hdr]
          exact dinv_new sqrt mn wl ol
        · simp only [hdr, decide_false, Bool.false_eq_true, if_false]
          exact hnd hdr
      · obtain ⟨hr, hi⟩ := u1 hw
        rw [hr]
        simpa using hi

end

/-! ## ADWIN -/

section
variable [Field K] [LinearOrder K] [IsStrictOrderedRing K]

/-- bucket of a run of values -/
def mk (c : List K) : Bucket K := ⟨c.sum, c.length⟩

theorem bucketTotals_aux (cs : List (List K)) (a : K) (n : Nat) :
    (cs.map mk).foldl (fun acc b => (acc.1 + b.sum, acc.2 + b.count)) (a, n)
      = (a + cs.flatten.sum, n + cs.flatten.length) := by
  induction cs generalizing a n with
  | nil => simp
  | cons c cs ih => simp [ih, mk, add_assoc]

theorem bucketTotals_mk (cs : List (List K)) :
    bucketTotals (cs.map mk) = (cs.flatten.sum, cs.flatten.length) := by
  unfold bucketTotals; rw [bucketTotals_aux]; simp

/-- the state describes the window `cs.flatten`, a suffix of `vals` -/
structure AInv (δ : K) (mb : Int) (s : ADWIN K) (cs : List (List K)) (vals : List K) : Prop where
  hd : s.delta = δ
  hm : s.maxBuckets = mb
  hb : s.buckets = cs.map mk
  hs : s.totalSum = cs.flatten.sum
  hc : s.totalCount = cs.flatten.length
  hw : s.width = cs.flatten.length
  hsuf : cs.flatten <:+ vals
  hne : ∀ c ∈ cs, c ≠ [] ∧ c.length ≤ 2
  hlen : cs.length ≤ mb.toNat

theorem ainv_new (δ : K) (mb : Int) : AInv δ mb (ADWIN.new δ mb) [] [] :=
  ⟨rfl, rfl, rfl, rfl, rfl, rfl, by simp, by simp, by simp⟩

/-- pushing a value onto the chunks -/
def pushChunk (cs : List (List K)) (v : K) : List (List K) :=
  match cs.getLast? with
  | none => cs ++ [[v]]
  | some last => if last.length = 1 then cs.dropLast ++ [last ++ [v]] else cs ++ [[v]]

theorem pushBucket_mk (cs : List (List K)) (v : K) :
    pushBucket (cs.map mk) v = (pushChunk cs v).map mk := by
  unfold pushBucket pushChunk
  rw [List.getLast?_map]
  cases cs.getLast? with
  | none => simp [mk]
  | some last =>
    simp only [Option.map_some]
    by_cases h : last.length = 1
    · simp [mk, h, List.map_dropLast]
    · simp [mk, h]

theorem pushChunk_flatten (cs : List (List K)) (v : K) :
    (pushChunk cs v).flatten = cs.flatten ++ [v] := by
  unfold pushChunk
  cases h : cs.getLast? with
  | none => simp
  | some last =>
    by_cases h1 : last.length = 1
    · simp only [h1, if_true]
      obtain ⟨ys, rfl⟩ := List.getLast?_eq_some_iff.1 h
      simp
    · simp [h1]

theorem pushChunk_ne (cs : List (List K)) (v : K) (h : ∀ c ∈ cs, c ≠ [] ∧ c.length ≤ 2) :
    ∀ c ∈ pushChunk cs v, c ≠ [] ∧ c.length ≤ 2 := by
  unfold pushChunk
  cases hl : cs.getLast? with
  | none =>
    intro c hc
    rcases List.mem_append.1 hc with hc | hc
    · exact h c hc
    · rw [List.mem_singleton.1 hc]; simp
  | some last =>
    intro c hc
    by_cases h1 : last.length = 1
    · simp only [h1, if_true] at hc
      rcases List.mem_append.1 hc with hc | hc
      · exact h c (List.mem_of_mem_dropLast hc)
      · rw [List.mem_singleton.1 hc]; simp [h1]
    · simp only [h1, if_false] at hc
      rcases List.mem_append.1 hc with hc | hc
      · exact h c hc
      · rw [List.mem_singleton.1 hc]; simp

theorem pushChunk_length (cs : List (List K)) (v : K) :
    1 ≤ (pushChunk cs v).length ∧ (pushChunk cs v).length ≤ cs.length + 1 := by
  unfold pushChunk
  cases h : cs.getLast? with
  | none => simp
  | some last =>
    by_cases h1 : last.length = 1
    · obtain ⟨ys, rfl⟩ := List.getLast?_eq_some_iff.1 h
      simp [h1]
    · simp [h1]

/-- the window after `addElement`, before drift detection -/
theorem addElement_inv (δ : K) (mb : Int) (s : ADWIN K) (cs : List (List K)) (vals : List K) (v : K)
    (h : AInv δ mb s cs vals) :
    ∃ cs', AInv δ mb (s.addElement v) cs' (vals ++ [v]) ∧
      cs.flatten.length ≤ cs'.flatten.length + 1 := by
  obtain ⟨p1, p2⟩ := pushChunk_length cs v
  have hsuf : (pushChunk cs v).flatten <:+ vals ++ [v] := by
    rw [pushChunk_flatten]
    obtain ⟨t, ht⟩ := h.hsuf
    exact ⟨t, by rw [← ht]; simp⟩
  unfold ADWIN.addElement
  simp only [h.hb, pushBucket_mk, h.hs, h.hc, h.hw, h.hm, List.length_map]
  by_cases hlt : mb < ((pushChunk cs v).length : Int)
  · rw [if_pos hlt]
    cases hp : pushChunk cs v with
    | nil => rw [hp] at p1; simp at p1
    | cons c cs' =>
      have hf := pushChunk_flatten cs v
      rw [hp, List.flatten_cons] at hf
      have hsum : cs.flatten.sum + v = c.sum + cs'.flatten.sum := by
        have := congrArg List.sum hf
        simpa using this.symm
      have hcnt : cs.flatten.length + 1 = c.length + cs'.flatten.length := by
        have := congrArg List.length hf
        simp only [List.length_append, List.length_cons, List.length_nil] at this
        omega
      have hne := pushChunk_ne cs v h.hne
      rw [hp] at hne
      refine ⟨cs', ⟨h.hd, rfl, rfl, ?_, ?_, ?_, ?_, ?_, ?_⟩, ?_⟩
      · simp only [ADWIN.removeOldest, List.map_cons, mk]
        rw [hsum]; ring
      · simp only [ADWIN.removeOldest, List.map_cons, mk]
        omega
      · simp only [ADWIN.removeOldest, List.map_cons, mk]
        omega
      · rw [hp, List.flatten_cons] at hsuf
        exact (List.suffix_append _ _).trans hsuf
      · exact fun x hx => hne x (by simp [hx])
      · have := h.hlen
        rw [hp] at p2 
        simp only [List.length_cons] at p2
        omega
      · have := (hne c (by simp)).2
        omega
  · rw [if_neg hlt]
    refine ⟨pushChunk cs v, ⟨h.hd, rfl, rfl, ?_, ?_, ?_, hsuf, pushChunk_ne cs v h.hne, ?_⟩, ?_⟩
    · rw [pushChunk_flatten]; simp
    · rw [pushChunk_flatten]; simp
    · rw [pushChunk_flatten]; simp
    · omega
    · rw [pushChunk_flatten]; simp; omega

theorem flatten_ne_nil {cs : List (List K)} (hne : ∀ c ∈ cs, c ≠ [] ∧ c.length ≤ 2) (h : cs ≠ []) :
    cs.flatten ≠ [] := by
  cases cs with
  | nil => exact absurd rfl h
  | cons c cs => simp [(hne c (by simp)).1]

/-- meaning of the split test -/
theorem splitDrifts_iff (sqrt log : K → K) (δ : K) (cs : List (List K)) (i : Nat)
    (hne : ∀ c ∈ cs, c ≠ [] ∧ c.length ≤ 2) (h1 : 1 ≤ i) (h2 : i < cs.length) :
    splitDrifts sqrt log abs (1 / 2) 2 δ (cs.map mk) i = true ↔
      sqrt (1 / 2 * (1 / ((cs.take i).flatten.length : K) + 1 / ((cs.drop i).flatten.length : K))
        * log (2 / δ)) < |avg (cs.take i).flatten - avg (cs.drop i).flatten| := by
  have a0 : (cs.take i).flatten ≠ [] :=
    flatten_ne_nil (fun c hc => hne c (List.mem_of_mem_take hc))
      (by intro h; have := congrArg List.length h; rw [List.length_take] at this; simp only [List.length_nil] at this; omega)
  have a1 : (cs.drop i).flatten ≠ [] :=
    flatten_ne_nil (fun c hc => hne c (List.mem_of_mem_drop hc))
      (by intro h; have := congrArg List.length h; simp at this; omega)
  have b0 := List.length_pos_iff.2 a0
  have b1 := List.length_pos_iff.2 a1
  unfold splitDrifts
  rw [← List.map_take, ← List.map_drop, bucketTotals_mk, bucketTotals_mk]
  dsimp only
  rw [if_neg (by omega), decide_eq_true_iff, hoeffding, if_neg (by omega), bucketMean, bucketMean,
    if_pos b0, if_pos b1]
  rfl

/-- the drift check on a state describing `cs` -/
theorem detect_inv (sqrt log : K → K) (δ : K) (mb : Int) (s : ADWIN K) (cs : List (List K))
    (vals : List K) (h : AInv δ mb s cs vals) :
    ((s.detectDrift sqrt log abs (1 / 2) 2).1 = false ∧
      (s.detectDrift sqrt log abs (1 / 2) 2).2 = s ∧
      (5 ≤ cs.flatten.length → ∀ i, 1 ≤ i → i < cs.length →
        ¬ sqrt (1 / 2 * (1 / ((cs.take i).flatten.length : K)
          + 1 / ((cs.drop i).flatten.length : K)) * log (2 / δ))
          < |avg (cs.take i).flatten - avg (cs.drop i).flatten|)) ∨
    ∃ i, 1 ≤ i ∧ i < cs.length ∧ 5 ≤ cs.flatten.length ∧
      (s.detectDrift sqrt log abs (1 / 2) 2).1 = true ∧
      AInv δ mb (s.detectDrift sqrt log abs (1 / 2) 2).2 (cs.drop i) vals ∧
      sqrt (1 / 2 * (1 / ((cs.take i).flatten.length : K) + 1 / ((cs.drop i).flatten.length : K))
        * log (2 / δ)) < |avg (cs.take i).flatten - avg (cs.drop i).flatten| := by
  unfold ADWIN.detectDrift
  rw [h.hb, h.hc, h.hd, List.length_map]
  by_cases hl : cs.length < 2
  · rw [if_pos hl]
    exact Or.inl ⟨rfl, rfl, fun _ i h1 h2 => by omega⟩
  · rw [if_neg hl]
    by_cases h5 : cs.flatten.length < 5
    · rw [if_pos h5]
      exact Or.inl ⟨rfl, rfl, fun h => by omega⟩
    · rw [if_neg h5]
      cases hf : (List.range' 1 (cs.length - 1)).find?
          (splitDrifts sqrt log abs (1 / 2) 2 δ (cs.map mk)) with
      | none =>
        refine Or.inl ⟨rfl, rfl, ?_⟩
        intro _ i h1 h2
        rw [← splitDrifts_iff sqrt log δ cs i h.hne h1 h2]
        exact List.find?_eq_none.1 hf i (by rw [List.mem_range'_1]; omega)
      | some i =>
        obtain ⟨hm, ht⟩ := And.intro (List.mem_of_find?_eq_some hf) (List.find?_some hf)
        rw [List.mem_range'_1] at hm
        have h2 : i < cs.length := by omega
        refine Or.inr ⟨i, hm.1, h2, by omega, rfl, ?_, (splitDrifts_iff sqrt log δ cs i h.hne hm.1 h2).1 ht⟩
        dsimp only
        rw [← List.map_drop, bucketTotals_mk]
        refine ⟨rfl, h.hm, rfl, rfl, rfl, rfl, ?_, fun c hc => h.hne c (List.mem_of_mem_drop hc), ?_⟩
        · refine List.IsSuffix.trans ?_ h.hsuf
          have e : cs.flatten = (cs.take i).flatten ++ (cs.drop i).flatten := by
            rw [← List.flatten_append, List.take_append_drop]
          rw [e]; exact List.suffix_append _ _
        · have := h.hlen
          rw [List.length_drop]; omega

theorem valuesOf_snoc (hist : List (AdwinCall K)) (c : AdwinCall K) :
    valuesOf (hist ++ [c]) = (match c with | .update v => valuesOf hist ++ [v] | .reset => []) := by
  unfold valuesOf; rw [List.foldl_append]; rfl

theorem runADWIN_snoc (sqrt log : K → K) (hist : List (AdwinCall K)) (c : AdwinCall K) (s : ADWIN K) :
    runADWIN sqrt log abs (1 / 2) 2 (hist ++ [c]) s = (match c with
      | .update v => ((runADWIN sqrt log abs (1 / 2) 2 hist s).update sqrt log abs (1 / 2) 2 v).2
      | .reset => (runADWIN sqrt log abs (1 / 2) 2 hist s).reset) := by
  unfold runADWIN; rw [List.foldl_append]; rfl

theorem adwin_run_inv (sqrt log : K → K) (δ : K) (mb : Int) (hist : List (AdwinCall K)) :
    ∃ cs, AInv δ mb (runADWIN sqrt log abs (1 / 2) 2 hist (ADWIN.new δ mb)) cs (valuesOf hist) := by
  induction hist using List.reverseRecOn with
  | nil => exact ⟨[], ainv_new δ mb⟩
  | append_singleton hist c ih =>
    obtain ⟨cs, h⟩ := ih
    rw [runADWIN_snoc, valuesOf_snoc]
    cases c with
    | reset =>
      refine ⟨[], ?_⟩
      refine ⟨h.hd, h.hm, rfl, rfl, rfl, rfl, by simp, by simp, by simp⟩
    | update v =>
      obtain ⟨cs', h', -⟩ := addElement_inv δ mb _ cs _ v h
      rcases detect_inv sqrt log δ mb _ cs' _ h' with ⟨-, e, -⟩ | ⟨i, -, -, -, -, h2, -⟩
      · exact ⟨cs', by simp only [ADWIN.update]; rw [e]; exact h'⟩
      · exact ⟨_, h2⟩

theorem avg_const (c : K) (l : List K) (hl : l ≠ []) (h : ∀ x ∈ l, x = c) : avg l = c := by
  have hs : l.sum = (l.length : K) * c := by
    rw [List.eq_replicate_of_mem h]; simp
  unfold avg
  rw [hs, mul_div_cancel_left₀]
  exact_mod_cast (List.length_pos_iff.2 hl).ne'

end

end Scigo.Drift
