import Verif.Hist.Dispatch
import Verif.Hist.MergeProps

/-!
# C255: what `BuildHistogramsParallel` returns does not depend on the settings, the strategy or the schedule
-/

set_option linter.unusedSectionVars false

namespace Scigo.Hist

/-! ## Lemmas -/

/-- if every state reached that has not ended can go on and nothing goes on for ever, some run ends -/
theorem exists_end {σ : Type} (step : σ → σ → Prop) (ended : σ → Prop) (s : σ)
    (hprog : ∀ t, Relation.ReflTransGen step s t → ¬ ended t → ∃ t', step t t')
    (hterm : ∀ f : Nat → σ, f 0 = s → ¬ ∀ n, step (f n) (f (n + 1))) : ∃ t, Relation.ReflTransGen step s t ∧ ended t := by
  by_contra hno
  have hno : ∀ t, Relation.ReflTransGen step s t → ¬ ended t := fun t h1 h2 => hno ⟨t, h1, h2⟩
  let next : {t // Relation.ReflTransGen step s t} → {t // Relation.ReflTransGen step s t} := fun t =>
    ⟨Classical.choose (hprog t.1 t.2 (hno t.1 t.2)), t.2.tail (Classical.choose_spec (hprog t.1 t.2 (hno t.1 t.2)))⟩
  let f : Nat → {t // Relation.ReflTransGen step s t} := fun n => Nat.rec ⟨s, .refl⟩ (fun _ t => next t) n
  refine hterm (fun n => (f n).1) rfl fun n => ?_
  exact Classical.choose_spec (hprog (f n).1 (f n).2 (hno (f n).1 (f n).2))

/-! ## Properties -/

/-- **C255**: a builder always has at least one worker and chunks of at least one row, whatever the settings were given; the setters take positive
numbers and ignore all others, and do not touch anything else. -/
theorem settings_positive (B : PBuilder) (h : B.Made) : 1 ≤ B.workers ∧ 1 ≤ B.chunkSize := by
  induction h with
  | new cpus maxBins h =>
    unfold PBuilder.new
    dsimp only
    refine ⟨by omega, ?_⟩
    split <;> decide
  | workers B n _ ih =>
    unfold PBuilder.setNumWorkers
    split
    · exact ⟨by dsimp only; omega, ih.2⟩
    · exact ih
  | chunk B n _ ih =>
    unfold PBuilder.setChunkSize
    split
    · exact ⟨ih.1, by dsimp only; omega⟩
    · exact ih

/-- **C255**: what the setters do. -/
theorem setters (B : PBuilder) (n : Int) :
    (0 < n → (B.setNumWorkers n).workers = n ∧ (B.setChunkSize n).chunkSize = n) ∧ (n ≤ 0 → B.setNumWorkers n = B ∧ B.setChunkSize n = B) ∧
    (B.setNumWorkers n).maxBins = B.maxBins ∧ (B.setChunkSize n).maxBins = B.maxBins ∧
    (B.setNumWorkers n).chunkSize = B.chunkSize ∧ (B.setChunkSize n).workers = B.workers := by
  unfold PBuilder.setNumWorkers PBuilder.setChunkSize
  refine ⟨fun h => ?_, fun h => ?_, ?_, ?_, ?_, ?_⟩
  · rw [if_pos h, if_pos h]; exact ⟨rfl, rfl⟩
  · rw [if_neg (by omega), if_neg (by omega)]; exact ⟨rfl, rfl⟩
  all_goals split <;> rfl

section
variable {α : Type} [Field α] [LinearOrder α] [IsStrictOrderedRing α]

/-- **C255** (exact arithmetic): every call that returns gives, for every feature of the matrix, the histogram built sequentially from the rows — whatever
the number of workers, the chunk size, the strategy chosen and the schedule. -/
theorem parallel_is_sequential (eqv : α → α → Bool) (hsound : Sound eqv) (B : PBuilder) (hB : B.Made) (I : PInput α) (out : Nat → Hist α)
    (h : B.Builds eqv I out) (f : Nat) (hf : f < I.cols) :
    ((f : Int) ∈ I.categorical → out f = buildCategorical I.toInt I.ofInt I.iter I.byCategory f (fun i => I.x i f) I.g I.h I.indices) ∧
    ((f : Int) ∉ I.categorical → out f = buildContinuousOpt I.lits I.trunc I.srt B.maxBins f (fun i => I.x i f) I.g I.h I.indices) := by
  obtain ⟨hw, hc⟩ := settings_positive B hB
  have hcatT : (f : Int) ∈ I.categorical → isCategorical f I.categorical = true := fun hm =>
    List.any_eq_true.2 ⟨_, hm, by simp⟩
  have hcatF : (f : Int) ∉ I.categorical → isCategorical f I.categorical = false := by
    intro hm
    rw [isCategorical, List.any_eq_false]
    intro c hc
    simp only [decide_eq_true_eq]
    rintro rfl
    exact hm hc
  cases h with
  | samples hl _ hout hcat hcont =>
    refine ⟨fun hm => hcat f hf (hcatT hm), fun hm => ?_⟩
    obtain ⟨hpos, s, hr, hfin, e⟩ := hcont f hf (hcatF hm)
    exact e.trans (merge_histogram eqv hsound B.chunkSize.toNat (by omega) I.lits I.trunc I.srt B.maxBins f (fun i => I.x i f) I.g I.h I.indices s hr hfin)
  | features hl p hrun hret =>
    have := (pool_histograms I.cols B.workers.toNat (by omega) (I.build B.maxBins) _ p hrun).2 hret
    rw [this.1 f hf]
    unfold PInput.build
    refine ⟨fun hm => ?_, fun hm => ?_⟩
    · rw [if_pos (hcatT hm)]; rfl
    · rw [hcatF hm]; rfl

/-- **C255**: a call can return, and without `NaN` no schedule makes it run for ever (`pool_terminates`, `merge_terminates`). -/
theorem parallel_returns (eqv : α → α → Bool) (hsound : Sound eqv) (hrefl : ∀ a, eqv a a = true) (B : PBuilder) (hB : B.Made) (I : PInput α) :
    ∃ out, B.Builds eqv I out := by
  obtain ⟨hw, hc⟩ := settings_positive B hB
  by_cases hl : bySamples I.indices.length I.cols
  · have key : ∀ f, ∃ s, Relation.ReflTransGen (MergeStep eqv)
        (Merge.start B.chunkSize.toNat (I.bounds B.maxBins f) (fun i => I.x i f) I.g I.h I.indices) s ∧ s.finished := fun f =>
      exists_end _ Merge.finished _ (fun t _ ht => merge_progress eqv t ht) fun r h0 =>
        merge_terminates eqv hsound hrefl r (by rw [h0]; simp [Merge.start])
    refine ⟨fun f => if I.cols ≤ f then .empty else if isCategorical f I.categorical then I.cat f
      else (Classical.choose (key f)).result f (I.bounds B.maxBins f), .samples hl _ (fun f hf => if_pos hf) (fun f hf h => ?_) fun f hf h => ?_⟩
    · rw [if_neg (by omega), if_pos h]
    · refine ⟨by omega, Classical.choose (key f), (Classical.choose_spec (key f)).1, (Classical.choose_spec (key f)).2, ?_⟩
      rw [if_neg (by omega), h]
      rfl
  · obtain ⟨p, h1, h2⟩ := exists_end (PoolStep I.cols (I.build B.maxBins)) Pool.returned (Pool.start B.workers.toNat fun _ => .empty)
      (fun t ht hn => pool_progress I.cols B.workers.toNat (by omega) (I.build B.maxBins) _ t ht hn)
      fun r _ => pool_terminates I.cols (I.build B.maxBins) r
    exact ⟨p.out, .features hl p h1 h2⟩

/-- **C255**: two calls with the same `maxBins` and the same data return the same histograms, however differently the builders are set. -/
theorem settings_irrelevant (eqv : α → α → Bool) (hsound : Sound eqv) (B B' : PBuilder) (hB : B.Made) (hB' : B'.Made) (hm : B.maxBins = B'.maxBins)
    (I : PInput α) (out out' : Nat → Hist α) (h : B.Builds eqv I out) (h' : B'.Builds eqv I out') (f : Nat) (hf : f < I.cols) : out f = out' f := by
  obtain ⟨a, b⟩ := parallel_is_sequential eqv hsound B hB I out h f hf
  obtain ⟨a', b'⟩ := parallel_is_sequential eqv hsound B' hB' I out' h' f hf
  by_cases hc : (f : Int) ∈ I.categorical
  · rw [a hc, a' hc]
  · rw [b hc, b' hc, hm]

/-- why the setter refuses 0: with no worker the call would return at once, with empty histograms, for at most 10000 rows or
at least 100 columns -/
theorem no_worker_builds_nothing (eqv : α → α → Bool) (maxBins : Nat) (size : Int) (I : PInput α)
    (hl : I.indices.length ≤ 10000 ∨ 100 ≤ I.cols) : PBuilder.Builds eqv ⟨maxBins, 0, size⟩ I fun _ => ⟨0, [], []⟩ := by
  have send : ∀ n, n ≤ I.cols → Relation.ReflTransGen (PoolStep I.cols (I.build maxBins)) (Pool.start 0 fun _ => .empty)
      ⟨n, List.range n, false, [], fun _ => .empty⟩ := by
    intro n
    induction n with
    | zero => intro _; exact .refl
    | succ n ih =>
      intro hn
      refine (ih (by omega)).tail ?_
      rw [List.range_succ]
      exact .send ⟨n, List.range n, false, [], _⟩ hn (by simp; omega) rfl
  exact .features (by unfold bySamples; omega) ⟨I.cols, List.range I.cols, true, [], fun _ => .empty⟩ ((send _ le_rfl).tail (.close ⟨I.cols, _, false, [], _⟩ rfl rfl))
    ⟨rfl, by simp⟩

end

/-- two features, three rows, the second feature categorical -/
def exPInput : PInput Rat where
  cols := 2
  x := fun i j => if j = 0 then (i : Rat) else 7
  g := fun i => i + 1
  h := fun _ => 1
  indices := [0, 1, 2]
  categorical := [1]
  lits := ⟨1, 0, 0⟩
  trunc := fun i _ _ => i
  srt := id
  toInt := fun q => q.num
  ofInt := fun n => n
  iter := id
  byCategory := id

example : ((PBuilder.new 4 255).setNumWorkers 0).setChunkSize (-3) = PBuilder.new 4 255 ∧ ((PBuilder.new 4 255).setNumWorkers 2).workers = 2 := by
  decide

example : ((PBuilder.new 4 255).setNumWorkers 2).Made := .workers _ _ (.new _ _ (by decide))

/-- every call on these data returns the two histograms -/
example (eqv : Rat → Rat → Bool) (hs : Sound eqv) (out : Nat → Hist Rat) (h : (PBuilder.new 4 255).Builds eqv exPInput out) :
    (out 0).bins.map (·.grad) = [1, 2, 3] ∧ (out 1).bins.map (·.count) = [3] := by
  obtain ⟨-, h0⟩ := parallel_is_sequential eqv hs _ (.new _ _ (by decide)) exPInput out h 0 (by decide)
  obtain ⟨h1, -⟩ := parallel_is_sequential eqv hs _ (.new _ _ (by decide)) exPInput out h 1 (by decide)
  rw [h0 (by decide), h1 (by decide)]
  decide +kernel

end Scigo.Hist
