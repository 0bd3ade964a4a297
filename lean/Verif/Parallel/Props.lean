import Verif.Parallel.Lemmas

/-!
# Properties of `core/parallel` (C01, C02)
-/

namespace Scigo.Parallel

/-- **C01** (law-free). The ranges started by `Parallelize`, concatenated, are exactly
`0, 1, …, items-1`: every index once, none outside.  No range is empty and there are at
most `cpus` of them. -/
theorem parallelize_covers_exactly_once (items cpus : Nat) (hc : 1 ≤ cpus) :
    (parallelRanges items cpus).flatMap (fun r => List.range' r.1 (r.2 - r.1)) = List.range items
    ∧ (∀ r ∈ parallelRanges items cpus, r.1 < r.2 ∧ r.2 ≤ items)
    ∧ (parallelRanges items cpus).length ≤ cpus
    ∧ (parallelRanges items cpus).Pairwise (fun r s => r.2 ≤ s.1) :=
  ⟨ranges_flatMap items cpus hc, ranges_bounds items cpus, ranges_length items cpus,
    ranges_pairwise items cpus⟩

/-- **C01** for `ParallelizeWithThreshold`, both branches. -/
theorem threshold_covers_exactly_once (items threshold cpus : Nat) (hc : 1 ≤ cpus) :
    (thresholdRanges items threshold cpus).flatMap (fun r => List.range' r.1 (r.2 - r.1))
      = List.range items := by
  unfold thresholdRanges
  split
  · simp [List.range_eq_range']
  · exact ranges_flatMap items cpus hc

example : parallelRanges 10 4 = [(0, 3), (3, 6), (6, 9), (9, 10)] := by decide
/-- a worker is skipped: 5 items on 4 CPUs use three ranges -/
example : parallelRanges 5 4 = [(0, 2), (2, 4), (4, 5)] := by decide

/-- **C02** (law-free, every schedule). Whenever `Parallelize` has returned, whatever the
interleaving of the workers' atomic actions was, the memory is that of the sequential
loop. -/
theorem parallelize_schedule_independent {β : Type _} (body : Nat → List (β → β))
    (items cpus : Nat) (hc : 1 ≤ cpus) (m : Memory β) (c : Config β)
    (hr : Reaches body (Config.start items cpus m) c) (hret : c.returned = true) :
    c.mem = sequential body items m :=
  returned_mem body items cpus hc m c hr hret

/-- **C02**, progress: no schedule deadlocks (until `Parallelize` returned some goroutine
can move) … -/
theorem parallelize_no_deadlock {β : Type _} (body : Nat → List (β → β))
    (items cpus : Nat) (m : Memory β) (c : Config β)
    (hr : Reaches body (Config.start items cpus m) c) (hret : c.returned = false) :
    ∃ c', Step body c c' :=
  progress body items cpus m c hr hret

/-- … and every schedule is finite: each step decreases a natural number measure. -/
theorem parallelize_terminates {β : Type _} (body : Nat → List (β → β)) :
    ∃ μ : Config β → Nat, ∀ c c', Step body c c' → μ c' < μ c :=
  ⟨measure body, fun _ _ h => measure_decreases body h⟩

/-- Non-vacuity: two workers whose writes interleave (worker 0 writes once, worker 1 twice,
then worker 0 again), after which the call returns. -/
example : ∃ c : Config Nat,
    Reaches (fun k => [fun x => x + k, fun x => 2 * x]) (Config.start 2 2 (fun _ => 1)) c
      ∧ c.returned = true ∧ c.mem 0 = 2 ∧ c.mem 1 = 4 := by
  have step : ∀ {a b : Config Nat} {P : Config Nat → Prop} {body},
      Step body a b → (∃ c, Reaches body b c ∧ P c) → ∃ c, Reaches body a c ∧ P c :=
    fun h ⟨c, hr, hp⟩ => ⟨c, .head h hr, hp⟩
  have e : Config.start 2 2 (fun _ => 1) =
    (⟨[(0, 1), (1, 2)], [], 0, fun _ => 1, false⟩ : Config Nat) := rfl
  rw [e]
  refine step (.spawn _ _ _ _ _) (step (.spawn _ _ _ _ _) ?_)
  refine step (.work [] [] ⟨0, fun x => x + 0⟩ [⟨0, fun x => 2 * x⟩] _ _ _) ?_
  refine step (.work [] [_] ⟨1, fun x => x + 1⟩ [⟨1, fun x => 2 * x⟩] [] _ _) ?_
  refine step (.work [] [_] ⟨1, fun x => 2 * x⟩ [] [] _ _) ?_
  refine step (.work [] [] ⟨0, fun x => 2 * x⟩ [] _ _ _) ?_
  refine step (.done [] [] _ _ _) (step (.done [] [] _ _ _) (step (.wait _) ?_))
  exact ⟨_, .refl, rfl, rfl, rfl⟩

end Scigo.Parallel
