import Mathlib.Order.Basic
import Mathlib.Tactic.Linarith
import Mathlib.Data.List.Basic

/-!
# The garbage-collection optimizer and the statistics of the matrix pool (C213, C214)

Model of `GCOptimizer` (`performance/memory_optimizer.go:221-339`) and of the counters of `MatrixPool`
(`performance/memory_optimizer.go:52-124`).
-/

namespace Scigo.GC

/-! ## The optimizer -/

/-- a monitoring goroutine: waiting for the ticker, or past the test of `enabled` (`performance/memory_optimizer.go:310-338`) -/
inductive Mon
  | waiting
  | checked
deriving DecidableEq

/-- `GCOptimizer` with the settings of the runtime it changes, the clock, the monitoring goroutines and the record of forced collections as pairs of start
and end (`performance/memory_optimizer.go:221-231`). Times are nanoseconds since the optimizer was made; `none` is the zero time, which is long ago. -/
structure St where
  percent : Int
  limit : Int
  enabled : Bool
  now : Int
  lastGC : Option Int
  count : Nat
  mons : List Mon
  forced : List (Int × Int)

/-- `time.Since(g.lastGC)`; for the zero time it is the largest duration (`performance/memory_optimizer.go:279`) -/
def St.since (s : St) : Int := match s.lastGC with
  | some t => s.now - t
  | none => 2 ^ 63 - 1

/-- the settings an optimizer is made with (`performance/memory_optimizer.go:233-241`); the memory limit is always 1 GiB -/
structure Params where
  gcPercent : Int
  maxPause : Int

/-- `NewGCOptimizer` in a program whose runtime has the given settings (`performance/memory_optimizer.go:233-241`) -/
def St.new (percent limit : Int) : St := ⟨percent, limit, true, 0, none, 0, [], []⟩

/-- `Start` (`performance/memory_optimizer.go:244-261`) -/
def St.start (p : Params) (s : St) : St :=
  if s.enabled then { s with percent := p.gcPercent, limit := 2 ^ 30, mons := s.mons ++ [.waiting] } else s

/-- `Stop` (`performance/memory_optimizer.go:263-270`) -/
def St.stop (s : St) : St := { s with enabled := false, percent := 100 }

/-- `ForceGC`, where a collection takes `d` (`performance/memory_optimizer.go:273-282`); the counter is a `uint32` -/
def St.force (p : Params) (d : Nat) (s : St) : St :=
  if s.since > p.maxPause then
    { s with now := s.now + d, lastGC := some (s.now + d), count := (s.count + 1) % 2 ^ 32, forced := s.forced ++ [(s.now, s.now + d)] }
  else s

/-- one step: a call by the program, the clock, a tick of a monitor, or a monitor past its test, which forces a collection or not depending on the heap
(`performance/memory_optimizer.go:310-338`) -/
inductive Step (p : Params) : St → St → Prop
  | start (s : St) : Step p s (s.start p)
  | stop (s : St) : Step p s s.stop
  | force (s : St) (d : Nat) : Step p s (s.force p d)
  | time (s : St) (d : Nat) : Step p s { s with now := s.now + d }
  | tick (s : St) (i : Nat) : s.mons[i]? = some .waiting →
      Step p s { s with mons := if s.enabled then s.mons.set i .checked else s.mons.eraseIdx i }
  | check (s : St) (i : Nat) : s.mons[i]? = some .checked → Step p s { s with mons := s.mons.set i .waiting }
  | collect (s : St) (i d : Nat) : s.mons[i]? = some .checked → Step p s { (s.force p d) with mons := s.mons.set i .waiting }

/-- any number of steps -/
inductive Steps (p : Params) : St → St → Prop
  | refl (s : St) : Steps p s s
  | tail {a b c : St} : Steps p a b → Step p b c → Steps p a c

/-- `AveragePause` as `GetStats` computes it from the total, which nothing ever changes (`performance/memory_optimizer.go:285-297`) -/
def avgPause (total : Int) (s : St) : Int := if s.count > 0 then total.tdiv s.count else 0

theorem force_mons (p : Params) (d : Nat) (s : St) : (s.force p d).mons = s.mons ∧ (s.force p d).enabled = s.enabled ∧ (s.force p d).percent = s.percent ∧
    (s.force p d).limit = s.limit := by
  unfold St.force
  by_cases h : s.since > p.maxPause
  · rw [if_pos h]; exact ⟨rfl, rfl, rfl, rfl⟩
  · rw [if_neg h]; exact ⟨rfl, rfl, rfl, rfl⟩

structure Inv (p : Params) (s : St) : Prop where
  last : s.lastGC = s.forced.getLast?.map (·.2)
  apart : s.forced.Pairwise (fun a b => a.2 + p.maxPause < b.1)
  past : ∀ x ∈ s.forced, x.1 ≤ x.2 ∧ x.2 ≤ s.now
  count : s.count = s.forced.length % 2 ^ 32
  order : ∀ x ∈ s.forced, ∀ y, s.forced.getLast? = some y → x.2 ≤ y.2

theorem inv_force {p : Params} {s : St} (h : Inv p s) (d : Nat) : Inv p (s.force p d) := by
  unfold St.force
  by_cases hs : s.since > p.maxPause
  · rw [if_pos hs]
    refine ⟨by simp, ?_, ?_, ?_, ?_⟩
    · simp only [List.pairwise_append, h.apart, true_and, List.pairwise_cons, List.not_mem_nil, false_imp_iff, implies_true, List.Pairwise.nil, and_self,
        List.mem_cons, or_false, forall_eq]
      intro a ha
      have hl := h.last
      unfold St.since at hs
      cases hg : s.forced.getLast? with
      | none =>
        rw [List.getLast?_eq_none_iff] at hg
        rw [hg] at ha; cases ha
      | some y =>
        rw [hg] at hl
        have hl : s.lastGC = some y.2 := hl
        rw [hl] at hs
        have hs : s.now - y.2 > p.maxPause := hs
        have := h.order a ha y hg
        omega
    · intro x hx
      simp only [List.mem_append, List.mem_cons, List.not_mem_nil, or_false] at hx
      rcases hx with hx | rfl
      · obtain ⟨a, b⟩ := h.past x hx
        exact ⟨a, by simp only; omega⟩
      · simp
    · simp only [List.length_append, List.length_cons, List.length_nil, h.count]
      omega
    · intro x hx y hy
      simp only [List.getLast?_append, List.getLast?_singleton, Option.some_or, Option.some.injEq] at hy
      subst hy
      simp only [List.mem_append, List.mem_cons, List.not_mem_nil, or_false] at hx
      rcases hx with hx | rfl
      · obtain ⟨a, b⟩ := h.past x hx
        simp only; omega
      · simp
  · rw [if_neg hs]; exact h

theorem inv_same {p : Params} {s s' : St} (h : Inv p s) (h1 : s'.lastGC = s.lastGC) (h2 : s'.forced = s.forced) (h3 : s.now ≤ s'.now)
    (h4 : s'.count = s.count) : Inv p s' := by
  refine ⟨by rw [h1, h2]; exact h.last, by rw [h2]; exact h.apart, ?_, by rw [h4, h2]; exact h.count, by rw [h2]; exact h.order⟩
  intro x hx
  rw [h2] at hx
  obtain ⟨a, b⟩ := h.past x hx
  exact ⟨a, le_trans b h3⟩

theorem inv_step {p : Params} {s s' : St} (h : Inv p s) (hs : Step p s s') : Inv p s' := by
  cases hs with
  | start =>
    unfold St.start
    by_cases he : s.enabled = true
    · rw [if_pos he]; exact inv_same h rfl rfl (le_refl _) rfl
    · rw [if_neg he]; exact h
  | stop => exact inv_same h rfl rfl (le_refl _) rfl
  | force d => exact inv_force h d
  | time d => exact inv_same h rfl rfl (by simp only; omega) rfl
  | tick i hi => exact inv_same h rfl rfl (le_refl _) rfl
  | check i hi => exact inv_same h rfl rfl (le_refl _) rfl
  | collect i d hi => exact inv_same (inv_force h d) rfl rfl (le_refl _) rfl

theorem inv_steps {p : Params} {a b : St} (h : Inv p a) (hs : Steps p a b) : Inv p b := by
  induction hs with
  | refl => exact h
  | tail _ h2 ih => exact inv_step ih h2

theorem inv_new (p : Params) (percent limit : Int) : Inv p (St.new percent limit) :=
  ⟨rfl, List.Pairwise.nil, fun x hx => (nomatch hx), rfl, fun x hx => (nomatch hx)⟩

/-- **C213.** Whatever the program and however many monitors run, forced collections are rate limited: each one starts more than `maxPause` after every earlier
one ended; and the number reported is the number of forced collections modulo 2^32. -/
theorem gc_rate_limited (p : Params) (percent limit : Int) (s : St) (hs : Steps p (St.new percent limit) s) :
    s.forced.Pairwise (fun a b => a.2 + p.maxPause < b.1) ∧ s.count = s.forced.length % 2 ^ 32 :=
  ⟨(inv_steps (inv_new p percent limit) hs).apart, (inv_steps (inv_new p percent limit) hs).count⟩

/-- **C213.** When a request does collect: before the first collection it does unless `maxPause` is the largest duration; afterwards if and only if more than
`maxPause` has passed since the last one ended. -/
theorem gc_collects_iff (p : Params) (percent limit : Int) (s : St) (hs : Steps p (St.new percent limit) s) (d : Nat) :
    (s.force p d).forced = if (s.forced = [] ∧ p.maxPause < 2 ^ 63 - 1) ∨ (∃ x, s.forced.getLast? = some x ∧ x.2 + p.maxPause < s.now)
      then s.forced ++ [(s.now, s.now + d)] else s.forced := by
  have hl := (inv_steps (inv_new p percent limit) hs).last
  have hiff : s.since > p.maxPause ↔ (s.forced = [] ∧ p.maxPause < 2 ^ 63 - 1) ∨ (∃ x, s.forced.getLast? = some x ∧ x.2 + p.maxPause < s.now) := by
    unfold St.since
    cases hg : s.forced.getLast? with
    | none =>
      rw [hg] at hl
      rw [List.getLast?_eq_none_iff] at hg
      have hl : s.lastGC = none := hl
      rw [hl]
      simp [hg]
    | some y =>
      rw [hg] at hl
      have hl : s.lastGC = some y.2 := hl
      rw [hl]
      have : s.forced ≠ [] := fun e => by rw [e] at hg; cases hg
      simp only [this, false_and, false_or, Option.some.injEq, exists_eq_left']
      constructor <;> intro h <;> linarith
  unfold St.force
  by_cases h : s.since > p.maxPause
  · rw [if_pos h, if_pos (hiff.1 h)]
  · rw [if_neg h, if_neg (fun hh => h (hiff.2 hh))]

/-- what a stopped optimizer can still do: nothing starts, monitors only end, each at its next tick, and each at most acts once more -/
def later (l : List Mon) : Nat := (l.map (fun m => match m with | .waiting => 1 | .checked => 2)).sum

theorem later_set (l : List Mon) (i : Nat) (h : l[i]? = some .checked) : later (l.set i .waiting) + 1 = later l := by
  induction l generalizing i with
  | nil => cases h
  | cons a l ih =>
    cases i with
    | zero => injection h with h; subst h; simp [later]; omega
    | succ i =>
      have := ih i h
      unfold later at this ⊢
      simp only [List.set_cons_succ, List.map_cons, List.sum_cons]
      omega

theorem later_erase (l : List Mon) (i : Nat) (h : l[i]? = some .waiting) : later (l.eraseIdx i) + 1 = later l := by
  induction l generalizing i with
  | nil => cases h
  | cons a l ih =>
    cases i with
    | zero => injection h with h; subst h; simp [later]; omega
    | succ i =>
      have := ih i h
      unfold later at this ⊢
      simp only [List.eraseIdx_cons_succ, List.map_cons, List.sum_cons]
      omega

/-- **C213.** A stopped optimizer stays stopped: `Start` does nothing any more, no monitor begins, and every step of a monitor uses up a budget that only
the monitors running at the time of `Stop` brought along, so that they all end. The runtime settings are not touched again except by `Stop`. -/
theorem gc_stopped (p : Params) (s s' : St) (he : s.enabled = false) (hs : Step p s s') :
    s'.enabled = false ∧ s'.limit = s.limit ∧ (s'.percent = s.percent ∨ s'.percent = 100) ∧ s.start p = s ∧
    (s'.mons = s.mons ∨ later s'.mons + 1 = later s.mons) := by
  have hst : s.start p = s := by unfold St.start; rw [if_neg (by simp [he])]
  cases hs with
  | start => rw [hst]; exact ⟨he, rfl, .inl rfl, rfl, .inl rfl⟩
  | stop => exact ⟨rfl, rfl, .inr rfl, hst, .inl rfl⟩
  | force d =>
    obtain ⟨a, b, c, e⟩ := force_mons p d s
    exact ⟨by rw [b]; exact he, e, .inl c, hst, .inl a⟩
  | time d => exact ⟨he, rfl, .inl rfl, hst, .inl rfl⟩
  | tick i hi =>
    refine ⟨he, rfl, .inl rfl, hst, .inr ?_⟩
    simp only [he, Bool.false_eq_true, if_false]
    exact later_erase _ _ hi
  | check i hi => exact ⟨he, rfl, .inl rfl, hst, .inr (later_set _ _ hi)⟩
  | collect i d hi =>
    obtain ⟨a, b, c, e⟩ := force_mons p d s
    exact ⟨by simp only [b]; exact he, e, .inl c, hst, .inr (later_set _ _ hi)⟩

/-- **C213.** As long as a monitor of a stopped optimizer runs, it can take its next step; and without monitors nothing is left. -/
theorem gc_monitors_end_partial (p : Params) (s : St) (he : s.enabled = false) : ∃ s', Steps p s s' ∧ s'.mons = [] ∧ s'.enabled = false ∧ s'.forced = s.forced := by
  have trans : ∀ a b c, Step p a b → Steps p b c → Steps p a c := by
    intro a b c h1 h2
    induction h2 with
    | refl => exact .tail (.refl _) h1
    | tail _ h3 ih => exact .tail ih h3
  induction hk : later s.mons using Nat.strong_induction_on generalizing s with
  | _ n ih =>
    cases hm : s.mons with
    | nil => exact ⟨s, .refl _, hm, he, rfl⟩
    | cons m l =>
      cases m with
      | waiting =>
        have h0 : s.mons[0]? = some .waiting := by rw [hm]; rfl
        have hst := Step.tick (p := p) s 0 h0
        have hl := later_erase _ _ h0
        obtain ⟨s', a, b, c, d⟩ := ih (later (s.mons.eraseIdx 0)) (by omega)
          { s with mons := if s.enabled then s.mons.set 0 .checked else s.mons.eraseIdx 0 } he (by simp [he])
        exact ⟨s', trans _ _ _ hst a, b, c, d⟩
      | checked =>
        have h0 : s.mons[0]? = some .checked := by rw [hm]; rfl
        have hl := later_set _ _ h0
        obtain ⟨s', a, b, c, d⟩ := ih (later (s.mons.set 0 .waiting)) (by omega) { s with mons := s.mons.set 0 .waiting } he rfl
        exact ⟨s', trans _ _ _ (.check s 0 h0) a, b, c, d⟩

/-- **C213 is false**: `Stop` does not put back what `Start` changed. Whatever the program had set, the percentage is 100 and the memory limit 1 GiB
afterwards. -/
theorem gc_stop_does_not_restore (p : Params) (percent limit : Int) :
    ((St.new percent limit).start p).stop.percent = 100 ∧ ((St.new percent limit).start p).stop.limit = 2 ^ 30 := ⟨rfl, rfl⟩

/-- **C213.** The average pause reported is always 0. -/
theorem gc_avg_pause (s : St) : avgPause 0 s = 0 := by
  unfold avgPause
  split
  · simp
  · rfl

/-- two monitors, one forced collection each, 5 apart -/
example : ∃ s, Steps ⟨50, 3⟩ (St.new 200 (2 ^ 63 - 1)) s ∧ s.forced = [(1, 2), (7, 7)] ∧ s.count = 2 ∧ s.mons = [.waiting, .waiting] := by
  refine ⟨_, .tail (.tail (.tail (.tail (.tail (.tail (.tail (.tail (.refl _) (.start _)) (.start _)) (.time _ 1)) (.tick _ 0 rfl)) (.collect _ 0 1 rfl))
    (.time _ 5)) (.tick _ 1 rfl)) (.collect _ 1 0 rfl), by decide, by decide, by decide⟩

/-- a collection within the pause is refused -/
example : ((({ (St.new 100 0) with now := 10, lastGC := some 8, forced := [(7, 8)], count := 1 } : St).force ⟨50, 3⟩ 1).forced = [(7, 8)]) := by decide

/-! ## The statistics of the pool -/

/-- the counters of a pool and the calls of `Get` in progress, with the largest number in use so far as a record
(`performance/memory_optimizer.go:15-34, 52-75`): `begun` calls have counted themselves, `loaded` ones have read the counter -/
structure Stats where
  inUse : Int
  peak : Int
  created : Nat
  recycled : Nat
  begun : Nat
  loaded : List Int
  most : Int

/-- a new pool (`performance/memory_optimizer.go:36-50`) -/
def Stats.new : Stats := ⟨0, 0, 0, 0, 0, [], 0⟩

/-- steps of any number of goroutines: `Get` counts itself, maybe makes a new matrix, reads the counter, updates the peak; `Put` of a matrix in use
(`performance/memory_optimizer.go:52-91, 117-124`). The order of the two counters within `Put` does not matter here. -/
inductive SStep : Stats → Stats → Prop
  | begin (s : Stats) (new : Bool) : SStep s
      { s with inUse := s.inUse + 1, begun := s.begun + 1, created := s.created + if new then 1 else 0, most := max s.most (s.inUse + 1) }
  | load (s : Stats) (k : Nat) : s.begun = k + 1 → SStep s { s with begun := k, loaded := s.inUse :: s.loaded }
  | update (s : Stats) (l r : List Int) (v : Int) : s.loaded = l ++ v :: r → SStep s { s with loaded := l ++ r, peak := if v > s.peak then v else s.peak }
  | put (s : Stats) : 0 < s.inUse → SStep s { s with inUse := s.inUse - 1, recycled := s.recycled + 1 }

/-- any number of steps -/
inductive SSteps : Stats → Stats → Prop
  | refl (s : Stats) : SSteps s s
  | tail {a b c : Stats} : SSteps a b → SStep b c → SSteps a c

/-- a whole `Get` that no other call interrupts -/
def Stats.get (new : Bool) (s : Stats) : Stats :=
  { s with inUse := s.inUse + 1, created := s.created + (if new then 1 else 0), most := max s.most (s.inUse + 1),
           peak := if s.inUse + 1 > s.peak then s.inUse + 1 else s.peak }

/-- calls one after another -/
inductive Seq : Stats → Stats → Prop
  | refl (s : Stats) : Seq s s
  | get {a b : Stats} (new : Bool) : Seq a b → Seq a (b.get new)
  | put {a b : Stats} : Seq a b → 0 < b.inUse → Seq a { b with inUse := b.inUse - 1, recycled := b.recycled + 1 }

/-- **C214.** Under every interleaving the peak reported never exceeds the largest number of matrices in use at one time. -/
theorem peak_at_most (s : Stats) (h : SSteps Stats.new s) : s.peak ≤ s.most ∧ s.inUse ≤ s.most ∧ ∀ v ∈ s.loaded, v ≤ s.most := by
  generalize hn : Stats.new = a at h
  induction h with
  | refl => subst hn; exact ⟨le_refl _, le_refl _, fun v hv => (nomatch hv)⟩
  | tail _ h2 ih =>
    obtain ⟨i1, i2, i3⟩ := ih
    cases h2 with
    | begin new =>
      refine ⟨le_trans i1 (le_max_left _ _), le_max_right _ _, fun v hv => le_trans (i3 v hv) (le_max_left _ _)⟩
    | load k hk =>
      refine ⟨i1, i2, fun v hv => ?_⟩
      rcases List.mem_cons.1 hv with rfl | hv
      · exact i2
      · exact i3 v hv
    | update l r v hl =>
      refine ⟨?_, i2, fun u hu => i3 u ?_⟩
      · have := i3 v (by rw [hl]; simp)
        show (if v > _ then v else _) ≤ _
        split <;> assumption
      · rw [hl]
        simp only [List.mem_append, List.mem_cons] at hu ⊢
        tauto
    | put hp => exact ⟨i1, by simp only; omega, i3⟩

/-- **C214**, exact when calls do not overlap: then the peak reported is the largest number in use. -/
theorem peak_exact_partial (s : Stats) (h : Seq Stats.new s) : s.peak = s.most := by
  generalize hn : Stats.new = a at h
  have : s.peak = s.most ∧ s.inUse ≤ s.most := by
    induction h with
    | refl => subst hn; exact ⟨rfl, le_refl _⟩
    | get new _ ih =>
      obtain ⟨i1, i2⟩ := ih
      refine ⟨?_, le_max_right _ _⟩
      show (if _ > _ then _ else _) = max _ _
      rw [i1]
      split
      · rw [max_eq_right]; omega
      · rw [max_eq_left]; omega
    | put _ hp ih => exact ⟨ih.1, by simp only; have := ih.2; omega⟩
  exact this.1

/-- **C214 is false under concurrency**: two matrices are in use at the same time, and the peak reported is 1, when a matrix is put back between the
counting and the reading of the second `Get`. -/
theorem peak_missed : ∃ s, SSteps Stats.new s ∧ s.most = 2 ∧ s.peak = 1 ∧ s.begun = 0 ∧ s.loaded = [] :=
  ⟨_, .tail (.tail (.tail (.tail (.tail (.tail (.tail (.refl _) (.begin _ true)) (.load _ 0 rfl)) (.update _ [] [] 1 rfl)) (.begin _ true)) (.put _ (by decide)))
    (.load _ 0 rfl)) (.update _ [] [] 1 rfl), by decide, by decide, rfl, rfl⟩

/-- **C214.** The reuse rate reported, matrices put back per matrix made, is not a share: taking and returning one matrix `n` times gives `n`. -/
theorem reuse_rate_unbounded (n : Nat) : ∃ s, Seq Stats.new s ∧ (0 < n → s.created = 1) ∧ s.recycled = n ∧ s.inUse = 0 := by
  induction n with
  | zero => exact ⟨_, .refl _, fun h => absurd h (by decide), rfl, rfl⟩
  | succ n ih =>
    obtain ⟨s, h1, h2, h3, h4⟩ := ih
    refine ⟨_, .put (.get (decide (n = 0)) h1) (by unfold Stats.get; simp only; omega), ?_, ?_, ?_⟩
    · intro _
      unfold Stats.get
      by_cases hn : n = 0
      · subst hn
        cases h1 with
        | refl => decide
        | get new h => 
          exfalso
          unfold Stats.get at h4
          have hnn : ∀ t, Seq Stats.new t → 0 ≤ t.inUse := by
            intro t ht
            generalize hz : Stats.new = z at ht
            induction ht with
            | refl => subst hz; decide
            | get new _ ih => have := ih; unfold Stats.get; simp only; omega
            | put _ hp _ => simp only; omega
          have := hnn _ h
          simp only at h4
          omega
        | put h hp =>
          exfalso
          simp only at h3
          omega
      · simp only [hn, decide_false, Bool.false_eq_true, if_false, Nat.add_zero]
        exact h2 (by omega)
    · unfold Stats.get; simp only; omega
    · unfold Stats.get; simp only; omega

end Scigo.GC
