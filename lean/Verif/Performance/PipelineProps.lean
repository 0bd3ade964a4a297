import Verif.Performance.Pipeline
import Mathlib.Data.List.Basic
import Mathlib.Tactic.Common
import Mathlib.Algebra.BigOperators.Group.List.Basic
import Mathlib.Tactic.Ring

/-!
# Streaming pipelines: order, completeness and counters (C206, C207)
-/

namespace Scigo.StreamPipe

/-- the matrix a goroutine is about to send -/
def RunSt.inHand (r : RunSt) : List Item := match r.pc with
  | .sending m => [m]
  | _ => []

/-- the matrices counted for run `i` -/
def counted (s : St) (i : Nat) : List Item := (s.taken.filter (fun x => decide (x.1 = i))).map (·.2)

structure Ok (s : St) (i : Nat) (r : RunSt) : Prop where
  given : r.given = (counted s i).map some ++ r.src
  split : counted s i = r.got ++ r.out ++ r.inHand
  cap : r.out.length ≤ r.cap
  done : r.pc = .finished → r.src = [] ∧ r.srcClosed = true

structure Inv (s : St) : Prop where
  runs : ∀ i r, s.runs[i]? = some r → Ok s i r
  ids : ∀ x ∈ s.taken, x.1 < s.runs.length
  count : s.metrics = (s.taken.map (·.2)).foldl Metrics.update ⟨0, 0⟩

theorem lt_of_some' {α : Type} {l : List α} {i : Nat} {x : α} (h : l[i]? = some x) : i < l.length :=
  (List.getElem?_eq_some_iff.1 h).1

theorem get_set {α : Type} (l : List α) (i j : Nat) (x : α) (h : i < l.length) :
    (l.set i x)[j]? = if j = i then some x else l[j]? := by
  rw [List.getElem?_set]
  by_cases e : j = i
  · subst e; simp [h]
  · simp [e, Ne.symm e]

/-- replacing one run, nothing counted -/
theorem Inv.set {s : St} (h : Inv s) {i : Nat} {r r' : RunSt} (hr : s.runs[i]? = some r) (hok : Ok s i r') :
    Inv { s with runs := s.runs.set i r' } where
  runs := by
    intro j q hq
    have hq' : (s.runs.set i r')[j]? = some q := hq
    rw [get_set _ _ _ _ (lt_of_some' hr)] at hq'
    by_cases hj : j = i
    · subst hj
      rw [if_pos rfl] at hq'
      cases hq'
      exact ⟨hok.given, hok.split, hok.cap, hok.done⟩
    · rw [if_neg hj] at hq'
      have := h.runs j q hq'
      exact ⟨this.given, this.split, this.cap, this.done⟩
  ids := by
    intro x hx
    show x.1 < (s.runs.set i r').length
    rw [List.length_set]; exact h.ids x hx
  count := h.count

theorem inv_step {s s' : St} (h : Inv s) (hs : Step s s') : Inv s' := by
  cases hs with
  | call cap hd =>
    refine ⟨?_, ?_, h.count⟩
    · intro j q hq
      have hq' : (s.runs ++ [RunSt.start cap])[j]? = some q := hq
      by_cases hj : j < s.runs.length
      · rw [List.getElem?_append_left hj] at hq'
        have := h.runs j q hq'
        exact ⟨this.given, this.split, this.cap, this.done⟩
      · have hlt := lt_of_some' hq'
        have he : j = s.runs.length := by simp at hlt; omega
        subst he
        simp only [List.getElem?_concat_length, Option.some.injEq] at hq'
        subst hq'
        have hc : counted { s with runs := s.runs ++ [RunSt.start cap] } s.runs.length = [] := by
          unfold counted
          rw [List.map_eq_nil_iff, List.filter_eq_nil_iff]
          intro x hx
          have := h.ids x hx
          simp; omega
        refine ⟨?_, ?_, Nat.zero_le _, fun hf => by cases hf⟩
        · rw [hc]; rfl
        · rw [hc]; rfl
    · intro x hx
      have := h.ids x hx
      show x.1 < (s.runs ++ [_]).length
      simp; omega
  | feed i r x hd hr hc =>
    have ho := h.runs i r hr
    refine h.set hr ⟨?_, ho.split, ho.cap, fun hf => ?_⟩
    · show r.given ++ [x] = _ ++ (r.src ++ [x])
      rw [ho.given, List.append_assoc]
    · have := (ho.done hf).2
      rw [hc] at this; cases this
  | close i r hd hr hc =>
    have ho := h.runs i r hr
    refine h.set hr ⟨ho.given, ho.split, ho.cap, fun hf => ⟨(ho.done hf).1, rfl⟩⟩
  | take i r m q hd hr hp hq =>
    have ho := h.runs i r hr
    refine ⟨?_, ?_, ?_⟩
    · intro j p hpj
      have hpj' : (s.runs.set i { r with src := q, pc := .sending m })[j]? = some p := hpj
      rw [get_set _ _ _ _ (lt_of_some' hr)] at hpj'
      by_cases hj : j = i
      · subst hj
        rw [if_pos rfl] at hpj'
        cases hpj'
        have hcn : counted { s with metrics := s.metrics.update m, runs := s.runs.set j { r with src := q, pc := .sending m }, taken := s.taken ++ [(j, m)] } j = counted s j ++ [m] := by
          unfold counted
          simp
        have hin : r.inHand = [] := by unfold RunSt.inHand; rw [hp]
        refine ⟨?_, ?_, ho.cap, fun hf => by cases hf⟩
        · rw [hcn]
          show r.given = _ ++ q
          rw [ho.given, hq]
          simp
        · rw [hcn, ho.split, hin]
          show _ = r.got ++ r.out ++ [m]
          simp
      · rw [if_neg hj] at hpj'
        have := h.runs j p hpj'
        have hcn : counted { s with metrics := s.metrics.update m, runs := s.runs.set i { r with src := q, pc := .sending m }, taken := s.taken ++ [(i, m)] } j = counted s j := by
          unfold counted
          simp [Ne.symm hj]
        exact ⟨by rw [hcn]; exact this.given, by rw [hcn]; exact this.split, this.cap, this.done⟩
    · intro x hx
      show x.1 < (s.runs.set i _).length
      rw [List.length_set]
      rcases List.mem_append.1 hx with hx | hx
      · exact h.ids x hx
      · rw [List.mem_singleton.1 hx]; exact lt_of_some' hr
    · show s.metrics.update m = ((s.taken ++ [(i, m)]).map (·.2)).foldl _ _
      rw [List.map_append, List.foldl_append, ← h.count]
      rfl
  | crash i r q hd hr hp hq =>
    refine ⟨fun j p hpj => ?_, h.ids, h.count⟩
    have := h.runs j p hpj
    exact ⟨this.given, this.split, this.cap, this.done⟩
  | send i r m hd hr hp hl =>
    have ho := h.runs i r hr
    have hin : r.inHand = [m] := by unfold RunSt.inHand; rw [hp]
    refine h.set hr ⟨ho.given, ?_, ?_, fun hf => by cases hf⟩
    · rw [ho.split, hin]
      show _ = r.got ++ (r.out ++ [m]) ++ []
      simp
    · show (r.out ++ [m]).length ≤ r.cap
      simp; omega
  | hand i r m hd hr hp hl =>
    have ho := h.runs i r hr
    have hin : r.inHand = [m] := by unfold RunSt.inHand; rw [hp]
    refine h.set hr ⟨ho.given, ?_, ho.cap, fun hf => by cases hf⟩
    show counted s i = r.got ++ [m] ++ r.out ++ []
    rw [ho.split, hin, hl]; simp
  | finish i r hd hr hp hq hc =>
    have ho := h.runs i r hr
    have hin : r.inHand = [] := by unfold RunSt.inHand; rw [hp]
    refine h.set hr ⟨ho.given, ?_, ho.cap, fun _ => ⟨hq, hc⟩⟩
    rw [ho.split, hin]
    rfl
  | recv i r m q hd hr hq =>
    have ho := h.runs i r hr
    refine h.set hr ⟨ho.given, ?_, ?_, ho.done⟩
    · rw [ho.split, hq]
      show _ = r.got ++ [m] ++ q ++ r.inHand
      simp
    · show q.length ≤ r.cap
      have := ho.cap
      rw [hq] at this
      simp at this; omega

theorem inv_reach {s : St} (h : Reach s) : Inv s := by
  induction h with
  | new =>
    refine ⟨fun i r hr => ?_, fun x hx => ?_, rfl⟩
    · simp [St.new] at hr
    · simp [St.new] at hx
  | step _ hs ih => exact inv_step ih hs

/-! ### Order and completeness -/

/-- **C206.** At every moment of every execution, with any number of runs of the pipeline going on, the consumer of a run has
received a beginning of what the last stage sent for that run, in order and without nil matrices. -/
theorem pipeline_order {s : St} (h : Reach s) {i : Nat} {r : RunSt} (hr : s.runs[i]? = some r) :
    r.got.map some <+: r.given := by
  have ho := (inv_reach h).runs i r hr
  rw [ho.given, ho.split]
  refine ⟨(r.out ++ r.inHand).map some ++ r.src, ?_⟩
  simp

/-- **C206.** When the output channel is closed and empty, the consumer has received everything the last stage sent, and the last
stage has closed its channel. -/
theorem pipeline_complete {s : St} (h : Reach s) {i : Nat} {r : RunSt} (hr : s.runs[i]? = some r) (hc : r.pc = .finished)
    (ho : r.out = []) : r.got.map some = r.given ∧ r.srcClosed = true := by
  have ok := (inv_reach h).runs i r hr
  obtain ⟨h1, h2⟩ := ok.done hc
  have hin : r.inHand = [] := by unfold RunSt.inHand; rw [hc]
  refine ⟨?_, h2⟩
  rw [ok.given, ok.split, h1, ho, hin]
  simp

/-- **C206.** The goroutine runs ahead of the consumer by at most the buffer size plus one matrix: the rest stays with the last
stage. -/
theorem pipeline_run_ahead {s : St} (h : Reach s) {i : Nat} {r : RunSt} (hr : s.runs[i]? = some r) :
    r.given.length ≤ r.got.length + r.cap + 1 + r.src.length := by
  have ok := (inv_reach h).runs i r hr
  have hin : r.inHand.length ≤ 1 := by unfold RunSt.inHand; split <;> simp
  have h1 := ok.cap
  rw [ok.given, ok.split]
  simp only [List.length_append, List.length_map]
  omega

/-- steps of the process, one after another -/
inductive Steps : St → St → Prop
  | refl (s : St) : Steps s s
  | tail {a b c : St} : Steps a b → Step b c → Steps a c

theorem Steps.head {a b c : St} (h : Step a b) (hs : Steps b c) : Steps a c := by
  induction hs with
  | refl => exact .tail (.refl _) h
  | tail _ h2 ih => exact .tail ih h2

/-- how much is left to do for a run whose input has ended -/
def RunSt.left (r : RunSt) : Nat := 3 * r.src.length + 2 * r.inHand.length + r.out.length + if r.pc = .finished then 0 else 1

/-- **C206.** No run gets stuck while its consumer receives: once the last stage has closed its channel and sent no nil, the run
can go on — whatever the other runs do — until the output is closed and empty and everything sent has been received. -/
theorem pipeline_finishes {s : St} (h : Reach s) (hd : s.dead = false) {i : Nat} {r : RunSt} (hr : s.runs[i]? = some r)
    (hc : r.srcClosed = true) (hn : none ∉ r.src) :
    ∃ s' r', Steps s s' ∧ s'.dead = false ∧ s'.runs[i]? = some r' ∧ r'.pc = .finished ∧ r'.out = [] ∧ r'.got.map some = r.given ∧
      ∀ j, j ≠ i → s'.runs[j]? = s.runs[j]? := by
  induction hk : r.left using Nat.strong_induction_on generalizing s r with
  | _ n ih =>
    have go : ∀ (s' : St) (r' : RunSt), Step s s' → s'.dead = false → s'.runs[i]? = some r' → r'.srcClosed = true → none ∉ r'.src →
        r'.given = r.given → r'.left < n → (∀ j, j ≠ i → s'.runs[j]? = s.runs[j]?) →
        ∃ s' r', Steps s s' ∧ s'.dead = false ∧ s'.runs[i]? = some r' ∧ r'.pc = .finished ∧ r'.out = [] ∧
          r'.got.map some = r.given ∧ ∀ j, j ≠ i → s'.runs[j]? = s.runs[j]? := by
      intro s' r' hst hd' hr' hc' hn' hg hlt hoth
      obtain ⟨s2, r2, h1, h2, h3, h4, h5, h6, h7⟩ := ih r'.left hlt (.step h hst) hd' hr' hc' hn' rfl
      exact ⟨s2, r2, .head hst h1, h2, h3, h4, h5, h6.trans hg, fun j hj => (h7 j hj).trans (hoth j hj)⟩
    have hset : ∀ r', (s.runs.set i r')[i]? = some r' := fun r' => by rw [get_set _ _ _ _ (lt_of_some' hr), if_pos rfl]
    have hoth : ∀ r' j, j ≠ i → (s.runs.set i r')[j]? = s.runs[j]? := fun r' j hj => by
      rw [get_set _ _ _ _ (lt_of_some' hr), if_neg hj]
    rcases hout : r.out with _ | ⟨m, q⟩
    · rcases hp : r.pc with _ | m | _
      · rcases hsrc : r.src with _ | ⟨x, q⟩
        · refine go _ _ (.finish s i r hd hr hp hsrc hc) hd (hset _) hc hn rfl ?_ (hoth _)
          rw [← hk]; simp [RunSt.left, RunSt.inHand, hp]
        · rcases x with _ | m
          · exact absurd (by rw [hsrc]; simp) hn
          · refine go _ _ (.take s i r m q hd hr hp hsrc) hd (hset _) hc (fun hq => hn (by rw [hsrc]; simp [hq])) rfl ?_ (hoth _)
            rw [← hk]; simp [RunSt.left, RunSt.inHand, hp, hsrc]; omega
      · refine go _ _ (.hand s i r m hd hr hp hout) hd (hset _) hc hn rfl ?_ (hoth _)
        rw [← hk]; simp [RunSt.left, RunSt.inHand, hp]
      · exact ⟨s, r, .refl _, hd, hr, hp, hout, (pipeline_complete h hr hp hout).1, fun _ _ => rfl⟩
    · refine go _ _ (.recv s i r m q hd hr hout) hd (hset _) hc hn rfl ?_ (hoth _)
      rw [← hk]; simp [RunSt.left, RunSt.inHand, hout]

/-- **C206.** And it cannot go on for ever: every step of the process lowers what a run has left to do, or leaves that run alone, or is
the last stage sending or closing. -/
theorem pipeline_step_lowers {s s' : St} (hs : Step s s') {i : Nat} {r r' : RunSt} (hr : s.runs[i]? = some r)
    (hr' : s'.runs[i]? = some r') : r' = r ∨ r'.left < r.left ∨ r.srcClosed = false := by
  have hset : ∀ (j : Nat) (p p' : RunSt), s.runs[j]? = some p → (s.runs.set j p')[i]? = some r' →
      r' = r ∨ (p = r ∧ p' = r') := by
    intro j p p' hp hq
    rw [get_set _ _ _ _ (lt_of_some' hp)] at hq
    by_cases hj : i = j
    · subst hj
      rw [if_pos rfl] at hq
      rw [hr] at hp
      exact .inr ⟨(Option.some.inj hp).symm, Option.some.inj hq⟩
    · rw [if_neg hj, hr] at hq
      exact .inl (Option.some.inj hq).symm
  cases hs with
  | call cap hd =>
    left
    have : (s.runs ++ [RunSt.start cap])[i]? = some r' := hr'
    rw [List.getElem?_append_left (lt_of_some' hr), hr] at this
    exact (Option.some.inj this).symm
  | feed j p x hd hp hc =>
    rcases hset j p _ hp hr' with h | ⟨rfl, -⟩
    · exact .inl h
    · exact .inr (.inr hc)
  | close j p hd hp hc =>
    rcases hset j p _ hp hr' with h | ⟨rfl, -⟩
    · exact .inl h
    · exact .inr (.inr hc)
  | take j p m q hd hp hpc hq =>
    rcases hset j p _ hp hr' with h | ⟨rfl, rfl⟩
    · exact .inl h
    · right; left; simp [RunSt.left, RunSt.inHand, hpc, hq]; omega
  | crash j p q hd hp hpc hq =>
    left
    have : s.runs[i]? = some r' := hr'
    rw [hr] at this
    exact (Option.some.inj this).symm
  | send j p m hd hp hpc hl =>
    rcases hset j p _ hp hr' with h | ⟨rfl, rfl⟩
    · exact .inl h
    · right; left; simp [RunSt.left, RunSt.inHand, hpc]; omega
  | hand j p m hd hp hpc hl =>
    rcases hset j p _ hp hr' with h | ⟨rfl, rfl⟩
    · exact .inl h
    · right; left; simp [RunSt.left, RunSt.inHand, hpc]
  | finish j p hd hp hpc hq hc =>
    rcases hset j p _ hp hr' with h | ⟨rfl, rfl⟩
    · exact .inl h
    · right; left; simp [RunSt.left, RunSt.inHand, hpc]
  | recv j p m q hd hp hq =>
    rcases hset j p _ hp hr' with h | ⟨rfl, rfl⟩
    · exact .inl h
    · right; left; simp [RunSt.left, RunSt.inHand, hq]

/-- **C206.** A nil matrix from the last stage ends the process: the goroutine can do nothing else with it, and afterwards nothing
happens any more in any run. -/
theorem pipeline_nil_kills {s : St} (h : Reach s) (hd : s.dead = false) {i : Nat} {r : RunSt} (hr : s.runs[i]? = some r)
    (hp : r.pc = .receiving) (q : List (Option Item)) (hq : r.src = none :: q) :
    ∃ s', Step s s' ∧ s'.dead = true ∧ ∀ s'', ¬ Step s' s'' := by
  have hdead : ∀ a b, Step a b → a.dead = false := fun a b hs => by cases hs <;> assumption
  refine ⟨_, .crash s i r q hd hr hp hq, rfl, fun s'' hs => ?_⟩
  exact absurd (hdead _ _ hs) (by simp)

/-- **C206.** The stages are applied in the order in which they were added. -/
theorem stages_in_order {C : Type} (stages : List (C → C)) (f : C → C) (input : C) :
    lastChannel (addStage stages f) input = f (lastChannel stages input) ∧ lastChannel ([] : List (C → C)) input = input := by
  refine ⟨?_, rfl⟩
  unfold lastChannel addStage
  rw [List.foldl_append]
  rfl

/-! ### Counters -/

/-- samples a matrix counts for -/
def rowsOf (m : Item) : Nat := if m.rows < 0 ∨ m.cols < 0 then 0 else m.rows.toNat

/-- bytes a matrix counts for -/
def bytesCounted (m : Item) : Nat := if m.rows < 0 ∨ m.cols < 0 then 0 else bytesOf m

theorem update_fold (l : List Item) (s : Metrics) (h1 : s.samples < two64) (h2 : s.bytes < two64) :
    l.foldl Metrics.update s = ⟨(s.samples + (l.map rowsOf).sum) % two64, (s.bytes + (l.map bytesCounted).sum) % two64⟩ := by
  induction l generalizing s with
  | nil => simp [Nat.mod_eq_of_lt h1, Nat.mod_eq_of_lt h2]
  | cons m l ih =>
    have hpos : 0 < two64 := by decide
    rw [List.foldl_cons]
    by_cases hm : m.rows < 0 ∨ m.cols < 0
    · have : s.update m = s := by unfold Metrics.update; rw [if_pos hm]
      rw [this, ih s h1 h2]
      simp [rowsOf, bytesCounted, hm]
    · have : s.update m = ⟨(s.samples + m.rows.toNat) % two64, (s.bytes + bytesOf m) % two64⟩ := by
        unfold Metrics.update; rw [if_neg hm]
      rw [this, ih _ (Nat.mod_lt _ hpos) (Nat.mod_lt _ hpos)]
      simp [rowsOf, bytesCounted, hm, Nat.add_assoc]

/-- **C207.** At every moment of every execution the counters are the totals over all matrices counted so far, in whatever order the
runs were scheduled: no update is lost. They are reduced modulo 2^64. -/
theorem pipeline_counters {s : St} (h : Reach s) :
    s.metrics = ⟨((s.taken.map (·.2)).map rowsOf).sum % two64, ((s.taken.map (·.2)).map bytesCounted).sum % two64⟩ ∧
    ∀ (i : Nat) (r : RunSt), s.runs[i]? = some r → (counted s i).map some <+: r.given ∧ r.got <+: counted s i := by
  have hi := inv_reach h
  refine ⟨?_, fun i r hr => ⟨?_, ?_⟩⟩
  · rw [hi.count, update_fold _ _ (by decide) (by decide)]
    simp
  · rw [(hi.runs i r hr).given]; exact List.prefix_append _ _
  · rw [(hi.runs i r hr).split, List.append_assoc]; exact List.prefix_append _ _

/-- sum over the runs -/
theorem sum_by_run (f : Item → Nat) (l : List (Nat × Item)) (n : Nat) (hl : ∀ x ∈ l, x.1 < n) :
    ((List.range n).map (fun i => (((l.filter (fun x => decide (x.1 = i))).map (·.2)).map f).sum)).sum = ((l.map (·.2)).map f).sum := by
  induction l with
  | nil => simp
  | cons x l ih =>
    have hx := hl x (by simp)
    rw [List.map_cons, List.map_cons, List.sum_cons, ← ih (fun y hy => hl y (by simp [hy]))]
    have : ∀ i, ((((x :: l).filter (fun x => decide (x.1 = i))).map (·.2)).map f).sum =
        (if x.1 = i then f x.2 else 0) + (((l.filter (fun x => decide (x.1 = i))).map (·.2)).map f).sum := by
      intro i
      by_cases hi : x.1 = i <;> simp [hi]
    simp only [this]
    have hsum : ∀ (g g' : Nat → Nat) (l : List Nat), (l.map (fun i => g i + g' i)).sum = (l.map g).sum + (l.map g').sum := by
      intro g g' l
      induction l with
      | nil => rfl
      | cons a l ih => simp only [List.map_cons, List.sum_cons, ih]; omega
    rw [hsum]
    congr 1
    have hone : ∀ n, x.1 < n → ((List.range n).map (fun i => if x.1 = i then f x.2 else 0)).sum = f x.2 := by
      intro n
      induction n with
      | zero => intro h; omega
      | succ n ihn =>
        intro h
        rw [List.range_succ, List.map_append, List.sum_append]
        by_cases hn : x.1 = n
        · have hz : ((List.range n).map (fun i => if x.1 = i then f x.2 else 0)).sum = 0 := by
            apply List.sum_eq_zero
            intro y hy
            obtain ⟨i, hi, rfl⟩ := List.mem_map.1 hy
            have := List.mem_range.1 hi
            rw [if_neg (by omega)]
          rw [hz]; simp [hn]
        · rw [ihn (by omega)]; simp [hn]
    exact hone n hx

/-- **C207.** When the consumers of all runs have received everything (the outputs are closed and empty), the sample counter is the
number of rows of all matrices received, modulo 2^64; likewise the bytes. -/
theorem pipeline_counters_final {s : St} (h : Reach s) (hall : ∀ (i : Nat) (r : RunSt), s.runs[i]? = some r → r.pc = .finished ∧ r.out = []) :
    s.metrics.samples = ((s.runs.map (fun r => (r.got.map rowsOf).sum)).sum) % two64 ∧
    s.metrics.bytes = ((s.runs.map (fun r => (r.got.map bytesCounted).sum)).sum) % two64 := by
  have hi := inv_reach h
  have hgot : ∀ i r, s.runs[i]? = some r → r.got = counted s i := by
    intro i r hr
    obtain ⟨hp, ho⟩ := hall i r hr
    have hin : r.inHand = [] := by unfold RunSt.inHand; rw [hp]
    rw [(hi.runs i r hr).split, ho, hin]
    simp
  have hmap : ∀ f : Item → Nat, s.runs.map (fun r => (r.got.map f).sum) =
      (List.range s.runs.length).map (fun i => ((counted s i).map f).sum) := by
    intro f
    apply List.ext_getElem?
    intro i
    rw [List.getElem?_map, List.getElem?_map]
    rcases hr : s.runs[i]? with _ | r
    · have := List.getElem?_eq_none_iff.1 hr
      rw [List.getElem?_eq_none (by simpa using this)]
      rfl
    · rw [List.getElem?_range (lt_of_some' hr)]
      simp [hgot i r hr]
  rw [(pipeline_counters h).1, hmap, hmap]
  unfold counted
  rw [sum_by_run _ _ _ hi.ids, sum_by_run _ _ _ hi.ids]
  exact ⟨rfl, rfl⟩

/-- **C207.** The bytes of a matrix are exact while they are below 2^63. -/
theorem bytes_exact_partial (m : Item) (hr : 0 ≤ m.rows) (hc : 0 ≤ m.cols) (hb : m.rows * m.cols * 8 < 2 ^ 63) :
    (bytesCounted m : Int) = m.rows * m.cols * 8 := by
  have hp : 0 ≤ m.rows * m.cols := Int.mul_nonneg hr hc
  unfold bytesCounted bytesOf wrap64
  generalize m.rows * m.cols = p at *
  rw [if_neg (by omega)]
  have h1 : (p + 2 ^ 63) % 2 ^ 64 - 2 ^ 63 = p := by
    rw [Int.emod_eq_of_lt (by omega) (by omega)]; omega
  rw [h1]
  have h2 : (p * 8 + 2 ^ 63) % 2 ^ 64 - 2 ^ 63 = p * 8 := by
    rw [Int.emod_eq_of_lt (by omega) (by omega)]; omega
  simp only [h2]
  rw [if_neg (by omega)]
  omega

/-- **C207.** Beyond that the overflow test can miss: a matrix of 2^31 by 2^31 counts for no bytes at all. -/
theorem bytes_overflow_missed : bytesCounted ⟨2 ^ 31, 2 ^ 31, 0⟩ = 0 ∧ rowsOf ⟨2 ^ 31, 2 ^ 31, 0⟩ = 2 ^ 31 := by
  decide +kernel

/-- two runs at once, a buffer of one and an unbuffered output, one of them drained -/
def exSt : St := ⟨⟨5, 64⟩, [⟨1, [], true, .finished, [], [⟨2, 1, 0⟩], [some ⟨2, 1, 0⟩]⟩,
  ⟨0, [none], false, .sending ⟨3, 2, 1⟩, [], [], [some ⟨3, 2, 1⟩, none]⟩], false, [(1, ⟨3, 2, 1⟩), (0, ⟨2, 1, 0⟩)]⟩

example : Reach exSt := by
  have h0 := Reach.new
  have h1 := Reach.step h0 (.call .new 1 rfl)
  have h2 := Reach.step h1 (.call _ 0 rfl)
  have h3 := Reach.step h2 (.feed _ 0 _ (some ⟨2, 1, 0⟩) rfl rfl rfl)
  have h4 := Reach.step h3 (.feed _ 1 _ (some ⟨3, 2, 1⟩) rfl rfl rfl)
  have h5 := Reach.step h4 (.feed _ 1 _ none rfl rfl rfl)
  have h6 := Reach.step h5 (.take _ 1 _ ⟨3, 2, 1⟩ [none] rfl rfl rfl rfl)
  have h7 := Reach.step h6 (.take _ 0 _ ⟨2, 1, 0⟩ [] rfl rfl rfl rfl)
  have h8 := Reach.step h7 (.send _ 0 _ ⟨2, 1, 0⟩ rfl rfl rfl (by decide))
  have h9 := Reach.step h8 (.close _ 0 _ rfl rfl rfl)
  have h10 := Reach.step h9 (.finish _ 0 _ rfl rfl rfl rfl rfl)
  have h11 := Reach.step h10 (.recv _ 0 _ ⟨2, 1, 0⟩ [] rfl rfl rfl)
  exact h11

end Scigo.StreamPipe
