import Verif.Api.RecordProps
import Mathlib.Algebra.Order.Ring.Int

/-!
# Printing evaluations and resetting parameters: specification and theorems
-/

set_option linter.unusedSectionVars false

namespace Scigo.Api

variable {α τ κ : Type}

/-! ## C188: printed evaluations -/

/-- the line for one iteration, counted from one: the name of every validation set with the metric, and its score -/
def line (names : List String) (metric : String) (v : Nat → α) (label : Int) : Int × List (String × α) :=
  (label, (List.range names.length).map (fun i => (evalKey (names.getD i "") metric, v i)))

/-- the lines due among the first `n` iterations: the first and every `p`-th after it -/
def due (names : List String) (metric : String) (v : Nat → α) (p n : Nat) : List (Int × List (String × α)) :=
  ((List.range n).filter (fun i => i % p = 0)).map (fun (i : Nat) => line names metric v ((i : Int) + 1))

theorem shown_histories (names : List String) (metric : String) (v : Nat → α) (j : Nat) (hj : j ≠ 0) :
    shown (histories names metric v j) = (List.range names.length).map (fun i => (evalKey (names.getD i "") metric, v i)) := by
  unfold shown histories hist
  rw [if_neg hj, List.filterMap_map]
  obtain ⟨k, rfl⟩ : ∃ k, j = k + 1 := ⟨j - 1, by omega⟩
  rw [← List.filterMap_eq_map]
  refine List.filterMap_congr fun i _ => ?_
  simp [List.getLast?_replicate]

theorem printer_init (period : Int) : (Printer.new period : Printer α).init = ⟨if period ≤ 0 then 1 else period, -1, []⟩ := by
  unfold Printer.new Printer.init
  by_cases h : period ≤ 0 <;> simp [h]

/-- the printer after `n` iterations -/
theorem printer_after (names : List String) (hne : names ≠ []) (metric : String) (v : Nat → α) (period : Int) (p : Nat)
    (hp : 0 < p) (hpp : (if period ≤ 0 then 1 else period) = p) (n : Nat) :
    notesAfter Printer.init Printer.after (histories names metric v) (Printer.new period) n =
      ⟨p, if n = 0 then -1 else (((n - 1) / p * p : Nat) : Int), due names metric v p n⟩ := by
  induction n with
  | zero =>
    unfold notesAfter due
    simp only [List.range_zero, List.foldl_nil, if_true, List.filter_nil, List.map_nil]
    rw [printer_init, hpp]
  | succ n ih =>
    unfold notesAfter at ih ⊢
    rw [List.range_succ, List.foldl_append, ih]
    simp only [List.foldl_cons, List.foldl_nil]
    unfold Printer.after
    dsimp only
    have ht : Int.tmod (n : Int) (p : Int) = ((n % p : Nat) : Int) := by
      rw [Int.tmod_eq_emod_of_nonneg (by omega)]; norm_cast
    rw [ht]
    have hs : (shown (histories names metric v (n + 1))).isEmpty = false := by
      rw [shown_histories _ _ _ _ (by omega)]
      cases names with
      | nil => exact absurd rfl hne
      | cons a as => simp [List.range_succ]
    rw [hs, if_neg (by omega : ¬ n + 1 = 0)]
    by_cases h : n % p = 0
    · rw [if_neg (by simp [h])]
      have hq : n / p * p = n := Nat.div_mul_cancel (Nat.dvd_of_mod_eq_zero h)
      simp only [Nat.add_sub_cancel, hq, Bool.false_eq_true, if_false]
      rw [shown_histories _ _ _ _ (by omega)]
      congr 1
      unfold due
      rw [List.range_succ, List.filter_append, List.map_append]
      simp [h, line]
    · rw [if_pos (by exact_mod_cast h)]
      have hn : n ≠ 0 := fun h0 => h (by simp [h0])
      rw [if_neg hn]
      have hq : (n - 1) / p = n / p := by
        have h1 := Nat.div_add_mod n p
        have h2 : 0 < n % p := Nat.pos_of_ne_zero h
        have h3 := Nat.mod_lt n hp
        have e : n - 1 = (n % p - 1) + p * (n / p) := by omega
        have e2 : (n % p - 1) / p = 0 := Nat.div_eq_of_lt (by omega)
        calc (n - 1) / p = ((n % p - 1) + p * (n / p)) / p := by rw [← e]
          _ = n / p := by rw [Nat.add_mul_div_left _ _ hp, e2, Nat.zero_add]
      simp only [Nat.add_sub_cancel, hq]
      congr 1
      unfold due
      rw [List.range_succ, List.filter_append, List.map_append]
      simp [h]

/-- **C188** What the printing callback prints in a whole training: the due lines, each with the scores of its iteration;
after that the scores of the last iteration if more than one iteration went by without a line, under the number of the
iteration before. -/
theorem print_lines_partial [Zero α] (L : PLit α) (fit : TP α → Outcome τ) (numIteration : τ → Int)
    (score : String → Option τ → Nat → Outcome α) (names : List String) (pre post : List (Cb (St α τ (Printer α × κ))))
    (h1 : ∀ c ∈ pre, Quiet c) (h2 : ∀ c ∈ post, Quiet c) (params : PMap α) (rounds : Nat) (hr : 0 < rounds) (period : Int) (own : κ)
    (hne : names ≠ []) (hd : names.Nodup) (m : τ) (v : Nat → α) (hfit : fit (parseParams L params) = .ok m)
    (hscore : ∀ i < names.length, score (parseParams L params).objective (some m) i = .ok (v i))
    (p : Nat) (hp : (p : Int) = if period ≤ 0 then 1 else period) :
    (train L fit numIteration score names.length names (pre ++ printCb :: post) params rounds (Printer.new period, own)).1.own.1.lines =
      due names (getMetricName (parseParams L params).objective) v p rounds ++
        (if 2 ≤ (rounds - 1) % p then
          [line names (getMetricName (parseParams L params).objective) v ((rounds : Int) - 1)] else []) := by
  have hp0 : 0 < p := by
    by_cases h : period ≤ 0
    · rw [if_pos h] at hp; omega
    · rw [if_neg h] at hp; omega
  have hw : (printCb : Cb (St α τ (Printer α × κ))) = watcher Printer.init Printer.after Printer.finish := rfl
  rw [hw]
  obtain ⟨_, hown⟩ := train_watch Printer.init Printer.after Printer.finish L fit numIteration score names
    pre post h1 h2 params rounds (Printer.new period) own hne hd m v hfit hscore
  rw [hown, printer_after names hne _ v period p hp0 hp.symm rounds]
  unfold Printer.finish
  rw [if_neg (by omega : ¬ rounds = 0)]
  have hdm := Nat.div_add_mod (rounds - 1) p
  have hcast : ((rounds - 1 : Nat) : Int) = (rounds : Int) - 1 := by omega
  rw [hcast, shown_histories _ _ _ _ (by omega)]
  have hcomm : (rounds - 1) / p * p = p * ((rounds - 1) / p) := Nat.mul_comm _ _
  by_cases h : 2 ≤ (rounds - 1) % p
  · rw [if_pos h, if_pos]
    · rfl
    · dsimp only
      rw [hcomm]
      omega
  · rw [if_neg h, if_neg]
    · simp
    · dsimp only
      rw [hcomm]
      omega

/-- **C188** fails for the last iteration: whenever it is not one of iterations 1, p+1, 2p+1, ... (say ten iterations with period 4), no line with its number is
printed. Only if the last two iterations both are not, its scores are printed, under the number of the iteration before. -/
theorem print_last_wrong [Zero α] (L : PLit α) (fit : TP α → Outcome τ) (numIteration : τ → Int)
    (score : String → Option τ → Nat → Outcome α) (names : List String) (pre post : List (Cb (St α τ (Printer α × κ))))
    (h1 : ∀ c ∈ pre, Quiet c) (h2 : ∀ c ∈ post, Quiet c) (params : PMap α) (rounds : Nat) (hr : 0 < rounds) (period : Int) (own : κ)
    (hne : names ≠ []) (hd : names.Nodup) (m : τ) (v : Nat → α) (hfit : fit (parseParams L params) = .ok m)
    (hscore : ∀ i < names.length, score (parseParams L params).objective (some m) i = .ok (v i))
    (p : Nat) (hp : (p : Int) = if period ≤ 0 then 1 else period) (hlast : (rounds - 1) % p ≠ 0) :
    let lines := (train L fit numIteration score names.length names (pre ++ printCb :: post) params rounds (Printer.new period, own)).1.own.1.lines
    (∀ l ∈ lines, l.1 ≠ rounds) ∧ (2 ≤ (rounds - 1) % p → ∃ l ∈ lines, l.1 = (rounds : Int) - 1) := by
  intro lines
  have e : lines = _ := print_lines_partial L fit numIteration score names pre post h1 h2 params rounds hr period own hne hd m v hfit hscore p hp
  have hdue : ∀ l ∈ due names (getMetricName (parseParams L params).objective) v p rounds, l.1 < (rounds : Int) := by
    intro l hl
    simp only [due, List.mem_map, List.mem_filter, List.mem_range, line] at hl
    obtain ⟨i, ⟨hi, h4⟩, rfl⟩ := hl
    have h4' : i % p = 0 := by simpa using h4
    have : i ≠ rounds - 1 := fun h => hlast (h ▸ h4')
    simp only
    omega
  refine ⟨?_, ?_⟩
  · intro l hl
    rw [e, List.mem_append] at hl
    rcases hl with hl | hl
    · have := hdue l hl
      omega
    · split at hl
      · rw [List.mem_singleton] at hl
        subst hl
        simp only [line, ne_eq]
        omega
      · cases hl
  · intro h
    refine ⟨line names (getMetricName (parseParams L params).objective) v ((rounds : Int) - 1), ?_, rfl⟩
    rw [e, if_pos h]
    exact List.mem_append_right _ (List.mem_singleton_self _)

/-- ten iterations with period 4: iteration 10 is not due -/
example : (10 - 1) % 4 ≠ 0 ∧ ¬ 2 ≤ (10 - 1) % 4 ∧ 2 ≤ (11 - 1) % 4 := by decide

/-! ## C189: resetting parameters -/

/-- the state with the parameter map taken out -/
def St.bare (s : St α τ κ) : St α τ κ := { s with env := { s.env with params := fun _ => none } }

/-- a call that does not look at the parameter map -/
def BlindCall (f : Call (St α τ κ)) : Prop := ∀ s s' : St α τ κ, s.bare = s'.bare → (f s).2 = (f s').2 ∧ (f s).1.bare = (f s').1.bare

/-- a callback that does not look at the parameter map -/
def Blind (c : Cb (St α τ κ)) : Prop := BlindCall c.init ∧ BlindCall c.before ∧ BlindCall c.after ∧ BlindCall c.finish

theorem blind_of (p : Phase) (c : Cb (St α τ κ)) (h : Blind c) : BlindCall (p.of c) := by
  obtain ⟨h1, h2, h3, h4⟩ := h
  cases p <;> assumption

theorem each_blind (p : Phase) (cbs : List (Cb (St α τ κ))) (h : ∀ c ∈ cbs, Blind c) : BlindCall (each p.of cbs) := by
  induction cbs with
  | nil => intro s s' hs; exact ⟨rfl, hs⟩
  | cons c cs ih =>
    intro s s' hs
    obtain ⟨a1, a2⟩ := blind_of p c (h c (by simp)) s s' hs
    unfold each
    rw [← a1]
    rcases (p.of c s).2 with _ | e
    · exact ih (fun c hc => h c (by simp [hc])) _ _ a2
    · exact ⟨rfl, a2⟩

theorem reset_bare (start : Int) (new : List (String × PVal α)) (p : Phase) (s : St α τ κ) :
    (p.of (resetCb start new) s).2 = none ∧ (p.of (resetCb start new) s).1.bare = s.bare := by
  cases p
  · exact ⟨rfl, rfl⟩
  · show ((resetCb start new).before s).2 = none ∧ ((resetCb start new).before s).1.bare = s.bare
    unfold resetCb
    dsimp only
    by_cases h : (s.env.iteration : Int) = start
    · rw [if_pos h]; exact ⟨rfl, rfl⟩
    · rw [if_neg h]; exact ⟨rfl, rfl⟩
  · exact ⟨rfl, rfl⟩
  · exact ⟨rfl, rfl⟩

theorem each_reset (start : Int) (new : List (String × PVal α)) (p : Phase) (pre post : List (Cb (St α τ κ)))
    (h1 : ∀ c ∈ pre, Blind c) (h2 : ∀ c ∈ post, Blind c) : ∀ (s s' : St α τ κ), s.bare = s'.bare →
    (each p.of (pre ++ resetCb start new :: post) s).2 = (each p.of (pre ++ post) s').2 ∧
    (each p.of (pre ++ resetCb start new :: post) s).1.bare = (each p.of (pre ++ post) s').1.bare := by
  induction pre with
  | nil =>
    intro s s' hs
    obtain ⟨a1, a2⟩ := reset_bare start new p s
    have : each p.of ([] ++ resetCb start new :: post) s = each p.of post (p.of (resetCb start new) s).1 := by
      rw [List.nil_append, each, a1]
    rw [this]
    exact each_blind p post h2 _ _ (a2.trans hs)
  | cons c cs ih =>
    intro s s' hs
    obtain ⟨a1, a2⟩ := blind_of p c (h1 c (by simp)) s s' hs
    rw [List.cons_append, List.cons_append]
    unfold each
    rw [← a1]
    rcases (p.of c s).2 with _ | e
    · exact ih (fun c hc => h1 c (by simp [hc])) _ _ a2
    · exact ⟨rfl, a2⟩

theorem bare_env {s s' : St α τ κ} (h : s.bare = s'.bare) :
    s.env.booster = s'.env.booster ∧ s.env.shouldStop = s'.env.shouldStop ∧ s.env.bestIteration = s'.env.bestIteration := by
  have := congrArg St.env h
  simp only [St.bare, Env.mk.injEq] at this
  tauto

theorem bare_booster {s s' : St α τ κ} (h : s.bare = s'.bare) (b : Bst α τ) :
    ({ s with env := { s.env with booster := b } } : St α τ κ).bare = ({ s' with env := { s'.env with booster := b } } : St α τ κ).bare := by
  have h1 := congrArg St.env h
  have h2 := congrArg St.own h
  simp only [St.bare, Env.mk.injEq] at h1 h2 ⊢
  simp only [St.mk.injEq, Env.mk.injEq]
  tauto

theorem bare_atIter {s s' : St α τ κ} (h : s.bare = s'.bare) (i : Nat) : (s.atIter i).bare = (s'.atIter i).bare := by
  have h1 := congrArg St.env h
  have h2 := congrArg St.own h
  simp only [St.bare, St.atIter, Env.mk.injEq] at h1 h2 ⊢
  simp only [St.mk.injEq, Env.mk.injEq]
  tauto

theorem bare_addScore {s s' : St α τ κ} (h : s.bare = s'.bare) (k : String) (v : α) :
    (s.addScore k v).bare = (s'.addScore k v).bare := by
  have h1 := congrArg St.env h
  have h2 := congrArg St.own h
  simp only [St.bare, Env.mk.injEq] at h1 h2
  obtain ⟨a1, a2, a3, a4, a5, a6, a7, a8⟩ := h1
  simp only [St.bare, St.addScore, St.mk.injEq, Env.mk.injEq]
  rw [a3, a5]
  tauto

theorem trainOne_bare (T : Task α τ) (s s' : St α τ κ) (h : s.bare = s'.bare) :
    (trainOne T s).2 = (trainOne T s').2 ∧ (trainOne T s).1.bare = (trainOne T s').1.bare := by
  unfold trainOne
  rw [(bare_env h).1]
  rcases s'.env.booster.model with _ | m
  · rcases T.fit with m | e | p
    · exact ⟨rfl, bare_booster h _⟩
    · exact ⟨rfl, h⟩
    · exact ⟨rfl, h⟩
  · exact ⟨rfl, h⟩

theorem evaluate_bare (T : Task α τ) (is : List Nat) : ∀ (s s' : St α τ κ), s.bare = s'.bare →
    (evaluate T is s).2 = (evaluate T is s').2 ∧ (evaluate T is s).1.bare = (evaluate T is s').1.bare := by
  induction is with
  | nil => intro s s' h; exact ⟨rfl, h⟩
  | cons i is ih =>
    intro s s' h
    unfold evaluate
    rw [(bare_env h).1]
    rcases T.score s'.env.booster.model i with v | e | p
    · dsimp only
      rcases T.names[i]? with _ | name
      · exact ⟨rfl, h⟩
      · exact ih _ _ (bare_addScore h _ _)
    · exact ⟨rfl, h⟩
    · exact ⟨rfl, h⟩

theorem runBefore_bare (A B : List (Cb (St α τ κ)))
    (hAB : ∀ (p : Phase) (s s' : St α τ κ), s.bare = s'.bare →
      (each p.of A s).2 = (each p.of B s').2 ∧ (each p.of A s).1.bare = (each p.of B s').1.bare)
    (s s' : St α τ κ) (h : s.bare = s'.bare) :
    (runBefore A s).2 = (runBefore B s').2 ∧ (runBefore A s).1.bare = (runBefore B s').1.bare := by
  obtain ⟨a1, a2⟩ := hAB .before s s' h
  have a1' : (each Cb.before A s).2 = (each Cb.before B s').2 := a1
  have a2' : (each Cb.before A s).1.bare = (each Cb.before B s').1.bare := a2
  unfold runBefore
  rw [a1']
  rcases (each Cb.before B s').2 with _ | (_ | e)
  · exact ⟨rfl, a2'⟩
  · refine ⟨rfl, ?_⟩
    unfold St.setBest
    rw [(bare_env a2').1, (bare_env a2').2.2]
    exact bare_booster a2' _
  · exact ⟨rfl, a2'⟩

theorem iterate_bare (T : Task α τ) (A B : List (Cb (St α τ κ)))
    (hAB : ∀ (p : Phase) (s s' : St α τ κ), s.bare = s'.bare →
      (each p.of A s).2 = (each p.of B s').2 ∧ (each p.of A s).1.bare = (each p.of B s').1.bare)
    (iter : Nat) (s s' : St α τ κ) (h : s.bare = s'.bare) :
    (iterate T A iter s).2 = (iterate T B iter s').2 ∧ (iterate T A iter s).1.bare = (iterate T B iter s').1.bare := by
  obtain ⟨a1, a2⟩ := trainOne_bare T s s' h
  unfold iterate
  rcases hx : trainOne T s with ⟨x, ox⟩
  rcases hy : trainOne T s' with ⟨y, oy⟩
  rw [hx, hy] at a1 a2
  dsimp only at a1 a2
  subst a1
  rcases ox with _ | e | p
  · dsimp only
    obtain ⟨b1, b2⟩ := evaluate_bare T (List.range T.sets) x y a2
    rcases hu : evaluate T (List.range T.sets) x with ⟨u, ou⟩
    rcases hv : evaluate T (List.range T.sets) y with ⟨w, ow⟩
    rw [hu, hv] at b1 b2
    dsimp only at b1 b2
    subst b1
    rcases ou with _ | e | p
    · dsimp only
      obtain ⟨c1, c2⟩ := hAB .after u w b2
      have c1' : (each Cb.after A u).2 = (each Cb.after B w).2 := c1
      have c2' : (each Cb.after A u).1.bare = (each Cb.after B w).1.bare := c2
      rw [c1']
      rcases (each Cb.after B w).2 with _ | e
      · refine ⟨rfl, ?_⟩
        dsimp only
        rw [(bare_env c2').1]
        exact bare_booster c2' _
      · exact ⟨rfl, c2'⟩
    · exact ⟨rfl, b2⟩
    · exact ⟨rfl, b2⟩
  · exact ⟨rfl, a2⟩
  · exact ⟨rfl, a2⟩

theorem loop_bare (T : Task α τ) (A B : List (Cb (St α τ κ)))
    (hAB : ∀ (p : Phase) (s s' : St α τ κ), s.bare = s'.bare →
      (each p.of A s).2 = (each p.of B s').2 ∧ (each p.of A s).1.bare = (each p.of B s').1.bare) (n : Nat) :
    ∀ (iter : Nat) (s s' : St α τ κ), s.bare = s'.bare →
    (loop T A n iter s).2 = (loop T B n iter s').2 ∧ (loop T A n iter s).1.bare = (loop T B n iter s').1.bare := by
  induction n with
  | zero => intro iter s s' h; exact ⟨rfl, h⟩
  | succ n ih =>
    intro iter s s' h
    obtain ⟨a1, a2⟩ := runBefore_bare A B hAB _ _ (bare_atIter h iter)
    unfold loop
    rw [a1]
    rcases (runBefore B (s'.atIter iter)).2 with _ | e
    · dsimp only
      rw [(bare_env a2).2.1]
      by_cases hs : (runBefore B (s'.atIter iter)).1.env.shouldStop = true
      · rw [if_pos hs, if_pos hs]; exact ⟨rfl, a2⟩
      · rw [if_neg hs, if_neg hs]
        obtain ⟨b1, b2⟩ := iterate_bare T A B hAB iter _ _ a2
        rcases hu : iterate T A iter (runBefore A (s.atIter iter)).1 with ⟨u, ou⟩
        rcases hv : iterate T B iter (runBefore B (s'.atIter iter)).1 with ⟨w, ow⟩
        rw [hu, hv] at b1 b2
        dsimp only at b1 b2
        subst b1
        rcases ou with _ | e | p
        · exact ih _ _ _ b2
        · exact ⟨rfl, b2⟩
        · exact ⟨rfl, b2⟩
    · exact ⟨rfl, a2⟩

/-- **C189** fails: resetting parameters has no effect on training. Whatever the callback resets and whenever, `Train`
returns the same booster or error as without it, if no other callback looks at the parameter map. -/
theorem reset_no_effect [Zero α] (L : PLit α) (fit : TP α → Outcome τ) (numIteration : τ → Int)
    (score : String → Option τ → Nat → Outcome α) (sets : Nat) (names : List String) (pre post : List (Cb (St α τ κ)))
    (h1 : ∀ c ∈ pre, Blind c) (h2 : ∀ c ∈ post, Blind c) (params : PMap α) (rounds : Nat) (own : κ)
    (start : Int) (new : List (String × PVal α)) :
    (train L fit numIteration score sets names (pre ++ resetCb start new :: post) params rounds own).2 =
      (train L fit numIteration score sets names (pre ++ post) params rounds own).2 := by
  unfold train runTrain
  have hAB := fun p => each_reset (α := α) (τ := τ) (κ := κ) start new p pre post h1 h2
  obtain ⟨a1, a2⟩ := hAB .init (St.start params rounds own) (St.start params rounds own) rfl
  have a1' : (each Cb.init (pre ++ resetCb start new :: post) (St.start params rounds own : St α τ κ)).2 =
    (each Cb.init (pre ++ post) (St.start params rounds own)).2 := a1
  rw [a1']
  rcases (each Cb.init (pre ++ post) (St.start params rounds own : St α τ κ)).2 with _ | e
  · dsimp only
    obtain ⟨b1, b2⟩ := loop_bare ⟨fit (parseParams L params), numIteration, score (parseParams L params).objective,
      getMetricName (parseParams L params).objective, sets, defaultNames names sets⟩ _ _ hAB rounds 0 _ _ a2
    have b1' := b1
    revert b1 b2
    show _ → _ → _
    generalize hu : loop _ (pre ++ resetCb start new :: post) rounds 0 (each Phase.init.of (pre ++ resetCb start new :: post) (St.start params rounds own)).1 = U
    generalize hv : loop _ (pre ++ post) rounds 0 (each Phase.init.of (pre ++ post) (St.start params rounds own)).1 = V
    intro b1 b2
    have hu' : loop ⟨fit (parseParams L params), numIteration, score (parseParams L params).objective,
      getMetricName (parseParams L params).objective, sets, defaultNames names sets⟩ (pre ++ resetCb start new :: post) rounds 0 (each Cb.init (pre ++ resetCb start new :: post) (St.start params rounds own)).1 = U := hu
    have hv' : loop ⟨fit (parseParams L params), numIteration, score (parseParams L params).objective,
      getMetricName (parseParams L params).objective, sets, defaultNames names sets⟩ (pre ++ post) rounds 0 (each Cb.init (pre ++ post) (St.start params rounds own)).1 = V := hv
    rw [hu', hv']
    obtain ⟨u, ou⟩ := U
    obtain ⟨w, ow⟩ := V
    dsimp only at b1 b2
    subst b1
    rcases ou with _ | e | p
    · dsimp only
      obtain ⟨c1, c2⟩ := hAB .finish u w b2
      have c1' : (each Cb.finish (pre ++ resetCb start new :: post) u).2 = (each Cb.finish (pre ++ post) w).2 := c1
      have c2' : (each Cb.finish (pre ++ resetCb start new :: post) u).1.bare = (each Cb.finish (pre ++ post) w).1.bare := c2
      rw [c1']
      rcases (each Cb.finish (pre ++ post) w).2 with _ | e
      · dsimp only
        rw [(bare_env c2').1]
      · rfl
    · rfl
    · rfl
  · rfl

theorem trainOne_params (T : Task α τ) (s : St α τ κ) : (trainOne T s).1.env.params = s.env.params := by
  unfold trainOne
  rcases s.env.booster.model with _ | m
  · rcases T.fit with m | e | p <;> rfl
  · rfl

theorem evaluate_params (T : Task α τ) (is : List Nat) : ∀ s : St α τ κ, (evaluate T is s).1.env.params = s.env.params := by
  induction is with
  | nil => intro s; rfl
  | cons i is ih =>
    intro s
    rw [evaluate]
    rcases T.score s.env.booster.model i with v | e | p
    · dsimp only
      rcases T.names[i]? with _ | name
      · rfl
      · exact ih _
    · rfl
    · rfl

/-- the map after writing the entries of `new`, the later ones last -/
def withEntries (m : PMap α) (new : List (String × PVal α)) : PMap α := fun k =>
  match new.reverse.find? (fun kv => kv.1 = k) with
  | some kv => some kv.2
  | none => m k

theorem foldl_entries (new : List (String × PVal α)) : ∀ m : PMap α,
    new.foldl (fun m kv k => if k = kv.1 then some kv.2 else m k) m = withEntries m new := by
  induction new with
  | nil => intro m; rfl
  | cons kv new ih =>
    intro m
    rw [List.foldl_cons, ih]
    funext k
    unfold withEntries
    rw [List.reverse_cons, List.find?_append]
    generalize new.reverse.find? (fun kv => decide (kv.1 = k)) = o
    rcases o with _ | kv'
    · by_cases h : k = kv.1
      · simp [h]
      · simp [h, Ne.symm h]
    · simp

/-- **C189, what holds**: after training the caller's own parameter map holds the new values if the iteration `start` was
reached, and is unchanged otherwise. -/
theorem reset_map_partial [Zero α] (T : Task α τ) (hT : T.Works) (start : Int) (new : List (String × PVal α)) (rounds : Nat)
    (params : PMap α) (own : κ) :
    (runTrain T [resetCb start new] rounds (St.start params rounds own)).1.env.params =
      if 0 ≤ start ∧ start < rounds then withEntries params new else params := by
  have hl : ∀ (n iter : Nat) (s : St α τ κ), s.env.shouldStop = false →
      ∃ s', loop T [resetCb start new] n iter s = (s', .ok ()) ∧ s'.env.params =
        if (iter : Int) ≤ start ∧ start < ((iter + n : Nat) : Int) then withEntries s.env.params new else s.env.params := by
    intro n
    induction n with
    | zero => intro iter s _; exact ⟨s, rfl, by rw [if_neg (by omega)]⟩
    | succ n ih =>
      intro iter s hs
      have hbf : ∃ s1, runBefore [resetCb start new] (s.atIter iter) = (s1, none) ∧ s1.env.shouldStop = false ∧
          s1.env.iteration = iter ∧
          s1.env.params = if (iter : Int) = start then withEntries s.env.params new else s.env.params := by
        unfold runBefore
        by_cases hk : (iter : Int) = start
        · have : each Cb.before [resetCb start new] (s.atIter iter) =
              (⟨{ (s.atIter iter).env with params := new.foldl (fun m kv k => if k = kv.1 then some kv.2 else m k) s.env.params },
                s.own⟩, none) := by
            simp only [each, resetCb, St.atIter, hk, if_true]
          rw [this, if_pos hk]
          exact ⟨_, rfl, hs, rfl, foldl_entries new s.env.params⟩
        · have : each Cb.before [resetCb start new] (s.atIter iter) = (s.atIter iter, none) := by
            simp only [each, resetCb, St.atIter, hk, if_false]
          rw [this, if_neg hk]
          exact ⟨_, rfl, hs, rfl, rfl⟩
      obtain ⟨s1, h1, h2, h3, h4⟩ := hbf
      have hit : ∃ s2, iterate T [resetCb start new] iter s1 = (s2, .ok ()) ∧ s2.env.shouldStop = false ∧
          s2.env.params = s1.env.params := by
        obtain ⟨a1, a2, a3, a4⟩ := trainOne_works T hT s1
        obtain ⟨b1, b2, b3, b4⟩ := evaluate_works T hT (List.range T.sets) (by simp) (trainOne T s1).1
        have hp : trainOne T s1 = ((trainOne T s1).1, .ok ()) := by rw [← a1]
        have hq : evaluate T (List.range T.sets) (trainOne T s1).1 =
            ((evaluate T (List.range T.sets) (trainOne T s1).1).1, .ok ()) := by rw [← b1]
        have he : each Cb.after [resetCb start new] (evaluate T (List.range T.sets) (trainOne T s1).1).1 =
            ((evaluate T (List.range T.sets) (trainOne T s1).1).1, none) := rfl
        unfold iterate
        rw [hp]
        dsimp only
        rw [hq]
        dsimp only
        rw [he]
        dsimp only
        exact ⟨_, rfl, (b3.trans a3).trans h2, (evaluate_params T _ _).trans (trainOne_params T _)⟩
      obtain ⟨s2, g1, g2, g3⟩ := hit
      obtain ⟨s', k1, k2⟩ := ih (iter + 1) s2 g2
      refine ⟨s', ?_, ?_⟩
      · rw [loop, h1]
        dsimp only
        rw [h2]
        simp only [Bool.false_eq_true, if_false]
        rw [g1]
        exact k1
      · rw [k2, g3, h4]
        by_cases hk : (iter : Int) = start
        · rw [if_neg (by omega), if_pos hk, if_pos (by omega)]
        · by_cases hk2 : ((iter + 1 : Nat) : Int) ≤ start ∧ start < ((iter + 1 + n : Nat) : Int)
          · rw [if_pos hk2, if_neg hk, if_pos (by omega)]
          · rw [if_neg hk2, if_neg hk, if_neg (by omega)]
  obtain ⟨s', h1, h2⟩ := hl rounds 0 (St.start params rounds own) rfl
  unfold runTrain
  have h0 : (each Cb.init [resetCb start new] (St.start params rounds own : St α τ κ)).2 = none := rfl
  rw [h0]
  have h1' : loop T [resetCb start new] rounds 0 (each Cb.init [resetCb start new] (St.start params rounds own)).1 = (s', .ok ()) := h1
  dsimp only
  rw [h1']
  show s'.env.params = _
  rw [h2]
  simp [St.start]

/-! ## Concrete cases -/

/-- a task that trains a model and scores it on two validation sets -/
def demo (objective : String) : Task ℚ Unit := ⟨.ok (), fun _ => 7, fun _ i => .ok (i + 1 : ℚ), getMetricName objective, 2, ["a", "b"]⟩

/-- it meets the hypotheses of the theorems about callbacks -/
example : (demo "l2").Works := ⟨⟨(), rfl⟩, fun _ i => ⟨i + 1, rfl⟩, by decide⟩

/-- the callbacks of the package are calm, mild or quiet where the theorems need it -/
example : Calm (resetCb (α := ℚ) (τ := Unit) (κ := Unit) 3 [("learning_rate", .float 1)]) ∧
    Mild (resetCb (α := ℚ) (τ := Unit) (κ := Unit) 3 [("learning_rate", .float 1)]) ∧
    Quiet (resetCb (α := ℚ) (τ := Unit) (κ := Rec ℚ × Unit) 3 [("learning_rate", .float 1)]) := by
  refine ⟨⟨?_, ?_, ?_, ?_⟩, ⟨?_, ?_, ?_, ?_⟩, ⟨?_, ?_, ?_, ?_⟩⟩ <;> intro s <;> simp only [resetCb, skip] <;>
    first
    | exact ⟨rfl, rfl, rfl⟩
    | exact ⟨rfl, rfl, rfl, rfl⟩
    | exact ⟨rfl, rfl, rfl, rfl, rfl, rfl⟩
    | (by_cases h : (s.env.iteration : Int) = 3 <;> simp [h])

/-- three rounds with two callbacks -/
example : protocol 2 2 = [(.init, 0, 0), (.init, 1, 0), (.before, 0, 0), (.before, 1, 0), (.after, 0, 0), (.after, 1, 0),
    (.before, 0, 1), (.before, 1, 1), (.after, 0, 1), (.after, 1, 1), (.finish, 0, 1), (.finish, 1, 1)] := by decide

/-- the callback that stops after the third iteration ends a training of ten rounds there -/
example : (runTrain (demo "l2") [stopAt 2] 10 (St.start (fun _ => none) 10 ())).2.map (fun b => (b.current, b.best)) =
    .ok (3, 3) := by decide +kernel

/-- a callback that reports early stopping instead does not -/
example : (runTrain (demo "l2") [earlyBefore 2] 10 (St.start (fun _ => none) 10 ())).2.map (fun b => b.current) = .ok 10 ∧
    (runTrain (demo "l2") [earlyAfter 2] 10 (St.start (fun _ => none) 10 ())).2.map (fun b => b.current) =
      .err (.other "early stopping") := by
  constructor <;> decide +kernel

/-- the record of three rounds on the validation sets -/
example : let r := (train (⟨1/10, 0, 0, 1⟩ : PLit ℚ) (fun _ => .ok ()) (fun _ => 7) (fun _ _ i => .ok (i + 1 : ℚ)) 2 ["a-1", "b"]
      [recordCb] (fun _ => none) 3 ((fun _ _ => none), ())).1.own.1
    r "a-1" "l2" = some [1, 1, 1] ∧ r "b" "l2" = some [2, 2, 2] ∧ r "b" "l1" = none := by
  decide +kernel

/-- two validation sets of the same name share one history -/
example : (train (⟨1/10, 0, 0, 1⟩ : PLit ℚ) (fun _ => .ok ()) (fun _ => 7) (fun _ _ i => .ok (i + 1 : ℚ)) 2 ["a", "a"]
      [recordCb] (fun _ => none) 2 ((fun _ _ => none), ())).1.own.1 "a" "l2" = some [1, 2, 1, 2] := by
  decide +kernel

/-- ten and eleven rounds, every fourth printed -/
example : (train (⟨1/10, 0, 0, 1⟩ : PLit ℚ) (fun _ => .ok ()) (fun _ => 7) (fun _ _ i => .ok (i + 1 : ℚ)) 1 ["a"]
      [printCb] (fun _ => none) 10 (Printer.new 4, ())).1.own.1.lines =
      [(1, [("a-l2", 1)]), (5, [("a-l2", 1)]), (9, [("a-l2", 1)])] ∧
    (train (⟨1/10, 0, 0, 1⟩ : PLit ℚ) (fun _ => .ok ()) (fun _ => 7) (fun _ _ i => .ok (i + 1 : ℚ)) 1 ["a"]
      [printCb] (fun _ => none) 11 (Printer.new 4, ())).1.own.1.lines =
      [(1, [("a-l2", 1)]), (5, [("a-l2", 1)]), (9, [("a-l2", 1)]), (10, [("a-l2", 1)])] := by
  constructor <;> decide +kernel

/-- a reset of the learning rate before the second iteration -/
example : (runTrain (demo "l2") [resetCb 1 [("learning_rate", .float (1/2))]] 3 (St.start (fun _ => none) 3 ())).1.env.params
    "learning_rate" = some (.float (1/2)) := by decide +kernel

end Scigo.Api
