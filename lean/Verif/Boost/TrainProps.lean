import Verif.Boost.EarlyStopProps

/-!
# The Python-style training function: theorems
-/

namespace Scigo.Boost

set_option linter.unusedSectionVars false

section

variable {β : Type _} [LinearOrder β] {τ : Type _}

/-- the sets whose score still beats the best score -/
def better (c : ApiES β) (ts : List τ) (scores : List (List τ → Option β)) : Nat :=
  (scores.filter fun sc => improves (!c.higher) (sc ts) c.best).length

theorem improves_trans {m : Bool} {x y z : Option β} (h1 : improves m x y = true) (h2 : improves m y z = true) :
    improves m x z = true := by
  rcases x with _ | x
  · rw [improves_none] at h1; simp at h1
  rcases y with _ | y
  · rw [improves_none] at h2; simp at h2
  rcases z with _ | z
  · cases m <;> simp [improves, below] at h2
  rw [improves_iff] at *
  exact better_trans' h1 h2

theorem improves_irrefl {m : Bool} (x : Option β) : improves m x x = false := by
  rcases x with _ | x
  · exact improves_none _ _
  · have := not_better_self (m := m) x
    rw [← improves_iff] at this; simpa using this

/-- an improvement uses up a set -/
theorem better_lt {c c' : ApiES β} {ts : List τ} {scores : List (List τ → Option β)} {sc : List τ → Option β}
    (hm : sc ∈ scores) (hi : improves (!c.higher) (sc ts) c.best = true) (hh : c'.higher = c.higher)
    (hb : c'.best = sc ts) : better c' ts scores + 1 ≤ better c ts scores := by
  unfold better
  rw [hh, hb]
  have hsub : ∀ l : List (List τ → Option β),
      (l.filter fun s => improves (!c.higher) (s ts) (sc ts)).length ≤
        (l.filter fun s => improves (!c.higher) (s ts) c.best).length ∧
      (sc ∈ l → (l.filter fun s => improves (!c.higher) (s ts) (sc ts)).length + 1 ≤
        (l.filter fun s => improves (!c.higher) (s ts) c.best).length) := by
    intro l
    induction l with
    | nil => simp
    | cons a l ih =>
      obtain ⟨i1, i2⟩ := ih
      by_cases h1 : improves (!c.higher) (a ts) (sc ts) = true
      · have h2 := improves_trans h1 hi
        simp only [List.filter_cons, h1, h2, if_true, List.length_cons]
        refine ⟨by omega, fun hmem => ?_⟩
        rcases List.mem_cons.1 hmem with rfl | hmem
        · rw [improves_irrefl] at h1; simp at h1
        · have := i2 hmem; omega
      · simp only [List.filter_cons, h1, if_false]
        by_cases h2 : improves (!c.higher) (a ts) c.best = true
        · simp only [h2, if_true, List.length_cons]
          refine ⟨by simp only [Bool.false_eq_true, if_false]; omega, fun hmem => ?_⟩
          simp only [Bool.false_eq_true, if_false]; omega
        · simp only [h2, if_false]
          refine ⟨i1, fun hmem => ?_⟩
          rcases List.mem_cons.1 hmem with rfl | hmem
          · exact absurd hi h2
          · exact i2 hmem
  exact (hsub scores).2 hm

theorem trainLoop_stops (rounds : Nat) (_hr : 1 ≤ rounds) (fit : Outcome (List τ)) (scores : List (List τ → Option β))
    (pick : Nat → Nat) (hpick : ∀ i, pick i < scores.length) (ts : List τ) (n : Nat) :
    ∀ (iter : Nat) (c : ApiES β) (w cur best : Nat), c.wait = w → w < rounds →
      better c ts scores * rounds + (rounds - w) ≤ n →
      trainLoop rounds fit scores pick n iter (some c) ⟨some ts, cur, best⟩ = .err (.other "early stopping") := by
  induction n with
  | zero => intro iter c w cur best h1 h2 h3; omega
  | succ n ih =>
    intro iter c w cur best hw hlt hn
    obtain ⟨sc, hsc⟩ : ∃ sc, scores[pick iter]? = some sc := ⟨_, List.getElem?_eq_getElem (hpick iter)⟩
    simp only [trainLoop, Outcome.bind_ok, hsc]
    by_cases hi : improves (!c.higher) (sc ts) c.best = true
    · simp only [ApiES.after, hi, if_true]
      have hdec := better_lt (c' := { c with best := sc ts, bestIter := (iter : Int), wait := 0 })
        (List.mem_of_getElem? hsc) hi rfl rfl
      refine ih (iter + 1) _ 0 (iter + 1) best rfl (by omega) ?_
      have := Nat.mul_le_mul_right rounds hdec
      rw [Nat.add_mul, Nat.one_mul] at this
      omega
    · simp only [ApiES.after, hi, if_false]
      by_cases hs : (rounds : Int) ≤ c.wait + 1
      · simp [hs]
      · simp only [hs, if_false, Bool.false_eq_true]
        refine ih (iter + 1) _ (w + 1) (iter + 1) best (by simp [hw]) (by omega) ?_
        have : better { c with wait := c.wait + 1 } ts scores = better c ts scores := rfl
        rw [this]; omega

/-- the first iteration builds the model -/
theorem trainLoop_first (rounds : Int) (ts : List τ) (scores : List (List τ → Option β)) (pick : Nat → Nat) (n iter : Nat)
    (c : Option (ApiES β)) (cur best : Int) (fit : Outcome (List τ)) (hf : fit = .ok ts) :
    trainLoop rounds fit scores pick (n + 1) iter c ⟨none, cur, best⟩ =
      trainLoop rounds fit scores pick (n + 1) iter c ⟨some ts, cur, best⟩ := by
  subst hf; rfl

/-- C59 is false: with early stopping, any validation sets and enough rounds, training never returns a booster: it ends
with the early stopping error -/
theorem train_early_stop_fails (inf ninf : β) (objective : Option String) (ts : List τ)
    (scores : List (List τ → Option β)) (pick : Nat → Nat) (hpick : ∀ i, pick i < scores.length) (rounds : Nat)
    (hr : 1 ≤ rounds) (N : Nat) (hN : (scores.length + 1) * rounds ≤ N) :
    train inf ninf objective (.ok ts) scores pick N rounds = .err (.other "early stopping") := by
  have hp := hpick 0
  obtain ⟨N, rfl⟩ : ∃ M, N = M + 1 := ⟨N - 1, by
    have := Nat.mul_le_mul (show 1 ≤ scores.length + 1 by omega) hr; omega⟩
  have hr' : (0 : Int) < rounds := by omega
  simp only [train, hr', if_true]
  rw [trainLoop_first _ ts _ _ _ _ _ _ _ _ rfl]
  have h0 : (ApiES.init inf ninf objective).wait = ((0 : Nat) : Int) := by
    unfold ApiES.init; split <;> rfl
  have := trainLoop_stops rounds hr (.ok ts) scores pick hpick ts (N + 1) 0 (ApiES.init inf ninf objective) 0 0 0 h0
    (by omega) (by
      have hle : better (ApiES.init inf ninf objective) ts scores ≤ scores.length := List.length_filter_le _ _
      have := Nat.mul_le_mul_right rounds hle
      rw [Nat.add_mul, Nat.one_mul] at hN
      omega)
  simp only [Nat.cast_zero] at this
  rw [this]; rfl

theorem trainLoop_plain (rounds : Int) (fit : Outcome (List τ)) (scores : List (List τ → Option β)) (pick : Nat → Nat)
    (ts : List τ) (hno : ∀ i, scores[pick i]? = none) (c : Option (ApiES β)) (n : Nat) : ∀ (iter : Nat) (cur best : Int),
      trainLoop rounds fit scores pick n iter c ⟨some ts, cur, best⟩ =
        .ok ⟨some ts, if n = 0 then cur else ((iter + n : Nat) : Int), best⟩ := by
  induction n with
  | zero => intro iter cur best; rfl
  | succ n ih =>
    intro iter cur best
    have : trainLoop rounds fit scores pick (n + 1) iter c ⟨some ts, cur, best⟩ =
        trainLoop rounds fit scores pick n (iter + 1) c ⟨some ts, (iter : Int) + 1, best⟩ := by
      rcases c with _ | c <;> simp [trainLoop, hno iter]
    rw [this, ih]
    by_cases h : n = 0
    · subst h; simp
    · simp only [h, if_false, Nat.add_one_ne_zero]
      congr 3; omega

/-- what `Train` returns when it stops nowhere: all the trees of the one training call, whatever the requested number -/
def allTrees (ts : List τ) (n : Nat) : Outcome (Booster τ) := .ok ⟨some ts, n, n⟩

/-- C106 is false: without early stopping, the booster holds the trees of a single training call, whose number does not
depend on the requested rounds, while the reported iteration is the requested number; with zero rounds there is no
model at all -/
theorem train_ignores_rounds (inf ninf : β) (objective : Option String) (ts : List τ)
    (scores : List (List τ → Option β)) (pick : Nat → Nat) (N : Nat) :
    train inf ninf objective (.ok ts) scores pick (N + 1) 0 = allTrees ts (N + 1) ∧
      train inf ninf objective (.ok ts) scores pick 0 0 = .ok ⟨none, 0, 0⟩ := by
  refine ⟨?_, rfl⟩
  simp only [train, lt_irrefl, if_false]
  rw [trainLoop_first _ ts _ _ _ _ _ _ _ _ rfl]
  -- without the callback the scores do not matter
  have key : ∀ (n iter : Nat) (cur best : Int), trainLoop 0 (.ok ts) scores pick n iter none ⟨some ts, cur, best⟩ =
      .ok ⟨some ts, if n = 0 then cur else ((iter + n : Nat) : Int), best⟩ := by
    intro n
    induction n with
    | zero => intro iter cur best; rfl
    | succ n ih =>
      intro iter cur best
      have : trainLoop 0 (.ok ts) scores pick (n + 1) iter none ⟨some ts, cur, best⟩ =
          trainLoop 0 (.ok ts) scores pick n (iter + 1) none ⟨some ts, (iter : Int) + 1, best⟩ := by
        simp [trainLoop]
      rw [this, ih]
      by_cases h : n = 0
      · subst h; simp
      · simp only [h, if_false, Nat.add_one_ne_zero]
        congr 3; omega
  rw [key]
  simp [Booster.finish, allTrees]

/-- C106: a booster asked for 3 rounds has as many trees as one asked for 5, with a parameter of 2 trees -/
theorem train_round_count_wrong :
    ∃ (ts : List Nat) (b b' : Booster Nat),
      train (β := Int) 9 (-9) none (.ok ts) [] id 3 0 = .ok b ∧ train (β := Int) 9 (-9) none (.ok ts) [] id 5 0 = .ok b' ∧
        b.model = b'.model ∧ (b.model.map List.length) = some 2 ∧ b.current = 3 ∧ b'.current = 5 :=
  ⟨[0, 1], ⟨some [0, 1], 3, 3⟩, ⟨some [0, 1], 5, 5⟩, rfl, rfl, rfl, rfl, rfl, rfl⟩

/-- C106 (partial): a failing training call is reported, and the requested number of rounds is the reported iteration.
Missing: the number of trees. -/
theorem train_rounds_partial (inf ninf : β) (objective : Option String) (fit : Outcome (List τ))
    (scores : List (List τ → Option β)) (pick : Nat → Nat) (N : Nat) :
    (∀ e, fit = .err e → train inf ninf objective fit scores pick (N + 1) 0 = .err e) ∧
      ∀ b, train inf ninf objective fit scores pick (N + 1) 0 = .ok b →
        b.current = N + 1 ∧ b.best = N + 1 ∧ ∃ ts, fit = .ok ts ∧ b.model = some ts := by
  constructor
  · rintro e rfl; rfl
  · intro b hb
    cases hf : fit with
    | err e => rw [hf] at hb; simp [train, trainLoop, Outcome.map] at hb
    | panic v => rw [hf] at hb; simp [train, trainLoop, Outcome.map] at hb
    | ok ts =>
      rw [hf, (train_ignores_rounds inf ninf objective ts scores pick N).1] at hb
      cases hb
      exact ⟨by push_cast; rfl, by push_cast; rfl, ts, rfl, rfl⟩

theorem trainLoop_single (rounds : Nat) (fit : Outcome (List τ)) (sc : List τ → Option β)
    (ts : List τ) (c : ApiES β) (hno : improves (!c.higher) (sc ts) c.best = false) (n : Nat) :
    ∀ (iter : Nat) (w : Nat) (cur best : Int), w + n < rounds →
      trainLoop rounds fit [sc] (fun _ => 0) n iter (some { c with wait := w }) ⟨some ts, cur, best⟩ =
        .ok ⟨some ts, if n = 0 then cur else ((iter + n : Nat) : Int), best⟩ := by
  induction n with
  | zero => intro iter w cur best _; rfl
  | succ n ih =>
    intro iter w cur best h
    have hs : ¬ ((rounds : Int) ≤ (w : Int) + 1) := by omega
    have hstep : trainLoop rounds fit [sc] (fun _ => 0) (n + 1) iter (some { c with wait := (w : Int) }) ⟨some ts, cur, best⟩ =
        trainLoop rounds fit [sc] (fun _ => 0) n (iter + 1) (some { c with wait := ((w + 1 : Nat) : Int) })
          ⟨some ts, (iter : Int) + 1, best⟩ := by
      simp only [trainLoop, Outcome.bind_ok, List.getElem?_cons_zero, ApiES.after, hno, if_false, hs, Bool.false_eq_true]
      push_cast; rfl
    rw [hstep, ih (iter + 1) (w + 1) _ _ (by omega)]
    by_cases h' : n = 0
    · subst h'; simp
    · simp only [h', if_false, Nat.add_one_ne_zero]
      congr 3; omega

/-- C59 (partial): with one validation set whose score is a number, training returns a booster exactly when the
requested rounds do not exceed the patience, and then the booster holds every tree. Missing for the full property:
stopping early and still returning the truncated model; see `train_early_stop_fails`. -/
theorem train_early_stop_partial (inf ninf : β) (objective : Option String) (ts : List τ)
    (sc : List τ → Option β) (rounds N : Nat) (hr : 1 ≤ rounds)
    (himp : improves (!(ApiES.init inf ninf objective).higher) (sc ts) (ApiES.init inf ninf objective).best = true) :
    train inf ninf objective (.ok ts) [sc] (fun _ => 0) (N + 1) rounds =
      if N + 1 ≤ rounds then allTrees ts (N + 1) else .err (.other "early stopping") := by
  have hr' : (0 : Int) < rounds := by omega
  simp only [train, hr', if_true]
  generalize hc : ApiES.init inf ninf objective = c0 at himp ⊢
  have hstep : trainLoop rounds (.ok ts) [sc] (fun _ => 0) (N + 1) 0 (some c0) ⟨none, 0, 0⟩ =
      trainLoop rounds (.ok ts) [sc] (fun _ => 0) N 1 (some { c0 with best := sc ts, bestIter := 0, wait := ((0 : Nat) : Int) })
        ⟨some ts, 1, 0⟩ := by
    simp only [trainLoop, Outcome.bind_ok, List.getElem?_cons_zero, ApiES.after, himp, if_true]
    simp
  rw [hstep]
  by_cases h : N + 1 ≤ rounds
  · rw [if_pos h]
    have hno : improves (!({ c0 with best := sc ts, bestIter := (0 : Int), wait := 0 } : ApiES β).higher) (sc ts)
        ({ c0 with best := sc ts, bestIter := (0 : Int), wait := 0 } : ApiES β).best = false := improves_irrefl _
    have := trainLoop_single rounds (.ok ts) sc ts _ hno N 1 0 1 0 (by omega)
    rw [this]
    by_cases hN : N = 0
    · subst hN; simp [Booster.finish, allTrees]
    · simp only [hN, if_false, Outcome.map_ok, Booster.finish, if_true, allTrees]
      rw [Nat.add_comm 1 N]
  · rw [if_neg h]
    have := trainLoop_stops rounds hr (.ok ts) [sc] (fun _ => 0) (by simp) ts N 1
      { c0 with best := sc ts, bestIter := 0, wait := ((0 : Nat) : Int) } 0 1 0 rfl (by omega) (by
        have : better ({ c0 with best := sc ts, bestIter := 0, wait := ((0 : Nat) : Int) } : ApiES β) ts [sc] = 0 := by
          simp [better, improves_irrefl]
        rw [this]; omega)
    simp only [Nat.cast_one, Nat.cast_zero] at this ⊢
    rw [this]; rfl

/-- C59: patience 2: three rounds fail, two rounds return all the trees -/
example : train (β := Int) (10 ^ 9) (-10 ^ 9) (some "regression") (.ok [7, 8, 9]) [fun ts => some ts.length] (fun _ => 0) 3 2 =
      .err (.other "early stopping") ∧
    train (β := Int) (10 ^ 9) (-10 ^ 9) (some "regression") (.ok [7, 8, 9]) [fun ts => some ts.length] (fun _ => 0) 2 2 =
      .ok ⟨some [7, 8, 9], 2, 2⟩ := ⟨rfl, rfl⟩

end

end Scigo.Boost
