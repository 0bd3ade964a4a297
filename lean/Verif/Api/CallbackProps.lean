import Verif.Api.Model
import Mathlib.Data.List.Basic
import Mathlib.Data.List.Range
import Mathlib.Data.List.Nodup
import Mathlib.Tactic.NormNum

/-!
# Callbacks of the training function: specification and theorems
-/

set_option linter.unusedSectionVars false

namespace Scigo.Api

variable {α τ κ S : Type}

/-! ## C185: the order of the calls -/

/-- the four methods of a callback -/
inductive Phase
  | init
  | before
  | after
  | finish
  deriving DecidableEq

/-- a call: the method, the position of the callback and the iteration -/
abbrev Event := Phase × Nat × Nat

/-- the same call, noting that it took place -/
def noted (p : Phase) (i : Nat) (f : Call (St α τ κ)) : Call (St α τ (κ × List Event)) := fun s =>
  (⟨(f ⟨s.env, s.own.1⟩).1.env, ((f ⟨s.env, s.own.1⟩).1.own, s.own.2 ++ [(p, i, s.env.iteration)])⟩, (f ⟨s.env, s.own.1⟩).2)

/-- the same callback, noting its calls -/
def notedCb (i : Nat) (c : Cb (St α τ κ)) : Cb (St α τ (κ × List Event)) :=
  ⟨noted .init i c.init, noted .before i c.before, noted .after i c.after, noted .finish i c.finish⟩

/-- callbacks `k`, `k+1`, … noting their calls -/
def notedFrom : Nat → List (Cb (St α τ κ)) → List (Cb (St α τ (κ × List Event)))
  | _, [] => []
  | k, c :: cs => notedCb k c :: notedFrom (k + 1) cs

/-- a call that reports no error, does not ask to stop and leaves the iteration alone -/
def CalmCall (f : Call (St α τ κ)) : Prop :=
  ∀ s, (f s).2 = none ∧ (f s).1.env.shouldStop = s.env.shouldStop ∧ (f s).1.env.iteration = s.env.iteration

/-- a callback all of whose calls are calm; it may change everything else -/
def Calm (c : Cb (St α τ κ)) : Prop := CalmCall c.init ∧ CalmCall c.before ∧ CalmCall c.after ∧ CalmCall c.finish

/-- the calls of one method of the callbacks `k`, …, `k + n - 1`, in order -/
def calls (p : Phase) (n iter : Nat) : List Event := (List.range n).map (fun i => (p, i, iter))

/-- the calls of a whole training of `rounds` iterations with `n` callbacks -/
def protocol (n rounds : Nat) : List Event :=
  calls .init n 0 ++ (List.range rounds).flatMap (fun it => calls .before n it ++ calls .after n it) ++
    calls .finish n (rounds - 1)

/-- the method of a callback -/
def Phase.of : Phase → Cb S → Call S
  | .init => Cb.init
  | .before => Cb.before
  | .after => Cb.after
  | .finish => Cb.finish

theorem noted_of (p : Phase) (i : Nat) (c : Cb (St α τ κ)) : p.of (notedCb i c) = noted p i (p.of c) := by
  cases p <;> rfl

theorem calm_of (p : Phase) (c : Cb (St α τ κ)) (h : Calm c) : CalmCall (p.of c) := by
  obtain ⟨h1, h2, h3, h4⟩ := h
  cases p <;> assumption

theorem each_noted (p : Phase) (cbs : List (Cb (St α τ κ))) (h : ∀ c ∈ cbs, Calm c) :
    ∀ (k : Nat) (s : St α τ (κ × List Event)),
      (each p.of (notedFrom k cbs) s).2 = none ∧
      (each p.of (notedFrom k cbs) s).1.env.shouldStop = s.env.shouldStop ∧
      (each p.of (notedFrom k cbs) s).1.env.iteration = s.env.iteration ∧
      (each p.of (notedFrom k cbs) s).1.own.2 =
        s.own.2 ++ (List.range cbs.length).map (fun i => (p, k + i, s.env.iteration)) := by
  induction cbs with
  | nil => intro k s; simp [notedFrom, each]
  | cons c cs ih =>
    intro k s
    obtain ⟨e1, e2, e3⟩ := calm_of p c (h c (by simp)) ⟨s.env, s.own.1⟩
    have e4 : (p.of (notedCb k c) s).2 = none := by rw [noted_of]; exact e1
    have hs : (each p.of (notedFrom k (c :: cs)) s) = each p.of (notedFrom (k + 1) cs) (p.of (notedCb k c) s).1 := by
      show each p.of (notedCb k c :: notedFrom (k + 1) cs) s = _
      rw [each, e4]
    obtain ⟨i1, i2, i3, i4⟩ := ih (fun c hc => h c (by simp [hc])) (k + 1) (p.of (notedCb k c) s).1
    have e5 : (p.of (notedCb k c) s).1.env.shouldStop = s.env.shouldStop := by rw [noted_of]; exact e2
    have e6 : (p.of (notedCb k c) s).1.env.iteration = s.env.iteration := by rw [noted_of]; exact e3
    have e7 : (p.of (notedCb k c) s).1.own.2 = s.own.2 ++ [(p, k, s.env.iteration)] := by rw [noted_of]; rfl
    rw [hs]
    refine ⟨i1, i2.trans e5, i3.trans e6, ?_⟩
    rw [i4, e6, e7, List.length_cons, List.range_succ_eq_map]
    simp [Nat.add_assoc, Nat.add_comm 1]

/-- a task whose training and evaluation succeed -/
def Task.Works (T : Task α τ) : Prop :=
  (∃ m, T.fit = .ok m) ∧ (∀ m i, ∃ v, T.score m i = .ok v) ∧ T.sets ≤ T.names.length

theorem evaluate_works (T : Task α τ) (hT : T.Works) (is : List Nat) (his : ∀ i ∈ is, i < T.sets) :
    ∀ s : St α τ κ, (evaluate T is s).2 = .ok () ∧ (evaluate T is s).1.own = s.own ∧
      (evaluate T is s).1.env.shouldStop = s.env.shouldStop ∧ (evaluate T is s).1.env.iteration = s.env.iteration := by
  induction is with
  | nil => intro s; simp [evaluate]
  | cons i is ih =>
    intro s
    obtain ⟨v, hv⟩ := hT.2.1 s.env.booster.model i
    have hi := his i (by simp)
    obtain ⟨name, hn⟩ : ∃ name, T.names[i]? = some name := by
      have : i < T.names.length := Nat.lt_of_lt_of_le hi hT.2.2
      exact ⟨_, List.getElem?_eq_getElem this⟩
    simp only [evaluate, hv, hn]
    exact ih (fun j hj => his j (by simp [hj])) _

theorem trainOne_works (T : Task α τ) (hT : T.Works) (s : St α τ κ) :
    (trainOne T s).2 = .ok () ∧ (trainOne T s).1.own = s.own ∧
      (trainOne T s).1.env.shouldStop = s.env.shouldStop ∧ (trainOne T s).1.env.iteration = s.env.iteration := by
  obtain ⟨m, hm⟩ := hT.1
  unfold trainOne
  rcases s.env.booster.model with _ | m'
  · simp [hm]
  · simp

theorem iterate_noted (T : Task α τ) (hT : T.Works) (cbs : List (Cb (St α τ κ))) (h : ∀ c ∈ cbs, Calm c) (iter : Nat)
    (s : St α τ (κ × List Event)) (hi : s.env.iteration = iter) :
    (iterate T (notedFrom 0 cbs) iter s).2 = .ok () ∧
    (iterate T (notedFrom 0 cbs) iter s).1.env.shouldStop = s.env.shouldStop ∧
    (iterate T (notedFrom 0 cbs) iter s).1.env.iteration = iter ∧
    (iterate T (notedFrom 0 cbs) iter s).1.own.2 = s.own.2 ++ calls .after cbs.length iter := by
  obtain ⟨a1, a2, a3, a4⟩ := trainOne_works T hT s
  obtain ⟨b1, b2, b3, b4⟩ := evaluate_works T hT (List.range T.sets) (by simp) (trainOne T s).1
  obtain ⟨c1, c2, c3, c4⟩ := each_noted .after cbs h 0 (evaluate T (List.range T.sets) (trainOne T s).1).1
  have e : iterate T (notedFrom 0 cbs) iter s =
      ({ (each Phase.after.of (notedFrom 0 cbs) (evaluate T (List.range T.sets) (trainOne T s).1).1).1 with env :=
        { (each Phase.after.of (notedFrom 0 cbs) (evaluate T (List.range T.sets) (trainOne T s).1).1).1.env with booster :=
          { (each Phase.after.of (notedFrom 0 cbs) (evaluate T (List.range T.sets) (trainOne T s).1).1).1.env.booster with
            current := iter + 1 } } }, .ok ()) := by
    have hp : trainOne T s = ((trainOne T s).1, .ok ()) := by rw [← a1]
    have hq : evaluate T (List.range T.sets) (trainOne T s).1 =
        ((evaluate T (List.range T.sets) (trainOne T s).1).1, .ok ()) := by rw [← b1]
    unfold iterate
    rw [hp]
    dsimp only
    rw [hq]
    dsimp only
    have c1' : (each Cb.after (notedFrom 0 cbs) (evaluate T (List.range T.sets) (trainOne T s).1).1).2 = none := c1
    rw [c1']
    rfl
  rw [e]
  refine ⟨rfl, ?_, ?_, ?_⟩
  · show (each Phase.after.of (notedFrom 0 cbs) (evaluate T (List.range T.sets) (trainOne T s).1).1).1.env.shouldStop = _
    rw [c2, b3, a3]
  · show (each Phase.after.of (notedFrom 0 cbs) (evaluate T (List.range T.sets) (trainOne T s).1).1).1.env.iteration = _
    rw [c3, b4, a4, hi]
  · show (each Phase.after.of (notedFrom 0 cbs) (evaluate T (List.range T.sets) (trainOne T s).1).1).1.own.2 = _
    rw [c4, b2, a2, b4, a4, hi]
    simp [calls]

theorem loop_noted (T : Task α τ) (hT : T.Works) (cbs : List (Cb (St α τ κ))) (h : ∀ c ∈ cbs, Calm c) (n : Nat) :
    ∀ (iter : Nat) (s : St α τ (κ × List Event)), s.env.shouldStop = false →
    (loop T (notedFrom 0 cbs) n iter s).2 = .ok () ∧
    (loop T (notedFrom 0 cbs) n iter s).1.env.iteration = (if n = 0 then s.env.iteration else iter + n - 1) ∧
    (loop T (notedFrom 0 cbs) n iter s).1.own.2 = s.own.2 ++
      (List.range n).flatMap (fun it => calls .before cbs.length (iter + it) ++ calls .after cbs.length (iter + it)) := by
  induction n with
  | zero => intro iter s _; simp [loop]
  | succ n ih =>
    intro iter s hs
    obtain ⟨c1, c2, c3, c4⟩ := each_noted .before cbs h 0 (s.atIter iter)
    have hb : runBefore (notedFrom 0 cbs) (s.atIter iter) = ((each Phase.before.of (notedFrom 0 cbs) (s.atIter iter)).1, none) := by
      unfold runBefore
      have c1' : (each Cb.before (notedFrom 0 cbs) (s.atIter iter)).2 = none := c1
      rw [c1']
      rfl
    have hi : (each Phase.before.of (notedFrom 0 cbs) (s.atIter iter)).1.env.iteration = iter := by rw [c3]; rfl
    obtain ⟨d1, d2, d3, d4⟩ := iterate_noted T hT cbs h iter _ hi
    have hst : (each Phase.before.of (notedFrom 0 cbs) (s.atIter iter)).1.env.shouldStop = false := by rw [c2]; exact hs
    have hd : iterate T (notedFrom 0 cbs) iter (each Phase.before.of (notedFrom 0 cbs) (s.atIter iter)).1 =
        ((iterate T (notedFrom 0 cbs) iter (each Phase.before.of (notedFrom 0 cbs) (s.atIter iter)).1).1, .ok ()) := by
      rw [← d1]
    have e : loop T (notedFrom 0 cbs) (n + 1) iter s = loop T (notedFrom 0 cbs) n (iter + 1)
        (iterate T (notedFrom 0 cbs) iter (each Phase.before.of (notedFrom 0 cbs) (s.atIter iter)).1).1 := by
      rw [loop, hb]
      dsimp only
      rw [hst]
      simp only [Bool.false_eq_true, if_false]
      rw [hd]
    obtain ⟨f1, f2, f3⟩ := ih (iter + 1) _ (d2.trans hst)
    rw [e]
    refine ⟨f1, ?_, ?_⟩
    · rw [f2, d3]
      by_cases hn : n = 0
      · simp [hn]
      · simp only [hn, if_false, Nat.succ_ne_zero]; omega
    · rw [f3, d4, c4, List.range_succ_eq_map, List.flatMap_cons, List.flatMap_map]
      simp only [List.append_assoc, Nat.add_zero]
      congr 1
      simp only [calls, Nat.zero_add]
      show _ = _
      congr 2
      congr 1
      funext it
      simp only [Nat.succ_eq_add_one, show iter + 1 + it = iter + (it + 1) by omega]

/-- **C185** Training calls the callbacks in the documented order: first `Init` of every callback in the order given, then in
every iteration `BeforeIteration` of all and after it `AfterIteration` of all, at the end `Finalize` of all. For all
callbacks that report no error and do not ask to stop, whatever else they do. -/
theorem callback_order [Zero α] (T : Task α τ) (hT : T.Works) (cbs : List (Cb (St α τ κ))) (h : ∀ c ∈ cbs, Calm c)
    (rounds : Nat) (params : PMap α) (own : κ) :
    (∃ b, (runTrain T (notedFrom 0 cbs) rounds (St.start params rounds (own, []))).2 = .ok b) ∧
    (runTrain T (notedFrom 0 cbs) rounds (St.start params rounds (own, []))).1.own.2 = protocol cbs.length rounds := by
  obtain ⟨a1, a2, a3, a4⟩ := each_noted .init cbs h 0 (St.start params rounds (own, []))
  obtain ⟨b1, b2, b3⟩ := loop_noted T hT cbs h rounds 0 (each Phase.init.of (notedFrom 0 cbs) (St.start params rounds (own, []))).1
    (by rw [a2]; rfl)
  obtain ⟨c1, c2, c3, c4⟩ := each_noted .finish cbs h 0
    (loop T (notedFrom 0 cbs) rounds 0 (each Phase.init.of (notedFrom 0 cbs) (St.start params rounds (own, []))).1).1
  have a1' : (each Cb.init (notedFrom 0 cbs) (St.start params rounds (own, []))).2 = none := a1
  have c1' : (each Cb.finish (notedFrom 0 cbs)
    (loop T (notedFrom 0 cbs) rounds 0 (each Cb.init (notedFrom 0 cbs) (St.start params rounds (own, []))).1).1).2 = none := c1
  have hb : loop T (notedFrom 0 cbs) rounds 0 (each Cb.init (notedFrom 0 cbs) (St.start params rounds (own, []))).1 =
      ((loop T (notedFrom 0 cbs) rounds 0 (each Cb.init (notedFrom 0 cbs) (St.start params rounds (own, []))).1).1, .ok ()) := by
    rw [← (show (loop T (notedFrom 0 cbs) rounds 0 (each Cb.init (notedFrom 0 cbs) (St.start params rounds (own, []))).1).2 = _ from b1)]
  have e : (runTrain T (notedFrom 0 cbs) rounds (St.start params rounds (own, []))) =
      ((each Phase.finish.of (notedFrom 0 cbs) (loop T (notedFrom 0 cbs) rounds 0
        (each Phase.init.of (notedFrom 0 cbs) (St.start params rounds (own, []))).1).1).1,
      .ok (each Phase.finish.of (notedFrom 0 cbs) (loop T (notedFrom 0 cbs) rounds 0
        (each Phase.init.of (notedFrom 0 cbs) (St.start params rounds (own, []))).1).1).1.env.booster.finish) := by
    unfold runTrain
    rw [a1']
    dsimp only
    rw [hb]
    dsimp only
    rw [c1']
    rfl
  rw [e]
  refine ⟨⟨_, rfl⟩, ?_⟩
  rw [c4, b3, b2, a4, a3]
  unfold protocol
  simp only [calls, Nat.zero_add]
  by_cases hr : rounds = 0
  · subst hr; simp [St.start]
  · simp [St.start, hr]

/-- **C185** A `CallbackList` behaves exactly like its callbacks given one after the other. -/
theorem callback_list (p : Phase) (pre cbs post : List (Cb S)) (s : S) :
    each p.of (pre ++ callbackList cbs :: post) s = each p.of (pre ++ cbs ++ post) s := by
  have happ : ∀ (xs ys : List (Cb S)) (s : S), each p.of (xs ++ ys) s =
      match (each p.of xs s).2 with
      | some e => ((each p.of xs s).1, some e)
      | none => each p.of ys (each p.of xs s).1 := by
    intro xs
    induction xs with
    | nil => intro ys s; rfl
    | cons c cs ih =>
      intro ys s
      show each p.of (c :: (cs ++ ys)) s = _
      rw [each]
      rcases hc : (p.of c s).2 with _ | e
      · simp only [each, hc]; exact ih ys _
      · simp only [each, hc]
  have hl : ∀ s, each p.of (callbackList cbs :: post) s = each p.of (cbs ++ post) s := by
    intro s
    rw [happ cbs post s, each]
    have : p.of (callbackList cbs) = each p.of cbs := by cases p <;> rfl
    rw [this]
    rcases (each p.of cbs s).2 with _ | e <;> rfl
  rw [happ pre (callbackList cbs :: post), List.append_assoc, happ pre (cbs ++ post)]
  rcases (each p.of pre s).2 with _ | e
  · exact hl _
  · rfl

/-! ## C186: stopping -/

/-- what a call leaves alone: the booster, the stop flag and the iteration; no error -/
def MildCall (f : Call (St α τ κ)) : Prop :=
  ∀ s, (f s).2 = none ∧ (f s).1.env.shouldStop = s.env.shouldStop ∧ (f s).1.env.iteration = s.env.iteration ∧
    (f s).1.env.booster = s.env.booster

/-- a callback that only watches, or keeps notes, or changes the parameter map -/
def Mild (c : Cb (St α τ κ)) : Prop := MildCall c.init ∧ MildCall c.before ∧ MildCall c.after ∧ MildCall c.finish

theorem mild_of (p : Phase) (c : Cb (St α τ κ)) (h : Mild c) : MildCall (p.of c) := by
  obtain ⟨h1, h2, h3, h4⟩ := h
  cases p <;> assumption

theorem each_append (p : Phase) (xs ys : List (Cb S)) : ∀ s : S, (each p.of xs s).2 = none →
    each p.of (xs ++ ys) s = each p.of ys (each p.of xs s).1 := by
  induction xs with
  | nil => intro s _; rfl
  | cons c cs ih =>
    intro s hs
    show each p.of (c :: (cs ++ ys)) s = _
    rw [each] at hs ⊢
    rcases hc : (p.of c s).2 with _ | e
    · rw [hc] at hs
      simp only [each, hc]; exact ih _ hs
    · rw [hc] at hs; cases hs

theorem each_mild (p : Phase) (cbs : List (Cb (St α τ κ))) (h : ∀ c ∈ cbs, Mild c) : MildCall (each p.of cbs) := by
  induction cbs with
  | nil => intro s; simp [each]
  | cons c cs ih =>
    intro s
    obtain ⟨e1, e2, e3, e4⟩ := mild_of p c (h c (by simp)) s
    obtain ⟨i1, i2, i3, i4⟩ := ih (fun c hc => h c (by simp [hc])) (p.of c s).1
    have : each p.of (c :: cs) s = each p.of cs (p.of c s).1 := by rw [each, e1]
    rw [this]
    exact ⟨i1, i2.trans e2, i3.trans e3, i4.trans e4⟩

/-- a callback that asks to stop after iteration `k` -/
def stopAt (k : Nat) : Cb (St α τ κ) :=
  ⟨skip, skip, fun s => if s.env.iteration = k then ({ s with env := { s.env with shouldStop := true } }, none) else (s, none), skip⟩

/-- the calls of mild callbacks around `stopAt k` -/
theorem each_stop (p : Phase) (pre post : List (Cb (St α τ κ))) (h1 : ∀ c ∈ pre, Mild c) (h2 : ∀ c ∈ post, Mild c) (k : Nat)
    (s : St α τ κ) :
    (each p.of (pre ++ stopAt k :: post) s).2 = none ∧
    (each p.of (pre ++ stopAt k :: post) s).1.env.shouldStop =
      (s.env.shouldStop || (decide (p = .after) && decide (s.env.iteration = k))) ∧
    (each p.of (pre ++ stopAt k :: post) s).1.env.iteration = s.env.iteration ∧
    (each p.of (pre ++ stopAt k :: post) s).1.env.booster = s.env.booster := by
  obtain ⟨a1, a2, a3, a4⟩ := each_mild p pre h1 s
  rw [each_append p _ _ _ a1]
  generalize (each p.of pre s).1 = s1 at a2 a3 a4
  have hq : (p.of (stopAt k) s1).2 = none ∧ (p.of (stopAt k) s1).1.env.shouldStop =
      (s1.env.shouldStop || (decide (p = .after) && decide (s1.env.iteration = k))) ∧
      (p.of (stopAt k) s1).1.env.iteration = s1.env.iteration ∧ (p.of (stopAt k) s1).1.env.booster = s1.env.booster := by
    cases p
    · simp [Phase.of, stopAt, skip]
    · simp [Phase.of, stopAt, skip]
    · simp only [Phase.of, stopAt]
      by_cases hk : s1.env.iteration = k <;> simp [hk]
    · simp [Phase.of, stopAt, skip]
  obtain ⟨q1, q2, q3, q4⟩ := hq
  obtain ⟨b1, b2, b3, b4⟩ := each_mild p post h2 (p.of (stopAt k) s1).1
  have : each p.of (stopAt k :: post) s1 = each p.of post (p.of (stopAt k) s1).1 := by rw [each, q1]
  rw [this]
  refine ⟨b1, ?_, b3.trans (q3.trans a3), b4.trans (q4.trans a4)⟩
  rw [b2, q2, a2, a3]

theorem evaluate_keeps (T : Task α τ) (is : List Nat) : ∀ s : St α τ κ,
    (evaluate T is s).1.env.booster.current = s.env.booster.current ∧
    (evaluate T is s).1.env.booster.best = s.env.booster.best ∧
    (evaluate T is s).1.env.booster.model = s.env.booster.model := by
  induction is with
  | nil => intro s; simp [evaluate]
  | cons i is ih =>
    intro s
    rw [evaluate]
    rcases T.score s.env.booster.model i with v | e | p
    · dsimp only
      rcases T.names[i]? with _ | name
      · simp
      · exact ih _
    · simp
    · simp

theorem trainOne_best (T : Task α τ) (s : St α τ κ) : (trainOne T s).1.env.booster.best = s.env.booster.best := by
  unfold trainOne
  rcases s.env.booster.model with _ | m
  · dsimp only
    rcases T.fit with m | e | p <;> simp
  · simp

theorem iterate_stop (T : Task α τ) (hT : T.Works) (pre post : List (Cb (St α τ κ))) (h1 : ∀ c ∈ pre, Mild c)
    (h2 : ∀ c ∈ post, Mild c) (k iter : Nat) (s : St α τ κ) (hi : s.env.iteration = iter) :
    ∃ s', iterate T (pre ++ stopAt k :: post) iter s = (s', .ok ()) ∧
      s'.env.shouldStop = (s.env.shouldStop || decide (iter = k)) ∧ s'.env.booster.current = iter + 1 ∧
      s'.env.booster.best = s.env.booster.best := by
  obtain ⟨a1, a2, a3, a4⟩ := trainOne_works T hT s
  obtain ⟨b1, b2, b3, b4⟩ := evaluate_works T hT (List.range T.sets) (by simp) (trainOne T s).1
  obtain ⟨d1, d2, d3⟩ := evaluate_keeps T (List.range T.sets) (trainOne T s).1
  obtain ⟨c1, c2, c3, c4⟩ := each_stop .after pre post h1 h2 k (evaluate T (List.range T.sets) (trainOne T s).1).1
  have hp : trainOne T s = ((trainOne T s).1, .ok ()) := by rw [← a1]
  have hq : evaluate T (List.range T.sets) (trainOne T s).1 =
      ((evaluate T (List.range T.sets) (trainOne T s).1).1, .ok ()) := by rw [← b1]
  have c1' : (each Cb.after (pre ++ stopAt k :: post) (evaluate T (List.range T.sets) (trainOne T s).1).1).2 = none := c1
  unfold iterate
  rw [hp]
  dsimp only
  rw [hq]
  dsimp only
  rw [c1']
  dsimp only
  refine ⟨_, rfl, ?_, rfl, ?_⟩
  · show (each Phase.after.of (pre ++ stopAt k :: post) (evaluate T (List.range T.sets) (trainOne T s).1).1).1.env.shouldStop = _
    rw [c2, b3, a3, b4, a4, hi]
    simp
  · show (each Phase.after.of (pre ++ stopAt k :: post) (evaluate T (List.range T.sets) (trainOne T s).1).1).1.env.booster.best = _
    rw [c4, d2, trainOne_best]

theorem loop_stop (T : Task α τ) (hT : T.Works) (pre post : List (Cb (St α τ κ))) (h1 : ∀ c ∈ pre, Mild c)
    (h2 : ∀ c ∈ post, Mild c) (k n : Nat) : ∀ (iter : Nat) (s : St α τ κ), s.env.shouldStop = false → iter ≤ k →
    s.env.booster.current = iter → s.env.booster.best = 0 →
    ∃ s', loop T (pre ++ stopAt k :: post) n iter s = (s', .ok ()) ∧
      s'.env.booster.current = min (k + 1) (iter + n) ∧ s'.env.booster.best = 0 := by
  induction n with
  | zero => intro iter s _ hk hc hb; exact ⟨s, rfl, by rw [hc]; omega, hb⟩
  | succ n ih =>
    intro iter s hs hk hc hb
    obtain ⟨c1, c2, c3, c4⟩ := each_stop .before pre post h1 h2 k (s.atIter iter)
    have hbf : runBefore (pre ++ stopAt k :: post) (s.atIter iter) =
        ((each Phase.before.of (pre ++ stopAt k :: post) (s.atIter iter)).1, none) := by
      unfold runBefore
      have c1' : (each Cb.before (pre ++ stopAt k :: post) (s.atIter iter)).2 = none := c1
      rw [c1']
      rfl
    have hst : (each Phase.before.of (pre ++ stopAt k :: post) (s.atIter iter)).1.env.shouldStop = false := by
      rw [c2]; simp [St.atIter, hs]
    obtain ⟨s', e1, e2, e3, e4⟩ := iterate_stop T hT pre post h1 h2 k iter
      (each Phase.before.of (pre ++ stopAt k :: post) (s.atIter iter)).1 (by rw [c3]; rfl)
    have e : loop T (pre ++ stopAt k :: post) (n + 1) iter s = loop T (pre ++ stopAt k :: post) n (iter + 1) s' := by
      rw [loop, hbf]
      dsimp only
      rw [hst]
      simp only [Bool.false_eq_true, if_false]
      rw [e1]
    have hb' : s'.env.booster.best = 0 := by rw [e4, c4]; exact hb
    rw [e]
    by_cases hkk : iter = k
    · -- the next check stops
      have hs' : s'.env.shouldStop = true := by rw [e2, hst]; simp [hkk]
      cases n with
      | zero => exact ⟨s', rfl, by rw [e3]; omega, hb'⟩
      | succ n =>
        obtain ⟨g1, g2, g3, g4⟩ := each_stop .before pre post h1 h2 k (s'.atIter (iter + 1))
        have hbf' : runBefore (pre ++ stopAt k :: post) (s'.atIter (iter + 1)) =
            ((each Phase.before.of (pre ++ stopAt k :: post) (s'.atIter (iter + 1))).1, none) := by
          unfold runBefore
          have g1' : (each Cb.before (pre ++ stopAt k :: post) (s'.atIter (iter + 1))).2 = none := g1
          rw [g1']
          rfl
        refine ⟨(each Phase.before.of (pre ++ stopAt k :: post) (s'.atIter (iter + 1))).1, ?_, ?_, ?_⟩
        · rw [loop, hbf']
          dsimp only
          rw [g2]
          simp [St.atIter, hs']
        · rw [g4]; show s'.env.booster.current = _; rw [e3]; omega
        · rw [g4]; exact hb'
    · obtain ⟨s2, f1, f2, f3⟩ := ih (iter + 1) s' (by rw [e2, hst]; simp [hkk]) (by omega) (by rw [e3]; simp) hb'
      exact ⟨s2, f1, by rw [f2]; omega, f3⟩

/-- **C186 (partial)** A callback that sets `ShouldStop` after iteration `k` ends training after that iteration, whatever
watching callbacks stand before and after it: `Train` returns a booster that has completed `k + 1` iterations, or all of
them if there are fewer. Missing: stopping by returning `ErrEarlyStop` (`early_stop_after_fails`,
`early_stop_before_ignored`). -/
theorem should_stop_partial [Zero α] (T : Task α τ) (hT : T.Works) (pre post : List (Cb (St α τ κ))) (h1 : ∀ c ∈ pre, Mild c)
    (h2 : ∀ c ∈ post, Mild c) (k rounds : Nat) (params : PMap α) (own : κ) :
    ∃ b, (runTrain T (pre ++ stopAt k :: post) rounds (St.start params rounds own)).2 = .ok b ∧
      b.current = min (k + 1) rounds ∧ b.best = min (k + 1) rounds := by
  obtain ⟨a1, a2, a3, a4⟩ := each_stop .init pre post h1 h2 k (St.start params rounds own)
  obtain ⟨s', b1, b2, b3⟩ := loop_stop T hT pre post h1 h2 k rounds 0
    (each Phase.init.of (pre ++ stopAt k :: post) (St.start params rounds own)).1 (by rw [a2]; simp [St.start]) (by omega)
    (by rw [a4]; rfl) (by rw [a4]; rfl)
  obtain ⟨c1, c2, c3, c4⟩ := each_stop .finish pre post h1 h2 k s'
  have a1' : (each Cb.init (pre ++ stopAt k :: post) (St.start params rounds own)).2 = none := a1
  have b1' : loop T (pre ++ stopAt k :: post) rounds 0 (each Cb.init (pre ++ stopAt k :: post) (St.start params rounds own)).1 =
    (s', .ok ()) := b1
  have c1' : (each Cb.finish (pre ++ stopAt k :: post) s').2 = none := c1
  refine ⟨(each Phase.finish.of (pre ++ stopAt k :: post) s').1.env.booster.finish, ?_, ?_, ?_⟩
  · unfold runTrain
    rw [a1']
    dsimp only
    rw [b1']
    dsimp only
    rw [c1']
    rfl
  · rw [c4]; unfold Bst.finish; rw [b3]; simp [b2]
  · rw [c4]; unfold Bst.finish; rw [b3]; simp [b2]

/-- a callback that returns `ErrEarlyStop` before iteration `k` and later -/
def earlyBefore (k : Nat) : Cb (St α τ κ) :=
  ⟨skip, fun s => if k ≤ s.env.iteration then (s, some .earlyStop) else (s, none), skip, skip⟩

/-- a callback that returns `ErrEarlyStop` after iteration `k` -/
def earlyAfter (k : Nat) : Cb (St α τ κ) :=
  ⟨skip, skip, fun s => if s.env.iteration = k then (s, some .earlyStop) else (s, none), skip⟩

theorem iterate_skip (T : Task α τ) (hT : T.Works) (c : Cb (St α τ κ)) (iter : Nat)
    (hc : ∀ s : St α τ κ, s.env.iteration = iter → c.after s = (s, none)) (s : St α τ κ) (hi : s.env.iteration = iter) :
    ∃ s', iterate T [c] iter s = (s', .ok ()) ∧ s'.env.shouldStop = s.env.shouldStop ∧ s'.env.booster.current = iter + 1 ∧
      s'.env.booster.best = s.env.booster.best ∧ s'.env.bestIteration = s.env.bestIteration := by
  obtain ⟨a1, a2, a3, a4⟩ := trainOne_works T hT s
  obtain ⟨b1, b2, b3, b4⟩ := evaluate_works T hT (List.range T.sets) (by simp) (trainOne T s).1
  obtain ⟨d1, d2, d3⟩ := evaluate_keeps T (List.range T.sets) (trainOne T s).1
  have hbi : (evaluate T (List.range T.sets) (trainOne T s).1).1.env.bestIteration = s.env.bestIteration := by
    have h1 : ∀ (is : List Nat) (s : St α τ κ), (evaluate T is s).1.env.bestIteration = s.env.bestIteration := by
      intro is
      induction is with
      | nil => intro s; rfl
      | cons i is ih =>
        intro s
        rw [evaluate]
        rcases T.score s.env.booster.model i with v | e | p
        · dsimp only
          rcases T.names[i]? with _ | name
          · rfl
          · exact ih _
        · rfl
        · rfl
    rw [h1]
    unfold trainOne
    rcases s.env.booster.model with _ | m
    · dsimp only
      rcases T.fit with m | e | p <;> rfl
    · rfl
  have hp : trainOne T s = ((trainOne T s).1, .ok ()) := by rw [← a1]
  have hq : evaluate T (List.range T.sets) (trainOne T s).1 =
      ((evaluate T (List.range T.sets) (trainOne T s).1).1, .ok ()) := by rw [← b1]
  have he : each Cb.after [c] (evaluate T (List.range T.sets) (trainOne T s).1).1 =
      ((evaluate T (List.range T.sets) (trainOne T s).1).1, none) := by
    rw [each, hc _ (by rw [b4, a4, hi])]
    rfl
  unfold iterate
  rw [hp]
  dsimp only
  rw [hq]
  dsimp only
  rw [he]
  dsimp only
  exact ⟨_, rfl, b3.trans a3, rfl, d2.trans (trainOne_best T s), hbi⟩

/-- **C186 is false as stated**: returning `ErrEarlyStop` from `BeforeIteration` stops nothing. However early the callback
asks, all rounds are run. -/
theorem early_stop_before_ignored [Zero α] (T : Task α τ) (hT : T.Works) (k rounds : Nat) (params : PMap α) (own : κ) :
    ∃ b, (runTrain T [earlyBefore k] rounds (St.start params rounds own)).2 = .ok b ∧ b.current = rounds := by
  have hl : ∀ (n iter : Nat) (s : St α τ κ), s.env.shouldStop = false → s.env.booster.current = iter →
      ∃ s', loop T [earlyBefore k] n iter s = (s', .ok ()) ∧ s'.env.booster.current = iter + n := by
    intro n
    induction n with
    | zero => intro iter s _ hc; exact ⟨s, rfl, by simp [hc]⟩
    | succ n ih =>
      intro iter s hs hc
      have hbf : ∃ s1, runBefore [earlyBefore k] (s.atIter iter) = (s1, none) ∧ s1.env.shouldStop = false ∧
          s1.env.iteration = iter := by
        unfold runBefore
        by_cases hk : k ≤ iter
        · have e : each Cb.before [earlyBefore k] (s.atIter iter) = (s.atIter iter, some .earlyStop) := by
            simp [each, earlyBefore, St.atIter, hk]
          rw [e]
          exact ⟨_, rfl, hs, rfl⟩
        · have e : each Cb.before [earlyBefore k] (s.atIter iter) = (s.atIter iter, none) := by
            simp [each, earlyBefore, St.atIter, hk]
          rw [e]
          exact ⟨_, rfl, hs, rfl⟩
      obtain ⟨s1, e1, e2, e3⟩ := hbf
      obtain ⟨s2, f1, f2, f3, f4, f5⟩ := iterate_skip T hT (earlyBefore k) iter (fun s _ => rfl) s1 e3
      obtain ⟨s', g1, g2⟩ := ih (iter + 1) s2 (f2.trans e2) (by rw [f3]; simp)
      refine ⟨s', ?_, by rw [g2]; push_cast; omega⟩
      rw [loop, e1]
      dsimp only
      rw [e2]
      simp only [Bool.false_eq_true, if_false]
      rw [f1]
      exact g1
  obtain ⟨s', h1, h2⟩ := hl rounds 0 (St.start params rounds own) rfl rfl
  refine ⟨s'.env.booster.finish, ?_, ?_⟩
  · have hi : each Cb.init [earlyBefore k] (St.start params rounds own : St α τ κ) = (St.start params rounds own, none) := rfl
    have hf : each Cb.finish [earlyBefore k] s' = (s', none) := rfl
    unfold runTrain
    rw [hi]
    dsimp only
    rw [h1]
    dsimp only
    rw [hf]
  · unfold Bst.finish
    split
    · simpa using h2
    · simpa using h2

/-- **C186 is false as stated**: returning `ErrEarlyStop` from `AfterIteration` makes `Train` fail; the trees built so far
are lost. -/
theorem early_stop_after_fails [Zero α] (T : Task α τ) (hT : T.Works) (k rounds : Nat) (hk : k < rounds) (params : PMap α)
    (own : κ) : ∃ e, (runTrain T [earlyAfter k] rounds (St.start params rounds own)).2 = .err e := by
  have hl : ∀ (n iter : Nat) (s : St α τ κ), s.env.shouldStop = false → iter ≤ k → k < iter + n →
      ∃ s', loop T [earlyAfter k] n iter s = (s', .err (.other "early stopping")) := by
    intro n
    induction n with
    | zero => intro iter s _ h1 h2; omega
    | succ n ih =>
      intro iter s hs h1 h2
      have hbf : runBefore [earlyAfter k] (s.atIter iter) = (s.atIter iter, none) := rfl
      by_cases hi : iter = k
      · obtain ⟨a1, a2, a3, a4⟩ := trainOne_works T hT (s.atIter iter)
        obtain ⟨b1, b2, b3, b4⟩ := evaluate_works T hT (List.range T.sets) (by simp) (trainOne T (s.atIter iter)).1
        have hp : trainOne T (s.atIter iter) = ((trainOne T (s.atIter iter)).1, .ok ()) := by rw [← a1]
        have hq : evaluate T (List.range T.sets) (trainOne T (s.atIter iter)).1 =
            ((evaluate T (List.range T.sets) (trainOne T (s.atIter iter)).1).1, .ok ()) := by rw [← b1]
        have he : each Cb.after [earlyAfter k] (evaluate T (List.range T.sets) (trainOne T (s.atIter iter)).1).1 =
            ((evaluate T (List.range T.sets) (trainOne T (s.atIter iter)).1).1, some .earlyStop) := by
          have : (evaluate T (List.range T.sets) (trainOne T (s.atIter iter)).1).1.env.iteration = k := by
            rw [b4, a4]; exact hi
          simp [each, earlyAfter, this]
        refine ⟨(evaluate T (List.range T.sets) (trainOne T (s.atIter iter)).1).1, ?_⟩
        rw [loop, hbf]
        dsimp only
        rw [show (s.atIter iter).env.shouldStop = false from hs]
        simp only [Bool.false_eq_true, if_false]
        unfold iterate
        rw [hp]
        dsimp only
        rw [hq]
        dsimp only
        rw [he]
        rfl
      · obtain ⟨s2, f1, f2, f3, f4, f5⟩ := iterate_skip T hT (earlyAfter k) iter
          (fun s h => by simp [earlyAfter, h, hi]) (s.atIter iter) rfl
        obtain ⟨s', g1⟩ := ih (iter + 1) s2 (f2.trans hs) (by omega) (by omega)
        refine ⟨s', ?_⟩
        rw [loop, hbf]
        dsimp only
        rw [show (s.atIter iter).env.shouldStop = false from hs]
        simp only [Bool.false_eq_true, if_false]
        rw [f1]
        exact g1
  obtain ⟨s', h1⟩ := hl rounds 0 (St.start params rounds own) rfl (Nat.zero_le _) (by omega)
  refine ⟨.other "early stopping", ?_⟩
  have hi : each Cb.init [earlyAfter k] (St.start params rounds own : St α τ κ) = (St.start params rounds own, none) := rfl
  unfold runTrain
  rw [hi]
  dsimp only
  rw [h1]

end Scigo.Api
