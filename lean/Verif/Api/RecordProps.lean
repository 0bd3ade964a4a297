import Verif.Api.CallbackProps

/-!
# The recording, resetting and printing callbacks: specification and theorems
-/

set_option linter.unusedSectionVars false

namespace Scigo.Api

variable {α τ κ S : Type}

/-! ## Keys -/

theorem splitRev_spec (ms ds acc : List Char) (hm : '-' ∉ ms) :
    splitRev (ms ++ '-' :: ds) acc = (ds.reverse, ms.reverse ++ acc) := by
  induction ms generalizing acc with
  | nil => simp [splitRev]
  | cons c cs ih =>
    have hc : c ≠ '-' := fun h => hm (by simp [h])
    simp only [List.cons_append, splitRev, hc, if_false]
    rw [ih _ (fun h => hm (by simp [h]))]
    simp

theorem splitKey_evalKey (dataset metric : String) (hm : '-' ∉ metric.toList) :
    splitKey (evalKey dataset metric) = (dataset, metric) := by
  have h : (evalKey dataset metric).toList.reverse = metric.toList.reverse ++ '-' :: dataset.toList.reverse := by
    simp [evalKey]
  unfold splitKey
  rw [h, splitRev_spec _ _ _ (by simpa using hm)]
  simp

theorem evalKey_inj (d d' m : String) (h : evalKey d m = evalKey d' m) : d = d' := by
  have h' := congrArg String.toList h
  simp only [evalKey, String.toList_append] at h'
  have := List.append_cancel_right (List.append_cancel_right h')
  exact String.toList_inj.1 this

/-! ## The histories in the environment -/

/-- the histories of the first `n` validation sets -/
def hist (key : Nat → String) (n : Nat) (f : Nat → List α) : Evals α := (List.range n).map (fun i => (key i, f i))

theorem hist_add_old (key : Nat → String) (n : Nat) (f : Nat → List α) (j : Nat) (hj : j < n)
    (hk : ∀ a < n, ∀ b < n, key a = key b → a = b) (v : α) :
    (hist key n f).add (key j) v = hist key n (fun i => if i = j then f i ++ [v] else f i) := by
  unfold Evals.add
  have h1 : (hist key n f).any (fun e => e.1 == key j) = true := by
    rw [List.any_eq_true]
    exact ⟨(key j, f j), by simp only [hist, List.mem_map, List.mem_range]; exact ⟨j, hj, rfl⟩, by simp⟩
  rw [if_pos h1]
  unfold hist
  rw [List.map_map]
  refine List.map_congr_left fun i hi => ?_
  have hi := List.mem_range.1 hi
  by_cases hij : i = j
  · simp [hij]
  · have : key i ≠ key j := fun h => hij (hk i hi j hj h)
    simp [hij, this]

theorem hist_add_new (key : Nat → String) (n : Nat) (f : Nat → List α) (hk : ∀ a < n, key a ≠ key n) (v : α) :
    (hist key n f).add (key n) v = hist key (n + 1) (fun i => if i = n then [v] else f i) := by
  unfold Evals.add
  have h1 : (hist key n f).any (fun e => e.1 == key n) = false := by
    rw [List.any_eq_false]
    rintro e he
    simp only [hist, List.mem_map, List.mem_range] at he
    obtain ⟨i, hi, rfl⟩ := he
    simpa using hk i hi
  rw [h1]
  simp only [Bool.false_eq_true, if_false, hist, List.range_succ, List.map_append, List.map_cons, List.map_nil, if_true]
  congr 1
  refine List.map_congr_left fun i hi => ?_
  have hi := List.mem_range.1 hi
  simp [Nat.ne_of_lt hi]

theorem foldl_add_first (key : Nat → String) (v : Nat → α) (n : Nat) (hk : ∀ a < n, ∀ b < n, key a = key b → a = b) :
    (List.range n).foldl (fun (m : Evals α) i => m.add (key i) (v i)) [] = hist key n (fun i => [v i]) := by
  induction n with
  | zero => rfl
  | succ n ih =>
    rw [List.range_succ, List.foldl_append, ih (fun a ha b hb => hk a (by omega) b (by omega))]
    simp only [List.foldl_cons, List.foldl_nil]
    rw [hist_add_new key n _ (fun a ha h => absurd (hk a (by omega) n (by omega) h) (by omega))]
    unfold hist
    refine List.map_congr_left fun i _ => ?_
    by_cases h : i = n <;> simp [h]

theorem foldl_add_next (key : Nat → String) (v : Nat → α) (n : Nat) (hk : ∀ a < n, ∀ b < n, key a = key b → a = b)
    (f : Nat → List α) (k : Nat) (hkn : k ≤ n) :
    (List.range k).foldl (fun (m : Evals α) i => m.add (key i) (v i)) (hist key n f) =
      hist key n (fun i => if i < k then f i ++ [v i] else f i) := by
  induction k with
  | zero => simp
  | succ k ih =>
    rw [List.range_succ, List.foldl_append, ih (by omega)]
    simp only [List.foldl_cons, List.foldl_nil]
    rw [hist_add_old key n _ k (by omega) hk]
    unfold hist
    refine List.map_congr_left fun i _ => ?_
    by_cases h : i = k
    · subst h; simp
    · by_cases h' : i < k
      · simp [h, h', Nat.lt_succ_of_lt h']
      · simp [h, h', show ¬ i < k + 1 by omega]

/-- the histories after iteration `j` -/
theorem hist_step (key : Nat → String) (v : Nat → α) (n j : Nat) (hk : ∀ a < n, ∀ b < n, key a = key b → a = b)
    (m : Evals α) (hm : if j = 0 then m = [] else m = hist key n (fun i => List.replicate j (v i))) :
    (List.range n).foldl (fun (m : Evals α) i => m.add (key i) (v i)) m = hist key n (fun i => List.replicate (j + 1) (v i)) := by
  by_cases h : j = 0
  · rw [if_pos h] at hm; subst hm; subst h
    rw [foldl_add_first key v n hk]
    rfl
  · rw [if_neg h] at hm; subst hm
    rw [foldl_add_next key v n hk _ n (Nat.le_refl _)]
    unfold hist
    refine List.map_congr_left fun i hi => ?_
    simp [List.mem_range.1 hi, List.replicate_succ']

/-! ## Watching callbacks -/

/-- a callback that keeps notes in the first part of the callbacks' memory: what it makes of them at the start, after an
iteration and at the end, given the iteration and the histories -/
def watcher {ρ : Type} (atStart : ρ → ρ) (later atEnd : ρ → Nat → Evals α → ρ) : Cb (St α τ (ρ × κ)) :=
  ⟨fun s => ({ s with own := (atStart s.own.1, s.own.2) }, none), skip,
    fun s => ({ s with own := (later s.own.1 s.env.iteration s.env.evals, s.own.2) }, none),
    fun s => ({ s with own := (atEnd s.own.1 s.env.iteration s.env.evals, s.own.2) }, none)⟩

variable {ρ : Type}

/-- a call that leaves alone what the training loop and the notes of the watcher depend on -/
def QuietCall (f : Call (St α τ (ρ × κ))) : Prop :=
  ∀ s, (f s).2 = none ∧ (f s).1.env.shouldStop = s.env.shouldStop ∧ (f s).1.env.evals = s.env.evals ∧
    (f s).1.env.booster.model = s.env.booster.model ∧ (f s).1.own.1 = s.own.1 ∧ (f s).1.env.iteration = s.env.iteration

/-- a callback that only watches, keeps notes of its own or changes the parameter map -/
def Quiet (c : Cb (St α τ (ρ × κ))) : Prop :=
  QuietCall c.init ∧ QuietCall c.before ∧ QuietCall c.after ∧ QuietCall c.finish

theorem quiet_of (p : Phase) (c : Cb (St α τ (ρ × κ))) (h : Quiet c) : QuietCall (p.of c) := by
  obtain ⟨h1, h2, h3, h4⟩ := h
  cases p <;> assumption

theorem each_quiet (p : Phase) (cbs : List (Cb (St α τ (ρ × κ)))) (h : ∀ c ∈ cbs, Quiet c) : QuietCall (each p.of cbs) := by
  induction cbs with
  | nil => intro s; simp [each]
  | cons c cs ih =>
    intro s
    obtain ⟨e1, e2, e3, e4, e5, e6⟩ := quiet_of p c (h c (by simp)) s
    obtain ⟨i1, i2, i3, i4, i5, i6⟩ := ih (fun c hc => h c (by simp [hc])) (p.of c s).1
    have : each p.of (c :: cs) s = each p.of cs (p.of c s).1 := by rw [each, e1]
    rw [this]
    exact ⟨i1, i2.trans e2, i3.trans e3, i4.trans e4, i5.trans e5, i6.trans e6⟩

/-- the notes of the watcher after its call -/
def notes (fi : ρ → ρ) (fa ff : ρ → Nat → Evals α → ρ) (p : Phase) (s : St α τ (ρ × κ)) : ρ :=
  match p with
  | .init => fi s.own.1
  | .before => s.own.1
  | .after => fa s.own.1 s.env.iteration s.env.evals
  | .finish => ff s.own.1 s.env.iteration s.env.evals

/-- the calls of quiet callbacks around the watcher -/
theorem each_watch (fi : ρ → ρ) (fa ff : ρ → Nat → Evals α → ρ) (p : Phase) (pre post : List (Cb (St α τ (ρ × κ))))
    (h1 : ∀ c ∈ pre, Quiet c) (h2 : ∀ c ∈ post, Quiet c) (s : St α τ (ρ × κ)) :
    (each p.of (pre ++ watcher fi fa ff :: post) s).2 = none ∧
    (each p.of (pre ++ watcher fi fa ff :: post) s).1.env.shouldStop = s.env.shouldStop ∧
    (each p.of (pre ++ watcher fi fa ff :: post) s).1.env.evals = s.env.evals ∧
    (each p.of (pre ++ watcher fi fa ff :: post) s).1.env.booster.model = s.env.booster.model ∧
    (each p.of (pre ++ watcher fi fa ff :: post) s).1.own.1 = notes fi fa ff p s ∧
    (each p.of (pre ++ watcher fi fa ff :: post) s).1.env.iteration = s.env.iteration := by
  obtain ⟨a1, a2, a3, a4, a5, a6⟩ := each_quiet p pre h1 s
  rw [each_append p _ _ _ a1]
  generalize (each p.of pre s).1 = s1 at a2 a3 a4 a5 a6
  have hq : (p.of (watcher fi fa ff) s1).2 = none ∧ (p.of (watcher fi fa ff) s1).1.env = s1.env ∧
      (p.of (watcher fi fa ff) s1).1.own.1 = notes fi fa ff p s1 := by
    cases p <;> simp [Phase.of, watcher, skip, notes]
  have hn : notes fi fa ff p s1 = notes fi fa ff p s := by cases p <;> simp only [notes, a3, a5, a6]
  obtain ⟨q1, q2, q3⟩ := hq
  obtain ⟨b1, b2, b3, b4, b5, b6⟩ := each_quiet p post h2 (p.of (watcher fi fa ff) s1).1
  have : each p.of (watcher fi fa ff :: post) s1 = each p.of post (p.of (watcher fi fa ff) s1).1 := by rw [each, q1]
  rw [this]
  refine ⟨b1, ?_, ?_, ?_, ?_, ?_⟩
  · rw [b2, q2, a2]
  · rw [b3, q2, a3]
  · rw [b4, q2, a4]
  · rw [b5, q3, hn]
  · rw [b6, q2, a6]

/-- the score of every validation set for the trained model -/
def Scores (T : Task α τ) (m : τ) (v : Nat → α) (name : Nat → String) : Prop :=
  T.fit = .ok m ∧ ∀ i < T.sets, T.score (some m) i = .ok (v i) ∧ T.names[i]? = some (name i)

theorem evaluate_scores (T : Task α τ) (m : τ) (v : Nat → α) (name : Nat → String) (h : Scores T m v name) (is : List Nat)
    (his : ∀ i ∈ is, i < T.sets) : ∀ s : St α τ κ, s.env.booster.model = some m →
    (evaluate T is s).2 = .ok () ∧ (evaluate T is s).1.own = s.own ∧ (evaluate T is s).1.env.shouldStop = s.env.shouldStop ∧
    (evaluate T is s).1.env.iteration = s.env.iteration ∧
    (evaluate T is s).1.env.booster.model = some m ∧
    (evaluate T is s).1.env.evals = is.foldl (fun (e : Evals α) i => e.add (evalKey (name i) T.metric) (v i)) s.env.evals := by
  induction is with
  | nil => intro s hm; simp [evaluate, hm]
  | cons i is ih =>
    intro s hm
    obtain ⟨h1, h2⟩ := h.2 i (his i (by simp))
    have e : evaluate T (i :: is) s = evaluate T is (s.addScore (evalKey (name i) T.metric) (v i)) := by
      rw [evaluate, hm, h1]
      dsimp only
      rw [h2]
    obtain ⟨a1, a2, a3, a6, a4, a5⟩ := ih (fun j hj => his j (by simp [hj])) (s.addScore (evalKey (name i) T.metric) (v i)) hm
    rw [e]
    exact ⟨a1, a2, a3, a6, a4, a5⟩

/-- the histories of the validation sets after `j` iterations, all of a set's scores being `v i` -/
def histories (names : List String) (metric : String) (v : Nat → α) (j : Nat) : Evals α :=
  if j = 0 then [] else hist (fun i => evalKey (names.getD i "") metric) names.length (fun i => List.replicate j (v i))

/-- the notes after `j` iterations -/
def notesAfter (fi : ρ → ρ) (fa : ρ → Nat → Evals α → ρ) (E : Nat → Evals α) (r : ρ) (j : Nat) : ρ :=
  (List.range j).foldl (fun r i => fa r i (E (i + 1))) (fi r)

/-- what holds of the state after `j` iterations -/
structure Watched (E : Nat → Evals α) (m : τ) (r : ρ) (j : Nat) (s : St α τ (ρ × κ)) : Prop where
  stop : s.env.shouldStop = false
  model : s.env.booster.model = if j = 0 then none else some m
  evals : s.env.evals = E j
  own : s.own.1 = r
  iteration : s.env.iteration = j - 1

theorem loop_watch (fi : ρ → ρ) (fa ff : ρ → Nat → Evals α → ρ) (T : Task α τ) (m : τ) (v : Nat → α)
    (h : Scores T m v (fun i => T.names.getD i "")) (hlen : T.sets = T.names.length)
    (pre post : List (Cb (St α τ (ρ × κ)))) (h1 : ∀ c ∈ pre, Quiet c) (h2 : ∀ c ∈ post, Quiet c)
    (hd : T.names.Nodup) (r : ρ) (n : Nat) : ∀ (j : Nat) (s : St α τ (ρ × κ)),
    Watched (histories T.names T.metric v) m (notesAfter fi fa (histories T.names T.metric v) r j) j s →
    ∃ s', loop T (pre ++ watcher fi fa ff :: post) n j s = (s', .ok ()) ∧
      Watched (histories T.names T.metric v) m (notesAfter fi fa (histories T.names T.metric v) r (j + n)) (j + n) s' := by
  induction n with
  | zero => intro j s hs; exact ⟨s, rfl, hs⟩
  | succ n ih =>
    intro j s hs
    -- the calls before the iteration
    obtain ⟨c1, c2, c3, c4, c5, c6⟩ := each_watch fi fa ff .before pre post h1 h2 (s.atIter j)
    have hbf : runBefore (pre ++ watcher fi fa ff :: post) (s.atIter j) =
        ((each Phase.before.of (pre ++ watcher fi fa ff :: post) (s.atIter j)).1, none) := by
      unfold runBefore
      have c1' : (each Cb.before (pre ++ watcher fi fa ff :: post) (s.atIter j)).2 = none := c1
      rw [c1']
      rfl
    generalize (each Phase.before.of (pre ++ watcher fi fa ff :: post) (s.atIter j)).1 = s1 at c2 c3 c4 c5 c6 hbf
    -- one iteration
    have ht : ∃ s2, trainOne T s1 = (s2, .ok ()) ∧ s2.env.booster.model = some m ∧ s2.own = s1.own ∧
        s2.env.evals = s1.env.evals ∧ s2.env.shouldStop = s1.env.shouldStop ∧ s2.env.iteration = s1.env.iteration := by
      unfold trainOne
      have hmod : s1.env.booster.model = if j = 0 then none else some m := c4.trans hs.model
      by_cases hj : j = 0
      · rw [if_pos hj] at hmod
        rw [hmod, h.1]
        exact ⟨_, rfl, rfl, rfl, rfl, rfl, rfl⟩
      · rw [if_neg hj] at hmod
        rw [hmod]
        exact ⟨_, rfl, hmod, rfl, rfl, rfl, rfl⟩
    obtain ⟨s2, t1, t2, t3, t4, t5, t6⟩ := ht
    obtain ⟨e1, e2, e3, e6, e4, e5⟩ := evaluate_scores T m v (fun i => T.names.getD i "") h (List.range T.sets) (by simp) s2 t2
    have hq : evaluate T (List.range T.sets) s2 = ((evaluate T (List.range T.sets) s2).1, .ok ()) := by rw [← e1]
    generalize (evaluate T (List.range T.sets) s2).1 = s3 at e2 e3 e4 e5 e6 hq
    have hev : s3.env.evals = histories T.names T.metric v (j + 1) := by
      unfold histories
      rw [if_neg (by omega), e5, t4, c3, hlen]
      refine hist_step _ v T.names.length j ?_ _ ?_
      · intro a ha b hb hab
        have hab := evalKey_inj _ _ _ hab
        simp only [List.getD, List.getElem?_eq_getElem ha, List.getElem?_eq_getElem hb, Option.getD_some] at hab
        exact (hd.getElem_inj_iff).1 hab
      · have := hs.evals
        unfold histories at this
        by_cases hj : j = 0
        · rw [if_pos hj] at this ⊢; exact this
        · rw [if_neg hj] at this ⊢; exact this
    obtain ⟨f1, f2, f3, f4, f5, f6⟩ := each_watch fi fa ff .after pre post h1 h2 s3
    have f1' : (each Cb.after (pre ++ watcher fi fa ff :: post) s3).2 = none := f1
    have hit : ∃ s4, iterate T (pre ++ watcher fi fa ff :: post) j s1 = (s4, .ok ()) ∧
        Watched (histories T.names T.metric v) m (notesAfter fi fa (histories T.names T.metric v) r (j + 1)) (j + 1) s4 := by
      unfold iterate
      rw [t1]
      dsimp only
      rw [hq]
      dsimp only
      rw [f1']
      refine ⟨_, rfl, ?_, ?_, ?_, ?_, ?_⟩
      · show (each Phase.after.of (pre ++ watcher fi fa ff :: post) s3).1.env.shouldStop = _
        rw [f2, e3, t5, c2]
        exact hs.stop
      · show (each Phase.after.of (pre ++ watcher fi fa ff :: post) s3).1.env.booster.model = _
        rw [f4, e4]
        simp
      · show (each Phase.after.of (pre ++ watcher fi fa ff :: post) s3).1.env.evals = _
        rw [f3, hev]
      · show (each Phase.after.of (pre ++ watcher fi fa ff :: post) s3).1.own.1 = _
        rw [f5]
        show fa s3.own.1 s3.env.iteration s3.env.evals = _
        rw [hev, e6, t6, c6, e2, t3, c5]
        show fa s.own.1 j _ = _
        rw [hs.own]
        unfold notesAfter
        rw [List.range_succ, List.foldl_append]
        rfl
      · show (each Phase.after.of (pre ++ watcher fi fa ff :: post) s3).1.env.iteration = _
        rw [f6, e6, t6, c6]
        rfl
    obtain ⟨s4, g1, g2⟩ := hit
    obtain ⟨s', k1, k2⟩ := ih (j + 1) s4 g2
    refine ⟨s', ?_, by rw [show j + (n + 1) = j + 1 + n by omega]; exact k2⟩
    rw [loop, hbf]
    dsimp only
    rw [c2, show (s.atIter j).env.shouldStop = false from hs.stop]
    simp only [Bool.false_eq_true, if_false]
    rw [g1]
    exact k1

/-- a whole training with a watching callback among quiet ones -/
theorem train_watch [Zero α] (fi : ρ → ρ) (fa ff : ρ → Nat → Evals α → ρ) (L : PLit α) (fit : TP α → Outcome τ)
    (numIteration : τ → Int)
    (score : String → Option τ → Nat → Outcome α) (names : List String) (pre post : List (Cb (St α τ (ρ × κ))))
    (h1 : ∀ c ∈ pre, Quiet c) (h2 : ∀ c ∈ post, Quiet c) (params : PMap α) (rounds : Nat) (r : ρ) (own : κ)
    (hne : names ≠ []) (hd : names.Nodup)
    (m : τ) (v : Nat → α) (hfit : fit (parseParams L params) = .ok m)
    (hscore : ∀ i < names.length, score (parseParams L params).objective (some m) i = .ok (v i)) :
    (∃ b, (train L fit numIteration score names.length names (pre ++ watcher fi fa ff :: post) params rounds (r, own)).2 =
      .ok b) ∧
    (train L fit numIteration score names.length names (pre ++ watcher fi fa ff :: post) params rounds (r, own)).1.own.1 =
      ff (notesAfter fi fa (histories names (getMetricName (parseParams L params).objective) v) r rounds) (rounds - 1)
        (histories names (getMetricName (parseParams L params).objective) v rounds) := by
  have hdef : defaultNames names names.length = names := by
    unfold defaultNames
    rw [if_neg (by simpa using hne)]
  unfold train
  rw [hdef]
  set T : Task α τ := ⟨fit (parseParams L params), numIteration, score (parseParams L params).objective,
    getMetricName (parseParams L params).objective, names.length, names⟩ with hT
  have hS : Scores T m v (fun i => T.names.getD i "") := by
    refine ⟨hfit, fun i hi => ⟨hscore i hi, ?_⟩⟩
    have hi' : i < names.length := hi
    show names[i]? = some (names.getD i "")
    simp [List.getD, List.getElem?_eq_getElem hi']
  obtain ⟨a1, a2, a3, a4, a5, a6⟩ := each_watch fi fa ff .init pre post h1 h2 (St.start params rounds (r, own) : St α τ (ρ × κ))
  have a1' : (each Cb.init (pre ++ watcher fi fa ff :: post) (St.start params rounds (r, own) : St α τ (ρ × κ))).2 = none := a1
  have hstart : Watched (histories T.names T.metric v) m (notesAfter fi fa (histories T.names T.metric v) r 0) 0
      (each Phase.init.of (pre ++ watcher fi fa ff :: post) (St.start params rounds (r, own))).1 :=
    ⟨by rw [a2]; rfl, by rw [a4]; rfl, by rw [a3]; rfl, by rw [a5]; rfl, by rw [a6]; rfl⟩
  obtain ⟨s', b1, b2⟩ := loop_watch fi fa ff T m v hS rfl pre post h1 h2 hd r rounds 0 _ hstart
  have b1' : loop T (pre ++ watcher fi fa ff :: post) rounds 0
    (each Cb.init (pre ++ watcher fi fa ff :: post) (St.start params rounds (r, own))).1 = (s', .ok ()) := b1
  obtain ⟨c1, c2, c3, c4, c5, c6⟩ := each_watch fi fa ff .finish pre post h1 h2 s'
  have c1' : (each Cb.finish (pre ++ watcher fi fa ff :: post) s').2 = none := c1
  have e : runTrain T (pre ++ watcher fi fa ff :: post) rounds (St.start params rounds (r, own)) =
      ((each Phase.finish.of (pre ++ watcher fi fa ff :: post) s').1,
        .ok (each Phase.finish.of (pre ++ watcher fi fa ff :: post) s').1.env.booster.finish) := by
    unfold runTrain
    rw [a1']
    dsimp only
    rw [b1']
    dsimp only
    rw [c1']
    rfl
  rw [e]
  refine ⟨⟨_, rfl⟩, ?_⟩
  show (each Phase.finish.of (pre ++ watcher fi fa ff :: post) s').1.own.1 = _
  rw [c5]
  show ff s'.own.1 s'.env.iteration s'.env.evals = _
  rw [b2.own, b2.evals, b2.iteration, Nat.zero_add]

/-! ## C187: the record -/

theorem foldl_put (key : Nat → String) (name : Nat → String) (metric : String) (n : Nat) (f : Nat → List α) (r : Rec α)
    (hs : ∀ i < n, splitKey (key i) = (name i, metric)) (hne : ∀ i < n, name i ≠ "") (hm : metric ≠ "")
    (hd : ∀ a < n, ∀ b < n, name a = name b → a = b) (i : Nat) (hi : i < n) :
    (hist key n f).foldl Rec.put r (name i) metric = some (f i) := by
  induction n with
  | zero => omega
  | succ n ih =>
    unfold hist
    rw [List.range_succ, List.map_append, List.foldl_append]
    simp only [List.map_cons, List.map_nil, List.foldl_cons, List.foldl_nil]
    have hk := hs n (by omega)
    unfold Rec.put
    rw [hk]
    simp only [hne n (by omega), hm, or_self, if_false]
    by_cases h : i = n
    · subst h; simp
    · have hnn : name i ≠ name n := fun hh => h (hd i hi n (by omega) hh)
      simp only [hnn, false_and, if_false]
      exact ih (fun i hi => hs i (by omega)) (fun i hi => hne i (by omega)) (fun a ha b hb => hd a (by omega) b (by omega)) (by omega)

/-- the objectives the trainer accepts -/
def accepted : List String :=
  ["regression", "regression_l2", "l2", "mean_squared_error", "mse", "regression_l1", "l1", "mean_absolute_error", "mae",
    "huber", "fair", "poisson", "quantile", "gamma", "tweedie", "lambdarank", "rank_xendcg", "binary", "binary_logloss",
    "logistic", "multiclass", "softmax", "multiclassova", "multiclass_logloss"]

theorem metric_plain (objective : String) (h : objective ∈ accepted) :
    '-' ∉ (getMetricName objective).toList ∧ getMetricName objective ≠ "" := by
  have : ∀ o ∈ accepted, '-' ∉ (getMetricName o).toList ∧ getMetricName o ≠ "" := by decide
  exact this objective h

/-- **C187** With an objective the trainer accepts and validation sets of different, non-empty names, the record made by
`NewRecordEvaluationCallback` holds after training, for every validation set, the score of every iteration under the name
of the set and of the metric. Watching callbacks may stand before and after it. (All scores of a set are equal, because all
trees are built in the first iteration.) -/
theorem record_complete [Zero α] (L : PLit α) (fit : TP α → Outcome τ) (numIteration : τ → Int)
    (score : String → Option τ → Nat → Outcome α) (names : List String) (pre post : List (Cb (St α τ (Rec α × κ))))
    (h1 : ∀ c ∈ pre, Quiet c) (h2 : ∀ c ∈ post, Quiet c) (params : PMap α) (rounds : Nat) (hr : 0 < rounds) (r : Rec α) (own : κ)
    (hne : names ≠ []) (hempty : ∀ n ∈ names, n ≠ "") (hd : names.Nodup)
    (m : τ) (v : Nat → α) (ho : (parseParams L params).objective ∈ accepted) (hfit : fit (parseParams L params) = .ok m)
    (hscore : ∀ i < names.length, score (parseParams L params).objective (some m) i = .ok (v i)) :
    (∃ b, (train L fit numIteration score names.length names (pre ++ recordCb :: post) params rounds (r, own)).2 = .ok b) ∧
    ∀ i, (hi : i < names.length) →
      (train L fit numIteration score names.length names (pre ++ recordCb :: post) params rounds (r, own)).1.own.1 names[i]
        (getMetricName (parseParams L params).objective) = some (List.replicate rounds (v i)) := by
  obtain ⟨hm, hm0⟩ := metric_plain _ ho
  have hw : (recordCb : Cb (St α τ (Rec α × κ))) = watcher id (fun r _ e => e.foldl Rec.put r) (fun r _ _ => r) := rfl
  rw [hw]
  obtain ⟨hb, hown⟩ := train_watch id (fun (r : Rec α) _ e => e.foldl Rec.put r) (fun r _ _ => r) L fit numIteration score names
    pre post h1 h2 params rounds r own hne hd m v hfit hscore
  refine ⟨hb, fun i hi => ?_⟩
  rw [hown]
  obtain ⟨k, rfl⟩ : ∃ k, rounds = k + 1 := ⟨rounds - 1, by omega⟩
  unfold notesAfter
  rw [List.range_succ, List.foldl_append]
  simp only [List.foldl_cons, List.foldl_nil]
  unfold histories
  rw [if_neg (by omega)]
  have := foldl_put (fun i => evalKey (names.getD i "") (getMetricName (parseParams L params).objective))
    (fun i => names.getD i "") (getMetricName (parseParams L params).objective) names.length
    (fun i => List.replicate (k + 1) (v i))
    ((List.range k).foldl (fun (r : Rec α) i => (histories names (getMetricName (parseParams L params).objective) v (i + 1)).foldl
      Rec.put r) (id r))
    (fun i _ => splitKey_evalKey _ _ hm)
    (fun i hi => by
      simp only [List.getD, List.getElem?_eq_getElem hi, Option.getD_some]
      exact hempty _ (List.getElem_mem hi)) hm0
    (fun a ha b hb hab => by
      simp only [List.getD, List.getElem?_eq_getElem ha, List.getElem?_eq_getElem hb, Option.getD_some] at hab
      exact (hd.getElem_inj_iff).1 hab) i hi
  simp only [List.getD, List.getElem?_eq_getElem hi, Option.getD_some] at this
  exact this

end Scigo.Api
