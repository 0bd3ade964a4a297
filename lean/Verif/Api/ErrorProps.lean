import Verif.Api.CallbackProps
import Verif.Api.RecordProps
import Verif.Api.MetricProps
import Verif.Api.ParamProps

/-!
# Errors of callbacks, defaults, the objective `QuickTrain` picks, nothing but the scores recorded
-/

set_option linter.unusedSectionVars false

namespace Scigo.Api

variable {α τ κ : Type}

/-! ## An error of a callback ends the training -/

/-- a callback whose method `p` reports the error `msg` at iteration `k`; otherwise it does nothing -/
def raises (p : Phase) (k : Nat) (msg : String) : Cb (St α τ κ) :=
  let f : Phase → Call (St α τ κ) := fun q s => if q = p ∧ s.env.iteration = k then (s, some (.other msg)) else (s, none)
  ⟨f .init, f .before, f .after, f .finish⟩

theorem raises_of (p q : Phase) (k : Nat) (msg : String) (s : St α τ κ) :
    q.of (raises p k msg) s = if q = p ∧ s.env.iteration = k then (s, some (.other msg)) else (s, none) := by
  cases q <;> rfl

/-- what all the calls of one method do when the callback in the middle may report an error -/
theorem each_raises (p q : Phase) (k : Nat) (msg : String) (pre post : List (Cb (St α τ κ)))
    (h1 : ∀ c ∈ pre, Calm c) (h2 : ∀ c ∈ post, Calm c) (s : St α τ κ) :
    (q = p ∧ s.env.iteration = k → (each q.of (pre ++ raises p k msg :: post) s).2 = some (.other msg)) ∧
    (¬ (q = p ∧ s.env.iteration = k) → (each q.of (pre ++ raises p k msg :: post) s).2 = none ∧
      (each q.of (pre ++ raises p k msg :: post) s).1.env.shouldStop = s.env.shouldStop ∧
      (each q.of (pre ++ raises p k msg :: post) s).1.env.iteration = s.env.iteration) := by
  have calm : ∀ (cs : List (Cb (St α τ κ))), (∀ c ∈ cs, Calm c) → ∀ s : St α τ κ, (each q.of cs s).2 = none ∧
      (each q.of cs s).1.env.shouldStop = s.env.shouldStop ∧ (each q.of cs s).1.env.iteration = s.env.iteration := by
    intro cs
    induction cs with
    | nil => intro _ s; exact ⟨rfl, rfl, rfl⟩
    | cons c cs ih =>
      intro h s
      obtain ⟨e1, e2, e3⟩ := calm_of q c (h c (by simp)) s
      obtain ⟨i1, i2, i3⟩ := ih (fun c hc => h c (by simp [hc])) (q.of c s).1
      rw [each, e1]
      exact ⟨i1, i2.trans e2, i3.trans e3⟩
  induction pre generalizing s with
  | nil =>
    rw [List.nil_append, each, raises_of]
    by_cases hc : q = p ∧ s.env.iteration = k
    · rw [if_pos hc]; exact ⟨fun _ => rfl, fun h => absurd hc h⟩
    · rw [if_neg hc]; exact ⟨fun h => absurd h hc, fun _ => calm post h2 s⟩
  | cons c cs ih =>
    obtain ⟨e1, e2, e3⟩ := calm_of q c (h1 c (by simp)) s
    have := ih (fun c hc => h1 c (by simp [hc])) (q.of c s).1
    rw [List.cons_append, each, e1]
    rw [e2, e3] at this
    exact this

theorem iterate_raises (T : Task α τ) (hT : T.Works) (p : Phase) (k : Nat) (msg : String) (pre post : List (Cb (St α τ κ)))
    (h1 : ∀ c ∈ pre, Calm c) (h2 : ∀ c ∈ post, Calm c) (s : St α τ κ) :
    (p = .after ∧ s.env.iteration = k →
      (iterate T (pre ++ raises p k msg :: post) s.env.iteration s).2 = .err (.other msg)) ∧
    (¬ (p = .after ∧ s.env.iteration = k) →
      (iterate T (pre ++ raises p k msg :: post) s.env.iteration s).2 = .ok () ∧
      (iterate T (pre ++ raises p k msg :: post) s.env.iteration s).1.env.shouldStop = s.env.shouldStop ∧
      (iterate T (pre ++ raises p k msg :: post) s.env.iteration s).1.env.iteration = s.env.iteration) := by
  obtain ⟨a1, a2, a3, a4⟩ := trainOne_works T hT s
  obtain ⟨b1, b2, b3, b4⟩ := evaluate_works T hT (List.range T.sets) (by simp) (trainOne T s).1
  have hp : trainOne T s = ((trainOne T s).1, .ok ()) := by rw [← a1]
  have hq : evaluate T (List.range T.sets) (trainOne T s).1 =
      ((evaluate T (List.range T.sets) (trainOne T s).1).1, .ok ()) := by rw [← b1]
  obtain ⟨c1, c2⟩ := each_raises p .after k msg pre post h1 h2 (evaluate T (List.range T.sets) (trainOne T s).1).1
  rw [b4, a4, eq_comm (a := Phase.after)] at c1 c2
  rw [b3, a3] at c2
  simp only [show Phase.after.of = (Cb.after : Cb (St α τ κ) → Call (St α τ κ)) from rfl] at c1 c2
  unfold iterate
  rw [hp]
  dsimp only
  rw [hq]
  dsimp only
  constructor
  · intro h
    rw [c1 h]
    rfl
  · intro h
    obtain ⟨d1, d2, d3⟩ := c2 h
    rw [d1]
    exact ⟨rfl, d2, d3⟩

/-- the iterations at which a method is called when `rounds` rounds are run -/
def Reached (p : Phase) (k rounds : Nat) : Prop :=
  match p with
  | .init => k = 0
  | .before => k < rounds
  | .after => k < rounds
  | .finish => k = rounds - 1

theorem loop_raises (T : Task α τ) (hT : T.Works) (p : Phase) (k : Nat) (msg : String) (pre post : List (Cb (St α τ κ)))
    (h1 : ∀ c ∈ pre, Calm c) (h2 : ∀ c ∈ post, Calm c) (n : Nat) : ∀ (iter : Nat) (s : St α τ κ), s.env.shouldStop = false →
    ((p = .before ∨ p = .after) ∧ iter ≤ k ∧ k < iter + n →
      (loop T (pre ++ raises p k msg :: post) n iter s).2 = .err (.other msg)) ∧
    (p = .init ∨ p = .finish → (loop T (pre ++ raises p k msg :: post) n iter s).2 = .ok () ∧
      (loop T (pre ++ raises p k msg :: post) n iter s).1.env.iteration = if n = 0 then s.env.iteration else iter + n - 1) := by
  induction n with
  | zero => intro iter s _; exact ⟨fun h => by omega, fun _ => ⟨rfl, rfl⟩⟩
  | succ n ih =>
    intro iter s hs
    obtain ⟨c1, c2⟩ := each_raises p .before k msg pre post h1 h2 (s.atIter iter)
    simp only [show Phase.before.of = (Cb.before : Cb (St α τ κ) → Call (St α τ κ)) from rfl] at c1 c2
    by_cases hb : p = .before ∧ iter = k
    · have hr : (runBefore (pre ++ raises p k msg :: post) (s.atIter iter)).2 = some (.other msg) := by
        unfold runBefore
        rw [c1 ⟨hb.1.symm, hb.2⟩]
      rw [loop, hr]
      refine ⟨fun _ => rfl, fun h => ?_⟩
      rcases h with h | h <;> rw [hb.1] at h <;> cases h
    · obtain ⟨d1, d2, d3⟩ := c2 (fun h => hb ⟨h.1.symm, h.2⟩)
      have hr : runBefore (pre ++ raises p k msg :: post) (s.atIter iter) =
          ((each Cb.before (pre ++ raises p k msg :: post) (s.atIter iter)).1, none) := by
        unfold runBefore
        rw [d1]
      generalize each Cb.before (pre ++ raises p k msg :: post) (s.atIter iter) = e at d1 d2 d3 hr
      have d3' : e.1.env.iteration = iter := d3
      obtain ⟨i1, i2⟩ := iterate_raises T hT p k msg pre post h1 h2 e.1
      rw [d3'] at i1 i2
      rw [loop, hr]
      dsimp only
      rw [d2, show (s.atIter iter).env.shouldStop = false from hs]
      simp only [Bool.false_eq_true, if_false]
      by_cases ha : p = .after ∧ iter = k
      · have := i1 ha
        generalize iterate T (pre ++ raises p k msg :: post) iter e.1 = o at this
        obtain ⟨o1, o2⟩ := o
        simp only at this
        subst this
        refine ⟨fun _ => rfl, fun h => ?_⟩
        rcases h with h | h <;> rw [ha.1] at h <;> cases h
      · obtain ⟨f1, f2, f3⟩ := i2 ha
        generalize iterate T (pre ++ raises p k msg :: post) iter e.1 = o at f1 f2 f3
        obtain ⟨o1, o2⟩ := o
        simp only at f1 f2 f3
        subst f1
        obtain ⟨g1, g2⟩ := ih (iter + 1) o1 (by rw [f2, d2]; exact hs)
        constructor
        · rintro ⟨hp, hk, hk'⟩
          refine g1 ⟨hp, ?_, by omega⟩
          rcases Nat.lt_or_eq_of_le hk with h | h
          · exact h
          · rcases hp with hp | hp
            · exact absurd ⟨hp, h⟩ hb
            · exact absurd ⟨hp, h⟩ ha
        · intro hp
          obtain ⟨q1, q2⟩ := g2 hp
          refine ⟨q1, q2.trans ?_⟩
          rw [f3]
          rw [if_neg (Nat.succ_ne_zero n)]
          split <;> omega

/-- **C215** When a callback reports an error, other than `ErrEarlyStop`, from any of its methods at any iteration
at which the method is called, `Train` returns that error and no booster, whatever well-behaved callbacks stand before and
after it. -/
theorem callback_error_fails [Zero α] (T : Task α τ) (hT : T.Works) (p : Phase) (k : Nat) (msg : String)
    (pre post : List (Cb (St α τ κ))) (h1 : ∀ c ∈ pre, Calm c) (h2 : ∀ c ∈ post, Calm c) (rounds : Nat)
    (hk : Reached p k rounds) (params : PMap α) (own : κ) :
    (runTrain T (pre ++ raises p k msg :: post) rounds (St.start params rounds own)).2 = .err (.other msg) := by
  obtain ⟨c1, c2⟩ := each_raises p .init k msg pre post h1 h2 (St.start params rounds own)
  simp only [show Phase.init.of = (Cb.init : Cb (St α τ κ) → Call (St α τ κ)) from rfl] at c1 c2
  unfold runTrain
  by_cases hi : p = .init
  · subst hi
    rw [c1 ⟨rfl, (show k = 0 from hk).symm⟩]
    rfl
  · obtain ⟨d1, d2, d3⟩ := c2 (fun h => hi h.1.symm)
    rw [d1]
    dsimp only
    obtain ⟨l1, l2⟩ := loop_raises T hT p k msg pre post h1 h2 rounds 0
      (each Cb.init (pre ++ raises p k msg :: post) (St.start params rounds own)).1 d2
    by_cases hf : p = .finish
    · obtain ⟨q1, q2⟩ := l2 (Or.inr hf)
      generalize loop T (pre ++ raises p k msg :: post) rounds 0 _ = o at q1 q2
      obtain ⟨o1, o2⟩ := o
      simp only at q1 q2
      subst q1
      dsimp only
      have hit : o1.env.iteration = k := by
        rw [q2, d3]
        have : k = rounds - 1 := by subst hf; exact hk
        split
        · rename_i h0; subst h0; exact this.symm
        · omega
      have := (each_raises p .finish k msg pre post h1 h2 o1).1 ⟨hf.symm, hit⟩
      simp only [show Phase.finish.of = (Cb.finish : Cb (St α τ κ) → Call (St α τ κ)) from rfl] at this
      rw [this]
      rfl
    · have hp : p = .before ∨ p = .after := by cases p <;> simp_all
      have hk' : k < rounds := by rcases hp with rfl | rfl <;> exact hk
      have q1 := l1 ⟨hp, by omega, by omega⟩
      generalize loop T (pre ++ raises p k msg :: post) rounds 0 _ = o at q1
      obtain ⟨o1, o2⟩ := o
      simp only at q1
      subst q1
      rfl

/-- a failing callback between two others; the same training without it succeeds -/
example : (runTrain (κ := Unit) (⟨.ok (), fun _ => 1, fun _ _ => .ok (0 : Int), "l2", 0, []⟩ : Task Int Unit)
      [resetCb 0 [], raises .before 3 "disk full", resetCb 0 []] 5 (St.start (fun _ => none) 5 ())).2 =
        .err (.other "disk full") ∧
    ((runTrain (κ := Unit) (⟨.ok (), fun _ => 1, fun _ _ => .ok (0 : Int), "l2", 0, []⟩ : Task Int Unit)
      [resetCb 0 [], resetCb 0 []] 5 (St.start (fun _ => none) 5 ())).2.map (fun b => b.current)) = .ok 5 := by
  constructor <;> rfl

/-! ## The defaults -/

/-- the documented defaults (`0.1`, `1e-7` and `1.0` are the literals of the source) -/
def documented (L : PLit α) : List (String × PVal α) :=
  [("num_iterations", .int 100), ("learning_rate", .float L.c01), ("num_leaves", .int 31), ("max_depth", .int (-1)),
    ("min_data_in_leaf", .int 20), ("lambda_l2", .float L.c0), ("lambda_l1", .float L.c0),
    ("min_gain_to_split", .float L.c1em7), ("bagging_fraction", .float L.c1), ("feature_fraction", .float L.c1),
    ("max_bin", .int 255), ("min_data_in_bin", .int 3), ("objective", .str "regression"), ("random_state", .int 0),
    ("seed", .int 0), ("deterministic", .bool false), ("verbosity", .int 1)]

/-- **C180 (partial)** Every parameter that is not given has its documented default, whatever else is given. Missing: as in
`param_used_partial`. -/
theorem param_documented_partial (L : PLit α) (m : PMap α) (name : String) (v : PVal α) (hd : (name, v) ∈ documented L)
    (hv : m name = none) (hs : name = "seed" → m "random_state" = none) (hr : name = "random_state" → m "seed" = none) :
    setting (parseParams L m) name = some v := by
  rw [param_default_partial L m name hv hs hr]
  simp only [documented, List.mem_cons, Prod.mk.injEq, List.not_mem_nil, or_false] at hd
  rcases hd with ⟨rfl, rfl⟩ | ⟨rfl, rfl⟩ | ⟨rfl, rfl⟩ | ⟨rfl, rfl⟩ | ⟨rfl, rfl⟩ | ⟨rfl, rfl⟩ | ⟨rfl, rfl⟩ | ⟨rfl, rfl⟩ |
    ⟨rfl, rfl⟩ | ⟨rfl, rfl⟩ | ⟨rfl, rfl⟩ | ⟨rfl, rfl⟩ | ⟨rfl, rfl⟩ | ⟨rfl, rfl⟩ | ⟨rfl, rfl⟩ | ⟨rfl, rfl⟩ | ⟨rfl, rfl⟩ <;> rfl

/-! ## The objective picked for labels in several columns -/

/-- **C184 (partial)** Labels in several columns: two columns are fitted by a regression, three or more by a multiclass
classifier with as many classes as columns. Missing: as in `quick_binary_partial`. -/
theorem quick_columns_partial [BEq α] [Zero α] [One α] (X y : Mat α) (hX : 0 < X.r) (hXc : 0 < X.c) (hy : y.r = X.r)
    (hyc : 2 ≤ y.c) : ∃ ds p n, quickTrain (some X) (some y) none = .ok (ds, p, n) ∧ n = 100 ∧
      (y.c = 2 → p "objective" = some (.str "regression") ∧ p "num_class" = none) ∧
      (3 ≤ y.c → p "objective" = some (.str "multiclass") ∧ p "num_class" = some (.int y.c)) := by
  unfold quickTrain Dataset.newDataset
  simp only []
  rw [if_neg (by omega)]
  simp only [Dataset.validateLabel]
  rw [if_neg (by simp [hy]), if_neg (by omega)]
  simp only [List.foldl_nil, List.isEmpty_nil, if_true, Outcome.bind]
  by_cases h3 : 3 ≤ y.c
  · have h2 : (2 : Int) < (y.c : Int) := by omega
    simp only [quickParams, quickObjective, Option.getD_none, Option.isSome_none, Bool.false_eq_true, if_false, h2, if_true,
      PMap.put, String.reduceEq]
    exact ⟨_, _, _, rfl, rfl, fun h => by omega, fun _ => ⟨rfl, rfl⟩⟩
  · have h2 : ¬ (2 : Int) < (y.c : Int) := by omega
    simp only [quickParams, quickObjective, Option.getD_none, Option.isSome_none, Bool.false_eq_true, if_false, h2, if_true,
      PMap.put, String.reduceEq]
    exact ⟨_, _, _, rfl, rfl, fun _ => ⟨rfl, rfl⟩, fun h => absurd h h3⟩

/-! ## Nothing but the scores is recorded -/

theorem foldl_put_other (key : Nat → String) (name : Nat → String) (metric : String) (n : Nat) (f : Nat → List α) (r : Rec α)
    (hs : ∀ i < n, splitKey (key i) = (name i, metric)) (d m : String) (h : m ≠ metric ∨ ∀ i < n, name i ≠ d) :
    (hist key n f).foldl Rec.put r d m = r d m := by
  induction n with
  | zero => rfl
  | succ n ih =>
    unfold hist
    rw [List.range_succ, List.map_append, List.foldl_append]
    simp only [List.map_cons, List.map_nil, List.foldl_cons, List.foldl_nil]
    have hk := hs n (by omega)
    have hrest := ih (fun i hi => hs i (by omega)) (h.imp id (fun h i hi => h i (by omega)))
    have hx : ¬ (d = name n ∧ m = metric) := by
      rintro ⟨rfl, rfl⟩
      rcases h with h | h
      · exact h rfl
      · exact h n (by omega) rfl
    unfold Rec.put
    rw [hk]
    split
    · exact hrest
    · simp only [if_neg hx]
      exact hrest

/-- **C187** (nothing else) What the record holds for a name that is no validation set, or for a metric other than the one
evaluated, is what it held before training. -/
theorem record_nothing_else [Zero α] (L : PLit α) (fit : TP α → Outcome τ) (numIteration : τ → Int)
    (score : String → Option τ → Nat → Outcome α) (names : List String) (pre post : List (Cb (St α τ (Rec α × κ))))
    (h1 : ∀ c ∈ pre, Quiet c) (h2 : ∀ c ∈ post, Quiet c) (params : PMap α) (rounds : Nat) (r : Rec α) (own : κ)
    (hne : names ≠ []) (hd : names.Nodup)
    (m : τ) (v : Nat → α) (ho : (parseParams L params).objective ∈ accepted) (hfit : fit (parseParams L params) = .ok m)
    (hscore : ∀ i < names.length, score (parseParams L params).objective (some m) i = .ok (v i)) (d mt : String)
    (hx : d ∉ names ∨ mt ≠ getMetricName (parseParams L params).objective) :
    (train L fit numIteration score names.length names (pre ++ recordCb :: post) params rounds (r, own)).1.own.1 d mt =
      r d mt := by
  obtain ⟨hm, hm0⟩ := metric_plain _ ho
  have hw : (recordCb : Cb (St α τ (Rec α × κ))) = watcher id (fun r _ e => e.foldl Rec.put r) (fun r _ _ => r) := rfl
  rw [hw]
  obtain ⟨hb, hown⟩ := train_watch id (fun (r : Rec α) _ e => e.foldl Rec.put r) (fun r _ _ => r) L fit numIteration score names
    pre post h1 h2 params rounds r own hne hd m v hfit hscore
  rw [hown]
  have hall : ∀ k, (List.range k).foldl (fun (r : Rec α) i =>
      (histories names (getMetricName (parseParams L params).objective) v (i + 1)).foldl Rec.put r) r d mt = r d mt := by
    intro k
    induction k with
    | zero => rfl
    | succ k ih =>
      rw [List.range_succ, List.foldl_append]
      simp only [List.foldl_cons, List.foldl_nil]
      refine Eq.trans ?_ ih
      generalize (List.range k).foldl (fun (r : Rec α) i =>
        (histories names (getMetricName (parseParams L params).objective) v (i + 1)).foldl Rec.put r) r = r'
      unfold histories
      rw [if_neg (by omega)]
      refine foldl_put_other (fun i => evalKey (names.getD i "") (getMetricName (parseParams L params).objective))
        (fun i => names.getD i "") (getMetricName (parseParams L params).objective) names.length
        (fun i => List.replicate (k + 1) (v i)) r' (fun i _ => splitKey_evalKey _ _ hm) d mt ?_
      rcases hx with hx | hx
      · refine Or.inr fun i hi h => hx ?_
        simp only [List.getD, List.getElem?_eq_getElem hi, Option.getD_some] at h
        exact h ▸ List.getElem_mem hi
      · exact Or.inl hx
  exact hall rounds

/-- the record of two sets: the scores under their names, nothing under another metric -/
example : let r := (train (⟨0, 0, 0, 1⟩ : PLit Int) (fun _ => .ok ()) (fun _ => 7) (fun _ _ i => .ok (i + 1 : Int)) 2 ["a-1", "b"]
      [recordCb] (fun _ => none) 2 ((fun _ _ => none : Rec Int), ())).1.own.1
    r "b" "l2" = some [2, 2] ∧ r "a-1" "l2" = some [1, 1] ∧ r "b" "l1" = none ∧ r "a" "l2" = none := by
  decide +kernel

end Scigo.Api
