import Verif.ParamMap.Builders
import Verif.ParamMap.Props

/-!
# C268: `With…` methods set what `GetParams` reports
-/

namespace Scigo.ParamMap

variable {α : Type}

/-! ## Specification -/

/-- specification: the name under which `GetParams` of a regressor reports what the call sets, and the value -/
def With.regressor : With α → Option (String × Val α)
  | .numLeaves n => some ("num_leaves", .int n)
  | .maxDepth d => some ("max_depth", .int d)
  | .learningRate lr => some ("learning_rate", .float lr)
  | .numIterations n => some ("n_estimators", .int n)
  | .randomState seed => some ("random_state", .int seed)
  | .deterministic det => some ("deterministic", .bool det)
  | .objective obj => some ("objective", .str obj)
  | .earlyStopping rounds => some ("early_stopping_rounds", .int rounds)
  | .progressBar => none
  | .tweedieVariancePower _ => none

/-- specification: the same for a classifier, whose `GetParams` does not report early stopping -/
def With.classifier : With α → Option (String × Val α)
  | .numLeaves n => some ("num_leaves", .int n)
  | .maxDepth d => some ("max_depth", .int d)
  | .learningRate lr => some ("learning_rate", .float lr)
  | .numIterations n => some ("n_estimators", .int n)
  | .randomState seed => some ("random_state", .int seed)
  | .deterministic det => some ("deterministic", .bool det)
  | _ => none

/-- specification: the value of the last call that sets `k` -/
def lastCall (shows : With α → Option (String × Val α)) (calls : List (With α)) (k : String) : Option (Val α) :=
  (((calls.filterMap shows).filter fun s => s.1 == k).getLast?).map (·.2)

/-! ## Lemmas -/

theorem lastCall_cons (shows : With α → Option (String × Val α)) (w : With α) (ws : List (With α)) (k : String) :
    lastCall shows (w :: ws) k =
      (lastCall shows ws k).or (match shows w with | some s => if s.1 = k then some s.2 else none | none => none) := by
  unfold lastCall
  cases hs : shows w with
  | none => simp [hs]
  | some s =>
    rw [List.filterMap_cons_some hs, List.filter_cons]
    dsimp only
    by_cases e : s.1 = k
    · rw [if_pos (beq_iff_eq.2 e), if_pos e, List.getLast?_cons]
      cases (List.filter (fun s => s.1 == k) (List.filterMap shows ws)).getLast? <;> rfl
    · rw [if_neg (fun h => e (beq_iff_eq.1 h)), if_neg e, Option.or_none]

/-- what one call does to the reported values -/
theorem call_row (e : Estimator α) (w : With α) (r : Row) (hr : r ∈ rows) :
    lookup (e.call w).params.goParams r.go =
      match w.regressor with
      | some s => if s.1 = r.canonical then some s.2 else lookup e.params.goParams r.go
      | none => lookup e.params.goParams r.go := by
  simp only [rows, List.mem_cons, List.mem_nil_iff, or_false] at hr
  rcases hr with rfl | rfl | rfl | rfl | rfl | rfl | rfl | rfl | rfl | rfl | rfl | rfl | rfl | rfl | rfl | rfl | rfl | rfl | rfl | rfl <;>
    cases w <;> simp [Row.go, Estimator.call, With.regressor, Params.goParams, lookup_cons]

theorem regressor_canonical (w : With α) (s : String × Val α) (h : w.regressor = some s) : ∃ r ∈ rows, r.canonical = s.1 := by
  have hm : ∀ k ∈ ["num_leaves", "max_depth", "learning_rate", "n_estimators", "random_state", "deterministic", "objective",
      "early_stopping_rounds"], ∃ r ∈ rows, r.canonical = k := by decide +kernel
  apply hm
  cases w <;> simp [With.regressor] at h <;> subst h <;> simp

/-- an entry of a map is replaced -/
theorem lookup_replace {V : Type} (l r : List (String × V)) (key k : String) (v w : V) (h : lookup l key = none) :
    lookup (l ++ (key, v) :: r) k = if key = k then some v else lookup (l ++ (key, w) :: r) k := by
  induction l with
  | nil =>
    simp only [List.nil_append, lookup_cons]
    split <;> rfl
  | cons p l ih =>
    rw [lookup_cons] at h
    simp only [List.cons_append, lookup_cons]
    by_cases e : p.1 = key
    · rw [if_pos e] at h; cases h
    · rw [if_neg e] at h
      rw [ih h]
      by_cases e' : p.1 = k
      · have : key ≠ k := fun h' => e (e'.trans h'.symm)
        rw [if_pos e', if_neg this, if_pos e']
      · rw [if_neg e', if_neg e']

/-- the entries of a classifier's map after one call -/
theorem callClassifier_lookup (e e' : Estimator α) (w : With α) (h : e.callClassifier w = some e') (k : String) :
    lookup e'.params.classifierParams k =
      match w.classifier with
      | some s => if s.1 = k then some s.2 else lookup e.params.classifierParams k
      | none => lookup e.params.classifierParams k := by
  cases w <;> simp only [Estimator.callClassifier, Option.some.injEq, reduceCtorEq] at h <;> subst h
  · exact lookup_replace [] _ _ _ _ _ rfl
  · exact lookup_replace [_] _ _ _ _ _ rfl
  · exact lookup_replace [_, _] _ _ _ _ _ rfl
  · exact lookup_replace [_, _, _] _ _ _ _ _ rfl
  · exact lookup_replace [_, _, _, _, _, _, _, _, _, _, _] _ _ _ _ _ rfl
  · exact lookup_replace [_, _, _, _, _, _, _, _, _, _, _, _, _, _, _] _ _ _ _ _ rfl
  · rfl
  · rfl

/-! ## C268 -/

/-- **C268**: after any chain of `With…` calls on a regressor, `GetParams` reports under each name the value of the last call
that sets it, and what it reported before if none does; the maps may be visited in any order. -/
theorem regressor_with_reports (lower : String → String) (e : Estimator α) (calls : List (With α)) (m m' : List (String × Val α))
    (hm : e.params.GetParams lower m) (hm' : (e.chain calls).params.GetParams lower m') (k : String) :
    lookup m' k = (lastCall With.regressor calls k).or (lookup m k) := by
  obtain ⟨g1, g2⟩ := getParams_lookup lower _ m hm
  obtain ⟨g1', g2'⟩ := getParams_lookup lower _ m' hm'
  by_cases hk : ∃ r ∈ rows, r.canonical = k
  · obtain ⟨r, hr, rfl⟩ := hk
    rw [g1 r hr, g1' r hr]
    clear hm hm' g1 g2 g1' g2'
    induction calls generalizing e with
    | nil => rfl
    | cons w ws ih =>
      show lookup ((e.call w).chain ws).params.goParams r.go = _
      rw [ih, call_row e w r hr, lastCall_cons]
      cases lastCall With.regressor ws r.canonical with
      | some v => rfl
      | none =>
        cases w.regressor with
        | none => rfl
        | some s => simp only [Option.none_or]; split <;> rfl
  · have hk' : ∀ r ∈ rows, r.canonical ≠ k := fun r hr h => hk ⟨r, hr, h⟩
    rw [g2 k hk', g2' k hk', Option.or_none]
    have : (calls.filterMap With.regressor).filter (fun s => s.1 == k) = [] := by
      rw [List.filter_eq_nil_iff]
      intro s hs h
      obtain ⟨w, -, hw⟩ := List.mem_filterMap.1 hs
      obtain ⟨r, hr, h'⟩ := regressor_canonical w s hw
      exact hk' r hr (h'.trans (beq_iff_eq.1 h))
    unfold lastCall
    rw [this]
    rfl

/-- **C268**: the same for a classifier -/
theorem classifier_with_reports (e e' : Estimator α) (calls : List (With α)) (h : e.chainClassifier calls = some e') (k : String) :
    lookup e'.params.classifierParams k = (lastCall With.classifier calls k).or (lookup e.params.classifierParams k) := by
  induction calls generalizing e with
  | nil =>
    obtain rfl : e = e' := by injection h
    rfl
  | cons w ws ih =>
    rw [Estimator.chainClassifier] at h
    cases hw : e.callClassifier w with
    | none => rw [hw] at h; cases h
    | some e1 =>
      rw [hw] at h
      rw [ih e1 h, callClassifier_lookup e e1 w hw k, lastCall_cons]
      cases lastCall With.classifier ws k with
      | some v => rfl
      | none =>
        cases w.classifier with
        | none => rfl
        | some s => simp only [Option.none_or]; split <;> rfl

/-- **C268**: a chain of calls the classifier has does to it what it does to a regressor, and there is a result exactly if no
call sets the objective or the Tweedie power -/
theorem classifier_like_regressor (e : Estimator α) (calls : List (With α)) :
    (∀ e', e.chainClassifier calls = some e' → e' = e.chain calls) ∧
      ((e.chainClassifier calls).isSome = true ↔
        ∀ w ∈ calls, (∀ s, w ≠ .objective s) ∧ ∀ p, w ≠ .tweedieVariancePower p) := by
  induction calls generalizing e with
  | nil => exact ⟨fun e' h => by injection h with h; exact h.symm, by simp [Estimator.chainClassifier]⟩
  | cons w ws ih =>
    rw [List.forall_mem_cons]
    cases w <;> (first
      | exact ⟨fun e' h => (ih _).1 e' h, ⟨fun h => ⟨⟨fun _ => by simp, fun _ => by simp⟩, (ih _).2.1 h⟩, fun h => (ih _).2.2 h.2⟩⟩
      | exact ⟨fun e' h => by simp [Estimator.chainClassifier, Estimator.callClassifier] at h,
          ⟨fun h => by simp [Estimator.chainClassifier, Estimator.callClassifier] at h, fun h => by simp at h⟩⟩)

/-- **C268**: the two settings `GetParams` does not report: progress is shown if it was or a call asks for it, and the Tweedie
power and the number of early stopping rounds are those of the last call -/
theorem hidden_settings (e : Estimator α) (calls : List (With α)) :
    ((e.chain calls).showProgress = true ↔ e.showProgress = true ∨ With.progressBar ∈ calls) ∧
    (e.chain calls).tweedieVariancePower =
      ((calls.filterMap (fun w => match w with | .tweedieVariancePower p => some p | _ => none)).getLast?).getD e.tweedieVariancePower ∧
    (e.chain calls).params.earlyStopping =
      ((calls.filterMap (fun w => match w with | .earlyStopping n => some n | _ => none)).getLast?).getD e.params.earlyStopping := by
  induction calls generalizing e with
  | nil => simp [Estimator.chain]
  | cons w ws ih =>
    have h := ih (e.call w)
    have e0 : e.chain (w :: ws) = (e.call w).chain ws := rfl
    rw [e0]
    refine ⟨h.1.trans ?_, h.2.1.trans ?_, h.2.2.trans ?_⟩
    · cases w <;> simp [Estimator.call]
    · cases w <;> simp [Estimator.call, List.getLast?_cons]
    · cases w <;> simp [Estimator.call, List.getLast?_cons]

/-- **C268** (partial): setting a value by a `With…` call and by `SetParams`, under any of its names, gives the same
hyperparameters. Missing: objectives, of which `SetParams` stores the canonical name (`objective_not_normalised`). -/
theorem with_like_set_partial (lower : String → String) (e : Estimator α) (w : With α) (s : String × Val α) (hs : w.regressor = some s)
    (ho : ∀ o, w = .objective o → normObjective lower o = o) (r : Row) (hr : r ∈ rows) (hc : r.canonical = s.1) (n : String)
    (hn : n ∈ r.names) (p' : Params α) (h : e.params.SetParams lower [(n, s.2)] p') : p' = (e.call w).params := by
  have hnr : NoRepeats [(n, s.2)] := by
    refine ⟨by simp, fun r _ a ha b hb _ _ => ?_⟩
    rw [List.mem_singleton] at ha hb
    rw [ha, hb]
  obtain ⟨⟨-, -⟩, m, hm⟩ := setParams_exists lower e.params [(n, s.2)]
  obtain ⟨-, m', hm'⟩ := setParams_exists lower p' ([] : List (String × Val α))
  obtain ⟨h1, h2, h3, -⟩ := setParams_getParams lower e.params p' _ m m' hnr h hm hm'
  apply goParams_ext
  intro q hq
  rw [← (getParams_lookup lower p' m' hm').1 q hq, call_row e w q hq, hs]
  dsimp only
  by_cases hqr : q = r
  · subst hqr
    rw [if_pos hc.symm]
    have hk : s.2.hasKind q.kind = true ∧ (q.store lower s.2 : Val α) = s.2 := by
      simp only [rows, List.mem_cons, List.mem_nil_iff, or_false] at hq
      rcases hq with rfl | rfl | rfl | rfl | rfl | rfl | rfl | rfl | rfl | rfl | rfl | rfl | rfl | rfl | rfl | rfl | rfl | rfl | rfl | rfl <;>
        cases w <;> simp [With.regressor] at hs <;> subst hs <;> simp at hc <;> simp [Val.hasKind, Row.store] <;> exact ho _ rfl
    rw [h1 q hr (n, s.2) (by simp) hn hk.1, hk.2]
  · have hcq : s.1 ≠ q.canonical := by
      intro hce
      have hi := List.inj_on_of_nodup_map canonical_nodup hr hq (hc.trans hce)
      exact hqr hi.symm
    rw [if_neg hcq, h3 q hq ?_]
    · exact (getParams_lookup lower e.params m hm).1 q hq
    · intro a ha
      rw [List.mem_singleton] at ha
      subst ha
      intro hmem
      exact hqr (names_disjoint q hq r hr n hmem hn)

/-- **C268**: `SetParams` with the objective `mse` stores another objective than `WithObjective("mse")` does -/
theorem objective_not_normalised (e : Estimator α) (p' : Params α) (h : e.params.SetParams id [("objective", .str "mse")] p') :
    p'.objective ≠ (e.call (.objective "mse")).params.objective := by
  have hne : normObjective id "mse" ≠ "mse" := by decide +kernel
  have hr : (⟨"objective", .str, ["objective", "objective_type", "app", "application", "loss", "Objective"]⟩ : Row) ∈ rows := by
    decide +kernel
  have hnr : NoRepeats [("objective", (.str "mse" : Val α))] := by
    refine ⟨by simp, fun r _ a ha b hb _ _ => ?_⟩
    rw [List.mem_singleton] at ha hb
    rw [ha, hb]
  obtain ⟨⟨-, -⟩, m, hm⟩ := setParams_exists id e.params [("objective", (.str "mse" : Val α))]
  obtain ⟨-, m', hm'⟩ := setParams_exists id p' ([] : List (String × Val α))
  have h1 := (setParams_getParams id e.params p' _ m m' hnr h hm hm').1 _ hr ("objective", .str "mse") (by simp) (by simp) rfl
  rw [(getParams_lookup id p' m' hm').1 _ hr] at h1
  have h2 : lookup p'.goParams "Objective" = some (.str p'.objective) := by simp [Params.goParams, lookup_cons]
  have h3 : some (Val.str p'.objective : Val α) = some (.str (normObjective id "mse")) := h2.symm.trans (h1.trans (by simp [Row.store]))
  have h4 : p'.objective = normObjective id "mse" := by
    injection h3 with h3
    injection h3
  rw [h4]
  exact hne

/-! ### A concrete case -/

/-- an estimator with rates counted in hundredths -/
def exEstimator : Estimator Int :=
  ⟨⟨31, -1, 10, 100, 20, 0, 100, 0, 100, 0, 0, 42, "regression", "", -1, false, -1, 0, "gbdt", "gain"⟩, false, 150⟩

example (m' : List (String × Val Int))
    (h : (exEstimator.chain [.numLeaves 7, .learningRate 5, .progressBar, .numLeaves 15]).params.GetParams id m') :
    lookup m' "num_leaves" = some (.int 15) ∧ lookup m' "learning_rate" = some (.float 5) ∧ lookup m' "max_depth" = some (.int (-1)) := by
  have hm : exEstimator.params.GetParams id _ := .mk _ (List.Perm.refl _)
  refine ⟨?_, ?_, ?_⟩ <;> rw [regressor_with_reports id exEstimator _ _ m' hm h] <;> decide +kernel

example : ∃ e', exEstimator.chainClassifier [.maxDepth 4, .earlyStopping 3] = some e' ∧
    lookup e'.params.classifierParams "max_depth" = some (.int 4) ∧ e'.params.earlyStopping = 3 :=
  ⟨_, rfl, (classifier_with_reports exEstimator _ [.maxDepth 4, .earlyStopping 3] rfl "max_depth").trans (by decide +kernel), rfl⟩

example (p' : Params Int) (h : exEstimator.params.SetParams id [("num_round", .int 9)] p') : p'.numIterations = 9 :=
  congrArg Params.numIterations (with_like_set_partial id exEstimator (.numIterations 9) ("n_estimators", .int 9) rfl
    (fun _ h => by cases h) ⟨"n_estimators", .int, ["n_estimators", "num_iterations", "num_iteration", "num_tree", "num_trees",
      "num_round", "num_rounds", "num_boost_round", "n_iter", "NumIterations"]⟩ (by decide +kernel) rfl "num_round"
    (by decide +kernel) p' h)

end Scigo.ParamMap
