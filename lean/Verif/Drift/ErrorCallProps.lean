import Verif.Drift.Props

/-!
# C339: `UpdateWithError` and `UpdateWithPrediction` of the drift detector
-/

set_option linter.unusedSectionVars false

namespace Scigo.Drift

variable {K : Type} [Field K] [LinearOrder K] [IsStrictOrderedRing K]

/-! ## Specification -/

/-- the calls of the three update methods and `Reset` (cf. sklearn/drift/ddm.go:85-177) -/
inductive AnyCall (K : Type)
  | update (correct : Bool)
  | error (e : K)
  | prediction (predicted actual : K)
  | reset

/-- a history of such calls, with what each returned (cf. sklearn/drift/ddm.go:85-177) -/
def runAny (sqrt : K → K) (tenth eps : K) (hist : List (AnyCall K)) (s : DDM K) : DDM K × List (Option (Result K)) :=
  hist.foldl (fun st c =>
    match c with
    | .update b => ((st.1.update sqrt b).2, st.2 ++ [some (st.1.update sqrt b).1])
    | .error e => ((st.1.updateWithError sqrt tenth e).2, st.2 ++ [some (st.1.updateWithError sqrt tenth e).1])
    | .prediction p a => ((st.1.updateWithPrediction sqrt abs eps p a).2, st.2 ++ [some (st.1.updateWithPrediction sqrt abs eps p a).1])
    | .reset => (st.1.reset, st.2 ++ [none])) (s, [])

/-- an error of at least 0.1 or a prediction off by at least 1e-10 is a mistake (cf. sklearn/drift/ddm.go:152-162) -/
def AnyCall.plain (tenth eps : K) : AnyCall K → DDMCall
  | .update b => .update b
  | .error e => .update (!decide (tenth ≤ e))
  | .prediction p a => .update (!decide (eps ≤ |p - a|))
  | .reset => .reset

/-! ## Theorems -/

/-- **C339.** Any history of the update methods is one of `Update` in which the errors of at least 0.1 and the predictions off by at least 1e-10 are the mistakes: the same results and the same
detector. All statements about `Update` (C25, C26) carry over. -/
theorem any_history_is_update_history (sqrt : K → K) (tenth eps : K) (hist : List (AnyCall K)) (s : DDM K) :
    (runAny sqrt tenth eps hist s).1 = (runDDM sqrt (hist.map (AnyCall.plain tenth eps)) s).1 ∧
    (runAny sqrt tenth eps hist s).2 = (runDDM sqrt (hist.map (AnyCall.plain tenth eps)) s).2.map (·.2) := by
  have key : ∀ (l : List (AnyCall K)) (s : DDM K) (t1 : List (Option (Result K))) (t2 : List (DDMCall × Option (Result K))), t1 = t2.map (·.2) →
      (l.foldl (fun (st : DDM K × List (Option (Result K))) c =>
        match c with
        | .update b => ((st.1.update sqrt b).2, st.2 ++ [some (st.1.update sqrt b).1])
        | .error e => ((st.1.updateWithError sqrt tenth e).2, st.2 ++ [some (st.1.updateWithError sqrt tenth e).1])
        | .prediction p a => ((st.1.updateWithPrediction sqrt abs eps p a).2, st.2 ++ [some (st.1.updateWithPrediction sqrt abs eps p a).1])
        | .reset => (st.1.reset, st.2 ++ [none])) (s, t1)).1 =
      ((l.map (AnyCall.plain tenth eps)).foldl (fun (st : DDM K × List (DDMCall × Option (Result K))) c =>
        match c with
        | .update b => ((st.1.update sqrt b).2, st.2 ++ [(c, some (st.1.update sqrt b).1)])
        | .reset => (st.1.reset, st.2 ++ [(c, none)])) (s, t2)).1 ∧
      (l.foldl (fun (st : DDM K × List (Option (Result K))) c =>
        match c with
        | .update b => ((st.1.update sqrt b).2, st.2 ++ [some (st.1.update sqrt b).1])
        | .error e => ((st.1.updateWithError sqrt tenth e).2, st.2 ++ [some (st.1.updateWithError sqrt tenth e).1])
        | .prediction p a => ((st.1.updateWithPrediction sqrt abs eps p a).2, st.2 ++ [some (st.1.updateWithPrediction sqrt abs eps p a).1])
        | .reset => (st.1.reset, st.2 ++ [none])) (s, t1)).2 =
      (((l.map (AnyCall.plain tenth eps)).foldl (fun (st : DDM K × List (DDMCall × Option (Result K))) c =>
        match c with
        | .update b => ((st.1.update sqrt b).2, st.2 ++ [(c, some (st.1.update sqrt b).1)])
        | .reset => (st.1.reset, st.2 ++ [(c, none)])) (s, t2)).2).map (·.2) := by
    intro l
    induction l with
    | nil => intro s t1 t2 h; exact ⟨rfl, h⟩
    | cons c l ih =>
      intro s t1 t2 h
      have hd : ∀ x y : K, decide (x < y) = !decide (y ≤ x) := fun x y => by
        by_cases hxy : x < y
        · simp [hxy]
        · simp [hxy, not_lt.1 hxy]
      cases c with
      | update b => exact ih _ _ _ (by simp [h])
      | error e =>
        have e1 : s.updateWithError sqrt tenth e = s.update sqrt (!decide (tenth ≤ e)) := by rw [DDM.updateWithError, hd]
        simp only [List.foldl_cons, List.map_cons, AnyCall.plain, e1]
        exact ih (s.update sqrt (!decide (tenth ≤ e))).2 (t1 ++ [some (s.update sqrt (!decide (tenth ≤ e))).1]) (t2 ++ [(.update (!decide (tenth ≤ e)), some (s.update sqrt (!decide (tenth ≤ e))).1)]) (by simp [h])
      | prediction p a =>
        have e1 : s.updateWithPrediction sqrt abs eps p a = s.update sqrt (!decide (eps ≤ |p - a|)) := by rw [DDM.updateWithPrediction, hd]
        simp only [List.foldl_cons, List.map_cons, AnyCall.plain, e1]
        exact ih (s.update sqrt (!decide (eps ≤ |p - a|))).2 (t1 ++ [some (s.update sqrt (!decide (eps ≤ |p - a|))).1]) (t2 ++ [(.update (!decide (eps ≤ |p - a|)), some (s.update sqrt (!decide (eps ≤ |p - a|))).1)]) (by simp [h])
      | reset => exact ih _ _ _ (by simp [h])
  exact key hist s [] [] rfl

/-- **C339, what does not hold.** `UpdateWithError` takes the sign of the error into account: an error far below the target is counted as a correct prediction. -/
theorem negative_error_counts_correct (sqrt : K → K) (tenth : K) (ht : 0 < tenth) (e : K) (he : e < 0) (s : DDM K) :
    (s.updateWithError sqrt tenth e) = s.update sqrt true := by
  unfold DDM.updateWithError
  rw [decide_eq_true (he.trans ht)]

/-! ## Examples -/

/-- the errors -5, 1/20, 1/10 and 3 make two mistakes in four samples -/
example : let s := (runAny (K := ℚ) id (1 / 10) (1 / 10 ^ 10) [.error (-5), .error (1 / 20), .error (1 / 10), .error 3] (DDM.new 30 2 3)).1
    s.numInstances = 4 ∧ s.numErrors = 2 := by decide +kernel

end Scigo.Drift
