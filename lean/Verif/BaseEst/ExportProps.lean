import Verif.BaseEst.Props

/-!
# Exporting and importing weights, and the weight hash
-/

namespace Scigo.BaseEst

theorem merge_empty (m : GoMap) : GoMap.merge m GoMap.empty = m := by
  funext k
  unfold GoMap.merge GoMap.empty
  rcases m k <;> rfl

theorem getParams_deep_load (w : World) (e : Est) :
    (getParams w e true).1.maps (getParams w e true).2 = w.load e.params := by
  unfold getParams
  rcases hp : e.params with _ | a
  · show (if w.next = w.next then _ else _) = _
    rw [if_pos rfl]; rfl
  · show (if w.next = w.next then _ else _) = _
    rw [if_pos rfl, merge_empty]; rfl

theorem export_eq (w : World) (e : Est) : exportWeights w e =
    if e.fitted then ((getParams w e true).1, .ok ⟨e.modelType, e.version, true, some (getParams w e true).2⟩)
    else (w, .err (.other "model is not fitted")) := by
  unfold exportWeights
  by_cases hf : e.fitted = true
  · rw [if_pos hf, if_pos hf, hf]
  · rw [if_neg hf, if_neg hf]

/-- **C202.** The weight hash is a function of what the user sees: an estimator that is not fitted has the empty hash; the hash
of a fitted one depends on its type, version and parameter values only. -/
theorem hash_of_view (digest : Content → Option String) (os : List Op) (i : Nat) (e : Est) (V : View)
    (he : (run os).ests[i]? = some e) (hv : view (run os) i = some V) :
    weightHash digest (run os) e = if V.fitted then (digest ⟨V.modelType, V.version, true, V.params⟩).getD "" else "" := by
  generalize run os = w at *
  unfold view at hv
  rw [he] at hv
  cases hv
  unfold weightHash
  rw [export_eq]
  show _ = if e.fitted = true then _ else _
  by_cases hf : e.fitted = true
  · rw [if_pos hf, if_pos hf]
    show (digest _).getD "" = (digest _).getD ""
    congr 2
    unfold World.content
    have hr : (getParams w e true).1.resolve = w.resolve := by
      funext v
      have := (getParams_frame w e true).2.2.2.1
      cases v <;> simp [World.resolve, this]
    rw [hr]
    show Content.mk _ _ _ (fun k => ((getParams w e true).1.maps (getParams w e true).2 k).map _) = _
    rw [getParams_deep_load]
    rfl
  · rw [if_neg hf, if_neg hf]

theorem stepEst_export (w : World) (i : Nat) (e : Est) : stepEst w i e (.exportTo i) =
    if e.fitted then { (getParams w e true).1 with
      weights := w.weights ++ [⟨e.modelType, e.version, true, some (getParams w e true).2⟩],
      handles := w.handles ++ [⟨(getParams w e true).2, none⟩] } else w := by
  show (match exportWeights w e with
    | (w', .ok wt) =>
      { w' with weights := w'.weights ++ [wt], handles := w'.handles ++ (wt.params.map fun a => (⟨a, none⟩ : Handle)).toList }
    | (w', _) => w') = _
  rw [export_eq]
  by_cases hf : e.fitted = true
  · rw [if_pos hf, if_pos hf]
    obtain ⟨f1, f2, f3, f4, f5⟩ := getParams_frame w e true
    show ({ (getParams w e true).1 with
      weights := (getParams w e true).1.weights ++ [⟨e.modelType, e.version, true, some (getParams w e true).2⟩],
      handles := (getParams w e true).1.handles ++ [⟨(getParams w e true).2, none⟩] } : World) = _
    rw [f2, f3]
  · rw [if_neg hf, if_neg hf]

/-- **C202.** Exporting works exactly for fitted estimators, and the exported weights show what the estimator shows; the
estimator itself is unchanged. -/
theorem export_spec (os : List Op) (i : Nat) (V : View) (hv : view (run os) i = some V) :
    view (run (os ++ [.exportTo i])) i = some V ∧
    (V.fitted = false → (run (os ++ [.exportTo i])).weights = (run os).weights) ∧
    (V.fitted = true → ∃ wt, (run (os ++ [.exportTo i])).weights = (run os).weights ++ [wt] ∧
      (run (os ++ [.exportTo i])).content wt = ⟨V.modelType, V.version, true, V.params⟩) := by
  rcases he : (run os).ests[i]? with _ | e
  · unfold view at hv; rw [he] at hv; cases hv
  have h1 := estimators_apart_partial os (.exportTo i) i (lt_of_some he) (fun hc => by cases hc)
  rw [run_snoc]
  refine ⟨h1.trans hv, ?_, ?_⟩
  all_goals
    unfold view at hv
    rw [he] at hv
    cases hv
    rw [step_method he rfl, stepEst_export]
    generalize run os = w at *
    intro hf
  · have hf' : e.fitted = false := hf
    rw [hf']; rfl
  · have hf' : e.fitted = true := hf
    rw [if_pos hf']
    refine ⟨_, rfl, ?_⟩
    unfold World.content
    have hr : (getParams w e true).1.resolve = w.resolve := by
      funext v
      have := (getParams_frame w e true).2.2.2.1
      cases v <;> simp [World.resolve, this]
    show Content.mk _ _ _ (fun k => ((getParams w e true).1.maps (getParams w e true).2 k).map (getParams w e true).1.resolve) = _
    rw [hr, getParams_deep_load]
    rfl

/-- what importing does to the estimator -/
theorem import_view {w : World} {i : Nat} {e : Est} (he : w.ests[i]? = some e) (wt : Weights) (ht : wt.modelType = e.modelType)
    (harg : ∀ a, wt.params = some a → a ≠ w.next) :
    view (importWeights w i e (some wt)).1 i = some
      ⟨e.fitted || wt.fitted, e.modelType, wt.version, e.logger, fun k =>
        match ((w.content wt).params k) with
        | some v => some v
        | none => (viewOf w e).params k⟩ := by
  unfold importWeights
  have hm : ¬ wt.modelType ≠ e.modelType := fun h => h ht
  simp only [if_neg hm]
  have he' : (w.setEst i { e with version := wt.version }).ests[i]? = some { e with version := wt.version } := by
    show (w.ests.set i _)[i]? = _
    rw [getElem?_set' _ _ _ _ (lt_of_some he), if_pos rfl]
  have hv := setParams_view he' wt.params harg
  obtain ⟨a, ha, _⟩ := setParams_est he' wt.params
  rw [ha]
  have hp : ∀ k, (match ((w.setEst i { e with version := wt.version }).load wt.params k) with
      | some v => some ((w.setEst i { e with version := wt.version }).resolve v)
      | none => (viewOf (w.setEst i { e with version := wt.version }) { e with version := wt.version }).params k) =
      (match ((w.content wt).params k) with
        | some v => some v
        | none => (viewOf w e).params k) := by
    intro k
    have h1 : (w.setEst i { e with version := wt.version }).load wt.params = w.load wt.params := by
      rcases wt.params <;> rfl
    have h2 : (w.setEst i { e with version := wt.version }).load e.params = w.load e.params := by
      rcases e.params <;> rfl
    have h3 : (w.setEst i { e with version := wt.version }).resolve = w.resolve := by funext v; cases v <;> rfl
    unfold World.content viewOf
    simp only [h1, h2, h3]
    rcases w.load wt.params k <;> rfl
  by_cases hf : wt.fitted = true
  · simp only [if_pos hf]
    unfold view at hv ⊢
    rw [ha] at hv
    show (((setParams _ i _ wt.params).ests.set i _)[i]?).map _ = _
    rw [getElem?_set' _ _ _ _ (lt_of_some ha), if_pos rfl]
    have hv' := Option.some.inj hv
    refine congrArg some (View.ext ?_ rfl rfl rfl ?_)
    · show true = (e.fitted || wt.fitted); rw [hf, Bool.or_true]
    · funext k
      exact (congrFun (congrArg View.params hv') k).trans (hp k)
  · simp only [if_neg hf]
    rw [hv]
    refine congrArg some (View.ext ?_ rfl rfl rfl (funext hp))
    show e.fitted = (e.fitted || wt.fitted)
    rw [Bool.eq_false_iff.2 hf, Bool.or_false]

/-- **C203.** Importing succeeds exactly when weights are given and the model types agree; a refused import changes nothing at
all. -/
theorem import_accepts (w : World) (i : Nat) (e : Est) (wt : Option Weights) :
    ((importWeights w i e wt).2 = .ok () ↔ ∃ x, wt = some x ∧ x.modelType = e.modelType) ∧
    ((importWeights w i e wt).2 ≠ .ok () → (importWeights w i e wt).1 = w) := by
  unfold importWeights
  rcases wt with _ | x
  · simp
  · by_cases hm : x.modelType = e.modelType
    · simp [hm]
    · simp [hm]

/-- **C203.** What a successful import does, in any program: the version is the imported one, imported parameters overwrite,
other parameters stay, and the estimator is fitted if it was or if the weights say so — an import never makes an estimator
unfitted and never removes a parameter. -/
theorem import_effect (os : List Op) (i j : Nat) (wt : Weights) (V : View) (hj : (run os).weights[j]? = some wt)
    (hv : view (run os) i = some V) (ht : wt.modelType = V.modelType) :
    view (run (os ++ [.importFrom i (some j)])) i = some
      ⟨V.fitted || wt.fitted, V.modelType, wt.version, V.logger, fun k =>
        match (((run os).content wt).params k) with
        | some v => some v
        | none => V.params k⟩ := by
  have hw := inv_run os
  rw [run_snoc]
  rcases he : (run os).ests[i]? with _ | e
  · unfold view at hv; rw [he] at hv; cases hv
  unfold view at hv
  rw [he] at hv
  cases hv
  rw [step_method he rfl]
  show view (importWeights (run os) i e (some j |>.bind ((run os).weights[·]?))).1 i = _
  simp only [Option.bind_some, hj]
  refine import_view he wt ht (fun a ha => ?_)
  exact Nat.ne_of_lt (hw.hand _ (hw.wts wt (List.mem_of_getElem? hj) a ha))

/-- **C203.** Export then import copies a fitted estimator: into one of the same type that has no parameter the source lacks,
the result shows everything the source shows (it keeps its own logger), and both have the same weight hash. -/
theorem export_import_copies_partial (digest : Content → Option String) (os : List Op) (i j : Nat) (V W : View) (hij : i ≠ j)
    (hv : view (run os) i = some V) (hv' : view (run os) j = some W) (hf : V.fitted = true) (ht : V.modelType = W.modelType)
    (hk : ∀ k, (W.params k).isSome = true → (V.params k).isSome = true) :
    ∃ e e', view (run (os ++ [.exportTo i] ++ [.importFrom j (some (run os).weights.length)])) j = some { V with logger := W.logger } ∧
      (run (os ++ [.exportTo i] ++ [.importFrom j (some (run os).weights.length)])).ests[i]? = some e ∧
      (run (os ++ [.exportTo i] ++ [.importFrom j (some (run os).weights.length)])).ests[j]? = some e' ∧
      weightHash digest (run (os ++ [.exportTo i] ++ [.importFrom j (some (run os).weights.length)])) e =
        weightHash digest (run (os ++ [.exportTo i] ++ [.importFrom j (some (run os).weights.length)])) e' := by
  obtain ⟨h1, _, h2⟩ := export_spec os i V hv
  obtain ⟨wt, hwt, hc⟩ := h2 hf
  have hlen : ∀ {w : World} {n : Nat} {U : View}, view w n = some U → ∃ e, w.ests[n]? = some e := by
    intro w n U h
    unfold view at h
    rcases he : w.ests[n]? with _ | e
    · rw [he] at h; cases h
    · exact ⟨e, rfl⟩
  obtain ⟨ej, hej⟩ := hlen hv'
  have h3 : view (run (os ++ [.exportTo i])) j = some W := by
    rw [run_snoc, estimators_apart_partial os (.exportTo i) j (lt_of_some hej) (fun hc => by cases hc)]
    exact hv'
  have h4 : (run (os ++ [.exportTo i])).weights[(run os).weights.length]? = some wt := by
    rw [hwt, List.getElem?_concat_length]
  have hmt : wt.modelType = V.modelType := congrArg Content.modelType hc
  have hve : wt.version = V.version := congrArg Content.version hc
  have hfi : wt.fitted = true := congrArg Content.fitted hc
  have h5 := import_effect (os ++ [.exportTo i]) j _ wt W h4 h3 (hmt.trans ht)
  have h6 : view (run (os ++ [.exportTo i] ++ [.importFrom j (some (run os).weights.length)])) i = some V := by
    obtain ⟨ei, hei⟩ := hlen h1
    rw [run_snoc, estimators_apart_partial _ _ i (lt_of_some hei) (fun hc => by cases hc; exact hij rfl)]
    exact h1
  have h7 : view (run (os ++ [.exportTo i] ++ [.importFrom j (some (run os).weights.length)])) j = some { V with logger := W.logger } := by
    rw [h5]
    refine congrArg some (View.ext ?_ ht.symm hve rfl ?_)
    · show (W.fitted || wt.fitted) = V.fitted
      rw [hfi, hf, Bool.or_true]
    · funext k
      rw [hc]
      show (match V.params k with | some v => some v | none => W.params k) = V.params k
      rcases hvk : V.params k with _ | v
      · rcases hwk : W.params k with _ | u
        · rfl
        · have := hk k (by rw [hwk]; rfl)
          rw [hvk] at this; cases this
      · rfl
  obtain ⟨e, he⟩ := hlen h6
  obtain ⟨e', he'⟩ := hlen h7
  refine ⟨e, e', h7, he, he', ?_⟩
  rw [hash_of_view digest _ i e V he h6, hash_of_view digest _ j e' _ he' h7]

example : ∃ V W, view (run [.new "R" "1", .makeMap, .put 0 "a" (.plain 1), .setParams 0 (some 0), .setFitted 0, .new "R" "2"]) 0 = some V ∧
    view (run [.new "R" "1", .makeMap, .put 0 "a" (.plain 1), .setParams 0 (some 0), .setFitted 0, .new "R" "2"]) 1 = some W ∧
    V.fitted = true ∧ V.modelType = W.modelType ∧ V.version ≠ W.version ∧ V.params "a" = some (.inl 1) ∧ W.params "a" = none :=
  ⟨_, _, rfl, rfl, by decide +kernel⟩

/-- **C203.** In general an import does not reproduce the exporting model: parameters the target had and the source lacks
survive, and the hashes of source and target can differ after a successful import. -/
theorem import_keeps_old_params : ∃ (digest : Content → Option String) (os : List Op) (e e' : Est), 
    (run os).ests[0]? = some e ∧ (run os).ests[1]? = some e' ∧ os.getLast? = some (.importFrom 1 (some 0)) ∧
    weightHash digest (run os) e = "short" ∧ weightHash digest (run os) e' = "long" := by
  refine ⟨fun c => some (if (c.params "old").isSome then "long" else "short"),
    [.new "R" "1", .setFitted 0, .new "R" "1", .makeMap, .put 0 "old" (.plain 1), .setParams 1 (some 0), .exportTo 0, .importFrom 1 (some 0)],
    _, _, rfl, rfl, rfl, ?_, ?_⟩ <;> decide +kernel

/-- **C203.** Importing weights of an unfitted model leaves a fitted estimator fitted. -/
theorem import_never_unfits (w : World) (i : Nat) (e : Est) (he : w.ests[i]? = some e) (hf : e.fitted = true) (wt : Option Weights) :
    ∃ e', (importWeights w i e wt).1.ests[i]? = some e' ∧ e'.fitted = true := by
  unfold importWeights
  rcases wt with _ | wt
  · exact ⟨e, he, hf⟩
  · by_cases hm : wt.modelType ≠ e.modelType
    · simp only [if_pos hm]; exact ⟨e, he, hf⟩
    · simp only [if_neg hm]
      have he' : (w.setEst i { e with version := wt.version }).ests[i]? = some { e with version := wt.version } := by
        show (w.ests.set i _)[i]? = _
        rw [getElem?_set' _ _ _ _ (lt_of_some he), if_pos rfl]
      obtain ⟨a, ha, _⟩ := setParams_est he' wt.params
      rw [ha]
      by_cases hw : wt.fitted = true
      · simp only [if_pos hw]
        refine ⟨⟨true, some a, e.modelType, wt.version, e.logger⟩, ?_, rfl⟩
        show ((setParams _ i _ wt.params).ests.set i _)[i]? = _
        rw [getElem?_set' _ _ _ _ (lt_of_some ha), if_pos rfl]
      · simp only [if_neg hw]
        exact ⟨_, ha, hf⟩

example : (importWeights (run [.new "R" "1", .setFitted 0]) 0 ⟨true, none, "R", "1", none⟩ (some ⟨"R", "9", false, none⟩)).1.ests[0]? =
    some ⟨true, some 0, "R", "9", none⟩ := by decide +kernel

end Scigo.BaseEst
