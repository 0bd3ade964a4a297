import Verif.BaseEst.Lemmas

/-!
# What calls on one estimator do to another; parameters, export and import

Everything here is about a memory reached by an arbitrary program (`run os`).
-/

namespace Scigo.BaseEst

/-- what a user can see of an estimator; references are followed -/
@[ext] structure View where
  fitted : Bool
  modelType : String
  version : String
  logger : Option Nat
  params : String → Option (Int ⊕ Nat × Int)

/-- the view of one estimator value -/
def viewOf (w : World) (e : Est) : View :=
  ⟨e.fitted, e.modelType, e.version, e.logger, fun k => (w.load e.params k).map w.resolve⟩

/-- the view of estimator `i` -/
def view (w : World) (i : Nat) : Option View := (w.ests[i]?).map (viewOf w)

/-- an operation that is meant to change estimator `i`: one of its own setters, a write to a map its `GetParams(false)` gave,
or a write to shared memory that one of its parameter values refers to -/
inductive Concerns (w : World) (i : Nat) : Op → Prop
  | setParams (h) : Concerns w i (.setParams i h)
  | setFitted : Concerns w i (.setFitted i)
  | reset : Concerns w i (.reset i)
  | setLogger (l) : Concerns w i (.setLogger i l)
  | importFrom (j) : Concerns w i (.importFrom i j)
  | put (h x k v) : w.handles[h]? = some x → x.origin = some i → Concerns w i (.put h k v)
  | poke (c n e k) : w.ests[i]? = some e → w.load e.params k = some (.ref c) → Concerns w i (.poke c n)

theorem viewOf_congr {w w' : World} {e : Est} (hm : w'.load e.params = w.load e.params) (hc : w'.cells = w.cells) :
    viewOf w' e = viewOf w e := by
  unfold viewOf
  rw [hm]
  have : w'.resolve = w.resolve := by funext v; cases v <;> simp [World.resolve, hc]
  rw [this]

/-- estimator `i` and its map untouched -/
theorem view_congr {w w' : World} {i : Nat} (he : w'.ests[i]? = w.ests[i]?) (hm : ∀ a, Has w i a → w'.maps a = w.maps a)
    (hc : w'.cells = w.cells) : view w' i = view w i := by
  unfold view
  rw [he]
  rcases h : w.ests[i]? with _ | e
  · rfl
  · refine congrArg some (viewOf_congr ?_ hc)
    rcases hp : e.params with _ | a
    · rfl
    · exact hm a ⟨e, h, hp⟩

theorem load_alloc {w : World} {a : Nat} (h : a ≠ w.next) (m : GoMap) : (w.alloc m).1.maps a = w.maps a := by
  show (if a = w.next then _ else w.maps a) = _
  rw [if_neg h]

theorem setParams_frame {w : World} (hw : Inv w) {i j : Nat} {e : Est} (he : w.ests[j]? = some e) (hij : i ≠ j) (src : Option Nat) :
    (setParams w j e src).ests[i]? = w.ests[i]? ∧ (∀ a, Has w i a → (setParams w j e src).maps a = w.maps a) ∧
    (setParams w j e src).cells = w.cells := by
  unfold setParams
  rcases hp : e.params with _ | b
  · refine ⟨?_, fun a ha => ?_, rfl⟩
    · show (w.ests.set j _)[i]? = _
      rw [getElem?_set' _ _ _ _ (lt_of_some he), if_neg hij]
    · have : a ≠ w.next := Nat.ne_of_lt (hw.est i a ha)
      show (if a = w.next then _ else (w.alloc GoMap.empty).1.maps a) = _
      rw [if_neg this, load_alloc this]
  · refine ⟨rfl, fun a ha => ?_, rfl⟩
    have : a ≠ b := fun hc => hij (hw.apart i j a ha ⟨e, he, hc ▸ hp⟩)
    show (if a = b then _ else w.maps a) = _
    rw [if_neg this]

/-- **C199.** Estimators are apart: in any program, an operation that does not concern estimator `i` leaves everything a user
can see of `i` as it was. Clones, exported weights, deep parameter maps and maps passed to `SetParams` never share the map
of an estimator. (What values refer to is shared: see `clone_shares_references`.) -/
theorem estimators_apart_partial (os : List Op) (o : Op) (i : Nat) (hi : i < (run os).ests.length) (hc : ¬ Concerns (run os) i o) :
    view (step (run os) o) i = view (run os) i := by
  have hw := inv_run os
  generalize run os = w at *
  obtain ⟨ei, hei⟩ : ∃ e, w.ests[i]? = some e := ⟨_, List.getElem?_eq_getElem hi⟩
  rcases ht : o.target with _ | j
  · cases o <;> simp [Op.target] at ht
    · exact view_congr (List.getElem?_append_left hi) (fun _ _ => rfl) rfl
    · exact view_congr rfl (fun a ha => load_alloc (Nat.ne_of_lt (hw.est i a ha)) _) rfl
    · rename_i x k v
      show view (match w.handles[x]? with | none => w | some y => _) i = _
      rcases hx : w.handles[x]? with _ | y
      · rfl
      · refine view_congr rfl (fun a ha => ?_) rfl
        have hm : y ∈ w.handles := List.mem_of_getElem? hx
        have : a ≠ y.addr := by
          intro hc'
          exact hc (.put x y k v hx (hw.origin y hm i (hc' ▸ ha)))
        show (if a = y.addr then _ else w.maps a) = _
        rw [if_neg this]
    · rename_i c n
      unfold view
      show (w.ests[i]?).map _ = _
      rw [hei]
      refine congrArg some ?_
      unfold viewOf
      refine View.ext rfl rfl rfl rfl ?_
      funext k
      show (w.load ei.params k).map _ = (w.load ei.params k).map _
      rcases hk : w.load ei.params k with _ | v
      · rfl
      · refine congrArg some ?_
        cases v with
        | plain _ => rfl
        | ref d =>
          have : d ≠ c := fun hd => hc (.poke c n ei k hei (hd ▸ hk))
          show Sum.inr (d, if d = c then n else w.cells d) = Sum.inr (d, w.cells d)
          rw [if_neg this]
  · rw [step_target ht]
    rcases hj : w.ests[j]? with _ | e
    · rfl
    · show view (stepEst w j e o) i = _
      by_cases hij : i = j
      · subst hij
        cases o with
        | getParams k deep =>
          obtain ⟨f1, f2, f3, f4, f5⟩ := getParams_frame w e deep
          refine view_congr (congrArg (·[i]?) f1) (fun a ha => f5 a (Nat.ne_of_lt (hw.est i a ha))) f4
        | clone k =>
          refine view_congr (List.getElem?_append_left hi) (fun a ha => load_alloc (Nat.ne_of_lt (hw.est i a ha)) _) rfl
        | exportTo k =>
          show view (match exportWeights w e with | (w', .ok wt) => _ | (w', _) => w') i = _
          by_cases hf : e.fitted = true
          · have hx : exportWeights w e = ((BaseEst.getParams w e true).1,
                .ok ⟨e.modelType, e.version, e.fitted, some (BaseEst.getParams w e true).2⟩) := by
              unfold exportWeights; rw [if_pos hf]
            rw [hx]
            obtain ⟨f1, f2, f3, f4, f5⟩ := getParams_frame w e true
            exact view_congr (congrArg (·[i]?) f1) (fun a ha => f5 a (Nat.ne_of_lt (hw.est i a ha))) f4
          · have hx : exportWeights w e = (w, .err (.other "model is not fitted")) := by
              unfold exportWeights; rw [if_neg hf]
            rw [hx]
        | setParams k h => cases ht; exact absurd (.setParams h) hc
        | setFitted k => cases ht; exact absurd .setFitted hc
        | reset k => cases ht; exact absurd .reset hc
        | setLogger k l => cases ht; exact absurd (.setLogger l) hc
        | importFrom k l => cases ht; exact absurd (.importFrom l) hc
        | new _ _ => cases ht
        | makeMap => cases ht
        | put _ _ _ => cases ht
        | poke _ _ => cases ht
      · have hset : ∀ e', view (w.setEst j e') i = view w i := by
          intro e'
          refine view_congr ?_ (fun _ _ => rfl) rfl
          show (w.ests.set j e')[i]? = _
          rw [getElem?_set' _ _ _ _ (lt_of_some hj), if_neg hij]
        cases o with
        | getParams k deep =>
          obtain ⟨f1, f2, f3, f4, f5⟩ := getParams_frame w e deep
          refine view_congr (congrArg (·[i]?) f1) (fun a ha => f5 a (Nat.ne_of_lt (hw.est i a ha))) f4
        | clone k =>
          refine view_congr (List.getElem?_append_left hi) (fun a ha => load_alloc (Nat.ne_of_lt (hw.est i a ha)) _) rfl
        | exportTo k =>
          show view (match exportWeights w e with | (w', .ok wt) => _ | (w', _) => w') i = _
          by_cases hf : e.fitted = true
          · have hx : exportWeights w e = ((BaseEst.getParams w e true).1,
                .ok ⟨e.modelType, e.version, e.fitted, some (BaseEst.getParams w e true).2⟩) := by
              unfold exportWeights; rw [if_pos hf]
            rw [hx]
            obtain ⟨f1, f2, f3, f4, f5⟩ := getParams_frame w e true
            exact view_congr (congrArg (·[i]?) f1) (fun a ha => f5 a (Nat.ne_of_lt (hw.est i a ha))) f4
          · have hx : exportWeights w e = (w, .err (.other "model is not fitted")) := by
              unfold exportWeights; rw [if_neg hf]
            rw [hx]
        | setParams k h =>
          obtain ⟨f1, f2, f3⟩ := setParams_frame hw hj hij (w.arg h)
          exact view_congr f1 f2 f3
        | setFitted k => exact hset _
        | reset k => exact hset _
        | setLogger k l => exact hset _
        | importFrom k l =>
          show view (importWeights w j e _).1 i = _
          generalize (l.bind (w.weights[·]?)) = wt
          unfold importWeights
          rcases wt with _ | wt
          · rfl
          · by_cases hm : wt.modelType ≠ e.modelType
            · simp only [if_pos hm]
            · simp only [if_neg hm]
              have he' : (w.setEst j { e with version := wt.version }).ests[j]? = some { e with version := wt.version } := by
                show (w.ests.set j _)[j]? = _
                rw [getElem?_set' _ _ _ _ (lt_of_some hj), if_pos rfl]
              have h1 : Inv (w.setEst j { e with version := wt.version }) := hw.setEst hj rfl
              obtain ⟨f1, f2, f3⟩ := setParams_frame h1 he' hij wt.params
              obtain ⟨a, ha, _⟩ := setParams_est he' wt.params
              rw [ha]
              have hv : view (setParams (w.setEst j { e with version := wt.version }) j { e with version := wt.version } wt.params) i =
                  view w i := (view_congr f1 f2 f3).trans (hset _)
              by_cases hf : wt.fitted = true
              · simp only [if_pos hf]
                rw [← hv]
                refine view_congr ?_ (fun _ _ => rfl) rfl
                show ((setParams _ j _ wt.params).ests.set j _)[i]? = _
                rw [getElem?_set' _ _ _ _ (lt_of_some ha), if_neg hij]
              · simp only [if_neg hf]; exact hv
        | new _ _ => cases ht
        | makeMap => cases ht
        | put _ _ _ => cases ht
        | poke _ _ => cases ht

/-- a program with a clone, both estimators fitted and given different values -/
def twoEsts : List Op :=
  [.new "Ridge" "1", .makeMap, .put 0 "alpha" (.plain 1), .setParams 0 (some 0), .setFitted 0, .clone 0, .getParams 1 false]

example : (view (run twoEsts) 0).map (·.params "alpha") = some (some (.inl 1)) ∧
    (view (step (run twoEsts) (.put 1 "alpha" (.plain 7))) 1).map (·.params "alpha") = some (some (.inl 7)) ∧
    (view (step (run twoEsts) (.put 1 "alpha" (.plain 7))) 0).map (·.params "alpha") = some (some (.inl 1)) := by
  decide +kernel

example : ¬ Concerns (run twoEsts) 0 (.put 1 "alpha" (.plain 7)) := by
  intro h
  cases h with
  | put _ x _ _ hx ho =>
    have h1 : (run twoEsts).handles[1]? = some ⟨3 - 1, some 1⟩ := by decide +kernel
    rw [h1] at hx
    cases hx
    cases ho

/-! ### Cloning -/

theorem step_method {w : World} {i : Nat} {e : Est} (he : w.ests[i]? = some e) {o : Op} (ht : o.target = some i) :
    step w o = stepEst w i e o := by rw [step_target ht, he]

/-- **C199.** Right after `Clone` the copy shows everything the original shows, except that it has no logger; the original is
unchanged. -/
theorem clone_shows_same (os : List Op) (i : Nat) (V : View) (hv : view (run os) i = some V) :
    view (step (run os) (.clone i)) (run os).ests.length = some { V with logger := none } ∧
    view (step (run os) (.clone i)) i = some V := by
  have hw := inv_run os
  have hi : i < (run os).ests.length := by
    unfold view at hv
    rcases he : (run os).ests[i]? with _ | e
    · rw [he] at hv; cases hv
    · exact lt_of_some he
  have h2 := estimators_apart_partial os (.clone i) i hi (fun hc => by cases hc)
  refine ⟨?_, h2.trans hv⟩
  generalize run os = w at *
  unfold view at hv
  rcases he : w.ests[i]? with _ | e
  · rw [he] at hv; cases hv
  · rw [he] at hv
    cases hv
    rw [step_method he rfl]
    unfold view
    show ((w.ests ++ [(⟨e.fitted, some w.next, e.modelType, e.version, none⟩ : Est)])[w.ests.length]?).map _ = _
    simp only [List.getElem?_concat_length, Option.map_some]
    refine congrArg some (View.ext rfl rfl rfl rfl ?_)
    funext k
    show Option.map _ ((if w.next = w.next then GoMap.merge (w.load e.params) GoMap.empty else w.maps w.next) k) =
      Option.map w.resolve (w.load e.params k)
    rw [if_pos rfl]
    unfold GoMap.merge GoMap.empty
    rcases hk : w.load e.params k with _ | v
    · rfl
    · cases v <;> rfl

/-- **C199.** A clone is not a deep copy: when a parameter value is a pointer, slice or map, writing through it changes the
clone as well as the original. -/
theorem clone_shares_references : ∃ (os : List Op) (V W : View), view (run os) 1 = some V ∧
    view (run (os ++ [.poke 0 5])) 1 = some W ∧ V.params "grid" = some (.inr (0, 0)) ∧ W.params "grid" = some (.inr (0, 5)) := by
  refine ⟨[.new "Ridge" "1", .makeMap, .put 0 "grid" (.ref 0), .setParams 0 (some 0), .clone 0], _, _, rfl, rfl, ?_, ?_⟩ <;>
    decide +kernel

/-! ### `GetParams` and `SetParams` -/

theorem handles_step (w : World) (o : Op) (h : Nat) (x : Handle) (hx : w.handles[h]? = some x) :
    (step w o).handles[h]? = some x := by
  have hl := lt_of_some hx
  rcases ht : o.target with _ | i
  · cases o <;> simp [Op.target] at ht
    · exact hx
    · show (w.handles ++ _)[h]? = _
      rw [List.getElem?_append_left hl, hx]
    · rename_i y k v
      show (match w.handles[y]? with | none => w | some z => _).handles[h]? = _
      rcases w.handles[y]? with _ | z <;> exact hx
    · exact hx
  · rw [step_target ht]
    rcases w.ests[i]? with _ | e
    · exact hx
    · cases o with
      | getParams k deep =>
        show ((getParams w e deep).1.handles ++ _)[h]? = _
        rw [(getParams_frame w e deep).2.1, List.getElem?_append_left hl, hx]
      | clone k => exact hx
      | exportTo k =>
        show (match exportWeights w e with | (w', .ok wt) => _ | (w', _) => w' : World).handles[h]? = _
        unfold exportWeights
        by_cases hf : e.fitted = true
        · rw [if_pos hf]
          show ((getParams w e true).1.handles ++ _)[h]? = _
          rw [(getParams_frame w e true).2.1, List.getElem?_append_left hl, hx]
        · rw [if_neg hf]; exact hx
      | setParams k y => 
        show (setParams w i e (w.arg y)).handles[h]? = _
        unfold setParams
        rcases e.params with _ | a <;> exact hx
      | importFrom k l =>
        show (importWeights w i e _).1.handles[h]? = _
        have hs : ∀ (w : World) (e : Est) (s : Option Nat), (setParams w i e s).handles = w.handles := by
          intro w e s
          unfold setParams
          rcases e.params with _ | a <;> rfl
        unfold importWeights
        rcases (l.bind (w.weights[·]?)) with _ | wt
        · exact hx
        · by_cases hm : wt.modelType ≠ e.modelType
          · simp only [if_pos hm]; exact hx
          · simp only [if_neg hm]
            generalize he' : ({ e with version := wt.version } : Est) = e'
            have h1 := hs (w.setEst i e') e' wt.params
            rcases (setParams (w.setEst i e') i e' wt.params).ests[i]? with _ | e2
            · simp only [h1]; exact hx
            · by_cases hf : wt.fitted = true
              · simp only [if_pos hf]
                show (setParams (w.setEst i e') i e' wt.params).handles[h]? = _
                rw [h1]; exact hx
              · simp only [if_neg hf, h1]; exact hx
      | setFitted k => exact hx
      | reset k => exact hx
      | setLogger k l => exact hx
      | new _ _ => exact hx
      | makeMap => exact hx
      | put _ _ _ => exact hx
      | poke _ _ => exact hx

theorem handles_later (os : List Op) (w : World) (h : Nat) (x : Handle) (hx : w.handles[h]? = some x) :
    (os.foldl step w).handles[h]? = some x := by
  induction os generalizing w with
  | nil => exact hx
  | cons o os ih => exact ih _ (handles_step w o h x hx)

theorem run_append (os os' : List Op) : run (os ++ os') = os'.foldl step (run os) := List.foldl_append

theorem run_snoc (os : List Op) (o : Op) : run (os ++ [o]) = step (run os) o := by rw [run_append]; rfl

/-- the client map a call to `GetParams` adds -/
theorem getParams_handle (os : List Op) (i : Nat) (e : Est) (deep : Bool) (he : (run os).ests[i]? = some e) :
    (run (os ++ [.getParams i deep])).handles[(run os).handles.length]? =
      some ⟨(getParams (run os) e deep).2, if deep then none else e.params.map fun _ => i⟩ := by
  rw [run_snoc, step_method he rfl]
  show ((getParams (run os) e deep).1.handles ++ [_])[(run os).handles.length]? = _
  rw [(getParams_frame _ e deep).2.1, List.getElem?_concat_length]
  rfl

/-- **C200.** `GetParams` returns what the estimator holds: at the time of the call the returned map shows, key by key, what
the estimator shows. -/
theorem getParams_shows (os : List Op) (i : Nat) (deep : Bool) (V : View) (hv : view (run os) i = some V) :
    ∃ x, (run (os ++ [.getParams i deep])).handles[(run os).handles.length]? = some x ∧
      ∀ k, ((run (os ++ [.getParams i deep])).maps x.addr k).map (run os).resolve = V.params k := by
  unfold view at hv
  rcases he : (run os).ests[i]? with _ | e
  · rw [he] at hv; cases hv
  · rw [he] at hv
    cases hv
    refine ⟨_, getParams_handle os i e deep he, fun k => ?_⟩
    rw [run_snoc, step_method he rfl]
    show ((getParams (run os) e deep).1.maps (getParams (run os) e deep).2 k).map _ = ((run os).load e.params k).map _
    unfold getParams
    rcases hp : e.params with _ | a
    · show ((if (run os).next = (run os).next then GoMap.empty else _) k).map _ = _
      rw [if_pos rfl]; rfl
    · cases deep
      · rfl
      · show ((if (run os).next = (run os).next then GoMap.merge ((run os).maps a) GoMap.empty else _) k).map _ = _
        rw [if_pos rfl]
        show (GoMap.merge ((run os).maps a) GoMap.empty k).map _ = ((run os).maps a k).map _
        unfold GoMap.merge GoMap.empty
        rcases (run os).maps a k <;> rfl

/-- **C200.** `GetParams(false)` of an estimator whose parameters were set returns its live map: at any later time, a write to
the returned map is a change of that estimator's parameter, and of nothing else of it. -/
theorem shallow_params_live (os os' : List Op) (i : Nat) (e : Est) (he : (run os).ests[i]? = some e) (hs : e.params ≠ none)
    (k : String) (v : Val) (V : View) (hv : view (run (os ++ [.getParams i false] ++ os')) i = some V) :
    view (run (os ++ [.getParams i false] ++ os' ++ [.put (run os).handles.length k v])) i =
      some { V with params := fun k' => if k' = k then some ((run (os ++ [.getParams i false] ++ os')).resolve v) else V.params k' } := by
  obtain ⟨a, hp⟩ := Option.ne_none_iff_exists'.1 hs
  have h1 := getParams_handle os i e false he
  rw [hp] at h1
  have h2 := handles_later os' _ _ _ h1
  rw [← run_append] at h2
  have hw := inv_run (os ++ [.getParams i false] ++ os')
  rw [run_snoc]
  generalize run (os ++ [.getParams i false] ++ os') = w at *
  generalize (run os).handles.length = h at *
  obtain ⟨e', he', hp'⟩ := hw.live _ (List.mem_of_getElem? h2) i rfl
  unfold view at hv ⊢
  show ((match w.handles[h]? with | none => w | some x => w.store x.addr ((w.maps x.addr).put k v) : World).ests[i]?).map
    (viewOf (match w.handles[h]? with | none => w | some x => w.store x.addr ((w.maps x.addr).put k v))) = _
  rw [h2]
  generalize (getParams (run os) e false).2 = b at *
  show (w.ests[i]?).map (viewOf (w.store b ((w.maps b).put k v))) = _
  rw [he'] at hv ⊢
  cases hv
  refine congrArg some (View.ext rfl rfl rfl rfl ?_)
  funext k'
  show Option.map _ ((w.store b ((w.maps b).put k v)).load e'.params k') = if k' = k then some (w.resolve v) else
    (w.load e'.params k').map w.resolve
  rw [hp']
  show Option.map w.resolve ((if b = b then (w.maps b).put k v else w.maps b) k') = if k' = k then some (w.resolve v) else
    (w.maps b k').map w.resolve
  rw [if_pos rfl]
  unfold GoMap.put
  by_cases hk : k' = k
  · rw [if_pos hk, if_pos hk]; rfl
  · rw [if_neg hk, if_neg hk]

/-- **C200.** The map from `GetParams(true)` — and the one from `GetParams(false)` of an estimator whose parameters were never
set — is detached: a write to it, at any later time, changes no estimator. -/
theorem detached_params (os os' : List Op) (i j : Nat) (deep : Bool) (e : Est) (he : (run os).ests[i]? = some e)
    (hd : deep = true ∨ e.params = none) (k : String) (v : Val) (hj : j < (run (os ++ [.getParams i deep] ++ os')).ests.length) :
    view (run (os ++ [.getParams i deep] ++ os' ++ [.put (run os).handles.length k v])) j =
      view (run (os ++ [.getParams i deep] ++ os')) j := by
  have h1 := getParams_handle os i e deep he
  have h2 := handles_later os' _ _ _ h1
  rw [← run_append] at h2
  rw [run_snoc]
  refine estimators_apart_partial _ _ j hj (fun hc => ?_)
  cases hc with
  | put _ x _ _ hx ho =>
    rw [h2] at hx
    cases hx
    rcases hd with rfl | hd
    · cases ho
    · rw [hd] at ho
      cases deep <;> cases ho

example : (run [.new "Ridge" "1"]).ests[0]? = some ⟨false, none, "Ridge", "1", none⟩ ∧
    (run ([.new "Ridge" "1"] ++ [.getParams 0 false] ++ [] ++ [.put 0 "alpha" (.plain 3)])).maps 0 "alpha" = some (.plain 3) ∧
    (view (run ([.new "Ridge" "1"] ++ [.getParams 0 false] ++ [] ++ [.put 0 "alpha" (.plain 3)])) 0).map (·.params "alpha") =
      some none := by decide +kernel

theorem setParams_view {w : World} {i : Nat} {e : Est} (he : w.ests[i]? = some e) (src : Option Nat)
    (harg : ∀ a, src = some a → a ≠ w.next) :
    view (setParams w i e src) i = some { viewOf w e with params := fun k =>
      match (w.load src k) with
      | some v => some (w.resolve v)
      | none => (viewOf w e).params k } := by
  unfold setParams view
  rcases hp : e.params with _ | a
  · show ((w.ests.set i _)[i]?).map _ = _
    rw [getElem?_set' _ _ _ _ (lt_of_some he), if_pos rfl]
    refine congrArg some (View.ext rfl rfl rfl rfl ?_)
    funext k
    show Option.map w.resolve ((if w.next = w.next then GoMap.merge ((w.alloc GoMap.empty).1.load src) _ else _) k) =
      match w.load src k with | some v => some (w.resolve v) | none => Option.map w.resolve (w.load e.params k)
    rw [if_pos rfl, hp]
    have hl : (w.alloc GoMap.empty).1.load src = w.load src := by
      rcases src with _ | b
      · rfl
      · exact load_alloc (harg b rfl) _
    rw [hl]
    unfold GoMap.merge
    rcases w.load src k with _ | v
    · show Option.map w.resolve ((if w.next = w.next then GoMap.empty else _) k) = _
      rw [if_pos rfl]; rfl
    · rfl
  · show (w.ests[i]?).map _ = _
    rw [he]
    refine congrArg some (View.ext rfl rfl rfl rfl ?_)
    funext k
    show Option.map w.resolve ((w.store a (GoMap.merge (w.load src) (w.maps a))).load e.params k) =
      match w.load src k with | some v => some (w.resolve v) | none => Option.map w.resolve (w.load e.params k)
    rw [hp]
    show Option.map w.resolve ((if a = a then GoMap.merge (w.load src) (w.maps a) else _) k) = _
    rw [if_pos rfl]
    unfold GoMap.merge
    rcases w.load src k with _ | v <;> rfl

/-- **C201.** `SetParams` adds and overwrites, and never removes: afterwards the estimator shows the given value for every key
of the given map and its old value for every other key; nothing else of it changes. -/
theorem setParams_merges (os : List Op) (i : Nat) (h : Option Nat) (V : View) (hv : view (run os) i = some V) :
    view (run (os ++ [.setParams i h])) i = some { V with params := fun k =>
      match ((run os).load ((run os).arg h) k) with
      | some v => some ((run os).resolve v)
      | none => V.params k } := by
  have hw := inv_run os
  rw [run_snoc]
  have harg : ∀ a, (run os).arg h = some a → a ≠ (run os).next := by
    intro a ha
    unfold World.arg at ha
    rcases h with _ | h
    · cases ha
    · simp only [Option.bind_some] at ha
      rcases hx : (run os).handles[h]? with _ | x
      · rw [hx] at ha; cases ha
      · rw [hx] at ha
        cases ha
        exact Nat.ne_of_lt (hw.hand x (List.mem_of_getElem? hx))
  generalize run os = w at *
  unfold view at hv
  rcases he : w.ests[i]? with _ | e
  · rw [he] at hv; cases hv
  · rw [he] at hv
    cases hv
    rw [step_method he rfl]
    exact setParams_view he (w.arg h) harg

example : (view (run [.new "R" "1", .makeMap, .put 0 "a" (.plain 1), .setParams 0 (some 0), .makeMap, .put 1 "b" (.plain 2),
      .setParams 0 (some 1)]) 0).map (·.params "a") = some (some (.inl 1)) ∧
    (view (run [.new "R" "1", .makeMap, .put 0 "a" (.plain 1), .setParams 0 (some 0), .makeMap, .put 1 "b" (.plain 2),
      .setParams 0 (some 1)]) 0).map (·.params "b") = some (some (.inl 2)) := by
  decide +kernel

end Scigo.BaseEst
