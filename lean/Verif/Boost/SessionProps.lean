import Verif.Boost.Session
import Mathlib.Algebra.Order.Ring.Rat
import Mathlib.Tactic.NormNum

/-!
# A booster over its lifetime: theorems (C221–C224)
-/

set_option linter.unusedSectionVars false

namespace Scigo.Boost

section

variable {M L ι X R : Type}

/-! ### Specification: what the history says -/

/-- the model given by a call, trained or loaded -/
def Op.given : Op M L ι → Option (Sum M L)
  | .initFromModel m => some (.inl m)
  | .setModel m => some (.inl m)
  | .initFromLeaves l => some (.inr l)
  | _ => none

/-- the model given last -/
def lastGiven (ops : List (Op M L ι)) : Option (Sum M L) := (ops.filterMap Op.given).getLast?

/-- what a booster should answer: the prediction of the model given last -/
def answerOf (own : M → X → Outcome R) (loaded : L → X → Outcome R) (x : X) : Option (Sum M L) → Outcome R
  | none => .err (.other "model not initialized")
  | some (.inl m) => own m x
  | some (.inr l) => loaded l x

/-- no loaded model was given before a trained one -/
def NoSwitch (ops : List (Op M L ι)) : Prop :=
  ∀ l ops' ops'', ops = ops' ++ .initFromLeaves l :: ops'' → ∀ o ∈ ops'', ∀ m, o.given ≠ some (.inl m)

/-! ### Lemmas -/

theorem after_snoc (K : Kit M L) (ops : List (Op M L ι)) (o : Op M L ι) :
    Session.after K (ops ++ [o]) = (Session.after K ops).apply K o := by
  simp [Session.after]

theorem lastGiven_snoc (ops : List (Op M L ι)) (o : Op M L ι) :
    lastGiven (ops ++ [o]) = (o.given).or (lastGiven ops) := by
  unfold lastGiven
  rw [List.filterMap_append]
  cases h : o.given with
  | none => simp [h]
  | some g => simp [h]

/-- the loaded models given, and the trained models given -/
def loads (ops : List (Op M L ι)) : List L := ops.filterMap fun o => match o with | .initFromLeaves l => some l | _ => none

def trained (ops : List (Op M L ι)) : List M :=
  ops.filterMap fun o => match o with | .initFromModel m => some m | .setModel m => some m | _ => none

theorem after_models (K : Kit M L) (ops : List (Op M L ι)) :
    (Session.after K ops).leaves = (loads ops).getLast? ∧ (Session.after K ops).predictor = (trained ops).getLast? := by
  induction ops using List.reverseRecOn with
  | nil => exact ⟨rfl, rfl⟩
  | append_singleton ops o ih =>
    rw [after_snoc]
    unfold loads trained at *
    rw [List.filterMap_append, List.filterMap_append]
    cases o <;> simp [Session.apply, ih.1, ih.2]

/-! ### C221 -/

/-- **C221 (which model answers).** After every history, predictions come from the loaded model given last, if there ever
was one, otherwise from the trained model given last. -/
theorem answers_from (K : Kit M L) (own : M → X → Outcome R) (loaded : L → X → Outcome R) (ops : List (Op M L ι)) (x : X) :
    (Session.after K ops).predict own loaded x =
      match (loads ops).getLast? with
      | some l => loaded l x
      | none => answerOf own loaded x ((trained ops).getLast?.map .inl) := by
  obtain ⟨h1, h2⟩ := after_models K ops
  unfold Session.predict
  rw [h1, h2]
  cases (loads ops).getLast? with
  | some l => rfl
  | none => cases (trained ops).getLast? <;> rfl

theorem given_of_loads (ops : List (Op M L ι)) (hs : NoSwitch ops) :
    lastGiven ops = match (loads ops).getLast? with
      | some l => some (.inr l)
      | none => (trained ops).getLast?.map .inl := by
  induction ops using List.reverseRecOn with
  | nil => rfl
  | append_singleton ops o ih =>
    have hs' : NoSwitch ops := by
      intro l a b e o' ho' m hg
      exact hs l a (b ++ [o]) (by rw [e]; simp) o' (List.mem_append_left _ ho') m hg
    have ih := ih hs'
    rw [lastGiven_snoc, ih]
    have key : ∀ m, o.given = some (.inl m) → loads ops = [] := by
      intro m hg
      by_contra hne
      unfold loads at hne
      obtain ⟨l, hl⟩ := List.exists_mem_of_ne_nil _ hne
      obtain ⟨o', ho', he⟩ := List.mem_filterMap.mp hl
      cases o' with
      | initFromLeaves l' =>
        obtain ⟨a, b, e⟩ := List.append_of_mem ho'
        exact hs l' a (b ++ [o]) (by rw [e]; simp) o (by simp) m hg
      | _ => cases he
    unfold loads trained at *
    rw [List.filterMap_append, List.filterMap_append]
    cases o with
    | initFromModel m =>
      have h0 := key m rfl
      simp [h0, Op.given]
    | setModel m =>
      have h0 := key m rfl
      simp [h0, Op.given]
    | initFromLeaves l => simp [Op.given]
    | update => simp [Op.given]
    | setBest n => simp [Op.given]
    | addEval d m v => simp [Op.given]

/-- **C221 (partial).** As long as no trained model is given to a booster that was loaded from a file, predictions are
those of the model given last. Missing: the other histories (`set_model_ignored`). -/
theorem model_given_last_partial (K : Kit M L) (own : M → X → Outcome R) (loaded : L → X → Outcome R) (ops : List (Op M L ι))
    (hs : NoSwitch ops) (x : X) :
    (Session.after K ops).predict own loaded x = answerOf own loaded x (lastGiven ops) := by
  rw [answers_from, given_of_loads ops hs]
  cases (loads ops).getLast? with
  | some l => rfl
  | none => rfl

/-- **C221 is false:** a trained model given to a loaded booster is counted but never predicts: whatever is given after the
load, the loaded model goes on answering. -/
theorem set_model_ignored (K : Kit M L) (own : M → X → Outcome R) (loaded : L → X → Outcome R) (l : L) (m : M) (x : X) :
    (Session.after K ([.initFromLeaves l, .setModel m] : List (Op M L ι))).predict own loaded x = loaded l x ∧
    (Session.after K ([.initFromLeaves l, .initFromModel m] : List (Op M L ι))).predict own loaded x = loaded l x ∧
    (Session.after K ([.initFromLeaves l, .setModel m] : List (Op M L ι))).numTrees K = K.trees m :=
  ⟨rfl, rfl, rfl⟩

/-! ### C222 -/

/-- **C222 (loaded boosters).** A booster that was loaded answers every request for probabilities or raw scores with the
plain prediction, and refuses requests for leaves. -/
theorem loaded_variants (K : Kit M L) (own ownProba ownRaw ownLeaf : M → X → Outcome R) (loaded : L → X → Outcome R)
    (ops : List (Op M L ι)) (hl : loads ops ≠ []) (x : X) :
    (Session.after K ops).predictRawScore ownRaw loaded x = (Session.after K ops).predict own loaded x ∧
    (Session.after K ops).predictProba ownProba loaded x = (Session.after K ops).predict own loaded x ∧
    (Session.after K ops).predictLeaf ownLeaf x = .err (.other "leaf prediction not supported for loaded models") := by
  obtain ⟨h1, -⟩ := after_models K ops
  obtain ⟨l, hl⟩ := Option.isSome_iff_exists.mp (List.getLast?_isSome.mpr hl)
  rw [hl] at h1
  unfold Session.predictRawScore Session.predict Session.predictProba Session.predictLeaf
  rw [h1]
  exact ⟨rfl, rfl, rfl⟩

/-- a booster with trained models only hands the request to the predictor of the model given last -/
theorem trained_variants (K : Kit M L) (ownProba ownRaw ownLeaf : M → X → Outcome R) (loaded : L → X → Outcome R)
    (ops : List (Op M L ι)) (m : M) (hl : loads ops = []) (hm : (trained ops).getLast? = some m) (x : X) :
    (Session.after K ops).predictRawScore ownRaw loaded x = ownRaw m x ∧
    (Session.after K ops).predictProba ownProba loaded x = ownProba m x ∧
    (Session.after K ops).predictLeaf ownLeaf x = ownLeaf m x := by
  obtain ⟨h1, h2⟩ := after_models K ops
  rw [hl] at h1
  rw [hm] at h2
  unfold Session.predictRawScore Session.predictProba Session.predictLeaf
  rw [h1, h2]
  exact ⟨rfl, rfl, rfl⟩

section

variable {α : Type} [BEq α] [LE α] [DecidableLE α] [LT α] [DecidableLT α] [Zero α] [Neg α] [Add α] [Sub α] [One α] [Div α]

theorem everyRow_congr (f g : List α → Outcome (List α)) (h : ∀ x, f x = g x) (xs : List (List α)) :
    everyRow f xs = everyRow g xs := by
  rw [show f = g from funext h]

/-- **C222 (partial).** The raw scores of a loaded booster are those of its model if the model is a plain regression: at
most two classes, no sigmoid, no initial score. Missing: all other models (`loaded_raw_score_wrong`). -/
theorem loaded_raw_score_partial (N : LGB.LNum α) (K : Kit M (LGB.LModel α)) (ownRaw : M → Nat × List (List α) → Outcome (List (List α)))
    (m : LGB.LModel α) (hc : ¬ 2 < m.numClass) (hb : m.isBinary = false) (hi : m.initScore = 0) (w : Nat) (rows : List (List α))
    (hw : (w : Int) = m.numFeatures) (hr : rows ≠ []) :
    (Session.after K ([.initFromLeaves m] : List (Op M (LGB.LModel α) ι))).predictRawScore ownRaw (leavesPredict N) (w, rows) =
      everyRow (m.predictRaw N) rows := by
  show leavesPredict N m (w, rows) = _
  unfold leavesPredict
  rw [if_neg (by simp [hw]), if_neg hr]
  refine everyRow_congr _ _ (fun x => ?_) rows
  unfold LGB.LModel.predictSingle LGB.LModel.predictRaw
  rw [if_neg hc, if_neg hc, hb, hi]
  rfl

end

/-- exponential with the one value needed -/
def exNum : LGB.LNum Rat := ⟨fun _ => 0, 0, fun _ => 1, 500⟩

/-- a loaded binary model with one constant tree of output 0 -/
def exBinary : LGB.LModel Rat := ⟨[⟨[], [0], 0⟩], 1, "binary", 0, 1⟩

/-- one booster loaded with it, whatever trained models are -/
def exLoaded : Session Unit (LGB.LModel Rat) Unit :=
  Session.after ⟨fun _ => 0, fun _ => 0, fun m => m.trees.length, fun _ => ()⟩ [.initFromLeaves exBinary]

/-- **C222 is false:** for a loaded binary model the raw score 0 is returned as the probability 1/2. -/
theorem loaded_raw_score_wrong (ownRaw : Unit → Nat × List (List Rat) → Outcome (List (List Rat))) :
    exLoaded.predictRawScore ownRaw (leavesPredict exNum) (1, [[7]]) = .ok [[1 / 2]] ∧
      everyRow (exBinary.predictRaw exNum) [[7]] = .ok [[0]] := by
  constructor
  · show leavesPredict exNum exBinary (1, [[7]]) = .ok [[1 / 2]]
    decide +kernel
  · decide +kernel

/-! ### C223 -/

/-- the number of updates since a model was given with `InitFromModel` or loaded -/
def updatesSince : List (Op M L ι) → Nat
  | [] => 0
  | ops => (ops.filter fun o => match o with | .update => true | _ => false).length

/-- **C223 (partial).** After `InitFromModel` and any number of `Update`s, evaluation results and settings of the best
iteration, the current iteration is the number of trees plus the number of updates. Missing: the updates train nothing
(`update_trains_nothing`), and `SetModel` leaves the counters of the model before (`set_model_keeps_counters`). -/
theorem current_iteration_partial (K : Kit M L) (ops ops' : List (Op M L ι)) (m : M) (h : ∀ o ∈ ops', o.given = none) :
    (Session.after K (ops ++ .initFromModel m :: ops')).current = K.trees m + updatesSince ops' ∧
      (Session.after K (ops ++ .initFromModel m :: ops')).numTrees K = K.trees m := by
  have e : updatesSince ops' = (ops'.filter fun o => match o with | .update => true | _ => false).length := by
    cases ops' <;> rfl
  rw [e]
  clear e
  induction ops' using List.reverseRecOn with
  | nil => simp [Session.after, Session.apply, Session.numTrees]
  | append_singleton ops' o ih =>
    have ih := ih (fun o ho => h o (List.mem_append_left _ ho))
    have ho := h o (by simp)
    rw [show ops ++ .initFromModel m :: (ops' ++ [o]) = (ops ++ .initFromModel m :: ops') ++ [o] by simp, after_snoc,
      List.filter_append, List.length_append]
    obtain ⟨i1, i2⟩ := ih
    have i3 : ∀ o : Op M L ι, o.given = none → ((Session.after K (ops ++ .initFromModel m :: ops')).apply K o).numTrees K = K.trees m := by
      intro o ho
      cases o <;> simp_all [Op.given, Session.apply, Session.numTrees]
    refine ⟨?_, i3 o ho⟩
    cases o with
    | initFromModel m => cases ho
    | setModel m => cases ho
    | initFromLeaves l => cases ho
    | update => simp only [Session.apply, i1]; simp; omega
    | setBest n => simp only [Session.apply, i1]; simp
    | addEval d m v => simp only [Session.apply, i1]; simp

/-- **C223 is false:** an update never fails, adds no tree and changes no prediction; it only counts. -/
theorem update_trains_nothing (K : Kit M L) (own : M → X → Outcome R) (loaded : L → X → Outcome R) (b : Session M L ι) (x : X) :
    (b.apply K .update).predict own loaded x = b.predict own loaded x ∧ (b.apply K .update).numTrees K = b.numTrees K ∧
      (b.apply K .update).current = b.current + 1 := ⟨rfl, rfl, rfl⟩

/-- **C223 is false:** after `SetModel` the current and best iterations are those of the model before. -/
theorem set_model_keeps_counters (K : Kit M L) (b : Session M L ι) (m : M) :
    (b.apply K (.setModel m)).current = b.current ∧ (b.apply K (.setModel m)).best = b.best ∧
      (b.apply K (.setModel m)).numTrees K = K.trees m := ⟨rfl, rfl, rfl⟩

/-! ### C224 -/

/-- the values added for a dataset and a metric, in order -/
def added (ops : List (Op M L ι)) (d m : List Char) : List ι :=
  ops.filterMap fun o => match o with
    | .addEval d' m' v => if d' = d ∧ m' = m then some v else none
    | _ => none

/-- the names of the datasets that occur -/
def datasets (ops : List (Op M L ι)) : List (List Char) :=
  ops.filterMap fun o => match o with | .addEval d _ _ => some d | _ => none

theorem evalKey_inj (d d' m m' : List Char) (hd : '-' ∉ d) (hd' : '-' ∉ d') (h : evalKey d m = evalKey d' m') : d = d' ∧ m = m' := by
  unfold evalKey at h
  induction d generalizing d' with
  | nil =>
    cases d' with
    | nil => simpa using h
    | cons c d' =>
      simp only [List.nil_append, List.cons_append, List.cons.injEq] at h
      exact absurd (h.1 ▸ List.mem_cons_self) hd'
  | cons c d ih =>
    cases d' with
    | nil =>
      simp only [List.nil_append, List.cons_append, List.cons.injEq] at h
      exact absurd (h.1 ▸ List.mem_cons_self) hd
    | cons c' d' =>
      simp only [List.cons_append, List.cons.injEq] at h
      obtain ⟨rfl, h⟩ := h
      obtain ⟨rfl, rfl⟩ := ih d' (fun hc => hd (List.mem_cons_of_mem _ hc)) (fun hc => hd' (List.mem_cons_of_mem _ hc)) h
      exact ⟨rfl, rfl⟩

/-- **C224 (partial).** If no dataset name contains a hyphen, the results stored under a dataset and a metric are exactly
the values added for them, in order, whatever else happened in between. Missing: names with hyphens
(`eval_results_mixed`). -/
theorem eval_results_partial (K : Kit M L) (ops : List (Op M L ι)) (d m : List Char) (hd : '-' ∉ d) (hs : ∀ d' ∈ datasets ops, '-' ∉ d') :
    (Session.after K ops).evals (evalKey d m) = added ops d m := by
  induction ops using List.reverseRecOn with
  | nil => rfl
  | append_singleton ops o ih =>
    have ih := ih (fun d' hd' => hs d' (by unfold datasets at *; rw [List.filterMap_append]; exact List.mem_append_left _ hd'))
    rw [after_snoc]
    unfold added at *
    rw [List.filterMap_append]
    cases o with
    | addEval d' m' v =>
      have hd' : '-' ∉ d' := hs d' (by unfold datasets; rw [List.filterMap_append]; simp)
      simp only [Session.apply, List.filterMap_cons, List.filterMap_nil]
      by_cases he : evalKey d m = evalKey d' m'
      · obtain ⟨rfl, rfl⟩ := evalKey_inj d d' m m' hd hd' he
        rw [if_pos rfl, ih, if_pos ⟨rfl, rfl⟩]
      · rw [if_neg he, ih, if_neg (by rintro ⟨rfl, rfl⟩; exact he rfl)]
        simp
    | _ => simpa [Session.apply] using ih

/-- **C224 is false:** results of the metric "c" on the dataset "a-b" are stored together with those of the metric "b-c" on
the dataset "a". -/
theorem eval_results_mixed (K : Kit M L) (u v : ι) :
    (Session.after K ([.addEval "a-b".toList "c".toList u, .addEval "a".toList "b-c".toList v] : List (Op M L ι))).evals
      (evalKey "a".toList "b-c".toList) = [u, v] := rfl

end

/-! ### Concrete histories -/

/-- models are lists of tree outputs -/
def exKit : Kit (List Int) (List Int) := ⟨List.length, fun _ => 0, List.length, fun _ => []⟩

example : (Session.after exKit ([.initFromModel [1, 2], .update, .setModel [5]] : List (Op (List Int) (List Int) Int))).predict
    (fun m x => .ok (m.sum * x)) (fun m x => .ok (-m.sum * x)) 3 = .ok 15 := by decide

example : (Session.after exKit ([.initFromModel [1, 2], .initFromLeaves [5], .setModel [7]] : List (Op (List Int) (List Int) Int))).predict
    (fun m x => .ok (m.sum * x)) (fun m x => .ok (-m.sum * x)) 3 = .ok (-15) := by decide

example : NoSwitch ([.initFromModel [1, 2], .update, .setModel [5]] : List (Op (List Int) (List Int) Int)) := by
  intro l a b e
  have : (Op.initFromLeaves l : Op (List Int) (List Int) Int) ∈ [.initFromModel [1, 2], .update, .setModel [5]] := by rw [e]; simp
  simp at this

example : (Session.after exKit ([.initFromModel [1, 2], .update, .update] : List (Op (List Int) (List Int) Int))).current = 4 := by decide

example : (Session.after exKit ([.addEval "train".toList "l2".toList 3, .update, .addEval "valid".toList "l2".toList 4,
    .addEval "train".toList "l2".toList 2] : List (Op (List Int) (List Int) Int))).evals (evalKey "train".toList "l2".toList) = [3, 2] := by decide

end Scigo.Boost

namespace Scigo.Boost
variable {M L ι : Type _}
/-- **C223** (law-free): after any history `NumTrees` is the number of trees of the model given last, 0 if none was given; a loaded leaves model counts as the stub made
for it. -/
theorem num_trees_of_last (K : Kit M L) (ops : List (Op M L ι)) :
    (Session.after K ops).numTrees K = match lastGiven ops with
      | none => 0
      | some (.inl m) => K.trees m
      | some (.inr l) => K.trees (K.stub l) := by
  induction ops using List.reverseRecOn with
  | nil => rfl
  | append_singleton ops o ih =>
    have e : Session.after K (ops ++ [o]) = (Session.after K ops).apply K o := by simp [Session.after]
    rw [e]
    have hl : lastGiven (ops ++ [o]) = match o.given with | none => lastGiven ops | some g => some g := by
      unfold lastGiven
      rw [List.filterMap_append]
      cases h : o.given <;> simp [h]
    rw [hl]
    cases o with
    | initFromModel m => rfl
    | setModel m => rfl
    | initFromLeaves l => rfl
    | update => rw [show (Op.update : Op M L ι).given = none from rfl]; exact ih
    | setBest n => rw [show (Op.setBest n : Op M L ι).given = none from rfl]; exact ih
    | addEval d m v => rw [show (Op.addEval d m v : Op M L ι).given = none from rfl]; exact ih

/-- a booster from which a model of three trees was set, after another one of two -/
example (K : Kit Nat Nat) (hK : K.trees = id) : (Session.after K [Op.setModel (ι := Nat) 2, .update, .setModel 3, .setBest 1]).numTrees K = 3 := by
  rw [num_trees_of_last, hK]
  rfl

/-- **C223** (law-free): a booster that was never initialised from a model counts its updates only, and its best iteration is the one set last, 0 if none was set. -/
theorem counters_without_init (K : Kit M L) (ops : List (Op M L ι)) (h : ∀ o ∈ ops, (∀ m, o ≠ .initFromModel m) ∧ ∀ l, o ≠ .initFromLeaves l) :
    (Session.after K ops).current = (ops.filter fun o => match o with | .update => true | _ => false).length ∧
      (Session.after K ops).best = ((ops.filterMap fun o => match o with | .setBest n => some n | _ => none).getLast?).getD 0 := by
  induction ops using List.reverseRecOn with
  | nil => exact ⟨rfl, rfl⟩
  | append_singleton ops o ih =>
    obtain ⟨h1, h2⟩ := ih fun o ho => h o (List.mem_append_left _ ho)
    obtain ⟨g1, g2⟩ := h o (by simp)
    rw [show Session.after K (ops ++ [o]) = (Session.after K ops).apply K o by simp [Session.after], List.filter_append, List.length_append,
      List.filterMap_append]
    cases o with
    | initFromModel m => exact absurd rfl (g1 m)
    | initFromLeaves l => exact absurd rfl (g2 l)
    | setModel m => exact ⟨by simpa [Session.apply] using h1, by rw [List.filterMap_cons_none rfl, List.filterMap_nil, List.append_nil]; exact h2⟩
    | update => exact ⟨by simpa [Session.apply] using h1, by rw [List.filterMap_cons_none rfl, List.filterMap_nil, List.append_nil]; exact h2⟩
    | setBest n => simpa [Session.apply] using h1
    | addEval d m v => exact ⟨by simpa [Session.apply] using h1, by rw [List.filterMap_cons_none rfl, List.filterMap_nil, List.append_nil]; exact h2⟩

example (K : Kit M L) : (Session.after K ([.update, .setBest 3, .update] : List (Op M L ι))).current = 2 :=
  (counters_without_init K _ (by simp)).1

end Scigo.Boost
