import Verif.Boost.Booster

/-!
# The booster handle: theorems
-/

namespace Scigo.Boost

section

variable {τ ι X R : Type _}

/-- what a prediction with the first `n` trees should be; a count that is not positive means all trees -/
def predictFirst (pred : List τ → X → Outcome R) (trees : List τ) (n : Int) (x : X) : Outcome R :=
  if n ≤ 0 then pred trees x else pred (trees.take n.toNat) x

/-- C107 (partial): on a trained booster the iteration limit is respected when it is not positive or not below the
number of trees. Missing: every smaller limit is ignored (`iteration_limit_ignored`). -/
theorem iteration_limit_partial (pred predLeaves : List τ → X → Outcome R) (store : Nat → MRec τ) (b : Handle τ ι) (a : Nat)
    (hp : b.predictor = some a) (hl : b.leaves = none) (n : Int) (hn : n ≤ 0 ∨ ((store a).trees.length : Int) ≤ n) (x : X) :
    b.predict pred predLeaves store [withNumIteration n] x = predictFirst pred (store a).trees n x := by
  simp only [Handle.predict, hp, hl, predictFirst]
  split
  · rfl
  · rw [List.take_of_length_le (by omega)]

/-- C107 is false: no list of options changes any prediction, and there is a model where the limit should -/
theorem iteration_limit_ignored :
    (∀ (τ ι X R : Type) (pred predLeaves : List τ → X → Outcome R) (store : Nat → MRec τ) (b : Handle τ ι)
      (options : List (PredictOpts → PredictOpts)) (x : X),
      b.predict pred predLeaves store options x = b.predict pred predLeaves store [] x) ∧
    ∃ (store : Nat → MRec Int) (b : Handle Int Int) (pred : List Int → Int → Outcome Int),
      b.predictor = some 0 ∧ b.leaves = none ∧
        b.predict pred pred store [withNumIteration 1] 5 ≠ predictFirst pred (store 0).trees 1 5 := by
  refine ⟨?_, fun _ => ⟨[2, 3], []⟩, (Handle.new).setModel 0, fun ts x => .ok (ts.sum * x), rfl, rfl, by decide⟩
  intro τ ι X R pred predLeaves store b options x
  rfl

/-- C108 (partial): the clone of a booster that was not loaded from a file predicts the same, and later evaluation
results or cached importances of one are not seen by the other. Missing: clones of loaded boosters
(`clone_of_loaded_fails`) and feature names (`clone_shares_model`). -/
theorem clone_same_partial (pred predLeaves : List τ → X → Outcome R) (store : Nat → MRec τ) (b : Handle τ ι)
    (hl : b.leaves = none) (options : List (PredictOpts → PredictOpts)) (x : X) (key : String) (v : ι) :
    b.clone.predict pred predLeaves store options x = b.predict pred predLeaves store options x ∧
      b.clone.numTrees store = b.numTrees store ∧ b.clone.evals = b.evals ∧
      ((b.clone.addEval key v).evals key = b.evals key ++ [v] ∧ b.evals key = b.clone.evals key) := by
  refine ⟨?_, rfl, rfl, ?_, rfl⟩
  · simp [Handle.clone, Handle.predict, hl]
  · simp [Handle.addEval, Handle.clone]

/-- C108 is false: the clone of a loaded booster cannot predict, whatever was loaded -/
theorem clone_of_loaded_fails (pred predLeaves : List τ → X → Outcome R) (store : Nat → MRec τ) (a : Nat) (trees : List τ)
    (options : List (PredictOpts → PredictOpts)) (x : X) :
    ((load store a trees : _ × Handle τ ι).2).predict pred predLeaves (load store a trees : _ × Handle τ ι).1 options x =
        predLeaves trees x ∧
      ((load store a trees : _ × Handle τ ι).2).clone.predict pred predLeaves (load store a trees : _ × Handle τ ι).1
        options x = .err (.other "model not initialized") :=
  ⟨rfl, rfl⟩

/-- C108 is false: naming the features of a clone renames those of the original's model -/
theorem clone_shares_model (store : Nat → MRec τ) (b : Handle τ ι) (a : Nat) (hm : b.model = some a) (names : List String) :
    ((b.clone.setFeatureNames store names).1 a).names = names := by
  simp [Handle.setFeatureNames, Handle.clone, hm]

/-- C109 (partial): as long as the model of a booster is not replaced, every answer is the importance of the model.
Missing: after replacing the model the cached values of the old one are returned (`importance_stale`). -/
theorem importance_partial (imp : List τ → String → List ι) (store : Nat → MRec τ) (a : Nat) (ts : List String) (t : String) :
    ((ts.foldl (fun b t => (b.featureImportance imp store t).1) ((Handle.new : Handle τ ι).setModel a)).featureImportance
      imp store t).2 = some (imp (store a).trees t) := by
  have inv : ∀ (ts : List String) (b : Handle τ ι), b.model = some a →
      (∀ k v, b.cache k = some v → v = imp (store a).trees k) →
      let b' := ts.foldl (fun b t => (b.featureImportance imp store t).1) b
      b'.model = some a ∧ ∀ k v, b'.cache k = some v → v = imp (store a).trees k := by
    intro ts
    induction ts with
    | nil => intro b h1 h2; exact ⟨h1, h2⟩
    | cons t ts ih =>
      intro b h1 h2
      rw [List.foldl_cons]
      apply ih
      · simp only [Handle.featureImportance, h1]; split <;> simp [h1]
      · intro k v
        simp only [Handle.featureImportance, h1]
        split
        · exact h2 k v
        · simp only
          by_cases hk : k = t
          · rw [if_pos hk]; intro h; cases h; rw [hk]
          · rw [if_neg hk]; exact h2 k v
  obtain ⟨h1, h2⟩ := inv ts ((Handle.new : Handle τ ι).setModel a) rfl (fun k v h => by
    simp [Handle.new, Handle.setModel] at h)
  generalize ts.foldl (fun b t => (b.featureImportance imp store t).1) ((Handle.new : Handle τ ι).setModel a) = b at h1 h2 ⊢
  simp only [Handle.featureImportance, h1]
  split
  · rename_i v hv; simp [h2 t v hv]
  · rfl

/-- C109 is false: after the importance was asked once, replacing the model leaves the old answer -/
theorem importance_stale (imp : List τ → String → List ι) (store : Nat → MRec τ) (a a' : Nat) (t : String) :
    ((((((Handle.new : Handle τ ι).setModel a).featureImportance imp store t).1).setModel a').featureImportance
      imp store t).2 = some (imp (store a).trees t) := by
  simp [Handle.featureImportance, Handle.setModel, Handle.new]

example : ∃ (imp : List Nat → String → List Nat) (store : Nat → MRec Nat),
    imp (store 0).trees "split" ≠ imp (store 1).trees "split" :=
  ⟨fun ts _ => ts, fun n => ⟨[n], []⟩, by decide⟩

/-- C110 is false: a booster loaded from a file reports no trees, and saving it writes none, although it predicts
with all of them -/
theorem loaded_reports_no_trees (pred predLeaves : List τ → X → Outcome R) (store : Nat → MRec τ) (a : Nat) (trees : List τ)
    (x : X) :
    ((load store a trees : _ × Handle τ ι).2).numTrees (load store a trees : _ × Handle τ ι).1 = 0 ∧
      ((load store a trees : _ × Handle τ ι).2).save (load store a trees : _ × Handle τ ι).1 = .ok [] ∧
      ((load store a trees : _ × Handle τ ι).2).predict pred predLeaves (load store a trees : _ × Handle τ ι).1 [] x =
        predLeaves trees x := by
  simp [load, Handle.numTrees, Handle.save, Handle.predict, Handle.new]

/-- C110 (partial): for a booster with a model of its own, the trees counted are the trees saved. Missing: loaded
boosters (`loaded_reports_no_trees`). -/
theorem saved_trees_partial (store : Nat → MRec τ) (b : Handle τ ι) (a : Nat) :
    (b.setModel a).save store = .ok (store a).trees ∧ (b.setModel a).numTrees store = (store a).trees.length ∧
      (Handle.new : Handle τ ι).save store = .err (.other "no model to save") := ⟨rfl, rfl, rfl⟩

end

end Scigo.Boost
