import Verif.Wrapper.TrainProps

/-!
# C344: the ranking objectives
-/

set_option linter.unusedSectionVars false

namespace Scigo.Wrapper

/-- the names of the ranking objectives (`sklearn/lightgbm/objectives.go:715`) -/
def rankingNames : List String := ["lambdarank", "rank_xendcg"]

section
variable {α : Type} [DecidableEq α] [LT α] [DecidableLT α] [LE α] [DecidableLE α] [Zero α] [One α] [Add α] [Sub α] [Neg α] [Mul α] [Div α]

theorem ranking_objective (N : Online.Num α) (L : Boost.Lits α) (floor ceil : α → Nat) (delta c a v dv : α) (name : String) (hn : name ∈ rankingNames) :
    Boost.createObjective N L floor ceil delta c a v dv name = some (Boost.l2 N) := by
  simp only [rankingNames, List.mem_cons, List.not_mem_nil, or_false] at hn
  unfold Boost.createObjective
  rcases hn with rfl | rfl
  all_goals
    rw [if_neg (by decide +kernel), if_neg (by decide +kernel), if_neg (by decide +kernel), if_neg (by decide +kernel), if_neg (by decide +kernel), if_neg (by decide +kernel),
      if_neg (by decide +kernel), if_neg (by decide +kernel), if_pos (by decide +kernel)]

/-- **C344 is false of the code.** Training for ranking is regression on the relevances: on any data and with any options the same trees, starting score and outcome as with the squared error;
only the name in the model differs. The query groups do not enter. -/
theorem ranking_trains_regression (E : Env α) (r : Request α) (name : String) (hn : name ∈ rankingNames) (X y : Mat α) :
    train E { r with objective := name } X y = (train E { r with objective := "regression" } X y).bind fun m => .ok { m with objective := name } := by
  have hr : ∀ a b c d e, Boost.createObjective E.num E.lits E.floor E.ceil a b c d e "regression" = some (Boost.l2 E.num) := by
    intro a b c d e
    unfold Boost.createObjective
    rw [if_pos (by decide +kernel)]
  have hw : ∀ n, n = "regression" ∨ n ∈ rankingNames → decide (n = "multiclass" ∨ n = "multiclass_native") = false := by
    intro n hn
    simp only [rankingNames, List.mem_cons, List.not_mem_nil, or_false] at hn
    rcases hn with rfl | rfl | rfl <;> decide +kernel
  have hc : ({ r with objective := name } : Request α).config E (Boost.l2 E.num) = ({ r with objective := "regression" } : Request α).config E (Boost.l2 E.num) := by
    unfold Request.config
    dsimp only
    rw [hw name (.inr hn), hw "regression" (.inl rfl)]
  unfold train
  dsimp only
  rw [ranking_objective _ _ _ _ _ _ _ _ _ name hn, hr]
  dsimp only
  rw [hc]
  have key : ∀ (o : Outcome (Trainer.St α)) (C : Trainer.Config α) (P : Trainer.Problem α), (o.bind fun st => .ok (C.getModel name r.numClass P st)) =
      (o.bind fun st => .ok (C.getModel "regression" r.numClass P st)).bind fun m => .ok { m with objective := name } := by
    intro o C P
    cases o <;> rfl
  exact key _ _ _

end

/-- **C344 is false of the code.** A query with one document has nothing to rank, but it has a gradient unless it is predicted to have exactly its relevance. -/
theorem single_document_gradient {K : Type} [Field K] [LinearOrder K] [IsStrictOrderedRing K] (N : Online.Num K) (p t : K) : (Boost.l2 N).grad p t = 0 ↔ p = t :=
  sub_eq_zero

/-- **C344**, what holds (exact arithmetic): of two documents with the same score the more relevant one is pushed up more. Missing: that the gradients depend on the order within the queries
only. -/
theorem relevant_pushed_up_partial {K : Type} [Field K] [LinearOrder K] [IsStrictOrderedRing K] (N : Online.Num K) (p t t' : K) (h : t < t') :
    -(Boost.l2 N).grad p t / (Boost.l2 N).hess p t < -(Boost.l2 N).grad p t' / (Boost.l2 N).hess p t' := by
  show -(p - t) / 1 < -(p - t') / 1
  rw [div_one, div_one]
  linarith

/-- the relevances 0, 1 and 3 on one column: a tree is trained, and the starting score is their mean -/
example : (match train exEnv { (exReg "" "regression").request (1 / 10000000) with objective := "lambdarank" } (exCol [1, 2, 3]) (exCol [0, 1, 3]) with
    | .ok m => (m.objective, m.trees.length, m.initScore)
    | _ => ("", 0, 0)) = ("lambdarank", 1, 4 / 3) := by decide +kernel

example : (Boost.l2 exEnv.num).grad (0 : Rat) 2 ≠ 0 := fun h => by
  have := (single_document_gradient exEnv.num 0 2).1 h
  norm_num at this

end Scigo.Wrapper
