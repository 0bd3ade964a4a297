import Verif.Trainer.ServeProps
import Verif.LGB.ImportanceProps

/-!
# C220: the feature importances of a model that was trained here
-/

set_option linter.unusedSectionVars false

namespace Scigo.Trainer

variable {α : Type} [Field α] [LinearOrder α] [IsStrictOrderedRing α]

open LGB (Node)

theorem layout_splits (G : Grower α) {k : Nat} (hfeat : ∀ I, (G.find I).feature = -1 ∨ 0 ≤ (G.find I).feature ∧ (G.find I).feature < k)
    {c : Nat} {I : List Nat} {depth : Nat} {T : GTree α} (h : Grown G c I depth T) (base : Nat) :
    ∀ n ∈ T.layout G base, n.isLeaf = false → 0 ≤ n.feature ∧ n.feature < k ∧ G.lim.minGain ≤ n.gain := by
  induction h generalizing base with
  | leaf c I depth _ =>
    intro n hn hl
    rw [GTree.layout, List.mem_singleton] at hn
    subst hn
    cases hl
  | node c I depth l r _ hr _ _ ihl ihr =>
    intro n hn hl
    rw [GTree.layout] at hn
    rcases List.mem_cons.1 hn with e | hn
    · subst e
      have hr' := hr
      rw [Grower.refuses, Bool.or_eq_false_iff] at hr'
      obtain ⟨h1, h2⟩ := hr'
      rw [decide_eq_false_iff_not] at h1 h2
      rcases hfeat I with h | h
      · exact absurd h h1
      · exact ⟨h.1, h.2, not_lt.1 h2⟩
    · rcases List.mem_append.1 hn with hn | hn
      · exact ihl _ n hn hl
      · exact ihr _ n hn hl

/-- the splits of a trained model name its features and reach the least gain -/
theorem trained_splits (C : Config α) (lib : Lib α) (hperm : ∀ l, (lib.byRatio l).Perm l) (byGrad : (Nat → α) → List Nat → List Nat)
    (rand : Nat → Nat → Nat) (fuel : Nat) (P : Problem α) (before after : Nat → St α → CB) (st : St α)
    (h : C.fit lib byGrad rand fuel P before after St.new = .ok st) (name : String) (numClass : Int) :
    ∀ n ∈ (C.getModel name numClass P st).splits, 0 ≤ n.feature ∧ n.feature < P.cols ∧ C.lim.minGain ≤ n.gain := by
  intro n hn
  obtain ⟨hn, hl⟩ := List.mem_filter.1 hn
  obtain ⟨t, ht, hn⟩ := List.mem_flatMap.1 hn
  obtain ⟨j, hj, rfl⟩ := List.getElem_of_mem (show t ∈ st.trees from ht)
  obtain ⟨_, _, hb⟩ := (fit_boosts C lib byGrad rand fuel P before after st h).2.2.2.1 j _ (List.getElem?_eq_getElem hj)
  dsimp only at hb
  rw [buildTree_eq, Option.map_eq_some_iff] at hb
  obtain ⟨T, hT, e⟩ := hb
  rw [← e] at hn
  exact layout_splits _ (fun I => findBestSplit_feature lib hperm _ _ _ _ _ I) (growT_grown _ hT) 0 n hn (by simpa using hl)

/-- **C220 (trained models).** The importances of a model trained here never panic: for either type there is one per
column of the training data. Those of type "split" sum to 1 as soon as there is a split, those of type "gain" as soon as
there is a split and the least gain asked for is positive; none is negative if that is not negative. -/
theorem trained_importance (C : Config α) (lib : Lib α) (hperm : ∀ l, (lib.byRatio l).Perm l) (byGrad : (Nat → α) → List Nat → List Nat)
    (rand : Nat → Nat → Nat) (fuel : Nat) (P : Problem α) (before after : Nat → St α → CB) (st : St α)
    (h : C.fit lib byGrad rand fuel P before after St.new = .ok st) (name : String) (numClass : Int) :
    (∃ imp, (C.getModel name numClass P st).featureImportance "split" = .ok imp ∧ imp.length = P.cols ∧
      ((C.getModel name numClass P st).splits ≠ [] → imp.sum = 1)) ∧
    ∃ imp, (C.getModel name numClass P st).featureImportance "gain" = .ok imp ∧ imp.length = P.cols ∧
      (0 ≤ C.lim.minGain → ∀ v ∈ imp, 0 ≤ v) ∧
      (0 < C.lim.minGain → (C.getModel name numClass P st).splits ≠ [] → imp.sum = 1) := by
  have hs := trained_splits C lib hperm byGrad rand fuel P before after st h name numClass
  have hN : 0 ≤ (C.getModel name numClass P st).numFeatures := Int.natCast_nonneg P.cols
  have hok : (C.getModel name numClass P st).FeaturesOk := fun n hn => ⟨(hs n hn).1, (hs n hn).2.1⟩
  constructor
  · obtain ⟨imp, e, hl, -, h1⟩ := LGB.split_importance _ hN hok
    exact ⟨imp, e, hl, h1⟩
  · obtain ⟨imp, e, hl, h1, -, h2⟩ := LGB.gain_importance _ hN hok
    refine ⟨imp, e, hl, fun hm => h2 fun n hn => hm.trans (hs n hn).2.2, fun hm hne => (h1 ?_).2⟩
    obtain ⟨n, hn⟩ := List.exists_mem_of_ne_nil _ hne
    refine lt_of_lt_of_le (lt_of_lt_of_le hm (hs n hn).2.2) ?_
    exact List.single_le_sum (fun x hx => by
      obtain ⟨n', hn', rfl⟩ := List.mem_map.1 hx
      exact hm.le.trans (hs n' hn').2.2) _ (List.mem_map_of_mem hn)

/-- the importances of the model trained in an example -/
def exImportance (kind : String) : Option (List Rat) :=
  match exRun 2 1 [1, 2] [0, 4] St.new with
  | .ok st => match ((exConfig 2 1).getModel "regression" 0 (exProblem [1, 2] [0, 4]) st).featureImportance kind with
    | .ok imp => some imp
    | _ => none
  | _ => none

example : exImportance "gain" = some [1] ∧ exImportance "split" = some [1] ∧ exImportance "weight" = some [0] := by decide +kernel

end Scigo.Trainer
