import Verif.CV.Validate
import Verif.CV.Props
import Verif.Parallel.Lemmas
import Mathlib.Order.Basic
import Mathlib.Order.Defs.LinearOrder
import Mathlib.Data.List.Sort

/-!
# Properties of cross-validation (C102, C103)
-/

set_option linter.unusedSectionVars false

namespace Scigo.CV

open Scigo.Parallel

variable {α μ : Type _}

theorem cvStart_eq (nFolds : Nat) (m : Memory (Cell α μ)) : cvStart nFolds m = Config.start nFolds nFolds m := by
  unfold cvStart Config.start
  congr 1
  unfold parallelRanges
  split
  · rename_i h; subst h; rfl
  · rename_i h
    have hw : numWorkers nFolds nFolds = nFolds := by unfold numWorkers; simp
    have hc : chunkSize nFolds nFolds = 1 := by
      unfold chunkSize
      rw [hw, show nFolds + nFolds - 1 = nFolds - 1 + nFolds by omega, Nat.add_div_right _ (by omega),
        Nat.div_eq_of_lt (by omega)]
    rw [hw, ← List.filterMap_eq_map]
    apply List.filterMap_congr
    intro i hi
    rw [List.mem_range] at hi
    rw [workerRange_eq, hc, if_neg (by omega)]
    simp only [Function.comp, Nat.mul_one, Option.some.injEq, Prod.mk.injEq, true_and]
    omega

/-- what one fold yields when run alone: an error, or the model with its two scores -/
def Learner.run (L : Learner α μ) (early : Bool) (trX trY teX teY : Mat α) : Except GoErr (μ × α × α) :=
  (L.train early trX trY teX teY).bind fun m =>
    (L.predict m trX).bind fun p => (L.predict m teX).bind fun q => .ok (m, L.score trY p, L.score teY q)

theorem program_run (L : Learner α μ) (early : Bool) (trX trY teX teY : Mat α) (zero : α) :
    match L.run early trX trY teX teY with
    | .error e => (applyAll (L.program early trX trY teX teY) ⟨none, zero, zero, none⟩).err = some e
    | .ok r => applyAll (L.program early trX trY teX teY) ⟨none, zero, zero, none⟩ = ⟨some r.1, r.2.1, r.2.2, none⟩ := by
  unfold Learner.run Learner.program
  cases L.train early trX trY teX teY with
  | error e => simp [Except.bind, applyAll]
  | ok m =>
    simp only [Except.bind]
    cases L.predict m trX with
    | error e => simp [applyAll]
    | ok p =>
      simp only
      cases L.predict m teX with
      | error e => simp [applyAll]
      | ok q => simp [applyAll]

section

variable [LinearOrder α]

/-- C102: under every schedule of the goroutines, when all are done the result is the one of running the
folds one after another: the error of the first failing fold, and otherwise the model, training score and test
score of each fold, each computed from the data of that fold alone. -/
theorem cv_schedule_independent (L : Learner α μ) (early loss : Bool) (nFolds : Nat) (hn : 0 < nFolds) (zero : α)
    (data : Nat → Mat α × Mat α × Mat α × Mat α) (c : Config (Cell α μ))
    (hr : Reaches (L.body early data) (cvStart nFolds (emptyCells zero)) c) (hret : c.returned = true) :
    let run := fun k => L.run early (data k).1 (data k).2.1 (data k).2.2.1 (data k).2.2.2
    (∀ k e, k < nFolds → (∀ j < k, (run j).isOk = true) → run k = .error e → collect loss nFolds c.mem = .err e) ∧
    ((∀ k < nFolds, (run k).isOk = true) → ∃ res, collect loss nFolds c.mem = .ok res ∧
      res.models.length = nFolds ∧ res.train.length = nFolds ∧ res.test.length = nFolds ∧
      ∀ k r, k < nFolds → run k = .ok r →
        res.models[k]? = some (some r.1) ∧ res.train[k]? = some r.2.1 ∧ res.test[k]? = some r.2.2) := by
  intro run
  rw [cvStart_eq] at hr
  have hmem := returned_mem (L.body early data) nFolds nFolds (by omega) (emptyCells zero) c hr hret
  have hcell : ∀ k < nFolds, c.mem k = applyAll (L.body early data k) ⟨none, zero, zero, none⟩ := by
    intro k hk
    rw [hmem, sequential_at, if_pos hk]
    rfl
  have hrun : ∀ k < nFolds, match run k with
      | .error e => (c.mem k).err = some e
      | .ok r => c.mem k = ⟨some r.1, r.2.1, r.2.2, none⟩ := by
    intro k hk
    rw [hcell k hk]
    exact program_run L early _ _ _ _ zero
  constructor
  · intro k e hk hok he
    have : ((List.range nFolds).findSome? fun i => (c.mem i).err) = some e := by
      rw [List.findSome?_eq_some_iff]
      refine ⟨List.range k, k, (List.range' (k + 1) (nFolds - (k + 1))), ?_, ?_, ?_⟩
      · rw [List.range_eq_range', List.range_eq_range']
        have h1 : List.range' 0 nFolds = List.range' 0 k ++ List.range' k (nFolds - k) := by
          have := @List.range'_append_1 0 k (nFolds - k)
          simp only [Nat.zero_add] at this
          rw [this]; congr 1; omega
        rw [h1, show nFolds - k = (nFolds - (k + 1)) + 1 by omega, List.range'_succ]
      · have := hrun k hk
        rw [he] at this
        exact this
      · intro j hj
        rw [List.mem_range] at hj
        have h1 := hok j hj
        have h2 := hrun j (by omega)
        cases hrj : run j with
        | error e' => rw [hrj] at h1; cases h1
        | ok r => rw [hrj] at h2; simp only at h2; rw [h2]
    unfold collect
    rw [this]
  · intro hall
    have hnone : ((List.range nFolds).findSome? fun i => (c.mem i).err) = none := by
      rw [List.findSome?_eq_none_iff]
      intro j hj
      rw [List.mem_range] at hj
      have h1 := hall j hj
      have h2 := hrun j hj
      cases hrj : run j with
      | error e' => rw [hrj] at h1; cases h1
      | ok r => rw [hrj] at h2; simp only at h2; rw [h2]
    refine ⟨_, by unfold collect; rw [hnone]; simp only; rw [if_neg (by omega)], by simp, by simp, by simp, ?_⟩
    intro k r hk he
    have h2 := hrun k hk
    rw [he] at h2
    simp only at h2
    simp [hk, h2]

theorem bestFold_spec (loss : Bool) (score : Nat → α) (nFolds : Nat) (hn : 0 < nFolds) :
    let b := bestFold loss score nFolds
    b.1 < nFolds ∧ b.2 = score b.1 ∧
      (∀ i < nFolds, better loss (score i) b.2 = false) ∧ (∀ i < b.1, better loss b.2 (score i) = true) := by
  have key : ∀ n, let b : Nat × α := ((List.range' 1 n).foldl
      (fun b i => if better loss (score i) b.2 then (i, score i) else b) (0, score 0))
      ; b.1 < n + 1 ∧ b.2 = score b.1 ∧
      (∀ i < n + 1, better loss (score i) b.2 = false) ∧ (∀ i < b.1, better loss b.2 (score i) = true) := by
    intro n
    induction n with
    | zero =>
      refine ⟨by simp, rfl, ?_, by simp⟩
      intro i hi
      have : i = 0 := by omega
      subst this
      cases loss <;> simp [better]
    | succ n ih =>
      rw [List.range'_1_concat, List.foldl_append]
      simp only [List.foldl_cons, List.foldl_nil]
      generalize (List.range' 1 n).foldl
        (fun b i => if better loss (score i) b.2 then (i, score i) else b) (0, score 0) = b at ih ⊢
      obtain ⟨h1, h2, h3, h4⟩ := ih
      rw [show 1 + n = n + 1 by omega]
      split
      · rename_i hb
        refine ⟨by simp, rfl, ?_, ?_⟩
        · intro i hi
          simp only
          rcases Nat.lt_succ_iff_lt_or_eq.1 hi with hi | rfl
          · have := h3 i hi
            cases loss <;> simp [better] at hb this ⊢
            · exact le_trans this hb.le
            · exact le_trans hb.le this
          · cases loss <;> simp [better]
        · intro i hi
          simp only at hi ⊢
          have := h3 i hi
          cases loss <;> simp [better] at hb this ⊢
          · exact lt_of_le_of_lt this hb
          · exact lt_of_lt_of_le hb this
      · rename_i hb
        refine ⟨by omega, h2, ?_, h4⟩
        intro i hi
        rcases Nat.lt_succ_iff_lt_or_eq.1 hi with hi | rfl
        · exact h3 i hi
        · simpa using hb
  have := key (nFolds - 1)
  rw [show nFolds - 1 + 1 = nFolds by omega] at this
  exact this

/-- C103: the best score is the minimum (for a loss) or maximum (for a score) over the test folds, and the
best fold is the first one that attains it. -/
theorem cv_best (loss : Bool) (nFolds : Nat) (m : Memory (Cell α μ)) (res : CVResult α μ)
    (h : collect loss nFolds m = .ok res) :
    res.test[res.best.1]? = some res.best.2 ∧
      (∀ (i : Nat) s, res.test[i]? = some s → if loss then res.best.2 ≤ s else s ≤ res.best.2) ∧
      (∀ (i : Nat) s, i < res.best.1 → res.test[i]? = some s → if loss then res.best.2 < s else s < res.best.2) := by
  unfold collect at h
  split at h
  · cases h
  · split at h
    · cases h
    · rename_i hn
      simp only [Outcome.ok.injEq] at h
      subst h
      simp only
      obtain ⟨h1, h2, h3, h4⟩ := bestFold_spec loss (fun i => (m i).test) nFolds (by omega)
      refine ⟨?_, ?_, ?_⟩
      · rw [List.getElem?_map, List.getElem?_range h1, h2]
        rfl
      · intro i s hs
        rw [List.getElem?_map, Option.map_eq_some_iff] at hs
        obtain ⟨j, hj, rfl⟩ := hs
        rw [List.getElem?_eq_some_iff] at hj
        obtain ⟨hlt, hj⟩ := hj
        rw [List.length_range] at hlt
        rw [List.getElem_range] at hj
        subst hj
        have := h3 i hlt
        cases loss <;> simpa [better] using this
      · intro i s hi hs
        rw [List.getElem?_map, Option.map_eq_some_iff] at hs
        obtain ⟨j, hj, rfl⟩ := hs
        rw [List.getElem?_eq_some_iff] at hj
        obtain ⟨hlt, hj⟩ := hj
        rw [List.getElem_range] at hj
        subst hj
        have := h4 i hi
        cases loss <;> simpa [better] using this

end

/-! ## The data of a fold -/

theorem sort_eq_filter (l : List Nat) (n : Nat) (hnd : l.Nodup) (p : Nat → Bool)
    (h : ∀ x, x ∈ l ↔ x < n ∧ p x = true) :
    l.mergeSort (fun a b => decide (a ≤ b)) = (List.range n).filter p := by
  have hs : (l.mergeSort (fun a b => decide (a ≤ b))).Pairwise fun a b => a ≤ b := by
    have := List.pairwise_mergeSort (le := fun a b : Nat => decide (a ≤ b))
      (fun a b c => by simpa using fun h1 h2 => le_trans h1 h2) (fun a b => by simpa using le_total a b) l
    exact this.imp fun h => by simpa using h
  have hs2 : ((List.range n).filter p).Pairwise fun a b => a ≤ b :=
    (List.pairwise_lt_range.imp fun h => le_of_lt h).filter _
  have hperm : (l.mergeSort (fun a b => decide (a ≤ b))).Perm ((List.range n).filter p) := by
    refine (List.mergeSort_perm _ _).trans ?_
    rw [List.perm_ext_iff_of_nodup hnd (List.nodup_range.filter _)]
    intro x
    rw [h x, List.mem_filter, List.mem_range]
  exact hperm.eq_of_pairwise (fun a b _ _ h1 h2 => le_antisymm h1 h2) hs hs2

/-- C102: the rows a KFold fold trains on are the rows outside its test set in their original order, whatever
the shuffle. -/
theorem cv_train_rows (X : Mat α) (hc : 0 < X.c) (k : Int) (hk : 1 ≤ k) (swaps : Option (List (Nat × Nat)))
    (folds : List Fold) (hf : kfold X.r k swaps = .ok folds) (i : Nat) (f : Fold) (hi : folds[i]? = some f)
    (hne : f.train ≠ []) :
    ∃ T, subset X f.train = .ok T ∧ T.c = X.c ∧
      ((List.range X.r).filter fun s => decide (s ∉ f.test)).length = T.r ∧
      ∀ (a : Nat) s, ((List.range X.r).filter fun s => decide (s ∉ f.test))[a]? = some s → ∀ j, T.at' a j = X.at' s j := by
  obtain ⟨folds', e, -, -, hp⟩ := kfold_partition X.r k hk swaps
  rw [e, Outcome.ok.injEq] at hf
  subst hf
  obtain ⟨-, hnd, hmem⟩ := hp i f hi
  have hsort := sort_eq_filter f.train X.r hnd (fun s => decide (s ∉ f.test))
    (fun x => by rw [hmem x]; simp)
  refine ⟨⟨f.train.length, X.c, fun i j => X.at' ((f.train.mergeSort (fun a b => decide (a ≤ b))).getD i 0) j⟩,
    by unfold subset; rw [if_neg (by simp [hne]; omega)], rfl, ?_, ?_⟩
  · rw [← hsort, List.length_mergeSort]
  · intro a s ha j
    simp only
    rw [hsort, List.getD_eq_getElem?_getD, ha]
    rfl

/-- C102: with more folds than samples a fold has an empty test set, and extracting it panics -/
theorem cv_empty_fold_panics (X : Mat α) (k : Int) (hk : (X.r : Int) < k) (swaps : Option (List (Nat × Nat)))
    (folds : List Fold) (hf : kfold X.r k swaps = .ok folds) :
    ∃ f, folds[X.r]? = some f ∧ f.test = [] ∧ ∃ s, subset X f.test = .panic s := by
  obtain ⟨folds', e, hl, -, hp⟩ := kfold_partition X.r k (by omega) swaps
  rw [e, Outcome.ok.injEq] at hf
  subst hf
  have hlt : X.r < folds'.length := by omega
  obtain ⟨h1, -, -⟩ := hp X.r folds'[X.r] (List.getElem?_eq_getElem hlt)
  have hlen : (folds'[X.r]).test = [] := by
    rw [Nat.div_eq_of_lt (by omega), Nat.mod_eq_of_lt (by omega)] at h1
    simpa using h1
  exact ⟨_, List.getElem?_eq_getElem hlt, hlen, _, by unfold subset; rw [if_pos (.inl hlen)]⟩

/-- C102: without early stopping the model of a fold does not depend on its test rows: data that differ only
there give the same training matrix, hence, for a training procedure that only looks at the entries, the same
model. Missing: early stopping (`cv_early_stopping_uses_test_rows`). -/
theorem cv_no_leak_partial (L : Learner α μ)
    (hL : ∀ X X' y y' : Mat α, X.Eqv X' → y.Eqv y' → L.fit X y = L.fit X' y')
    (X X' y y' : Mat α) (hc : 0 < X.c) (hcy : 0 < y.c) (hX : X.r = X'.r ∧ X.c = X'.c) (hy : y.r = X.r ∧ y'.r = X.r ∧ y.c = y'.c)
    (k : Int) (hk : 1 ≤ k) (swaps : Option (List (Nat × Nat)))
    (folds : List Fold) (hf : kfold X.r k swaps = .ok folds) (i : Nat) (f : Fold) (hi : folds[i]? = some f)
    (hne : f.train ≠ [])
    (hsame : ∀ s, s < X.r → s ∉ f.test → (∀ j < X.c, X.at' s j = X'.at' s j) ∧ ∀ j < y.c, y.at' s j = y'.at' s j) :
    ∃ T T' U U', subset X f.train = .ok T ∧ subset X' f.train = .ok T' ∧ subset y f.train = .ok U ∧
      subset y' f.train = .ok U' ∧ ∀ V V' W W', L.train false T U V W = L.train false T' U' V' W' := by
  have rows := fun (A : Mat α) (h1 : 0 < A.c) (h2 : A.r = X.r) =>
    cv_train_rows A h1 k hk swaps folds (by rw [h2]; exact hf) i f hi hne
  obtain ⟨T, e1, c1, l1, v1⟩ := rows X hc rfl
  obtain ⟨T', e2, c2, l2, v2⟩ := rows X' (by omega) hX.1.symm
  obtain ⟨U, e3, c3, l3, v3⟩ := rows y hcy hy.1
  obtain ⟨U', e4, c4, l4, v4⟩ := rows y' (by omega) hy.2.1
  refine ⟨T, T', U, U', e1, e2, e3, e4, fun V V' W W' => ?_⟩
  unfold Learner.train
  simp only [Bool.false_eq_true, if_false]
  have hmem : ∀ (a : Nat) s, ((List.range X.r).filter fun s => decide (s ∉ f.test))[a]? = some s → s < X.r ∧ s ∉ f.test := by
    intro a s h
    have := List.mem_of_getElem? h
    simpa using this
  rw [← hX.1] at l2 v2
  rw [hy.1] at l3 v3
  rw [hy.2.1] at l4 v4
  refine hL _ _ _ _ ⟨by omega, by omega, ?_⟩ ⟨by omega, by omega, ?_⟩
  · intro a ha j hj
    obtain ⟨s, hs⟩ : ∃ s, ((List.range X.r).filter fun s => decide (s ∉ f.test))[a]? = some s :=
      ⟨_, List.getElem?_eq_getElem (by omega)⟩
    rw [v1 a s hs j, v2 a s hs j]
    exact (hsame s (hmem a s hs).1 (hmem a s hs).2).1 j (by omega)
  · intro a ha j hj
    obtain ⟨s, hs⟩ : ∃ s, ((List.range X.r).filter fun s => decide (s ∉ f.test))[a]? = some s :=
      ⟨_, List.getElem?_eq_getElem (by omega)⟩
    rw [v3 a s hs j, v4 a s hs j]
    exact (hsame s (hmem a s hs).1 (hmem a s hs).2).2 j (by omega)

/-- a learner for the examples: the model is the number of training rows, plus the number of validation rows -/
def exLearner : Learner Nat Nat :=
  ⟨fun X _ => .ok X.r, fun X _ V _ => .ok (X.r + V.r), fun m X => .ok ⟨X.r, 1, fun _ _ => m⟩, fun y p => y.r * p.at' 0 0⟩

/-- C102 fails with early stopping: the test rows of a fold are the validation data its model is chosen on. -/
theorem cv_early_stopping_uses_test_rows : ∃ (L : Learner Nat Nat) (trX trY teX teY teX' teY' : Mat Nat),
    L.train true trX trY teX teY ≠ L.train true trX trY teX' teY' :=
  ⟨exLearner, ⟨3, 1, fun _ _ => 0⟩, ⟨3, 1, fun _ _ => 0⟩, ⟨1, 1, fun _ _ => 0⟩, ⟨1, 1, fun _ _ => 0⟩,
    ⟨2, 1, fun _ _ => 0⟩, ⟨2, 1, fun _ _ => 0⟩, by
      intro h
      have h1 : (Except.ok (3 + 1) : Except GoErr Nat) = .ok (3 + 2) := h
      cases h1⟩

/-- two folds whose goroutines interleave -/
example : ∃ c : Config (Cell Nat Nat),
    Reaches (exLearner.body false fun k => (⟨k + 1, 1, fun _ _ => 0⟩, ⟨k + 1, 1, fun _ _ => 0⟩,
      ⟨1, 1, fun _ _ => 0⟩, ⟨1, 1, fun _ _ => 0⟩)) (cvStart 2 (emptyCells 0)) c ∧ c.returned = true ∧
    (c.mem 1).test = 2 := by
  refine ⟨_, .tail (.tail (.tail (.tail (.tail (.tail (.tail (.tail (.tail (.tail (.tail .refl
      (.spawn (0, 1) [(1, 2)] [] 0 _)) (.spawn (1, 2) [] _ 1 _)) (.work [] [] _ _ _ 2 _))
      (.work [] [_] _ _ [] 2 _)) (.work [] [_] _ _ [] 2 _)) (.work [] [_] _ _ [] 2 _)) (.work [] [] _ _ _ 2 _))
      (.work [] [] _ _ _ 2 _)) (.done [] [] _ 1 _)) (.done [] [] [] 0 _)) (.wait _), rfl, rfl⟩

end Scigo.CV
