import Verif.LGB.PredictParallel
import Verif.Parallel.Lemmas
import Mathlib.Data.List.GetD

/-!
# C52: parallel prediction equals sequential prediction, batch equals row by row
-/

set_option linter.unusedSectionVars false

namespace Scigo.LGB

open Scigo.Parallel

/-! ## ranges -/

theorem pWorkers_pos {threads rows : Nat} (ht : 1 ≤ threads) (hr : 1 ≤ rows) : 1 ≤ pWorkers threads rows := by
  unfold pWorkers; split <;> omega

theorem rows_le {threads rows : Nat} (ht : 1 ≤ threads) (hr : 1 ≤ rows) :
    rows ≤ pWorkers threads rows * pChunk threads rows := by
  have hw := pWorkers_pos ht hr
  unfold pChunk
  have := Nat.div_add_mod (rows + pWorkers threads rows - 1) (pWorkers threads rows)
  have := Nat.mod_lt (rows + pWorkers threads rows - 1) hw
  omega

theorem pRange_prefix (threads rows n : Nat) :
    ((List.range n).map (pRange threads rows)).flatMap (fun r => List.range' r.1 (r.2 - r.1))
      = List.range (min (n * pChunk threads rows) rows) := by
  induction n with
  | zero => simp
  | succ n ih =>
    rw [List.range_succ, List.map_append, List.flatMap_append, ih]
    simp only [List.map_cons, List.map_nil, List.flatMap_cons, List.flatMap_nil, List.append_nil, pRange]
    have e : (n + 1) * pChunk threads rows = n * pChunk threads rows + pChunk threads rows := by ring
    rw [e]
    generalize n * pChunk threads rows = a
    generalize pChunk threads rows = c
    by_cases h : a ≤ rows
    · have h1 : min a rows = a := by omega
      rw [h1]
      split
      · have h2 : min (a + c) rows = rows := by omega
        rw [h2, range_append_range' h]
      · have h2 : min (a + c) rows = a + c := by omega
        rw [h2, range_append_range' (by omega)]
    · have h1 : min a rows = rows := by omega
      have h2 : min (a + c) rows = rows := by omega
      rw [h1, h2, if_pos (by omega)]
      have : rows - a = 0 := by omega
      rw [this]; simp

theorem pRanges_flatMap {threads rows : Nat} (ht : 1 ≤ threads) (hr : 1 ≤ rows) :
    (pRanges threads rows).flatMap (fun r => List.range' r.1 (r.2 - r.1)) = List.range rows := by
  rw [pRanges, pRange_prefix, Nat.min_eq_right (rows_le ht hr)]

theorem pRanges_pairwise (threads rows : Nat) :
    (pRanges threads rows).Pairwise (fun r s => r.2 ≤ s.1) := by
  unfold pRanges
  rw [List.pairwise_map]
  refine List.pairwise_lt_range.imp ?_
  intro a b hab
  simp only [pRange]
  have : (a + 1) * pChunk threads rows ≤ b * pChunk threads rows := Nat.mul_le_mul_right _ hab
  have e : (a + 1) * pChunk threads rows = a * pChunk threads rows + pChunk threads rows := by ring
  split <;> omega

/-! ## simulation by the goroutines of `Parallelize` -/

variable {β : Type _}

/-- the configuration with the counter of `Parallelize` -/
def counted (c : Config β) : Config β := ⟨c.pending, c.workers, c.workers.length, c.mem, c.returned⟩

theorem pwg {body : Nat → List (β → β)} {c c' : Config β} (h : PReaches body c c')
    (e : c.wg = c.pending.length + c.workers.length) : c'.wg = c'.pending.length + c'.workers.length := by
  induction h with
  | refl => exact e
  | tail _ hs ih => cases hs <;> simp_all <;> omega

theorem counted_step {body : Nat → List (β → β)} {c c' : Config β} (h : PStep body c c')
    (e : c.wg = c.pending.length + c.workers.length) : Step body (counted c) (counted c') := by
  cases h with
  | spawn r rest ws n m =>
    have := Step.spawn (body := body) r rest ws ws.length m
    simpa [counted] using this
  | work pend A a p B n m =>
    have := Step.work (body := body) pend A a p B (A.length + (B.length + 1)) m
    simpa [counted] using this
  | done pend A B n m =>
    have := Step.done (body := body) pend A B (A.length + B.length) m
    simpa [counted, Nat.add_assoc] using this
  | wait ws m =>
    have : ws = [] := by
      simp at e; exact List.length_eq_zero_iff.1 e.symm
    subst this
    exact Step.wait m

theorem counted_reaches {body : Nat → List (β → β)} {c c' : Config β} (h : PReaches body c c')
    (e : c.wg = c.pending.length + c.workers.length) : Reaches body (counted c) (counted c') := by
  induction h with
  | refl => exact .refl
  | tail h hs ih => exact ih.tail (counted_step hs (pwg h e))

theorem start_wg (threads rows : Nat) (m : Memory β) :
    (pStart threads rows m).wg = (pStart threads rows m).pending.length + (pStart threads rows m).workers.length := by
  simp [pStart, pRanges]

theorem pReturned {body : Nat → List (β → β)} {threads rows : Nat} (ht : 1 ≤ threads) (hr : 1 ≤ rows)
    (m : Memory β) (c : Config β) (h : PReaches body (pStart threads rows m) c) (hret : c.returned = true) :
    c.mem = sequential body rows m := by
  have := counted_reaches h (start_wg threads rows m)
  have i := inv_reaches this
    (inv_ranges body rows _ (pRanges_flatMap ht hr) (pRanges_pairwise threads rows) m _)
  exact inv_returned (c := counted c) i hret

/-! ## rows -/

variable {α : Type _} [BEq α] [LE α] [DecidableLE α] [LT α] [DecidableLT α] [Zero α] [One α] [Add α] [Sub α]
  [Neg α] [Mul α] [Div α]

theorem forRows_ok {X : Mat α} {f : List α → Outcome (List α)} (n : Nat) (rows : List (List α)) :
    forRows X f n = .ok rows ↔ rows.length = n ∧ ∀ i < n, f (rowOf X i) = .ok (rows.getD i []) := by
  induction n generalizing rows with
  | zero =>
    simp only [forRows, Outcome.ok.injEq]
    constructor
    · rintro rfl; exact ⟨rfl, by simp⟩
    · rintro ⟨h, -⟩; exact (List.length_eq_zero_iff.1 h).symm
  | succ n ih =>
    constructor
    · intro h
      simp only [forRows] at h
      cases hr : forRows X f n with
      | err e => rw [hr] at h; cases h
      | panic e => rw [hr] at h; cases h
      | ok rs =>
        rw [hr] at h
        simp only at h
        cases hf : f (rowOf X n) with
        | err e => rw [hf] at h; cases h
        | panic e => rw [hf] at h; cases h
        | ok p =>
          rw [hf] at h
          simp only [Outcome.ok.injEq] at h
          subst h
          obtain ⟨h1, h2⟩ := (ih rs).1 hr
          refine ⟨by simp [h1], fun i hi => ?_⟩
          by_cases hin : i < n
          · rw [h2 i hin, List.getD_append _ _ _ _ (by omega)]
          · have : i = n := by omega
            subst this
            rw [hf, ← h1]
            simp
    · rintro ⟨h1, h2⟩
      have hne : rows ≠ [] := by intro h; simp [h] at h1
      obtain ⟨rs, p, rfl⟩ : ∃ rs p, rows = rs ++ [p] :=
        ⟨rows.dropLast, rows.getLast hne, (List.dropLast_append_getLast hne).symm⟩
      have hl : rs.length = n := by simpa using h1
      have h3 : forRows X f n = .ok rs := by
        refine (ih rs).2 ⟨hl, fun i hi => ?_⟩
        rw [h2 i (by omega), List.getD_append _ _ _ _ (by omega)]
      have h4 := h2 n (by omega)
      rw [← hl] at h4
      simp only [forRows, h3]
      rw [← hl, h4]
      simp

/-- one row of a matrix as a matrix -/
def rowMat (X : Mat α) (i : Nat) : Mat α := ⟨1, X.c, fun _ j => X.at' i j⟩

theorem rowOf_rowMat (X : Mat α) (i k : Nat) : rowOf (rowMat X i) k = rowOf X i := rfl

theorem batch_ok {m : Model α} {X : Mat α} {f : List α → Outcome (List α)} {M : Mat α}
    (h : m.batch X f = .ok M) :
    (X.c : Int) = m.numFeatures ∧ X.r ≠ 0 ∧ M.r = X.r ∧ M.c = m.outCols ∧
      ∀ i < X.r, ∃ p, f (rowOf X i) = .ok p ∧ ∀ j, M.at' i j = p.getD j 0 := by
  simp only [Model.batch] at h
  split at h
  · cases h
  next h1 =>
  split at h
  · cases h
  next h2 =>
  cases hr : forRows X f X.r with
  | err e => rw [hr] at h; cases h
  | panic e => rw [hr] at h; cases h
  | ok rows =>
    rw [hr] at h
    simp only [Outcome.ok.injEq] at h
    subst h
    refine ⟨by push Not at h1; exact h1, h2, rfl, rfl, fun i hi => ?_⟩
    exact ⟨_, ((forRows_ok _ _).1 hr).2 i hi, fun j => rfl⟩

theorem batch_all_ok {m : Model α} {X : Mat α} {f : List α → Outcome (List α)}
    (hc : (X.c : Int) = m.numFeatures) (hr : X.r ≠ 0) (h : ∀ i < X.r, ∃ p, f (rowOf X i) = .ok p) :
    ∃ M, m.batch X f = .ok M := by
  choose! g hg using h
  have : forRows X f X.r = .ok ((List.range X.r).map g) := by
    refine (forRows_ok _ _).2 ⟨by simp, fun i hi => ?_⟩
    rw [hg i hi, List.getD_eq_getElem _ _ (by simpa using hi)]
    simp
  refine ⟨⟨X.r, m.outCols, fun i j => (((List.range X.r).map g).getD i []).getD j 0⟩, ?_⟩
  simp only [Model.batch]
  rw [if_neg (by simpa using hc), if_neg hr, this]

/-- **C52** (law-free), any of the batch predictions (`Model.Predict`, `Predictor.Predict`,
`PredictRawScore`, all of the form `batch`): if the batch is predicted, every row predicted alone gives the
same row; and if every row can be predicted alone, so can the batch. -/
theorem batch_row_by_row (m : Model α) (X : Mat α) (f : List α → Outcome (List α)) :
    (∀ M, m.batch X f = .ok M → M.r = X.r ∧ M.c = m.outCols ∧
      ∀ i < X.r, ∃ M', m.batch (rowMat X i) f = .ok M' ∧ M'.r = 1 ∧ M'.c = m.outCols ∧
        ∀ j < m.outCols, M'.at' 0 j = M.at' i j) ∧
    (X.r ≠ 0 → (∀ i < X.r, ∃ M', m.batch (rowMat X i) f = .ok M') → ∃ M, m.batch X f = .ok M) := by
  constructor
  · intro M h
    obtain ⟨h1, h2, h3, h4, h5⟩ := batch_ok h
    refine ⟨h3, h4, fun i hi => ?_⟩
    obtain ⟨p, hp, hM⟩ := h5 i hi
    obtain ⟨M', hM'⟩ := batch_all_ok (m := m) (X := rowMat X i) (f := f) h1 (by simp [rowMat])
      (fun k _ => ⟨p, by rw [rowOf_rowMat]; exact hp⟩)
    obtain ⟨-, -, g3, g4, g5⟩ := batch_ok hM'
    refine ⟨M', hM', g3, g4, fun j hj => ?_⟩
    obtain ⟨q, hq, hMq⟩ := g5 0 (by simp [rowMat])
    rw [rowOf_rowMat, hp] at hq
    obtain rfl := Outcome.ok.inj hq
    rw [hMq, hM]
  · intro hr h
    have hc : (X.c : Int) = m.numFeatures := by
      obtain ⟨M', hM'⟩ := h 0 (by omega)
      exact (batch_ok hM').1
    refine batch_all_ok hc hr (fun i hi => ?_)
    obtain ⟨M', hM'⟩ := h i hi
    obtain ⟨-, -, -, -, g5⟩ := batch_ok hM'
    obtain ⟨p, hp, -⟩ := g5 0 (by simp [rowMat])
    exact ⟨p, by rw [rowOf_rowMat] at hp; exact hp⟩

theorem writes_row (k : Nat) (p row : List α) (hl : row.length = k) :
    applyAll ((List.range k).map (fun j (row : List α) => row.set j (p.getD j 0))) row
      = (List.range k).map (fun j => p.getD j 0) := by
  have gen : ∀ n ≤ k, applyAll ((List.range n).map (fun j (row : List α) => row.set j (p.getD j 0))) row
      = (List.range n).map (fun j => p.getD j 0) ++ row.drop n := by
    intro n hn
    induction n with
    | zero => simp [applyAll]
    | succ n ih =>
      have h0 := ih (by omega)
      simp only [applyAll] at h0 ⊢
      rw [List.range_succ, List.map_append, List.foldl_append, h0]
      simp only [List.map_cons, List.map_nil, List.foldl_cons, List.foldl_nil, List.map_append]
      rw [List.set_append_right _ _ (by simp)]
      simp only [List.length_map, List.length_range, Nat.sub_self, List.append_assoc]
      congr 1
      rw [List.drop_eq_getElem_cons (by omega), List.set_cons_zero]
      rfl
  rw [gen k le_rfl, ← hl]
  simp

/-- **C52** (law-free, every schedule, every number of threads). Whenever `predictParallel` has returned
its matrix is that of the sequential loop, whatever the interleaving of the goroutines was. -/
theorem parallel_predict_schedule_independent (m : Model α) (X : Mat α) (f : List α → Outcome (List α))
    (threads : Nat) (ht : 1 ≤ threads) (M : Mat α) (hM : m.batch X f = .ok M) (c : Config (List α))
    (hr : PReaches (rowWrites m X f) (pStart threads X.r (zeroRows m)) c) (hret : c.returned = true) :
    ∀ i < X.r, c.mem i = (List.range m.outCols).map (M.at' i) := by
  obtain ⟨-, h2, h3, h4, h5⟩ := batch_ok hM
  intro i hi
  rw [pReturned ht (by omega) _ c hr hret, sequential_at, if_pos hi]
  obtain ⟨p, hp, hMp⟩ := h5 i hi
  simp only [rowWrites, hp]
  rw [writes_row _ _ _ (by simp [zeroRows])]
  exact List.map_congr_left (fun j _ => (hMp j).symm)

/-- **C52** for `Predictor.Predict` -/
theorem predictor_parallel_eq_sequential (N : ENum α) (m : Model α) (X : Mat α) (threads : Nat) (ht : 1 ≤ threads)
    (M : Mat α) (hM : m.pPredict N X = .ok M) (c : Config (List α))
    (hr : PReaches (rowWrites m X (m.pSample N)) (pStart threads X.r (zeroRows m)) c) (hret : c.returned = true) :
    ∀ i < X.r, c.mem i = (List.range m.outCols).map (M.at' i) :=
  parallel_predict_schedule_independent m X (m.pSample N) threads ht M hM c hr hret

/-- **C52**, progress: until `predictParallel` has returned some goroutine can move … -/
theorem parallel_predict_no_deadlock (body : Nat → List (β → β)) (threads rows : Nat) (m : Memory β)
    (c : Config β) (hr : PReaches body (pStart threads rows m) c) (hret : c.returned = false) :
    ∃ c', PStep body c c' := by
  have hw := pwg hr (start_wg threads rows m)
  obtain ⟨pend, ws, n, mem, ret⟩ := c
  simp only at hret hw
  subst hret hw
  match pend, ws with
  | r :: rest, ws => exact ⟨_, .spawn ..⟩
  | [], [] => exact ⟨_, .wait ..⟩
  | [], [] :: ws => exact ⟨_, by simpa using PStep.done (body := body) [] [] ws ws.length mem⟩
  | [], (a :: p) :: ws => exact ⟨_, .work [] [] a p ws _ mem⟩

/-- … and every schedule is finite. -/
theorem parallel_predict_terminates (body : Nat → List (β → β)) :
    ∃ μ : Config β → Nat, ∀ c c', PStep body c c' → μ c' < μ c := by
  refine ⟨fun c => (c.pending.map (fun r => (callActions body r).length + 2)).sum + wsize c.workers
    + (if c.returned then 0 else 1), ?_⟩
  intro c c' h
  cases h <;> simp [wsize] <;> omega

/-! ## predictions have as many entries as the matrix has columns -/

theorem accumulate_length (m : Model α) (out : Tree α → Outcome α) (upd : Tree α → α → α → α)
    (ts : List (Tree α × Nat)) (p q : List α) (h : m.accumulate out upd ts p = .ok q) : q.length = p.length := by
  induction ts generalizing p with
  | nil => simp only [Model.accumulate, Outcome.ok.injEq] at h; rw [h]
  | cons t ts ih =>
    obtain ⟨t, i⟩ := t
    simp only [Model.accumulate] at h
    split at h
    · have := ih _ h; simpa using this
    · cases h
    · cases h

theorem start_length (m : Model α) : m.start.length = m.outCols := by
  unfold Model.start Model.outCols; split <;> simp

/-- the rows written by `SetRow` have the width of the matrix, so that it cannot panic
(law-free) -/
theorem predictions_width (N : ENum α) (toInt : α → Int) (m : Model α) (x : List α) (k : Int) (p : List α) :
    (m.predictSingle N toInt x k = .ok p → p.length = m.outCols) ∧
    (m.raw toInt m.trees.length x = .ok p → p.length = m.outCols) ∧
    (m.pSample N x = .ok p → p.length = m.outCols) ∧
    (m.sSample N x = .ok p → p.length = m.outCols) := by
  refine ⟨fun h => ?_, fun h => ?_, fun h => ?_, fun h => ?_⟩
  · simp only [Model.predictSingle] at h
    obtain ⟨q, hq, rfl⟩ : ∃ q, m.raw toInt (if k < 0 ∨ k > m.trees.length then m.trees.length else k.toNat) x
        = .ok q ∧ m.link N q = p := by
      cases hh : m.raw toInt (if k < 0 ∨ k > m.trees.length then m.trees.length else k.toNat) x with
      | ok q => rw [hh] at h; exact ⟨q, rfl, Outcome.ok.inj h⟩
      | err e => rw [hh] at h; cases h
      | panic e => rw [hh] at h; cases h
    have := (accumulate_length _ _ _ _ _ _ hq).trans (start_length m)
    unfold Model.link softmaxWith; split
    · simpa using this
    · split <;> simpa using this
  · exact (accumulate_length _ _ _ _ _ _ h).trans (start_length m)
  · simp only [Model.pSample] at h
    obtain ⟨q, hq, rfl⟩ : ∃ q, m.pRaw N x = .ok q ∧ m.pLink N q = p := by
      cases hh : m.pRaw N x with
      | ok q => rw [hh] at h; exact ⟨q, rfl, Outcome.ok.inj h⟩
      | err e => rw [hh] at h; cases h
      | panic e => rw [hh] at h; cases h
    have := (accumulate_length _ _ _ _ _ _ hq).trans (start_length m)
    unfold Model.pLink stableSoftmax; split
    · simpa using this
    · split
      · simp only; split <;> simpa using this
      · split <;> simpa using this
  · simp only [Model.sSample] at h
    cases hh : m.sRaw x with
    | err e => rw [hh] at h; cases h
    | panic e => rw [hh] at h; cases h
    | ok q =>
      rw [hh] at h
      have := (accumulate_length _ _ _ _ _ _ hh).trans (start_length m)
      have h' := Outcome.ok.inj h
      rw [← h']
      unfold simpleSoftmax
      split
      · simp only; split <;> simpa using this
      · split <;> simpa using this

/-! ## a concrete case -/

/-- three threads, five rows: ranges of two, two and one rows -/
example : pRanges 3 5 = [(0, 2), (2, 4), (4, 5)] := by decide
/-- four workers for five rows: the last one has an empty range -/
example : pRanges 4 5 = [(0, 2), (2, 4), (4, 5), (6, 5)] := by decide

/-- two rows on two threads: the second goroutine writes its row before the first one, both rows arrive -/
example : ∃ c : Config (List Int),
    PReaches (rowWrites (α := Int) ⟨"regression", 1, 0, 1, [], 1, 0, 7, false⟩ ⟨2, 1, fun i _ => i⟩
      (fun x => .ok [x.getD 0 0 + 5])) (pStart 2 2 (zeroRows ⟨"regression", 1, 0, 1, [], 1, 0, 7, false⟩)) c
      ∧ c.returned = true ∧ c.mem 0 = [5] ∧ c.mem 1 = [6] := by
  have step : ∀ {a b : Config (List Int)} {P : Config (List Int) → Prop} {body},
      PStep body a b → (∃ c, PReaches body b c ∧ P c) → ∃ c, PReaches body a c ∧ P c :=
    fun h ⟨c, hr, hp⟩ => ⟨c, .head h hr, hp⟩
  refine step (PStep.spawn (0, 1) [(1, 2)] [] 2 _) (step (PStep.spawn (1, 2) [] [_] 2 _) ?_)
  refine step (PStep.work [] [_] ⟨1, fun row : List Int => row.set 0 6⟩ [] [] 2 _) ?_
  refine step (PStep.work [] [] ⟨0, fun row : List Int => row.set 0 5⟩ [] _ _ _) ?_
  refine step (PStep.done [] [] _ 1 _) (step (PStep.done [] [] _ 0 _) (step (PStep.wait _ _) ?_))
  exact ⟨_, .refl, rfl, rfl, rfl⟩

end Scigo.LGB
