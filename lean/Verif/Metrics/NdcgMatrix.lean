import Verif.Metrics.RankProps

/-!
# `NDCGMatrix` (C15)
-/

set_option linter.unusedSectionVars false

namespace Scigo.Metrics

variable {α : Type _}

section
variable [Add α] [Sub α] [Div α] [Zero α] [One α] [BEq α] [LT α] [DecidableLT α]

/-- `NDCGMatrix`: first columns; a matrix with rows but no columns makes `At(i,0)` panic.
Models `metrics/ranking.go:185-215` (nil interface values are `none`). -/
def ndcgMatrix (pow2 : α → α) (log2 : Nat → α) (srtP : List (α × α) → List (α × α)) (srtR : List α → List α)
    (t p : Option (Mat α)) (k : Int) : Outcome α :=
  match t, p with
  | some t, some p =>
    if t.r = 0 ∨ p.r = 0 then .err .value
    else if t.c = 0 ∨ p.c = 0 then .panic "column index out of range"
    else ndcg pow2 log2 srtP srtR (some (t.col 0)) (some (p.col 0)) k
  | _, _ => .err .value

end

/-- **C15** (law-free). `NDCGMatrix` is `NDCG` of the first columns whenever both matrices have at least one row and one column; nil
matrices and matrices without rows are errors. -/
theorem ndcgMatrix_eq [LinearOrder α] [Add α] [Sub α] [Div α] [Zero α] [One α] (pow2 : α → α) (log2 : Nat → α)
    (srtP : List (α × α) → List (α × α)) (srtR : List α → List α) (k : Int) :
    (∀ t p : Mat α, 0 < t.r → 0 < t.c → 0 < p.r → 0 < p.c → ndcgMatrix pow2 log2 srtP srtR (some t) (some p) k
      = ndcg pow2 log2 srtP srtR (some ((List.range t.r).map (fun i => t.at' i 0))) (some ((List.range p.r).map (fun i => p.at' i 0))) k) ∧
    (∀ t p : Mat α, t.r = 0 ∨ p.r = 0 → ndcgMatrix pow2 log2 srtP srtR (some t) (some p) k = .err .value) ∧
    (∀ m : Option (Mat α), ndcgMatrix pow2 log2 srtP srtR none m k = .err .value ∧ ndcgMatrix pow2 log2 srtP srtR m none k = .err .value) := by
  refine ⟨?_, ?_, ?_⟩
  · intro t p h1 h2 h3 h4
    simp only [ndcgMatrix]
    rw [if_neg (by omega), if_neg (by omega)]
    rfl
  · intro t p h
    simp only [ndcgMatrix]
    rw [if_pos h]
  · intro m
    cases m <;> exact ⟨rfl, rfl⟩

example : ∃ v, ndcgMatrix rpow2 rlog2 (stableDesc Prod.fst) (stableDesc id) (some (Mat.ofRows [[0, 7], [2, 7], [1, 7]] 2 0))
    (some (Mat.ofRows [[0.5], [0.4], [0.9]] 1 0)) 2 = .ok v ∧ 0 ≤ v ∧ v ≤ 1 := by
  rw [(ndcgMatrix_eq rpow2 rlog2 (stableDesc Prod.fst) (stableDesc id) 2).1 _ _ (by decide) (by decide) (by decide) (by decide)]
  exact ndcg_range _ (stableDesc_sorts _) _ (stableDesc_sorts _) [0, 2, 1] [0.5, 0.4, 0.9]
    (by simp) rfl 2 (Or.inr (by norm_num)) (by simp)

end Scigo.Metrics
