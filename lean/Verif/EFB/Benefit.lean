import Verif.EFB.Model

/-!
# Whether bundling is worth while

Model of `NewEFBOptimizer`, its fluent setters and `IsEFBBeneficial` (`sklearn/lightgbm/efb.go`).
-/

set_option linter.unusedSectionVars false

namespace Scigo.EFB

variable {α : Type}

/-- `NewEFBOptimizer`; `zero` and `ratio` are the literals 0.0 and 0.8: sklearn/lightgbm/efb.go:28-34 -/
def Optimizer.new (zero ratio : α) : Optimizer α := ⟨zero, 0, ratio⟩

/-- `WithMaxConflictRate`: sklearn/lightgbm/efb.go:476-479 -/
def Optimizer.withMaxConflictRate (o : Optimizer α) (v : α) : Optimizer α := { o with maxConflictRate := v }

/-- `WithMaxBundles`: sklearn/lightgbm/efb.go:482-485 -/
def Optimizer.withMaxBundles (o : Optimizer α) (n : Int) : Optimizer α := { o with maxBundles := n }

/-- `WithSparsityRatio`: sklearn/lightgbm/efb.go:488-491 -/
def Optimizer.withSparsityRatio (o : Optimizer α) (v : α) : Optimizer α := { o with sparsityRatio := v }

variable [LT α] [DecidableLT α] [LE α] [DecidableLE α] [Zero α] [Add α] [Sub α] [Neg α] [Mul α] [Div α]

/-- the entries counted as zero, row by row: sklearn/lightgbm/efb.go:459-467 -/
def zeroEntries (L : Lits α) (X : Mat α) : Nat :=
  (List.range X.r).foldl (fun z i => (List.range X.c).foldl (fun z j => if isZero L (X.at' i j) then z + 1 else z) z) 0

/-- `IsEFBBeneficial`: sklearn/lightgbm/efb.go:449-473 -/
def beneficial (L : Lits α) (o : Optimizer α) (X : Mat α) : Bool :=
  if X.c < 10 then false
  else decide (o.sparsityRatio ≤ L.ofNat (zeroEntries L X) / L.ofNat (X.r * X.c))

end Scigo.EFB
