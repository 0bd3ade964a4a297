import Verif.State.Model

/-!
# Sequential specification of the state manager
-/

namespace Scigo.State

/-- What each method does as one indivisible action: new state and returned values. -/
def Op.spec : Op → Fields → Fields × List Val
  | .isFitted, s => (s, [.b s.fitted])
  | .setFitted, s => (⟨true, s.nFeatures, s.nSamples⟩, [])
  | .reset, _ => (⟨false, 0, 0⟩, [])
  | .setDimensions nf ns, s => (⟨s.fitted, nf, ns⟩, [])
  | .getDimensions, s => (s, [.n s.nFeatures, .n s.nSamples])
  | .getState, s => (s, [.b s.fitted, .n s.nFeatures, .n s.nSamples])
  | .setState t, _ => (t, [])

/-- Run calls one after the other, each indivisible: final state and results. -/
def replay (s : Fields) : List Op → Fields × List (List Val)
  | [] => (s, [])
  | op :: ops => ((replay (op.spec s).1 ops).1, (op.spec s).2 :: (replay (op.spec s).1 ops).2)

/-- All calls of a goroutine: finished, in progress, still to come. -/
def Gor.program (g : Gor) : List Op :=
  g.done.map Prod.fst ++ (g.active.map Active.op).toList ++ g.pending

/-- The pair of dimensions a call stores, if it stores dimensions. -/
def Op.storesDims : Op → Option (Int × Int)
  | .setDimensions nf ns => some (nf, ns)
  | .setState s => some (s.nFeatures, s.nSamples)
  | .reset => some (0, 0)
  | _ => none

end Scigo.State
