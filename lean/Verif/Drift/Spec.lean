import Verif.Drift.Model

/-!
# Specification of the drift detectors

Call histories, what the caller observed, and the statistics of a list of outcomes.
-/

namespace Scigo.Drift

variable {α : Type _}

/-- a call on a DDM -/
inductive DDMCall
  | update (correct : Bool)
  | reset

section
variable [Add α] [Sub α] [Mul α] [Div α] [Zero α] [One α] [NatCast α] [LT α] [DecidableLT α]

/-- run a history; the trace lists each call with what it returned -/
def runDDM (sqrt : α → α) (hist : List DDMCall) (s : DDM α) :
    DDM α × List (DDMCall × Option (Result α)) :=
  hist.foldl (fun st c =>
    match c with
    | .update b => ((st.1.update sqrt b).2, st.2 ++ [(c, some (st.1.update sqrt b).1)])
    | .reset => (st.1.reset, st.2 ++ [(c, none)])) (s, [])

/-- outcomes passed since the last `Reset` or reported drift, read off the trace -/
def segment (trace : List (DDMCall × Option (Result α))) : List Bool :=
  trace.foldl (fun seg x =>
    match x with
    | (.update b, some r) => if r.driftDetected then [] else seg ++ [b]
    | _ => []) []

/-- share of wrong predictions in a list of outcomes -/
def rateOf (seg : List Bool) : α := (seg.count false : α) / (seg.length : α)

/-- binomial standard deviation of that share -/
def sdOf (sqrt : α → α) (seg : List Bool) : α :=
  sqrt (rateOf seg * (1 - rateOf seg) / (seg.length : α))

/-- error level `p + s` -/
def levelOf (sqrt : α → α) (seg : List Bool) : α := rateOf seg + sdOf sqrt seg

/-- enough samples to decide -/
def warm (minNum : Int) (seg : List Bool) : Prop := seg ≠ [] ∧ minNum ≤ (seg.length : Int)

end

/-- `p` is the prefix of the segment, past the warm-up, with the least error level -/
def IsBest [Add α] [Sub α] [Mul α] [Div α] [One α] [NatCast α] [LE α]
    (sqrt : α → α) (minNum : Int) (seg p : List Bool) : Prop :=
  p <+: seg ∧ warm minNum p ∧ ∀ q, q <+: seg → warm minNum q → levelOf sqrt p ≤ levelOf sqrt q

/-- a call on an ADWIN -/
inductive AdwinCall (α : Type _)
  | update (v : α)
  | reset

/-- values passed to `Update` since the last `Reset`, oldest first -/
def valuesOf (hist : List (AdwinCall α)) : List α :=
  hist.foldl (fun vs c => match c with | .update v => vs ++ [v] | .reset => []) []

/-- run a history -/
def runADWIN [Add α] [Sub α] [Mul α] [Div α] [Zero α] [One α] [NatCast α] [LT α] [DecidableLT α]
    (sqrt log abs : α → α) (half two : α) (hist : List (AdwinCall α)) (s : ADWIN α) : ADWIN α :=
  hist.foldl (fun s c => match c with
    | .update v => (s.update sqrt log abs half two v).2
    | .reset => s.reset) s

/-- the mean of a list -/
def avg [Add α] [Div α] [Zero α] [NatCast α] (l : List α) : α := l.sum / (l.length : α)

end Scigo.Drift
