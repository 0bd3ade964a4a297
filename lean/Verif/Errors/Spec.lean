import Verif.Errors.Model
import Mathlib.Analysis.SpecialFunctions.Log.Basic

/-!
# Reals extended by `-Inf`, the number system in which `LogSumExp` is specified
-/

namespace Scigo.Errors

/-- exp on reals extended by `-Inf`, with value in the reals (`math.Exp`,
`pkg/errors/numerical.go:140`). -/
noncomputable def expBot : WithBot ℝ → ℝ
  | ⊥ => 0
  | (x : ℝ) => Real.exp x

/-- log with `log 0 = -Inf` (`math.Log`, `pkg/errors/numerical.go:143`). -/
noncomputable def logBot (s : ℝ) : WithBot ℝ := if s = 0 then ⊥ else (Real.log s : ℝ)

/-- `LogSumExp` (`pkg/errors/numerical.go:119-144`) run on the finite numbers and `-Inf`
(`⊥`) with `exp(-Inf)=0`, `log 0=-Inf`, `-Inf - x = -Inf`; `x - (-Inf)` is whatever `junk`
says.  Simplified: exact arithmetic, no `+Inf` and no NaN entry. -/
noncomputable def lseBot (junk : WithBot ℝ → WithBot ℝ) : List (WithBot ℝ) → WithBot ℝ :=
  logSumExp (fun a b => a + b)
    (fun a b => match b with
      | ⊥ => junk a
      | (y : ℝ) => a.map (fun x => x - y))
    ((0 : ℝ) : WithBot ℝ) ⊥ (fun a => decide (a = ⊥))
    (fun a => ((expBot a : ℝ) : WithBot ℝ))
    (fun a => match a with | ⊥ => ⊥ | (x : ℝ) => logBot x)

end Scigo.Errors
