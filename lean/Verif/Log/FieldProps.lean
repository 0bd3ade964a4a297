import Verif.Log.Props

/-!
# C262: what the production logger writes
-/

namespace Scigo.Log

variable (shown : Val → String)

/-- **C262, as far as it holds**: a record that is written has the message and the level of the method called (Debug 0, Info 1, Warn 2, Error 3 in zerolog's
numbering), the fields of the logger first and then, for arguments given in pairs, one field for every pair in order: the key and the value, unless the value
is an error, which is written under the key `error`. Missing: the key of an error is lost (`error_key_lost`), an argument without
partner is dropped (`odd_argument_dropped`). -/
theorem record_partial (z : ZLogger) (global : Int) (msg : String) (ps : List (Val × Val)) (hf : ∀ p : Val × Val, ps.head? = some p → ∀ m, p.1 ≠ Val.err m) :
    ∀ l n, (l, n) ∈ [(levelDebug, (0 : Int)), (levelInfo, 1), (levelWarn, 2), (levelError, 3)] →
      (z.level ≤ n ∧ global ≤ n → ∃ r, z.log shown global l msg (ps.flatMap fun p => [p.1, p.2]) = some r ∧ r.level = n ∧ r.msg = msg ∧
        ∃ fs, r.fields = z.context ++ fs ∧ fs.length = ps.length ∧ ∀ (i : Nat) (p : Val × Val), ps[i]? = some p →
          (∀ m, p.2 = Val.err m → fs[i]? = some ("error", .err m)) ∧ ((∀ m, p.2 ≠ Val.err m) → fs[i]? = some (keyOf shown p.1, p.2))) ∧
      (¬ (z.level ≤ n ∧ global ≤ n) → z.log shown global l msg (ps.flatMap fun p => [p.1, p.2]) = none) := by
  have hp : ∀ ps : List (Val × Val), pairs (ps.flatMap fun p => [p.1, p.2]) = ps := by
    intro ps
    induction ps with
    | nil => rfl
    | cons p ps ih => simp only [List.flatMap_cons, List.cons_append, List.nil_append, pairs, ih]
  have hz : zErrorFields shown (ps.flatMap fun p => [p.1, p.2]) = zFields shown (ps.flatMap fun p => [p.1, p.2]) := by
    cases ps with
    | nil => rfl
    | cons p ps =>
      have := hf p rfl
      obtain ⟨a, b⟩ := p
      cases a with
      | err m => exact absurd rfl (this m)
      | _ => rfl
  have hfs : ∀ (i : Nat) (p : Val × Val), ps[i]? = some p →
      (∀ m, p.2 = Val.err m → (zFields shown (ps.flatMap fun p => [p.1, p.2]))[i]? = some ("error", .err m)) ∧
      ((∀ m, p.2 ≠ Val.err m) → (zFields shown (ps.flatMap fun p => [p.1, p.2]))[i]? = some (keyOf shown p.1, p.2)) := by
    intro i p hi
    unfold zFields
    rw [hp, List.getElem?_map, hi]
    obtain ⟨a, b⟩ := p
    refine ⟨fun m hm => ?_, fun hm => ?_⟩
    · simp only at hm
      subst hm
      rfl
    · cases b with
      | err m => exact absurd rfl (hm m)
      | _ => rfl
  intro l n hln
  have hc : convertLevel l = n := by
    have : ∀ e ∈ [(levelDebug, (0 : Int)), (levelInfo, 1), (levelWarn, 2), (levelError, 3)], convertLevel e.1 = e.2 := by decide
    exact this _ hln
  unfold ZLogger.log ZLogger.writes
  rw [hc, hz, ite_self]
  refine ⟨fun h => ⟨_, if_pos (by simp [h]), rfl, rfl, _, rfl, ?_, hfs⟩, fun h => if_neg (by simpa using h)⟩
  unfold zFields
  rw [hp, List.length_map]

/-- an error given under a key -/
theorem error_key_lost (k : String) (m : String) (global : Int) (hg : global ≤ 1) :
    (⟨0, []⟩ : ZLogger).log shown global levelInfo "x" [.str k, .err m] = some ⟨1, [("error", .err m)], "x"⟩ := by
  have : convertLevel levelInfo = 1 := by decide
  unfold ZLogger.log ZLogger.writes
  rw [this, if_pos (by simpa using hg)]
  rfl

/-- **C262 is false of the code**: the last argument of an odd number is dropped without a trace. -/
theorem odd_argument_dropped (z : ZLogger) (global l : Int) (msg : String) (ps : List (Val × Val)) (v : Val) (hl : l ≠ levelError) :
    z.log shown global l msg ((ps.flatMap fun p => [p.1, p.2]) ++ [v]) = z.log shown global l msg (ps.flatMap fun p => [p.1, p.2]) := by
  have hp : pairs ((ps.flatMap fun p => [p.1, p.2]) ++ [v]) = pairs (ps.flatMap fun p => [p.1, p.2]) := by
    induction ps with
    | nil => rfl
    | cons p ps ih => simp only [List.flatMap_cons, List.cons_append, List.nil_append, pairs, ih]
  unfold ZLogger.log
  rw [if_neg hl, if_neg hl]
  unfold zFields
  rw [hp]

/-- a warning with two fields, written by a logger with a field -/
example : (⟨1, [("component", .str "fit")]⟩ : ZLogger).log (fun _ => "?") 1 levelWarn "slow" [.str "rows", .int 3, .str "cause", .err "disk"] =
    some ⟨2, [("component", .str "fit"), ("rows", .int 3), ("error", .err "disk")], "slow"⟩ := by decide +kernel

end Scigo.Log
