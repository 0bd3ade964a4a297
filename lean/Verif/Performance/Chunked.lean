import Verif.Base.Outcome
import Mathlib.Data.List.Basic
import Mathlib.Tactic.Common

/-!
# Processing data in chunks (`performance/large_scale.go`)

The row scanner is a placeholder in the code: `Scan` always answers false. The loop over the rows is modelled for any rows a
scanner might give, `scanRows` is what the scanner of the code gives. `fn` is a user function with its own state.
-/

namespace Scigo.Chunked

variable {R M D : Type}

/-- a user function on chunks: changes its state and returns an error or nil (`performance/large_scale.go:175`) -/
abbrev Fn (R M : Type) := M → List R → M × Option GoErr

/-- rows the scanner yields: none (`performance/large_scale.go:396-417`) -/
def scanRows (_data : D) : List R := []

/-- the loop of `processSequential` (`performance/large_scale.go:183-204`) -/
def loop (size : Nat) (fn : Fn R M) : List R → List R → M → M × Option GoErr
  | [], buf, m => if buf.length > 0 then fn m buf else (m, none)
  | r :: rs, buf, m =>
    if (buf ++ [r]).length ≥ size then
      match fn m (buf ++ [r]) with
      | (m', some e) => (m', some e)
      | (m', none) => loop size fn rs [] m'
    else loop size fn rs (buf ++ [r]) m

/-- the answer of a Go function that returns only an error (`performance/large_scale.go:175`) -/
def answer (m : M) : Option GoErr → M × Outcome Unit
  | none => (m, .ok ())
  | some e => (m, .err e)

/-- `processSequential`; a negative chunk size panics in `make` (`performance/large_scale.go:182-204`) -/
def sequential (size : Int) (data : D) (fn : Fn R M) (m : M) : M × Outcome Unit :=
  if size < 0 then (m, .panic "makeslice: cap out of range")
  else let (m', e) := loop size.toNat fn (scanRows data) [] m; answer m' e

/-- what the reading goroutine of `processParallel` sends: the chunks of the same loop with a function that never fails
(`performance/large_scale.go:225-231`) -/
def chunksOf (size : Nat) (rows : List R) : List (List R) := (loop size (fun cs c => (cs ++ [c], none)) rows [] []).1

/-- a worker takes chunks until the function fails (`performance/large_scale.go:212-222`). Simplified: one worker, which
handles the chunks in the order sent; with the scanner of the code there is no chunk at all -/
def work (fn : Fn R M) : List (List R) → M → M × Option GoErr
  | [], m => (m, none)
  | c :: cs, m => match fn m c with
    | (m', some e) => (m', some e)
    | (m', none) => work fn cs m'

/-- `Process` (`performance/large_scale.go:175-180,207-246`); in parallel mode a negative chunk size panics in the reading
goroutine, which ends the process -/
def process (size : Int) (parallel : Bool) (data : D) (fn : Fn R M) (m : M) : M × Outcome Unit :=
  if parallel then
    if size < 0 then (m, .panic "makeslice: cap out of range")
    else let (m', e) := work fn (chunksOf size.toNat (scanRows data)) m; answer m' e
  else sequential size data fn m

/-- **C208.** Whatever the data, `Process` never calls the function and reports success: all rows are silently ignored. -/
theorem process_ignores_data (size : Int) (hs : 0 ≤ size) (parallel : Bool) (data : D) (fn : Fn R M) (m : M) :
    process size parallel data fn m = (m, .ok ()) := by
  have h : ¬ size < 0 := by omega
  unfold process sequential
  rw [if_neg h, if_neg h]
  cases parallel <;> rfl

/-- **C208.** A negative chunk size panics. -/
theorem process_negative_panics (size : Int) (hs : size < 0) (parallel : Bool) (data : D) (fn : Fn R M) (m : M) :
    (process size parallel data fn m).2 = .panic "makeslice: cap out of range" := by
  unfold process sequential
  rw [if_pos hs, if_pos hs]
  cases parallel <;> rfl

theorem loop_spec (size : Nat) (rows buf : List R) (cs : List (List R)) (hb : buf.length < size ∨ buf = []) :
    ∃ ds, (loop size (fun cs c => (cs ++ [c], none)) rows buf cs).1 = cs ++ ds ∧ ds.flatten = buf ++ rows ∧
      (∀ c ∈ ds, c ≠ [] ∧ c.length ≤ max size 1) ∧ ∀ c ∈ ds.dropLast, c.length = max size 1 := by
  induction rows generalizing buf cs with
  | nil =>
    unfold loop
    by_cases h : buf.length > 0
    · rw [if_pos h]
      refine ⟨[buf], rfl, by simp, ?_, by simp⟩
      intro c hc
      rw [List.mem_singleton.1 hc]
      refine ⟨fun h' => by simp [h'] at h, ?_⟩
      rcases hb with hb | hb
      · omega
      · simp [hb] at h
    · rw [if_neg h]
      refine ⟨[], by simp, ?_, by simp, by simp⟩
      have : buf = [] := List.length_eq_zero_iff.1 (by omega)
      simp [this]
  | cons r rs ih =>
    unfold loop
    have hlen : (buf ++ [r]).length ≤ max size 1 := by
      rcases hb with hb | hb
      · simp; omega
      · simp only [hb, List.nil_append, List.length_singleton]; omega
    by_cases h : (buf ++ [r]).length ≥ size
    · rw [if_pos h]
      obtain ⟨ds, h1, h2, h3, h4⟩ := ih [] (cs ++ [buf ++ [r]]) (.inr rfl)
      have he : (buf ++ [r]).length = max size 1 := by
        simp at hlen h ⊢
        omega
      refine ⟨(buf ++ [r]) :: ds, ?_, ?_, ?_, ?_⟩
      · show (loop size _ rs [] (cs ++ [buf ++ [r]])).1 = _
        rw [h1]; simp
      · rw [List.flatten_cons, h2]; simp
      · intro c hc
        rcases List.mem_cons.1 hc with rfl | hc
        · exact ⟨by simp, hlen⟩
        · exact h3 c hc
      · intro c hc
        rcases ds with _ | ⟨d, ds⟩
        · simp at hc
        · rw [List.dropLast_cons_of_ne_nil (by simp)] at hc
          rcases List.mem_cons.1 hc with rfl | hc
          · exact he
          · exact h4 c hc
    · rw [if_neg h]
      obtain ⟨ds, h1, h2, h3, h4⟩ := ih (buf ++ [r]) cs (.inl (by omega))
      exact ⟨ds, h1, by rw [h2]; simp, h3, h4⟩

/-- **C208.** With a scanner that does give rows, the loop would pass on every row once and in order, in chunks of the given size (at
least one row), only the last of which may be shorter. The scanner of the code gives none (`process_ignores_data`). -/
theorem chunks_partial (size : Nat) (rows : List R) :
    (chunksOf size rows).flatten = rows ∧ (∀ c ∈ chunksOf size rows, c ≠ [] ∧ c.length ≤ max size 1) ∧
    ∀ c ∈ (chunksOf size rows).dropLast, c.length = max size 1 := by
  obtain ⟨ds, h1, h2, h3, h4⟩ := loop_spec size rows [] [] (.inr rfl)
  have : chunksOf size rows = ds := by unfold chunksOf; rw [h1]; simp
  rw [this]
  exact ⟨by simpa using h2, h3, h4⟩

example : chunksOf 2 [1, 2, 3, 4, 5] = [[1, 2], [3, 4], [5]] := by decide

end Scigo.Chunked
