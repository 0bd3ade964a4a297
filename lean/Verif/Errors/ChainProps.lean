import Mathlib.Order.Basic
import Mathlib.Algebra.Order.Field.Basic
import Mathlib.Tactic.Linarith
import Verif.Base.F64
import Verif.Errors.Chain

/-!
# What a caller can still find out about an error that was given on

Theorems about `Is`, `As`, `Wrap` and `Recover`, for every error, every number of layers and every order of them.
-/

namespace Scigo.ErrChain

/-! ### Specification -/

/-- the layers a step puts around an error, outermost first -/
def layersOf : Step → List (Nat × Layer)
  | .wrap a a' m => if m = "" then [(a, .stack)] else [(a, .stack), (a', .message m)]
  | .stack a => [(a, .stack)]
  | .errorf a b c => [(a, .errorf b c)]
  | .model a a' op k => [(a, .stack), (a', .model op k)]
  | .recover a op v => [(a, .errorf ("panic in " ++ op ++ ": " ++ v ++ " (original error: ") ")")]

def put (ls : List (Nat × Layer)) (e : Err) : Err := ls.foldr (fun l e => .over l.1 l.2 e) e

theorem apply_put (s : Step) (e : Err) : s.apply (some e) = some (put (layersOf s) e) := by
  cases s <;> simp [Step.apply, layersOf, put, wrap, withStack, newModelError, recovered]
  split <;> simp_all

theorem put_append (l₁ l₂ : List (Nat × Layer)) (e : Err) : put (l₁ ++ l₂) e = put l₁ (put l₂ e) := by simp [put]

theorem applyAll_put (ss : List Step) : ∀ e : Err, applyAll ss (some e) = some (put (ss.reverse.flatMap layersOf) e) := by
  induction ss with
  | nil => intro e; rfl
  | cons s ss ih =>
    intro e
    show applyAll ss (s.apply (some e)) = _
    rw [apply_put, ih, List.reverse_cons, List.flatMap_append, put_append]
    simp

theorem applyAll_none (ss : List Step) : applyAll ss none = none := by
  induction ss with
  | nil => rfl
  | cons s ss ih =>
    show applyAll ss (s.apply none) = none
    have : s.apply none = none := by
      cases s <;> simp [Step.apply, wrap, withStack]
    rw [this, ih]

theorem as_put (k : Kind) (e : Err) (ls : List (Nat × Layer)) (h : ∀ l ∈ ls, l.2.kind ≠ k) : as k (put ls e) = as k e := by
  induction ls with
  | nil => rfl
  | cons l ls ih =>
    have hl := h l (by simp)
    have := ih fun l hl => h l (by simp [hl])
    show as k (.over l.1 l.2 (put ls e)) = _
    rw [← this]
    simp [as, Err.chain, Err.kind, hl]

theorem is_over (r e : Err) (a : Nat) (l : Layer) (h : is (some e) (some r) = true) : is (some (.over a l e)) (some r) = true := by
  simp only [is, Err.chain, List.any_cons, Bool.or_eq_true] at h ⊢
  tauto

theorem is_put (r e : Err) (ls : List (Nat × Layer)) (h : is (some e) (some r) = true) : is (some (put ls e)) (some r) = true := by
  induction ls with
  | nil => exact h
  | cons l ls ih => exact is_over _ _ _ _ ih

theorem put_length (ls : List (Nat × Layer)) (e : Err) : (put ls e).chain.length = ls.length + e.chain.length := by
  induction ls with
  | nil => simp [put]
  | cons l ls ih =>
    show (Err.over l.1 l.2 (put ls e)).chain.length = _
    simp only [Err.chain, List.length_cons, ih]; omega

theorem is_over_new (a a' : Nat) (msg : String) (b : Nat) (l : Layer) (e : Err) (hb : b ≠ a) (he : 2 ≤ e.chain.length) :
    is (some (.over b l e)) (some (new a a' msg)) = is (some e) (some (new a a' msg)) := by
  have hm : (Err.over b l e).mark ≠ (new a a' msg).mark := by
    intro h
    have := congrArg (fun m => m.2.length) h
    simp [Err.mark, Err.chain, new] at this
    omega
  simp only [is, Err.chain, List.any_cons]
  have h1 : decide ((Err.over b l e).addr = (new a a' msg).addr) = false := by simp [Err.addr, new, hb]
  rw [h1, decide_eq_false hm]; simp

theorem layersOf_addr (s : Step) : ∀ l ∈ layersOf s, l.1 ∈ s.addrs := by
  cases s with
  | wrap a a' m =>
    intro l hl
    simp only [layersOf] at hl
    split at hl <;> simp at hl
    · simp [Step.addrs, hl]
    · rcases hl with h | h <;> simp [Step.addrs, h]
  | _ => simp [layersOf, Step.addrs]

theorem layersOf_kind (s : Step) : ∀ l ∈ layersOf s, l.2.kind = .stack ∨ l.2.kind = .message ∨ l.2.kind = .errorf ∨ l.2.kind = .model := by
  intro l _
  cases l.2 <;> simp [Layer.kind]

/-! ### The property -/

/-- the kinds of error a caller asks for: the structured errors other than `ModelError` -/
def structured (k : Kind) : Prop :=
  k = .notFitted ∨ k = .dimension ∨ k = .validation ∨ k = .value ∨ k = .numerical ∨ k = .inputShape ∨ k = .panicked

/-- **C321.** However often an error is wrapped, annotated, put in a `ModelError` or met by a recovered panic on its way up, `As` for a structured error
gives exactly what it gave at the start: the same error with the same fields, or nothing. -/
theorem as_survives (k : Kind) (hk : structured k) (ss : List Step) (e : Err) :
    ∃ e', applyAll ss (some e) = some e' ∧ as k e' = as k e := by
  refine ⟨_, applyAll_put ss e, as_put k e _ ?_⟩
  intro l hl
  have := layersOf_kind
  obtain ⟨s, _, hs⟩ := List.mem_flatMap.1 hl
  have h := layersOf_kind s l hs
  unfold structured at hk
  intro heq
  rw [heq] at h
  rcases hk with h' | h' | h' | h' | h' | h' | h' <;> subst h' <;> simp at h

/-- a dimension error from deep inside, wrapped twice and put in a `ModelError`: expected and actual size are still there -/
example : (applyAll [.wrap 3 4 "step 'scaler'", .model 5 6 "Pipeline.Fit" "step failed"] (some (make 1 2 (.dimension "Transform" 3 2 1)))).bind (as .dimension) =
    some (.base 2 (.dimension "Transform" 3 2 1)) := by decide +kernel

/-- **C321.** `Is` is not lost by wrapping: an error that matched a target matches it after any number of layers. -/
theorem is_survives (r : Option Err) (e : Option Err) (ss : List Step) (h : is e r = true) : is (applyAll ss e) r = true := by
  cases e with
  | none => rw [applyAll_none]; exact h
  | some e =>
    rw [applyAll_put]
    cases r with
    | none => simp [is] at h
    | some r => exact is_put _ _ _ h

/-- **C321.** Nor does wrapping make an error match one of the package's own errors (`ErrEmptyData`, `ErrSingularMatrix`, `ErrNotImplemented`, made by `New`) that it
did not match before; `e` is any error made by the package, that is with a stack trace around it, and the layers are new structs. -/
theorem is_sentinel_iff (a a' : Nat) (msg : String) (e : Err) (he : 2 ≤ e.chain.length) (ss : List Step)
    (hs : ∀ s ∈ ss, a ∉ s.addrs) :
    is (applyAll ss (some e)) (some (new a a' msg)) = is (some e) (some (new a a' msg)) := by
  rw [applyAll_put]
  have hl : ∀ l ∈ ss.reverse.flatMap layersOf, l.1 ≠ a := by
    intro l hl
    obtain ⟨s, hs', hl⟩ := List.mem_flatMap.1 hl
    intro h
    exact hs s (by simpa using hs') (h ▸ layersOf_addr s l hl)
  generalize ss.reverse.flatMap layersOf = ls at hl
  induction ls with
  | nil => rfl
  | cons l ls ih =>
    show is (some (.over l.1 l.2 (put ls e))) _ = _
    rw [is_over_new _ _ _ _ _ _ (hl l (by simp)) (by rw [put_length]; omega)]
    exact ih fun l h => hl l (by simp [h])

example : is (applyAll [.wrap 3 4 "while fitting", .errorf 5 "a: " ""] (some (make 1 2 (.value "Fit" "empty data")))) (some (new 10 11 "empty data")) = false := by
  decide +kernel

/-- **C321.** Nil stays nil and an error stays an error, so a caller that wraps without looking does not turn success into failure or failure into
success. -/
theorem nil_survives (ss : List Step) (e : Option Err) : applyAll ss e = none ↔ e = none := by
  cases e with
  | none => simp [applyAll_none]
  | some e => simp [applyAll_put]

/-- **C321.** The text of the innermost error is always part of the text of the outermost one. -/
theorem text_survives (ss : List Step) (e : Err) : ∃ e' b a, applyAll ss (some e) = some e' ∧ e'.text = b ++ e.text ++ a := by
  refine ⟨put (ss.reverse.flatMap layersOf) e, ?_⟩
  rw [applyAll_put]
  generalize ss.reverse.flatMap layersOf = ls
  suffices h : ∃ b a, (put ls e).text = b ++ e.text ++ a by
    obtain ⟨b, a, h⟩ := h
    exact ⟨b, a, rfl, h⟩
  induction ls with
  | nil => exact ⟨"", "", by simp [put]⟩
  | cons l ls ih =>
    obtain ⟨b, a, h⟩ := ih
    have ht : (put (l :: ls) e).text = l.2.text (put ls e).text := rfl
    rw [ht, h]
    cases l.2 with
    | stack => exact ⟨b, a, rfl⟩
    | message m => exact ⟨m ++ ": " ++ b, a, by simp [Layer.text, String.append_assoc]⟩
    | errorf x y => exact ⟨x ++ b, a ++ y, by simp [Layer.text, String.append_assoc]⟩
    | model op k => exact ⟨"goml: " ++ op ++ ": " ++ k ++ ": " ++ b, a, by simp [Layer.text, String.append_assoc]⟩

/-- **C321.** An estimator that refuses empty data (or a singular matrix) with `NewModelError` can be recognised by its cause and by its type, whatever is put around
it afterwards; `As` gives the operation and kind of the outermost `ModelError`. -/
theorem model_error_found (a a' b b' : Nat) (op kind msg : String) (ss : List Step) :
    is (applyAll ss (some (newModelError b b' op kind (some (new a a' msg))))) (some (new a a' msg)) = true ∧
    as .model (newModelError b b' op kind (some (new a a' msg))) = some (.over b' (.model op kind) (new a a' msg)) := by
  constructor
  · apply is_survives
    simp [newModelError, is, Err.chain, new, Err.addr]
  · simp [newModelError, as, Err.chain, Err.kind, Layer.kind]

/-- **C321, what does not hold.** `Is` does not tell errors apart that were made independently with the same text: an error made anywhere with `New("empty data")`
counts as `ErrEmptyData`; two errors of `New` match exactly if they are the same or have the same text. -/
theorem is_new_iff (a a' b b' : Nat) (m m' : String) (hb : b ≠ a) (hb' : b' ≠ a) :
    is (some (new b b' m)) (some (new a a' m')) = true ↔ m = m' := by
  have h1 : (new b b' m).chain = [new b b' m, .base b' (.new m)] := rfl
  have h2 : (new b b' m).addr = b := rfl
  have h3 : (new a a' m').addr = a := rfl
  have h4 : (Err.base b' (.new m)).addr = b' := rfl
  have h5 : (new b b' m).mark = (m, [.stack, .new]) := rfl
  have h6 : (new a a' m').mark = (m', [.stack, .new]) := rfl
  have h7 : (Err.base b' (.new m)).mark = (m, [.new]) := rfl
  simp only [is, h1, List.any_cons, List.any_nil, h2, h3, h4, h5, h6, h7, decide_eq_false hb, decide_eq_false hb']
  simp

/-- **C321, what does not hold.** If a function panics with an error value, the recovered error does not match that value: `Is` is false for every target that is not
itself a recovered panic. -/
theorem panic_value_not_found (a : Nat) (op : String) (p : Err) (ha : p.addr ≠ a) (hp : p.kind ≠ .panicked) :
    is (some (recovered a op p.text none)) (some p) = false := by
  have h2 : (Err.base a (.panicked op p.text)).mark ≠ p.mark := by
    intro h
    have h := congrArg (fun m => m.2.head?) h
    have h' : p.mark.2.head? = some p.kind := by cases p <;> rfl
    rw [h'] at h
    exact hp (Option.some.inj h).symm
  have h3 : (Err.base a (.panicked op p.text)).chain = [.base a (.panicked op p.text)] := rfl
  have h4 : (Err.base a (.panicked op p.text)).addr ≠ p.addr := fun h => ha h.symm
  simp only [recovered, is, h3, List.any_cons, List.any_nil, decide_eq_false h2, decide_eq_false h4]
  rfl

example : is (some (recovered 5 "Fit" (new 1 2 "mat: dimension mismatch").text none)) (some (new 1 2 "mat: dimension mismatch")) = false :=
  panic_value_not_found 5 "Fit" _ (by decide) (by decide)

/-- **C321, what does not hold.** If an error was already set when the function panicked, the result is not a `PanicError`: asking for one finds what was there before,
so a caller cannot tell by type that there was a panic. -/
theorem panic_hidden (a : Nat) (op v : String) (e : Err) :
    as .panicked (recovered a op v (some e)) = as .panicked e ∧
    (as .panicked (recovered a op v none)).isSome = true := by
  constructor
  · exact as_put .panicked e [(a, .errorf _ _)] (by simp [Layer.kind])
  · simp [recovered, as, Err.chain, Err.kind, Base.kind]

example : as .panicked (recovered 5 "Fit" "index out of range" (some (make 1 2 (.value "Fit" "bad input")))) = none := by decide +kernel

/-! ### Text of the numerical error -/

theorem valuesFrom_five (vs : List String) (i : Nat) (hi : 5 ≤ i) : valuesFrom i vs = if vs = [] then "" else ", ..." := by
  cases vs with
  | nil => simp [valuesFrom]
  | cons v vs => simp [valuesFrom, hi, show 0 < i by omega]

/-- **C321.** The text of a numerical error names at most five values, whatever the number of values, and says so if there were more. -/
theorem values_text (v₀ v₁ v₂ v₃ v₄ : String) (vs : List String) :
    valuesFrom 0 (v₀ :: v₁ :: v₂ :: v₃ :: v₄ :: vs) =
      v₀ ++ ", " ++ v₁ ++ ", " ++ v₂ ++ ", " ++ v₃ ++ ", " ++ v₄ ++ (if vs = [] then "" else ", ...") := by
  simp [valuesFrom, valuesFrom_five, String.append_assoc]

/-! ### The warning about forgetting -/

section
variable {α : Type _} [Field α] [LinearOrder α] [IsStrictOrderedRing α]

/-- **C322 (partial: only for an old performance above zero).** The drop rate of the warning is positive exactly if the performance fell, and the new performance is
the old one less that share of it. -/
theorem drop_rate_partial (o n : α) (ho : 0 < o) : (0 < dropRate o n ↔ n < o) ∧ n = o - o * dropRate o n := by
  unfold dropRate
  constructor
  · rw [div_pos_iff_of_pos_right ho]; exact sub_pos
  · field_simp; ring

example : dropRate (4 / 5 : ℚ) (3 / 5) = 1 / 4 := by norm_num [dropRate]

/-- **C322, what does not hold.** For a score that may be negative, like R², the sign is the wrong way round: with an old performance below zero the warning reports
a drop exactly if the performance rose. -/
theorem drop_rate_negative (o n : α) (ho : o < 0) : (0 < dropRate o n ↔ o < n) ∧ (dropRate o n < 0 ↔ n < o) := by
  unfold dropRate
  constructor
  · rw [div_pos_iff]
    constructor
    · rintro (⟨_, h⟩ | ⟨h, _⟩)
      · linarith
      · linarith
    · intro h; exact Or.inr ⟨by linarith, ho⟩
  · rw [div_neg_iff]
    constructor
    · rintro (⟨h, _⟩ | ⟨_, h⟩)
      · linarith
      · linarith
    · intro h; exact Or.inl ⟨by linarith, ho⟩

example : 0 < dropRate (-1 : ℚ) (1 / 2) := by norm_num [dropRate]
end

/-- **C322, what does not hold.** With an old performance of zero the rate is not a finite number, whatever the new one is. -/
theorem drop_rate_zero (n : F64) : ¬ (dropRate (0 : F64) n).IsFin := by
  have hr : Binary64.rnd 0 = 0 := Binary64.rounding.zero
  have hle : |(0 : ℚ)| ≤ maxF64 := by rw [abs_zero]; exact F64.maxF64_pos.le
  have hz : (0 : F64) = .fin ⟨0, hr, hle⟩ := by
    show F64.round 0 = _
    unfold F64.round
    simp only [hr, hle, dite_true]
  have h : ∀ x : F64, ¬ (F64.div x 0).IsFin := by
    intro x
    rw [hz]
    cases x with
    | fin q =>
      by_cases hq : q.1 = 0
      · simp [F64.div, hq, F64.IsFin]
      · simp [F64.div, hq, F64.IsFin]
    | inf s => simp [F64.div, F64.IsFin]
    | nan => simp [F64.div, F64.IsFin]
  exact h _

end Scigo.ErrChain
