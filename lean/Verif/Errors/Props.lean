import Verif.Errors.Lemmas

/-!
# Properties of `pkg/errors` (C04 – C07)
-/

namespace Scigo.Errors

/-! ## C04 recovery -/

/-- The error records the panic value and the operation: either a `PanicError` itself or the
wrapper around an error that had been stored before. -/
def Carries {V : Type _} (e : Err V) (op : String) (v : V) : Prop :=
  e = .panicErr op v ∨ ∃ o, e = .wrapped op v o

/-- **C04** (law-free). A method that defers `Recover` always returns. -/
theorem method_never_panics {V : Type _} (op : String) (body : Prog V) :
    ∃ e, method op body = .returned e := by
  unfold method
  cases h : body.run none with
  | returned e => exact ⟨e, rfl⟩
  | panicked s v => cases s <;> exact ⟨_, rfl⟩

/-- **C04**. A normal return, with or without error, is passed on unchanged. -/
theorem method_return_unchanged {V : Type _} (op : String) (body : Prog V) (e : Option (Err V))
    (h : body.run none = .returned e) : method op body = .returned e := by
  simp [method, h, recover]

/-- **C04**. A panic becomes a non-nil error that carries the panic value and operation, and
from which an error stored before the panic can be unwrapped. -/
theorem method_panic_becomes_error {V : Type _} (op : String) (body : Prog V)
    (stored : Option (Err V)) (v : V) (h : body.run none = .panicked stored v) :
    ∃ e, method op body = .returned (some e) ∧ Carries e op v ∧ e.unwrap = stored := by
  cases stored with
  | none => exact ⟨_, by simp [method, h, recover], .inl rfl, rfl⟩
  | some o => exact ⟨_, by simp [method, h, recover], .inr ⟨o, rfl⟩, rfl⟩

/-- **C04**. Nil error exactly when the body returned nil: no panic is ever swallowed. -/
theorem method_nil_iff {V : Type _} (op : String) (body : Prog V) :
    method op body = .returned none ↔ body.run none = .returned none := by
  constructor
  · intro h
    cases hb : body.run none with
    | returned e => rw [method_return_unchanged op body e hb] at h; exact h
    | panicked s v =>
      obtain ⟨e, he, _⟩ := method_panic_becomes_error op body s v hb
      rw [he] at h; cases h
  · exact method_return_unchanged op body none

/-- **C04**. A panic below any depth of calls without their own `Recover` reaches the nearest
recovering method as a `PanicError` with that value. -/
theorem deep_panic_is_caught {V : Type _} (op : String) (v : V)
    (ks : List (Option (Err V) → Prog V)) :
    method op (ks.foldr (fun k p => Prog.callRaw p k) (.panic v))
      = .returned (some (.panicErr op v)) := by
  have h : (ks.foldr (fun k p => Prog.callRaw p k) (.panic v) : Prog V).run none
      = .panicked none v := by
    induction ks with
    | nil => rfl
    | cons k ks ih => simp [Prog.run, ih]
  simp [method, h, recover]

/-- **C04**. A call to a recovering method never makes its caller panic: the caller goes on
with that method's error. -/
theorem caller_continues {V : Type _} (op : String) (callee : Prog V)
    (k : Option (Err V) → Prog V) (stored : Option (Err V)) :
    ∃ e, method op callee = .returned e ∧
      (Prog.callSafe op callee k).run stored = (k e).run stored := by
  obtain ⟨e, he⟩ := method_never_panics op callee
  refine ⟨e, he, ?_⟩
  simp only [Prog.run]
  unfold method at he
  rw [he]

/-- **C04** for `SafeExecute`: it returns `fn`'s own error, or a `PanicError` carrying the
panic value (never wrapped: the named result is nil while `fn` runs). -/
theorem safeExecute_spec {V : Type _} (op : String) (fn : Prog V) :
    (∀ e, fn.run none = .returned e → safeExecute op fn = .returned e) ∧
    (∀ s v, fn.run none = .panicked s v →
      safeExecute op fn = .returned (some (.panicErr op v))) := by
  constructor
  · intro e h; simp [safeExecute, Prog.run, h, recover]
  · intro s v h; simp [safeExecute, Prog.run, h, recover]

/-- A body that stores an error and then panics inside a helper: the hypotheses of
`method_panic_becomes_error` with a stored error. -/
example : (Prog.assign (some (.base 7)) (.callRaw (.panic "boom") .ret) : Prog String).run none
    = .panicked (some (.base 7)) "boom" := rfl
example : method "Fit" (Prog.assign (some (.base 7)) (.callRaw (.panic "boom") .ret) : Prog String)
    = .returned (some (.wrapped "Fit" "boom" (.base 7))) := rfl
example : (Prog.callSafe "G" (.panic "x") .ret : Prog String).run none
    = .returned (some (.panicErr "G" "x")) := rfl

/-! ## C05 clipping and safe division -/

/-- **C05** `ClipValue` (any linear order, hence exact for comparisons of non-NaN floats):
the result lies in `[lo, hi]`, it is the identity on `[lo, hi]`, monotone and idempotent. -/
theorem clipValue_spec {α : Type _} [LinearOrder α] (lo hi : α) (h : lo ≤ hi) :
    (∀ v, lo ≤ clipValue v lo hi ∧ clipValue v lo hi ≤ hi) ∧
    (∀ v, lo ≤ v → v ≤ hi → clipValue v lo hi = v) ∧
    (∀ v w, v ≤ w → clipValue v lo hi ≤ clipValue w lo hi) ∧
    (∀ v, clipValue (clipValue v lo hi) lo hi = clipValue v lo hi) := by
  have hr : ∀ v, lo ≤ clipValue v lo hi ∧ clipValue v lo hi ≤ hi := by
    intro v; unfold clipValue
    split
    · exact ⟨le_refl _, h⟩
    · split
      · exact ⟨h, le_refl _⟩
      · exact ⟨not_lt.1 (by assumption), not_lt.1 (by assumption)⟩
  have hi' : ∀ v, lo ≤ v → v ≤ hi → clipValue v lo hi = v := by
    intro v h1 h2; unfold clipValue
    rw [if_neg (not_lt.2 h1), if_neg (not_lt.2 h2)]
  refine ⟨hr, hi', ?_, fun v => hi' _ (hr v).1 (hr v).2⟩
  intro v w hvw
  by_cases h1 : v < lo
  · have : clipValue v lo hi = lo := by simp [clipValue, h1]
    rw [this]; exact (hr w).1
  · by_cases h2 : w > hi
    · have : clipValue w lo hi = hi := by
        unfold clipValue; rw [if_neg (not_lt.2 (h.trans h2.le)), if_pos h2]
      rw [this]; exact (hr v).2
    · rw [hi' v (not_lt.1 h1) (hvw.trans (not_lt.1 h2)),
        hi' w ((not_lt.1 h1).trans hvw) (not_lt.1 h2)]
      exact hvw

/-- **C05** `ClipValue` takes the nearest point of the interval: outside values go to the
nearer end. -/
theorem clipValue_outside {α : Type _} [LinearOrder α] (lo hi v : α) (h : lo ≤ hi) :
    (v < lo → clipValue v lo hi = lo) ∧ (hi < v → clipValue v lo hi = hi) := by
  constructor
  · intro h1; simp [clipValue, h1]
  · intro h1; unfold clipValue; rw [if_neg (not_lt.2 (h.trans h1.le)), if_pos h1]

example : clipValue (7 : Int) 0 5 = 5 ∧ clipValue (-7 : Int) 0 5 = 0 ∧ clipValue (3 : Int) 0 5 = 3 := by
  decide

/-- **C05** `SafeDivide` over the reals: the quotient, unless `|den| < 1e-10`, then `0`;
so it never divides by zero and its size is at most `1e10 * |num|`. -/
theorem safeDivide_spec (num den : ℝ) :
    (1e-10 ≤ |den| → den ≠ 0 ∧ safeDivide abs 1e-10 num den = num / den) ∧
    (|den| < 1e-10 → safeDivide abs 1e-10 num den = 0) ∧
    |safeDivide abs 1e-10 num den| ≤ 1e10 * |num| := by
  have h1 : (1e-10 ≤ |den| → den ≠ 0 ∧ safeDivide abs 1e-10 num den = num / den) := by
    intro h
    refine ⟨?_, by unfold safeDivide; rw [if_neg (not_lt.2 h)]⟩
    rintro rfl
    norm_num at h
  have h2 : (|den| < 1e-10 → safeDivide abs 1e-10 num den = 0) := by
    intro h; unfold safeDivide; rw [if_pos h]
  refine ⟨h1, h2, ?_⟩
  by_cases h : |den| < 1e-10
  · rw [h2 h, abs_zero]; positivity
  · have h' := not_lt.1 h
    rw [(h1 h').2, abs_div]
    have hp : (0 : ℝ) < |den| := lt_of_lt_of_le (by norm_num) h'
    rw [div_le_iff₀ hp]
    have h0 : (1e10 : ℝ) * 1e-10 = 1 := by norm_num
    calc |num| = (1e10 * 1e-10) * |num| := by rw [h0, one_mul]
      _ = 1e10 * |num| * 1e-10 := by ring
      _ ≤ 1e10 * |num| * |den| := by
        apply mul_le_mul_of_nonneg_left h'; positivity

/-- **C05** `ClipGradient` over the reals, for a bound `maxNorm ≥ 0`: the result is
`s · gradient` for some `0 ≤ s ≤ 1`, has norm at most `maxNorm`, is unchanged if the norm
was at most `maxNorm` and has norm exactly `maxNorm` otherwise. -/
theorem clipGradient_spec (g : List ℝ) (maxNorm : ℝ) (hm : 0 ≤ maxNorm) :
    (∃ s : ℝ, 0 ≤ s ∧ s ≤ 1 ∧ clipGradient Real.sqrt g maxNorm = g.map (· * s)) ∧
    Real.sqrt ((clipGradient Real.sqrt g maxNorm).map (· ^ 2)).sum ≤ maxNorm ∧
    (Real.sqrt (g.map (· ^ 2)).sum ≤ maxNorm → clipGradient Real.sqrt g maxNorm = g) ∧
    (maxNorm ≤ Real.sqrt (g.map (· ^ 2)).sum →
      Real.sqrt ((clipGradient Real.sqrt g maxNorm).map (· ^ 2)).sum = maxNorm) := by
  have hn : ∀ l : List ℝ, Real.sqrt (l.map (· ^ 2)).sum = gradNorm Real.sqrt l := by
    intro l; simp only [gradNorm, sumOver_eq, pow_two]
  simp only [hn]
  by_cases h : gradNorm Real.sqrt g > maxNorm
  · have hp : 0 < gradNorm Real.sqrt g := lt_of_le_of_lt hm h
    have e : clipGradient Real.sqrt g maxNorm
        = g.map (· * (maxNorm / gradNorm Real.sqrt g)) := by
      unfold clipGradient; simp only; rw [if_pos h]
    have hs : 0 ≤ maxNorm / gradNorm Real.sqrt g := div_nonneg hm hp.le
    have hnorm : gradNorm Real.sqrt (clipGradient Real.sqrt g maxNorm) = maxNorm := by
      rw [e, gradNorm_scale, abs_of_nonneg hs, div_mul_cancel₀ _ hp.ne']
    exact ⟨⟨_, hs, (div_le_one hp).2 h.le, e⟩, hnorm.le,
      fun h' => absurd h (not_lt.2 h'), fun _ => hnorm⟩
  · have e : clipGradient Real.sqrt g maxNorm = g := by
      unfold clipGradient; simp only; rw [if_neg h]
    rw [e]
    exact ⟨⟨1, zero_le_one, le_refl _, by simp⟩, not_lt.1 h, fun _ => rfl,
      fun h' => le_antisymm (not_lt.1 h) h'⟩

/-- **C05**, outside the guard: a negative bound flips the gradient (the code does not reject
it), so `0 ≤ maxNorm` above is needed. -/
theorem clipGradient_negative_bound (g : List ℝ) (maxNorm : ℝ) (hm : maxNorm < 0)
    (hg : 0 < Real.sqrt (g.map (· ^ 2)).sum) :
    ∃ s : ℝ, s < 0 ∧ clipGradient Real.sqrt g maxNorm = g.map (· * s) := by
  have hn : Real.sqrt (g.map (· ^ 2)).sum = gradNorm Real.sqrt g := by
    simp only [gradNorm, sumOver_eq, pow_two]
  rw [hn] at hg
  refine ⟨maxNorm / gradNorm Real.sqrt g, div_neg_of_neg_of_pos hm hg, ?_⟩
  unfold clipGradient; simp only; rw [if_pos (hm.trans hg)]

/-- Non-trivial case: norm 5 clipped to 1. -/
example : clipGradient Real.sqrt [3, 4] 1 = [3 / 5, 4 / 5] := by
  have h : Real.sqrt (0 + 3 * 3 + 4 * 4) = 5 := by
    rw [show (0 + 3 * 3 + 4 * 4 : ℝ) = 5 ^ 2 by norm_num, Real.sqrt_sq (by norm_num)]
  simp only [clipGradient, gradNorm, sumOver, List.foldl, h]
  norm_num

/-- **C05** `StabilizeLog` is monotone and never takes the log of a non-positive number;
`StabilizeExp` is monotone and bounded by `exp 700`, over the reals. -/
theorem stabilize_spec :
    (∀ v w : ℝ, v ≤ w → stabilizeLog Real.log 1e-10 v ≤ stabilizeLog Real.log 1e-10 w) ∧
    (∀ f : ℝ → ℝ, (∀ x, 0 < x → f x = Real.log x) →
      ∀ v, stabilizeLog f 1e-10 v = stabilizeLog Real.log 1e-10 v) ∧
    (∀ v w : ℝ, v ≤ w → stabilizeExp Real.exp 700 v ≤ stabilizeExp Real.exp 700 w) ∧
    (∀ v : ℝ, 0 ≤ stabilizeExp Real.exp 700 v ∧ stabilizeExp Real.exp 700 v ≤ Real.exp 700) ∧
    (∀ v : ℝ, -700 ≤ v → v ≤ 700 → stabilizeExp Real.exp 700 v = Real.exp v) := by
  refine ⟨?_, ?_, ?_, ?_, ?_⟩
  · intro v w h
    unfold stabilizeLog
    split <;> split
    · exact le_refl _
    · next h1 h2 => exact Real.log_le_log (by norm_num) (not_lt.1 h2)
    · next h1 h2 => exact absurd (lt_of_le_of_lt h h2) h1
    · next h1 h2 =>
      exact Real.log_le_log (lt_of_lt_of_le (by norm_num) (not_lt.1 h1)) h
  · intro f hf v
    unfold stabilizeLog
    split
    · exact hf _ (by norm_num)
    · next h => exact hf _ (lt_of_lt_of_le (by norm_num) (not_lt.1 h))
  · intro v w h
    unfold stabilizeExp
    split
    · next h1 => rw [if_pos (lt_of_lt_of_le h1 h)]
    · next h1 =>
      split
      · next h2 => split_ifs <;> positivity
      · next h2 =>
        split_ifs with h3 h4
        · exact Real.exp_le_exp.2 (not_lt.1 h1)
        · exact absurd (lt_of_le_of_lt h h4) h2
        · exact Real.exp_le_exp.2 h
  · intro v
    unfold stabilizeExp
    split_ifs with h1 h2
    · exact ⟨by positivity, le_refl _⟩
    · exact ⟨le_refl _, by positivity⟩
    · exact ⟨by positivity, Real.exp_le_exp.2 (not_lt.1 h1)⟩
  · intro v h1 h2
    unfold stabilizeExp
    rw [if_neg (not_lt.2 h2), if_neg (not_lt.2 h1)]

/-! ## C06 LogSumExp -/

/-- **C06** (exact arithmetic on finite numbers and `-Inf`). `LogSumExp` is the logarithm of
the sum of exponentials, for every vector, including the empty one and `-Inf` entries. -/
theorem logSumExp_eq (junk : WithBot ℝ → WithBot ℝ) (vs : List (WithBot ℝ)) :
    lseBot junk vs = logBot ((vs.map expBot).sum) :=
  lseBot_eq junk vs

/-- **C06**, finite entries: the usual formula, and the bounds `max ≤ lse ≤ max + log n`. -/
theorem logSumExp_finite (junk : WithBot ℝ → WithBot ℝ) (v0 : ℝ) (vs : List ℝ) :
    ∃ r : ℝ, lseBot junk ((v0 :: vs).map (fun x : ℝ => (x : WithBot ℝ))) = (r : WithBot ℝ) ∧
      r = Real.log (((v0 :: vs).map Real.exp).sum) ∧
      (∀ v ∈ v0 :: vs, v ≤ r) ∧
      (∀ M, (∀ v ∈ v0 :: vs, v ≤ M) → r ≤ M + Real.log (v0 :: vs).length) := by
  have hpos : 0 < ((v0 :: vs).map Real.exp).sum := by
    apply List.sum_pos
    · intro x hx; obtain ⟨y, _, rfl⟩ := List.mem_map.1 hx; exact Real.exp_pos y
    · simp
  refine ⟨_, ?_, rfl, ?_, ?_⟩
  · rw [logSumExp_eq, List.map_map]
    have : (expBot ∘ fun x : ℝ => (x : WithBot ℝ)) = Real.exp := rfl
    rw [this, logBot, if_neg hpos.ne']
  · intro v hv
    rw [Real.le_log_iff_exp_le hpos]
    apply List.single_le_sum
    · intro x hx; obtain ⟨y, _, rfl⟩ := List.mem_map.1 hx; exact (Real.exp_pos y).le
    · exact List.mem_map_of_mem hv
  · intro M hM
    have hl : (0 : ℝ) < ((v0 :: vs).length : ℝ) := by exact_mod_cast Nat.succ_pos _
    rw [Real.log_le_iff_le_exp hpos, Real.exp_add, Real.exp_log hl, mul_comm]
    have := List.sum_le_card_nsmul ((v0 :: vs).map Real.exp) (Real.exp M) (by
      intro x hx; obtain ⟨y, hy, rfl⟩ := List.mem_map.1 hx; exact Real.exp_le_exp.2 (hM y hy))
    simpa [nsmul_eq_mul] using this

/-- **C06**, shift: adding `c` to every value adds `c` to the result. -/
theorem logSumExp_shift (junk : WithBot ℝ → WithBot ℝ) (c : ℝ) (vs : List (WithBot ℝ)) :
    lseBot junk (vs.map (fun v => v + (c : WithBot ℝ))) = lseBot junk vs + (c : WithBot ℝ) := by
  rw [logSumExp_eq, logSumExp_eq, List.map_map]
  have h : ∀ l : List (WithBot ℝ), (l.map (expBot ∘ fun v => v + (c : WithBot ℝ))).sum
      = Real.exp c * (l.map expBot).sum := by
    intro l
    induction l with
    | nil => simp
    | cons v l ih =>
      simp only [List.map_cons, List.sum_cons, ih, Function.comp]
      rw [expBot_add]; ring
  rw [h]
  unfold logBot
  by_cases h0 : (vs.map expBot).sum = 0
  · simp [h0]
  · rw [if_neg (mul_ne_zero (Real.exp_ne_zero c) h0), if_neg h0,
      Real.log_mul (Real.exp_ne_zero c) h0, Real.log_exp, add_comm]
    rfl

/-- **C06**, overflow safety (every carrier in which `v ≤ m` implies `v - m ≤ 0`, which holds
for IEEE arithmetic on non-NaN numbers with `m` finite): the result depends on `exp` only
through its values at arguments `≤ 0`. -/
theorem logSumExp_exponents_nonpos {α : Type _} [LinearOrder α] (add sub : α → α → α)
    (zero negInf : α) (isNegInf : α → Bool)
    (hsub : ∀ v m, v ≤ m → isNegInf m = false → sub v m ≤ zero)
    (exp exp' log : α → α) (h : ∀ x, x ≤ zero → exp x = exp' x) (vs : List α) :
    logSumExp add sub zero negInf isNegInf exp log vs
      = logSumExp add sub zero negInf isNegInf exp' log vs := by
  cases vs with
  | nil => rfl
  | cons v0 vs =>
    unfold logSumExp
    simp only
    cases hb : isNegInf (runMax v0 vs) with
    | true => rfl
    | false =>
      simp only [Bool.false_eq_true, if_false]
      congr 2
      apply List.foldl_ext
      intro s v hv
      rw [h _ (hsub v _ ((runMax_spec v0 vs).2 v hv) hb)]

example : lseBot id [((0 : ℝ) : WithBot ℝ), ⊥, ((0 : ℝ) : WithBot ℝ)]
    = ((Real.log 2 : ℝ) : WithBot ℝ) := by
  rw [logSumExp_eq]
  have : ([((0 : ℝ) : WithBot ℝ), ⊥, ((0 : ℝ) : WithBot ℝ)].map expBot).sum = 2 := by
    simp [expBot]; norm_num
  rw [this, logBot, if_neg (by norm_num)]
example : lseBot id [⊥, ⊥] = ⊥ := by
  rw [logSumExp_eq]; simp [expBot, logBot]

/-! ## C07 stability checks -/

/-- **C07** (law-free). `CheckMatrix` reports an error iff the scanned block contains an
unstable entry; the listed values are unstable entries of that block, at least one and at
most ten of them. -/
theorem checkMatrix_iff {α : Type _} (bad : α → Bool) (m : Mat α) (rows cols : Nat) :
    ((checkMatrix bad m rows cols).isSome = true
      ↔ ∃ i < rows, ∃ j < cols, bad (m.at' i j) = true) ∧
    ∀ u, checkMatrix bad m rows cols = some u →
      1 ≤ u.length ∧ u.length ≤ 10 ∧
      ∀ v ∈ u, bad v = true ∧ ∃ i < rows, ∃ j < cols, m.at' i j = v := by
  have h := scanRows_spec bad m cols (List.range rows)
  simp only [List.mem_range] at h
  unfold checkMatrix
  simp only
  constructor
  · rw [← h.2.2]; split <;> simp_all
  · intro u hu
    split at hu
    · next hp =>
      simp only [Option.some.injEq] at hu
      subst hu
      exact ⟨hp, h.2.1, h.1⟩
    · simp at hu

/-- **C07** (law-free). `CheckNumericalStability` and `CheckScalar` report exactly the inputs
with an unstable value; the slice check attaches the whole slice. -/
theorem checkSlice_iff {α : Type _} (bad : α → Bool) (vs : List α) :
    ((checkSlice bad vs).isSome = true ↔ ∃ v ∈ vs, bad v = true) ∧
    (∀ u, checkSlice bad vs = some u → u = vs) ∧
    (∀ v, (checkScalar bad v).isSome = true ↔ bad v = true) := by
  refine ⟨?_, ?_, ?_⟩
  · unfold checkSlice; split <;> simp_all
  · intro u hu; unfold checkSlice at hu; split at hu <;> simp_all
  · intro v; unfold checkScalar; split <;> simp_all

/-- unstable entry in the second row, last column -/
example : checkMatrix (fun v : Nat => decide (v > 100)) (Mat.ofRows [[1, 2], [3, 400]] 2 0) 2 2
    = some [400] := by decide

end Scigo.Errors
