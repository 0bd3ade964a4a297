import Verif.Stream.Model
import Verif.Online.FitProps
import Mathlib.Data.List.Basic

/-!
# Properties of the stream methods (C83)
-/

set_option linter.unusedSectionVars false

namespace Scigo.Stream

variable {M B P : Type}

/-! ## Specification -/

/-- the model after `PartialFit` on the batches one after the other, failures included -/
def trainAll (E : Est M B P) (m₀ : M) (bs : List B) : M :=
  bs.foldl (fun m b => (E.partialFit m b).1) m₀

/-- the successful predictions of model `m` for a batch: none or one -/
def answers (E : Est M B P) (m : M) (b : B) : List P :=
  match E.predict m b with
  | .ok p => [p]
  | _ => []

/-- test-then-train: batch number `i` is answered by the model trained on batches `0 … i-1` only -/
def testThenTrain (E : Est M B P) (m₀ : M) (bs : List B) : List P :=
  (bs.zipIdx).flatMap fun bi =>
    let m := trainAll E m₀ (bs.take bi.2)
    if E.fitted m then answers E m bi.1 else []

theorem trainAll_append (E : Est M B P) (m₀ : M) (bs : List B) (b : B) :
    trainAll E m₀ (bs ++ [b]) = (E.partialFit (trainAll E m₀ bs) b).1 := by
  simp [trainAll]

theorem testThenTrain_append (E : Est M B P) (m₀ : M) (bs : List B) (b : B) :
    testThenTrain E m₀ (bs ++ [b]) = testThenTrain E m₀ bs ++
      (if E.fitted (trainAll E m₀ bs) then answers E (trainAll E m₀ bs) b else []) := by
  unfold testThenTrain
  rw [List.zipIdx_append, List.flatMap_append]
  congr 1
  · refine List.flatMap_congr fun bi hbi => ?_
    obtain ⟨b', i⟩ := bi
    have hi : i < bs.length := by
      have := List.mem_zipIdx hbi
      omega
    rw [List.take_append_of_le_length (by omega)]
  · simp

/-! ## FitStream -/

theorem EnvStep.sent_eq {e e' : Env B} (h : EnvStep e e') (pre : List B)
    (hs : e.sent = pre ++ e.queue) : e'.sent = pre ++ e'.queue := by
  cases h <;> simp_all

theorem EnvStep.mono {e e' : Env B} (h : EnvStep e e') :
    (e.cancelled = true → e'.cancelled = true) ∧ (e.closed = true → e'.closed = true) ∧
    (e.closed = true → e'.queue = e.queue ∧ e'.sent = e.sent) := by
  cases h <;> simp_all

/-- **C83** (FitStream) Whatever the producer does and whenever the context is cancelled: `PartialFit`
is applied to a prefix of the batches sent, in order, each exactly once. `FitStream` returns `nil`
only after the channel was closed and everything sent was trained on without error; it returns the
context's error only if the context was cancelled; and an error of `PartialFit` only if that error
came from the last batch it took, all earlier ones having succeeded. -/
theorem fitStream_history (E : Est M B P) (m₀ : M) (s : FitSt M B) (h : FitReach E m₀ s) :
    s.env.sent = s.trained ++ s.env.queue ∧
    s.model = trainAll E m₀ s.trained ∧
    (∀ i (hi : i < s.trained.length), i + 1 < s.trained.length →
      (E.partialFit (trainAll E m₀ (s.trained.take i)) s.trained[i]).2 = .ok ()) ∧
    match s.pc with
    | .loop => ∀ i (hi : i < s.trained.length),
        (E.partialFit (trainAll E m₀ (s.trained.take i)) s.trained[i]).2 = .ok ()
    | .returnedNil => s.env.closed = true ∧ s.trained = s.env.sent ∧
        ∀ i (hi : i < s.trained.length),
          (E.partialFit (trainAll E m₀ (s.trained.take i)) s.trained[i]).2 = .ok ()
    | .returnedCtx => s.env.cancelled = true ∧
        ∀ i (hi : i < s.trained.length),
          (E.partialFit (trainAll E m₀ (s.trained.take i)) s.trained[i]).2 = .ok ()
    | .returnedErr e => ∃ pre b, s.trained = pre ++ [b] ∧
        (E.partialFit (trainAll E m₀ pre) b).2 = .err e
    | .panicked => ∃ pre b msg, s.trained = pre ++ [b] ∧
        (E.partialFit (trainAll E m₀ pre) b).2 = .panic msg := by
  induction h with
  | start => simp [Env.new, trainAll]
  | @env s e hs he ih =>
    obtain ⟨h1, h2, h3, h4⟩ := ih
    refine ⟨he.sent_eq _ h1, h2, h3, ?_⟩
    rcases s with ⟨env, pc, model, trained⟩
    rcases pc with _ | _ | _ | e' | _
    · exact h4
    · obtain ⟨a, b, c⟩ := h4
      exact ⟨he.mono.2.1 a, b.trans (he.mono.2.2 a).2.symm, c⟩
    · exact ⟨he.mono.1 h4.1, h4.2⟩
    · exact h4
    · exact h4
  | @own s s' hs ho ih =>
    obtain ⟨h1, h2, h3, h4⟩ := ih
    cases ho with
    | ctx hp hc =>
      rw [hp] at h4
      exact ⟨h1, h2, h3, hc, h4⟩
    | eof hp hq hc =>
      rw [hp] at h4
      refine ⟨h1, h2, h3, hc, ?_, h4⟩
      simpa [hq] using h1.symm
    | recv b q hp hq =>
      rw [hp] at h4
      have key : ∀ i (hi : i < (s.trained ++ [b]).length), i + 1 < (s.trained ++ [b]).length →
          (E.partialFit (trainAll E m₀ ((s.trained ++ [b]).take i)) (s.trained ++ [b])[i]).2
            = .ok () := by
        intro i hi hi'
        simp only [List.length_append, List.length_singleton] at hi hi'
        rw [List.take_append_of_le_length (by omega), List.getElem_append_left (by omega)]
        exact h4 i (by omega)
      refine ⟨by simp [h1, hq], by rw [trainAll_append, h2], key, ?_⟩
      have hl : ∀ (hi : s.trained.length < (s.trained ++ [b]).length),
          (s.trained ++ [b])[s.trained.length] = b := by simp
      simp only
      rcases hr : (E.partialFit s.model b).2 with ⟨⟨⟩⟩ | e | msg
      · simp only [afterFit]
        intro i hi
        by_cases hi' : i + 1 < (s.trained ++ [b]).length
        · exact key i hi hi'
        · have hie : i = s.trained.length := by
            simp only [List.length_append, List.length_singleton] at hi hi'; omega
          subst hie
          rw [hl, List.take_left', ← h2, hr]
          rfl
      · exact ⟨_, _, rfl, by rw [← h2, hr]⟩
      · exact ⟨_, _, msg, rfl, by rw [← h2, hr]⟩

/-- **C83** (FitStream) It never hangs: while in its loop, if the context is cancelled, or the channel
closed, or a batch waiting, a step is possible; after cancellation it may return at once; and after the
channel is closed every step returns or takes one of the finitely many batches left. -/
theorem fitStream_progress (E : Est M B P) (s : FitSt M B) (hp : s.pc = .loop) :
    (s.env.cancelled = true ∨ s.env.closed = true ∨ s.env.queue ≠ [] → ∃ s', FitOwn E s s') ∧
    (s.env.cancelled = true → ∃ s', FitOwn E s s' ∧ s'.pc = .returnedCtx) ∧
    ∀ s', FitOwn E s s' →
      (s'.pc = .returnedCtx ∨ s'.pc = .returnedNil ∨ s'.env.queue.length < s.env.queue.length) := by
  refine ⟨?_, fun h => ⟨_, .ctx s hp h, rfl⟩, ?_⟩
  · rintro (h | h | h)
    · exact ⟨_, .ctx s hp h⟩
    · by_cases hq : s.env.queue = []
      · exact ⟨_, .eof s hp hq h⟩
      · obtain ⟨b, q, e⟩ := List.exists_cons_of_ne_nil hq
        exact ⟨_, .recv s b q hp e⟩
    · obtain ⟨b, q, e⟩ := List.exists_cons_of_ne_nil h
      exact ⟨_, .recv s b q hp e⟩
  · intro s' h
    cases h with
    | ctx => exact .inl rfl
    | eof => exact .inr (.inl rfl)
    | recv b q hp hq => exact .inr (.inr (by simp [hq]))

/-- a returned call takes no further step -/
theorem fitStream_returned (E : Est M B P) (s s' : FitSt M B) (hp : s.pc ≠ .loop) : ¬ FitOwn E s s' := by
  intro h
  cases h with
  | ctx h' => exact hp h'
  | eof h' => exact hp h'
  | recv _ _ h' => exact hp h'

/-! ## PredictStream -/

/-- **C83** (PredictStream) The consumer receives, in order, exactly the successful predictions of the
batches taken from the input, which are a prefix of those sent; the model never changes; the output is
closed only after the context was cancelled (then at most one batch was taken and dropped) or after
the input was closed and every batch was answered. -/
theorem predictStream_history (E : Est M B P) (m₀ : M) (s : St M B P) (h : Reach (PredOwn E) m₀ s) :
    s.model = m₀ ∧ s.out = s.done.flatMap (answers E m₀) ∧
    match s.pc with
    | .waiting => s.env.sent = s.done ++ s.env.queue
    | .sending b p => s.env.sent = s.done ++ b :: s.env.queue ∧ E.predict m₀ b = .ok p
    | .finished => (s.env.closed = true ∧ s.done = s.env.sent) ∨
        (s.env.cancelled = true ∧ ∃ dropped : List B, dropped.length ≤ 1 ∧
          s.env.sent = s.done ++ dropped ++ s.env.queue)
    | .panicked => ∃ b msg, s.env.sent = s.done ++ b :: s.env.queue ∧
        E.predict m₀ b = .panic msg := by
  induction h with
  | start => simp [Env.new]
  | @env s e hs he ih =>
    obtain ⟨h1, h2, h3⟩ := ih
    refine ⟨h1, h2, ?_⟩
    rcases s with ⟨env, pc, model, done, out⟩
    rcases pc with _ | ⟨b, p⟩ | _ | _
    · exact he.sent_eq _ h3
    · obtain ⟨a, c⟩ := h3
      refine ⟨?_, c⟩
      have := he.sent_eq (done ++ [b]) (by simpa using a)
      simpa using this
    · rcases h3 with ⟨a, c⟩ | ⟨a, d, hd, c⟩
      · exact .inl ⟨he.mono.2.1 a, c.trans (he.mono.2.2 a).2.symm⟩
      · exact .inr ⟨he.mono.1 a, d, hd, he.sent_eq _ c⟩
    · obtain ⟨b, msg, a, c⟩ := h3
      have := he.sent_eq (done ++ [b]) (by simpa using a)
      exact ⟨b, msg, by simpa using this, c⟩
  | @own s s' hs ho ih =>
    obtain ⟨h1, h2, h3⟩ := ih
    cases ho with
    | ctx hp hc =>
      rw [hp] at h3
      exact ⟨h1, h2, .inr ⟨hc, [], by simp, by simpa using h3⟩⟩
    | eof hp hq hc =>
      rw [hp] at h3
      refine ⟨h1, h2, .inl ⟨hc, ?_⟩⟩
      simpa [hq] using h3.symm
    | recv b q hp hq =>
      rw [hp] at h3
      simp only at h3
      unfold predictRecv
      rcases hr : E.predict s.model b with p | e | msg
      · exact ⟨h1, h2, by simp [h3, hq], by rw [← h1, hr]⟩
      · refine ⟨h1, ?_, ?_⟩
        · simp only [List.flatMap_append, h2]
          simp [answers, ← h1, hr]
        · simp only [hp, h3, hq]; simp
      · exact ⟨h1, h2, b, msg, by simp [h3, hq], by rw [← h1, hr]⟩
    | deliver b p hp =>
      rw [hp] at h3
      refine ⟨h1, ?_, by simpa using h3.1⟩
      simp only [List.flatMap_append, h2]
      simp [answers, h3.2]
    | abort b p hp hc =>
      rw [hp] at h3
      exact ⟨h1, h2, .inr ⟨hc, [b], by simp, by simpa using h3.1⟩⟩

/-! ## FitPredictStream -/

theorem trainOn_spec (E : Est M B P) (m₀ : M) (s : St M B P) (b : B)
    (h1 : s.model = trainAll E m₀ s.done) (h2 : s.out = testThenTrain E m₀ (s.done ++ [b]))
    (h3 : s.env.sent = s.done ++ b :: s.env.queue) :
    (trainOn E s b).model = trainAll E m₀ (trainOn E s b).done ∧
    (trainOn E s b).out = testThenTrain E m₀ (trainOn E s b).done ∧
    (trainOn E s b).env.sent = (trainOn E s b).done ++ (trainOn E s b).env.queue ∧
    ((trainOn E s b).pc = .waiting ∨ (trainOn E s b).pc = .panicked ∧
      ∃ msg, (E.partialFit (trainAll E m₀ s.done) b).2 = .panic msg) := by
  refine ⟨by simp only [trainOn]; rw [trainAll_append, ← h1], h2, by simpa [trainOn] using h3, ?_⟩
  rcases hr : (E.partialFit s.model b).2 with ⟨⟨⟩⟩ | e | msg
  · exact .inl (by simp only [trainOn, hr, afterTrain])
  · exact .inl (by simp only [trainOn, hr, afterTrain])
  · exact .inr ⟨by simp only [trainOn, hr, afterTrain], msg, by rw [← h1, hr]⟩

/-- **C83** (FitPredictStream) Test-then-train for every schedule: at every moment the consumer has
received, in order, exactly the predictions made for the batches dealt with, each by the model trained
on the batches before it and never on the batch itself; the model is the result of training on exactly
the batches dealt with, a prefix of those sent. The output is closed only after cancellation (then
at most one batch was taken without being answered or trained on) or once the input was closed and
everything sent was dealt with. -/
theorem fitPredictStream_history (E : Est M B P) (m₀ : M) (s : St M B P)
    (h : Reach (FitPredOwn E) m₀ s) :
    s.model = trainAll E m₀ s.done ∧ s.out = testThenTrain E m₀ s.done ∧
    match s.pc with
    | .waiting => s.env.sent = s.done ++ s.env.queue
    | .sending b p => s.env.sent = s.done ++ b :: s.env.queue ∧
        E.fitted (trainAll E m₀ s.done) = true ∧ E.predict (trainAll E m₀ s.done) b = .ok p
    | .finished => (s.env.closed = true ∧ s.done = s.env.sent) ∨
        (s.env.cancelled = true ∧ ∃ dropped : List B, dropped.length ≤ 1 ∧
          s.env.sent = s.done ++ dropped ++ s.env.queue)
    | .panicked => (∃ pre b msg, s.done = pre ++ [b] ∧
          (E.partialFit (trainAll E m₀ pre) b).2 = .panic msg) ∨
        ∃ b msg, s.env.sent = s.done ++ b :: s.env.queue ∧
          E.predict (trainAll E m₀ s.done) b = .panic msg := by
  induction h with
  | start => simp [Env.new, trainAll, testThenTrain]
  | @env s e hs he ih =>
    obtain ⟨h1, h2, h3⟩ := ih
    refine ⟨h1, h2, ?_⟩
    rcases s with ⟨env, pc, model, done, out⟩
    rcases pc with _ | ⟨b, p⟩ | _ | _
    · exact he.sent_eq _ h3
    · obtain ⟨a, c⟩ := h3
      refine ⟨?_, c⟩
      have := he.sent_eq (done ++ [b]) (by simpa using a)
      simpa using this
    · rcases h3 with ⟨a, c⟩ | ⟨a, d, hd, c⟩
      · exact .inl ⟨he.mono.2.1 a, c.trans (he.mono.2.2 a).2.symm⟩
      · exact .inr ⟨he.mono.1 a, d, hd, he.sent_eq _ c⟩
    · rcases h3 with h3 | ⟨b, msg, a, c⟩
      · exact .inl h3
      · have := he.sent_eq (done ++ [b]) (by simpa using a)
        exact .inr ⟨b, msg, by simpa using this, c⟩
  | @own s s' hs ho ih =>
    obtain ⟨h1, h2, h3⟩ := ih
    -- what training on `b` gives, for a state satisfying the hypotheses of `trainOn_spec`
    have key : ∀ (t : St M B P) (b : B), t.model = s.model → t.done = s.done →
        t.out = testThenTrain E m₀ (s.done ++ [b]) → t.env.sent = s.done ++ b :: t.env.queue →
        (trainOn E t b).model = trainAll E m₀ (trainOn E t b).done ∧
        (trainOn E t b).out = testThenTrain E m₀ (trainOn E t b).done ∧
        match (trainOn E t b).pc with
        | .waiting => (trainOn E t b).env.sent = (trainOn E t b).done ++ (trainOn E t b).env.queue
        | .sending b' p => (trainOn E t b).env.sent = (trainOn E t b).done ++ b' :: (trainOn E t b).env.queue ∧
            E.fitted (trainAll E m₀ (trainOn E t b).done) = true ∧
            E.predict (trainAll E m₀ (trainOn E t b).done) b' = .ok p
        | .finished => ((trainOn E t b).env.closed = true ∧
              (trainOn E t b).done = (trainOn E t b).env.sent) ∨
            ((trainOn E t b).env.cancelled = true ∧ ∃ dropped : List B, dropped.length ≤ 1 ∧
              (trainOn E t b).env.sent = (trainOn E t b).done ++ dropped ++ (trainOn E t b).env.queue)
        | .panicked => (∃ pre b' msg, (trainOn E t b).done = pre ++ [b'] ∧
              (E.partialFit (trainAll E m₀ pre) b').2 = .panic msg) ∨
            ∃ b' msg, (trainOn E t b).env.sent =
                (trainOn E t b).done ++ b' :: (trainOn E t b).env.queue ∧
              E.predict (trainAll E m₀ (trainOn E t b).done) b' = .panic msg := by
      intro t b e1 e2 e3 e4
      obtain ⟨a1, a2, a3, a4⟩ := trainOn_spec E m₀ t b (by rw [e1, e2, h1]) (by rw [e2]; exact e3)
        (by rw [e2]; exact e4)
      refine ⟨a1, a2, ?_⟩
      have hdone : (trainOn E t b).done = s.done ++ [b] := by
        rw [← e2]; rfl
      rcases a4 with a4 | ⟨a4, msg, a5⟩
      · rw [a4]; exact a3
      · rw [a4]
        exact .inl ⟨s.done, b, msg, hdone, by rw [← e2]; exact a5⟩
    cases ho with
    | ctx hp hc =>
      rw [hp] at h3
      exact ⟨h1, h2, .inr ⟨hc, [], by simp, by simpa using h3⟩⟩
    | eof hp hq hc =>
      rw [hp] at h3
      refine ⟨h1, h2, .inl ⟨hc, ?_⟩⟩
      simpa [hq] using h3.symm
    | recv b q hp hq =>
      rw [hp] at h3
      simp only at h3
      unfold fitPredictRecv
      simp only
      by_cases hf : E.fitted s.model = true
      · rw [if_pos hf]
        rcases hr : E.predict s.model b with p | e | msg
        · exact ⟨h1, h2, by simp [h3, hq], by rw [← h1]; exact hf, by rw [← h1]; exact hr⟩
        · refine key _ b rfl rfl ?_ (by simp [h3, hq])
          rw [testThenTrain_append, ← h1, if_pos hf]
          simp [answers, hr, h2]
        · exact ⟨h1, h2, .inr ⟨b, msg, by simp [h3, hq], by rw [← h1]; exact hr⟩⟩
      · rw [if_neg hf]
        refine key _ b rfl rfl ?_ (by simp [h3, hq])
        rw [testThenTrain_append, ← h1, if_neg hf]
        simp [h2]
    | deliver b p hp =>
      rw [hp] at h3
      obtain ⟨a, c, d⟩ := h3
      refine key _ b rfl rfl ?_ a
      rw [testThenTrain_append, if_pos c]
      simp [answers, d, h2]
    | abort b p hp hc =>
      rw [hp] at h3
      exact ⟨h1, h2, .inr ⟨hc, [b], by simp, by simpa using h3.1⟩⟩

/-- **C83** The streaming goroutine of `FitPredictStream` can always finish once the context is
cancelled — in one own step, even when nobody receives from the output — and once finished does
nothing more. -/
theorem fitPredictStream_cancel (E : Est M B P) (m₀ : M) (s : St M B P)
    (_h : Reach (FitPredOwn E) m₀ s) (hc : s.env.cancelled = true) :
    (s.pc = .panicked ∨ s.pc = .finished ∨ ∃ s', FitPredOwn E s s' ∧ s'.pc = .finished ∧ s'.out = s.out ∧
      s'.model = s.model) ∧
    (s.pc = .finished → ∀ s', ¬ FitPredOwn E s s') := by
  constructor
  · rcases hp : s.pc with _ | ⟨b, p⟩ | _ | _
    · exact .inr (.inr ⟨_, .ctx s hp hc, rfl, rfl, rfl⟩)
    · exact .inr (.inr ⟨_, .abort s b p hp hc, rfl, rfl, rfl⟩)
    · exact .inr (.inl rfl)
    · exact .inl rfl
  · intro hf s' ho
    cases ho <;> simp_all

/-- the same for `PredictStream` -/
theorem predictStream_cancel (E : Est M B P) (m₀ : M) (s : St M B P)
    (_h : Reach (PredOwn E) m₀ s) (hc : s.env.cancelled = true) :
    (s.pc = .panicked ∨ s.pc = .finished ∨ ∃ s', PredOwn E s s' ∧ s'.pc = .finished ∧ s'.out = s.out ∧
      s'.model = s.model) ∧
    (s.pc = .finished → ∀ s', ¬ PredOwn E s s') := by
  constructor
  · rcases hp : s.pc with _ | ⟨b, p⟩ | _ | _
    · exact .inr (.inr ⟨_, .ctx s hp hc, rfl, rfl, rfl⟩)
    · exact .inr (.inr ⟨_, .abort s b p hp hc, rfl, rfl, rfl⟩)
    · exact .inr (.inl rfl)
    · exact .inl rfl
  · intro hf s' ho
    cases ho <;> simp_all

/-! ## A concrete run -/

/-- a running total: unfitted until the first batch, predicts the total so far, refuses zero -/
def exEst : Est (Option Nat) Nat Nat :=
  { fitted := Option.isSome
    predict := fun m _ => match m with | some t => .ok t | none => .err .notFitted
    partialFit := fun m b => if b = 0 then (m, .err .value) else (some (m.getD 0 + b), .ok ()) }

/-- batches 3, 0, 4: the first is only trained on, the second is answered by 3 and rejected by
training, the third is answered by 3 too -/
example : testThenTrain exEst none [3, 0, 4] = [3, 3] ∧ trainAll exEst none [3, 0, 4] = some 7 := by
  decide

/-- a reachable state of `FitPredictStream` in which one answer was delivered -/
example : ∃ s, Reach (FitPredOwn exEst) none s ∧ s.done = [3, 4] ∧ s.out = [3] ∧ s.model = some 7 := by
  have h0 : Reach (FitPredOwn exEst) none _ := .start
  have h1 := Reach.env h0 (.send _ 3 rfl)
  have h2 := Reach.env h1 (.send _ 4 rfl)
  have h3 := Reach.own h2 (.recv _ 3 [4] rfl rfl)
  have h4 := Reach.own h3 (.recv _ 4 [] rfl rfl)
  have h5 := Reach.own h4 (.deliver _ 4 3 rfl)
  exact ⟨_, h5, rfl, rfl, rfl⟩

/-- a `FitStream` call stopped by the error of its second batch -/
example : ∃ s, FitReach exEst none s ∧ s.pc = .returnedErr .value ∧ s.trained = [3, 0] ∧
    s.env.queue = [4] := by
  have h0 : FitReach exEst none _ := .start
  have h1 := FitReach.env h0 (.send _ 3 rfl)
  have h2 := FitReach.env h1 (.send _ 0 rfl)
  have h3 := FitReach.env h2 (.send _ 4 rfl)
  have h4 := FitReach.own h3 (.recv _ 3 [0, 4] rfl rfl)
  have h5 := FitReach.own h4 (.recv _ 0 [4] rfl rfl)
  exact ⟨_, h5, rfl, rfl, rfl⟩

/-- `SGDRegressor` as an estimator of this kind -/
def sgdEst {α : Type} [Zero α] [One α] [Add α] [Sub α] [Neg α] [Mul α] [Div α] [LT α] [LE α]
    [DecidableLT α] [DecidableLE α] [BEq α] (N : Online.Num α) (init : Nat → List α) :
    Est (Online.Reg α) (Mat α × Mat α) (Mat α) :=
  { fitted := fun m => m.fitted
    predict := fun m b => m.predict b.1
    partialFit := fun m b => m.partialFit N init b.1 b.2 }

end Scigo.Stream
