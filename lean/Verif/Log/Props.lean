import Verif.Log.Model
import Mathlib.Data.List.Basic
import Mathlib.Tactic.SplitIfs
import Mathlib.Data.Rat.Defs
import Mathlib.Algebra.Group.Nat.Even
import Mathlib.Data.List.Induction

/-!
# Properties of the loggers
-/

namespace Scigo.Log

variable (shown : Val → String)

/-! ### levels of the production logger -/

/-- `SetLevel(l)` with a standard level: what a logger obtained afterwards writes is wrong for every one of the four levels — either a
message at or above `l` is dropped or one below `l` is written.  (C135 is false.) -/
theorem setLevel_threshold_fails (w : World) (p : Nat) (hp : p < w.provs.length) :
    ∀ l ∈ standard, ∃ m ∈ standard, ∃ z,
      ((w.step shown (.setLevel p l)).step shown (.getLogger p)).handles = w.handles ++ [z] ∧
      ∀ msg args, (z.log shown (w.step shown (.setLevel p l)).global m msg args).isSome ≠ decide (l ≤ m) := by
  have key : ∀ l, ∃ z, ((w.step shown (.setLevel p l)).step shown (.getLogger p)).handles = w.handles ++ [z] ∧
      z.level = clampLevel l ∧ (w.step shown (.setLevel p l)).global = clampLevel l := by
    intro l
    refine ⟨{ w.provs[p] with level := clampLevel l }, ?_, rfl, ?_⟩
    · simp [World.step, List.getElem?_eq_getElem hp, List.getElem?_set_self, hp]
    · simp [World.step, List.getElem?_eq_getElem hp]
  have wit : ∀ l m : Int, (decide (clampLevel l ≤ convertLevel m)) ≠ decide (l ≤ m) → m ∈ standard → ∃ m ∈ standard, ∃ z,
      ((w.step shown (.setLevel p l)).step shown (.getLogger p)).handles = w.handles ++ [z] ∧
      ∀ msg args, (z.log shown (w.step shown (.setLevel p l)).global m msg args).isSome ≠ decide (l ≤ m) := by
    intro l m hne hm
    obtain ⟨z, h1, h2, h3⟩ := key l
    refine ⟨m, hm, z, h1, fun msg args => ?_⟩
    have : (z.log shown (w.step shown (.setLevel p l)).global m msg args).isSome = decide (clampLevel l ≤ convertLevel m) := by
      unfold ZLogger.log ZLogger.writes
      rw [h2, h3]
      by_cases h : clampLevel l ≤ convertLevel m <;> simp [h]
    rw [this]
    exact hne
  intro l hl
  simp only [standard, List.mem_cons, List.not_mem_nil, or_false] at hl
  rcases hl with rfl | rfl | rfl | rfl
  · exact wit _ levelDebug (by decide) (by decide)
  · exact wit _ levelDebug (by decide) (by decide)
  · exact wit _ levelError (by decide) (by decide)
  · exact wit _ levelInfo (by decide) (by decide)

/-- After `SetLevel(l)` a logger obtained from the provider writes exactly the messages whose zerolog level is at least `l` read as a
zerolog level number (Info outside the range): the set written is upward closed.
Missing for C135: the numbers of the two scales differ, see `setLevel_threshold_fails`. -/
theorem setLevel_partial (w : World) (p : Nat) (hp : p < w.provs.length) (l : Int) :
    ∃ z, ((w.step shown (.setLevel p l)).step shown (.getLogger p)).handles = w.handles ++ [z] ∧
      ∀ m msg args, (z.log shown (w.step shown (.setLevel p l)).global m msg args).isSome =
        decide ((if -1 ≤ l ∧ l ≤ 7 then l else 1) ≤ convertLevel m) := by
  refine ⟨{ w.provs[p] with level := clampLevel l }, ?_, fun m msg args => ?_⟩
  · simp [World.step, List.getElem?_eq_getElem hp, List.getElem?_set_self, hp]
  · have hg : (w.step shown (.setLevel p l)).global = clampLevel l := by simp [World.step, List.getElem?_eq_getElem hp]
    have hc : clampLevel l = if -1 ≤ l ∧ l ≤ 7 then l else 1 := by
      unfold clampLevel
      split_ifs <;> omega
    rw [hg, ← hc]
    unfold ZLogger.log ZLogger.writes
    by_cases h : clampLevel l ≤ convertLevel m <;> simp [h]

example : (⟨0, [⟨1, []⟩], []⟩ : World).provs.length = 1 := rfl
example : (((⟨0, [⟨1, []⟩], []⟩ : World).run (fun _ => "") [.setLevel 0 levelWarn, .getLogger 0]).handles.map
    (fun z => (z.log (fun _ => "") 4 levelError "disk full" []).isSome)) = [false] := by decide

/-- If `Enabled` says no, nothing is written, whatever the global level. -/
theorem not_enabled_silent (z : ZLogger) (global l : Int) (msg : String) (args : List Val) (h : z.enabled l = false) :
    z.log shown global l msg args = none := by
  unfold ZLogger.enabled at h
  unfold ZLogger.log ZLogger.writes
  simp [h]

/-- calls that do not change a level and only use provider `p` and loggers numbered from `n` on -/
def Op.Harmless (p n : Nat) : Op → Prop
  | .getLogger q => q = p
  | .getNamed q _ => q = p
  | .withFields h _ => n ≤ h
  | _ => False

/-- A logger obtained from a provider after its `SetLevel` — directly, by name, or derived by `With`, in any sequence of such calls —
writes a message at a level exactly if `Enabled` says so. -/
theorem enabled_agrees (w : World) (p : Nat) (hp : p < w.provs.length) (l : Int) (ops : List Op)
    (ho : ∀ o ∈ ops, o.Harmless p w.handles.length) :
    ∀ i z, w.handles.length ≤ i → ((w.step shown (.setLevel p l)).run shown ops).handles[i]? = some z →
      ∀ m msg args, (z.log shown ((w.step shown (.setLevel p l)).run shown ops).global m msg args).isSome = z.enabled m := by
  have inv : ∀ ops : List Op, (∀ o ∈ ops, o.Harmless p w.handles.length) → ∀ v : World,
      (∃ q, v.provs[p]? = some q ∧ q.level = v.global) →
      (∀ i z, w.handles.length ≤ i → v.handles[i]? = some z → z.level = v.global) →
      ∀ i z, w.handles.length ≤ i → (v.run shown ops).handles[i]? = some z → z.level = (v.run shown ops).global := by
    intro ops
    induction ops with
    | nil => intro _ v _ h2; simpa [World.run] using h2
    | cons o ops ih =>
      intro ho v ⟨q, hq, hql⟩ h2
      have ho1 := ho o (by simp)
      have ih' := ih (fun o h => ho o (by simp [h]))
      have app : ∀ x : ZLogger, x.level = v.global → ∀ i z, w.handles.length ≤ i → (v.handles ++ [x])[i]? = some z → z.level = v.global := by
        intro x hx i z hi hz
        rw [List.getElem?_append] at hz
        split_ifs at hz with hlt
        · exact h2 i z hi hz
        · rw [List.getElem?_singleton] at hz
          split_ifs at hz
          cases hz
          exact hx
      show ∀ i (z : ZLogger), _ → ((v.step shown o).run shown ops).handles[i]? = some z → z.level = ((v.step shown o).run shown ops).global
      cases o with
      | newProvider z => exact absurd ho1 (by simp [Op.Harmless])
      | setup s => exact absurd ho1 (by simp [Op.Harmless])
      | setLevel a b => exact absurd ho1 (by simp [Op.Harmless])
      | getLogger a =>
        have : a = p := ho1
        subst this
        have hs : v.step shown (.getLogger a) = { v with handles := v.handles ++ [q] } := by simp [World.step, hq]
        rw [hs]
        exact ih' _ ⟨q, hq, hql⟩ (app q hql)
      | getNamed a s =>
        have : a = p := ho1
        subst this
        have hs : v.step shown (.getNamed a s) =
            { v with handles := v.handles ++ [{ q with context := q.context ++ [("component", .str s)] }] } := by simp [World.step, hq]
        rw [hs]
        exact ih' _ ⟨q, hq, hql⟩ (app _ hql)
      | withFields h args =>
        have hn : w.handles.length ≤ h := ho1
        cases hh : v.handles[h]? with
        | none =>
          have hs : v.step shown (.withFields h args) = v := by simp [World.step, hh]
          rw [hs]
          exact ih' v ⟨q, hq, hql⟩ h2
        | some z =>
          have hs : v.step shown (.withFields h args) = { v with handles := v.handles ++ [z.with shown args] } := by simp [World.step, hh]
          rw [hs]
          exact ih' _ ⟨q, hq, hql⟩ (app _ (h2 h z hn hh))
  intro i z hi hz m msg args
  have hv : w.step shown (.setLevel p l) =
      { w with global := clampLevel l, provs := w.provs.set p { w.provs[p] with level := clampLevel l } } := by
    simp [World.step, List.getElem?_eq_getElem hp]
  have hl : z.level = ((w.step shown (.setLevel p l)).run shown ops).global := by
    refine inv ops ho _ ?_ ?_ i z hi hz
    · rw [hv]
      exact ⟨{ w.provs[p] with level := clampLevel l }, by simp [hp], rfl⟩
    · intro i z hi hz
      rw [hv] at hz
      have := List.getElem?_eq_none (l := w.handles) (i := i) hi
      simp [this] at hz
  unfold ZLogger.log ZLogger.writes ZLogger.enabled
  rw [← hl]
  by_cases h : z.level ≤ convertLevel m <;> simp [h]

example : ∀ o ∈ [Op.getLogger 0, .getNamed 0 "fit", .withFields 1 []], o.Harmless 0 (⟨0, [⟨1, []⟩], []⟩ : World).handles.length := by
  simp [Op.Harmless]

/-- A logger obtained before a level change reports `Enabled` although its messages are dropped. -/
theorem stale_logger_enabled : ∃ (w : World) (z : ZLogger), w.handles = [z] ∧ z.enabled levelError = true ∧
    ∀ msg args, z.log shown (w.step shown (.setLevel 0 levelWarn)).global levelError msg args = none :=
  ⟨⟨1, [⟨1, []⟩], [⟨1, []⟩]⟩, ⟨1, []⟩, rfl, by decide, fun _ _ => by
    simp [World.step, ZLogger.log, ZLogger.writes, clampLevel, convertLevel, levelError, levelWarn, levelDebug, levelInfo]⟩

/-- the invalid level strings are exactly those `SetupLogger` panics on -/
theorem toLogLevel_panics_iff (s : String) :
    (∃ v, toLogLevel s = .panic v) ↔ s ∉ ["info", "debug", "warn", "warning", "error", "fatal", "panic", "disabled"] := by
  unfold toLogLevel
  simp only [List.mem_cons, List.not_mem_nil, or_false]
  split_ifs <;> simp_all
  next h => rcases h with rfl | rfl <;> simp

/-! ### context fields -/

/-- The fields given to `With` never appear: a logger derived by `With` writes exactly what the original writes.  (C137 is false.) -/
theorem with_drops_fields (z : ZLogger) (fields : List Val) (global l : Int) (msg : String) (args : List Val) :
    (z.with shown fields).log shown global l msg args = z.log shown global l msg args := rfl

/-- in particular a pre-populated field is missing from a record -/
theorem with_field_missing : ∃ (z : ZLogger) (k : String) (v : Val), ∃ r, (z.with shown [.str k, v]).log shown 0 levelInfo "m" [] = some r ∧
    ∀ x ∈ r.fields, x.1 ≠ k :=
  ⟨⟨0, []⟩, "model", .str "rf", ⟨1, [], "m"⟩, rfl, by simp⟩

/-- A logger obtained by name carries the component in every record, before the arguments of the call.
Missing for C137: `With`, see `with_drops_fields`. -/
theorem named_logger_partial (w : World) (p : Nat) (name : String) (z : ZLogger) (l : Int) (msg : String) (args : List Val) (r : Record)
    (hh : (w.step shown (.getNamed p name)).handles = w.handles ++ [z])
    (hr : z.log shown w.global l msg args = some r) :
    ("component", .str name) ∈ r.fields ∧ r.msg = msg := by
  cases hp : w.provs[p]? with
  | none =>
    simp [World.step, hp] at hh
  | some q =>
    simp only [World.step, hp, List.append_cancel_left_eq, List.cons.injEq, and_true] at hh
    subst hh
    unfold ZLogger.log at hr
    split_ifs at hr <;> cases hr <;> simp

example : ((⟨0, [⟨1, []⟩], []⟩ : World).step (fun _ => "") (.getNamed 0 "fit")).handles = [] ++ [⟨1, [("component", .str "fit")]⟩] := by decide

/-! ### the test logger -/

theorem pairs_append (a b : List Val) (ha : Even a.length) : pairs (a ++ b) = pairs a ++ pairs b := by
  fun_induction pairs a with
  | case1 k v rest ih =>
    have : Even rest.length := by
      have := ha
      simp only [List.length_cons] at this
      rw [Nat.even_iff] at this ⊢
      omega
    simp [pairs, ih this]
  | case2 t h =>
    match t, ha, h with
    | [], _, _ => rfl
    | [x], ha, _ => simp at ha
    | x :: y :: r, _, h => exact absurd rfl (h x y r)

theorem addPairs_append (m : Entry) (a b : List Val) (ha : Even a.length) :
    addPairs shown m (a ++ b) = addPairs shown (addPairs shown m a) b := by
  unfold addPairs
  rw [pairs_append a b ha, List.foldl_append]

theorem addPairs_at (m : Entry) (a : List Val) (k : String) :
    (addPairs shown m a k = m k ∧ ∀ p ∈ pairs a, keyOf shown p.1 ≠ k) ∨
    (∃ p ∈ pairs a, keyOf shown p.1 = k ∧ ∀ m', addPairs shown m' a k = some (tVal p.2)) := by
  unfold addPairs
  generalize pairs a = ps
  induction ps using List.reverseRecOn with
  | nil => left; simp
  | append_singleton ps p ih =>
    simp only [List.foldl_append, List.foldl_cons, List.foldl_nil]
    by_cases h : keyOf shown p.1 = k
    · right
      refine ⟨p, by simp, h, fun m' => ?_⟩
      rw [← h]
      simp
    · have hu : ∀ f : Entry, Function.update f (keyOf shown p.1) (some (tVal p.2)) k = f k := fun f => by
        rw [Function.update_of_ne (Ne.symm h)]
      rcases ih with ⟨h1, h2⟩ | ⟨q, hq, hk, h1⟩
      · left
        refine ⟨by rw [hu, h1], fun x hx => ?_⟩
        rcases List.mem_append.1 hx with hx | hx
        · exact h2 x hx
        · simp only [List.mem_singleton] at hx
          subst hx; exact h
      · right
        exact ⟨q, by simp [hq], hk, fun m' => by rw [hu, h1]⟩

/-- Logging through `With(a…)` records the entry that logging directly with the fields `a…` first records; and `With` twice is `With` once. -/
theorem with_then_log (t : TLogger) (a b : List Val) (ha : Even a.length) (l : Int) (msg : String) (buf : List Line) :
    (t.with shown a).log shown l msg b buf = t.log shown l msg (a ++ b) buf ∧
    (t.with shown a).with shown b = t.with shown (a ++ b) := by
  refine ⟨?_, ?_⟩
  · have he : (t.with shown a).entry shown l msg b = t.entry shown l msg (a ++ b) := by
      unfold TLogger.entry TLogger.with
      simp only
      rw [addPairs_append shown _ a b ha]
      congr 1
      funext k
      rcases addPairs_at shown t.fields a k with ⟨h1, h2⟩ | ⟨p, _, _, h1⟩
      · simp only [h1]
        refine Eq.symm ?_
        refine ((addPairs_at shown _ a k).resolve_right ?_).1
        rintro ⟨p, hp, hk, _⟩
        exact absurd hk (h2 p hp)
      · simp only [h1]
    unfold TLogger.log
    rw [he]
    rfl
  · unfold TLogger.with
    simp only [TLogger.mk.injEq, true_and]
    rw [addPairs_append shown _ a b ha]

example : Even [Val.str "model", .str "rf"].length := by decide

/-- A field of the call wins over a field of the logger, the last of two equal keys wins, and every key not named by a field is absent
(except level and message). -/
theorem entry_fields (t : TLogger) (l : Int) (msg : String) (args : List Val) (k : String) :
    (∀ pre p post, pairs args = pre ++ p :: post → keyOf shown p.1 = k → (∀ q ∈ post, keyOf shown q.1 ≠ k) →
      t.entry shown l msg args k = some (tVal p.2)) ∧
    ((∀ q ∈ pairs args, keyOf shown q.1 ≠ k) → ∀ v, t.fields k = some v → t.entry shown l msg args k = some v) ∧
    ((∀ q ∈ pairs args, keyOf shown q.1 ≠ k) → t.fields k = none → k ≠ "level" → k ≠ "message" → t.entry shown l msg args k = none) := by
  refine ⟨?_, ?_, ?_⟩
  · intro pre p post h hk hp
    unfold TLogger.entry addPairs
    rw [h, List.foldl_append, List.foldl_cons]
    have : ∀ (post : List (Val × Val)), (∀ q ∈ post, keyOf shown q.1 ≠ k) → ∀ f : Entry,
        post.foldl (fun m p => Function.update m (keyOf shown p.1) (some (tVal p.2))) f k = f k := by
      intro post
      induction post with
      | nil => intros; rfl
      | cons q post ih =>
        intro hq f
        rw [List.foldl_cons, ih (fun q h => hq q (by simp [h])), Function.update_of_ne (Ne.symm (hq q (by simp)))]
    rw [this post hp, ← hk]
    simp
  · intro h v hv
    unfold TLogger.entry
    rcases addPairs_at shown _ args k with ⟨h1, _⟩ | ⟨p, hp, hk, _⟩
    · rw [h1]; simp only [hv]
    · exact absurd hk (h p hp)
  · intro h hv hl hm
    unfold TLogger.entry
    rcases addPairs_at shown _ args k with ⟨h1, _⟩ | ⟨p, hp, hk, _⟩
    · rw [h1]; simp only [hv, hl, hm, if_false]
    · exact absurd hk (h p hp)

/-- Every call at an enabled level whose values JSON can hold adds exactly one entry at the end, with the level and message of the call if
no field has these names; a call below the level adds nothing.
Missing for C138: values that are NaN or infinite (`nan_entry_lost`) and fields named "level" or "message" (`message_overwritten`). -/
theorem captured_partial (t : TLogger) (l : Int) (hl : l ∈ standard) (msg : String) (args : List Val) (buf : List Line)
    (hnan : ∀ p ∈ pairs args, p.2 ≠ .nonFinite) (hnan' : ∀ k, t.fields k ≠ some .nonFinite)
    (hk : ∀ p ∈ pairs args, keyOf shown p.1 ≠ "level" ∧ keyOf shown p.1 ≠ "message")
    (hk' : t.fields "level" = none ∧ t.fields "message" = none) :
    (t.enabled l = false → getEntries (t.log shown l msg args buf) = getEntries buf) ∧
    (t.enabled l = true → ∃ e, getEntries (t.log shown l msg args buf) = getEntries buf ++ [e] ∧
      e "message" = some (.str msg) ∧
      e "level" = some (.str (if l = -4 then "DEBUG" else if l = 0 then "INFO" else if l = 4 then "WARN" else "ERROR"))) := by
  unfold TLogger.enabled
  refine ⟨fun h => ?_, fun h => ?_⟩
  · simp only [decide_eq_false_iff_not] at h
    simp [TLogger.log, h]
  · simp only [decide_eq_true_eq] at h
    have hm : ¬ ∃ k, t.entry shown l msg args k = some .nonFinite := by
      rintro ⟨k, hk0⟩
      unfold TLogger.entry at hk0
      rcases addPairs_at shown _ args k with ⟨h1, _⟩ | ⟨p, hp, _, h1⟩
      · rw [h1] at hk0
        cases hf : t.fields k with
        | some v =>
          simp only [hf] at hk0
          exact hnan' k (hf.trans hk0)
        | none =>
          simp only [hf] at hk0
          split_ifs at hk0 <;> cases hk0
      · rw [h1] at hk0
        have := hnan p hp
        cases hv : p.2 <;> simp_all [tVal]
    have hat : ∀ k, k = "level" ∨ k = "message" → t.entry shown l msg args k =
        if k = "level" then some (.str (levelText l)) else some (.str msg) := by
      intro k hk0
      have hne : ∀ p ∈ pairs args, keyOf shown p.1 ≠ k := by
        intro p hp
        rcases hk0 with rfl | rfl
        · exact (hk p hp).1
        · exact (hk p hp).2
      have hf : t.fields k = none := by
        rcases hk0 with rfl | rfl
        · exact hk'.1
        · exact hk'.2
      unfold TLogger.entry
      rcases addPairs_at shown _ args k with ⟨h1, _⟩ | ⟨p, hp, hk1, _⟩
      · rw [h1]
        simp only [hf]
        rcases hk0 with rfl | rfl <;> simp
      · exact absurd hk1 (hne p hp)
    refine ⟨fun k => (t.entry shown l msg args k).map decodeVal, ?_, ?_, ?_⟩
    · simp [TLogger.log, h, marshal, hm, getEntries]
    · dsimp only; rw [hat _ (Or.inr rfl)]; simp [decodeVal]
    · dsimp only; rw [hat _ (Or.inl rfl)]; rfl

example : ∃ t : TLogger, t.enabled levelInfo = true ∧ (∀ k, t.fields k ≠ some .nonFinite) ∧
    ∀ p ∈ pairs [.str "loss", .flt 2], p.2 ≠ .nonFinite := by
  refine ⟨⟨0, fun _ => none⟩, by decide, by simp, ?_⟩
  simp [pairs]

/-- Logging a NaN loses the whole entry, message included.  (C138 is false.) -/
theorem nan_entry_lost (t : TLogger) (l : Int) (msg k : String) (buf : List Line) :
    getEntries (t.log shown l msg [.str k, .nonFinite] buf) = getEntries buf := by
  unfold TLogger.log
  split_ifs
  · have : ∃ k', t.entry shown l msg [.str k, .nonFinite] k' = some .nonFinite :=
      ⟨k, (entry_fields shown t l msg _ k).1 [] (.str k, .nonFinite) [] rfl rfl (by simp)⟩
    simp [marshal, this, getEntries]
  · rfl

/-- A field called "message" replaces the message.  (C138 is false.) -/
theorem message_overwritten : ∃ (t : TLogger) (e : Entry), getEntries (t.log shown levelInfo "hello" [.str "message", .str "x"] []) = [e] ∧
    e "message" = some (.str "x") := by
  let t : TLogger := ⟨0, fun _ => none⟩
  have hm : ¬ ∃ k, t.entry shown levelInfo "hello" [.str "message", .str "x"] k = some .nonFinite := by
    rintro ⟨k, hk⟩
    unfold TLogger.entry at hk
    rcases addPairs_at shown _ [.str "message", .str "x"] k with ⟨h1, _⟩ | ⟨p, hp, _, h1⟩
    · rw [h1] at hk
      simp only [t] at hk
      split_ifs at hk <;> cases hk
    · rw [h1] at hk
      simp only [pairs, List.mem_singleton] at hp
      subst hp
      cases hk
  refine ⟨t, fun k => (t.entry shown levelInfo "hello" [.str "message", .str "x"] k).map decodeVal, ?_, ?_⟩
  · have h0 : t.level ≤ levelInfo := by decide
    simp [TLogger.log, marshal, hm, getEntries, h0]
  · simp only
    rw [(entry_fields shown t levelInfo "hello" [.str "message", .str "x"] "message").1 [] (.str "message", .str "x") [] rfl rfl (by simp)]
    rfl

/-- `ContainsField` finds a string, finite float or boolean given in a captured call.
Missing for C140: integers, see `contains_int_false`, and errors, which are stored as their text. -/
theorem containsField_partial (t : TLogger) (l : Int) (msg : String) (args : List Val) (buf : List Line) (k v : Val)
    (pre post : List (Val × Val)) (hp : pairs args = pre ++ (k, v) :: post) (hlast : ∀ q ∈ post, keyOf shown q.1 ≠ keyOf shown k)
    (hnan : ∀ p ∈ pairs args, p.2 ≠ .nonFinite) (hnan' : ∀ k, t.fields k ≠ some .nonFinite)
    (hv : ∀ i, v ≠ .int i) (hv' : ∀ m, v ≠ .err m) (hl : t.enabled l = true) :
    containsField (t.log shown l msg args buf) (keyOf shown k) v := by
  have hm : ¬ ∃ k, t.entry shown l msg args k = some .nonFinite := by
    rintro ⟨k, hk0⟩
    unfold TLogger.entry at hk0
    rcases addPairs_at shown _ args k with ⟨h1, _⟩ | ⟨p, hp, _, h1⟩
    · rw [h1] at hk0
      cases hf : t.fields k with
      | some v =>
        simp only [hf] at hk0
        exact hnan' k (hf.trans hk0)
      | none =>
        simp only [hf] at hk0
        split_ifs at hk0 <;> cases hk0
    · rw [h1] at hk0
      have := hnan p hp
      cases hv : p.2 <;> simp_all [tVal]
  simp only [TLogger.enabled, decide_eq_true_eq] at hl
  refine ⟨fun k => (t.entry shown l msg args k).map decodeVal, ?_, ?_⟩
  · simp [TLogger.log, hl, marshal, hm, getEntries]
  · simp only
    rw [(entry_fields shown t l msg args (keyOf shown k)).1 pre (k, v) post hp rfl hlast]
    cases v <;> simp_all [tVal, decodeVal]

/-- and only then: what `ContainsField` finds after a call it found before, or the call is at an enabled level and the field is one of its fields,
a field of the logger under a name that the call does not use, or the level or message -/
theorem containsField_only (t : TLogger) (l : Int) (msg : String) (args : List Val) (buf : List Line) (k : String) (v : Val)
    (h : containsField (t.log shown l msg args buf) k v) :
    containsField buf k v ∨ t.enabled l = true ∧
      ((∃ p ∈ pairs args, keyOf shown p.1 = k ∧ decodeVal (tVal p.2) = v) ∨
       (∀ p ∈ pairs args, keyOf shown p.1 ≠ k) ∧
         ((∃ w, t.fields k = some w ∧ decodeVal w = v) ∨
          t.fields k = none ∧ (k = "message" ∧ v = .str msg ∨ k = "level" ∧ v = .str (levelText l)))) := by
  obtain ⟨e, he, hv⟩ := h
  unfold TLogger.log at he
  by_cases hl : t.level ≤ l
  · rw [if_pos hl, getEntries, List.filterMap_append, List.mem_append] at he
    rcases he with he | he
    · exact .inl ⟨e, he, hv⟩
    · right
      refine ⟨decide_eq_true hl, ?_⟩
      rw [List.filterMap_cons, List.filterMap_nil] at he
      unfold marshal at he
      split_ifs at he with hm
      · cases he
      · rw [Option.map_some] at he
        simp only [List.mem_singleton] at he
        subst he
        simp only at hv
        unfold TLogger.entry at hv
        rcases addPairs_at shown _ args k with ⟨h1, h2⟩ | ⟨p, hp, hk, h1⟩
        · rw [h1] at hv
          right
          refine ⟨h2, ?_⟩
          cases hf : t.fields k with
          | some w =>
            left
            simp only [hf, Option.map_some, Option.some.injEq] at hv
            exact ⟨w, rfl, hv⟩
          | none =>
            right
            refine ⟨rfl, ?_⟩
            simp only [hf] at hv
            by_cases hk1 : k = "level"
            · rw [if_pos hk1] at hv
              exact .inr ⟨hk1, (Option.some.inj hv).symm⟩
            · rw [if_neg hk1] at hv
              by_cases hk2 : k = "message"
              · rw [if_pos hk2] at hv
                exact .inl ⟨hk2, (Option.some.inj hv).symm⟩
              · rw [if_neg hk2] at hv; cases hv
        · rw [h1, Option.map_some] at hv
          exact .inl ⟨p, hp, hk, Option.some.inj hv⟩
  · rw [if_neg hl] at he
    exact .inl ⟨e, he, hv⟩

/-- `ContainsField` never finds an integer, whatever was logged: JSON numbers are read back as `float64`.  (C140 is false.) -/
theorem contains_int_false (buf : List Line) (k : String) (i : Int) : ¬ containsField buf k (.int i) := by
  rintro ⟨e, he, hk⟩
  unfold getEntries at he
  rw [List.mem_filterMap] at he
  obtain ⟨l, _, hl⟩ := he
  cases l with
  | none => cases hl
  | some m =>
    simp only [Option.map_some, Option.some.injEq] at hl
    subst hl
    simp only at hk
    cases hm : m k with
    | none => rw [hm] at hk; cases hk
    | some v =>
      rw [hm] at hk
      cases v <;> simp [decodeVal] at hk

/-! ### concurrent logging -/

section
variable {E : Type}

/-- `out` is an interleaving of the lists `prog i`: its elements can be labelled with goroutines so that the elements of each goroutine, in
order, are its list. -/
def Interleaving (prog : Nat → List E) (out : List E) : Prop :=
  ∃ tags : List (Nat × E), tags.map Prod.snd = out ∧ ∀ i, (tags.filter (fun x => x.1 = i)).map Prod.snd = prog i

/-- holding the mutex -/
def Busy (s : St E) (i : Nat) : Prop := ∃ e r, s.ths i = ⟨e :: r, .locked⟩ ∨ ∃ q, s.ths i = ⟨e :: r, .loaded q⟩

/-- what holds in every state reached when all goroutines use one logger -/
structure Inv (lockOf : Nat → Nat) (prog : Nat → List E) (s : St E) : Prop where
  tags : ∃ tags : List (Nat × E), tags.map Prod.snd = s.buf ∧ ∀ i, (tags.filter (fun x => x.1 = i)).map Prod.snd ++ (s.ths i).todo = prog i
  one : ∀ i j, Busy s i → Busy s j → i = j
  busy : ∀ i, Busy s i → s.held (lockOf i) = true
  snap : ∀ i e r q, s.ths i = ⟨e :: r, .loaded q⟩ → q = s.buf
  pc : ∀ i, (s.ths i).pc = .idle ∨ Busy s i
  free : ∀ k, s.held k = true → ∃ i, Busy s i ∧ k = lockOf i

theorem inv_step {lockOf : Nat → Nat} (same : ∀ i j, lockOf i = lockOf j) {prog : Nat → List E} {s s' : St E}
    (inv : Inv lockOf prog s) (h : Step lockOf s s') : Inv lockOf prog s' := by
  obtain ⟨⟨tags, ht, htag⟩, hone, hbusy, hsnap, hpc, hfree⟩ := inv
  cases h with
  | lock i e rest hi hh =>
    have nobody : ∀ j, ¬ Busy s j := fun j hj => by
      have := hbusy j hj
      rw [same j i, hh] at this
      cases this
    have hb : ∀ j, Busy (⟨s.buf, Function.update s.held (lockOf i) true, Function.update s.ths i ⟨e :: rest, .locked⟩⟩ : St E) j → j = i := by
      intro j hj
      by_contra hne
      apply nobody j
      unfold Busy at hj ⊢
      simpa [Function.update_of_ne hne] using hj
    refine ⟨⟨tags, ht, fun j => ?_⟩, fun a b ha hb' => (hb a ha).trans (hb b hb').symm, fun j hj => ?_, fun j e' r q hj => ?_, fun j => ?_, fun k hall => ?_⟩
    · by_cases hj : j = i
      · subst hj; simpa [hi] using htag j
      · simpa [Function.update_of_ne hj] using htag j
    · rw [hb j hj]; simp
    · by_cases hne : j = i
      · subst hne; simp at hj
      · simp only [Function.update_of_ne hne] at hj
        exact hsnap j e' r q hj
    · by_cases hne : j = i
      · subst hne; right; exact ⟨e, rest, Or.inl (by simp)⟩
      · simpa [Function.update_of_ne hne, Busy] using hpc j
    · refine ⟨i, ⟨e, rest, Or.inl (by simp)⟩, ?_⟩
      by_contra hk'
      simp only [Function.update_of_ne hk'] at hall
      obtain ⟨j, hj, _⟩ := hfree k hall
      exact nobody j hj
  | load i e rest hi =>
    have hb : ∀ j, Busy (⟨s.buf, s.held, Function.update s.ths i ⟨e :: rest, .loaded s.buf⟩⟩ : St E) j → Busy s j := by
      intro j hj
      by_cases hne : j = i
      · subst hne; exact ⟨e, rest, Or.inl hi⟩
      · unfold Busy at hj ⊢
        simpa [Function.update_of_ne hne] using hj
    refine ⟨⟨tags, ht, fun j => ?_⟩, fun a b ha hb' => hone a b (hb a ha) (hb b hb'), fun j hj => hbusy j (hb j hj), fun j e' r q hj => ?_, fun j => ?_, fun k hall => ?_⟩
    · by_cases hj : j = i
      · subst hj; simpa [hi] using htag j
      · simpa [Function.update_of_ne hj] using htag j
    · by_cases hne : j = i
      · subst hne
        simp only [Function.update_self, Thread.mk.injEq, Pc.loaded.injEq] at hj
        exact hj.2.symm
      · simp only [Function.update_of_ne hne] at hj
        exact hsnap j e' r q hj
    · by_cases hne : j = i
      · subst hne; right; exact ⟨e, rest, Or.inr ⟨s.buf, by simp⟩⟩
      · simpa [Function.update_of_ne hne, Busy] using hpc j
    · obtain ⟨j, hj, hk⟩ := hfree k hall
      refine ⟨j, ?_, hk⟩
      by_cases hne : j = i
      · subst hne; exact ⟨e, rest, Or.inr ⟨s.buf, by simp⟩⟩
      · unfold Busy at hj ⊢
        simpa [Function.update_of_ne hne] using hj
  | store i e rest snap hi =>
    have hi' : Busy s i := ⟨e, rest, Or.inr ⟨snap, hi⟩⟩
    have nobody : ∀ j, ¬ Busy (⟨snap ++ [e], Function.update s.held (lockOf i) false, Function.update s.ths i ⟨rest, .idle⟩⟩ : St E) j := by
      intro j hj
      by_cases hne : j = i
      · subst hne
        obtain ⟨e', r, h' | ⟨q, h'⟩⟩ := hj <;> simp at h'
      · apply hne
        refine hone j i ?_ hi'
        simpa [Function.update_of_ne hne, Busy] using hj
    have hs : snap = s.buf := hsnap i e rest snap hi
    refine ⟨⟨tags ++ [(i, e)], by simp [ht, hs], fun j => ?_⟩, fun a b ha => absurd ha (nobody a), fun j hj => absurd hj (nobody j),
      fun j e' r q hj => absurd ⟨e', r, Or.inr ⟨q, hj⟩⟩ (nobody j), fun j => ?_, fun k hall => ?_⟩
    · by_cases hj : j = i
      · subst hj
        have := htag j
        rw [hi] at this
        simpa using this
      · have := htag j
        simpa [Function.update_of_ne hj, Ne.symm hj] using this
    · by_cases hne : j = i
      · subst hne; left; simp
      · rcases hpc j with h | h
        · left; simpa [Function.update_of_ne hne] using h
        · exact absurd (hone j i h hi') hne
    · exfalso
      by_cases hk : k = lockOf i
      · subst hk; simp at hall
      · simp only [Function.update_of_ne hk] at hall
        obtain ⟨j, hj, hkj⟩ := hfree k hall
        exact hk (hkj.trans (same j i))

theorem inv_start (lockOf : Nat → Nat) (prog : Nat → List E) : Inv lockOf prog (start prog) := by
  have nb : ∀ i, ¬ Busy (start prog) i := by
    rintro i ⟨e, r, h | ⟨q, h⟩⟩ <;> simp [start] at h
  exact ⟨⟨[], rfl, fun i => by simp [start]⟩, fun i _ h => absurd h (nb i), fun i h => absurd h (nb i),
    fun i e r q h => absurd ⟨e, r, Or.inr ⟨q, h⟩⟩ (nb i), fun i => Or.inl rfl, fun k h => by simp [start] at h⟩

theorem inv_reach {lockOf : Nat → Nat} (same : ∀ i j, lockOf i = lockOf j) {prog : Nat → List E} {s : St E}
    (h : Relation.ReflTransGen (Step lockOf) (start prog) s) : Inv lockOf prog s := by
  induction h with
  | refl => exact inv_start lockOf prog
  | tail _ h ih => exact inv_step same ih h

/-- Goroutines logging through one logger: under every schedule, once all calls have returned the buffer holds an interleaving of their
entries: every entry exactly once, those of one goroutine in order; and at any moment it holds an interleaving of what has been
written so far. -/
theorem one_logger_interleaves (lockOf : Nat → Nat) (same : ∀ i j, lockOf i = lockOf j) (prog : Nat → List E) (s : St E)
    (h : Relation.ReflTransGen (Step lockOf) (start prog) s) :
    (Finished s → Interleaving prog s.buf) ∧ ∃ done : Nat → List E, Interleaving done s.buf ∧ ∀ i, done i <+: prog i := by
  obtain ⟨tags, ht, htag⟩ := (inv_reach same h).tags
  refine ⟨fun hf => ⟨tags, ht, fun i => ?_⟩, fun i => (tags.filter (fun x => x.1 = i)).map Prod.snd, ⟨tags, ht, fun i => rfl⟩, fun i => ?_⟩
  · have := htag i
    rwa [hf i, List.append_nil] at this
  · exact ⟨_, htag i⟩

example : ∃ prog : Nat → List String, prog 0 = ["a", "b"] ∧ prog 1 = ["c"] ∧ (∀ i j : Nat, (fun _ => 0 : Nat → Nat) i = (fun _ => 0 : Nat → Nat) j) ∧
    ∃ s', Step (fun _ => 0) (start prog) s' :=
  ⟨fun i => if i = 0 then ["a", "b"] else if i = 1 then ["c"] else [], rfl, rfl, fun _ _ => rfl, _, .lock _ 0 "a" ["b"] rfl rfl⟩

/-- No deadlock: as long as a goroutine has entries to write, some goroutine can take a step. -/
theorem one_logger_progress (lockOf : Nat → Nat) (same : ∀ i j, lockOf i = lockOf j) (prog : Nat → List E) (s : St E)
    (h : Relation.ReflTransGen (Step lockOf) (start prog) s) (hf : ¬ Finished s) : ∃ s', Step lockOf s s' := by
  have inv := inv_reach same h
  unfold Finished at hf
  push Not at hf
  obtain ⟨i, hi⟩ := hf
  by_cases hb : ∃ j, Busy s j
  · obtain ⟨j, e, r, hj | ⟨q, hj⟩⟩ := hb
    · exact ⟨_, .load s j e r hj⟩
    · exact ⟨_, .store s j e r q hj⟩
  · have hidle : (s.ths i).pc = .idle := (inv.pc i).resolve_right (fun h => hb ⟨i, h⟩)
    obtain ⟨e, r, her⟩ := List.exists_cons_of_ne_nil hi
    refine ⟨_, .lock s i e r ?_ ?_⟩
    · cases ht : s.ths i with
      | mk t p => simp_all
    · by_contra hh
      simp only [Bool.not_eq_false] at hh
      obtain ⟨j, hj, _⟩ := inv.free _ hh
      exact hb ⟨j, hj⟩

/-- remaining steps of a goroutine -/
def Thread.left (t : Thread E) : Nat := 3 * t.todo.length - (match t.pc with | .idle => 0 | .locked => 1 | .loaded _ => 2)

/-- Logging ends: with finitely many goroutines the number of steps is bounded by three per entry. -/
theorem log_terminates (lockOf : Nat → Nat) (n : Nat) (s s' : St E) (h : Step lockOf s s') (hn : ∀ i, n ≤ i → (s.ths i).todo = []) :
    (∀ i, n ≤ i → (s'.ths i).todo = []) ∧
    ((List.range n).map (fun i => (s'.ths i).left)).sum + 1 = ((List.range n).map (fun i => (s.ths i).left)).sum := by
  have key : ∀ (i : Nat) (t : Thread E), i < n → t.left + 1 = (s.ths i).left →
      ((List.range n).map (fun j => (Function.update s.ths i t j).left)).sum + 1 = ((List.range n).map (fun i => (s.ths i).left)).sum := by
    intro i t hi ht
    clear hn h
    induction n with
    | zero => omega
    | succ n ih =>
      simp only [List.range_succ, List.map_append, List.sum_append, List.map_cons, List.map_nil, List.sum_cons, List.sum_nil, Nat.add_zero]
      by_cases hin : i = n
      · subst hin
        have : (List.range i).map (fun j => (Function.update s.ths i t j).left) = (List.range i).map (fun i => (s.ths i).left) := by
          apply List.map_congr_left
          intro j hj
          rw [Function.update_of_ne (by rw [List.mem_range] at hj; omega)]
        rw [this, Function.update_self]
        omega
      · have := ih (by omega)
        rw [Function.update_of_ne (Ne.symm hin)]
        omega
  have lt : ∀ (i : Nat) e r p, s.ths i = ⟨e :: r, p⟩ → i < n := by
    intro i e r p hi
    by_contra hge
    have := hn i (by omega)
    rw [hi] at this
    cases this
  have keep : ∀ (i : Nat) (t : Thread E), i < n → ∀ j, n ≤ j → (Function.update s.ths i t j).todo = [] := by
    intro i t hi j hj
    rw [Function.update_of_ne (by omega)]
    exact hn j hj
  cases h with
  | lock i e rest hi _ =>
    exact ⟨keep i _ (lt i _ _ _ hi), key i _ (lt i _ _ _ hi) (by rw [hi]; simp only [Thread.left, List.length_cons]; omega)⟩
  | load i e rest hi =>
    exact ⟨keep i _ (lt i _ _ _ hi), key i _ (lt i _ _ _ hi) (by rw [hi]; simp only [Thread.left, List.length_cons]; omega)⟩
  | store i e rest snap hi =>
    exact ⟨keep i _ (lt i _ _ _ hi), key i _ (lt i _ _ _ hi) (by rw [hi]; simp only [Thread.left, List.length_cons]; omega)⟩

/-- what holds in every state reached whatever mutexes the loggers have -/
def Kept (prog : Nat → List E) (s : St E) : Prop :=
  ∃ done : Nat → List E, (∀ i, done i ++ (s.ths i).todo = prog i) ∧
    (∃ part : Nat → List E, Interleaving part s.buf ∧ ∀ i, (part i).Sublist (done i)) ∧
    ∀ i e r q, s.ths i = ⟨e :: r, .loaded q⟩ → ∃ part : Nat → List E, Interleaving part q ∧ ∀ i, (part i).Sublist (done i)

theorem interleaving_snoc {part : Nat → List E} {out : List E} (h : Interleaving part out) (i : Nat) (e : E) :
    Interleaving (Function.update part i (part i ++ [e])) (out ++ [e]) := by
  obtain ⟨tags, ht, hp⟩ := h
  refine ⟨tags ++ [(i, e)], by simp [ht], fun j => ?_⟩
  by_cases hj : j = i
  · subst hj
    simpa using hp j
  · simpa [Function.update_of_ne hj, Ne.symm hj] using hp j

theorem kept_step {lockOf : Nat → Nat} {prog : Nat → List E} {s s' : St E} (hs : Kept prog s) (h : Step lockOf s s') : Kept prog s' := by
  obtain ⟨done, hd, hb, hl⟩ := hs
  cases h with
  | lock i e rest hi _ =>
    refine ⟨done, fun j => ?_, hb, fun j e' r q hj => ?_⟩
    · by_cases hne : j = i
      · subst hne; simpa [hi] using hd j
      · simpa [Function.update_of_ne hne] using hd j
    · by_cases hne : j = i
      · subst hne; simp at hj
      · simp only [Function.update_of_ne hne] at hj
        exact hl j e' r q hj
  | load i e rest hi =>
    refine ⟨done, fun j => ?_, hb, fun j e' r q hj => ?_⟩
    · by_cases hne : j = i
      · subst hne; simpa [hi] using hd j
      · simpa [Function.update_of_ne hne] using hd j
    · by_cases hne : j = i
      · subst hne
        simp only [Function.update_self, Thread.mk.injEq, Pc.loaded.injEq] at hj
        rw [← hj.2]
        exact hb
      · simp only [Function.update_of_ne hne] at hj
        exact hl j e' r q hj
  | store i e rest snap hi =>
    have grow : ∀ part : Nat → List E, (∀ j, (part j).Sublist (done j)) →
        ∀ j, (part j).Sublist (Function.update done i (done i ++ [e]) j) := by
      intro part hp j
      by_cases hne : j = i
      · subst hne
        simpa using (hp j).trans (List.sublist_append_left ..)
      · simpa [Function.update_of_ne hne] using hp j
    refine ⟨Function.update done i (done i ++ [e]), fun j => ?_, ?_, fun j e' r q hj => ?_⟩
    · by_cases hne : j = i
      · subst hne
        have := hd j
        rw [hi] at this
        simpa using this
      · simpa [Function.update_of_ne hne] using hd j
    · obtain ⟨part, hp, hsub⟩ := hl i e rest snap hi
      refine ⟨_, interleaving_snoc hp i e, fun j => ?_⟩
      by_cases hne : j = i
      · subst hne
        simpa using (hsub j).append (List.Sublist.refl [e])
      · simpa [Function.update_of_ne hne] using hsub j
    · by_cases hne : j = i
      · subst hne; simp at hj
      · simp only [Function.update_of_ne hne] at hj
        obtain ⟨part, hp, hsub⟩ := hl j e' r q hj
        exact ⟨part, hp, grow part hsub⟩

/-- **C142** (the part that holds) Goroutines logging through loggers derived from one another, with whatever mutexes: entries may be
lost, but the buffer holds no entry that was not logged and none more often than it was logged, and those of one goroutine are in
order. What is missing: that no entry is lost. (Reading and writing the shared slice are taken to be atomic here.) -/
theorem derived_loggers_partial (lockOf : Nat → Nat) (prog : Nat → List E) (s : St E)
    (h : Relation.ReflTransGen (Step lockOf) (start prog) s) :
    ∃ part : Nat → List E, Interleaving part s.buf ∧ ∀ i, (part i).Sublist (prog i) := by
  have : Kept prog s := by
    induction h with
    | refl =>
      refine ⟨fun _ => [], fun i => by simp [start], ⟨fun _ => [], ⟨[], rfl, fun i => rfl⟩, fun i => List.Sublist.refl _⟩, ?_⟩
      intro i e r q hi
      simp [start] at hi
    | tail _ h ih => exact kept_step ih h
  obtain ⟨done, hd, ⟨part, hp, hsub⟩, _⟩ := this
  exact ⟨part, hp, fun i => (hsub i).trans (by rw [← hd i]; exact List.sublist_append_left ..)⟩

/-- Two goroutines, one logging through a logger and one through a logger derived from it by `With`: an entry can be lost.
(C142 is false.) -/
theorem derived_loggers_lose : ∃ (prog : Nat → List String) (s : St String),
    Relation.ReflTransGen (Step id) (start prog) s ∧ Finished s ∧ ¬ Interleaving prog s.buf := by
  let prog : Nat → List String := fun i => if i = 0 then ["a"] else if i = 1 then ["b"] else []
  refine ⟨prog, _, .head (Step.lock _ 0 "a" [] rfl rfl) <| .head (Step.lock _ 1 "b" [] rfl rfl) <| .head (Step.load _ 0 "a" [] rfl) <|
    .head (Step.load _ 1 "b" [] rfl) <| .head (Step.store _ 0 "a" [] [] rfl) <| .head (Step.store _ 1 "b" [] [] rfl) <| .refl, ?_, ?_⟩
  · intro i
    by_cases h1 : i = 1
    · subst h1; simp
    · by_cases h0 : i = 0
      · subst h0; simp
      · simp [start, prog, h0, h1]
  · rintro ⟨tags, ht, hf⟩
    have h0 := hf 0
    match tags, ht with
    | [(k, x)], ht =>
      have hx : x = "b" := by simpa using ht
      subst hx
      by_cases hk : k = 0
      · subst hk; simp [prog] at h0
      · simp [prog, hk] at h0

end

end Scigo.Log
