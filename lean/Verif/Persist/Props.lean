import Verif.Persist.Lemmas
import Verif.LGB.TextProps

/-!
# Properties of saving and loading
-/

namespace Scigo.Persist

set_option linter.unusedSectionVars false

section
variable {V : Type} [DecidableEq V] [Zero V]

/-- What is assumed of gob's payload encoding: type definitions are recognised as such, values are not, sizes are below the limit, and what
`Encode` accepted decodes to the fields sent. -/
structure Lawful (c : Codec V) : Prop where
  defs : ∀ d ∈ c.types, c.isDef d = true ∧ d.length < tooBig
  val : ∀ fs p, c.value fs = some p → c.isDef p = false
  decode : ∀ fs p, c.value fs = some p → c.decodeValue c.types p = some fs

/-- the state before a call of `SaveModel`; `f` is the file as it is, if any -/
def before (f : Option Bytes) : St := ⟨f, .start⟩

/-- what holds at every moment of a call -/
private theorem reach (c : Codec V) (n : Nat) (m : Struct V) (f : Option Bytes) (s : St)
    (h : Relation.ReflTransGen (Step c n m) (before f) s) :
    (s.pc = .start ∧ s.file = f) ∨ (s.pc = .failed ∧ s.file = f) ∨
    (∃ w r, s.file = some w ∧ w ++ r = (encodeOut c n m).1 ∧
      (s.pc = .writing r ∨ (s.pc = .failed ∧ (r ≠ [] ∨ (encodeOut c n m).2 = false)) ∨ (s.pc = .saved ∧ r = [] ∧ (encodeOut c n m).2 = true))) := by
  induction h with
  | refl => exact Or.inl ⟨rfl, rfl⟩
  | tail _ hs ih =>
    cases hs with
    | openFails g =>
      rcases ih with ⟨_, h⟩ | ⟨h, _⟩ | ⟨w, r, _, _, h | ⟨h, _⟩ | ⟨h, _⟩⟩
      · exact Or.inr (Or.inl ⟨rfl, h⟩)
      all_goals cases h
    | create g =>
      exact Or.inr (Or.inr ⟨[], _, rfl, rfl, Or.inl rfl⟩)
    | put w b r =>
      rcases ih with ⟨h, _⟩ | ⟨h, _⟩ | ⟨w', r', hf, hw, h | ⟨h, _⟩ | ⟨h, _⟩⟩
      · cases h
      · cases h
      · cases h; cases hf
        exact Or.inr (Or.inr ⟨w ++ [b], r, rfl, by simpa using hw, Or.inl rfl⟩)
      all_goals cases h
    | writeFails w b r =>
      rcases ih with ⟨h, _⟩ | ⟨h, _⟩ | ⟨w', r', hf, hw, h | ⟨h, _⟩ | ⟨h, _⟩⟩
      · cases h
      · cases h
      · cases h; cases hf
        exact Or.inr (Or.inr ⟨w, b :: r, rfl, hw, Or.inr (Or.inl ⟨rfl, Or.inl (by simp)⟩)⟩)
      all_goals cases h
    | finish w =>
      rcases ih with ⟨h, _⟩ | ⟨h, _⟩ | ⟨w', r', hf, hw, h | ⟨h, _⟩ | ⟨h, _⟩⟩
      · cases h
      · cases h
      · cases h; cases hf
        cases he : (encodeOut c n m).2 with
        | true => exact Or.inr (Or.inr ⟨w, [], rfl, hw, Or.inr (Or.inr ⟨by simp, rfl, rfl⟩)⟩)
        | false => exact Or.inr (Or.inr ⟨w, [], rfl, hw, Or.inr (Or.inl ⟨by simp, Or.inr rfl⟩)⟩)
      all_goals cases h

private theorem encodeOut_ok {c : Codec V} {n : Nat} {m : Struct V} (h : (encodeOut c n m).2 = true) :
    ∃ p, c.value (sent n m) = some p ∧ p.length < tooBig ∧ (encodeOut c n m).1 = (c.types ++ [p]).flatMap frame := by
  unfold encodeOut at h ⊢
  cases hv : c.value (sent n m) with
  | none => rw [hv] at h; cases h
  | some p =>
    rw [hv] at h
    simp only at h ⊢
    split_ifs at h ⊢ with hl
    exact ⟨p, rfl, hl, rfl⟩

private theorem encodeOut_bad {c : Codec V} {n : Nat} {m : Struct V} (h : (encodeOut c n m).2 = false) :
    (encodeOut c n m).1 = c.types.flatMap frame := by
  unfold encodeOut at h ⊢
  cases hv : c.value (sent n m) with
  | none => rfl
  | some p =>
    rw [hv] at h
    simp only at h ⊢
    split_ifs at h ⊢
    rfl

private theorem load_full {c : Codec V} (hc : Lawful c) {n : Nat} {m : Struct V} (h : (encodeOut c n m).2 = true) (t : Struct V) :
    load c (some (encodeOut c n m).1) t = .ok (storeFields t (sent n m)) := by
  obtain ⟨p, hv, hl, he⟩ := encodeOut_ok h
  unfold load
  have := decode_stream c c.types p hc.defs (hc.val _ _ hv) hl [] ((encodeOut c n m).1.length + 1) [] (by
    rw [he]
    have := length_le_flatMap (c.types ++ [p])
    simp only [List.length_append, List.length_cons, List.length_nil] at this
    omega)
  rw [List.append_nil, ← he] at this
  dsimp only
  rw [this, List.nil_append, hc.decode _ _ hv]

private theorem load_cut {c : Codec V} (hc : Lawful c) {n : Nat} {m : Struct V} {w r : Bytes} (hw : w ++ r = (encodeOut c n m).1)
    (h : r ≠ [] ∨ (encodeOut c n m).2 = false) (t : Struct V) : ∃ e, load c (some w) t = .err e := by
  have hwt : w = (encodeOut c n m).1.take w.length := by rw [← hw]; simp
  unfold load
  refine ⟨.other "failed to decode model", ?_⟩
  have : decodeLoop c (w.length + 1) [] w = none := by
    cases he : (encodeOut c n m).2 with
    | false =>
      rw [encodeOut_bad he] at hwt
      conv_lhs => rw [hwt]
      exact decode_defs_cut c c.types hc.defs _ _ _
    | true =>
      have hr : r ≠ [] := h.resolve_right (by rw [he]; simp)
      obtain ⟨p, hv, hl, hs⟩ := encodeOut_ok he
      rw [hs] at hwt
      have hlen : w.length < ((c.types ++ [p]).flatMap frame).length := by
        rw [← hs, ← hw, List.length_append]
        have := List.length_pos_iff.2 hr
        omega
      conv_lhs => rw [hwt]
      refine decode_cut c (c.types ++ [p]) ?_ ?_ _ _ _ hlen
      · intro q hq
        rcases List.mem_append.1 hq with hq | hq
        · exact (hc.defs q hq).2
        · simp only [List.mem_singleton] at hq; subst hq; exact hl
      · intro pre q post h hp
        have hmem : q ∈ c.types := by
          rw [← List.dropLast_append_getLast hp, ← List.cons_append, ← List.append_assoc] at h
          have := (List.append_inj' h rfl).1
          rw [this]; simp
        exact (hc.defs q hmem).1
  dsimp only
  rw [this]

/-- If `SaveModel` returns nil, then whatever the file held before, `LoadModel` into a new (zero) value gives back exactly the exported
fields of the saved value. -/
theorem save_then_load (c : Codec V) (hc : Lawful c) (n : Nat) (m : Struct V) (f g : Option Bytes)
    (h : Relation.ReflTransGen (Step c n m) (before f) ⟨g, .saved⟩) :
    ∃ m', load c g (fun _ => 0) = .ok m' ∧ ∀ i, i < n → m' i = m i := by
  rcases reach c n m f _ h with ⟨h, _⟩ | ⟨h, _⟩ | ⟨w, r, hf, hw, h | ⟨h, _⟩ | ⟨_, hr, he⟩⟩
  · cases h
  · cases h
  · cases h
  · cases h
  · simp only at hf
    subst hf hr
    rw [List.append_nil] at hw
    subst hw
    refine ⟨_, load_full hc he _, fun i hi => ?_⟩
    rw [storeFields_sent]
    by_cases hz : m i = 0 <;> simp [hi, hz]

/-- The same through `SaveModelToWriter` and `LoadModelFromReader`, with anything following in the stream. -/
theorem writer_then_reader (c : Codec V) (hc : Lawful c) (n : Nat) (m : Struct V) (rest : Bytes) (h : (encodeOut c n m).2 = true) :
    ∃ m', loadFrom c ((encodeOut c n m).1 ++ rest) (fun _ => 0) = .ok m' ∧ ∀ i, i < n → m' i = m i := by
  obtain ⟨p, hv, hl, he⟩ := encodeOut_ok h
  have hlen : c.types.length < ((encodeOut c n m).1 ++ rest).length + 1 := by
    rw [he, List.length_append]
    have := length_le_flatMap (c.types ++ [p])
    simp only [List.length_append, List.length_cons, List.length_nil] at this
    omega
  have := decode_stream c c.types p hc.defs (hc.val _ _ hv) hl rest _ [] hlen
  rw [← he] at this
  refine ⟨storeFields (fun _ => 0) (sent n m), ?_, fun i hi => ?_⟩
  · unfold loadFrom load
    dsimp only
    rw [this, List.nil_append, hc.decode _ _ hv]
  · rw [storeFields_sent]
    by_cases hz : m i = 0 <;> simp [hi, hz]

/-- Whenever the process stops during `SaveModel`, and whenever it returns an error, a later `LoadModel` sees the old file, or reports an
error, or loads the new model: never anything else. -/
theorem crash_never_wrong (c : Codec V) (hc : Lawful c) (n : Nat) (m : Struct V) (f : Option Bytes) (s : St)
    (h : Relation.ReflTransGen (Step c n m) (before f) s) :
    s.file = f ∨ (∀ t, ∃ e, load c s.file t = .err e) ∨
    (∃ m', load c s.file (fun _ => 0) = .ok m' ∧ ∀ i, i < n → m' i = m i) := by
  rcases reach c n m f _ h with ⟨_, h⟩ | ⟨_, h⟩ | ⟨w, r, hf, hw, hpc⟩
  · exact Or.inl h
  · exact Or.inl h
  · right
    by_cases hcut : r ≠ [] ∨ (encodeOut c n m).2 = false
    · left
      intro t
      rw [hf]
      exact load_cut hc hw hcut t
    · right
      push Not at hcut
      obtain ⟨rfl, he⟩ := hcut
      simp only [ne_eq, Bool.not_eq_false] at he
      rw [List.append_nil] at hw
      rw [hf, hw]
      refine ⟨_, load_full hc he _, fun i hi => ?_⟩
      rw [storeFields_sent]
      by_cases hz : m i = 0 <;> simp [hi, hz]

/-- Every proper prefix of a file written by `SaveModel` is rejected by `LoadModel`.
Missing for C146: the text form of gradient boosting models, see `truncated_text_loads`. -/
theorem truncated_file_partial (c : Codec V) (hc : Lawful c) (n : Nat) (m t : Struct V) (f : Option Bytes) (bs : Bytes)
    (h : Relation.ReflTransGen (Step c n m) (before f) ⟨some bs, .saved⟩) (k : Nat) (hk : k < bs.length) :
    ∃ e, load c (some (bs.take k)) t = .err e := by
  rcases reach c n m f _ h with ⟨h, _⟩ | ⟨h, _⟩ | ⟨w, r, hf, hw, h | ⟨h, _⟩ | ⟨_, hr, he⟩⟩
  · cases h
  · cases h
  · cases h
  · cases h
  · simp only [Option.some.injEq] at hf
    subst hf hr
    rw [List.append_nil] at hw
    refine load_cut hc (r := bs.drop k) (by rw [List.take_append_drop, hw]) (Or.inl ?_) t
    intro h0
    rw [List.drop_eq_nil_iff] at h0
    omega

/-- Loading into a value that is already in use: fields that are zero in the saved model keep the old content.
Missing for C145: these fields, see `load_keeps_old`. -/
theorem load_into_partial (c : Codec V) (hc : Lawful c) (n : Nat) (m t : Struct V) (f g : Option Bytes)
    (h : Relation.ReflTransGen (Step c n m) (before f) ⟨g, .saved⟩) :
    ∃ m', load c g t = .ok m' ∧ (∀ i, i < n → m i ≠ 0 → m' i = m i) ∧ ∀ i, m i = 0 → m' i = t i := by
  rcases reach c n m f _ h with ⟨h, _⟩ | ⟨h, _⟩ | ⟨w, r, hf, hw, h | ⟨h, _⟩ | ⟨_, hr, he⟩⟩
  · cases h
  · cases h
  · cases h
  · cases h
  · simp only at hf
    subst hf hr
    rw [List.append_nil] at hw
    subst hw
    refine ⟨_, load_full hc he _, fun i hi hz => ?_, fun i hz => ?_⟩
    · rw [storeFields_sent]; simp [hi, hz]
    · rw [storeFields_sent]; simp [hz]

/-- the run without any failure -/
theorem save_reachable (c : Codec V) (n : Nat) (m : Struct V) (f : Option Bytes) :
    Relation.ReflTransGen (Step c n m) (before f) ⟨some (encodeOut c n m).1, if (encodeOut c n m).2 then .saved else .failed⟩ := by
  have write : ∀ (r w : Bytes), Relation.ReflTransGen (Step c n m) ⟨some w, .writing r⟩ ⟨some (w ++ r), .writing []⟩ := by
    intro r
    induction r with
    | nil => intro w; rw [List.append_nil]
    | cons b r ih =>
      intro w
      refine .head (.put w b r) ?_
      have := ih (w ++ [b])
      rwa [List.append_assoc] at this
  refine .head (.create f) ((write _ []).trans ?_)
  exact .single (.finish _)

end

/-! ### a concrete codec -/

/-- integers as fields; a field holding 13 stands for a value gob refuses (for instance a function) -/
def exCodec : Codec Int where
  types := [[255, 1]]
  value fs := if fs.any (fun p => p.2 = 13) then none else some (2 :: fs.flatMap (fun p => [p.1, p.2.toNat, (-p.2).toNat]))
  isDef p := p.head? = some 255
  decodeValue _ p :=
    let rec go : List Nat → List (Nat × Int)
      | i :: a :: b :: r => (i, (a : Int) - b) :: go r
      | _ => []
    some (go p.tail)

theorem exCodec_lawful : Lawful exCodec := by
  refine ⟨?_, ?_, ?_⟩
  · intro d hd
    simp only [exCodec, List.mem_singleton] at hd
    subst hd
    exact ⟨rfl, by unfold tooBig; norm_num⟩
  · intro fs p h
    simp only [exCodec] at h ⊢
    split_ifs at h
    cases h
    simp
  · intro fs p h
    simp only [exCodec] at h ⊢
    split_ifs at h
    cases h
    simp only [List.tail_cons, Option.some.injEq]
    clear * -
    induction fs with
    | nil => rfl
    | cons q fs ih =>
      obtain ⟨i, v⟩ := q
      simp only [List.flatMap_cons, List.cons_append, List.nil_append, exCodec.go]
      rw [ih, Int.toNat_sub_toNat_neg]

example : ∃ g, Relation.ReflTransGen (Step exCodec 2 (fun i => if i = 0 then 5 else 0)) (before (some [1, 2, 3])) ⟨g, .saved⟩ :=
  ⟨_, save_reachable exCodec 2 _ _⟩

/-- A `SaveModel` that fails, or a process that stops, destroys the model that was in the file.  (C144 is false.) -/
theorem previous_model_lost : ∃ (c : Codec Int), Lawful c ∧ ∃ (old new : Struct Int) (f : Option Bytes) (s : St),
    (∃ m', load c f (fun _ => 0) = .ok m' ∧ m' 0 = old 0) ∧ Relation.ReflTransGen (Step c 1 new) (before f) s ∧ s.pc = .failed ∧
    ∃ e, load c s.file (fun _ => 0) = .err e := by
  refine ⟨exCodec, exCodec_lawful, fun _ => 7, fun _ => 13, some (encodeOut exCodec 1 (fun _ => 7)).1,
    ⟨some (encodeOut exCodec 1 (fun _ => 13)).1, .failed⟩, ?_, ?_, rfl, ?_⟩
  · obtain ⟨m', h1, h2⟩ := save_then_load exCodec exCodec_lawful 1 (fun _ => 7) none _ (save_reachable exCodec 1 (fun _ => 7) none)
    exact ⟨m', h1, h2 0 (by norm_num)⟩
  · exact save_reachable exCodec 1 (fun _ => 13) _
  · exact ⟨.other "failed to decode model", rfl⟩

/-- As long as `SaveModel` has not opened the file, or if it cannot, the old file is untouched.
Missing for C144: any later failure, see `previous_model_lost`. -/
theorem previous_model_partial {V : Type} [DecidableEq V] [Zero V] (c : Codec V) (n : Nat) (m : Struct V) (f : Option Bytes) :
    Step c n m (before f) ⟨f, .failed⟩ ∧ ∀ s, Step c n m (before f) s → s.file = f ∨ s.file = some [] := by
  refine ⟨.openFails f, fun s h => ?_⟩
  cases h
  · left; rfl
  · right; rfl

/-- Loading a model into a value in use keeps an old field where the saved model has zero.  (C145 is false.) -/
theorem load_keeps_old : ∃ (c : Codec Int), Lawful c ∧ ∃ (saved used : Struct Int) (g : Option Bytes),
    Relation.ReflTransGen (Step c 2 saved) (before none) ⟨g, .saved⟩ ∧ ∃ m', load c g used = .ok m' ∧ m' 1 ≠ saved 1 := by
  have hr := save_reachable exCodec 2 (fun i => if i = 0 then 5 else 0) none
  obtain ⟨m', h1, _, h3⟩ := load_into_partial exCodec exCodec_lawful 2 (fun i => if i = 0 then 5 else 0) (fun _ => 9) none _ hr
  exact ⟨exCodec, exCodec_lawful, _, fun _ => 9, _, hr, m', h1, by rw [h3 1 rfl]; decide⟩

/-! ### text files -/

/-- The text form of a gradient boosting model has no end mark: a file cut off after any number of complete trees loads without an error as
a model with fewer trees.  (C146 is false for `SaveToText`.) -/
theorem truncated_text_loads {α : Type} [Zero α] (tenth : α) (m : LGB.Model α) (k : Nat) (hk : k ≤ m.trees.length) :
    ∃ m', ({ m.toText with trees := m.toText.trees.take k } : LGB.TextFile α).load tenth = .ok m' ∧ m'.trees.length = k := by
  have e : ({ m.toText with trees := m.toText.trees.take k } : LGB.TextFile α) = ({ m with trees := m.trees.take k } : LGB.Model α).toText := by
    simp [LGB.Model.toText, List.map_take]
  rw [e, LGB.load_model]
  exact ⟨_, rfl, by simp [hk]⟩

example : ∃ m : LGB.Model Int, m.trees.length = 2 ∧ 1 ≤ m.trees.length :=
  ⟨⟨"regression", 1, 2, 0, [⟨[], [], 1, 0, 0⟩, ⟨[], [], 1, 0, 0⟩], 1, 0, 0, false⟩, rfl, by decide⟩

end Scigo.Persist
