import Verif.LGB.LeavesText
import Verif.LGB.LeavesProps

/-!
# Text files: specification and theorems
-/

set_option linter.unusedSectionVars false

namespace Scigo.LGB

variable {α : Type _}

/-- a line of white space -/
def Blank (sp : Char → Bool) (l : Text) : Prop := trim sp l = []

/-- a section: no blank line, at least one `key=value` line -/
structure Block (sp : Char → Bool) (s : List Text) : Prop where
  full : ∀ l ∈ s, ¬ Blank sp l
  entry : ∃ l ∈ s, isTreeLine (trim sp l) = false ∧ '=' ∈ trim sp l

/-- the entries of a section, added to earlier ones -/
def entriesOn (sp : Char → Bool) (p : KV) (s : List Text) : KV :=
  s.foldl (fun p l => if isTreeLine (trim sp l) then p else setLine sp (trim sp l) p) p

/-- the entries of a section: one for every line with `=` that does not begin with `Tree=`; the last one of a key counts -/
def entries (sp : Char → Bool) (s : List Text) : KV := entriesOn sp [] s

/-- sections, each with the blank lines after it -/
def doc : List (List Text × List Text) → List Text
  | [] => []
  | (s, bs) :: r => s ++ (bs ++ doc r)

/-- one or two blank lines -/
def Gap (sp : Char → Bool) (bs : List Text) : Prop := (∀ b ∈ bs, Blank sp b) ∧ 1 ≤ bs.length ∧ bs.length ≤ 2

theorem setLine_length (sp : Char → Bool) (l : Text) (p : KV) : p.length ≤ (setLine sp l p).length := by
  unfold setLine; split <;> simp

theorem entriesOn_length (sp : Char → Bool) (s : List Text) : ∀ p : KV, p.length ≤ (entriesOn sp p s).length := by
  induction s with
  | nil => intro p; exact Nat.le_refl _
  | cons l s ih =>
    intro p
    refine Nat.le_trans ?_ (ih _)
    dsimp only
    split
    · exact Nat.le_refl _
    · exact setLine_length _ _ _

theorem entriesOn_pos (sp : Char → Bool) (s : List Text)
    (h : ∃ l ∈ s, isTreeLine (trim sp l) = false ∧ '=' ∈ trim sp l) : ∀ p : KV, 0 < (entriesOn sp p s).length := by
  induction s with
  | nil => obtain ⟨l, hl, -⟩ := h; simp at hl
  | cons a s ih =>
    intro p
    obtain ⟨l, hl, h1, h2⟩ := h
    rcases List.mem_cons.1 hl with rfl | hl
    · refine Nat.lt_of_lt_of_le ?_ (entriesOn_length sp s _)
      simp [h1, setLine, h2]
    · exact ih ⟨l, hl, h1, h2⟩ _

/-- lines that are not blank are all read, whatever comes after them -/
theorem readSection_full (sp : Char → Bool) (s tl : List Text) (h : ∀ l ∈ s, ¬ Blank sp l) : ∀ (k : Nat) (p : KV),
    ∃ k', readSection sp (s ++ tl) k p = readSection sp tl k' (entriesOn sp p s) := by
  induction s with
  | nil => intro k p; exact ⟨k, rfl⟩
  | cons l s ih =>
    intro k p
    have hl : ¬ trim sp l = [] := h l (by simp)
    have ih' := ih (fun l hl => h l (by simp [hl]))
    rw [List.cons_append, readSection]
    by_cases ht : isTreeLine (trim sp l) = true
    · obtain ⟨k', hk⟩ := ih' k p
      refine ⟨k', ?_⟩
      rw [if_pos ht, hk]
      simp [entriesOn, ht]
    · obtain ⟨k', hk⟩ := ih' 0 (setLine sp (trim sp l) p)
      refine ⟨k', ?_⟩
      rw [if_neg ht, if_neg hl, hk]
      simp [entriesOn, ht]

theorem blank_not_tree (sp : Char → Bool) (b : Text) (h : Blank sp b) : isTreeLine (trim sp b) = false := by
  rw [show trim sp b = [] from h]; rfl

/-- a blank line ends the section when it is the second one in a row or when entries have been read -/
theorem readSection_blank (sp : Char → Bool) (b : Text) (tl : List Text) (k : Nat) (p : KV) (h : Blank sp b) :
    readSection sp (b :: tl) k p =
      if k + 1 ≥ 2 ∨ k + 1 ≥ 1 ∧ p.length > 0 then (p, tl) else readSection sp tl (k + 1) p := by
  rw [readSection, if_neg (by rw [blank_not_tree sp b h]; simp), if_pos (show trim sp b = [] from h)]

/-- a section after at most one blank line, followed by a blank line, is read exactly -/
theorem readSection_block (sp : Char → Bool) (pre s : List Text) (b : Text) (tl : List Text) (hp : ∀ l ∈ pre, Blank sp l)
    (hp1 : pre.length ≤ 1) (hs : Block sp s) (hb : Blank sp b) :
    readSection sp (pre ++ (s ++ b :: tl)) 0 [] = (entries sp s, tl) := by
  have main : ∀ k, readSection sp (s ++ b :: tl) k [] = (entries sp s, tl) := by
    intro k
    obtain ⟨k', hk⟩ := readSection_full sp s (b :: tl) hs.full k []
    rw [hk, readSection_blank _ _ _ _ _ hb,
      if_pos (Or.inr ⟨by omega, entriesOn_pos sp s hs.entry []⟩)]
    rfl
  match pre, hp1 with
  | [], _ => exact main 0
  | [a], _ =>
    have ha : Blank sp a := hp a (by simp)
    rw [List.cons_append, List.nil_append, readSection_blank _ _ _ _ _ ha,
      if_neg (by simp)]
    exact main 1

/-- the last section may end with the file -/
theorem readSection_last (sp : Char → Bool) (pre s : List Text) (hp : ∀ l ∈ pre, Blank sp l)
    (hp1 : pre.length ≤ 1) (hs : Block sp s) : readSection sp (pre ++ s) 0 [] = (entries sp s, []) := by
  have main : ∀ k, readSection sp s k [] = (entries sp s, []) := by
    intro k
    obtain ⟨k', hk⟩ := readSection_full sp s [] hs.full k []
    rw [List.append_nil] at hk
    rw [hk]; rfl
  match pre, hp1 with
  | [], _ => exact main 0
  | [a], _ =>
    have ha : Blank sp a := hp a (by simp)
    rw [List.cons_append, List.nil_append, readSection_blank _ _ _ _ _ ha,
      if_neg (by simp)]
    exact main 1

/-- only blank lines are left: the section is empty -/
theorem readSection_blanks (sp : Char → Bool) (bs : List Text) (h : ∀ b ∈ bs, Blank sp b) :
    (readSection sp bs 0 []).1 = [] := by
  match bs with
  | [] => rfl
  | [a] =>
    have ha : Blank sp a := h a (by simp)
    rw [readSection_blank _ _ _ _ _ ha, if_neg (by simp)]
    rfl
  | a :: b :: bs =>
    have ha : Blank sp a := h a (by simp)
    have hb : Blank sp b := h b (by simp)
    rw [readSection_blank _ _ _ _ _ ha, if_neg (by simp),
      readSection_blank _ _ _ _ _ hb, if_pos (Or.inl (by omega))]

/-- a gap is one blank line and at most one more -/
theorem gap_split {sp : Char → Bool} {bs : List Text} (h : Gap sp bs) :
    ∃ b bs', bs = b :: bs' ∧ Blank sp b ∧ (∀ l ∈ bs', Blank sp l) ∧ bs'.length ≤ 1 := by
  obtain ⟨h1, h2, h3⟩ := h
  match bs with
  | [] => simp at h2
  | b :: bs' => exact ⟨b, bs', rfl, h1 b (by simp), fun l hl => h1 l (by simp [hl]), by simpa using h3⟩

/-- the trees of a file whose sections are separated by one or two blank lines are those of its sections -/
theorem readSections_doc [Zero α] (L : Lex α) (secs : List (List Text × List Text)) (ts : List (LTree α)) :
    ∀ (i : Nat) (pre tl : List Text), (∀ l ∈ pre, Blank L.space l) → pre.length ≤ 1 →
      (∀ s ∈ secs, Block L.space s.1 ∧ Gap L.space s.2) →
      (∀ j, (secs[j]?.map fun s => (entries L.space s.1).tree L (i + j)) = ts[j]?.map .ok) →
      readSections L secs.length i (pre ++ (doc secs ++ tl)) = .ok ts := by
  induction secs generalizing ts with
  | nil =>
    intro i pre tl _ _ _ ht
    cases ts with
    | nil => rfl
    | cons t ts => have := ht 0; simp at this
  | cons s secs ih =>
    intro i pre tl hp hp1 hs ht
    obtain ⟨s, bs⟩ := s
    obtain ⟨hb, hg⟩ := hs (s, bs) (by simp)
    obtain ⟨b, bs', rfl, hb1, hb2, hb3⟩ := gap_split hg
    cases ts with
    | nil => have := ht 0; simp at this
    | cons t ts =>
      have h0 := ht 0
      simp only [List.getElem?_cons_zero, Option.map_some, Option.some.injEq, Nat.add_zero] at h0
      have hr : readSection L.space (pre ++ (doc ((s, b :: bs') :: secs) ++ tl)) 0 [] =
          (entries L.space s, bs' ++ (doc secs ++ tl)) := by
        have := readSection_block L.space pre s b (bs' ++ (doc secs ++ tl)) hp hp1 hb hb1
        simpa [doc] using this
      rw [List.length_cons, readSections, hr]
      dsimp only
      rw [h0, Outcome.bind_ok, ih ts (i + 1) bs' tl hb2 hb3 (fun s hs' => hs s (by simp [hs'])) (fun j => ?_)]
      · rfl
      · have := ht (j + 1)
        simp only [List.getElem?_cons_succ] at this
        rw [show i + 1 + j = i + (j + 1) by omega]
        exact this

section

variable [BEq α] [LE α] [DecidableLE α] [LT α] [DecidableLT α] [Zero α] [Neg α]

/-- a file of a header and of sections whose entries hold the arrays of trees is loaded -/
theorem text_file_loaded (L : Lex α) (toInt : α → Int) (z : α) (header hb : List Text)
    (secs : List (List Text × List Text)) (tl : List Text) (hh : Block L.space header) (hg : Gap L.space hb)
    (hs : ∀ s ∈ secs, Block L.space s.1 ∧ Gap L.space s.2) (sizes : Text)
    (hz : (entries L.space header).get "tree_sizes" = some sizes) (hn : (fields L.space sizes).length = secs.length)
    (a : Nat → TextArrays α) (t : Nat → FTree α)
    (ha : ∀ i s, secs[i]? = some s → (entries L.space s.1).arrays L i = .ok (a i) ∧ TextTree (a i) (t i)) :
    ∃ m, loadLeaves L (doc ((header, hb) :: secs) ++ tl) = .ok m ∧ m.trees.length = secs.length ∧
      m.numClass = (entries L.space header).numClass L ∧ m.objective = (entries L.space header).objective L ∧
      ∀ i T, m.trees[i]? = some T → ∀ x : List α, (t i).Features x.length → T.predict toInt z x = .ok ((t i).eval z x) := by
  have hT : ∀ i s, secs[i]? = some s → ∃ T, (entries L.space s.1).tree L i = .ok T ∧
      ∀ x : List α, (t i).Features x.length → T.predict toInt z x = .ok ((t i).eval z x) := by
    intro i s hi
    obtain ⟨h1, h2⟩ := ha i s hi
    obtain ⟨T, h3, h4⟩ := text_tree_compiled toInt z (a i) (t i) h2 i
    exact ⟨T, by rw [KV.tree, h1, Outcome.bind_ok, h3], h4⟩
  have hall : ∃ ts : List (LTree α), ts.length = secs.length ∧
      (∀ j, (secs[j]?.map fun s => (entries L.space s.1).tree L (0 + j)) = ts[j]?.map .ok) ∧
      ∀ i T, ts[i]? = some T → ∀ x : List α, (t i).Features x.length → T.predict toInt z x = .ok ((t i).eval z x) := by
    refine ⟨secs.mapIdx fun i s => match (entries L.space s.1).tree L i with | .ok T => T | _ => ⟨[], [], 0⟩, by simp, ?_, ?_⟩
    · intro j
      rw [List.getElem?_mapIdx]
      rcases hj : secs[j]? with _ | s
      · rfl
      · obtain ⟨T, h1, -⟩ := hT j s hj
        simp [h1]
    · intro i T hi
      rw [List.getElem?_mapIdx] at hi
      rcases hj : secs[i]? with _ | s
      · rw [hj] at hi; simp at hi
      · obtain ⟨T', h1, h2⟩ := hT i s hj
        rw [hj] at hi
        simp only [Option.map_some, h1, Option.some.injEq] at hi
        subst hi
        exact h2
  obtain ⟨ts, l1, l2, l3⟩ := hall
  obtain ⟨b, bs', rfl, hb1, hb2, hb3⟩ := gap_split hg
  have hr : readSection L.space (doc ((header, b :: bs') :: secs) ++ tl) 0 [] =
      (entries L.space header, bs' ++ (doc secs ++ tl)) := by
    have := readSection_block L.space [] header b (bs' ++ (doc secs ++ tl)) (by simp) (by simp) hh hb1
    simpa [doc] using this
  have ht := readSections_doc L secs ts 0 bs' tl hb2 hb3 hs l2
  unfold loadLeaves
  rw [hr]
  dsimp only
  rw [hz]
  dsimp only
  rw [hn, ht, Outcome.bind_ok]
  exact ⟨_, rfl, l1, rfl, rfl, l3⟩

end

/-! ## Files as LightGBM writes them -/

/-- a non-empty word without white space -/
def Word (sp : Char → Bool) (w : Text) : Prop := w ≠ [] ∧ ∀ c ∈ w, sp c = false

/-- the words of a list, separated by single spaces -/
def joined : List Text → Text
  | [] => []
  | [w] => w
  | w :: ws => w ++ ' ' :: joined ws

/-- the line `key=w₁ w₂ …` with its line end -/
def lineOf (eol : Text) (l : Text × List Text) : Text := l.1 ++ '=' :: (joined l.2 ++ eol)

/-- printable lines: keys and values are words, keys have no `=` and differ from each other and from `Tree` -/
structure Printable (sp : Char → Bool) (ws : List (Text × List Text)) : Prop where
  key : ∀ l ∈ ws, Word sp l.1 ∧ '=' ∉ l.1 ∧ l.1 ≠ "Tree".toList
  word : ∀ l ∈ ws, ∀ w ∈ l.2, Word sp w
  nodup : (ws.map (·.1)).Nodup

/-- the line of the key holds these values -/
def Has {β : Type _} (parse : Text → Option β) (ws : List (Text × List Text)) (key : String) (vals : List β) : Prop :=
  ∃ words, (key.toList, words) ∈ ws ∧ words.mapM parse = some vals

/-- the lines hold the arrays of one tree; a single leaf needs no more than its value -/
structure Prints (L : Lex α) (ws : List (Text × List Text)) (a : TextArrays α) : Prop where
  leaves : Has L.atoi ws "num_leaves" [a.numLeaves]
  value : Has L.float ws "leaf_value" a.leafValue
  left : a.numLeaves ≠ 1 → Has L.int32 ws "left_child" a.left
  right : a.numLeaves ≠ 1 → Has L.int32 ws "right_child" a.right
  decision : a.numLeaves ≠ 1 → Has L.uint32 ws "decision_type" a.decisionType
  feature : a.numLeaves ≠ 1 → Has L.uint32 ws "split_feature" a.splitFeature
  threshold : a.numLeaves ≠ 1 → Has L.float ws "threshold" a.threshold

theorem dropWhile_word {sp : Char → Bool} {w : Text} (h : Word sp w) (t : Text) : (w ++ t).dropWhile sp = w ++ t := by
  obtain ⟨h1, h2⟩ := h
  match w with
  | [] => simp at h1
  | c :: w => simp [h2 c (by simp)]

theorem dropWhile_spaces {sp : Char → Bool} {e : Text} (h : ∀ c ∈ e, sp c = true) (t : Text) :
    (e ++ t).dropWhile sp = t.dropWhile sp := by
  induction e with
  | nil => rfl
  | cons c e ih => simp [h c (by simp), ih (fun c hc => h c (by simp [hc]))]

theorem word_reverse {sp : Char → Bool} {w : Text} (h : Word sp w) : Word sp w.reverse :=
  ⟨by simpa using h.1, fun c hc => h.2 c (by simpa using hc)⟩

/-- a text that begins and ends with words loses only the white space after it -/
theorem trim_words {sp : Char → Bool} {u v m e t : Text} (hu : Word sp u) (hv : Word sp v) (he : ∀ c ∈ e, sp c = true)
    (h1 : t = u ++ m) {m' : Text} (h2 : t = m' ++ v) : trim sp (t ++ e) = t := by
  unfold trim
  rw [h1, List.append_assoc, dropWhile_word hu, ← List.append_assoc, ← h1, List.reverse_append,
    dropWhile_spaces (fun c hc => he c (by simpa using hc)), h2, List.reverse_append, dropWhile_word (word_reverse hv),
    ← List.reverse_append, List.reverse_reverse]

theorem joined_ends {sp : Char → Bool} : ∀ (ws : List Text), ws ≠ [] → (∀ w ∈ ws, Word sp w) →
    ∃ u m m' v, Word sp u ∧ Word sp v ∧ joined ws = u ++ m ∧ joined ws = m' ++ v := by
  intro ws
  induction ws with
  | nil => intro h; simp at h
  | cons w ws ih =>
    intro _ h
    cases ws with
    | nil => exact ⟨w, [], [], w, h w (by simp), h w (by simp), by simp [joined], by simp [joined]⟩
    | cons w2 ws =>
      obtain ⟨u, m, m', v, h1, h2, h3, h4⟩ := ih (by simp) (fun x hx => h x (by simp [hx]))
      exact ⟨w, ' ' :: joined (w2 :: ws), w ++ ' ' :: m', v, h w (by simp), h2, rfl,
        by rw [show joined (w :: w2 :: ws) = w ++ ' ' :: joined (w2 :: ws) from rfl, h4]; simp⟩

theorem trim_joined {sp : Char → Bool} (ws : List Text) (h : ∀ w ∈ ws, Word sp w) : trim sp (joined ws) = joined ws := by
  by_cases h0 : ws = []
  · subst h0; rfl
  · obtain ⟨u, m, m', v, h1, h2, h3, h4⟩ := joined_ends ws h0 h
    have := trim_words (e := []) h1 h2 (by simp) h3 h4
    rwa [List.append_nil] at this

theorem trim_word {sp : Char → Bool} {w : Text} (h : Word sp w) : trim sp w = w := by
  have := trim_words (e := []) (t := w) h h (by simp) (m := []) (by simp) (m' := []) (by simp)
  rwa [List.append_nil] at this

theorem trim_line {sp : Char → Bool} (heq : sp '=' = false) {eol : Text} (he : ∀ c ∈ eol, sp c = true)
    (l : Text × List Text) (hk : Word sp l.1) (hw : ∀ w ∈ l.2, Word sp w) :
    trim sp (lineOf eol l) = l.1 ++ '=' :: joined l.2 := by
  have e : lineOf eol l = (l.1 ++ '=' :: joined l.2) ++ eol := by simp [lineOf]
  rw [e]
  by_cases h0 : l.2 = []
  · rw [h0]
    exact trim_words (v := ['=']) hk ⟨by simp, by simpa using heq⟩ he rfl (m' := l.1) (by simp [joined])
  · obtain ⟨u, m, m', v, h1, h2, h3, h4⟩ := joined_ends l.2 h0 hw
    exact trim_words hk h2 he rfl (m' := l.1 ++ '=' :: m') (by rw [h4]; simp)

theorem line_split (k v : Text) (h : '=' ∉ k) :
    (k ++ '=' :: v).takeWhile (fun c => c != '=') = k ∧ ((k ++ '=' :: v).dropWhile (fun c => c != '=')).drop 1 = v := by
  induction k with
  | nil => simp
  | cons c k ih =>
    have hc : c ≠ '=' := by intro e; apply h; simp [e]
    have := ih (fun h' => h (by simp [h']))
    simpa [hc] using this

theorem not_tree_line {k v : Text} (h : '=' ∉ k) (hk : k ≠ "Tree".toList) : isTreeLine (k ++ '=' :: v) = false := by
  rw [Bool.eq_false_iff]
  intro ht
  apply hk
  have hp : "Tree=".toList <+: k ++ '=' :: v := by simpa [isTreeLine, List.isPrefixOf_iff_prefix] using ht
  obtain ⟨r, hr⟩ := hp
  have h1 := (line_split k v h).1
  rw [← hr] at h1
  rw [← h1]
  have := (line_split "Tree".toList r (by decide)).1
  exact this.symm

/-- a printed line adds exactly its key and its words -/
theorem set_line {sp : Char → Bool} (heq : sp '=' = false) {eol : Text} (he : ∀ c ∈ eol, sp c = true)
    (l : Text × List Text) (hk : Word sp l.1 ∧ '=' ∉ l.1 ∧ l.1 ≠ "Tree".toList) (hw : ∀ w ∈ l.2, Word sp w) (p : KV) :
    (if isTreeLine (trim sp (lineOf eol l)) then p else setLine sp (trim sp (lineOf eol l)) p) = (l.1, joined l.2) :: p := by
  rw [trim_line heq he l hk.1 hw, if_neg (by rw [not_tree_line hk.2.1 hk.2.2]; simp), setLine, if_pos (by simp),
    (line_split _ _ hk.2.1).1, (line_split _ _ hk.2.1).2, trim_word hk.1, trim_joined _ hw]

theorem entries_printed {sp : Char → Bool} (heq : sp '=' = false) {eol : Text} (he : ∀ c ∈ eol, sp c = true)
    (ws : List (Text × List Text)) : Printable sp ws → ∀ p : KV,
    entriesOn sp p (ws.map (lineOf eol)) = (ws.map fun l => (l.1, joined l.2)).reverse ++ p := by
  induction ws with
  | nil => intro _ p; rfl
  | cons l ws ih =>
    intro h p
    have h' : Printable sp ws := ⟨fun x hx => h.key x (by simp [hx]), fun x hx => h.word x (by simp [hx]),
      (List.nodup_cons.1 h.nodup).2⟩
    have := ih h' ((l.1, joined l.2) :: p)
    rw [List.map_cons, entriesOn, List.foldl_cons, set_line heq he l (h.key l (by simp)) (h.word l (by simp))]
    rw [entriesOn] at this
    rw [this]
    simp

theorem lookup_nodup {κ β : Type _} [BEq κ] [LawfulBEq κ] (l : List (κ × β)) (k : κ) (v : β)
    (hn : (l.map (·.1)).Nodup) (hm : (k, v) ∈ l) : l.lookup k = some v := by
  induction l with
  | nil => simp at hm
  | cons a l ih =>
    obtain ⟨k', v'⟩ := a
    rw [List.map_cons, List.nodup_cons] at hn
    rcases List.mem_cons.1 hm with h | h
    · cases h; simp
    · have : k ≠ k' := by
        rintro rfl
        exact hn.1 (List.mem_map_of_mem (f := (·.1)) h)
      rw [List.lookup_cons, show (k == k') = false by simpa using this]
      exact ih hn.2 h

theorem get_printed {sp : Char → Bool} (heq : sp '=' = false) {eol : Text} (he : ∀ c ∈ eol, sp c = true)
    (ws : List (Text × List Text)) (h : Printable sp ws) (key : String) (words : List Text)
    (hm : (key.toList, words) ∈ ws) : (entries sp (ws.map (lineOf eol))).get key = some (joined words) := by
  rw [entries, entries_printed heq he ws h, List.append_nil, KV.get]
  refine lookup_nodup _ _ _ ?_ ?_
  · rw [List.map_reverse, List.nodup_reverse, List.map_map]
    exact h.nodup
  · rw [List.mem_reverse]
    exact List.mem_map_of_mem (f := fun l : Text × List Text => (l.1, joined l.2)) hm

theorem fieldsFrom_word {sp : Char → Bool} (w : Text) (h : ∀ c ∈ w, sp c = false) : ∀ (t cur : Text),
    fieldsFrom sp (w ++ t) cur = fieldsFrom sp t (cur ++ w) := by
  induction w with
  | nil => intro t cur; simp
  | cons c w ih =>
    intro t cur
    rw [List.cons_append, fieldsFrom, if_neg (by rw [h c (by simp)]; simp), ih (fun c hc => h c (by simp [hc]))]
    simp

/-- the fields of a printed line are its words -/
theorem fields_joined {sp : Char → Bool} (hsp : sp ' ' = true) (ws : List Text) (h : ∀ w ∈ ws, Word sp w) :
    fields sp (joined ws) = ws := by
  unfold fields
  induction ws with
  | nil => rfl
  | cons w ws ih =>
    have hw := h w (by simp)
    cases ws with
    | nil =>
      have := fieldsFrom_word w hw.2 [] []
      rw [List.append_nil] at this
      rw [joined, this, List.nil_append, fieldsFrom, if_neg hw.1]
    | cons w2 ws =>
      rw [joined, fieldsFrom_word w hw.2, List.nil_append, fieldsFrom, if_pos hsp, if_neg hw.1,
        ih (fun x hx => h x (by simp [hx]))]
      · simp

theorem slice_printed {β : Type _} {sp : Char → Bool} (hsp : sp ' ' = true) (heq : sp '=' = false) {eol : Text}
    (he : ∀ c ∈ eol, sp c = true) (ws : List (Text × List Text)) (h : Printable sp ws) (parse : Text → Option β)
    (key : String) (vals : List β) (hm : Has parse ws key vals) :
    (entries sp (ws.map (lineOf eol))).slice sp parse key = .ok vals := by
  obtain ⟨words, h1, h2⟩ := hm
  unfold KV.slice
  rw [get_printed heq he ws h key words h1]
  dsimp only
  rw [fields_joined hsp words (h.word _ h1), h2]

theorem int_printed {sp : Char → Bool} (heq : sp '=' = false) {eol : Text}
    (he : ∀ c ∈ eol, sp c = true) (ws : List (Text × List Text)) (h : Printable sp ws) (L : Lex α)
    (key : String) (n : Int) (hm : Has L.atoi ws key [n]) :
    (entries sp (ws.map (lineOf eol))).int L key = .ok n := by
  obtain ⟨words, h1, h2⟩ := hm
  unfold KV.int
  rw [get_printed heq he ws h key words h1]
  dsimp only
  match words, h2 with
  | [], h2 => simp at h2
  | [w], h2 =>
    have : L.atoi w = some n := by
      rcases hw : L.atoi w with _ | m
      · simp [List.mapM_cons, hw] at h2
      · simpa [List.mapM_cons, hw] using h2
    rw [joined, this]
  | w :: w2 :: ws', h2 =>
    rcases hw : L.atoi w with _ | m
    · simp [List.mapM_cons, hw] at h2
    rcases hw2 : L.atoi w2 with _ | m2
    · simp [List.mapM_cons, hw, hw2] at h2
    rcases hw3 : ws'.mapM L.atoi with _ | m3
    · simp [List.mapM_cons, hw, hw2, hw3] at h2
    · simp [List.mapM_cons, hw, hw2, hw3] at h2

theorem holds_internal {a : TextArrays α} (iv : List α) {c : Int} {t : FTree α} {u : List Nat} (h : TextHolds a c t u) :
    TextHolds { a with internalValue := iv } c t u := by
  induction h with
  | leaf i v h => exact .leaf i v h
  | node i l r d f th tl tr ul ur h1 h2 h3 h4 h5 h6 h7 _ _ ihl ihr => exact .node i l r d f th tl tr ul ur h1 h2 h3 h4 h5 h6 h7 ihl ihr

/-- the arrays read from printed lines describe the printed tree -/
theorem arrays_printed (L : Lex α) (hsp : L.space ' ' = true) (heq : L.space '=' = false) {eol : Text}
    (he : ∀ c ∈ eol, L.space c = true) (ws : List (Text × List Text)) (h : Printable L.space ws) (a : TextArrays α)
    (hp : Prints L ws a) (t : FTree α) (ht : TextTree a t) (ti : Nat) (hn : 1 ≤ a.numLeaves) :
    ∃ a', (entries L.space (ws.map (lineOf eol))).arrays L ti = .ok a' ∧ TextTree a' t := by
  unfold KV.arrays
  rw [int_printed heq he ws h L _ _ hp.leaves, Outcome.bind_ok, if_neg (by omega),
    slice_printed hsp heq he ws h _ _ _ hp.value, Outcome.bind_ok]
  by_cases h1 : a.numLeaves = 1
  · rw [if_pos h1]
    refine ⟨_, rfl, ?_⟩
    cases ht with
    | constant v _ h2 => exact .constant v h1 h2
    | splits t u h2 h3 =>
      exfalso
      generalize hc : ((0 : Nat) : Int) = c at h2
      cases h2 with
      | leaf k v _ => omega
      | node i l r d f th tl tr ul ur h1' => omega
  · rw [if_neg h1, slice_printed hsp heq he ws h _ _ _ (hp.left h1), Outcome.bind_ok,
      slice_printed hsp heq he ws h _ _ _ (hp.right h1), Outcome.bind_ok,
      slice_printed hsp heq he ws h _ _ _ (hp.decision h1), Outcome.bind_ok,
      slice_printed hsp heq he ws h _ _ _ (hp.feature h1), Outcome.bind_ok,
      slice_printed hsp heq he ws h _ _ _ (hp.threshold h1), Outcome.bind_ok]
    refine ⟨_, rfl, ?_⟩
    cases ht with
    | constant v h2 _ => exact absurd h2 h1
    | splits t u h2 h3 => exact .splits t u (holds_internal _ h2) h3

/-- a line that is no entry: not blank, and without `=` or beginning with `Tree=` -/
def Noise (sp : Char → Bool) (l : Text) : Prop := ¬ Blank sp l ∧ (isTreeLine (trim sp l) = true ∨ '=' ∉ trim sp l)

/-- a printed section: lines that are no entries, entries, and the blank lines after it -/
structure Section where
  title : List Text
  lines : List (Text × List Text)
  gap : List Text

/-- its text -/
def Section.text (eol : Text) (s : Section) : List Text := s.title ++ s.lines.map (lineOf eol)

/-- well-formed: the title lines are no entries, there is at least one entry, one or two blank lines follow -/
structure Section.Wf (sp : Char → Bool) (s : Section) : Prop where
  title : ∀ l ∈ s.title, Noise sp l
  printable : Printable sp s.lines
  some : s.lines ≠ []
  gap : Gap sp s.gap

theorem noise_entries (sp : Char → Bool) (pre s : List Text) (h : ∀ l ∈ pre, Noise sp l) (p : KV) :
    entriesOn sp p (pre ++ s) = entriesOn sp p s := by
  induction pre with
  | nil => rfl
  | cons l pre ih =>
    have ih' := ih (fun l hl => h l (by simp [hl]))
    rw [entriesOn, List.cons_append, List.foldl_cons]
    rw [entriesOn] at ih'
    have : (if isTreeLine (trim sp l) = true then p else setLine sp (trim sp l) p) = p := by
      by_cases ht : isTreeLine (trim sp l) = true
      · rw [if_pos ht]
      · rw [if_neg ht, setLine, if_neg]
        simpa using (h l (by simp)).2.resolve_left ht
    rw [this, ih']

theorem section_block {sp : Char → Bool} (heq : sp '=' = false) {eol : Text} (he : ∀ c ∈ eol, sp c = true) {s : Section}
    (h : s.Wf sp) : Block sp (s.text eol) := by
  refine ⟨?_, ?_⟩
  · intro l hl
    rcases List.mem_append.1 hl with hl | hl
    · exact (h.title l hl).1
    · obtain ⟨x, hx, rfl⟩ := List.mem_map.1 hl
      unfold Blank
      rw [trim_line heq he x (h.printable.key x hx).1 (h.printable.word x hx)]
      simp
  · obtain ⟨x, hx⟩ := List.exists_mem_of_ne_nil _ h.some
    refine ⟨lineOf eol x, List.mem_append_right _ (List.mem_map_of_mem hx), ?_⟩
    have hk := h.printable.key x hx
    rw [trim_line heq he x hk.1 (h.printable.word x hx)]
    exact ⟨not_tree_line hk.2.1 hk.2.2, by simp⟩

theorem section_entries {sp : Char → Bool} {eol : Text} {s : Section} (h : s.Wf sp) :
    entries sp (s.text eol) = entries sp (s.lines.map (lineOf eol)) :=
  noise_entries sp _ _ h.title []

section

variable [BEq α] [LE α] [DecidableLE α] [LT α] [DecidableLT α] [Zero α] [Neg α]

/-- **C216 (partial)** A text file as LightGBM prints it — a header and one section per tree, sections separated by one or two
blank lines, `tree_sizes` with one entry per tree — is loaded, with its number of classes and its objective. Every tree of
numerical splits gives every sample the value of the leaf LightGBM assigns it to. Other keys, title lines, line ends and
everything after the last tree make no difference. Missing: three or more blank lines in a row
(`three_blank_lines_rejected`), and categorical splits, which are refused or ignored (C50, C51). -/
theorem text_model_loaded_partial (L : Lex α) (hsp : L.space ' ' = true) (heq : L.space '=' = false) (eol : Text)
    (he : ∀ c ∈ eol, L.space c = true) (toInt : α → Int) (z : α) (header : Section) (secs : List Section) (tl : List Text)
    (hh : header.Wf L.space) (hs : ∀ s ∈ secs, s.Wf L.space) (sizes : List Text)
    (hz : ("tree_sizes".toList, sizes) ∈ header.lines) (hn : sizes.length = secs.length) (a : Nat → TextArrays α)
    (t : Nat → FTree α)
    (ha : ∀ i s, secs[i]? = some s → Prints L s.lines (a i) ∧ 1 ≤ (a i).numLeaves ∧ TextTree (a i) (t i)) :
    ∃ m, loadLeaves L (doc ((header :: secs).map fun s => (s.text eol, s.gap)) ++ tl) = .ok m ∧
      m.trees.length = secs.length ∧
      (∀ w n, ("num_class".toList, [w]) ∈ header.lines → L.atoiLoose w = n → n ≠ 0 → m.numClass = n) ∧
      (∀ w ws, ("objective".toList, w :: ws) ∈ header.lines → m.objective = String.ofList w) ∧
      ∀ i T, m.trees[i]? = some T → ∀ x : List α, (t i).Features x.length → T.predict toInt z x = .ok ((t i).eval z x) := by
  have harr : ∀ i, ∃ a', ∀ s, secs[i]? = some s →
      (entries L.space (s.text eol)).arrays L i = .ok a' ∧ TextTree a' (t i) := by
    intro i
    rcases hi : secs[i]? with _ | s
    · exact ⟨a i, fun s h => by simp at h⟩
    · obtain ⟨h1, h2, h3⟩ := ha i s hi
      have hw := hs s (List.mem_of_getElem? hi)
      obtain ⟨a', h4, h5⟩ := arrays_printed L hsp heq he s.lines hw.printable (a i) h1 (t i) h3 i h2
      refine ⟨a', fun s' hs' => ?_⟩
      cases hs'
      rw [section_entries hw]
      exact ⟨h4, h5⟩
  obtain ⟨a', ha'⟩ : ∃ a' : Nat → TextArrays α, ∀ i s, secs[i]? = some s →
      (entries L.space (s.text eol)).arrays L i = .ok (a' i) ∧ TextTree (a' i) (t i) :=
    ⟨fun i => (harr i).choose, fun i s h => (harr i).choose_spec s h⟩
  have hget : ∀ key words, (String.toList key, words) ∈ header.lines →
      (entries L.space (header.text eol)).get key = some (joined words) := by
    intro key words hm
    rw [section_entries hh]
    exact get_printed heq he _ hh.printable key words hm
  obtain ⟨m, h1, h2, h3, h4, h5⟩ := text_file_loaded L toInt z (header.text eol) header.gap
    (secs.map fun s => (s.text eol, s.gap)) tl (section_block heq he hh) hh.gap
    (by
      intro s hs'
      obtain ⟨x, hx, rfl⟩ := List.mem_map.1 hs'
      exact ⟨section_block heq he (hs x hx), (hs x hx).gap⟩) (joined sizes) (hget _ _ hz)
    (by rw [fields_joined hsp sizes (hh.printable.word _ hz), List.length_map]; exact hn) a' t
    (by
      intro i s hi
      rw [List.getElem?_map] at hi
      rcases hj : secs[i]? with _ | x
      · rw [hj] at hi; simp at hi
      · rw [hj] at hi
        simp only [Option.map_some, Option.some.injEq] at hi
        subst hi
        exact ha' i x hj)
  refine ⟨m, h1, by rw [h2, List.length_map], ?_, ?_, h5⟩
  · intro w n hw hn hn0
    rw [h3, KV.numClass, hget _ _ hw]
    show (if L.atoiLoose w = 0 then 1 else L.atoiLoose w) = n
    rw [if_neg (by rw [hn]; exact hn0), hn]
  · intro w ws hw
    rw [h4, KV.objective, hget _ _ hw]
    dsimp only
    rw [fields_joined hsp _ (hh.printable.word _ hw)]

end

/-! ## Damaged files -/

theorem empty_section_err [Zero α] (L : Lex α) (i : Nat) : KV.tree L [] i = .err (.other "key not found") := rfl

/-- sections are read one after another; when one has no readable tree, loading fails -/
theorem readSections_missing [Zero α] (L : Lex α) (secs : List (List Text × List Text)) (n : Nat) (hn : secs.length < n) :
    ∀ (i : Nat) (pre tl : List Text), (∀ l ∈ pre, Blank L.space l) → pre.length ≤ 1 →
      (∀ s ∈ secs, Block L.space s.1 ∧ Gap L.space s.2) →
      (∀ j s, secs[j]? = some s → ∀ p, (entries L.space s.1).tree L (i + j) ≠ .panic p) →
      (∀ pre : List Text, (∀ l ∈ pre, Blank L.space l) → pre.length ≤ 1 → (readSection L.space (pre ++ tl) 0 []).1 = []) →
      ∃ e, readSections L n i (pre ++ (doc secs ++ tl)) = .err e := by
  induction secs generalizing n with
  | nil =>
    intro i pre tl hp hp1 _ _ htl
    obtain ⟨k, rfl⟩ : ∃ k, n = k + 1 := ⟨n - 1, by simp at hn; omega⟩
    refine ⟨.other "key not found", ?_⟩
    rw [readSections, doc, List.nil_append, htl pre hp hp1, empty_section_err]
    rfl
  | cons s secs ih =>
    intro i pre tl hp hp1 hs ht htl
    obtain ⟨s, bs⟩ := s
    obtain ⟨hb, hg⟩ := hs (s, bs) (by simp)
    obtain ⟨b, bs', rfl, hb1, hb2, hb3⟩ := gap_split hg
    obtain ⟨k, rfl⟩ : ∃ k, n = k + 1 := ⟨n - 1, by simp at hn; omega⟩
    have hr : readSection L.space (pre ++ (doc ((s, b :: bs') :: secs) ++ tl)) 0 [] =
        (entries L.space s, bs' ++ (doc secs ++ tl)) := by
      have := readSection_block L.space pre s b (bs' ++ (doc secs ++ tl)) hp hp1 hb hb1
      simpa [doc] using this
    rw [readSections, hr]
    dsimp only
    have h0' : ∀ p, (entries L.space s).tree L i ≠ .panic p := ht 0 (s, b :: bs') rfl
    rcases ho : (entries L.space s).tree L i with T | e | p
    · obtain ⟨e, he⟩ := ih k (by simp at hn; omega) (i + 1) bs' tl hb2 hb3 (fun s hs' => hs s (by simp [hs']))
        (fun j s hj => by have := ht (j + 1) s (by simpa using hj); rwa [show i + 1 + j = i + (j + 1) by omega]) htl
      exact ⟨e, by rw [Outcome.bind_ok, he]; rfl⟩
    · exact ⟨e, rfl⟩
    · exact absurd ho (h0' p)

/-- **C217 (partial)** A file that lost whole trees at its end, so that fewer sections are left than `tree_sizes` announces,
is rejected with an error. Missing: a file cut inside a section may crash the loader (`cut_file_panics`), be loaded with a
wrong value (`cut_file_loads`), or crash predictions (`cut_file_predict_panics`). -/
theorem missing_trees_rejected_partial [Zero α] (L : Lex α) (header hb : List Text) (secs : List (List Text × List Text))
    (hh : Block L.space header) (hg : Gap L.space hb) (hs : ∀ s ∈ secs, Block L.space s.1 ∧ Gap L.space s.2) (sizes : Text)
    (hz : (entries L.space header).get "tree_sizes" = some sizes) (hn : secs.length < (fields L.space sizes).length)
    (ht : ∀ j s, secs[j]? = some s → ∀ p, (entries L.space s.1).tree L j ≠ .panic p) :
    ∃ e, loadLeaves L (doc ((header, hb) :: secs)) = .err e := by
  obtain ⟨b, bs', rfl, hb1, hb2, hb3⟩ := gap_split hg
  have hr : readSection L.space (doc ((header, b :: bs') :: secs)) 0 [] =
      (entries L.space header, bs' ++ (doc secs ++ [])) := by
    have := readSection_block L.space [] header b (bs' ++ (doc secs ++ [])) (by simp) (by simp) hh hb1
    simpa [doc] using this
  obtain ⟨e, he⟩ := readSections_missing L secs _ hn 0 bs' [] hb2 hb3 hs
    (fun j s hj => by have := ht j s hj; rwa [Nat.zero_add])
    (fun pre hp _ => by rw [List.append_nil]; exact readSection_blanks L.space pre hp)
  refine ⟨e, ?_⟩
  unfold loadLeaves
  rw [hr]
  dsimp only
  rw [hz]
  dsimp only
  rw [he]
  rfl

/-- **C216 is false as stated**: a third blank line before a tree makes loading fail, whatever follows. -/
theorem three_blank_lines_rejected [Zero α] (L : Lex α) (header : List Text) (b1 b2 b3 : Text) (rest : List Text)
    (hh : Block L.space header) (h1 : Blank L.space b1) (h2 : Blank L.space b2) (h3 : Blank L.space b3) (sizes : Text)
    (hz : (entries L.space header).get "tree_sizes" = some sizes) (hn : fields L.space sizes ≠ []) :
    ∃ e, loadLeaves L (header ++ b1 :: b2 :: b3 :: rest) = .err e := by
  have hr := readSection_block L.space [] header b1 (b2 :: b3 :: rest) (by simp) (by simp) hh h1
  rw [List.nil_append] at hr
  have hr2 : readSection L.space (b2 :: b3 :: rest) 0 [] = ([], rest) := by
    rw [readSection_blank _ _ _ _ _ h2, if_neg (by simp),
      readSection_blank _ _ _ _ _ h3, if_pos (Or.inl (by omega))]
  obtain ⟨k, hk⟩ : ∃ k, (fields L.space sizes).length = k + 1 :=
    ⟨(fields L.space sizes).length - 1, by have := List.length_pos_iff.2 hn; omega⟩
  refine ⟨.other "key not found", ?_⟩
  unfold loadLeaves
  rw [hr]
  dsimp only
  rw [hz]
  dsimp only
  rw [hk, readSections, hr2]
  rfl

/-! ## Concrete files -/

/-- decimal digits -/
def exDigits : Text → Option Nat
  | [] => none
  | cs => cs.foldl (fun o c => o.bind fun n => if c.toNat < 48 || 57 < c.toNat then none else some (10 * n + (c.toNat - 48)))
      (some 0)

/-- a decimal number with an optional minus sign -/
def exInt : Text → Option Int
  | '-' :: cs => (exDigits cs).map fun n => -(n : Int)
  | cs => (exDigits cs).map fun n => (n : Int)

/-- a reader for examples: spaces and line ends are white space, numbers are decimal -/
def exLex : Lex Int where
  space c := c == ' ' || c == '\n'
  atoi := exInt
  atoiLoose w := (exInt w).getD 0
  int32 := exInt
  uint32 := exDigits
  float := exInt

def exLines (l : List String) : List Text := l.map String.toList

/-- a header for two trees -/
def exHeader : List String := ["tree\n", "version=v4\n", "num_class=1\n", "objective=binary sigmoid:1\n", "tree_sizes=10 20\n", "\n"]

/-- a tree with one split -/
def exSplit : List String := ["Tree=0\n", "num_leaves=2\n", "leaf_value=10 20\n", "left_child=-1\n", "right_child=-2\n",
  "decision_type=2\n", "split_feature=0\n", "threshold=5\n", "\n", "\n"]

/-- a constant -/
def exConst : List String := ["Tree=1\n", "num_leaves=1\n", "leaf_value=7\n", "\n"]

/-- what the loaded model predicts for a sample, tree by tree -/
def exPredict (ls : List String) (x : List Int) : Option (List (Outcome Int)) :=
  match loadLeaves exLex (exLines ls) with
  | .ok m => some (m.trees.map fun t => t.predict id 0 x)
  | _ => none

example : exPredict (exHeader ++ exSplit ++ exConst) [3] = some [.ok 10, .ok 7] := by decide +kernel
example : exPredict (exHeader ++ exSplit ++ exConst) [9] = some [.ok 20, .ok 7] := by decide +kernel

/-- the same file as printed sections -/
def exSections : Section × List Section :=
  (⟨["tree\n".toList], [("version".toList, ["v4".toList]), ("num_class".toList, ["1".toList]),
      ("objective".toList, ["binary".toList, "sigmoid:1".toList]), ("tree_sizes".toList, ["10".toList, "20".toList])],
    ["\n".toList]⟩,
   [⟨["Tree=0\n".toList], [("num_leaves".toList, ["2".toList]), ("leaf_value".toList, ["10".toList, "20".toList]),
      ("left_child".toList, ["-1".toList]), ("right_child".toList, ["-2".toList]), ("decision_type".toList, ["2".toList]),
      ("split_feature".toList, ["0".toList]), ("threshold".toList, ["5".toList])], ["\n".toList, "\n".toList]⟩,
    ⟨["Tree=1\n".toList], [("num_leaves".toList, ["1".toList]), ("leaf_value".toList, ["7".toList])], ["\n".toList]⟩])

/-- its text is the file above -/
example : doc ((exSections.1 :: exSections.2).map fun s => (s.text ['\n'], s.gap)) =
    exLines (exHeader ++ exSplit ++ exConst) := by decide +kernel

instance (sp : Char → Bool) (w : Text) : Decidable (Word sp w) := by unfold Word; infer_instance
instance (sp : Char → Bool) (w : Text) : Decidable (Blank sp w) := by unfold Blank; infer_instance
instance (sp : Char → Bool) (w : Text) : Decidable (Noise sp w) := by unfold Noise; infer_instance
instance (sp : Char → Bool) (w : List Text) : Decidable (Gap sp w) := by unfold Gap; infer_instance

theorem exSections_wf : ∀ s ∈ exSections.1 :: exSections.2, s.Wf exLex.space := by
  have h : ∀ s ∈ exSections.1 :: exSections.2, (∀ l ∈ s.title, Noise exLex.space l) ∧
      (∀ l ∈ s.lines, Word exLex.space l.1 ∧ '=' ∉ l.1 ∧ l.1 ≠ "Tree".toList) ∧
      (∀ l ∈ s.lines, ∀ w ∈ l.2, Word exLex.space w) ∧ (s.lines.map (·.1)).Nodup ∧ s.lines ≠ [] ∧ Gap exLex.space s.gap := by
    decide +kernel
  intro s hs
  obtain ⟨h1, h2, h3, h4, h5, h6⟩ := h s hs
  exact ⟨h1, ⟨h2, h3, h4⟩, h5, h6⟩

/-- the arrays and the trees of the file -/
def exTextArrays : Nat → TextArrays Int
  | 0 => ⟨2, [10, 20], [-1], [-2], [2], [0], [5], []⟩
  | _ => ⟨1, [7], [], [], [], [], [], []⟩

def exTextTrees : Nat → FTree Int
  | 0 => .node 0 5 .none true (.leaf 10) (.leaf 20)
  | _ => .leaf 7

/-- `text_model_loaded_partial` applies to the file -/
example : ∃ m, loadLeaves exLex (doc ((exSections.1 :: exSections.2).map fun s => (s.text ['\n'], s.gap)) ++
      exLines ["end of trees\n"]) = .ok m ∧ m.trees.length = 2 ∧ m.objective = "binary" := by
  obtain ⟨m, h1, h2, -, h4, -⟩ := text_model_loaded_partial exLex rfl rfl ['\n'] (by decide) id 0 exSections.1 exSections.2
    (exLines ["end of trees\n"]) (exSections_wf _ (by simp)) (fun s hs => exSections_wf s (by simp [hs]))
    ["10".toList, "20".toList] (by decide +kernel) rfl exTextArrays exTextTrees (by
      intro i s hi
      match i with
      | 0 =>
        cases hi
        refine ⟨⟨⟨["2".toList], by decide +kernel, by decide +kernel⟩, ⟨["10".toList, "20".toList], by decide +kernel, by decide +kernel⟩,
          fun _ => ⟨["-1".toList], by decide +kernel, by decide +kernel⟩, fun _ => ⟨["-2".toList], by decide +kernel, by decide +kernel⟩,
          fun _ => ⟨["2".toList], by decide +kernel, by decide +kernel⟩, fun _ => ⟨["0".toList], by decide +kernel, by decide +kernel⟩,
          fun _ => ⟨["5".toList], by decide +kernel, by decide +kernel⟩⟩, by decide, ?_⟩
        refine .splits _ [0] ?_ (by decide)
        exact .node 0 (-1) (-2) 2 0 5 _ _ [] [] (by decide) rfl rfl rfl rfl rfl rfl (.leaf 0 10 rfl) (.leaf 1 20 rfl)
      | 1 =>
        cases hi
        refine ⟨⟨⟨["1".toList], by decide +kernel, by decide +kernel⟩, ⟨["7".toList], by decide +kernel, by decide +kernel⟩,
          fun h => absurd rfl h, fun h => absurd rfl h, fun h => absurd rfl h, fun h => absurd rfl h, fun h => absurd rfl h⟩,
          by decide, .constant 7 rfl rfl⟩
      | i + 2 => simp [exSections] at hi)
  exact ⟨m, h1, h2, h4 "binary".toList ["sigmoid:1".toList] (by decide +kernel)⟩

/-- a third blank line -/
example : exPredict (exHeader ++ ["\n", "\n"] ++ exSplit ++ exConst) [3] = none := by decide +kernel

/-- the second tree is missing -/
example : exPredict (exHeader ++ exSplit) [3] = none := by decide +kernel

/-- a tree of two splits in the order in which LightGBM prints its lines -/
def exTwo : List String := ["tree\n", "tree_sizes=10\n", "\n", "Tree=0\n", "num_leaves=3\n", "split_feature=0 0\n",
  "threshold=5 25\n", "decision_type=2 2\n", "left_child=-1 -2\n", "right_child=1 -3\n", "leaf_value=10 20 35\n", "\n", "\n"]

/-- the file without its last three characters: the last leaf is `3` instead of `35` -/
def exTwoCut : List String := ["tree\n", "tree_sizes=10\n", "\n", "Tree=0\n", "num_leaves=3\n", "split_feature=0 0\n",
  "threshold=5 25\n", "decision_type=2 2\n", "left_child=-1 -2\n", "right_child=1 -3\n", "leaf_value=10 20 3"]

/-- cut after the second leaf value -/
def exTwoShort : List String := ["tree\n", "tree_sizes=10\n", "\n", "Tree=0\n", "num_leaves=3\n", "split_feature=0 0\n",
  "threshold=5 25\n", "decision_type=2 2\n", "left_child=-1 -2\n", "right_child=1 -3\n", "leaf_value=10 20"]

/-- the lines printed in another order, and cut inside the thresholds -/
def exTwoOther : List String := ["tree\n", "tree_sizes=10\n", "\n", "Tree=0\n", "num_leaves=3\n", "leaf_value=10 20 35\n",
  "split_feature=0 0\n", "decision_type=2 2\n", "left_child=-1 -2\n", "right_child=1 -3\n", "threshold=5 25\n", "\n", "\n"]

def exTwoOtherCut : List String := ["tree\n", "tree_sizes=10\n", "\n", "Tree=0\n", "num_leaves=3\n", "leaf_value=10 20 35\n",
  "split_feature=0 0\n", "decision_type=2 2\n", "left_child=-1 -2\n", "right_child=1 -3\n", "threshold=5"]

/-- a file holding the beginning of another one -/
def CutOf (cut full : List String) : Prop := (exLines cut).flatten <+: (exLines full).flatten

/-- **C217 is false**: a file that lost its last characters is loaded as another model: the sample is given 3 instead of 35. -/
theorem cut_file_loads : CutOf exTwoCut exTwo ∧ exPredict exTwo [30] = some [.ok 35] ∧ exPredict exTwoCut [30] = some [.ok 3] :=
  ⟨⟨"5\n\n\n".toList, by decide +kernel⟩, by decide +kernel, by decide +kernel⟩

/-- **C217 is false**: a file cut between two leaf values is loaded, and predicting crashes. -/
theorem cut_file_predict_panics : CutOf exTwoShort exTwo ∧
    exPredict exTwoShort [30] = some [.panic "index out of range"] :=
  ⟨⟨" 35\n\n\n".toList, by decide +kernel⟩, by decide +kernel⟩

/-- **C217 is false**: a file whose last line holds fewer thresholds than splits crashes the loader. -/
theorem cut_file_panics : CutOf exTwoOtherCut exTwoOther ∧ exPredict exTwoOther [30] = some [.ok 35] ∧
    loadLeaves exLex (exLines exTwoOtherCut) = .panic "index out of range" :=
  ⟨⟨" 25\n\n\n".toList, by decide +kernel⟩, by decide +kernel, by
    have h : (match loadLeaves exLex (exLines exTwoOtherCut) with | .panic p => p | _ => "") = "index out of range" := by
      decide +kernel
    rcases hl : loadLeaves exLex (exLines exTwoOtherCut) with m | e | p
    · rw [hl] at h; simp at h
    · rw [hl] at h; simp at h
    · rw [hl] at h
      dsimp only at h
      rw [h]⟩

private theorem bind_ok {β : Type _} {γ : Type _} (o : Outcome β) (k : β → Outcome γ) (c : γ) (hk : o.bind k = .ok c) : ∃ b, o = .ok b ∧ k b = .ok c := by
  cases o with
  | ok b => exact ⟨b, rfl, hk⟩
  | err e => cases hk
  | panic e => cases hk

/-- **C216** (law-free) The initial score of a model loaded from a text file: the first number of `internal_value` in the section of the first tree, 0 if the file
has no trees or that entry is missing, empty or no list of numbers. The sections of later trees do not matter. -/
theorem text_init_score [Zero α] (L : Lex α) (lines : List Text) (m : LModel α) (h : loadLeaves L lines = .ok m) :
    m.initScore = if m.trees = [] then 0 else
      match (readSection L.space (readSection L.space lines 0 []).2 0 []).1.slice L.space L.float "internal_value" with
      | .ok (x :: _) => x
      | _ => 0 := by
  have hread : ∀ (a : TextArrays α) (i : Nat) (t : LTree α), a.read i = .ok t → t.internalValue = a.firstInternal i := by
    intro a i t ht
    unfold TextArrays.read at ht
    split at ht
    · cases ht
    · split at ht
      · injection ht with ht; rw [← ht]
      · dsimp only at ht
        cases hc : a.createNode 0 with
        | err e => rw [hc] at ht; cases ht
        | panic p => rw [hc] at ht; cases ht
        | ok n =>
          rw [hc] at ht
          dsimp only [Outcome.bind] at ht
          split at ht
          · injection ht with ht; rw [← ht]
          · cases ht
          · cases ht
          · cases ht
  have harr : ∀ (p : KV) (i : Nat) (a : TextArrays α), p.arrays L i = .ok a → a.internalValue = p.internal L i := by
    intro p i a ha
    unfold KV.arrays at ha
    obtain ⟨n, -, ha⟩ := bind_ok _ _ _ ha
    split at ha
    · cases ha
    · obtain ⟨lv, -, ha⟩ := bind_ok _ _ _ ha
      split at ha
      · injection ha with ha; rw [← ha]
      · obtain ⟨_, -, ha⟩ := bind_ok _ _ _ ha
        obtain ⟨_, -, ha⟩ := bind_ok _ _ _ ha
        obtain ⟨_, -, ha⟩ := bind_ok _ _ _ ha
        obtain ⟨_, -, ha⟩ := bind_ok _ _ _ ha
        obtain ⟨_, -, ha⟩ := bind_ok _ _ _ ha
        injection ha with ha; rw [← ha]
  unfold loadLeaves at h
  dsimp only at h
  split at h
  · cases h
  · rename_i v _
    cases hn : (fields L.space v).length with
    | zero =>
      rw [hn] at h
      injection h with h
      rw [← h]
      rfl
    | succ n =>
      rw [hn] at h
      unfold readSections at h
      cases ht : (readSection L.space (readSection L.space lines 0 []).2 0 []).1.tree L 0 with
      | err e => rw [ht] at h; cases h
      | panic e => rw [ht] at h; cases h
      | ok t =>
        rw [ht] at h
        dsimp only [Outcome.bind] at h
        cases hs : readSections L n (0 + 1) (readSection L.space (readSection L.space lines 0 []).2 0 []).2 with
        | err e => rw [hs] at h; cases h
        | panic e => rw [hs] at h; cases h
        | ok ts =>
          rw [hs] at h
          injection h with h
          rw [← h]
          simp only [List.head?_cons, Option.map_some, Option.getD_some, reduceCtorEq, if_false]
          unfold KV.tree at ht
          cases ha : (readSection L.space (readSection L.space lines 0 []).2 0 []).1.arrays L 0 with
          | err e => rw [ha] at ht; cases ht
          | panic e => rw [ha] at ht; cases ht
          | ok a =>
            rw [ha] at ht
            rw [hread a 0 t ht, TextArrays.firstInternal, if_pos rfl, harr _ _ _ ha, KV.internal, if_pos rfl]
            cases hsl : (readSection L.space (readSection L.space lines 0 []).2 0 []).1.slice L.space L.float "internal_value" with
            | err e => rfl
            | panic e => rfl
            | ok l => cases l <;> rfl

end Scigo.LGB
