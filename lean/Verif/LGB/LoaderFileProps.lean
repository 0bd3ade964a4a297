import Verif.LGB.LoaderTextProps

/-!
# LightGBM's text files through `LoadFromReader`
-/

set_option linter.unusedSectionVars false

namespace Scigo.LGB

variable {α : Type _}

/-- the lines hold the arrays of one tree, as `LoadFromReader` reads them -/
structure PrintsFor (L : Lex α) (ws : List (Text × List Text)) (a : TextArrays α) (shrinkage : α) : Prop where
  leaves : Has L.atoi ws "num_leaves" [a.numLeaves]
  rate : Has L.float ws "shrinkage" [shrinkage]
  value : Has L.float ws "leaf_value" a.leafValue
  left : a.numLeaves ≠ 1 → Has L.atoi ws "left_child" a.left
  right : a.numLeaves ≠ 1 → Has L.atoi ws "right_child" a.right
  decision : a.numLeaves ≠ 1 → Has L.nat ws "decision_type" a.decisionType
  feature : a.numLeaves ≠ 1 → Has L.nat ws "split_feature" a.splitFeature
  threshold : a.numLeaves ≠ 1 → Has L.float ws "threshold" a.threshold

/-- a printed tree: the number in its title, its lines and the blank lines after it -/
structure TreeText where
  index : Text
  lines : List (Text × List Text)
  gap : List Text

/-- its text -/
def TreeText.text (t : TreeText) : List Text := ("Tree=".toList ++ t.index) :: (t.lines.map (lineOf []) ++ t.gap)

/-- well-formed: the title is a number, at least one blank line follows, lines are shorter than the scanner allows -/
structure TreeText.Wf (L : Lex α) (limit : Nat) (t : TreeText) (i : Nat) : Prop where
  index : Word L.space t.index ∧ '=' ∉ t.index ∧ L.atoi t.index = some (i : Int)
  printable : Printable L.space t.lines
  gap : (∀ b ∈ t.gap, Blank L.space b) ∧ t.gap ≠ []
  short : ∀ l ∈ t.text, l.length < limit

/-- a line after the trees that is no header line: blank, without `=`, or with a key other than the three that are read -/
def Harmless (L : Lex α) (l : Text) : Prop :=
  Blank L.space l ∨ (isTreeLine (trim L.space l) = false ∧
    ('=' ∈ trim L.space l → trim L.space ((trim L.space l).takeWhile fun c => c != '=') ∉
      ["num_class".toList, "max_feature_idx".toList, "objective".toList]))

section

variable [Zero α]

theorem line_lineOf (L : Lex α) (hL : L.Ascii) (l : Text × List Text)
    (hk : Word L.space l.1 ∧ '=' ∉ l.1 ∧ l.1 ≠ "Tree".toList) (hw : ∀ w ∈ l.2, Word L.space w) (s : ScanState α) :
    s.line L (lineOf [] l) = .ok (if s.current.isSome then { s with params := (l.1, joined l.2) :: s.params }
      else s.header L l.1 (joined l.2)) := by
  have hv : L.space '=' = false := hL.visible '=' (by simp)
  unfold ScanState.line
  rw [trim_line hv (by simp) l hk.1 hw, if_neg (by simp), if_neg (by rw [not_tree_line hk.2.1 hk.2.2]; simp), if_neg]
  · unfold ScanState.entry
    rw [setLine, if_pos (by simp), (line_split _ _ hk.2.1).1, (line_split _ _ hk.2.1).2, trim_word hk.1, trim_joined _ hw]
  · intro e
    have : '=' ∈ "tree".toList := by rw [← e]; simp
    revert this
    decide

/-- the lines of a tree are collected -/
theorem scan_entries (L : Lex α) (hL : L.Ascii) (limit : Nat) (ws : List (Text × List Text)) (rest : List Text) :
    ∀ (s : ScanState α), Printable L.space ws → (∀ l ∈ ws, (lineOf [] l).length < limit) → s.current.isSome = true →
      scanLines L limit (ws.map (lineOf []) ++ rest) s =
        scanLines L limit rest { s with params := (ws.map fun l => (l.1, joined l.2)).reverse ++ s.params } := by
  induction ws with
  | nil => intro s _ _ _; rfl
  | cons l ws ih =>
    intro s h hlen hs
    have h' : Printable L.space ws := ⟨fun x hx => h.key x (by simp [hx]), fun x hx => h.word x (by simp [hx]),
      (List.nodup_cons.1 h.nodup).2⟩
    have hl := hlen l (by simp)
    rw [List.map_cons, List.cons_append, scanLines, if_neg (by omega), line_lineOf L hL l (h.key l (by simp)) (h.word l (by simp)),
      Outcome.bind_ok, if_pos hs, ih { s with params := (l.1, joined l.2) :: s.params } h' (fun x hx => hlen x (by simp [hx])) hs]
    simp

/-- the header lines are taken one by one -/
theorem scan_header_entries (L : Lex α) (hL : L.Ascii) (limit : Nat) (ws : List (Text × List Text)) (rest : List Text) :
    ∀ (s : ScanState α), Printable L.space ws → (∀ l ∈ ws, (lineOf [] l).length < limit) → s.current = none →
      scanLines L limit (ws.map (lineOf []) ++ rest) s =
        scanLines L limit rest (ws.foldl (fun s l => s.header L l.1 (joined l.2)) s) := by
  induction ws with
  | nil => intro s _ _ _; rfl
  | cons l ws ih =>
    intro s h hlen hs
    have h' : Printable L.space ws := ⟨fun x hx => h.key x (by simp [hx]), fun x hx => h.word x (by simp [hx]),
      (List.nodup_cons.1 h.nodup).2⟩
    have hl := hlen l (by simp)
    rw [List.map_cons, List.cons_append, scanLines, if_neg (by omega), line_lineOf L hL l (h.key l (by simp)) (h.word l (by simp)),
      Outcome.bind_ok, if_neg (by rw [hs]; simp), ih _ h' (fun x hx => hlen x (by simp [hx])) (by rw [header_current, hs])]
    rfl

/-- blank lines outside a tree change nothing -/
theorem scan_blanks (L : Lex α) (limit : Nat) (bs rest : List Text) (h : ∀ b ∈ bs, Blank L.space b ∧ b.length < limit) :
    ∀ s : ScanState α, s.current = none → scanLines L limit (bs ++ rest) s = scanLines L limit rest s := by
  induction bs with
  | nil => intro s _; rfl
  | cons b bs ih =>
    intro s hs
    obtain ⟨h1, h2⟩ := h b (by simp)
    have : s.line L b = .ok s := by
      unfold ScanState.line
      rw [if_pos (show trim L.space b = [] from h1), ScanState.finish, hs]
    rw [List.cons_append, scanLines, if_neg (by omega), this, Outcome.bind_ok, ih (fun b hb => h b (by simp [hb])) s hs]

/-- harmless lines outside a tree change nothing -/
theorem scan_harmless (L : Lex α) (limit : Nat) (tl : List Text) (h : ∀ l ∈ tl, Harmless L l ∧ l.length < limit) :
    ∀ s : ScanState α, s.current = none → scanLines L limit tl s = .ok (s, true) := by
  induction tl with
  | nil => intro s _; rfl
  | cons b tl ih =>
    intro s hs
    obtain ⟨h1, h2⟩ := h b (by simp)
    have : s.line L b = .ok s := by
      unfold ScanState.line
      rcases h1 with h1 | ⟨h1, h3⟩
      · rw [if_pos (show trim L.space b = [] from h1), ScanState.finish, hs]
      · by_cases h0 : trim L.space b = []
        · rw [if_pos h0, ScanState.finish, hs]
        · rw [if_neg h0, if_neg (by rw [h1]; simp)]
          by_cases ht : trim L.space b = "tree".toList
          · rw [if_pos ht]
          · rw [if_neg ht]
            unfold ScanState.entry setLine
            by_cases he : '=' ∈ trim L.space b
            · have hn := h3 he
              rw [if_pos (by simpa using he)]
              dsimp only
              rw [if_neg (by rw [hs]; simp)]
              unfold ScanState.header
              rw [if_neg (by intro h; rw [h] at hn; exact hn (List.mem_cons_self ..)),
                if_neg (by intro h; rw [h] at hn; exact hn (List.mem_cons_of_mem _ (List.mem_cons_self ..))),
                if_neg (by intro h; rw [h] at hn; exact hn (List.mem_cons_of_mem _ (List.mem_cons_of_mem _ (List.mem_cons_self ..))))]
            · rw [if_neg (by simpa using he)]
    rw [scanLines, if_neg (by omega), this, Outcome.bind_ok, ih (fun b hb => h b (by simp [hb])) s hs]

theorem filterMap_of_mapM {β γ : Type _} (f : β → Option γ) : ∀ (l : List β) (r : List γ), l.mapM f = some r → l.filterMap f = r := by
  intro l
  induction l with
  | nil => intro r h; simpa using h
  | cons a l ih =>
    intro r h
    rw [List.mapM_cons] at h
    rcases ha : f a with _ | b
    · simp [ha] at h
    · rcases hl : l.mapM f with _ | r'
      · simp [ha, hl] at h
      · simp [ha, hl] at h
        rw [List.filterMap_cons_some ha, ih r' hl, ← h]

/-- the map of a printed tree -/
def kvOf (ws : List (Text × List Text)) : KV := (ws.map fun l => (l.1, joined l.2)).reverse

theorem kvOf_get (sp : Char → Bool) (ws : List (Text × List Text)) (h : Printable sp ws) (key : String) (words : List Text)
    (hm : (key.toList, words) ∈ ws) : (kvOf ws).get key = some (joined words) := by
  unfold kvOf KV.get
  refine lookup_nodup _ _ _ ?_ ?_
  · rw [List.map_reverse, List.nodup_reverse, List.map_map]
    exact h.nodup
  · rw [List.mem_reverse]
    exact List.mem_map_of_mem (f := fun l : Text × List Text => (l.1, joined l.2)) hm

theorem kvOf_list {β : Type _} (sp : Char → Bool) (hsp : sp ' ' = true) (ws : List (Text × List Text)) (h : Printable sp ws)
    (parse : Text → Option β) (key : String) (vals : List β) (hm : Has parse ws key vals) : (kvOf ws).list sp parse key = vals := by
  obtain ⟨words, h1, h2⟩ := hm
  unfold KV.list
  rw [kvOf_get sp ws h key words h1, Option.getD_some, fields_joined hsp words (h.word _ h1)]
  exact filterMap_of_mapM parse words vals h2

theorem has_one {β : Type _} {parse : Text → Option β} {ws : List (Text × List Text)} {key : String} {v : β}
    (h : Has parse ws key [v]) : ∃ w, (key.toList, [w]) ∈ ws ∧ parse w = some v := by
  obtain ⟨words, h1, h2⟩ := h
  match words, h2 with
  | [], h2 => simp at h2
  | [w], h2 =>
    refine ⟨w, h1, ?_⟩
    rcases hw : parse w with _ | m
    · simp [List.mapM_cons, hw] at h2
    · simpa [List.mapM_cons, hw] using h2
  | w :: w2 :: ws', h2 =>
    rcases hw : parse w with _ | m
    · simp [List.mapM_cons, hw] at h2
    rcases hw2 : parse w2 with _ | m2
    · simp [List.mapM_cons, hw, hw2] at h2
    rcases hw3 : ws'.mapM parse with _ | m3
    · simp [List.mapM_cons, hw, hw2, hw3] at h2
    · simp [List.mapM_cons, hw, hw2, hw3] at h2

/-- a printed tree is loaded from its arrays -/
theorem load_printed (L : Lex α) (hL : L.Ascii) (ws : List (Text × List Text)) (h : Printable L.space ws) (a : TextArrays α)
    (sh : α) (hp : PrintsFor L ws a sh) (k : Nat) :
    ∃ iv, ((kvOf ws).loaderArrays L).load ((kvOf ws).shrinkage L) k = ({ a with internalValue := iv } : TextArrays α).load sh k := by
  refine ⟨(kvOf ws).list L.space L.float "internal_value", ?_⟩
  have hsh : (kvOf ws).shrinkage L = sh := by
    obtain ⟨w, h1, h2⟩ := has_one hp.rate
    unfold KV.shrinkage
    rw [kvOf_get _ ws h _ _ h1]
    show (L.float w).getD 0 = sh
    rw [h2]; rfl
  have hnl : ((kvOf ws).loaderArrays L).numLeaves = a.numLeaves := by
    obtain ⟨w, h1, h2⟩ := has_one hp.leaves
    unfold KV.loaderArrays
    dsimp only
    rw [kvOf_get _ ws h _ _ h1]
    exact hL.loose _ _ h2
  have hlv : ((kvOf ws).loaderArrays L).leafValue = a.leafValue := kvOf_list _ hL.space ws h _ _ _ hp.value
  rw [hsh]
  by_cases h1 : a.numLeaves = 1
  · unfold TextArrays.load
    rw [if_pos (by rw [hnl, h1]), if_pos (show ({ a with internalValue := _ } : TextArrays α).numLeaves = 1 from h1), hlv, hnl]
  · have e : (kvOf ws).loaderArrays L = { a with internalValue := (kvOf ws).list L.space L.float "internal_value" } := by
      have e1 : ((kvOf ws).loaderArrays L).left = a.left := kvOf_list _ hL.space ws h _ _ _ (hp.left h1)
      have e2 : ((kvOf ws).loaderArrays L).right = a.right := kvOf_list _ hL.space ws h _ _ _ (hp.right h1)
      have e3 : ((kvOf ws).loaderArrays L).decisionType = a.decisionType := kvOf_list _ hL.space ws h _ _ _ (hp.decision h1)
      have e4 : ((kvOf ws).loaderArrays L).splitFeature = a.splitFeature := kvOf_list _ hL.space ws h _ _ _ (hp.feature h1)
      have e5 : ((kvOf ws).loaderArrays L).threshold = a.threshold := kvOf_list _ hL.space ws h _ _ _ (hp.threshold h1)
      have : ∀ b : TextArrays α, b = ⟨b.numLeaves, b.leafValue, b.left, b.right, b.decisionType, b.splitFeature, b.threshold, b.internalValue⟩ :=
        fun _ => rfl
      rw [this ((kvOf ws).loaderArrays L), hnl, hlv, e1, e2, e3, e4, e5]
      rfl
    rw [e]

/-- the trees of a file, one after another -/
theorem scan_tree_texts (L : Lex α) (hL : L.Ascii) (limit : Nat) (secs : List TreeText) (ts : List (Tree α)) :
    ∀ (i : Nat) (s : ScanState α) (rest : List Text), s.current = none →
      (∀ (j : Nat) (t : TreeText), secs[j]? = some t → t.Wf L limit (i + j)) →
      (∀ j, (secs[j]?.map fun t => ((kvOf t.lines).loaderArrays L).load ((kvOf t.lines).shrinkage L) (if i + j = 0 then 0 else 1)) =
        ts[j]?.map .ok) →
      ∃ s' : ScanState α, scanLines L limit (secs.flatMap TreeText.text ++ rest) s = scanLines L limit rest s' ∧
        s'.current = none ∧ s'.trees = s.trees ++ ts ∧ s'.numClass = s.numClass ∧ s'.numFeatures = s.numFeatures ∧
        s'.objective = s.objective := by
  induction secs generalizing ts with
  | nil =>
    intro i s rest hs _ ht
    have : ts = [] := by
      cases ts with
      | nil => rfl
      | cons t ts => have := ht 0; simp at this
    subst this
    exact ⟨s, rfl, hs, by simp, rfl, rfl, rfl⟩
  | cons t secs ih =>
    intro i s rest hs hw ht
    cases ts with
    | nil => have := ht 0; simp at this
    | cons T ts =>
      have hwt := hw 0 t rfl
      obtain ⟨b, bs, hgap⟩ : ∃ b bs, t.gap = b :: bs := by
        rcases hg : t.gap with _ | ⟨b, bs⟩
        · exact absurd hg hwt.gap.2
        · exact ⟨b, bs, rfl⟩
      have h0 := ht 0
      simp only [List.getElem?_cons_zero, Option.map_some, Option.some.injEq, Nat.add_zero] at h0
      have hT : trim L.space ("Tree=".toList ++ t.index) = "Tree=".toList ++ t.index := by
        have := trim_words (t := "Tree=".toList ++ t.index) (e := [])
          (ascii_word hL "Tree=".toList (by decide) (by decide)) hwt.index.1 (by simp) rfl rfl
        rw [List.append_nil] at this
        exact this
      have hl : s.line L ("Tree=".toList ++ t.index) = .ok { s with current := some (i : Int), params := [] } := by
        unfold ScanState.line
        have hd : ("Tree=".toList ++ t.index).drop 5 = t.index := rfl
        rw [hT, if_neg (by simp), if_pos, hd, if_neg]
        · rw [hwt.index.2.2]
          simp
        · simpa using hwt.index.2.1
        · unfold isTreeLine
          rw [List.isPrefixOf_iff_prefix]
          exact List.prefix_append _ _
      have hsh := hwt.short
      have hs0 : ("Tree=".toList ++ t.index).length < limit := hsh _ (List.mem_cons_self ..)
      have hs1 : ∀ l ∈ t.lines, (lineOf [] l).length < limit := fun l hl =>
        hsh _ (List.mem_cons_of_mem _ (List.mem_append_left _ (List.mem_map_of_mem hl)))
      have hs2 : ∀ b ∈ t.gap, b.length < limit := fun b hb => hsh _ (List.mem_cons_of_mem _ (List.mem_append_right _ hb))
      have hbl : Blank L.space b := hwt.gap.1 b (by rw [hgap]; simp)
      have hfin : ({ s with current := some (i : Int), params := kvOf t.lines } : ScanState α).line L b =
          .ok { s with trees := s.trees ++ [T], current := none, params := [] } := by
        unfold ScanState.line
        rw [if_pos (show trim L.space b = [] from hbl), ScanState.finish]
        dsimp only
        have : (if (i : Int) = 0 then (0 : Nat) else 1) = if i = 0 then 0 else 1 := by
          by_cases h : i = 0
          · simp [h]
          · rw [if_neg h, if_neg (by omega)]
        rw [this, h0, Outcome.bind_ok]
      obtain ⟨s', r1, r2, r3, r4, r5, r6⟩ := ih ts (i + 1) { s with trees := s.trees ++ [T], current := none, params := [] } rest rfl
        (fun j t hj => by have := hw (j + 1) t (by simpa using hj); rwa [show i + 1 + j = i + (j + 1) by omega])
        (fun j => by
          have := ht (j + 1)
          simp only [List.getElem?_cons_succ] at this
          rw [show i + 1 + j = i + (j + 1) by omega]
          exact this)
      refine ⟨s', ?_, r2, by rw [r3]; simp, r4, r5, r6⟩
      rw [List.flatMap_cons, List.append_assoc]
      unfold TreeText.text
      rw [List.cons_append, scanLines, if_neg (by omega), hl, Outcome.bind_ok, List.append_assoc,
        scan_entries L hL limit t.lines _ _ hwt.printable hs1 rfl]
      dsimp only
      rw [List.append_nil, hgap, List.cons_append, scanLines, if_neg (by have := hs2 b (by rw [hgap]; simp); omega),
        show (t.lines.map fun l => (l.1, joined l.2)).reverse = kvOf t.lines from rfl, hfin, Outcome.bind_ok,
        scan_blanks L limit bs _ (fun x hx => ⟨hwt.gap.1 x (by rw [hgap]; simp [hx]), hs2 x (by rw [hgap]; simp [hx])⟩) _ rfl]
      exact r1

theorem header_fold_other (L : Lex α) (ws : List (Text × List Text)) : ∀ (s : ScanState α),
    ("num_class".toList ∉ ws.map (·.1) → (ws.foldl (fun s l => s.header L l.1 (joined l.2)) s).numClass = s.numClass) ∧
    ("max_feature_idx".toList ∉ ws.map (·.1) → (ws.foldl (fun s l => s.header L l.1 (joined l.2)) s).numFeatures = s.numFeatures) ∧
    ("objective".toList ∉ ws.map (·.1) → (ws.foldl (fun s l => s.header L l.1 (joined l.2)) s).objective = s.objective) ∧
    (ws.foldl (fun s l => s.header L l.1 (joined l.2)) s).trees = s.trees ∧
    (ws.foldl (fun s l => s.header L l.1 (joined l.2)) s).current = s.current := by
  induction ws with
  | nil => intro s; simp
  | cons l ws ih =>
    intro s
    obtain ⟨i1, i2, i3, i4, i5⟩ := ih (s.header L l.1 (joined l.2))
    have one : (l.1 ≠ "num_class".toList → (s.header L l.1 (joined l.2)).numClass = s.numClass) ∧
        (l.1 ≠ "max_feature_idx".toList → (s.header L l.1 (joined l.2)).numFeatures = s.numFeatures) ∧
        (l.1 ≠ "objective".toList → (s.header L l.1 (joined l.2)).objective = s.objective) ∧
        (s.header L l.1 (joined l.2)).trees = s.trees := by
      unfold ScanState.header
      by_cases h1 : l.1 = "num_class".toList
      · rw [if_pos h1]; exact ⟨fun h => absurd h1 h, fun _ => rfl, fun _ => rfl, rfl⟩
      · rw [if_neg h1]
        by_cases h2 : l.1 = "max_feature_idx".toList
        · rw [if_pos h2]; exact ⟨fun _ => rfl, fun h => absurd h2 h, fun _ => rfl, rfl⟩
        · rw [if_neg h2]
          by_cases h3 : l.1 = "objective".toList
          · rw [if_pos h3]
            rcases fields L.space (joined l.2) with _ | ⟨w, _⟩
            · exact ⟨fun _ => rfl, fun _ => rfl, fun _ => rfl, rfl⟩
            · exact ⟨fun _ => rfl, fun _ => rfl, fun h => absurd h3 h, rfl⟩
          · rw [if_neg h3]; exact ⟨fun _ => rfl, fun _ => rfl, fun _ => rfl, rfl⟩
    rw [List.foldl_cons]
    refine ⟨fun h => ?_, fun h => ?_, fun h => ?_, by rw [i4, one.2.2.2], by rw [i5, header_current]⟩
    · rw [List.map_cons, List.mem_cons, not_or] at h
      rw [i1 h.2, one.1 (Ne.symm h.1)]
    · rw [List.map_cons, List.mem_cons, not_or] at h
      rw [i2 h.2, one.2.1 (Ne.symm h.1)]
    · rw [List.map_cons, List.mem_cons, not_or] at h
      rw [i3 h.2, one.2.2.1 (Ne.symm h.1)]

theorem header_num_class (L : Lex α) (s : ScanState α) (v : Text) : (s.header L "num_class".toList v).numClass = L.atoiLoose v := by
  unfold ScanState.header
  rw [if_pos rfl]

theorem header_max_feature (L : Lex α) (s : ScanState α) (v : Text) :
    (s.header L "max_feature_idx".toList v).numFeatures = L.atoiLoose v + 1 := by
  unfold ScanState.header
  rw [if_neg (by decide), if_pos rfl]

theorem header_objective (L : Lex α) (s : ScanState α) (v w : Text) (r : List Text) (h : fields L.space v = w :: r) :
    (s.header L "objective".toList v).objective = String.ofList w := by
  unfold ScanState.header
  rw [if_neg (by decide), if_neg (by decide), if_pos rfl, h]

/-- the header values read -/
theorem header_fold (L : Lex α) (hL : L.Ascii) (ws : List (Text × List Text)) : Printable L.space ws → ∀ (s : ScanState α),
    (∀ w, ("num_class".toList, [w]) ∈ ws → (ws.foldl (fun s l => s.header L l.1 (joined l.2)) s).numClass = L.atoiLoose w) ∧
    (∀ w, ("max_feature_idx".toList, [w]) ∈ ws →
      (ws.foldl (fun s l => s.header L l.1 (joined l.2)) s).numFeatures = L.atoiLoose w + 1) ∧
    (∀ w r, ("objective".toList, w :: r) ∈ ws →
      (ws.foldl (fun s l => s.header L l.1 (joined l.2)) s).objective = String.ofList w) := by
  induction ws with
  | nil => intro _ s; simp
  | cons l ws ih =>
    intro h s
    have h' : Printable L.space ws := ⟨fun x hx => h.key x (by simp [hx]), fun x hx => h.word x (by simp [hx]),
      (List.nodup_cons.1 h.nodup).2⟩
    have hnot := (List.nodup_cons.1 h.nodup).1
    obtain ⟨i1, i2, i3⟩ := ih h' (s.header L l.1 (joined l.2))
    obtain ⟨o1, o2, o3, -, -⟩ := header_fold_other L ws (s.header L l.1 (joined l.2))
    rw [List.foldl_cons]
    refine ⟨fun w hm => ?_, fun w hm => ?_, fun w r hm => ?_⟩
    · rcases List.mem_cons.1 hm with e | hm
      · have e1 := congrArg Prod.fst e
        have e2 := congrArg Prod.snd e
        dsimp only at e1 e2
        rw [o1 (by rw [e1]; exact hnot), ← e1, header_num_class, ← e2]
        rfl
      · exact i1 w hm
    · rcases List.mem_cons.1 hm with e | hm
      · have e1 := congrArg Prod.fst e
        have e2 := congrArg Prod.snd e
        dsimp only at e1 e2
        rw [o2 (by rw [e1]; exact hnot), ← e1, header_max_feature, ← e2]
        rfl
      · exact i2 w hm
    · rcases List.mem_cons.1 hm with e | hm
      · have e1 := congrArg Prod.fst e
        have e2 := congrArg Prod.snd e
        dsimp only at e1 e2
        have hf : fields L.space (joined l.2) = w :: r := by rw [fields_joined hL.space _ (h.word _ (List.mem_cons_self ..)), e2]
        rw [o3 (by rw [e1]; exact hnot), ← e1, header_objective L s _ w r hf]
      · exact i3 w r hm

/-- the whole file: trees and header -/
theorem file_loaded (L : Lex α) (hL : L.Ascii) (limit : Nat) (tenth : α) (ws : List (Text × List Text)) (gap : List Text)
    (secs : List TreeText) (tl : List Text) (hws : Printable L.space ws) (hlim : 4 < limit)
    (hlen : ∀ l ∈ ws, (lineOf [] l).length < limit) (hgap : ∀ b ∈ gap, Blank L.space b ∧ b.length < limit)
    (hw : ∀ (i : Nat) (t : TreeText), secs[i]? = some t → t.Wf L limit i) (htl : ∀ l ∈ tl, Harmless L l ∧ l.length < limit)
    (a : Nat → TextArrays α) (sh : Nat → α)
    (ha : ∀ (i : Nat) (t : TreeText), secs[i]? = some t → PrintsFor L t.lines (a i) (sh i))
    (hok : ∀ i < secs.length, ∀ (iv : List α) (k : Nat), ∃ T, ({ a i with internalValue := iv } : TextArrays α).load (sh i) k = .ok T) :
    ∃ m, loadLines L limit tenth ("tree".toList :: (ws.map (lineOf []) ++ (gap ++ (secs.flatMap TreeText.text ++ tl)))) = .ok m ∧
      m.trees.length = secs.length ∧
      (∀ w n, ("num_class".toList, [w]) ∈ ws → L.atoi w = some n → n ≠ 0 → m.numClass = n) ∧
      (∀ w n, ("max_feature_idx".toList, [w]) ∈ ws → L.atoi w = some n → m.numFeatures = n + 1) ∧
      (∀ w r, ("objective".toList, w :: r) ∈ ws → m.objective = String.ofList w) ∧
      ∀ i T, m.trees[i]? = some T → ∃ iv k, ({ a i with internalValue := iv } : TextArrays α).load (sh i) k = .ok T := by
  have hld : ∀ (i : Nat) (t : TreeText), secs[i]? = some t → ∃ iv T,
      ((kvOf t.lines).loaderArrays L).load ((kvOf t.lines).shrinkage L) (if i = 0 then 0 else 1) = .ok T ∧
      ({ a i with internalValue := iv } : TextArrays α).load (sh i) (if i = 0 then 0 else 1) = .ok T := by
    intro i t hi
    obtain ⟨iv, h1⟩ := load_printed L hL t.lines (hw i t hi).printable (a i) (sh i) (ha i t hi) (if i = 0 then 0 else 1)
    have hlt : i < secs.length := by
      by_contra hc
      rw [List.getElem?_eq_none (by omega)] at hi
      cases hi
    obtain ⟨T, hT⟩ := hok i hlt iv (if i = 0 then 0 else 1)
    exact ⟨iv, T, h1.trans hT, hT⟩
  have hall : ∃ ts : List (Tree α), ts.length = secs.length ∧
      (∀ j, (secs[j]?.map fun t => ((kvOf t.lines).loaderArrays L).load ((kvOf t.lines).shrinkage L) (if 0 + j = 0 then 0 else 1)) =
        ts[j]?.map .ok) ∧
      ∀ i T, ts[i]? = some T → ∃ iv k, ({ a i with internalValue := iv } : TextArrays α).load (sh i) k = .ok T := by
    refine ⟨secs.mapIdx fun i t => match ((kvOf t.lines).loaderArrays L).load ((kvOf t.lines).shrinkage L) (if i = 0 then 0 else 1) with
      | .ok T => T
      | _ => ⟨[], [], 0, 0, 0⟩, by simp, ?_, ?_⟩
    · intro j
      rw [List.getElem?_mapIdx, Nat.zero_add]
      rcases hj : secs[j]? with _ | t
      · rfl
      · obtain ⟨iv, T, h1, -⟩ := hld j t hj
        simp only [Option.map_some, h1]
    · intro i T hi
      rw [List.getElem?_mapIdx] at hi
      rcases hj : secs[i]? with _ | t
      · rw [hj] at hi; simp at hi
      · obtain ⟨iv, T', h1, h2⟩ := hld i t hj
        rw [hj] at hi
        simp only [Option.map_some, h1, Option.some.injEq] at hi
        subst hi
        exact ⟨iv, _, h2⟩
  obtain ⟨ts, l1, l2, l3⟩ := hall
  have ht : trim L.space "tree".toList = "tree".toList := trim_word (ascii_word hL _ (by decide) (by decide))
  have h0 : (ScanState.start : ScanState α).line L "tree".toList = .ok .start := by
    unfold ScanState.line
    rw [ht, if_neg (by decide), if_neg (by decide), if_pos rfl]
  obtain ⟨-, -, -, o4, o5⟩ := header_fold_other L ws (ScanState.start : ScanState α)
  obtain ⟨i1, i2, i3⟩ := header_fold L hL ws hws (ScanState.start : ScanState α)
  generalize hsh : ws.foldl (fun s l => s.header L l.1 (joined l.2)) (ScanState.start : ScanState α) = s0 at o4 o5 i1 i2 i3
  have hs0 : s0.current = none := o5
  obtain ⟨s1, r1, r2, r3, r4, r5, r6⟩ := scan_tree_texts L hL limit secs ts 0 s0 tl hs0
    (fun j t hj => by rw [Nat.zero_add]; exact hw j t hj) l2
  have hscan : scanLines L limit ("tree".toList :: (ws.map (lineOf []) ++ (gap ++ (secs.flatMap TreeText.text ++ tl)))) .start =
      .ok (s1, true) := by
    rw [scanLines, if_neg (by simpa using hlim), h0, Outcome.bind_ok, scan_header_entries L hL limit ws _ _ hws hlen rfl, hsh,
      scan_blanks L limit gap _ hgap _ hs0, r1, scan_harmless L limit tl htl s1 r2]
  have hfin : s1.finish L = .ok s1 := by unfold ScanState.finish; rw [r2]
  have htr : s1.trees = ts := by rw [r3, o4]; simp [ScanState.start]
  refine ⟨s1.model tenth, ?_, ?_, ?_, ?_, ?_, ?_⟩
  · unfold loadLines
    rw [hscan, Outcome.bind_ok]
    dsimp only
    rw [hfin, Outcome.bind_ok, if_pos rfl]
  · show s1.trees.length = _
    rw [htr, l1]
  · intro w n hm hn hn0
    show (if s1.numClass = 0 then 1 else s1.numClass) = n
    rw [r4, i1 w hm, hL.loose w n hn, if_neg hn0]
  · intro w n hm hn
    show s1.numFeatures = n + 1
    rw [r5, i2 w hm, hL.loose w n hn]
  · intro w r hm
    show s1.objective = _
    rw [r6, i3 w r hm]
  · intro i T hi
    have hi' : s1.trees[i]? = some T := hi
    rw [htr] at hi'
    exact l3 i T hi'

/-- **C219 is false without a limit on the lines**: a file with a line of 65536 or more characters (`limit`) is never loaded. Such a line is reached
by the leaf values of a tree with some thousand leaves. -/
theorem long_line_rejected (L : Lex α) (limit : Nat) (tenth : α) (lines : List Text) (h : ∃ l ∈ lines, limit ≤ l.length) :
    ∀ m, loadLines L limit tenth lines ≠ .ok m := by
  have hs : ∀ (ls : List Text) (s : ScanState α), (∃ l ∈ ls, limit ≤ l.length) → ∀ r, scanLines L limit ls s = .ok r → r.2 = false := by
    intro ls
    induction ls with
    | nil => intro s h; obtain ⟨l, hl, -⟩ := h; simp at hl
    | cons l ls ih =>
      intro s h r hr
      rw [scanLines] at hr
      by_cases hl : limit ≤ l.length
      · rw [if_pos hl] at hr
        cases hr
        rfl
      · rw [if_neg hl] at hr
        rcases hx : s.line L l with s' | e | p
        · rw [hx, Outcome.bind_ok] at hr
          refine ih s' ?_ r hr
          obtain ⟨l', hl', h2⟩ := h
          rcases List.mem_cons.1 hl' with rfl | hl'
          · exact absurd h2 hl
          · exact ⟨l', hl', h2⟩
        · rw [hx] at hr; cases hr
        · rw [hx] at hr; cases hr
  intro m hm
  unfold loadLines at hm
  rcases hx : scanLines L limit lines .start with r | e | p
  · rw [hx, Outcome.bind_ok, hs lines _ h r hx] at hm
    rcases hf : r.1.finish L with s' | e | p
    · rw [hf, Outcome.bind_ok, if_neg (by simp)] at hm
      cases hm
    · rw [hf] at hm; cases hm
    · rw [hf] at hm; cases hm
  · rw [hx] at hm; cases hm
  · rw [hx] at hm; cases hm

end

section

variable [BEq α] [LE α] [DecidableLE α] [LT α] [DecidableLT α] [Zero α] [One α] [Add α] [Sub α] [Neg α] [Mul α] [Div α]

/-- the arrays of a printed tree with splits, in the form LightGBM gives them -/
structure SplitTree (a : TextArrays α) (t : FTree α) : Prop where
  sized : a.Sized
  holds : ∃ used : List Nat, TextHolds a (0 : Nat) t used ∧ used.Nodup
  distinct : ∀ i : Nat, ¬ (a.left[i]? = some (-1) ∧ a.right[i]? = some (-1))

/-- **C219**, what holds (law-free): a text file whose lines are shorter than `limit` and whose trees are followed by blank lines
is loaded with the number of classes, the number of features and the objective it names, one tree for each printed tree, and
`Predictor` gives for every tree with splits the value LightGBM gives, for samples clear of missing values and of the comparison
tolerance. After the trees come lines that are not named like the header (`Harmless`). Missing: constant trees
(`loader_constant_zero`), trees without blank line (`unseparated_tree_dropped`), features named like the header
(`importance_changes_header`), long lines (`long_line_rejected`). -/
theorem loader_file_partial (L : Lex α) (hL : L.Ascii) (limit : Nat) (tenth : α) (P : PNum α) (z : α)
    (ws : List (Text × List Text)) (gap : List Text) (secs : List TreeText) (tl : List Text) (hws : Printable L.space ws)
    (hlim : 4 < limit) (hlen : ∀ l ∈ ws, (lineOf [] l).length < limit) (hgap : ∀ b ∈ gap, Blank L.space b ∧ b.length < limit)
    (hw : ∀ (i : Nat) (t : TreeText), secs[i]? = some t → t.Wf L limit i) (htl : ∀ l ∈ tl, Harmless L l ∧ l.length < limit)
    (a : Nat → TextArrays α) (sh : Nat → α) (t : Nat → FTree α)
    (ha : ∀ (i : Nat) (s : TreeText), secs[i]? = some s → PrintsFor L s.lines (a i) (sh i))
    (ht : ∀ i < secs.length, (a i).numLeaves = 1 ∨ SplitTree (a i) (t i)) :
    ∃ m, loadLines L limit tenth ("tree".toList :: (ws.map (lineOf []) ++ (gap ++ (secs.flatMap TreeText.text ++ tl)))) = .ok m ∧
      m.trees.length = secs.length ∧
      (∀ w n, ("num_class".toList, [w]) ∈ ws → L.atoi w = some n → n ≠ 0 → m.numClass = n) ∧
      (∀ w n, ("max_feature_idx".toList, [w]) ∈ ws → L.atoi w = some n → m.numFeatures = n + 1) ∧
      (∀ w r, ("objective".toList, w :: r) ∈ ws → m.objective = String.ofList w) ∧
      ∀ i T, m.trees[i]? = some T → (a i).numLeaves ≠ 1 → ∀ x : List α, (t i).Features x.length → (t i).Clear P z x →
        T.pPredict P x = .ok (P.ensure ((t i).eval z x)) := by
  have hsplit : ∀ i, SplitTree (a i) (t i) → ∀ (iv : List α) (k : Nat), ∃ T,
      ({ a i with internalValue := iv } : TextArrays α).load (sh i) k = .ok T ∧
      ∀ x : List α, (t i).Features x.length → (t i).Clear P z x → T.pPredict P x = .ok (P.ensure ((t i).eval z x)) := by
    intro i h iv k
    obtain ⟨u, hu, hn⟩ := h.holds
    exact text_predictor_partial P z { a i with internalValue := iv } h.sized (t i) u (holds_internal iv hu) hn h.distinct (sh i) k
  obtain ⟨m, h1, h2, h3, h4, h5, h6⟩ := file_loaded L hL limit tenth ws gap secs tl hws hlim hlen hgap hw htl a sh ha (by
    intro i hi iv k
    rcases ht i hi with h | h
    · exact ⟨_, by unfold TextArrays.load; rw [if_pos h]⟩
    · obtain ⟨T, hT, -⟩ := hsplit i h iv k
      exact ⟨T, hT⟩)
  refine ⟨m, h1, h2, h3, h4, h5, fun i T hT hl => ?_⟩
  obtain ⟨iv, k, hk⟩ := h6 i T hT
  have hi : i < secs.length := by
    rw [← h2]
    by_contra hc
    rw [List.getElem?_eq_none (by omega)] at hT
    cases hT
  rcases ht i hi with h | h
  · exact absurd h hl
  · obtain ⟨T', hT', hp⟩ := hsplit i h iv k
    rw [hk] at hT'
    cases hT'
    exact hp

/-- **C219 is false for constant trees** (law-free): a printed tree with one leaf is loaded without nodes, and `Predictor` and
`Model.Predict` take it as 0, whatever its value is; `SimplePredictor` alone gives the value printed. -/
theorem loader_constant_zero (a : TextArrays α) (h : a.numLeaves = 1) (sh : α) (k : Nat) (P : PNum α) (toInt : α → Int) :
    ∃ T, a.load sh k = .ok T ∧ ∀ x, T.pPredict P x = .ok 0 ∧ T.predict toInt x = .ok 0 ∧
      ∀ v, a.leafValue = [v] → T.sPredict x = .ok v := by
  refine ⟨⟨[], a.leafValue, a.numLeaves, sh, 0⟩, by unfold TextArrays.load; rw [if_pos h], fun x => ⟨rfl, rfl, fun v hv => ?_⟩⟩
  show Outcome.ok (a.leafValue.headD 0) = .ok v
  rw [hv]
  rfl

/-- the title of a tree -/
theorem title_line (L : Lex α) (hL : L.Ascii) (w : Text) (hw : Word L.space w ∧ '=' ∉ w) (i : Int) (hi : L.atoi w = some i)
    (s : ScanState α) : s.line L ("Tree=".toList ++ w) = .ok { s with current := some i, params := [] } := by
  have hT : trim L.space ("Tree=".toList ++ w) = "Tree=".toList ++ w := by
    have := trim_words (t := "Tree=".toList ++ w) (e := [])
      (ascii_word hL "Tree=".toList (by decide) (by decide)) hw.1 (by simp) rfl rfl
    rw [List.append_nil] at this
    exact this
  unfold ScanState.line
  have hd : ("Tree=".toList ++ w).drop 5 = w := rfl
  rw [hT, if_neg (by simp), if_pos, hd, if_neg, hi]
  · simpa using hw.2
  · unfold isTreeLine
    rw [List.isPrefixOf_iff_prefix]
    exact List.prefix_append _ _

/-- scanning in two parts -/
theorem scanLines_append (L : Lex α) (limit : Nat) (ls ls' : List Text) : ∀ s : ScanState α, scanLines L limit (ls ++ ls') s =
    (scanLines L limit ls s).bind fun r => if r.2 then scanLines L limit ls' r.1 else .ok (r.1, false) := by
  induction ls with
  | nil => intro s; rfl
  | cons l ls ih =>
    intro s
    rw [List.cons_append, scanLines, scanLines]
    by_cases h : limit ≤ l.length
    · rw [if_pos h, if_pos h]; rfl
    · rw [if_neg h, if_neg h]
      rcases s.line L l with s' | e | p
      · rw [Outcome.bind_ok, Outcome.bind_ok, ih]
      · rfl
      · rfl

/-- **C219 is false without blank lines** (law-free): a printed tree followed directly by the next one is dropped without an error: the
file is loaded as if the tree were not there. -/
theorem unseparated_tree_dropped (L : Lex α) (hL : L.Ascii) (limit : Nat) (tenth : α) (pre : List Text) (t : TreeText)
    (hp : ∀ r, scanLines L limit pre (.start : ScanState α) = .ok r → r.1.current = none) (i : Int) (hi : L.atoi t.index = some i)
    (hix : Word L.space t.index ∧ '=' ∉ t.index) (ht : Printable L.space t.lines) (hg : t.gap = []) (hshort : ∀ l ∈ t.text, l.length < limit)
    (w : Text) (hw : Word L.space w ∧ '=' ∉ w) (j : Int) (hj : L.atoi w = some j)
    (hlen : ("Tree=".toList ++ w).length < limit) (rest : List Text) :
    loadLines L limit tenth (pre ++ (t.text ++ (("Tree=".toList ++ w) :: rest))) =
      loadLines L limit tenth (pre ++ (("Tree=".toList ++ w) :: rest)) := by
  have key : ∀ s : ScanState α, s.current = none → scanLines L limit (t.text ++ (("Tree=".toList ++ w) :: rest)) s =
      scanLines L limit (("Tree=".toList ++ w) :: rest) s := by
    intro s hs
    have hs0 : ("Tree=".toList ++ t.index).length < limit := hshort _ (List.mem_cons_self ..)
    have hs1 : ∀ l ∈ t.lines, (lineOf [] l).length < limit := fun l hl =>
      hshort _ (List.mem_cons_of_mem _ (List.mem_append_left _ (List.mem_map_of_mem hl)))
    unfold TreeText.text
    rw [List.cons_append, scanLines, if_neg (by omega), title_line L hL t.index hix i hi, Outcome.bind_ok, hg, List.append_nil,
      scan_entries L hL limit t.lines _ _ ht hs1 rfl]
    rw [scanLines, scanLines, if_neg (by omega), if_neg (by omega), title_line L hL w hw j hj, title_line L hL w hw j hj]
  unfold loadLines
  rw [scanLines_append, scanLines_append]
  rcases hx : scanLines L limit pre (.start : ScanState α) with r | e | p
  · rw [Outcome.bind_ok, Outcome.bind_ok, key r.1 (hp r hx)]
  · rfl
  · rfl

end

/-! ## Examples -/

theorem exLex_ascii : exLex.Ascii := by
  refine ⟨rfl, fun c hc => ?_, fun w n h => ?_⟩
  · have h1 : c ≠ ' ' := by rintro rfl; revert hc; decide
    have h2 : c ≠ '\n' := by rintro rfl; revert hc; decide
    simp [exLex, h1, h2]
  · show (exInt w).getD 0 = n
    rw [show exInt w = some n from h]
    rfl

/-- the header of a file -/
def exHead : List (Text × List Text) := [("version".toList, ["v4".toList]), ("num_class".toList, ["1".toList]),
  ("max_feature_idx".toList, ["2".toList]), ("objective".toList, ["binary".toList, "sigmoid:1".toList])]

/-- a tree with one split and a constant -/
def exTreeTexts : List TreeText :=
  [⟨"0".toList, [("num_leaves".toList, ["2".toList]), ("split_feature".toList, ["0".toList]), ("threshold".toList, ["5".toList]),
      ("decision_type".toList, ["2".toList]), ("left_child".toList, ["-1".toList]), ("right_child".toList, ["-2".toList]),
      ("leaf_value".toList, ["10".toList, "20".toList]), ("shrinkage".toList, ["1".toList])], [[], []]⟩,
   ⟨"1".toList, [("num_leaves".toList, ["1".toList]), ("leaf_value".toList, ["7".toList]), ("shrinkage".toList, ["1".toList])], [[], []]⟩]

/-- their lines -/
def exFile : List String := ["tree", "version=v4", "num_class=1", "max_feature_idx=2", "objective=binary sigmoid:1", "",
  "Tree=0", "num_leaves=2", "split_feature=0", "threshold=5", "decision_type=2", "left_child=-1", "right_child=-2", "leaf_value=10 20",
  "shrinkage=1", "", "", "Tree=1", "num_leaves=1", "leaf_value=7", "shrinkage=1", "", "", "end of trees", "", "feature_importances:", "age=1"]

example : "tree".toList :: (exHead.map (lineOf []) ++ ([[]] ++ (exTreeTexts.flatMap TreeText.text ++
    exLines ["end of trees", "", "feature_importances:", "age=1"]))) = exLines exFile := by decide +kernel

/-- numbers for examples: a tolerance of 1 -/
def exPNum : PNum Int := ⟨fun _ => false, id, 1⟩

/-- what `Predictor` gives, tree by tree, with number of classes and of features -/
def exLoaded (ls : List String) (x : List Int) : Option (Int × Int × List (Outcome Int)) :=
  match loadLines exLex 65536 0 (exLines ls) with
  | .ok m => some (m.numClass, m.numFeatures, m.trees.map fun t => t.pPredict exPNum x)
  | _ => none

/-- the split is predicted, the constant is not -/
example : exLoaded exFile [3] = some (1, 3, [.ok 10, .ok 0]) ∧ exLoaded exFile [9] = some (1, 3, [.ok 20, .ok 0]) := by
  decide +kernel

instance (sp : Char → Bool) (ws : List (Text × List Text)) : Decidable (Printable sp ws) :=
  decidable_of_iff ((∀ l ∈ ws, Word sp l.1 ∧ '=' ∉ l.1 ∧ l.1 ≠ "Tree".toList) ∧ (∀ l ∈ ws, ∀ w ∈ l.2, Word sp w) ∧
    (ws.map (·.1)).Nodup) ⟨fun h => ⟨h.1, h.2.1, h.2.2⟩, fun h => ⟨h.key, h.word, h.nodup⟩⟩

instance (l : Text) : Decidable (Harmless exLex l) := by unfold Harmless; infer_instance

/-- `loader_file_partial` applies to the file -/
example : ∃ m, loadLines exLex 65536 0 (exLines exFile) = .ok m ∧ m.trees.length = 2 ∧ m.numFeatures = 3 ∧ m.objective = "binary" ∧
    ∀ T, m.trees[0]? = some T → T.pPredict exPNum [9] = .ok 20 := by
  have hwf : ∀ (i : Nat) (t : TreeText), exTreeTexts[i]? = some t → t.Wf exLex 65536 i := by
    intro i t hi
    match i with
    | 0 => cases hi; exact ⟨by decide +kernel, by decide +kernel, by decide +kernel, by decide +kernel⟩
    | 1 => cases hi; exact ⟨by decide +kernel, by decide +kernel, by decide +kernel, by decide +kernel⟩
    | i + 2 => cases hi
  obtain ⟨m, h1, h2, -, h4, h5, h6⟩ := loader_file_partial exLex exLex_ascii 65536 0 exPNum 0 exHead [[]] exTreeTexts
    (exLines ["end of trees", "", "feature_importances:", "age=1"]) (by decide +kernel) (by decide) (by decide +kernel)
    (by decide +kernel) hwf (by decide +kernel) exTextArrays (fun _ => 1) exTextTrees (by
      intro i s hi
      match i with
      | 0 =>
        cases hi
        exact ⟨⟨["2".toList], by decide +kernel, by decide +kernel⟩, ⟨["1".toList], by decide +kernel, by decide +kernel⟩,
          ⟨["10".toList, "20".toList], by decide +kernel, by decide +kernel⟩,
          fun _ => ⟨["-1".toList], by decide +kernel, by decide +kernel⟩, fun _ => ⟨["-2".toList], by decide +kernel, by decide +kernel⟩,
          fun _ => ⟨["2".toList], by decide +kernel, by decide +kernel⟩, fun _ => ⟨["0".toList], by decide +kernel, by decide +kernel⟩,
          fun _ => ⟨["5".toList], by decide +kernel, by decide +kernel⟩⟩
      | 1 =>
        cases hi
        exact ⟨⟨["1".toList], by decide +kernel, by decide +kernel⟩, ⟨["1".toList], by decide +kernel, by decide +kernel⟩,
          ⟨["7".toList], by decide +kernel, by decide +kernel⟩, fun h => absurd rfl h, fun h => absurd rfl h, fun h => absurd rfl h,
          fun h => absurd rfl h, fun h => absurd rfl h⟩
      | i + 2 => cases hi) (by
      intro i hi
      match i with
      | 0 =>
        refine Or.inr ⟨by unfold TextArrays.Sized; decide, ⟨[0], ?_, by decide⟩, ?_⟩
        · exact .node 0 (-1) (-2) 2 0 5 _ _ [] [] (by decide) rfl rfl rfl rfl rfl rfl (.leaf 0 10 rfl) (.leaf 1 20 rfl)
        · intro i
          match i with
          | 0 => decide
          | i + 1 => simp [exTextArrays]
      | 1 => exact Or.inl rfl
      | i + 2 => exact absurd hi (by simp [exTreeTexts]))
  refine ⟨m, h1, h2, h4 "2".toList 2 (by decide +kernel) (by decide +kernel), h5 "binary".toList _ (List.mem_cons_of_mem _
    (List.mem_cons_of_mem _ (List.mem_cons_of_mem _ (List.mem_cons_self ..)))), fun T hT => ?_⟩
  rw [h6 0 T hT (by decide) [9] (by simp [exTextTrees, FTree.Features]) (by simp only [exTextTrees, FTree.Clear]; decide +kernel)]
  decide +kernel

/-- a line too long for the scanner -/
example (m : Model Int) : loadLines exLex 65536 0 (exLines exFile ++ [List.replicate 65536 '1']) ≠ .ok m :=
  long_line_rejected exLex 65536 0 _ ⟨_, List.mem_append_right _ (List.mem_singleton.2 rfl), by rw [List.length_replicate]⟩ m

/-- the constant is 7, and is predicted as 0 -/
example : ∃ T, (exTextArrays 1).load 1 1 = .ok T ∧ T.leafValues = [7] ∧ T.pPredict exPNum [3] = .ok 0 :=
  ⟨_, rfl, rfl, by decide +kernel⟩

/-- two trees without a blank line between them: one tree is loaded -/
def exUnseparated : List String := ["tree", "num_class=1", "max_feature_idx=0", "",
  "Tree=0", "num_leaves=2", "split_feature=0", "threshold=5", "decision_type=2", "left_child=-1", "right_child=-2", "leaf_value=10 20",
  "Tree=1", "num_leaves=2", "split_feature=0", "threshold=5", "decision_type=2", "left_child=-1", "right_child=-2", "leaf_value=1 2", ""]

example : exLoaded exUnseparated [9] = some (1, 1, [.ok 2]) := by decide +kernel

/-- `unseparated_tree_dropped` applies to it -/
example : loadLines exLex 65536 0 (exLines exUnseparated) = loadLines exLex 65536 0 (exLines (exUnseparated.take 4 ++ exUnseparated.drop 12)) :=
  unseparated_tree_dropped exLex exLex_ascii 65536 0 (exLines (exUnseparated.take 4))
    ⟨"0".toList, [("num_leaves".toList, ["2".toList]), ("split_feature".toList, ["0".toList]), ("threshold".toList, ["5".toList]),
      ("decision_type".toList, ["2".toList]), ("left_child".toList, ["-1".toList]), ("right_child".toList, ["-2".toList]),
      ("leaf_value".toList, ["10".toList, "20".toList])], []⟩
    (by
      have h : (match scanLines exLex 65536 (exLines (exUnseparated.take 4)) .start with | .ok r => r.1.current | _ => none) = none := by
        decide +kernel
      intro r hr
      rw [hr] at h
      exact h) 0 (by decide +kernel) (by decide +kernel) (by decide +kernel) rfl (by decide +kernel) "1".toList (by decide +kernel) 1
    (by decide +kernel) (by decide +kernel) _

/-- **C219 is false for some feature names**: the importance of a feature called `num_class` is taken as the number of classes. -/
theorem importance_changes_header : exLoaded exFile [3] = some (1, 3, [.ok 10, .ok 0]) ∧
    exLoaded (exFile.take 26 ++ ["num_class=4"]) [3] = some (4, 3, [.ok 10, .ok 0]) := by
  decide +kernel

end Scigo.LGB
