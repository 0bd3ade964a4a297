import Verif.LGB.Path

/-!
# What the path checks of the loaders keep out (C251)
-/

namespace Scigo.LGB.Path

/-! ## Specification -/

/-- one component followed from a directory (a list of names from the root; no symbolic links) -/
def step (dir : List P) (c : P) : List P :=
  if c = [] ∨ c = dot then dir else if c = dotdot then dir.dropLast else dir ++ [c]

/-- the place a path names, seen from a directory -/
def place (dir : List P) (p : P) : List P := (comps p).foldl step (if rooted p then [] else dir)

/-! ## Lemmas -/

theorem comps_ne_nil (p : P) : comps p ≠ [] := by
  cases p with
  | nil => simp [comps]
  | cons c s =>
    unfold comps
    split
    · simp
    · split <;> simp

theorem comps_infix (p : P) : (∀ w ws, comps p = w :: ws → w <+: p) ∧ ∀ c ∈ comps p, c <:+: p := by
  induction p with
  | nil => simp [comps]
  | cons c s ih =>
    obtain ⟨i1, i2⟩ := ih
    unfold comps
    by_cases h : c = '/'
    · rw [if_pos h]
      refine ⟨fun w ws e => ?_, fun d hd => ?_⟩
      · obtain ⟨rfl, -⟩ := List.cons.inj e; exact List.nil_prefix
      · rcases List.mem_cons.1 hd with rfl | hd
        · exact List.nil_infix
        · exact (i2 d hd).trans (List.suffix_cons c s).isInfix
    · rw [if_neg h]
      cases hs : comps s with
      | nil => exact absurd hs (comps_ne_nil s)
      | cons w ws =>
        dsimp only
        have hp : (c :: w) <+: (c :: s) := (List.prefix_cons_inj c).2 (i1 w ws hs)
        refine ⟨fun v vs e => ?_, fun d hd => ?_⟩
        · obtain ⟨rfl, -⟩ := List.cons.inj e; exact hp
        · rcases List.mem_cons.1 hd with rfl | hd
          · exact hp.isInfix
          · exact (i2 d (by rw [hs]; exact List.mem_cons_of_mem _ hd)).trans (List.suffix_cons c s).isInfix

theorem comps_noSlash (p : P) : ∀ c ∈ comps p, '/' ∉ c := by
  induction p with
  | nil => simp [comps]
  | cons c s ih =>
    unfold comps
    by_cases h : c = '/'
    · rw [if_pos h]
      intro d hd
      rcases List.mem_cons.1 hd with rfl | hd
      · simp
      · exact ih d hd
    · rw [if_neg h]
      cases hs : comps s with
      | nil => exact absurd hs (comps_ne_nil s)
      | cons w ws =>
        dsimp only
        rw [hs] at ih
        intro d hd
        rcases List.mem_cons.1 hd with rfl | hd
        · intro hm
          rcases List.mem_cons.1 hm with e | e
          · exact h e.symm
          · exact ih w List.mem_cons_self e
        · exact ih d (List.mem_cons_of_mem _ hd)

theorem comps_word (w : P) (h : '/' ∉ w) : comps w = [w] := by
  induction w with
  | nil => rfl
  | cons c s ih =>
    have hc : c ≠ '/' := fun e => h (by rw [e]; exact List.mem_cons_self)
    unfold comps
    rw [if_neg hc, ih (fun e => h (List.mem_cons_of_mem _ e))]

theorem comps_append (w : P) (h : '/' ∉ w) (s : P) : comps (w ++ '/' :: s) = w :: comps s := by
  induction w with
  | nil =>
    rw [List.nil_append, comps, if_pos rfl]
  | cons c w ih =>
    have hc : c ≠ '/' := fun e => h (by rw [e]; exact List.mem_cons_self)
    rw [List.cons_append, comps, if_neg hc, ih (fun e => h (List.mem_cons_of_mem _ e))]

theorem comps_join (l : List P) (hl : ∀ c ∈ l, '/' ∉ c) (hne : l ≠ []) : comps (join l) = l := by
  induction l with
  | nil => exact absurd rfl hne
  | cons w ws ih =>
    cases ws with
    | nil => exact comps_word w (hl w List.mem_cons_self)
    | cons v vs =>
      show comps (w ++ '/' :: join (v :: vs)) = _
      rw [comps_append w (hl w List.mem_cons_self), ih (fun c hc => hl c (List.mem_cons_of_mem _ hc)) (by simp)]

/-- a cleaned list of components: first `..` (none at the root), then proper names -/
def Normal (root : Bool) (l : List P) : Prop :=
  ∃ (k : Nat) (names : List P), l = List.replicate k dotdot ++ names ∧ (root = true → k = 0) ∧
    ∀ c ∈ names, c ≠ [] ∧ c ≠ dot ∧ c ≠ dotdot ∧ '/' ∉ c

theorem push_normal (root : Bool) (l : List P) (h : Normal root l) (c : P) (hc : '/' ∉ c) : Normal root (push root l c) := by
  obtain ⟨k, names, rfl, hk, hn⟩ := h
  unfold push
  by_cases h1 : c = [] ∨ c = dot
  · rw [if_pos h1]; exact ⟨k, names, rfl, hk, hn⟩
  rw [if_neg h1]
  rw [not_or] at h1
  by_cases h2 : c = dotdot
  · rw [if_pos h2]
    rcases List.eq_nil_or_concat names with rfl | ⟨ns, last, rfl⟩
    · rw [List.append_nil]
      cases k with
      | zero =>
        simp only [List.replicate_zero, List.getLast?_nil]
        cases root with
        | true => exact ⟨0, [], rfl, fun _ => rfl, by simp⟩
        | false => exact ⟨1, [], by simp [h2], by simp, by simp⟩
      | succ k =>
        have : (List.replicate (k + 1) dotdot).getLast? = some dotdot := by simp [List.getLast?_replicate]
        rw [this]
        dsimp only
        rw [if_pos rfl]
        refine ⟨k + 2, [], ?_, fun hr => absurd (hk hr) (by simp), by simp⟩
        rw [h2, List.append_nil, ← List.replicate_succ']
    · have hl := hn last (by simp)
      have : (List.replicate k dotdot ++ (ns ++ [last])).getLast? = some last := by
        rw [← List.append_assoc, List.getLast?_append]; simp
      rw [List.concat_eq_append] at *
      rw [this]
      dsimp only
      rw [if_neg hl.2.2.1]
      refine ⟨k, ns, ?_, hk, fun d hd => hn d (by simp [hd])⟩
      rw [← List.append_assoc, List.dropLast_concat]
  · rw [if_neg h2]
    refine ⟨k, names ++ [c], by rw [List.append_assoc], hk, fun d hd => ?_⟩
    rcases List.mem_append.1 hd with hd | hd
    · exact hn d hd
    · rw [List.mem_singleton.1 hd]; exact ⟨h1.1, h1.2, h2, hc⟩

theorem fold_normal (root : Bool) (cs : List P) (hcs : ∀ c ∈ cs, '/' ∉ c) (l : List P) (h : Normal root l) :
    Normal root (cs.foldl (push root) l) := by
  induction cs generalizing l with
  | nil => exact h
  | cons c cs ih =>
    rw [List.foldl_cons]
    exact ih (fun d hd => hcs d (List.mem_cons_of_mem _ hd)) _ (push_normal root l h c (hcs c List.mem_cons_self))

theorem normal_nil (root : Bool) : Normal root [] := ⟨0, [], rfl, fun _ => rfl, by simp⟩

theorem Normal.mem {root : Bool} {l : List P} (h : Normal root l) : ∀ c ∈ l, c ≠ [] ∧ c ≠ dot ∧ '/' ∉ c := by
  obtain ⟨k, names, rfl, -, hn⟩ := h
  intro c hc
  rcases List.mem_append.1 hc with hc | hc
  · rw [(List.mem_replicate.1 hc).2]; decide
  · exact ⟨(hn c hc).1, (hn c hc).2.1, (hn c hc).2.2.2⟩

/-- cleaned components stay as they are -/
theorem fold_push_normal (root : Bool) (l : List P) (h : Normal root l) : l.foldl (push root) [] = l := by
  obtain ⟨k, names, rfl, hk, hn⟩ := h
  have h1 : ∀ k, (root = true → k = 0) → (List.replicate k dotdot).foldl (push root) [] = List.replicate k dotdot := by
    intro k
    induction k with
    | zero => intro _; rfl
    | succ k ih =>
      intro hr
      have hroot : root = false := by cases root with | true => exact absurd (hr rfl) (by simp) | false => rfl
      rw [List.replicate_succ', List.foldl_append, ih (by intro e; rw [hroot] at e; exact nomatch e)]
      show push root _ dotdot = _
      unfold push
      rw [if_neg (by decide), if_pos rfl]
      cases k with
      | zero => simp [hroot]
      | succ k =>
        have : (List.replicate (k + 1) dotdot).getLast? = some dotdot := by simp [List.getLast?_replicate]
        rw [this]
        dsimp only
        rw [if_pos rfl]
  have h2 : ∀ (ns acc : List P), (∀ c ∈ ns, c ≠ [] ∧ c ≠ dot ∧ c ≠ dotdot ∧ '/' ∉ c) → ns.foldl (push root) acc = acc ++ ns := by
    intro ns
    induction ns with
    | nil => intro acc _; simp
    | cons c ns ih =>
      intro acc hns
      have hc := hns c List.mem_cons_self
      rw [List.foldl_cons, ih _ (fun d hd => hns d (List.mem_cons_of_mem _ hd))]
      unfold push
      rw [if_neg (by rw [not_or]; exact ⟨hc.1, hc.2.1⟩), if_neg hc.2.2.1, List.append_assoc, List.singleton_append]
  rw [List.foldl_append, h1 k hk, h2 names _ hn]

/-- the two forms of a cleaned path -/
theorem clean_cases (p : P) : ∃ l, Normal (rooted p) l ∧ l = (comps p).foldl (push (rooted p)) [] ∧
    ((rooted p = true ∧ clean p = '/' :: join l) ∨ (rooted p = false ∧ l = [] ∧ clean p = dot) ∨
      (rooted p = false ∧ l ≠ [] ∧ clean p = join l ∧ rooted (join l) = false)) := by
  refine ⟨_, fold_normal (rooted p) (comps p) (comps_noSlash p) [] (normal_nil _), rfl, ?_⟩
  unfold clean
  cases hr : rooted p with
  | true => left; simp
  | false =>
    right
    rw [if_neg (by simp)]
    have hN := fold_normal false (comps p) (comps_noSlash p) [] (normal_nil _)
    generalize (comps p).foldl (push false) [] = l at *
    cases l with
    | nil => left; exact ⟨rfl, rfl, rfl⟩
    | cons w ws =>
      right
      have hw := hN.mem w List.mem_cons_self
      cases w with
      | nil => exact absurd rfl hw.1
      | cons c w =>
        have hj : ∃ t, join ((c :: w) :: ws) = c :: t := by
          cases ws with
          | nil => exact ⟨w, rfl⟩
          | cons v vs => exact ⟨w ++ '/' :: join (v :: vs), rfl⟩
        obtain ⟨t, ht⟩ := hj
        refine ⟨rfl, by simp, ?_, ?_⟩
        · rw [ht]
        · rw [ht]
          have : c ≠ '/' := fun e => hw.2.2 (by rw [e]; exact List.mem_cons_self)
          simp [rooted, this]

theorem comps_join' (l : List P) (root : Bool) (h : Normal root l) : (comps (join l)).foldl (push root) [] = l := by
  by_cases hl : l = []
  · rw [hl]; rfl
  · rw [comps_join l (fun c hc => (h.mem c hc).2.2) hl]
    exact fold_push_normal root l h

theorem step_push (root : Bool) (start : List P) (hstart : root = true → start = []) (l : List P) (hl : ∀ c ∈ l, c ≠ [] ∧ c ≠ dot) (c : P) :
    (push root l c).foldl step start = step (l.foldl step start) c := by
  unfold push step
  by_cases h1 : c = [] ∨ c = dot
  · rw [if_pos h1, if_pos h1]
  rw [if_neg h1, if_neg h1]
  by_cases h2 : c = dotdot
  · rw [if_pos h2, if_pos h2]
    rcases List.eq_nil_or_concat l with rfl | ⟨ns, last, rfl⟩
    · simp only [List.getLast?_nil, List.foldl_nil]
      cases root with
      | true => rw [hstart rfl]; rfl
      | false =>
        show step start c = _
        unfold step
        rw [if_neg h1, if_pos h2]
    · rw [List.concat_eq_append] at *
      have : (ns ++ [last]).getLast? = some last := by simp
      rw [this]
      dsimp only
      by_cases h3 : last = dotdot
      · rw [if_pos h3, List.foldl_append]
        show step _ c = _
        unfold step
        rw [if_neg h1, if_pos h2]
      · rw [if_neg h3, List.dropLast_concat, List.foldl_append]
        show _ = (step _ last).dropLast
        have := hl last (by simp)
        unfold step
        rw [if_neg (by rw [not_or]; exact this), if_neg h3, List.dropLast_concat]
  · rw [if_neg h2, if_neg h2, List.foldl_append]
    show step _ c = _
    unfold step
    rw [if_neg h1, if_neg h2]

theorem push_mem (root : Bool) (l : List P) (hl : ∀ c ∈ l, c ≠ [] ∧ c ≠ dot) (c : P) : ∀ d ∈ push root l c, d ≠ [] ∧ d ≠ dot := by
  unfold push
  by_cases h1 : c = [] ∨ c = dot
  · rw [if_pos h1]; exact hl
  rw [if_neg h1]
  rw [not_or] at h1
  have happ : ∀ d ∈ l ++ [c], d ≠ [] ∧ d ≠ dot := by
    intro d hd
    rcases List.mem_append.1 hd with hd | hd
    · exact hl d hd
    · rw [List.mem_singleton.1 hd]; exact h1
  by_cases h2 : c = dotdot
  · rw [if_pos h2]
    cases hg : l.getLast? with
    | none =>
      dsimp only
      split
      · exact hl
      · intro d hd; rw [List.mem_singleton.1 hd]; exact h1
    | some last =>
      dsimp only
      split
      · exact happ
      · intro d hd; exact hl d (List.dropLast_subset l hd)
  · rw [if_neg h2]; exact happ

theorem fold_step_push (root : Bool) (start : List P) (hstart : root = true → start = []) (cs l : List P) (hl : ∀ c ∈ l, c ≠ [] ∧ c ≠ dot) :
    (cs.foldl (push root) l).foldl step start = cs.foldl step (l.foldl step start) := by
  induction cs generalizing l with
  | nil => rfl
  | cons c cs ih =>
    rw [List.foldl_cons, List.foldl_cons, ih _ (push_mem root l hl c), step_push root start hstart l hl]

theorem rooted_cons (s : P) : rooted ('/' :: s) = true := rfl

theorem comps_slash (s : P) : comps ('/' :: s) = [] :: comps s := by
  rw [comps, if_pos rfl]

theorem fold_comps_join (l : List P) (root : Bool) (h : Normal root l) (start : List P) :
    (comps (join l)).foldl step start = l.foldl step start := by
  by_cases hl : l = []
  · rw [hl]; rfl
  · rw [comps_join l (fun c hc => (h.mem c hc).2.2) hl]

/-- without `..` anywhere, a relative path stays below its directory -/
theorem inside_of_noDots (p : P) (hr : rooted p = false) (hd : ¬ dotdot <:+: p) (dir : List P) : ∃ names, place dir p = dir ++ names := by
  unfold place
  rw [hr, if_neg (by simp)]
  have hne : ∀ c ∈ comps p, c ≠ dotdot := fun c hc e => hd (e ▸ (comps_infix p).2 c hc)
  generalize comps p = cs at hne
  induction cs generalizing dir with
  | nil => exact ⟨[], by simp⟩
  | cons c cs ih =>
    rw [List.foldl_cons]
    have : ∃ n, step dir c = dir ++ n := by
      unfold step
      by_cases h1 : c = [] ∨ c = dot
      · rw [if_pos h1]; exact ⟨[], by simp⟩
      · rw [if_neg h1, if_neg (hne c List.mem_cons_self)]; exact ⟨[c], rfl⟩
    obtain ⟨n, hn⟩ := this
    rw [hn]
    obtain ⟨m, hm⟩ := ih (dir ++ n) (fun d hd => hne d (List.mem_cons_of_mem _ hd))
    exact ⟨n ++ m, by rw [hm, List.append_assoc]⟩

/-! ## Properties -/

/-- **C251** Cleaning does not change where a path leads: the file the loaders open for a path is the one the path names. -/
theorem clean_same_place (dir : List P) (p : P) : place dir (clean p) = place dir p ∧ rooted (clean p) = rooted p := by
  obtain ⟨l, hN, hl, h⟩ := clean_cases p
  have key : ∀ start, (rooted p = true → start = []) → l.foldl step start = (comps p).foldl step start := by
    intro start hs
    rw [hl, fold_step_push (rooted p) start hs (comps p) [] (by simp)]
    rfl
  rcases h with ⟨hr, hc⟩ | ⟨hr, rfl, hc⟩ | ⟨hr, -, hc, hj⟩
  · refine ⟨?_, by rw [hc, hr]; rfl⟩
    unfold place
    rw [hc, hr, rooted_cons, comps_slash, List.foldl_cons, if_pos rfl]
    show (comps (join l)).foldl step [] = _
    rw [fold_comps_join l _ hN, key [] (fun _ => rfl)]
  · refine ⟨?_, by rw [hc, hr]; rfl⟩
    unfold place
    rw [hc, hr, show rooted dot = false from rfl, if_neg (by simp), ← key dir (by rw [hr]; simp)]
    rfl
  · refine ⟨?_, by rw [hc, hr, hj]⟩
    unfold place
    rw [hc, hr, hj, if_neg (by simp), fold_comps_join l _ hN, key dir (by rw [hr]; simp)]

/-- **C251** Cleaning a cleaned path changes nothing, so a path that came out of `filepath.Clean` is never refused for not being clean. -/
theorem clean_idempotent (p : P) : clean (clean p) = clean p := by
  obtain ⟨l, hN, hl, h⟩ := clean_cases p
  rcases h with ⟨hr, hc⟩ | ⟨hr, rfl, hc⟩ | ⟨hr, hne, hc, hj⟩
  · rw [hr] at hN
    rw [hc]
    unfold clean
    rw [rooted_cons, if_pos rfl, comps_slash, List.foldl_cons]
    show '/' :: join ((comps (join l)).foldl (push true) []) = _
    rw [comps_join' l true hN]
  · rw [hc]; decide
  · rw [hr] at hN
    have hjne : join l ≠ [] := by
      intro e
      have h1 := comps_join l (fun c hc => (hN.mem c hc).2.2) hne
      rw [e] at h1
      have := (hN.mem [] (by rw [← h1]; simp [comps])).1
      exact this rfl
    rw [hc]
    unfold clean
    rw [hj, if_neg (by simp), comps_join' l false hN]
    cases hjl : join l with
    | nil => exact absurd hjl hjne
    | cons a b => rfl

/-- **C251**, the part that holds: for a relative path, `LoadLeavesModelFromFile` (the booster's `LoadModel`) and `LoadJSONModelFromFile` open only
files below the working directory, and the file they open is the one the path names. Missing: absolute paths, which both open wherever they
lead (`absolute_opened`), and the other loaders (`loadFromFile_escapes`). -/
theorem checked_inside_partial (p q : P) (hr : rooted p = false) (dir : List P)
    (h : loadLeavesModel p = .read q ∨ loadJSONModel p = .read q) : place dir q = place dir p ∧ ∃ names, place dir q = dir ++ names := by
  have hq : q = clean p ∧ ¬ dotdot <:+: clean p := by
    rcases h with h | h
    · unfold loadLeavesModel at h
      split at h
      · exact nomatch h
      · split at h
        · exact nomatch h
        · next h1 => exact ⟨(Decision.read.inj h).symm, h1⟩
    · unfold loadJSONModel at h
      split at h
      · exact nomatch h
      · next h1 => exact ⟨(Decision.read.inj h).symm, h1⟩
  obtain ⟨rfl, hd⟩ := hq
  obtain ⟨s1, s2⟩ := clean_same_place dir p
  exact ⟨s1, inside_of_noDots _ (by rw [s2, hr]) hd dir⟩

/-- **C251** Which paths are opened: all by `LoadFromFile` and `LoadFromJSONFile`; by `LoadJSONModelFromFile` those without two dots in a row once
cleaned; by `LoadLeavesModelFromFile` those of them that are clean already. So whatever the last opens the others open too, from the same
place. -/
theorem opened_iff (p : P) :
    loadFromFile p = .read (clean p) ∧
    (loadJSONModel p = .read (clean p) ↔ ¬ dotdot <:+: clean p) ∧ (loadJSONModel p = .refuse ↔ dotdot <:+: clean p) ∧
    (loadLeavesModel p = .read p ↔ clean p = p ∧ ¬ dotdot <:+: p) ∧
    (loadLeavesModel p = .refuse ↔ ¬ (clean p = p ∧ ¬ dotdot <:+: p)) := by
  refine ⟨rfl, ?_, ?_, ?_, ?_⟩
  · unfold loadJSONModel; split <;> simp_all
  · unfold loadJSONModel; split <;> simp_all
  · unfold loadLeavesModel
    by_cases h : clean p = p
    · rw [if_neg (by simpa using h), h]; split <;> simp_all
    · rw [if_pos h]; simp [h]
  · unfold loadLeavesModel
    by_cases h : clean p = p
    · rw [if_neg (by simpa using h), h]; split <;> simp_all
    · rw [if_pos h]; simp [h]

/-- **C251 is false of the code**: `LoadFromFile`, `LoadFromJSONFile` and through them the `LoadModel` of the LightGBM estimators do not refuse
anything: cleaning "to prevent path traversal" keeps a leading `..`, and the file above the working directory is opened. -/
theorem loadFromFile_escapes (dir : List P) (e : P) (he : e ≠ ['s']) :
    ∃ p, rooted p = false ∧ loadFromFile p = .read ['.', '.', '/', 's'] ∧ place (dir ++ [e]) p = dir ++ [['s']] ∧
      ¬ ∃ names, place (dir ++ [e]) p = dir ++ [e] ++ names := by
  have hp : place (dir ++ [e]) ['x', '/', '.', '.', '/', '.', '.', '/', 's'] = dir ++ [['s']] := by
    have hc : comps ['x', '/', '.', '.', '/', '.', '.', '/', 's'] = [['x'], dotdot, dotdot, ['s']] := by decide +kernel
    unfold place
    rw [hc]
    show ((dir ++ [e] ++ [['x']]).dropLast).dropLast ++ [['s']] = _
    rw [List.dropLast_concat, List.dropLast_concat]
  refine ⟨['x', '/', '.', '.', '/', '.', '.', '/', 's'], rfl, by decide +kernel, hp, ?_⟩
  rintro ⟨names, h⟩
  rw [hp, List.append_assoc] at h
  exact he (List.cons.inj (List.append_cancel_left h)).1.symm

/-- **C251 is false of the code**: absolute paths are opened by every loader, wherever they lead. -/
theorem absolute_opened : loadLeavesModel ['/', 'e', 't', 'c'] = .read ['/', 'e', 't', 'c'] ∧
    loadJSONModel ['/', 'e', 't', 'c'] = .read ['/', 'e', 't', 'c'] ∧ loadFromFile ['/', 'e', 't', 'c'] = .read ['/', 'e', 't', 'c'] := by
  decide +kernel

/-- **C251 is false of the code** the other way round: a file in the working directory is refused when it is named with a leading `./`
(`LoadLeavesModelFromFile`) or when its name holds two dots in a row (both checked loaders). -/
theorem harmless_refused (dir : List P) :
    place dir ['.', '/', 'm', '.', 't'] = dir ++ [['m', '.', 't']] ∧ loadLeavesModel ['.', '/', 'm', '.', 't'] = .refuse ∧
    place dir ['m', '.', '.', 't'] = dir ++ [['m', '.', '.', 't']] ∧ loadLeavesModel ['m', '.', '.', 't'] = .refuse ∧
    loadJSONModel ['m', '.', '.', 't'] = .refuse := by
  refine ⟨rfl, by decide +kernel, rfl, by decide +kernel, by decide +kernel⟩

/-- **C251** `LoadModelAutoDetect` loads what its path names if the path is clean and has no two dots in a row: as JSON exactly if the file
parses as JSON with a version, otherwise as text. -/
theorem autoDetect_clean {C M : Type} (fs : P → Option C) (version : C → Option String) (loadJSON loadText : C → Outcome M) (p : P)
    (hc : clean p = p) (hd : ¬ dotdot <:+: p) :
    (fs p = none → ∃ e, autoDetect fs version loadJSON loadText p = .err e) ∧
    ∀ c, fs p = some c → autoDetect fs version loadJSON loadText p =
      if (∃ v, version c = some v ∧ v ≠ "") then loadJSON c else loadText c := by
  have h1 := (opened_iff p).2.1.2 (by rw [hc]; exact hd)
  have h2 := (opened_iff p).2.2.2.1.2 ⟨hc, hd⟩
  rw [hc] at h1
  unfold autoDetect isJSONModel
  rw [hc, h1, h2]
  constructor
  · intro hn
    exact ⟨_, by simp only [Decision.run, hn]; rfl⟩
  · intro c hs
    simp only [Decision.run, hs]
    cases hv : version c with
    | none => simp
    | some v =>
      by_cases he : v = ""
      · simp [he]
      · simp [he]

/-- **C251 is false of the code**: whether `LoadModelAutoDetect` accepts a path depends on what is in the file — `./m` is loaded if it holds a
JSON model and refused if it holds a text model. -/
theorem autoDetect_uneven {C M : Type} (fs : P → Option C) (version : C → Option String) (loadJSON loadText : C → Outcome M) (c : C)
    (hf : fs ['m'] = some c) :
    ((∃ v, version c = some v ∧ v ≠ "") → autoDetect fs version loadJSON loadText ['.', '/', 'm'] = loadJSON c) ∧
    ((¬ ∃ v, version c = some v ∧ v ≠ "") → ∃ e, autoDetect fs version loadJSON loadText ['.', '/', 'm'] = .err e) := by
  have hc : clean ['.', '/', 'm'] = ['m'] := by decide +kernel
  have h1 : loadJSONModel ['.', '/', 'm'] = .read ['m'] := by decide +kernel
  have h2 : loadLeavesModel ['.', '/', 'm'] = .refuse := by decide +kernel
  unfold autoDetect isJSONModel
  rw [hc, h1, h2, hf]
  dsimp only
  constructor
  · rintro ⟨v, hv, hne⟩
    simp [Decision.run, hf, hv, hne]
  · intro hn
    refine ⟨.other "invalid file path", ?_⟩
    have hv : version c = none ∨ ∃ v, version c = some v := by cases version c <;> simp
    rcases hv with hv | ⟨v, hv⟩
    · simp [Decision.run, hv]
    · by_cases he : v = ""
      · simp [Decision.run, hv, he]
      · exact absurd ⟨v, hv, he⟩ hn

/-- the hypotheses are met -/
example : loadLeavesModel ['d', '/', 'a', '.', 't', 'x', 't'] = .read ['d', '/', 'a', '.', 't', 'x', 't'] ∧ rooted ['d', '/', 'a', '.', 't', 'x', 't'] = false := by decide +kernel
example : loadJSONModel ['.', '/', 'd', '/', '/', 'b', '/', '.', '.', '/', 'a', '.', 'j', 's', 'o', 'n'] = .read ['d', '/', 'a', '.', 'j', 's', 'o', 'n'] ∧ loadJSONModel ['.', '.', '/', 'a', '.', 'j', 's', 'o', 'n'] = .refuse := by decide +kernel
example : clean ['/', '.', '.', '/', 'a', '/', '.', '/', 'b', '/', '.', '.', '/', 'c'] = ['/', 'a', '/', 'c'] ∧ clean ([] : P) = ['.'] ∧ clean ['a', '/', '.', '.', '/', '.', '.'] = ['.', '.'] := by decide +kernel

/-- **C251** (law-free): a file is taken for a JSON model exactly if it can be read, parses, and has a version that is not empty. -/
theorem json_model_iff {C : Type} (fs : P → Option C) (version : C → Option String) (p : P) :
    isJSONModel fs version p = true ↔ ∃ c v, fs (clean p) = some c ∧ version c = some v ∧ v ≠ "" := by
  unfold isJSONModel
  cases h : fs (clean p) with
  | none => simp
  | some c =>
    dsimp only
    cases h2 : version c with
    | none => simp [h2]
    | some v => simp [h2]

end Scigo.LGB.Path
