import Verif.LGB.LoopLemmas

/-!
# Properties of `Tree.Predict` (C47)
-/

set_option linter.unusedSectionVars false

namespace Scigo.LGB

variable {α : Type _} [BEq α] [LE α] [DecidableLE α] [Zero α]

theorem nodeAt_some {t : Tree α} {id : Int} {n : Node α} (h : t.nodeAt id = some n) :
    0 ≤ id ∧ t.nodes[id.toNat]? = some n ∧ id.toNat < t.nodes.length := by
  unfold Tree.nodeAt at h
  split_ifs at h with hn
  refine ⟨by omega, h, ?_⟩
  by_contra hlt
  rw [List.getElem?_eq_none (by omega)] at h
  cases h

theorem nodeAt_nat (t : Tree α) (i : Nat) : t.nodeAt i = t.nodes[i]? := by
  unfold Tree.nodeAt
  rw [if_neg (by omega)]
  simp

theorem step_go_live {toInt : α → Int} {t : Tree α} {x : List α} {s s' : Int}
    (h : t.step toInt x s = .ok (.go s')) : 0 ≤ s ∧ s.toNat < t.nodes.length := by
  unfold Tree.step at h
  split at h
  · simp at h
  · next n hn => exact ⟨(nodeAt_some hn).1, (nodeAt_some hn).2.2⟩

/-- `predict` is what the loop returns, and reports a panic exactly when the loop runs for ever -/
theorem predict_returns (toInt : α → Int) (t : Tree α) (x : List α) (r : Outcome α)
    (h : Returns (t.step toInt x) 0 r) : t.predict toInt x = r := by
  unfold Tree.predict
  rw [loop_bound t.nodes.length Int.toNat (fun _ _ h => (step_go_live h).2) _ 0 r h]
  · rfl
  · intro s s' u u' h h' he
    have := step_go_live h
    have := step_go_live h'
    omega

theorem predict_diverges (toInt : α → Int) (t : Tree α) (x : List α)
    (h : loop (t.step toInt x) (t.nodes.length + 1) 0 = none) (n : Nat) :
    loop (t.step toInt x) n 0 = none := by
  by_contra hne
  obtain ⟨r, hr⟩ := Option.ne_none_iff_exists'.1 hne
  rw [loop_bound t.nodes.length Int.toNat (fun _ _ h => (step_go_live h).2) _ 0 r ⟨n, hr⟩] at h
  · cases h
  · intro s s' u u' h h' he
    have := step_go_live h
    have := step_go_live h'
    omega

theorem step_split (toInt : α → Int) (t : Tree α) (x : List α) (id : Int) (n : Node α) (s : Split α)
    (hn : t.nodeAt id = some n) (hl : n.isLeaf = false) (ha : Asks n s) (hf : s.feature < x.length) :
    t.step toInt x id = .ok (.go (if s.left toInt x then n.left else n.right)) := by
  have hfeat : ∀ f : Nat, n.feature = f → f < x.length → featureAt x n.feature = some (x.getD f 0) := by
    intro f hf hlt
    unfold featureAt
    rw [hf, if_neg (by omega)]
    simp [List.getElem?_eq_getElem hlt, hlt]
  unfold Tree.step
  rw [hn]
  simp only [hl, Bool.false_eq_true, if_false]
  cases ha with
  | num f hk hfe =>
    rw [hfeat f hfe hf]
    simp only [hk, Split.left, isNaN]
    by_cases hnan : (!(x.getD f 0 == x.getD f 0)) = true
    · simp only [hnan, if_true, Node.default]
    · simp only [hnan, if_false, decide_eq_true_eq, Bool.false_eq_true]
  | cat f hk hfe =>
    rw [hfeat f hfe hf]
    simp only [hk, Split.left, isNaN]
    by_cases hnan : (!(x.getD f 0 == x.getD f 0)) = true
    · simp only [hnan, if_true, Node.default]
    · simp only [hnan, if_false, decide_eq_true_eq, Bool.false_eq_true, List.contains_iff_mem]

theorem stores_returns (toInt : α → Int) (t : Tree α) (x : List α) (id : Int) (d : DTree α)
    (h : Stores t id d) (hf : d.Features x.length) :
    Returns (t.step toInt x) id (.ok (d.eval toInt x)) := by
  induction h with
  | outside id hn => exact returns_stop (by simp [Tree.step, hn, DTree.eval])
  | leaf id n hn hl => exact returns_stop (by simp [Tree.step, hn, hl, DTree.eval])
  | split id n s l r hn hl ha _ _ ihl ihr =>
    obtain ⟨h1, h2, h3⟩ := hf
    refine returns_go (step_split toInt t x id n s hn hl ha h1) ?_
    unfold DTree.eval
    split_ifs
    · exact ihl h2
    · exact ihr h3

theorem wellFormed_stores (k : Nat) (t : Tree α) (hw : WellFormed k t) (id : Int) :
    ∃ d, Stores t id d ∧ d.Features k := by
  -- downward induction on the index
  have key : ∀ m : Nat, ∀ id : Int, t.nodes.length ≤ id.toNat + m → ∃ d, Stores t id d ∧ d.Features k := by
    intro m
    induction m with
    | zero =>
      intro id hid
      refine ⟨.leaf 0, .outside id ?_, trivial⟩
      unfold Tree.nodeAt
      split_ifs
      · rfl
      · exact List.getElem?_eq_none (by omega)
    | succ m ih =>
      intro id hid
      rcases hn : t.nodeAt id with _ | n
      · exact ⟨.leaf 0, .outside id hn, trivial⟩
      · obtain ⟨h0, h1, h2⟩ := nodeAt_some hn
        rcases hl : n.isLeaf with _ | _
        · obtain ⟨hk, hf0, hfk, hleft, hright⟩ := hw id.toNat n h1 hl
          have sub : ∀ c : Int, (c < 0 ∨ ((id.toNat : Nat) : Int) < c) → ∃ d, Stores t c d ∧ d.Features k := by
            intro c hc
            rcases hc with hc | hc
            · exact ⟨.leaf 0, .outside c (by unfold Tree.nodeAt; rw [if_pos hc]), trivial⟩
            · exact ih c (by omega)
          obtain ⟨l, hl1, hl2⟩ := sub _ hleft
          obtain ⟨r, hr1, hr2⟩ := sub _ hright
          rcases hk with hk | hk
          · exact ⟨_, .split id n _ l r hn hl (.num n n.feature.toNat hk (by omega)) hl1 hr1,
              by show n.feature.toNat < k; omega, hl2, hr2⟩
          · exact ⟨_, .split id n _ l r hn hl (.cat n n.feature.toNat hk (by omega)) hl1 hr1,
              by show n.feature.toNat < k; omega, hl2, hr2⟩
        · exact ⟨_, .leaf id n hn hl, trivial⟩
  exact key t.nodes.length id (by omega)

theorem DTree.Features.mono {j k : Nat} (h : j ≤ k) {d : DTree α} (hd : d.Features j) : d.Features k := by
  induction d with
  | leaf => trivial
  | node s l r ihl ihr => exact ⟨lt_of_lt_of_le hd.1 h, ihl hd.2.1, ihr hd.2.2⟩

/-- exactly one path of a tree fits a sample, and `eval` is the value at its end -/
theorem paths_unique (toInt : α → Int) (x : List α) (d : DTree α) :
    ∃ p ∈ d.paths, Follows toInt x p.1 ∧ p.2 = d.eval toInt x ∧
      (d.paths[d.leafNo toInt x]? = some p) ∧
      ∀ q ∈ d.paths, Follows toInt x q.1 → q = p := by
  induction d with
  | leaf v => exact ⟨([], v), by simp [DTree.paths], by simp [Follows], rfl, rfl, by simp [DTree.paths]⟩
  | node s l r ihl ihr =>
    obtain ⟨p, hp, hfp, hvp, hnp, hup⟩ := ihl
    obtain ⟨q, hq, hfq, hvq, hnq, huq⟩ := ihr
    rcases hs : s.left toInt x with _ | _
    · refine ⟨((s, false) :: q.1, q.2), ?_, ?_, ?_, ?_, ?_⟩
      · exact List.mem_append_right _ (List.mem_map.2 ⟨q, hq, rfl⟩)
      · intro e he
        rcases List.mem_cons.1 he with e1 | e1
        · rw [e1]; exact hs
        · exact hfq e e1
      · simp [DTree.eval, hs, hvq]
      · simp only [DTree.leafNo, hs, Bool.false_eq_true, if_false, DTree.paths]
        rw [List.getElem?_append_right (by simp)]
        simp [hnq]
      · intro q' hq' hf'
        rcases List.mem_append.1 hq' with h | h
        · obtain ⟨p', _, rfl⟩ := List.mem_map.1 h
          have := hf' (s, true) (by simp)
          rw [hs] at this; cases this
        · obtain ⟨p', hp', rfl⟩ := List.mem_map.1 h
          rw [huq p' hp' (fun e he => hf' e (List.mem_cons_of_mem _ he))]
    · refine ⟨((s, true) :: p.1, p.2), ?_, ?_, ?_, ?_, ?_⟩
      · exact List.mem_append_left _ (List.mem_map.2 ⟨p, hp, rfl⟩)
      · intro e he
        rcases List.mem_cons.1 he with e1 | e1
        · rw [e1]; exact hs
        · exact hfp e e1
      · simp [DTree.eval, hs, hvp]
      · simp only [DTree.leafNo, hs, if_true, DTree.paths]
        have hlt : l.leafNo toInt x < l.paths.length := by
          by_contra hge
          rw [List.getElem?_eq_none (by omega)] at hnp
          cases hnp
        rw [List.getElem?_append_left (by simpa using hlt)]
        simp [hnp]
      · intro q' hq' hf'
        rcases List.mem_append.1 hq' with h | h
        · obtain ⟨p', hp', rfl⟩ := List.mem_map.1 h
          rw [hup p' hp' (fun e he => hf' e (List.mem_cons_of_mem _ he))]
        · obtain ⟨p', _, rfl⟩ := List.mem_map.1 h
          have := hf' (s, false) (by simp)
          rw [hs] at this; cases this

/-- **C47** For every tree whose children come after their parents, and every sample with enough
features, `Tree.Predict` ends, and returns the value of the one leaf whose path the sample follows. -/
theorem tree_predict_unique_leaf (toInt : α → Int) (k : Nat) (t : Tree α) (hw : WellFormed k t)
    (x : List α) (hx : k ≤ x.length) :
    ∃ d : DTree α, Stores t 0 d ∧
      ∃ p ∈ d.paths, Follows toInt x p.1 ∧ (∀ q ∈ d.paths, Follows toInt x q.1 → q = p) ∧
        Returns (t.step toInt x) 0 (.ok p.2) ∧ t.predict toInt x = .ok p.2 := by
  obtain ⟨d, hd, hf⟩ := wellFormed_stores k t hw 0
  obtain ⟨p, hp, hfp, hvp, _, hup⟩ := paths_unique toInt x d
  have hr := stores_returns toInt t x 0 d hd (hf.mono hx)
  rw [← hvp] at hr
  exact ⟨d, hd, p, hp, hfp, hup, hr, predict_returns toInt t x _ hr⟩

theorem asks_unique {n : Node α} {s s' : Split α} (h : Asks n s) (h' : Asks n s') : s = s' := by
  cases h with
  | num f hk hf =>
    cases h' with
    | num f' _ hf' => rw [hf] at hf'; simp at hf'; rw [hf']
    | cat f' hk' _ => rw [hk] at hk'; cases hk'
  | cat f hk hf =>
    cases h' with
    | num f' hk' _ => rw [hk] at hk'; cases hk'
    | cat f' _ hf' => rw [hf] at hf'; simp at hf'; rw [hf']

/-- a node array stores at most one tree -/
theorem stores_unique (t : Tree α) (id : Int) (d d' : DTree α) (h : Stores t id d) (h' : Stores t id d') :
    d = d' := by
  induction h generalizing d' with
  | outside id hn =>
    rcases h' with ⟨_, h1⟩ | ⟨_, n', h1, h2⟩ | ⟨_, n', s', l', r', h1, h2, h3, h4, h5⟩
    · rfl
    · rw [hn] at h1; cases h1
    · rw [hn] at h1; cases h1
  | leaf id n hn hl =>
    rcases h' with ⟨_, h1⟩ | ⟨_, n', h1, h2⟩ | ⟨_, n', s', l', r', h1, h2, h3, h4, h5⟩
    · rw [hn] at h1; cases h1
    · rw [hn] at h1; cases h1; rfl
    · rw [hn] at h1; cases h1; rw [hl] at h2; cases h2
  | split id n s l r hn hl ha _ _ ihl ihr =>
    rcases h' with ⟨_, h1⟩ | ⟨_, n', h1, h2⟩ | ⟨_, n', s', l', r', h1, h2, h3, h4, h5⟩
    · rw [hn] at h1; cases h1
    · rw [hn] at h1; cases h1; rw [hl] at h2; cases h2
    · rw [hn] at h1; cases h1
      rw [ihl l' h4, ihr r' h5]
      congr 1
      exact asks_unique ha h3

/-- a leaf -/
def lf (v : α) : Node α := ⟨-1, -1, .leaf, 0, 0, [], false, 0, v, 0, 0, 0⟩

/-- a numerical split -/
def sp (l r : Int) (f : Int) (thr : α) : Node α := ⟨l, r, .numerical, f, thr, [], true, 0, 0, 0, 0, 0⟩

/-- a tree with two splits and three leaves -/
def exTree : Tree Rat :=
  { nodes := [sp 1 2 0 (1/2), lf 3, sp 3 4 1 2, lf 5, lf 7], leafValues := [], numLeaves := 3,
    shrinkage := 1, internalValue := 0 }

theorem exTree_wf : WellFormed 2 exTree := by
  intro i n hn hl
  have : i = 0 ∨ i = 1 ∨ i = 2 ∨ i = 3 ∨ i = 4 ∨ 5 ≤ i := by omega
  rcases this with rfl | rfl | rfl | rfl | rfl | h
  · cases hn; exact ⟨.inl rfl, by decide, by decide, .inr (by decide), .inr (by decide)⟩
  · cases hn; exact absurd hl (by decide)
  · cases hn; exact ⟨.inl rfl, by decide, by decide, .inr (by decide), .inr (by decide)⟩
  · cases hn; exact absurd hl (by decide)
  · cases hn; exact absurd hl (by decide)
  · rw [List.getElem?_eq_none (by simpa [exTree] using h)] at hn; cases hn

example : exTree.predict Rat.floor [1, 3] = .ok 7 := by decide +kernel
example : exTree.predict Rat.floor [0, 3] = .ok 3 := by decide +kernel

/-- without the hypothesis a tree can run for ever: a node that is its own left child -/
example (n : Nat) : loop (Tree.step Rat.floor ⟨[sp 0 1 0 (1 : Rat), lf 3], [], 2, 1, 0⟩ [0]) n 0 = none :=
  predict_diverges _ _ _ (by decide +kernel) n

end Scigo.LGB
