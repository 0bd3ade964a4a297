import Verif.LGB.DumpProps

/-!
# C192, C193: leaf numbers and raw scores of loaded models
-/

set_option linter.unusedSectionVars false

namespace Scigo.LGB

variable {α : Type _}

section

variable [BEq α] [LE α] [DecidableLE α] [LT α] [DecidableLT α] [Zero α] [Neg α]

/-- the answers a sample gives on its way down -/
def FTree.answers (z : α) (x : List α) : FTree α → List Bool
  | .leaf _ => []
  | .node f thr m dl l r =>
    if goesLeft z m dl thr (x.getD f 0) then true :: l.answers z x else false :: r.answers z x

/-- the values met on the way are not in doubt: NaN only where `missing_type` is NaN, and with `missing_type` Zero
values are 0 or not close to 0 -/
def FTree.Plain (z : α) (x : List α) : FTree α → Prop
  | .leaf _ => True
  | .node f _ m _ l r =>
    (m = .nan ∨ ((x.getD f 0 == x.getD f 0) = true ∧
      (m = .zero → ((x.getD f 0 == 0) = true ↔ (-z < x.getD f 0 ∧ x.getD f 0 ≤ z))))) ∧ l.Plain z x ∧ r.Plain z x

/-- is a leaf -/
def FTree.isLeaf : FTree α → Bool
  | .leaf _ => true
  | .node .. => false

/-- number of leaves -/
def FTree.leaves : FTree α → Nat
  | .leaf _ => 1
  | .node _ _ _ _ l r => l.leaves + r.leaves

/-- leaves numbered from the root down, left before right (a tree in which no split has two splits below it) -/
def FTree.downNo (z : α) (x : List α) : FTree α → Nat
  | .leaf _ => 0
  | .node f thr m dl l r =>
    if goesLeft z m dl thr (x.getD f 0) then
      if l.isLeaf then 0 else (if r.isLeaf then 1 else 0) + l.downNo z x
    else
      (if l.isLeaf then 1 else 0) + if r.isLeaf then 0 else r.downNo z x

theorem downNo_lt (z : α) (x : List α) (t : FTree α) (hc : t.Comb) : t.downNo z x < t.leaves := by
  induction t with
  | leaf v => simp [FTree.downNo, FTree.leaves]
  | node f thr m dl l r ihl ihr =>
    obtain ⟨hone, hl, hr⟩ := hc
    have ihl := ihl hl
    have ihr := ihr hr
    unfold FTree.downNo FTree.leaves
    cases l <;> cases r <;> simp only [FTree.isLeaf, FTree.leaves] at * <;> split_ifs <;> simp_all <;> omega

/-- the numbers tell the leaves apart -/
theorem downNo_inj (z : α) (x x' : List α) (t : FTree α) (hc : t.Comb) :
    t.downNo z x = t.downNo z x' ↔ t.answers z x = t.answers z x' := by
  induction t with
  | leaf v => simp [FTree.downNo, FTree.answers]
  | node f thr m dl l r ihl ihr =>
    obtain ⟨hone, hl, hr⟩ := hc
    have ihl := ihl hl
    have ihr := ihr hr
    unfold FTree.downNo FTree.answers
    by_cases h1 : goesLeft z m dl thr (x.getD f 0) = true <;> by_cases h2 : goesLeft z m dl thr (x'.getD f 0) = true <;>
      simp only [h1, h2, if_true, if_false, List.cons.injEq, true_and, Bool.false_eq_true, false_and] <;>
      rcases hone with ⟨v, rfl⟩ | ⟨v, rfl⟩ <;> simp only [FTree.isLeaf, if_true] <;>
      first
      | (simp [FTree.answers]; done)
      | (cases r <;> simp_all [FTree.isLeaf, FTree.answers, FTree.downNo] <;> omega)
      | (cases l <;> simp_all [FTree.isLeaf, FTree.answers, FTree.downNo] <;> omega)

/-- the arrays hold a tree; the list gives the leaf references from left to right -/
inductive LRefs (nodes : List (LNode α)) : Bool → Nat → FTree α → List Nat → Prop
  | leaf (k : Nat) (v : α) : LRefs nodes true k (.leaf v) [k]
  | node (idx : Nat) (n : LNode α) (f : Nat) (thr : α) (m : Missing) (dl : Bool) (l r : FTree α) (rl rr : List Nat) :
      nodes[idx]? = some n → n.Asks f thr m dl → LRefs nodes n.leftLeaf n.left l rl →
      LRefs nodes n.rightLeaf (if n.rightLeaf then n.right else idx + 1) r rr →
      LRefs nodes false idx (.node f thr m dl l r) (rl ++ rr)

theorem leafLeft_eq (toU32 : α → Int) (z : α) (n : LNode α) (f : Nat) (thr : α) (m : Missing) (dl : Bool)
    (h : n.Asks f thr m dl) (v : α)
    (hv : m = .nan ∨ ((v == v) = true ∧ (m = .zero → ((v == 0) = true ↔ (-z < v ∧ v ≤ z))))) :
    n.leafLeft toU32 v = goesLeft z m dl thr v := by
  obtain ⟨-, h2, h3, h4, h5, h6⟩ := h
  unfold LNode.leafLeft goesLeft isNaN
  rw [h3, h4, h5, h6, h2]
  cases m with
  | nan => simp
  | none =>
    rcases hv with h | ⟨h, -⟩
    · cases h
    · simp [h]
  | zero =>
    rcases hv with h | ⟨h, hz⟩
    · cases h
    · have hz := hz rfl
      by_cases h0 : (v == 0) = true
      · have := hz.1 h0
        simp [h, h0, this]
      · have : ¬ (-z < v ∧ v ≤ z) := fun hc => h0 (hz.2 hc)
        simp only [Bool.not_eq_true] at h0
        simp [h, h0, this]

theorem LRefs.flag {nodes : List (LNode α)} {b : Bool} {i : Nat} {t : FTree α} {refs : List Nat} (h : LRefs nodes b i t refs) :
    b = t.isLeaf ∧ (b = true → refs = [i]) := by
  cases h <;> simp [FTree.isLeaf]

theorem number_append_left (s : Seen) (i : Nat) (h : i ∉ s) (rest : List Nat) : Seen.number (s ++ i :: rest) i = s.length := by
  unfold Seen.number
  rw [List.idxOf_append_of_notMem h]
  simp

theorem refs_walk (toU32 : α → Int) (z : α) (t : LTree α) (x : List α) (b : Bool) (idx : Nat) (d : FTree α) (refs : List Nat)
    (h : LRefs t.nodes b idx d refs) (hx : d.Features x.length) (hc : d.Comb) (hclear : d.Plain z x) (hnd : refs.Nodup)
    (seen : Seen) (hs : ∀ r ∈ refs, r ∉ seen) (hb : b = false) :
    Returns (t.leafStep toU32 x) (idx, seen) (.ok (seen.length + d.downNo z x)) := by
  induction h generalizing seen with
  | leaf k v => cases hb
  | node idx n f thr m dl l r rl rr hn ha hl hr ihl ihr =>
    obtain ⟨hf, hfl, hfr⟩ := hx
    obtain ⟨hone, hcl, hcr⟩ := hc
    obtain ⟨hv, hkl, hkr⟩ := hclear
    obtain ⟨hndl, hndr, hdisj⟩ := List.nodup_append.1 hnd
    have hxf : x[n.feature]? = some (x.getD f 0) := by
      rw [ha.1, List.getElem?_eq_getElem hf, List.getD_eq_getElem?_getD, List.getElem?_eq_getElem hf]; rfl
    obtain ⟨fl, gl⟩ := hl.flag
    obtain ⟨fr, gr⟩ := hr.flag
    set seen' : Seen := (seen.meet n.leftLeaf n.left).meet n.rightLeaf n.right with hseen'
    have hstep : t.leafStep toU32 x (idx, seen) =
        if goesLeft z m dl thr (x.getD f 0) then
          if n.leftLeaf then .ok (.stop (seen'.number n.left)) else .ok (.go (n.left, seen'))
        else if n.rightLeaf then .ok (.stop (seen'.number n.right)) else .ok (.go (idx + 1, seen')) := by
      unfold LTree.leafStep
      dsimp only
      rw [hn]
      dsimp only
      rw [hxf]
      dsimp only
      rw [leafLeft_eq toU32 z n f thr m dl ha _ hv]
    -- the leaves met so far
    have e1 : seen.meet n.leftLeaf n.left = if l.isLeaf then seen ++ [n.left] else seen := by
      unfold Seen.meet
      rw [← fl]
      by_cases hL : n.leftLeaf = true
      · have : n.left ∉ seen := hs _ (by rw [gl hL]; simp)
        simp [hL, this]
      · simp [hL]
    have hright : n.rightLeaf = true → rr = [n.right] := by
      intro hR
      have := gr hR
      rwa [if_pos hR] at this
    have e2 : seen' = (if l.isLeaf then seen ++ [n.left] else seen) ++ (if r.isLeaf then [n.right] else []) := by
      rw [hseen', e1]
      unfold Seen.meet
      rw [← fr]
      by_cases hR : n.rightLeaf = true
      · have hrr := hright hR
        have h1 : n.right ∉ seen := hs _ (by rw [hrr]; simp)
        have h2 : n.right ∉ (if l.isLeaf then seen ++ [n.left] else seen) := by
          rw [← fl]
          by_cases hL : n.leftLeaf = true
          · rw [if_pos hL]
            simp only [List.mem_append, List.mem_singleton, not_or]
            refine ⟨h1, fun he => ?_⟩
            exact hdisj n.left (by rw [gl hL]; simp) n.right (by rw [hrr]; simp) he.symm
          · rw [if_neg hL]; exact h1
        simp [hR, h2]
      · simp [hR]
    unfold FTree.downNo
    by_cases hg : goesLeft z m dl thr (x.getD f 0) = true
    · rw [if_pos hg] at hstep ⊢
      by_cases hL : n.leftLeaf = true
      · rw [if_pos hL] at hstep
        rw [fl] at hL
        have hnl : n.left ∉ seen := hs _ (by rw [gl (by rw [fl]; exact hL)]; simp)
        rw [if_pos hL]
        rw [if_pos hL] at e2
        have : seen'.number n.left = seen.length := by
          rw [e2, List.append_assoc, List.singleton_append]
          exact number_append_left _ _ hnl _
        rw [this] at hstep
        simpa using returns_stop hstep
      · rw [if_neg hL] at hstep
        have hL' : l.isLeaf = false := by rw [← fl]; simpa using hL
        have hR' : r.isLeaf = true := by
          rcases hone with ⟨v, hv⟩ | ⟨v, hv⟩
          · rw [hv] at hL'; cases hL'
          · rw [hv]; rfl
        have hrr := hright (by rw [fr]; exact hR')
        rw [hL', hR'] at e2 ⊢
        simp only [Bool.false_eq_true, if_false, if_true] at e2 ⊢
        refine returns_go hstep ?_
        have := ihl hfl hcl hkl hndl seen' (by
          intro q hq
          rw [e2]
          simp only [List.mem_append, List.mem_singleton, not_or]
          refine ⟨hs q (by simp [hq]), fun he => ?_⟩
          exact hdisj q hq n.right (by rw [hrr]; simp) he) (by simpa using hL)
        rw [e2] at this ⊢
        simpa [Nat.add_assoc] using this
    · rw [if_neg hg] at hstep ⊢
      by_cases hR : n.rightLeaf = true
      · rw [if_pos hR] at hstep
        have hrr := hright hR
        have h1 : n.right ∉ seen := hs _ (by rw [hrr]; simp)
        rw [fr] at hR
        rw [if_pos hR]
        rw [if_pos hR] at e2
        by_cases hL : l.isLeaf = true
        · rw [if_pos hL] at e2 ⊢
          have hne : n.right ≠ n.left := fun he =>
            hdisj n.left (by rw [gl (by rw [fl]; exact hL)]; simp) n.right (by rw [hrr]; simp) he.symm
          have : seen'.number n.right = seen.length + 1 := by
            rw [e2, number_append_left _ _ (by simp [h1, hne])]
            simp
          rw [this] at hstep
          simpa using returns_stop hstep
        · rw [if_neg hL] at e2 ⊢
          have : seen'.number n.right = seen.length := by
            rw [e2]; exact number_append_left _ _ h1 _
          rw [this] at hstep
          simpa using returns_stop hstep
      · rw [if_neg hR] at hstep
        have hR' : r.isLeaf = false := by rw [← fr]; simpa using hR
        have hL' : l.isLeaf = true := by
          rcases hone with ⟨v, hv⟩ | ⟨v, hv⟩
          · rw [hv]; rfl
          · rw [hv] at hR'; cases hR'
        have hll := gl (by rw [fl]; exact hL')
        rw [hL', hR'] at e2 ⊢
        simp only [Bool.false_eq_true, if_false, if_true, List.append_nil] at e2 ⊢
        refine returns_go hstep ?_
        have hRf : n.rightLeaf = false := by simpa using hR
        have := ihr hfr hcr hkr hndr seen' (by
          intro q hq
          rw [e2]
          simp only [List.mem_append, List.mem_singleton, not_or]
          refine ⟨hs q (by simp [hq]), fun he => ?_⟩
          exact hdisj n.left (by rw [hll]; simp) q hq he.symm) hRf
        rw [if_neg (by simp [hRf])] at this
        rw [e2] at this ⊢
        simpa [Nat.add_assoc] using this

/-- a loop that is followed round by round by a second one ends when the second one does -/
theorem loop_shadow {σ τ β γ : Type _} (step : σ → Outcome (Move σ β)) (shadow : τ → Outcome (Move τ γ)) (key : σ → τ)
    (h1 : ∀ s s', step s = .ok (.go s') → shadow (key s) = .ok (.go (key s')))
    (h2 : ∀ s k, shadow (key s) = .ok (.go k) → ∃ s', step s = .ok (.go s')) (n : Nat) (s : σ) :
    loop step n s = none ↔ loop shadow n (key s) = none := by
  induction n generalizing s with
  | zero => simp [loop]
  | succ n ih =>
    by_cases hg : ∃ s', step s = .ok (.go s')
    · obtain ⟨s', hs'⟩ := hg
      unfold loop
      rw [hs', h1 s s' hs']
      exact ih s'
    · have hk : ∀ k, shadow (key s) ≠ .ok (.go k) := fun k hk => hg (h2 s k hk)
      have hg' : ∀ s', step s ≠ .ok (.go s') := fun s' h => hg ⟨s', h⟩
      unfold loop
      generalize step s = a at hg'
      generalize shadow (key s) = c at hk
      rcases a with (_ | s') | _ | _ <;> rcases c with (_ | k) | _ | _ <;> simp_all

/-- the rounds without the leaf numbers -/
def LTree.keyStep (toU32 : α → Int) (t : LTree α) (x : List α) (i : Nat) : Outcome (Move Nat Unit) :=
  match t.leafStep toU32 x (i, []) with
  | .ok (.go s) => .ok (.go s.1)
  | .ok (.stop _) => .ok (.stop ())
  | .err e => .err e
  | .panic p => .panic p

theorem keyStep_eq (toU32 : α → Int) (t : LTree α) (x : List α) (s : Nat × Seen) :
    t.keyStep toU32 x s.1 = match t.leafStep toU32 x s with
      | .ok (.go s) => .ok (.go s.1)
      | .ok (.stop _) => .ok (.stop ())
      | .err e => .err e
      | .panic p => .panic p := by
  unfold LTree.keyStep LTree.leafStep
  dsimp only
  rcases t.nodes[s.1]? with _ | n
  · rfl
  · dsimp only
    rcases x[n.feature]? with _ | v
    · rfl
    · dsimp only
      split_ifs <;> rfl

theorem keyStep_live {toU32 : α → Int} {t : LTree α} {x : List α} {s s' : Nat}
    (h : t.keyStep toU32 x s = .ok (.go s')) : s < t.nodes.length := by
  by_contra hn
  unfold LTree.keyStep LTree.leafStep at h
  dsimp only at h
  rw [List.getElem?_eq_none (by omega)] at h
  cases h

theorem predictLeaf_returns (toU32 : α → Int) (t : LTree α) (x : List α) (r : Outcome Nat) (hne : t.nodes ≠ [])
    (h : Returns (t.leafStep toU32 x) (0, []) r) : t.predictLeaf toU32 x = r := by
  have shadow := loop_shadow (t.leafStep toU32 x) (t.keyStep toU32 x) Prod.fst
    (fun s s' hs => by rw [keyStep_eq, hs])
    (fun s k hk => by
      rw [keyStep_eq] at hk
      generalize t.leafStep toU32 x s = a at hk
      rcases a with (_ | s') | _ | _ <;> simp at hk
      exact ⟨s', rfl⟩)
  obtain ⟨n, hn⟩ := h
  have h1 : loop (t.keyStep toU32 x) n 0 ≠ none := by
    intro hc
    rw [← (shadow n (0, []))] at hc
    rw [hn] at hc; cases hc
  obtain ⟨r', hr'⟩ := Option.ne_none_iff_exists'.1 h1
  have h2 := loop_bound t.nodes.length (fun k : Nat => k) (fun _ _ h => keyStep_live h) (fun _ _ _ _ _ _ h => h) 0 r' ⟨n, hr'⟩
  have h3 : loop (t.leafStep toU32 x) (t.nodes.length + 1) (0, []) ≠ none := by
    intro hc
    rw [shadow] at hc
    rw [h2] at hc; cases hc
  obtain ⟨r'', hr''⟩ := Option.ne_none_iff_exists'.1 h3
  have : r'' = r := returns_unique ⟨_, hr''⟩ ⟨n, hn⟩
  unfold LTree.predictLeaf
  rw [if_neg (by simpa using hne), hr'', this]
  rfl

/-- **C192**, what holds (law-free): in a compiled tree in which no split has two splits below it and every leaf has its
own place, and for samples whose values are not in doubt, the leaf number is below the number of leaves, and two samples get
the same number exactly when they fall into the same leaf. Missing: other trees (`leaf_number_shared`), NaN and values close to
0 (`leaf_number_missing`). -/
theorem leaf_number_partial (toU32 : α → Int) (z : α) (t : LTree α) (d : FTree α) (refs : List Nat)
    (h : LRefs t.nodes false 0 d refs) (hnd : refs.Nodup) (hc : d.Comb) (x : List α) (hx : d.Features x.length)
    (hclear : d.Plain z x) :
    ∃ k, t.predictLeaf toU32 x = .ok k ∧ k < d.leaves ∧
      ∀ x' : List α, d.Features x'.length → d.Plain z x' →
        (t.predictLeaf toU32 x' = .ok k ↔ d.answers z x' = d.answers z x) := by
  have hne : t.nodes ≠ [] := by
    intro he
    cases h with
    | node _ _ _ _ _ _ _ _ _ _ hn => rw [he] at hn; cases hn
  have key : ∀ x : List α, d.Features x.length → d.Plain z x → t.predictLeaf toU32 x = .ok (d.downNo z x) := by
    intro x hx hclear
    refine predictLeaf_returns toU32 t x _ hne ?_
    simpa using refs_walk toU32 z t x false 0 d refs h hx hc hclear hnd [] (by simp) rfl
  refine ⟨_, key x hx hclear, downNo_lt z x d hc, fun x' hx' hclear' => ?_⟩
  rw [key x' hx' hclear', Outcome.ok.injEq]
  exact downNo_inj z x' x d hc

end

/-- what `buildNodes` leaves behind for a subtree, with the places of its leaves -/
theorem build_refs [Zero α] (ofInt : Int → α) (j : LJson α) (t : FTree α) (h : JsonTree j t) (hc : t.Comb) :
    ∀ (ns : List (LNode α)) (ls : List α), ∃ (seg : List (LNode α)) (lseg : List α) (b : Built),
      j.build ofInt (ns, ls) = ((ns ++ seg, ls ++ lseg), b) ∧ lseg.length = t.leaves ∧
      ((b = .leaf ls.length ∧ seg = [] ∧ ∃ v, t = .leaf v) ∨
       (b = .node ns.length ∧ (∀ v, t ≠ .leaf v) ∧ ∀ pre post, pre.length = ns.length →
          LRefs (pre ++ (seg ++ post)) false ns.length t (List.range' ls.length t.leaves))) := by
  induction h with
  | leaf f t c si m dl v =>
    intro ns ls
    exact ⟨[], [v], .leaf ls.length, by simp [LJson.build, LJson.isLeaf], rfl, Or.inl ⟨rfl, rfl, v, rfl⟩⟩
  | node f t si m dl v jl jr l r hl hr ihl ihr =>
    intro ns ls
    obtain ⟨hone, hcl, hcr⟩ := hc
    set n : LNode α := LJson.fresh ofInt f t false si m dl with hn
    have hnl : (LJson.node f t false si m dl v jl jr).isLeaf = false := by
      cases hl <;> rfl
    obtain ⟨segL, lsegL, bL, hbL, hlenL, hL⟩ := ihl hcl (ns ++ [n]) ls
    obtain ⟨segR, lsegR, bR, hbR, hlenR, hR⟩ := ihr hcr (ns ++ [n] ++ segL) (ls ++ lsegL)
    set n' := n.withChildren ns.length bL bR with hn'
    refine ⟨n' :: segL ++ segR, lsegL ++ lsegR, .node ns.length, ?_, by simp [FTree.leaves, hlenL, hlenR],
      Or.inr ⟨rfl, by simp, ?_⟩⟩
    · unfold LJson.build
      rw [if_neg (by simp [hnl])]
      simp only [← hn, hbL, hbR, ← hn']
      simp [List.append_assoc]
    · intro pre post hpre
      have hasks : n'.Asks f t (Missing.ofBits m) dl := by
        have h1 : (m == 1) = decide (Missing.ofBits m = .zero) ∧ (m == 2) = decide (Missing.ofBits m = .nan) := by
          match m with
          | 0 => exact ⟨rfl, rfl⟩
          | 1 => exact ⟨rfl, rfl⟩
          | 2 => exact ⟨rfl, rfl⟩
          | k + 3 => exact ⟨rfl, rfl⟩
        rw [hn', hn]
        cases bL <;> cases bR <;>
          exact ⟨rfl, rfl, rfl, rfl, h1.1, h1.2⟩
      have hrange : List.range' ls.length (FTree.leaves (.node f t (Missing.ofBits m) dl l r)) =
          List.range' ls.length l.leaves ++ List.range' (ls ++ lsegL).length r.leaves := by
        rw [List.length_append, hlenL, FTree.leaves, List.range'_append_1]
      rw [hrange]
      refine .node _ n' _ _ _ _ _ _ _ _ (by simp [← hpre]) hasks ?_ ?_
      · rcases hL with ⟨hb, hs, w, hw⟩ | ⟨hb, -, hk⟩
        · have e1 : n'.leftLeaf = true := by rw [hn', hb]; cases bR <;> rfl
          have e2 : n'.left = ls.length := by rw [hn', hb]; cases bR <;> rfl
          rw [e1, e2, hw]
          exact .leaf _ _
        · have e1 : n'.leftLeaf = false := by rw [hn', hb]; cases bR <;> rfl
          have e2 : n'.left = ns.length + 1 := by rw [hn', hb]; cases bR <;> simp [LNode.withChildren]
          rw [e1, e2]
          have := hk (pre ++ [n']) (segR ++ post) (by simp [hpre])
          simpa [List.append_assoc] using this
      · rcases hR with ⟨hb, hs, w, hw⟩ | ⟨hb, hnot, hk⟩
        · have e1 : n'.rightLeaf = true := by rw [hn', hb]; rfl
          have e2 : n'.right = (ls ++ lsegL).length := by rw [hn', hb]; rfl
          rw [e1, e2, hw]
          exact .leaf _ _
        · -- the right child is a split, so the left one is a leaf and takes no room
          have hleft : ∃ w, l = .leaf w := by
            rcases hone with h | ⟨w, h⟩
            · exact h
            · exact absurd h (hnot w)
          obtain ⟨w, hw⟩ := hleft
          have hsegL : segL = [] := by
            rcases hL with ⟨-, hs, -⟩ | ⟨-, hno, -⟩
            · exact hs
            · exact absurd hw (hno w)
          have e1 : n'.rightLeaf = false := by rw [hn', hb]; cases bL <;> rfl
          rw [e1]
          have := hk (pre ++ [n']) post (by simp [hpre, hsegL])
          subst hsegL
          simpa [List.append_assoc] using this

section

variable [BEq α] [LE α] [DecidableLE α] [LT α] [DecidableLT α] [Zero α] [Neg α]

/-- **C192**, what holds for models loaded from JSON files: see `leaf_number_partial`. -/
theorem json_leaf_number_partial (toU32 : α → Int) (ofInt : Int → α) (z : α) (j : LJson α) (d : FTree α) (hj : JsonTree j d)
    (hc : d.Comb) (x : List α) (hx : d.Features x.length) (hclear : d.Plain z x) :
    ∃ k, (j.convert ofInt).predictLeaf toU32 x = .ok k ∧ k < d.leaves ∧
      ∀ x' : List α, d.Features x'.length → d.Plain z x' →
        ((j.convert ofInt).predictLeaf toU32 x' = .ok k ↔ d.answers z x' = d.answers z x) := by
  cases hj with
  | leaf f t c si m dl v =>
    refine ⟨0, by simp [LJson.convert, LJson.isLeaf, LTree.predictLeaf], by simp [FTree.leaves], fun x' _ _ => ?_⟩
    simp [LJson.convert, LJson.isLeaf, LTree.predictLeaf, FTree.answers]
  | node f t si m dl v jl jr l r hl hr =>
    obtain ⟨seg, lseg, b, hb, -, hcase⟩ := build_refs ofInt _ _ (.node f t si m dl v jl jr l r hl hr) hc [] []
    have hnl : (LJson.node f t false si m dl v jl jr).isLeaf = false := by
      cases hl <;> rfl
    rcases hcase with ⟨-, -, w, hw⟩ | ⟨-, -, hk⟩
    · cases hw
    · unfold LJson.convert
      simp only
      rw [if_neg (by simp [hnl]), hb]
      refine leaf_number_partial toU32 z _ _ _ (by simpa using hk [] [] rfl) (List.nodup_range' ..) hc x hx hclear

end

/-- the arrays of a text file with two splits below the root -/
def fullArrays : TextArrays ℚ where
  numLeaves := 4
  leafValue := [10, 20, 30, 40]
  left := [1, -1, -3]
  right := [2, -2, -4]
  decisionType := [2, 2, 2]
  splitFeature := [0, 1, 1]
  threshold := [0, 0, 0]
  internalValue := [0, 0, 0]

/-- **C192** is false: in a tree with two splits below the root, samples falling into different leaves get the same number -/
theorem leaf_number_shared : ∃ T, fullArrays.read 0 = .ok T ∧
    T.predict Rat.floor 0 [-1, -1] = .ok 10 ∧ T.predict Rat.floor 0 [1, -1] = .ok 30 ∧
    T.predictLeaf Rat.floor [-1, -1] = .ok 0 ∧ T.predictLeaf Rat.floor [1, -1] = .ok 0 := by
  refine ⟨_, rfl, ?_, ?_, ?_, ?_⟩ <;> decide +kernel

/-- a stump: values at most 3 go left -/
def nanJson : LJson NaNInt :=
  .node 0 (.num 3) false [] 0 false 0 (.node 0 0 false [] 0 false (.num 10) .nil .nil)
    (.node 0 0 false [] 0 false (.num 20) .nil .nil)

/-- **C192** is false: where `missing_type` is not NaN, a missing value is predicted like 0 but gets the number of the right
leaf -/
theorem leaf_number_missing :
    (nanJson.convert NaNInt.num).predict (fun _ => 0) (.num 0) [.nan] = .ok (.num 10) ∧
    (nanJson.convert NaNInt.num).predict (fun _ => 0) (.num 0) [.num 0] = .ok (.num 10) ∧
    (nanJson.convert NaNInt.num).predictLeaf (fun _ => 0) [.nan] = .ok 1 ∧
    (nanJson.convert NaNInt.num).predictLeaf (fun _ => 0) [.num 0] = .ok 0 := by
  refine ⟨?_, ?_, ?_, ?_⟩ <;> decide +kernel

/-- a tree of depth two, loaded from JSON -/
def combJson : LJson ℚ :=
  .node 0 0 false [] 0 true 0 (.node 0 0 false [] 0 false 1 .nil .nil)
    (.node 1 0 false [] 2 true 0 (.node 0 0 false [] 0 false 3 .nil .nil) (.node 0 0 false [] 0 false 4 .nil .nil))

example : ∃ k, (combJson.convert (fun i => (i : ℚ))).predictLeaf Rat.floor [1, 1] = .ok k ∧
    (combJson.convert (fun i => (i : ℚ))).predictLeaf Rat.floor [2, 5] = .ok k ∧
    (combJson.convert (fun i => (i : ℚ))).predictLeaf Rat.floor [2, -5] ≠ .ok k := by
  have clear : ∀ x : List ℚ, FTree.Plain 0 x (.node 0 0 .none true (.leaf 1) (.node 1 0 .nan true (.leaf 3) (.leaf 4))) := by
    intro x
    exact ⟨.inr ⟨by simp, by simp⟩, trivial, .inl rfl, trivial, trivial⟩
  have feat : ∀ a b : ℚ, FTree.Features (α := ℚ) [a, b].length
      (.node 0 0 .none true (.leaf 1) (.node 1 0 .nan true (.leaf 3) (.leaf 4))) := by
    intro a b
    exact ⟨by simp, trivial, by simp, trivial, trivial⟩
  obtain ⟨k, h1, -, h2⟩ := json_leaf_number_partial Rat.floor (fun i => (i : ℚ)) 0 combJson
    (.node 0 0 .none true (.leaf 1) (.node 1 0 .nan true (.leaf 3) (.leaf 4)))
    (.node _ _ _ _ _ _ _ _ _ _ (.leaf ..) (.node 1 0 [] 2 true 0 _ _ _ _ (.leaf ..) (.leaf ..)))
    ⟨Or.inl ⟨_, rfl⟩, trivial, Or.inl ⟨_, rfl⟩, trivial, trivial⟩ [1, 1] (feat 1 1) (clear _)
  refine ⟨k, h1, (h2 _ (feat _ _) (clear _)).2 (by decide +kernel), ?_⟩
  rw [Ne, h2 _ (feat _ _) (clear _)]
  decide +kernel

/-! ## C193: raw scores of the two entry points -/

section

variable [BEq α] [LE α] [DecidableLE α] [LT α] [DecidableLT α] [Zero α] [Neg α] [Add α] [Sub α] [One α] [Div α]

/-- **C193**, what holds (law-free): for at most two classes, or without an initial score, `PredictRawScore` of the model and
`PredictRaw` of its predictor return the same (or fail alike). Missing: `raw_score_init_multiclass`. -/
theorem raw_score_eq_partial (L : LNum α) (m : LModel α) (x : List α) (h : m.numClass ≤ 2 ∨ m.initScore = 0) :
    m.rawScore L x = m.predictRaw L x := by
  unfold LModel.rawScore LModel.predictRaw
  by_cases hm : 2 < m.numClass
  · rcases h with h | h
    · omega
    · rw [if_pos hm, if_pos hm, h]
  · rw [if_neg hm, if_neg hm]

end

/-- a model with three classes and an initial score -/
def triModel : LModel ℚ := ⟨[⟨[], [1], 1 / 2⟩, ⟨[], [2], 0⟩, ⟨[], [3], 0⟩], 3, "multiclass", 1 / 2, 1⟩

/-- **C193** is false: with three classes the model leaves the initial score out, its predictor adds it -/
theorem raw_score_init_multiclass :
    triModel.rawScore ratLNum [0] = .ok [1, 2, 3] ∧ triModel.predictRaw ratLNum [0] = .ok [3 / 2, 5 / 2, 7 / 2] := by
  constructor <;> decide +kernel

example : initModel.rawScore ratLNum [0] = .ok [7 / 2] ∧ initModel.predictRaw ratLNum [0] = .ok [7 / 2] := by
  refine ⟨?_, by decide +kernel⟩
  rw [raw_score_eq_partial _ _ _ (.inl (by decide))]
  decide +kernel

end Scigo.LGB
