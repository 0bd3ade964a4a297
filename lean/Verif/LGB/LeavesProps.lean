import Verif.LGB.LeavesSpec
import Verif.LGB.LoopLemmas
import Mathlib.Tactic.SplitIfs
import Mathlib.Data.Rat.Floor

/-!
# The compilers to leaves trees (C50, C51)
-/

set_option linter.unusedSectionVars false

namespace Scigo.LGB

variable {α : Type _}

/-! ## What a compiled tree holds -/

/-- the compiled node asks LightGBM's question -/
def LNode.Asks (n : LNode α) (f : Nat) (thr : α) (m : Missing) (dl : Bool) : Prop :=
  n.feature = f ∧ n.threshold = thr ∧ n.categorical = false ∧ n.defaultLeft = dl ∧
  (n.missingZero = decide (m = .zero)) ∧ (n.missingNan = decide (m = .nan))

/-- the compiled arrays hold a tree at a reference (leaf flag and index) -/
inductive LHolds (nodes : List (LNode α)) (leaves : List α) : Bool → Nat → FTree α → Prop
  | leaf (k : Nat) (v : α) : leaves[k]? = some v → LHolds nodes leaves true k (.leaf v)
  | node (idx : Nat) (n : LNode α) (f : Nat) (thr : α) (m : Missing) (dl : Bool) (l r : FTree α) :
      nodes[idx]? = some n → n.Asks f thr m dl →
      LHolds nodes leaves n.leftLeaf n.left l →
      LHolds nodes leaves n.rightLeaf (if n.rightLeaf then n.right else idx + 1) r →
      LHolds nodes leaves false idx (.node f thr m dl l r)

section

variable [BEq α] [LE α] [DecidableLE α] [LT α] [DecidableLT α] [Zero α] [Neg α]

theorem decision_eq (toInt : α → Int) (z : α) (n : LNode α) (f : Nat) (thr : α) (m : Missing) (dl : Bool)
    (h : n.Asks f thr m dl) (v : α) : n.decision toInt z v = goesLeft z m dl thr v := by
  obtain ⟨-, h2, h3, h4, h5, h6⟩ := h
  unfold LNode.decision LNode.numerical goesLeft isNaN
  rw [h3, h4, h5, h6, h2]
  cases m <;> simp

theorem lholds_returns (toInt : α → Int) (z : α) (t : LTree α) (x : List α) (b : Bool) (idx : Nat)
    (d : FTree α) (h : LHolds t.nodes t.leafValues b idx d) (hx : d.Features x.length) :
    (b = true → t.leafAt idx = .ok (.stop (d.eval z x))) ∧
    (b = false → Returns (t.step toInt z x) idx (.ok (d.eval z x))) := by
  induction h with
  | leaf k v hv => simp [LTree.leafAt, hv, FTree.eval]
  | node idx n f thr m dl l r hn ha hl hr ihl ihr =>
    refine ⟨by simp, fun _ => ?_⟩
    obtain ⟨hf, hfl, hfr⟩ := hx
    have ihl := ihl hfl
    have ihr := ihr hfr
    have hxf : x[n.feature]? = some (x.getD f 0) := by
      rw [ha.1, List.getElem?_eq_getElem hf, List.getD_eq_getElem?_getD, List.getElem?_eq_getElem hf]; rfl
    have hstep : t.step toInt z x idx =
        if goesLeft z m dl thr (x.getD f 0) then
          if n.leftLeaf then t.leafAt n.left else .ok (.go n.left)
        else if n.rightLeaf then t.leafAt n.right else .ok (.go (idx + 1)) := by
      unfold LTree.step
      rw [hn]; simp only
      rw [hxf]; simp only
      rw [decision_eq toInt z n f thr m dl ha]
    unfold FTree.eval
    by_cases hg : goesLeft z m dl thr (x.getD f 0) = true
    · rw [if_pos hg] at hstep ⊢
      cases hb : n.leftLeaf
      · rw [hb] at hstep
        exact returns_go hstep (ihl.2 hb)
      · rw [hb] at hstep
        simp only [if_true] at hstep
        rw [ihl.1 hb] at hstep
        exact returns_stop hstep
    · rw [if_neg hg] at hstep ⊢
      cases hb : n.rightLeaf
      · rw [hb] at hstep
        have := ihr.2 hb
        rw [hb] at this
        exact returns_go hstep this
      · rw [hb] at hstep
        simp only [if_true] at hstep
        have := ihr.1 hb
        rw [hb] at this
        simp only [if_true] at this
        rw [this] at hstep
        exact returns_stop hstep

theorem lstep_live {toInt : α → Int} {z : α} {t : LTree α} {x : List α} {s s' : Nat}
    (h : t.step toInt z x s = .ok (.go s')) : s < t.nodes.length := by
  by_contra hn
  unfold LTree.step at h
  rw [List.getElem?_eq_none (by omega)] at h
  simp at h

theorem lpredict_returns (toInt : α → Int) (z : α) (t : LTree α) (x : List α) (r : Outcome α)
    (hne : t.nodes ≠ []) (h : Returns (t.step toInt z x) 0 r) : t.predict toInt z x = r := by
  unfold LTree.predict
  have := loop_bound t.nodes.length (fun k : Nat => k) (fun _ _ h => lstep_live h) (fun _ _ _ _ _ _ h => h) 0 r h
  rw [if_neg (by simpa using hne), this]
  rfl

theorem lholds_predict (toInt : α → Int) (z : α) (t : LTree α) (x : List α) (d : FTree α)
    (h : LHolds t.nodes t.leafValues false 0 d) (hx : d.Features x.length) :
    t.predict toInt z x = .ok (d.eval z x) := by
  refine lpredict_returns toInt z t x _ ?_ ((lholds_returns toInt z t x false 0 d h hx).2 rfl)
  cases h with
  | node _ n _ _ _ _ _ _ hn _ _ _ => intro he; rw [he] at hn; simp at hn

end

/-! ## The text compiler -/

theorem right_done (a : TextArrays α) (n : Nat) (s : LState α) (i c : Nat) (rest : List (Nat × Nat))
    (m : LNode α) (hs : s.stack = (i, c) :: rest) (hm : s.nodes[c]? = some m)
    (h : m.rightLeaf = true ∨ ∃ j : Nat, a.right[i]? = some (j : Int) ∧ s.visited j = true) :
    a.step n s = a.goLeft n s i c rest m := by
  unfold TextArrays.step
  rw [hs]; simp only
  rw [hm]; simp only
  rcases h with h | ⟨j, h1, h2⟩
  · rw [if_pos h]
  · split_ifs with hr
    · rfl
    · rw [h1]; simp only
      rw [if_neg (by simp [LState.fresh, h2])]

theorem holds_ref {a : TextArrays α} {c : Int} {t : FTree α} {u : List Nat} (h : TextHolds a c t u) :
    (c < 0 ∧ u = [] ∧ ∃ v, t = .leaf v ∧ a.leafValue[leafRef c]? = some v) ∨
    (∃ i : Nat, c = i ∧ i ∈ u ∧ (i : Int) < a.numLeaves - 1 ∧ ∃ m, a.createNode i = .ok m) := by
  cases h with
  | leaf k v hv =>
    left
    refine ⟨by omega, rfl, v, rfl, ?_⟩
    rw [← hv]; congr 1; simp only [leafRef]; omega
  | node i cl cr d f thr l r ul ur hi h1 h2 h3 h4 h5 h6 _ _ =>
    right
    exact ⟨i, rfl, List.mem_cons_self, hi, TextArrays.node d f thr cl cr, by
      simp [TextArrays.createNode, h1, h2, h3, h4, h5]⟩

theorem LHolds.congr_flag {nodes : List (LNode α)} {ls : List α} {b b' : Bool} {i i' : Nat} {t : FTree α}
    (h : LHolds nodes ls b i t) (hb : b = b') (hi : i = i') : LHolds nodes ls b' i' t := by
  subst hb; subst hi; exact h

/-- Starting with the node of a split just created and pushed, the loop appends the compiled subtree and
pops it. -/
theorem compile (a : TextArrays α) (c : Int) (t : FTree α) (u : List Nat) (h : TextHolds a c t u) :
    u.Nodup → ∀ i : Nat, c = i → ∀ (m : LNode α), a.createNode i = .ok m →
    ∀ (nodes : List (LNode α)) (stack : List (Nat × Nat)) (v : Nat → Bool),
    (∀ k ∈ u, k ≠ i → v k = false) →
    ∃ (seg : List (LNode α)) (v' : Nat → Bool),
      (∀ k, v' k = true ↔ (v k = true ∨ (k ∈ u ∧ k ≠ i))) ∧
      (∀ pre post, pre.length = nodes.length →
        LHolds (pre ++ (seg ++ post)) a.leafValue false nodes.length t) ∧
      ∀ R, Returns (a.step (a.numLeaves - 1).toNat) ⟨nodes ++ seg, stack, v'⟩ R →
        Returns (a.step (a.numLeaves - 1).toNat) ⟨nodes ++ [m], (i, nodes.length) :: stack, v⟩ R := by
  induction h with
  | leaf k v hv => intro _ i hi; omega
  | node i cl cr d f thr l r ul ur hi h1 h2 h3 h4 h5 h6 hl hr ihl ihr =>
    intro hnd j hj m hm nodes stack v hv
    obtain rfl : i = j := by omega
    clear hj
    have hmeq : m = TextArrays.node d f thr cl cr := by
      simp [TextArrays.createNode, h1, h2, h3, h4, h5] at hm
      exact hm.symm
    rw [List.nodup_cons, List.nodup_append] at hnd
    obtain ⟨hni, hndl, hndr, hdisj⟩ := hnd
    rw [List.mem_append, not_or] at hni
    have hasks : ∀ L : Nat, ({ m with left := L } : LNode α).Asks f thr (Missing.ofBits (d / 4 % 4))
        (d / 2 % 2 == 1) := by
      intro L
      subst hmeq
      have h01 : (d % 2 == 1) = false := by simp [h6]
      have hlt : d / 4 % 4 < 4 := Nat.mod_lt _ (by omega)
      refine ⟨rfl, rfl, h01, by simp [TextArrays.node, h01], ?_, ?_⟩
      · simp only [TextArrays.node]
        generalize d / 4 % 4 = q at *
        match q, hlt with
        | 0, _ => rfl
        | 1, _ => rfl
        | 2, _ => rfl
        | 3, _ => rfl
      · simp only [TextArrays.node]
        generalize d / 4 % 4 = q at *
        match q, hlt with
        | 0, _ => rfl
        | 1, _ => rfl
        | 2, _ => rfl
        | 3, _ => rfl
    -- the left phase, once the right child is done
    have left : ∀ (segR : List (LNode α)) (w : Nat → Bool),
        (m.rightLeaf = true ∨ ∃ q : Nat, a.right[i]? = some (q : Int) ∧ w q = true) →
        (∀ k ∈ ul, w k = false) →
        ∃ (m' : LNode α) (segL : List (LNode α)) (w' : Nat → Bool),
          (∃ L, m' = { m with left := L }) ∧
          (∀ k, w' k = true ↔ (w k = true ∨ k ∈ ul)) ∧
          (∀ pre post, pre.length = nodes.length →
            LHolds (pre ++ (m' :: segR ++ segL ++ post)) a.leafValue m'.leftLeaf m'.left l) ∧
          ∀ R, Returns (a.step (a.numLeaves - 1).toNat) ⟨nodes ++ (m' :: segR ++ segL), stack, w'⟩ R →
            Returns (a.step (a.numLeaves - 1).toNat)
              ⟨nodes ++ (m :: segR), (i, nodes.length) :: stack, w⟩ R := by
      intro segR w hdone hw
      rcases holds_ref hl with ⟨hneg, hul, val, hval, hleaf⟩ | ⟨q, hq, hqu, hqn, mq, hmq⟩
      · refine ⟨m, [], w, ⟨m.left, rfl⟩, by simp [hul], ?_, ?_⟩
        · intro pre post _
          have e1 : m.leftLeaf = true := by subst hmeq; simp [TextArrays.node, hneg]
          have e2 : m.left = leafRef cl := by subst hmeq; simp [TextArrays.node, hneg]
          rw [e1, e2, hval]
          exact .leaf _ _ hleaf
        · intro R hR
          refine returns_go (s' := ⟨nodes ++ (m :: segR), stack, w⟩) ?_ (by simpa using hR)
          rw [right_done a _ _ i nodes.length stack m rfl (by simp) hdone]
          unfold TextArrays.goLeft
          rw [if_pos (by subst hmeq; simp [TextArrays.node, hneg])]
      · have hlf : m.leftLeaf = false := by subst hmeq; simp [TextArrays.node, hq]
        set P := nodes.length + (segR.length + 1) with hP
        set m' : LNode α := { m with left := P } with hm'
        have hwq : w q = false := hw q hqu
        obtain ⟨segL, w', hw', hseg, hret⟩ := ihl hndl q hq mq hmq (nodes ++ (m' :: segR))
          ((i, nodes.length) :: stack) (fun k => if k = q then true else w k)
          (by intro k hk hkq; simp [hkq, hw k hk])
        refine ⟨m', segL, w', ⟨P, rfl⟩, ?_, ?_, ?_⟩
        · intro k
          rw [hw']
          by_cases hkq : k = q
          · subst hkq; simp [hqu]
          · simp [hkq]
        · intro pre post hpre
          have := hseg (pre ++ m' :: segR) post (by simp [hpre])
          refine LHolds.congr_flag (b := false) (i := (nodes ++ m' :: segR).length) ?_ hlf.symm
            (by simp [hm', hP])
          simpa [List.append_assoc] using this
        · intro R hR
          -- push the left child
          refine returns_go (s' := ⟨nodes ++ (m' :: segR) ++ [mq],
            (q, (nodes ++ (m' :: segR)).length) :: (i, nodes.length) :: stack,
            fun k => if k = q then true else w k⟩) ?_ (hret R ?_)
          · rw [right_done a _ _ i nodes.length stack m rfl (by simp) hdone]
            unfold TextArrays.goLeft
            rw [if_neg (by simp [hlf]), h1]
            simp only
            rw [if_pos (by simp [LState.fresh, hq, hwq]; omega)]
            have hqt : cl.toNat = q := by omega
            rw [hqt, hmq]
            simp only [LState.push]
            congr 3
            · simp only [List.append_assoc, List.cons_append]
              rw [List.set_append_right _ _ (by omega)]
              simp [hm', hP]
            · simp [List.length_append]
          · -- pop
            have hw'q : w' q = true := (hw' q).2 (Or.inl (by simp))
            refine returns_go (s' := ⟨nodes ++ (m' :: segR) ++ segL, stack, w'⟩) ?_
              (by simpa [List.append_assoc] using hR)
            rw [right_done a _ _ i nodes.length stack m' rfl (by simp) ?_]
            · unfold TextArrays.goLeft
              rw [if_neg (by simp [hm', hlf]), h1]
              simp only
              rw [if_neg (by simp [LState.fresh, hq, hw'q])]
            · rcases hdone with hd | ⟨p, hp, hwp⟩
              · left; exact hd
              · right; exact ⟨p, hp, (hw' p).2 (Or.inl (by simp [hwp]))⟩
    -- the right phase
    rcases holds_ref hr with ⟨hneg, hur, val, hval, hleaf⟩ | ⟨q, hq, hqu, hqn, mq, hmq⟩
    · have hrf : m.rightLeaf = true := by subst hmeq; simp [TextArrays.node, hneg]
      have hrr : m.right = leafRef cr := by subst hmeq; simp [TextArrays.node, hneg]
      obtain ⟨m', segL, w', ⟨L, hL⟩, hw', hseg, hret⟩ := left [] v (Or.inl hrf)
        (fun k hk => hv k (by simp [hk]) (by rintro rfl; exact hni.1 hk))
      refine ⟨m' :: segL, w', ?_, ?_, ?_⟩
      · intro k
        rw [hw', hur]
        constructor
        · rintro (h | h)
          · exact Or.inl h
          · exact Or.inr ⟨by simp [h], by rintro rfl; exact hni.1 h⟩
        · rintro (h | ⟨h, hne⟩)
          · exact Or.inl h
          · right; simpa [hne] using h
      · intro pre post hpre
        refine .node _ m' _ _ _ _ _ _ (by simp [← hpre]) (hL ▸ hasks L) ?_ ?_
        · simpa using hseg pre post hpre
        · have e1 : m'.rightLeaf = true := by rw [hL]; exact hrf
          have e2 : m'.right = leafRef cr := by rw [hL]; exact hrr
          rw [e1, e2, hval]
          exact .leaf _ _ hleaf
      · intro R hR
        exact hret R (by simpa using hR)
    · have hrf : m.rightLeaf = false := by subst hmeq; simp [TextArrays.node, hq]
      have hiq : q ≠ i := by rintro rfl; exact hni.2 hqu
      have hvq : v q = false := hv q (by simp [hqu]) hiq
      obtain ⟨segR, w, hw, hsegR, hretR⟩ := ihr hndr q hq mq hmq (nodes ++ [m])
        ((i, nodes.length) :: stack) (fun k => if k = q then true else v k)
        (by
          intro k hk hkq
          simp only [hkq, if_false]
          exact hv k (by simp [hk]) (by rintro rfl; exact hni.2 hk))
      have hwmem : ∀ k, w k = true ↔ (v k = true ∨ k ∈ ur) := by
        intro k
        rw [hw]
        by_cases hkq : k = q
        · subst hkq; simp [hqu]
        · simp [hkq]
      obtain ⟨m', segL, w', ⟨L, hL⟩, hw', hseg, hret⟩ := left segR w
        (Or.inr ⟨q, by rw [h2, hq], (hwmem q).2 (Or.inr hqu)⟩)
        (fun k hk => by
          rw [← Bool.not_eq_true, hwmem, not_or]
          refine ⟨by rw [hv k (by simp [hk]) (by rintro rfl; exact hni.1 hk)]; simp, fun hk' => ?_⟩
          exact hdisj k hk k hk' rfl)
      refine ⟨m' :: segR ++ segL, w', ?_, ?_, ?_⟩
      · intro k
        rw [hw', hwmem]
        constructor
        · rintro ((h | h) | h)
          · exact Or.inl h
          · exact Or.inr ⟨by simp [h], by rintro rfl; exact hni.2 h⟩
          · exact Or.inr ⟨by simp [h], by rintro rfl; exact hni.1 h⟩
        · rintro (h | ⟨h, hne⟩)
          · exact Or.inl (Or.inl h)
          · rcases List.mem_cons.1 h with h | h
            · exact absurd h hne
            · rcases List.mem_append.1 h with h | h
              · exact Or.inr h
              · exact Or.inl (Or.inr h)
      · intro pre post hpre
        refine .node _ m' _ _ _ _ _ _ (by simp [← hpre]) (hL ▸ hasks L) ?_ ?_
        · simpa using hseg pre post hpre
        · have e1 : m'.rightLeaf = false := by rw [hL]; exact hrf
          have := hsegR (pre ++ [m']) (segL ++ post) (by simp [hpre])
          rw [e1]
          simpa [List.append_assoc] using this
      · intro R hR
        refine returns_go (s' := ⟨nodes ++ [m] ++ [mq], (q, (nodes ++ [m]).length) :: (i, nodes.length) :: stack,
          fun k => if k = q then true else v k⟩) ?_ (hretR R (by
            rw [List.append_assoc]; exact hret R hR))
        unfold TextArrays.step
        simp only [List.getElem?_concat_length]
        rw [if_neg (by simp [hrf]), h2]
        simp only
        rw [if_pos (by simp [LState.fresh, hq, hvq]; omega)]
        have hqt : cr.toNat = q := by omega
        rw [hqt, hmq]
        simp [LState.push]

/-! ## The loader ends -/

/-- number of original indices not visited yet -/
def LState.unvisited (n : Nat) (s : LState α) : Nat := ((List.range n).filter fun k => !s.visited k).length

theorem unvisited_push (n : Nat) (s : LState α) (i : Nat) (m : LNode α) (hi : i < n) (hv : s.visited i = false) :
    (s.push i m).unvisited n + 1 = s.unvisited n := by
  unfold LState.unvisited LState.push
  simp only
  induction n with
  | zero => omega
  | succ n ih =>
    rw [List.range_succ, List.filter_append, List.filter_append, List.length_append, List.length_append]
    by_cases hn : i = n
    · subst hn
      have : List.filter (fun k => !(if k = i then true else s.visited k)) (List.range i) =
          List.filter (fun k => !s.visited k) (List.range i) := by
        apply List.filter_congr
        intro k hk
        rw [List.mem_range] at hk
        simp [show k ≠ i by omega]
      rw [this]
      simp [hv]
    · have := ih (by omega)
      have e : (if n = i then true else s.visited n) = s.visited n := by simp [show n ≠ i by omega]
      simp only [List.filter_cons, List.filter_nil, e]
      omega

theorem step_decreases (a : TextArrays α) (n : Nat) (s s' : LState α) (h : a.step n s = .ok (.go s')) :
    2 * s'.unvisited n + s'.stack.length + 1 ≤ 2 * s.unvisited n + s.stack.length := by
  have pop : ∀ rest x, s.stack = x :: rest → s' = { s with stack := rest } →
      2 * s'.unvisited n + s'.stack.length + 1 ≤ 2 * s.unvisited n + s.stack.length := by
    intro rest x hs he
    subst he
    simp only [LState.unvisited, hs, List.length_cons]
    omega
  have push : ∀ c : Int, s.fresh n c = true → s'.stack.length = s.stack.length + 1 →
      s'.unvisited n + 1 = s.unvisited n →
      2 * s'.unvisited n + s'.stack.length + 1 ≤ 2 * s.unvisited n + s.stack.length := by
    intro c _ h1 h2; omega
  have hgoLeft : ∀ orig conv rest m, s.stack = (orig, conv) :: rest →
      a.goLeft n s orig conv rest m = .ok (.go s') →
      2 * s'.unvisited n + s'.stack.length + 1 ≤ 2 * s.unvisited n + s.stack.length := by
    intro orig conv rest m hs hg
    unfold TextArrays.goLeft at hg
    split_ifs at hg with hleaf
    · injection hg with hg; injection hg with hg
      exact pop rest _ hs hg.symm
    · split at hg
      · cases hg
      · next l hl =>
        split_ifs at hg with hf
        · split at hg
          · next m' _ =>
            simp only [LState.fresh, Bool.and_eq_true, decide_eq_true_eq, Bool.not_eq_true'] at hf
            injection hg with hg; injection hg with hg
            have := unvisited_push n s l.toNat m' hf.1.2 hf.2
            subst hg
            refine push l (by simp [LState.fresh, hf]) (by simp [LState.push]) ?_
            simpa [LState.unvisited, LState.push] using this
          · cases hg
          · cases hg
        · injection hg with hg; injection hg with hg
          exact pop rest _ hs hg.symm
  unfold TextArrays.step at h
  split at h
  · injection h with h; cases h
  · next orig conv rest hs =>
    split at h
    · cases h
    · next m _ =>
      split_ifs at h with hr
      · exact hgoLeft orig conv rest m hs h
      · split at h
        · cases h
        · next r _ =>
          split_ifs at h with hf
          · split at h
            · next m' _ =>
              simp only [LState.fresh, Bool.and_eq_true, decide_eq_true_eq, Bool.not_eq_true'] at hf
              injection h with h; injection h with h
              have := unvisited_push n s r.toNat m' hf.1.2 hf.2
              subst h
              exact push r (by simp [LState.fresh, hf]) (by simp [LState.push]) this
            · cases h
            · cases h
          · exact hgoLeft orig conv rest m hs h

theorem step_loop_ends (a : TextArrays α) (n k : Nat) (s : LState α)
    (h : 2 * s.unvisited n + s.stack.length < k) : loop (a.step n) k s ≠ none := by
  induction k generalizing s with
  | zero => omega
  | succ k ih =>
    unfold loop
    split
    · simp
    · next s' hs =>
      have := step_decreases a n s s' hs
      exact ih s' (by omega)
    · simp
    · simp

theorem read_loop_ends (a : TextArrays α) (n : Nat) (m : LNode α) :
    loop (a.step n) (2 * n + 2) (LState.init m) ≠ none := by
  apply step_loop_ends
  have : (LState.init m).unvisited n = n := by simp [LState.unvisited, LState.init]
  rw [this]
  simp [LState.init]

/-- C96: the text loader ends on every file block, well-formed or not: also with shared splits, cycles and
references outside the arrays. -/
theorem read_terminates [Zero α] (a : TextArrays α) (ti : Nat) : a.read ti ≠ .panic "does not terminate" := by
  unfold TextArrays.read
  split_ifs
  · simp
  · simp
  · unfold TextArrays.createNode
    split
    · simp only [Outcome.bind_ok]
      have hne := read_loop_ends a (a.numLeaves - 1).toNat
      split
      · simp
      · simp
      · next p hp =>
        intro he
        injection he with he
        subst he
        -- the loop itself only panics on an index out of range
        exact absurd hp (by
          generalize 2 * (a.numLeaves - 1).toNat + 2 = k
          generalize LState.init _ = s
          induction k generalizing s with
          | zero => simp [loop]
          | succ k ih =>
            unfold loop
            split
            · simp
            · exact ih _
            · simp
            · next q hq =>
              intro he
              injection he with he; injection he with he
              subst he
              have hg : ∀ i c r m, a.goLeft (a.numLeaves - 1).toNat s i c r m ≠ .panic "does not terminate" := by
                intro i c r m
                unfold TextArrays.goLeft TextArrays.createNode
                split_ifs
                · simp
                · split
                  · simp
                  · split_ifs
                    · split
                      · simp
                      · next he => split at he <;> simp at he
                      · next p he =>
                        split at he
                        · simp at he
                        · injection he with he; subst he; simp
                    · simp
              unfold TextArrays.step TextArrays.createNode at hq
              split at hq
              · simp at hq
              · split at hq
                · injection hq with hq; exact absurd hq (by decide)
                · split_ifs at hq
                  · exact hg _ _ _ _ hq
                  · split at hq
                    · simp at hq
                    · split_ifs at hq
                      · split at hq
                        · simp at hq
                        · simp at hq
                        · next p he =>
                          split at he
                          · simp at he
                          · injection he with he; subst he; injection hq with hq; exact absurd hq (by decide)
                      · exact hg _ _ _ _ hq)
      · next hn => exact absurd hn (hne _)
    · simp

/-! ## Correctness of the text compiler (C50) -/

section

variable [BEq α] [LE α] [DecidableLE α] [LT α] [DecidableLT α] [Zero α] [Neg α]

/-- C50: a text block holding a LightGBM tree with numerical splits is loaded without error, and the
loaded tree gives every sample the value of the leaf LightGBM assigns it to. -/
theorem text_tree_compiled (toInt : α → Int) (z : α) (a : TextArrays α) (t : FTree α) (ht : TextTree a t)
    (ti : Nat) : ∃ T, a.read ti = .ok T ∧
      ∀ x : List α, t.Features x.length → T.predict toInt z x = .ok (t.eval z x) := by
  cases ht with
  | constant v h1 h2 =>
    refine ⟨⟨[], a.leafValue, a.firstInternal ti⟩, ?_, ?_⟩
    · unfold TextArrays.read
      rw [if_neg (by omega), if_pos h1]
    · intro x _
      simp [LTree.predict, FTree.eval, h2]
  | splits t used hh hnd =>
    rcases holds_ref hh with ⟨hneg, -⟩ | ⟨i, hi, -, hin, m, hm⟩
    · simp at hneg
    · obtain rfl : i = 0 := by omega
      obtain ⟨seg, v', -, hseg, hret⟩ := compile a _ t used hh hnd 0 rfl m hm [] [] (fun _ => false)
        (fun _ _ _ => rfl)
      have hr : Returns (a.step (a.numLeaves - 1).toNat) (LState.init m) (.ok seg) :=
        hret _ (returns_stop (by simp [TextArrays.step]))
      have hl : loop (a.step (a.numLeaves - 1).toNat) (2 * (a.numLeaves - 1).toNat + 2) (LState.init m) =
          some (.ok seg) := by
        cases hc : loop (a.step (a.numLeaves - 1).toNat) (2 * (a.numLeaves - 1).toNat + 2) (LState.init m) with
        | none => exact absurd hc (read_loop_ends a _ m)
        | some r => rw [returns_unique ⟨_, hc⟩ hr]
      refine ⟨⟨seg, a.leafValue, a.firstInternal ti⟩, ?_, ?_⟩
      · unfold TextArrays.read
        rw [if_neg (by omega), if_neg (by omega), hm]
        simp only [Outcome.bind_ok]
        rw [hl]
      · intro x hx
        refine lholds_predict toInt z _ x t ?_ hx
        simpa using hseg [] [] rfl

end

/-! A file block in LightGBM's own numbering (three splits, the root with two split children, one split
asking about missing values), and what the loader makes of it. -/

/-- the arrays of a text file, for the examples -/
def exArrays : TextArrays ℚ where
  numLeaves := 4
  leafValue := [10, 20, 30, 40]
  left := [1, -1, -2]
  right := [2, -3, -4]
  decisionType := [2, 10, 4]
  splitFeature := [0, 1, 1]
  threshold := [0, 5, 7]
  internalValue := [1 / 2]

/-- the tree these arrays describe -/
def exFTree : FTree ℚ :=
  .node 0 0 .none true (.node 1 5 .nan true (.leaf 10) (.leaf 30)) (.node 1 7 .zero false (.leaf 20) (.leaf 40))

theorem exArrays_tree : TextTree exArrays exFTree := by
  refine .splits exFTree [0, 1, 2] ?_ (by decide)
  exact .node 0 1 2 2 0 0 _ _ [1] [2] (by decide) rfl rfl rfl rfl rfl rfl
    (.node 1 (-1) (-3) 10 1 5 _ _ [] [] (by decide) rfl rfl rfl rfl rfl rfl (.leaf 0 10 rfl) (.leaf 2 30 rfl))
    (.node 2 (-2) (-4) 4 1 7 _ _ [] [] (by decide) rfl rfl rfl rfl rfl rfl (.leaf 1 20 rfl) (.leaf 3 40 rfl))

/-- the value 0 of feature 1 is "missing" in the third split and goes right by default -/
example : ∃ T, exArrays.read 0 = .ok T ∧ T.predict Rat.floor (1 / 1000) [1, 0] = .ok 40 := by
  obtain ⟨T, h, hp⟩ := text_tree_compiled Rat.floor (1 / 1000 : ℚ) exArrays exFTree exArrays_tree 0
  refine ⟨T, h, ?_⟩
  rw [hp [1, 0] (by simp [exFTree, FTree.Features])]
  decide +kernel

/-- a cyclic file block: the loader ends all the same -/
example : ({ exArrays with left := [1, 0, -2] } : TextArrays ℚ).read 0 ≠ .panic "does not terminate" :=
  read_terminates _ _

end Scigo.LGB
