import Verif.LGB.LeavesProps

/-!
# The compiler from LightGBM's JSON files (C51) and categorical splits of loaded models (C94)
-/

set_option linter.unusedSectionVars false

namespace Scigo.LGB

variable {α : Type _}

/-- every split has a leaf among its two children -/
def FTree.Comb : FTree α → Prop
  | .leaf _ => True
  | .node _ _ _ _ l r => ((∃ v, l = .leaf v) ∨ (∃ v, r = .leaf v)) ∧ l.Comb ∧ r.Comb

/-- what `buildNodes` leaves behind for a subtree: the arrays are extended, and hold the subtree -/
theorem build_holds [Zero α] (ofInt : Int → α) (j : LJson α) (t : FTree α) (h : JsonTree j t) (hc : t.Comb) :
    ∀ (ns : List (LNode α)) (ls : List α), ∃ (seg : List (LNode α)) (lseg : List α) (b : Built),
      j.build ofInt (ns, ls) = ((ns ++ seg, ls ++ lseg), b) ∧
      ((∃ k, b = .leaf k ∧ seg = [] ∧ ∃ v, t = .leaf v ∧
          ∀ lpost, (ls ++ lseg ++ lpost)[k]? = some v) ∨
       (b = .node ns.length ∧ (∀ v, t ≠ .leaf v) ∧ ∀ pre post lpost, pre.length = ns.length →
          LHolds (pre ++ (seg ++ post)) (ls ++ lseg ++ lpost) false ns.length t)) := by
  induction h with
  | leaf f t c si m dl v =>
    intro ns ls
    refine ⟨[], [v], .leaf ls.length, by simp [LJson.build, LJson.isLeaf], ?_⟩
    exact Or.inl ⟨ls.length, rfl, rfl, v, rfl, fun lpost => by simp⟩
  | node f t si m dl v jl jr l r hl hr ihl ihr =>
    intro ns ls
    obtain ⟨hone, hcl, hcr⟩ := hc
    set n : LNode α := LJson.fresh ofInt f t false si m dl with hn
    have hnl : (LJson.node f t false si m dl v jl jr).isLeaf = false := by
      cases hl <;> rfl
    obtain ⟨segL, lsegL, bL, hbL, hL⟩ := ihl hcl (ns ++ [n]) ls
    obtain ⟨segR, lsegR, bR, hbR, hR⟩ := ihr hcr (ns ++ [n] ++ segL) (ls ++ lsegL)
    set n' := n.withChildren ns.length bL bR with hn'
    refine ⟨n' :: segL ++ segR, lsegL ++ lsegR, .node ns.length, ?_, Or.inr ⟨rfl, by simp, ?_⟩⟩
    · unfold LJson.build
      rw [if_neg (by simp [hnl])]
      simp only [← hn, hbL, hbR, ← hn']
      simp [List.append_assoc]
    · intro pre post lpost hpre
      have hasks : n'.Asks f t (Missing.ofBits m) dl := by
        have h1 : (m == 1) = decide (Missing.ofBits m = .zero) ∧ (m == 2) = decide (Missing.ofBits m = .nan) := by
          match m with
          | 0 => exact ⟨rfl, rfl⟩
          | 1 => exact ⟨rfl, rfl⟩
          | 2 => exact ⟨rfl, rfl⟩
          | k + 3 => exact ⟨rfl, rfl⟩
        rw [hn', hn]
        cases bL <;> cases bR <;>
          exact ⟨rfl, rfl, rfl, rfl, h1.1, h1.2⟩
      refine .node _ n' _ _ _ _ _ _ (by simp [← hpre]) hasks ?_ ?_
      · rcases hL with ⟨k, hb, hs, w, hw, hk⟩ | ⟨hb, -, hk⟩
        · have e1 : n'.leftLeaf = true := by rw [hn', hb]; cases bR <;> rfl
          have e2 : n'.left = k := by rw [hn', hb]; cases bR <;> rfl
          rw [e1, e2, hw]
          exact .leaf _ _ (by simpa [List.append_assoc] using hk (lsegR ++ lpost))
        · have e1 : n'.leftLeaf = false := by rw [hn', hb]; cases bR <;> rfl
          have e2 : n'.left = ns.length + 1 := by rw [hn', hb]; cases bR <;> simp [LNode.withChildren]
          rw [e1, e2]
          have := hk (pre ++ [n']) (segR ++ post) (lsegR ++ lpost) (by simp [hpre])
          simpa [List.append_assoc] using this
      · rcases hR with ⟨k, hb, hs, w, hw, hk⟩ | ⟨hb, hnot, hk⟩
        · have e1 : n'.rightLeaf = true := by rw [hn', hb]; rfl
          have e2 : n'.right = k := by rw [hn', hb]; rfl
          rw [e1, e2, hw]
          exact .leaf _ _ (by simpa [List.append_assoc] using hk lpost)
        · -- the right child is a split, so the left one is a leaf and takes no room
          have hleft : ∃ w, l = .leaf w := by
            rcases hone with h | ⟨w, h⟩
            · exact h
            · exact absurd h (hnot w)
          obtain ⟨w, hw⟩ := hleft
          have hsegL : segL = [] := by
            rcases hL with ⟨k, -, hs, -⟩ | ⟨-, hno, -⟩
            · exact hs
            · exact absurd hw (hno w)
          have e1 : n'.rightLeaf = false := by rw [hn', hb]; cases bL <;> rfl
          rw [e1]
          have := hk (pre ++ [n']) post lpost (by simp [hpre, hsegL])
          subst hsegL
          simpa [List.append_assoc] using this

section

variable [BEq α] [LE α] [DecidableLE α] [LT α] [DecidableLT α] [Zero α] [Neg α]

/-- C51, the part that holds: a JSON tree with numerical splits in which every split has a leaf among its
children is loaded correctly. Missing: trees with a split whose two children are splits
(`json_tree_wrong`). -/
theorem json_tree_compiled_partial (toInt : α → Int) (ofInt : Int → α) (z : α) (j : LJson α) (t : FTree α)
    (h : JsonTree j t) (hc : t.Comb) (x : List α) (hx : t.Features x.length) :
    (j.convert ofInt).predict toInt z x = .ok (t.eval z x) := by
  cases h with
  | leaf f t c si m dl v => simp [LJson.convert, LJson.isLeaf, LTree.predict, FTree.eval]
  | node f t si m dl v jl jr l r hl hr =>
    obtain ⟨seg, lseg, b, hb, hcase⟩ := build_holds ofInt _ _ (.node f t si m dl v jl jr l r hl hr) hc [] []
    have hnl : (LJson.node f t false si m dl v jl jr).isLeaf = false := by
      cases hl <;> rfl
    rcases hcase with ⟨k, -, -, w, hw, -⟩ | ⟨-, -, hk⟩
    · cases hw
    · unfold LJson.convert
      simp only
      rw [if_neg (by simp [hnl]), hb]
      refine lholds_predict toInt z _ x _ ?_ hx
      simpa using hk [] [] [] rfl

end

/-- a split whose two children are splits -/
def fullJson : LJson ℚ :=
  .node 0 0 false [] 0 true 0
    (.node 1 0 false [] 0 true 0 (.node 0 0 false [] 0 false 1 .nil .nil) (.node 0 0 false [] 0 false 2 .nil .nil))
    (.node 1 0 false [] 0 true 0 (.node 0 0 false [] 0 false 3 .nil .nil) (.node 0 0 false [] 0 false 4 .nil .nil))

/-- a tree with two splits, for the examples -/
def fullTree : FTree ℚ :=
  .node 0 0 .none true (.node 1 0 .none true (.leaf 1) (.leaf 2)) (.node 1 0 .none true (.leaf 3) (.leaf 4))

theorem fullJson_tree : JsonTree fullJson fullTree :=
  .node _ _ _ _ _ _ _ _ _ _
    (.node _ _ _ _ _ _ _ _ _ _ (.leaf ..) (.leaf ..)) (.node _ _ _ _ _ _ _ _ _ _ (.leaf ..) (.leaf ..))

/-- C51 is false: the smallest tree with two splits below the root is loaded so that a sample going right
ends in the left subtree. -/
theorem json_tree_wrong : ∃ (j : LJson ℚ) (t : FTree ℚ) (x : List ℚ), JsonTree j t ∧ t.Features x.length ∧
    (j.convert (fun i => (i : ℚ))).predict Rat.floor 0 x = .ok 2 ∧ t.eval 0 x = 4 := by
  refine ⟨fullJson, fullTree, [1, 1], fullJson_tree, by simp [fullTree, FTree.Features], ?_, ?_⟩
  · decide +kernel
  · decide +kernel

/-- a tree of depth three meeting the condition of `json_tree_compiled_partial` -/
example : ∃ (j : LJson ℚ) (t : FTree ℚ), JsonTree j t ∧ t.Comb ∧ t.Features 2 ∧
    t.eval 0 [1, -1] = 3 ∧ t.eval 0 [-1, -1] = 1 ∧ t.eval 0 [1, 1] = 4 := by
  refine ⟨.node 0 0 false [] 0 true 0 (.node 0 0 false [] 0 false 1 .nil .nil)
    (.node 1 0 false [] 2 true 0 (.node 0 0 false [] 0 false 3 .nil .nil) (.node 0 0 false [] 0 false 4 .nil .nil)),
    .node 0 0 .none true (.leaf 1) (.node 1 0 .nan true (.leaf 3) (.leaf 4)),
    .node _ _ _ _ _ _ _ _ _ _ (.leaf ..) (.node 1 0 [] 2 true 0 _ _ _ _ (.leaf ..) (.leaf ..)), ?_, ?_, ?_⟩
  · exact ⟨Or.inl ⟨_, rfl⟩, trivial, Or.inl ⟨_, rfl⟩, trivial, trivial⟩
  · exact ⟨by decide, trivial, by decide, trivial, trivial⟩
  · decide +kernel

/-! ## Categorical splits (C94) -/

section

variable [BEq α] [LE α] [DecidableLE α] [LT α] [DecidableLT α] [Zero α] [Neg α]

/-- C94: in a model loaded from a text file every categorical split sends every value right, whatever the
categories of the left branch are. -/
theorem text_categorical_always_right (toInt : α → Int) (z : α) (a : TextArrays α) (i d : Nat) (n : LNode α)
    (hd : a.decisionType[i]? = some d) (hcat : d % 2 = 1) (hn : a.createNode i = .ok n) (v : α) :
    n.decision toInt z v = false := by
  have hn' : n.categorical = true ∧ n.catOneHot = false := by
    unfold TextArrays.createNode at hn
    split at hn
    · next d' _ _ _ _ h1 _ _ _ _ =>
      rw [hd] at h1
      cases h1
      injection hn with hn
      subst hn
      simp [TextArrays.node, hcat]
    · cases hn
  unfold LNode.decision LNode.category
  rw [if_pos hn'.1]
  simp [hn'.2]

/-- C94, the part that holds: a value outside the left categories goes right, as LightGBM sends it. Missing:
the values of the left categories, which go right as well (`categorical_split_ignored`). -/
theorem categorical_right_partial (toInt : α → Int) (z : α) (a : TextArrays α) (i d : Nat) (n : LNode α)
    (cats : List Int) (hd : a.decisionType[i]? = some d) (hcat : d % 2 = 1) (hn : a.createNode i = .ok n) (v : α)
    (hv : toInt v ∉ cats) : n.decision toInt z v = decide (toInt v ∈ cats) := by
  rw [text_categorical_always_right toInt z a i d n hd hcat hn v]
  simp [hv]

end

/-- a split "feature 0 is category 0", left leaf 10, right leaf 20 -/
def catArrays : TextArrays ℚ where
  numLeaves := 2
  leafValue := [10, 20]
  left := [-1]
  right := [-2]
  decisionType := [1]
  splitFeature := [0]
  threshold := [0]
  internalValue := [0]

/-- C94 is false: a sample of the left category gets the value of the right leaf, from a text file and
from a JSON file. -/
theorem categorical_split_ignored :
    (∃ T, catArrays.read 0 = .ok T ∧ T.predict Rat.floor 0 [0] = .ok 20) ∧
    ((LJson.node 0 0 true [0] 0 false 0 (.node 0 0 false [] 0 false 10 .nil .nil)
      (.node 0 0 false [] 0 false 20 .nil .nil) : LJson ℚ).convert (fun i => (i : ℚ))).predict Rat.floor 0 [0]
      = .ok 20 := by
  refine ⟨⟨⟨[TextArrays.node 1 0 0 (-1) (-2)], [10, 20], 0⟩, ?_, ?_⟩, ?_⟩
  · rfl
  · decide +kernel
  · decide +kernel

example : ∃ n, catArrays.createNode 0 = .ok n ∧ n.decision Rat.floor 0 0 = false :=
  ⟨_, rfl, text_categorical_always_right _ _ catArrays 0 1 _ rfl rfl rfl 0⟩

end Scigo.LGB
