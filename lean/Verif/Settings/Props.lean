import Verif.Settings.Model
import Verif.Logistic.FitProps
import Verif.Tree.Props

/-!
# Properties of the parameters of decision trees

**C227** (parameters can be copied, and what is accepted), **C228** (refused calls), **C229** (parameters that training never reads).
-/

set_option linter.unusedSectionVars false

namespace Scigo.Settings

open Scigo.Logistic (PVal lookup_map_set lookup_iff_mem assoc_ext)

variable {α : Type}

/-! ## Specification -/

/-- two values of the same Go type -/
def SameType : PVal α → PVal α → Prop
  | .str _, .str _ => True
  | .flt _, .flt _ => True
  | .bool _, .bool _ => True
  | .int _, .int _ => True
  | .int64 _, .int64 _ => True
  | _, _ => False

/-- the names of the parameters -/
def treeKeys : List String :=
  ["criterion", "max_depth", "min_samples_split", "min_samples_leaf", "max_features", "max_leaf_nodes",
   "min_impurity_decrease", "random_state"]

theorem keys_nodup : treeKeys.Nodup := by decide

theorem keys_eq (p : TreeParams α) : p.get.map Prod.fst = treeKeys := rfl

/-! ## One parameter -/

/-- what one assignment does: refused names, accepted values, panics -/
theorem set1_spec (p : TreeParams α) (k : String) (v : PVal α) :
    (k ∉ treeKeys → p.set1 k v = .err (.other "unknown parameter")) ∧
    ∀ w, (k, w) ∈ p.get →
      (SameType v w → ∃ p', p.set1 k v = .ok p' ∧ p'.get = p.get.map (fun e => if e.1 = k then (e.1, v) else e)) ∧
      (¬ SameType v w → p.set1 k v = .panic "interface conversion") := by
  refine ⟨fun hk => ?_, fun w hw => ?_⟩
  · simp only [treeKeys, List.mem_cons, List.not_mem_nil, or_false, not_or] at hk
    obtain ⟨h0, h1, h2, h3, h4, h5, h6, h7⟩ := hk
    unfold TreeParams.set1
    dsimp only
    rw [if_neg h0, if_neg h1, if_neg h2, if_neg h3, if_neg h4, if_neg h5, if_neg h6, if_neg h7]
  · simp only [TreeParams.get, List.mem_cons, List.not_mem_nil, or_false, Prod.mk.injEq] at hw
    rcases hw with ⟨rfl, rfl⟩ | ⟨rfl, rfl⟩ | ⟨rfl, rfl⟩ | ⟨rfl, rfl⟩ | ⟨rfl, rfl⟩ | ⟨rfl, rfl⟩ | ⟨rfl, rfl⟩ | ⟨rfl, rfl⟩ <;>
      cases v <;> simp [SameType, TreeParams.set1, TreeParams.get]

theorem mem_or (p : TreeParams α) (k : String) : k ∉ treeKeys ∨ ∃ w, (k, w) ∈ p.get := by
  by_cases h : k ∈ treeKeys
  · right
    rw [← keys_eq p] at h
    obtain ⟨e, he, rfl⟩ := List.mem_map.1 h
    exact ⟨e.2, he⟩
  · left; exact h

/-- types never change -/
theorem type_stable (p q : TreeParams α) (k : String) (w w' : PVal α) (h : (k, w) ∈ p.get) (h' : (k, w') ∈ q.get) :
    ∀ v, SameType v w ↔ SameType v w' := by
  intro v
  simp only [TreeParams.get, List.mem_cons, List.not_mem_nil, or_false, Prod.mk.injEq] at h h'
  rcases h with ⟨rfl, rfl⟩ | ⟨rfl, rfl⟩ | ⟨rfl, rfl⟩ | ⟨rfl, rfl⟩ | ⟨rfl, rfl⟩ | ⟨rfl, rfl⟩ | ⟨rfl, rfl⟩ | ⟨rfl, rfl⟩ <;>
    simp at h' <;> subst h' <;> cases v <;> simp [SameType]

/-- an entry that `SetParams` can assign -/
def Fits (p : TreeParams α) (e : String × PVal α) : Prop := ∃ w, (e.1, w) ∈ p.get ∧ SameType e.2 w

theorem fits_stable (p q : TreeParams α) (e : String × PVal α) (h : Fits p e) : Fits q e := by
  obtain ⟨w, hw, ht⟩ := h
  rcases mem_or q e.1 with hk | ⟨w', hw'⟩
  · exact absurd (show e.1 ∈ p.get.map Prod.fst from List.mem_map.2 ⟨_, hw, rfl⟩) hk
  · exact ⟨w', hw', (type_stable p q e.1 w w' hw hw' e.2).1 ht⟩

/-- one assignment succeeds exactly for entries that fit -/
theorem set1_cases (p : TreeParams α) (k : String) (v : PVal α) :
    (Fits p (k, v) ∧ ∃ p', p.set1 k v = .ok p' ∧ p'.get = p.get.map (fun e => if e.1 = k then (e.1, v) else e)) ∨
    (k ∉ treeKeys ∧ p.set1 k v = .err (.other "unknown parameter")) ∨
    (k ∈ treeKeys ∧ ¬ Fits p (k, v) ∧ p.set1 k v = .panic "interface conversion") := by
  classical
  obtain ⟨s1, s2⟩ := set1_spec p k v
  rcases mem_or p k with hk | ⟨w, hw⟩
  · exact Or.inr (Or.inl ⟨hk, s1 hk⟩)
  · by_cases ht : SameType v w
    · exact Or.inl ⟨⟨w, hw, ht⟩, (s2 w hw).1 ht⟩
    · refine Or.inr (Or.inr ⟨?_, ?_, (s2 w hw).2 ht⟩)
      · exact keys_eq p ▸ List.mem_map_of_mem (f := Prod.fst) hw
      · rintro ⟨w', hw', ht'⟩
        exact ht ((type_stable p p k w' w hw' hw v).1 ht')

theorem not_fits_of_unknown (p : TreeParams α) (k : String) (v : PVal α) (hk : k ∉ treeKeys) : ¬ Fits p (k, v) := by
  rintro ⟨w, hw, _⟩
  exact hk (keys_eq p ▸ List.mem_map_of_mem (f := Prod.fst) hw)

/-! ## C227 -/

/-- **C227** `SetParams` succeeds exactly if every name is known and every value has the type of the value reported under that
name; after a success every parameter given has the value given and every other keeps its value. -/
theorem tree_params_accepted (p : TreeParams α) (l : List (String × PVal α)) (hnd : (l.map Prod.fst).Nodup) :
    ((p.setAll l).2 = .ok () ↔ ∀ e ∈ l, ∃ w, (e.1, w) ∈ p.get ∧ SameType e.2 w) ∧
    ((p.setAll l).2 = .ok () → ∀ k, (p.setAll l).1.get.lookup k = (l.lookup k).orElse fun _ => p.get.lookup k) := by
  induction l generalizing p with
  | nil => simp [TreeParams.setAll]
  | cons a l ih =>
    obtain ⟨k, v⟩ := a
    simp only [List.map_cons, List.nodup_cons] at hnd
    unfold TreeParams.setAll
    rcases set1_cases p k v with ⟨hf, p', hs, hg⟩ | ⟨hk, hs⟩ | ⟨_, hf, hs⟩
    · rw [hs]
      obtain ⟨i1, i2⟩ := ih p' hnd.2
      refine ⟨?_, ?_⟩
      · refine i1.trans ?_
        simp only [List.mem_cons, forall_eq_or_imp]
        exact ⟨fun h => ⟨hf, fun e he => fits_stable p' p e (h e he)⟩, fun h e he => fits_stable p p' e (h.2 e he)⟩
      · intro hok k'
        refine (i2 hok k').trans ?_
        have hmem : k ∈ p.get.map Prod.fst := by
          obtain ⟨w, hw, _⟩ := hf
          exact List.mem_map_of_mem (f := Prod.fst) hw
        rw [hg, lookup_map_set, List.lookup_cons]
        by_cases hk : k' = k
        · subst hk
          have hno : l.lookup k' = none := by
            rw [List.lookup_eq_none_iff]
            intro e he
            rw [bne_iff_ne]
            intro hh
            exact hnd.1 (hh ▸ List.mem_map_of_mem he)
          rw [hno]
          simp [hmem]
        · have : (k' == k) = false := by simpa using hk
          rw [this]
          simp [hk]
    · rw [hs]
      refine ⟨⟨fun h => by simp at h, fun h => ?_⟩, fun h => by simp at h⟩
      exact absurd (h (k, v) (List.mem_cons_self ..)) (not_fits_of_unknown p k v hk)
    · rw [hs]
      refine ⟨⟨fun h => by simp at h, fun h => ?_⟩, fun h => by simp at h⟩
      exact absurd (h (k, v) (List.mem_cons_self ..)) hf

/-- **C227** Giving the parameters of one tree to another, in whatever order the map is visited, succeeds and makes it report
the same parameters. -/
theorem tree_params_round_trip (p q : TreeParams α) (l : List (String × PVal α)) (hl : l.Perm p.get) :
    (q.setAll l).2 = .ok () ∧ (q.setAll l).1 = p := by
  have hnd0 : (p.get.map Prod.fst).Nodup := keys_nodup
  have hnd : (l.map Prod.fst).Nodup := (hl.map Prod.fst).nodup_iff.2 hnd0
  obtain ⟨h1, h2⟩ := tree_params_accepted q l hnd
  have hok : (q.setAll l).2 = .ok () := by
    rw [h1]
    intro e he
    refine fits_stable p q e ⟨e.2, hl.mem_iff.1 he, ?_⟩
    have := hl.mem_iff.1 he
    simp only [TreeParams.get, List.mem_cons, List.not_mem_nil, or_false] at this
    rcases this with rfl | rfl | rfl | rfl | rfl | rfl | rfl | rfl <;> simp [SameType]
  refine ⟨hok, ?_⟩
  have hg : (q.setAll l).1.get = p.get := by
    refine assoc_ext _ _ rfl hnd0 fun e he => ?_
    rw [h2 hok e.1, (lookup_iff_mem l hnd e.1 e.2).2 (hl.mem_iff.2 he)]
    rfl
  generalize (q.setAll l).1 = r at hg
  cases r; cases p
  simpa [TreeParams.get] using hg

/-! ## C228 -/

/-- **C228** (the part that holds) Whatever the outcome, a parameter not given keeps its value and a given one has its old value
or the one given; a call naming one parameter is all or nothing; an error means that some name was unknown, a panic that some
value had the wrong type. -/
theorem tree_params_refused_partial (p : TreeParams α) (l : List (String × PVal α)) :
    (∀ k, (p.setAll l).1.get.lookup k = p.get.lookup k ∨ ∃ v, (k, v) ∈ l ∧ (p.setAll l).1.get.lookup k = some v) ∧
    (∀ e, l = [e] → (p.setAll l).2 ≠ .ok () → (p.setAll l).1 = p) ∧
    (∀ e, (p.setAll l).2 = .err e → ∃ a ∈ l, a.1 ∉ treeKeys) ∧
    (∀ s, (p.setAll l).2 = .panic s → ∃ a ∈ l, a.1 ∈ treeKeys ∧ ∀ w, (a.1, w) ∈ p.get → ¬ SameType a.2 w) := by
  refine ⟨?_, ?_, ?_, ?_⟩
  · induction l generalizing p with
    | nil => intro k; left; rfl
    | cons a l ih =>
      obtain ⟨k, v⟩ := a
      intro k'
      unfold TreeParams.setAll
      rcases set1_cases p k v with ⟨⟨w, hw, _⟩, p', hs, hg⟩ | ⟨_, hs⟩ | ⟨_, _, hs⟩
      · rw [hs]
        have g2 : k ∈ p.get.map Prod.fst := List.mem_map_of_mem (f := Prod.fst) hw
        rcases ih p' k' with h1 | ⟨v', h1, h2⟩
        · show (p'.setAll l).1.get.lookup k' = _ ∨ ∃ v_1, _ ∧ (p'.setAll l).1.get.lookup k' = _
          rw [h1, hg, lookup_map_set]
          by_cases hk : k' = k
          · subst hk
            right
            exact ⟨v, List.mem_cons_self .., by rw [if_pos ⟨rfl, g2⟩]⟩
          · left; rw [if_neg (fun h => hk h.1)]
        · right
          exact ⟨v', List.mem_cons_of_mem _ h1, h2⟩
      · rw [hs]; left; rfl
      · rw [hs]; left; rfl
  · rintro ⟨k, v⟩ rfl hne
    unfold TreeParams.setAll at hne ⊢
    rcases h : p.set1 k v with p' | e | s
    · rw [h] at hne; simp [TreeParams.setAll] at hne
    · rfl
    · rfl
  · induction l generalizing p with
    | nil => intro e h; simp [TreeParams.setAll] at h
    | cons a l ih =>
      obtain ⟨k, v⟩ := a
      intro e h
      unfold TreeParams.setAll at h
      rcases set1_cases p k v with ⟨_, p', hs, hg⟩ | ⟨hk, hs⟩ | ⟨_, _, hs⟩
      · rw [hs] at h
        obtain ⟨a, ha, hn⟩ := ih p' e h
        exact ⟨a, List.mem_cons_of_mem _ ha, hn⟩
      · exact ⟨_, List.mem_cons_self .., hk⟩
      · rw [hs] at h; simp at h
  · induction l generalizing p with
    | nil => intro e h; simp [TreeParams.setAll] at h
    | cons a l ih =>
      obtain ⟨k, v⟩ := a
      intro e h
      unfold TreeParams.setAll at h
      rcases set1_cases p k v with ⟨_, p', hs, hg⟩ | ⟨hk, hs⟩ | ⟨hk, hf, hs⟩
      · rw [hs] at h
        obtain ⟨a, ha, hn, hw⟩ := ih p' e h
        refine ⟨a, List.mem_cons_of_mem _ ha, hn, fun w hw0 ht => ?_⟩
        obtain ⟨w', hw', ht'⟩ := fits_stable p p' a ⟨w, hw0, ht⟩
        exact hw w' hw' ht'
      · rw [hs] at h; simp at h
      · exact ⟨_, List.mem_cons_self .., hk, fun w hw ht => hf ⟨w, hw, ht⟩⟩

/-- **C228** is false: a refused call is not undone, and what it changes depends on the order in which the map is visited. -/
theorem tree_params_refused_false :
    ∃ (p : TreeParams ℚ) (l l' : List (String × PVal ℚ)), l'.Perm l ∧ (l.map Prod.fst).Nodup ∧
      (∃ e, (p.setAll l).2 = .err e) ∧ (∃ e, (p.setAll l').2 = .err e) ∧
      (p.setAll l).1.maxDepth = 5 ∧ (p.setAll l').1.maxDepth = 0 := by
  refine ⟨(TreeParams.default 0 : TreeParams ℚ), [("max_depth", .int 5), ("gamma", .flt 1)], [("gamma", .flt 1), ("max_depth", .int 5)],
    List.Perm.swap _ _ _, by decide, ?_, ?_, ?_, ?_⟩ <;> simp [TreeParams.setAll, TreeParams.set1, TreeParams.default]

/-- a depth given as another integer type stops the program -/
example : ((TreeParams.default 0 : TreeParams ℚ).setAll [("max_depth", .int64 5)]).2 = .panic "interface conversion" := by
  simp [TreeParams.setAll, TreeParams.set1]

/-- setting two parameters -/
example : ((TreeParams.default 0 : TreeParams ℚ).setAll [("max_depth", .int 5), ("criterion", .str "entropy")]) =
    ({ (TreeParams.default 0 : TreeParams ℚ) with maxDepth := 5, criterion := "entropy" }, .ok ()) := by
  simp [TreeParams.setAll, TreeParams.set1]

/-! ## C229 -/

section
open Scigo.Tree (Clf DTree Grown Sample)

variable [LinearOrder α] [Add α] [Sub α] [Mul α] [Div α] [Zero α] [One α] [NatCast α]

theorem grown_leaves {log2 : α → α} {srt : (Nat → α) → List Nat → List Nat} {P : Tree.Params α} {nC nF : Nat}
    {S : List (Sample α)} {d : Nat} {t : DTree α} {gs : List (Nat × α)} (h : Grown log2 srt P nC nF S d t gs) :
    d ≤ t.maxDepth ∧ t.nLeaves ≤ 2 ^ (t.maxDepth - d) := by
  induction h with
  | leaf S d => simp [DTree.maxDepth, DTree.nLeaves, Tree.mkInfo]
  | split S d f thr dec l r gl gr _ _ _ _ _ _ _ _ _ ih1 ih2 =>
    have hm : (DTree.split (Tree.mkInfo log2 P nC S d) f thr l r).maxDepth = max l.maxDepth r.maxDepth := by
      simp only [DTree.maxDepth]
      split <;> omega
    rw [hm]
    refine ⟨by omega, ?_⟩
    have a1 : 2 ^ (l.maxDepth - (d + 1)) ≤ 2 ^ (max l.maxDepth r.maxDepth - (d + 1)) :=
      Nat.pow_le_pow_right (by omega) (by omega)
    have a2 : 2 ^ (r.maxDepth - (d + 1)) ≤ 2 ^ (max l.maxDepth r.maxDepth - (d + 1)) :=
      Nat.pow_le_pow_right (by omega) (by omega)
    have e : 2 ^ (max l.maxDepth r.maxDepth - d) = 2 * 2 ^ (max l.maxDepth r.maxDepth - (d + 1)) := by
      rw [← pow_succ']
      congr 1
      omega
    have := ih1.2
    have := ih2.2
    simp only [DTree.nLeaves]
    omega

/-- **C229** (the part that holds) Only the depth bounds the leaves: a fitted tree of depth `d` has at most `2 ^ d` of them, hence
at most `2 ^ max_depth` if that is set; whatever is given for `max_leaf_nodes`, `max_features` and `random_state`, training
gives the same tree. -/
theorem max_leaf_nodes_partial (log2 : α → α) (toInt : α → Int) (srt : (Nat → α) → List Nat → List Nat)
    (iter : List Int → List Int) (p : TreeParams α) (fuel : Nat) (X y : Mat α) (hX : 0 < X.r) (t t' : Clf α)
    (h : p.fit log2 toInt srt iter fuel X y t = some (t', .ok ())) :
    t'.getNLeaves ≤ 2 ^ t'.getDepth ∧
    (0 < p.maxDepth → t'.getNLeaves ≤ 2 ^ p.maxDepth.toNat) ∧
    ∀ n mf rs, ({ p with maxLeafNodes := n, maxFeatures := mf, randomState := rs } : TreeParams α).fit log2 toInt srt iter fuel X y t
      = some (t', .ok ()) := by
  obtain ⟨_, _, root, gs, hg, rfl⟩ := Tree.fit_ok _ _ _ _ _ _ _ _ _ _ h
  have h1 : root.nLeaves ≤ 2 ^ root.maxDepth := by simpa using (grown_leaves hg).2
  refine ⟨h1, fun hm => ?_, fun _ _ _ => h⟩
  obtain ⟨_, _, _, hd, _⟩ := Tree.fit_tree_limits _ _ _ _ _ _ _ _ hX _ _ h
  have hd' : (root.maxDepth : Int) ≤ p.maxDepth := hd hm
  exact h1.trans (Nat.pow_le_pow_right (by omega) (by omega))

end

/-- a column of the numbers 0, 1, 2 -/
def exCol : Mat ℚ := ⟨3, 1, fun i _ => (i : ℚ)⟩

/-- **C229** is false: a tree told to have at most two leaves has three, although `SetParams` accepts the limit and `GetParams`
reports it. -/
theorem max_leaf_nodes_false :
    ∃ (p : TreeParams ℚ) (X y : Mat ℚ) (t' : Tree.Clf ℚ),
      (p.setAll [("max_leaf_nodes", .int 2)]).2 = .ok () ∧
      ("max_leaf_nodes", PVal.int 2) ∈ (p.setAll [("max_leaf_nodes", .int 2)]).1.get ∧
      (p.setAll [("max_leaf_nodes", .int 2)]).1.fit (fun x => x) (fun x : ℚ => x.floor) stableAsc List.dedup 4 X y Tree.Clf.new =
        some (t', .ok ()) ∧ t'.getNLeaves = 3 := by
  have e : ((TreeParams.default 0 : TreeParams ℚ).setAll [("max_leaf_nodes", .int 2)]) =
      ({ (TreeParams.default 0 : TreeParams ℚ) with maxLeafNodes := 2 }, .ok ()) := by
    simp [TreeParams.setAll, TreeParams.set1]
  have hk : ((({ (TreeParams.default 0 : TreeParams ℚ) with maxLeafNodes := 2 } : TreeParams ℚ).fit (fun x => x) (fun x : ℚ => x.floor)
      stableAsc List.dedup 4 exCol exCol Tree.Clf.new).map (fun r => (r.1.getNLeaves, r.2.isOk))) = some (3, true) := by
    decide +kernel
  rcases hr : (({ (TreeParams.default 0 : TreeParams ℚ) with maxLeafNodes := 2 } : TreeParams ℚ).fit (fun x => x) (fun x : ℚ => x.floor)
      stableAsc List.dedup 4 exCol exCol Tree.Clf.new) with _ | ⟨t', o⟩
  · rw [hr] at hk; simp at hk
  · rw [hr] at hk
    simp only [Option.map_some, Option.some.injEq, Prod.mk.injEq] at hk
    refine ⟨TreeParams.default 0, exCol, exCol, t', by rw [e], by rw [e]; simp [TreeParams.get], ?_, hk.1⟩
    rw [e]
    show ({ (TreeParams.default 0 : TreeParams ℚ) with maxLeafNodes := 2 } : TreeParams ℚ).fit _ _ _ _ _ _ _ _ = _
    rw [hr]
    rcases o with o | o | o
    · rfl
    · simp [Outcome.isOk] at hk
    · simp [Outcome.isOk] at hk

end Scigo.Settings
