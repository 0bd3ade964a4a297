import Verif.CV.Seed
import Verif.CV.Props

/-!
# Reproducibility of the splitters (C239)

Law-free: any generator, any comparison of labels.
-/

set_option linter.unusedSectionVars false

namespace Scigo.CV

/-- two results of `Split` that a caller using the folds as sets cannot tell apart: the same number of folds, the same training lists, and
test lists that are rearrangements of each other -/
def SameFolds : Outcome (List Fold) → Outcome (List Fold) → Prop
  | .ok a, .ok b => List.Forall₂ (fun f g => f.train = g.train ∧ f.test.Perm g.test) a b
  | a, b => a = b

/-- an order of the entries of a map -/
def MapOrder {γ : Type _} (o : List γ → List γ) : Prop := ∀ l, (o l).Perm l

section
variable {α β : Type _} [BEq α]

theorem stratified_order (n : Nat) (k : Int) (a b : List (α × List Nat)) (h : a.Perm b) : SameFolds (stratified n k a) (stratified n k b) := by
  unfold stratified
  by_cases h1 : k < 0
  · rw [if_pos h1, if_pos h1]; rfl
  · rw [if_neg h1, if_neg h1]
    have hne : (k = 0 ∧ a ≠ []) ↔ (k = 0 ∧ b ≠ []) := by
      rw [ne_eq, ne_eq, ← List.length_eq_zero_iff, ← List.length_eq_zero_iff, h.length_eq]
    by_cases h2 : k = 0 ∧ a ≠ []
    · rw [if_pos h2, if_pos (hne.1 h2)]; rfl
    · rw [if_neg h2, if_neg (fun c => h2 (hne.2 c))]
      simp only [SameFolds]
      rw [List.forall₂_map_left_iff, List.forall₂_map_right_iff, List.forall₂_same]
      intro i hi
      rw [List.mem_range] at hi
      have hp : (a.foldl (fun t g => distClass k.toNat t g.2) (fun _ => []) i).Perm
          (b.foldl (fun t g => distClass k.toNat t g.2) (fun _ => []) i) := by
        rw [dist_all k.toNat a _ i hi, dist_all k.toNat b _ i hi]
        exact (List.Perm.refl _).append (h.flatMap_right _)
      refine ⟨?_, hp⟩
      simp only [any_beq]
      refine List.filter_congr fun j _ => ?_
      rw [decide_eq_decide.2 hp.mem_iff]

/-- **C239** (the part that holds) Without shuffling, two calls of `StratifiedKFold.Split` on the same labels give the same folds, whatever
orders they meet the map of classes in: equal training lists, and test lists with the same samples. With shuffling the same holds
if the loop that shuffles meets the classes in the same order. What is missing: that order differs from call to call, see
`stratified_seed_ignored`. -/
theorem stratified_seed_partial (G : Rng β) (y : Nat → α) (n : Nat) (k : Int) (shuffled : Bool) (seed : Int)
    (first first' second second' : List (α × List Nat) → List (α × List Nat))
    (h : shuffled = false ∨ first (groups y n) = first' (groups y n))
    (hs : MapOrder second) (hs' : MapOrder second') :
    SameFolds (stratifiedSeeded G y n k shuffled seed first second) (stratifiedSeeded G y n k shuffled seed first' second') := by
  unfold stratifiedSeeded
  simp only
  have e : (if shuffled then shuffleClasses G (seedState G seed) (first (groups y n)) else groups y n) =
      (if shuffled then shuffleClasses G (seedState G seed) (first' (groups y n)) else groups y n) := by
    rcases h with h | h
    · rw [h]; rfl
    · rw [h]
  rw [e]
  exact stratified_order n k _ _ ((hs _).trans (hs' _).symm)

theorem shuffleClasses_grouped (G : Rng β) (y : Nat → α) (n : Nat) (s : Nat) (gs : List (α × List Nat)) :
    List.Forall₂ (fun g g' : α × List Nat => g'.1 = g.1 ∧ g'.2.Perm g.2) gs (shuffleClasses G s gs) := by
  induction gs generalizing s with
  | nil => exact .nil
  | cons g gs ih =>
    unfold shuffleClasses
    split
    · exact .cons ⟨rfl, shuffle_perm _ _⟩ (ih _)
    · exact .cons ⟨rfl, List.Perm.refl _⟩ (ih _)

theorem grouped_forall₂ (y : Nat → α) (n : Nat) (a b : List (α × List Nat)) (h : Grouped y n a)
    (hab : List.Forall₂ (fun g g' : α × List Nat => g'.1 = g.1 ∧ g'.2.Perm g.2) a b) : Grouped y n b := by
  have key : (b.flatMap fun g => g.2).Perm (a.flatMap fun g => g.2) ∧ b.map (·.1) = a.map (·.1) ∧
      (∀ g ∈ b, ∃ g' ∈ a, g.1 = g'.1 ∧ g.2.Perm g'.2) := by
    clear h
    induction hab with
    | nil => exact ⟨List.Perm.refl _, rfl, fun g hg => nomatch hg⟩
    | cons h1 _ ih =>
      refine ⟨?_, by simp only [List.map_cons, h1.1, ih.2.1], ?_⟩
      · simp only [List.flatMap_cons]
        exact h1.2.append ih.1
      · intro g hg
        rcases List.mem_cons.1 hg with rfl | hg
        · exact ⟨_, List.mem_cons_self .., h1⟩
        · obtain ⟨g', a1, a2⟩ := ih.2.2 g hg
          exact ⟨g', List.mem_cons_of_mem _ a1, a2⟩
  refine ⟨key.1.trans h.perm, ?_, ?_⟩
  · intro g hg s hs x
    obtain ⟨g', a1, a2, a3⟩ := key.2.2 g hg
    rw [a2]
    exact h.same g' a1 s (a3.mem_iff.1 hs) x
  · have := h.diff
    rw [← List.pairwise_map (f := fun g : α × List Nat => g.1) (R := fun a b => (a == b) = false)] at this ⊢
    exact key.2.1 ▸ this

end

section
variable {β : Type _}

/-- **C239** is false as a whole: labels 0, 0, 1, 1 in two folds, shuffled with a fixed seed. If the shuffling loop meets class 0 first the
first test set holds another sample of class 0 than if it meets class 1 first, for every generator and seed whose first two draws below 2
differ. -/
theorem stratified_seed_ignored (G : Rng β) (seed : Int)
    (h : (G.int (seedState G seed) 2).1 % 2 ≠ (G.int (G.int (seedState G seed) 2).2 2).1 % 2) :
    let y : Nat → Nat := fun i => i / 2
    MapOrder (id : List (Nat × List Nat) → _) ∧ MapOrder (List.reverse : List (Nat × List Nat) → _) ∧
    ∃ a b : List Fold, stratifiedSeeded G y 4 2 true seed id id = .ok a ∧
      stratifiedSeeded G y 4 2 true seed List.reverse id = .ok b ∧
      (∃ f g, a[0]? = some f ∧ b[0]? = some g ∧ (0 ∈ f.test ↔ 0 ∉ g.test)) ∧ ¬ SameFolds (.ok a) (.ok b) := by
  intro y
  refine ⟨fun l => List.Perm.refl _, fun l => List.reverse_perm l, ?_⟩
  have hg : groups y 4 = [(0, [0, 1]), (1, [2, 3])] := by decide
  set d0 := G.int (seedState G seed) 2 with hd0
  set d1 := G.int d0.2 2 with hd1
  have hsw : ∀ s, G.swaps 2 s = ([(1, (G.int s 2).1 % 2)], (G.int s 2).2) := fun s => rfl
  have e1 : stratifiedSeeded G y 4 2 true seed id id =
      stratified 4 2 [(0, shuffle [(1, d0.1 % 2)] [0, 1]), (1, shuffle [(1, d1.1 % 2)] [2, 3])] := by
    simp only [stratifiedSeeded, hg, id, if_true, shuffleClasses, beq_self_eq_true, List.length_cons, List.length_nil, hsw, ← hd0, ← hd1]
  have e2 : stratifiedSeeded G y 4 2 true seed List.reverse id =
      stratified 4 2 [(1, shuffle [(1, d0.1 % 2)] [2, 3]), (0, shuffle [(1, d1.1 % 2)] [0, 1])] := by
    simp only [stratifiedSeeded, hg, id, List.reverse_cons, List.reverse_nil, List.nil_append, List.cons_append, if_true, shuffleClasses,
      beq_self_eq_true, List.length_cons, List.length_nil, hsw, ← hd0, ← hd1]
  rw [e1, e2]
  have h0 : d0.1 % 2 = 0 ∨ d0.1 % 2 = 1 := by omega
  have h1 : d1.1 % 2 = 0 ∨ d1.1 % 2 = 1 := by omega
  have nosame : ∀ (a b : List Fold) (f g : Fold), a[0]? = some f → b[0]? = some g → (0 ∈ f.test ↔ 0 ∉ g.test) → ¬ SameFolds (.ok a) (.ok b) := by
    intro a b f g ha hb hfg hs
    simp only [SameFolds] at hs
    cases hs with
    | nil => cases ha
    | cons hx _ =>
      simp only [List.getElem?_cons_zero, Option.some.injEq] at ha hb
      subst ha hb
      have := hx.2.mem_iff (a := 0)
      rw [this] at hfg
      exact (iff_not_self hfg)
  rcases h0 with h0 | h0 <;> rcases h1 with h1 | h1
  · exact absurd (h0.trans h1.symm) h
  · rw [h0, h1]
    refine ⟨_, _, rfl, rfl, ⟨_, _, rfl, rfl, by decide⟩, nosame _ _ _ _ rfl rfl (by decide)⟩
  · rw [h0, h1]
    refine ⟨_, _, rfl, rfl, ⟨_, _, rfl, rfl, by decide⟩, nosame _ _ _ _ rfl rfl (by decide)⟩
  · exact absurd (h0.trans h1.symm) h

/-- a generator that meets the hypothesis -/
def exAlt : Rng Nat := ⟨fun a _ => a, fun s => (s, s + 1), fun s _ => (s, s + 1), fun s => (s, s + 1), fun s => (s, s + 1)⟩

example : (exAlt.int (seedState exAlt 42) 2).1 % 2 ≠ (exAlt.int (exAlt.int (seedState exAlt 42) 2).2 2).1 % 2 := by decide

example : (stratifiedSeeded exAlt (fun i => i / 2) 4 2 true 42 id id) =
    .ok [⟨[0, 3], [1, 2]⟩, ⟨[1, 2], [0, 3]⟩] := by decide +kernel

end

/-- **C239** `KFold`: shuffled or not, every split succeeds for `k ≥ 1` with the folds of C60 (a partition into test sets of nearly equal size, the
rest for training); and the folds are those of the seed: they do not depend on earlier calls, since every call seeds a new generator. The model has no
other input than the number of samples, the number of folds, the switch and the seed. -/
theorem kfold_seeded {β : Type _} (G : Rng β) (n : Nat) (k : Int) (hk : 1 ≤ k) (shuffled : Bool) (seed : Int) :
    ∃ folds, kfoldSeeded G n k shuffled seed = .ok folds ∧ (folds.length : Int) = k ∧
      (folds.flatMap fun f => f.test).Perm (List.range n) := by
  obtain ⟨folds, h⟩ := kfold_partition n k hk (if shuffled then some (G.swaps n (seedState G seed)).1 else none)
  exact ⟨folds, h.1, h.2.1, h.2.2.1⟩

/-- `StratifiedKFold` with its seed is the splitter of C61: whatever the orders of the map, its folds have the properties proved there -/
theorem stratified_seeded_partition {α β : Type _} [BEq α] (G : Rng β) (y : Nat → α) (n : Nat) (k : Int) (hk : 1 ≤ k)
    (hsymm : ∀ a b : α, (a == b) = (b == a)) (htrans : ∀ a b c : α, (a == b) = true → (b == c) = true → (a == c) = true)
    (shuffled : Bool) (seed : Int) (first second : List (α × List Nat) → List (α × List Nat)) (hf : MapOrder first) (hs : MapOrder second) :
    ∃ folds, stratifiedSeeded G y n k shuffled seed first second = .ok folds ∧ (folds.length : Int) = k ∧
      (folds.flatMap fun f => f.test).Perm (List.range n) := by
  have hG : Grouped y n (second (if shuffled then shuffleClasses G (seedState G seed) (first (groups y n)) else groups y n)) := by
    refine grouped_perm y n hsymm _ _ ?_ (hs _)
    have h0 := grouped y n hsymm htrans
    cases shuffled with
    | false => exact h0
    | true => exact grouped_forall₂ y n _ _ (grouped_perm y n hsymm _ _ h0 (hf _)) (shuffleClasses_grouped G y n _ _)
  unfold stratifiedSeeded
  simp only
  generalize second (if shuffled then shuffleClasses G (seedState G seed) (first (groups y n)) else groups y n) = order at hG
  refine ⟨_, by unfold stratified; rw [if_neg (by omega), if_neg (by omega)], by simp; omega, ?_⟩
  rw [List.flatMap_map]
  simp only
  have e : ((List.range k.toNat).flatMap fun i => order.foldl (fun t g => distClass k.toNat t g.2) (fun _ => []) i)
      = (List.range k.toNat).flatMap fun i => order.flatMap fun g => part g.2 k.toNat i :=
    List.flatMap_congr fun i hi => by rw [dist_all k.toNat order _ i (by simpa using hi)]; rfl
  rw [e]
  refine (flatMap_swap_perm _ _ _).trans ?_
  rw [List.flatMap_congr fun g (_ : g ∈ order) => parts_all g.2 k.toNat (by omega)]
  exact hG.perm

example : kfoldSeeded exAlt 5 2 true 42 = .ok [⟨[3, 2], [0, 1, 4]⟩, ⟨[0, 1, 4], [3, 2]⟩] := by decide +kernel

end Scigo.CV

namespace Scigo.CV

/-- **C239**: shuffling keeps the classes and their rows in place, and leaves the rows of a class alone whose label is NaN (it differs from itself). -/
theorem shuffled_classes {α β : Type _} [BEq α] (G : Rng β) (s : Nat) (gs : List (α × List Nat)) :
    (shuffleClasses G s gs).length = gs.length ∧ ∀ (i : Nat) (c : α) (rows : List Nat), gs[i]? = some (c, rows) → ∃ rows' : List Nat, (shuffleClasses G s gs)[i]? = some (c, rows') ∧ rows'.Perm rows ∧
      ((c == c) = false → rows' = rows) := by
  induction gs generalizing s with
  | nil => exact ⟨rfl, fun i c rows h => by simp at h⟩
  | cons g gs ih =>
    by_cases h : (g.1 == g.1) = true
    · rw [shuffleClasses, if_pos h]
      obtain ⟨h1, h2⟩ := ih (G.swaps g.2.length s).2
      refine ⟨by rw [List.length_cons, List.length_cons, h1], fun i c rows hi => ?_⟩
      cases i with
      | zero =>
        simp only [List.getElem?_cons_zero, Option.some.injEq] at hi ⊢
        subst hi
        exact ⟨_, rfl, shuffle_perm _ _, fun c => absurd h (by rw [c]; exact Bool.false_ne_true)⟩
      | succ i => exact h2 i c rows hi
    · rw [shuffleClasses, if_neg h]
      obtain ⟨h1, h2⟩ := ih s
      refine ⟨by rw [List.length_cons, List.length_cons, h1], fun i c rows hi => ?_⟩
      cases i with
      | zero =>
        simp only [List.getElem?_cons_zero, Option.some.injEq] at hi ⊢
        subst hi
        exact ⟨_, rfl, List.Perm.refl _, fun _ => rfl⟩
      | succ i => exact h2 i c rows hi

/-- a label which differs from itself, as NaN does -/
instance nanLabel : BEq (Option Nat) := ⟨fun a b => match a, b with | some x, some y => x == y | _, _ => false⟩

/-- class 1 is shuffled, the rows without a label are not -/
example : (@shuffleClasses (Option Nat) Nat nanLabel exAlt 0 [(some 1, [0, 2]), (none, [1, 3])]).map (·.2) = [[2, 0], [1, 3]] := by decide +kernel

end Scigo.CV
