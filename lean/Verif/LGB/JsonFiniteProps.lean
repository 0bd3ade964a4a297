import Verif.LGB.JsonProps

/-!
# C342: the JSON writer refuses exactly the models with numbers JSON cannot hold
-/

set_option linter.unusedSectionVars false

namespace Scigo.LGB

variable {α : Type} [Zero α] [BEq α]

/-! ## Specification -/

/-- the node `b` is reached from the node `a` by following the children of splits (cf. `sklearn/lightgbm/loader.go:518-555`) -/
inductive UnderNode (t : Tree α) : Int → Int → Prop
  | refl (a : Int) : UnderNode t a a
  | left {a b : Int} {n : Node α} : t.nodeAt a = some n → n.kind ≠ .leaf → 0 ≤ n.left → UnderNode t n.left b → UnderNode t a b
  | right {a b : Int} {n : Node α} : t.nodeAt a = some n → n.kind ≠ .leaf → 0 ≤ n.right → UnderNode t n.right b → UnderNode t a b

/-- JSON can hold the numbers of a node: the output of a leaf; the gain, threshold and value of a split (cf. `sklearn/lightgbm/loader.go:525-544`) -/
def NodeFinite (fin : α → Bool) (n : Node α) : Prop :=
  (n.kind = .leaf → fin n.leafValue = true) ∧ (n.kind ≠ .leaf → fin n.gain = true ∧ fin n.threshold = true ∧ fin n.internalValue = true)

/-- JSON can hold all numbers of a tree -/
def TreeFinite (fin : α → Bool) (t : Tree α) : Prop :=
  fin t.shrinkage = true ∧ ∀ id n, UnderNode t 0 id → t.nodeAt id = some n → NodeFinite fin n

/-! ## Lemmas -/

theorem toJ_split {t : Tree α} {fuel : Nat} {id : Int} {n : Node α} {j : J α} (h : t.toJ (fuel + 1) id = some j) (hn : t.nodeAt id = some n) (hk : n.kind ≠ .leaf) :
    ∃ l r, j = .node (splitData n) l r ∧ (if n.left ≥ 0 then t.toJ fuel n.left else some .nil) = some l ∧ (if n.right ≥ 0 then t.toJ fuel n.right else some .nil) = some r := by
  unfold Tree.toJ at h
  rw [hn] at h
  dsimp only at h
  rw [if_neg hk] at h
  cases hl : (if n.left ≥ 0 then t.toJ fuel n.left else some .nil) with
  | none => rw [hl] at h; cases h
  | some l =>
    rw [hl] at h
    dsimp only at h
    cases hr : (if n.right ≥ 0 then t.toJ fuel n.right else some .nil) with
    | none => rw [hr] at h; cases h
    | some r =>
      rw [hr] at h
      exact ⟨l, r, (Option.some.inj h).symm, rfl, rfl⟩

theorem finite_node {fin : α → Bool} {d : JData α} {l r : J α} : (J.node d l r).finite fin = true ↔
    fin d.gain = true ∧ fin d.threshold = true ∧ fin d.internalValue = true ∧ fin d.leafValue = true ∧ l.finite fin = true ∧ r.finite fin = true := by
  simp only [J.finite, Bool.and_eq_true, and_assoc]

theorem finite_below {fin : α → Bool} {t : Tree α} {a b : Int} (hb : UnderNode t a b) : ∀ (fuel : Nat) (j : J α), t.toJ fuel a = some j → j.finite fin = true →
    ∀ n, t.nodeAt b = some n → NodeFinite fin n := by
  induction hb with
  | refl a =>
    intro fuel j hj hf n hn
    cases fuel with
    | zero => cases hj
    | succ fuel =>
      by_cases hk : n.kind = .leaf
      · unfold Tree.toJ at hj
        rw [hn] at hj
        dsimp only at hj
        rw [if_pos hk] at hj
        obtain rfl := Option.some.inj hj
        exact ⟨fun _ => (finite_node.1 hf).2.2.2.1, fun h => absurd hk h⟩
      · obtain ⟨l, r, rfl, -, -⟩ := toJ_split hj hn hk
        have := finite_node.1 hf
        exact ⟨fun h => absurd h hk, fun _ => ⟨this.1, this.2.1, this.2.2.1⟩⟩
  | left hn hk h0 _ ih =>
    intro fuel j hj hf
    cases fuel with
    | zero => cases hj
    | succ fuel =>
      obtain ⟨l, r, rfl, hl, -⟩ := toJ_split hj hn hk
      rw [if_pos h0] at hl
      exact ih fuel l hl (finite_node.1 hf).2.2.2.2.1
  | right hn hk h0 _ ih =>
    intro fuel j hj hf
    cases fuel with
    | zero => cases hj
    | succ fuel =>
      obtain ⟨l, r, rfl, -, hr⟩ := toJ_split hj hn hk
      rw [if_pos h0] at hr
      exact ih fuel r hr (finite_node.1 hf).2.2.2.2.2

theorem nodes_finite {fin : α → Bool} (h0 : fin 0 = true) {t : Tree α} : ∀ (fuel : Nat) (a : Int) (j : J α), t.toJ fuel a = some j →
    (∀ b n, UnderNode t a b → t.nodeAt b = some n → NodeFinite fin n) → j.finite fin = true := by
  intro fuel
  induction fuel with
  | zero => intro a j hj; cases hj
  | succ fuel ih =>
    intro a j hj hp
    cases hn : t.nodeAt a with
    | none =>
      unfold Tree.toJ at hj
      rw [hn] at hj
      obtain rfl := Option.some.inj hj
      rfl
    | some n =>
      have hP := hp a n (.refl a) hn
      by_cases hk : n.kind = .leaf
      · unfold Tree.toJ at hj
        rw [hn] at hj
        dsimp only at hj
        rw [if_pos hk] at hj
        obtain rfl := Option.some.inj hj
        exact finite_node.2 ⟨h0, h0, h0, hP.1 hk, rfl, rfl⟩
      · obtain ⟨l, r, rfl, hl, hr⟩ := toJ_split hj hn hk
        obtain ⟨p1, p2, p3⟩ := hP.2 hk
        refine finite_node.2 ⟨p1, p2, p3, h0, ?_, ?_⟩
        · split at hl
          · next h => exact ih _ _ hl fun b n' hb => hp b n' (.left hn hk h hb)
          · obtain rfl := Option.some.inj hl; rfl
        · split at hr
          · next h => exact ih _ _ hr fun b n' hb => hp b n' (.right hn hk h hb)
          · obtain rfl := Option.some.inj hr; rfl

theorem toJTrees_all {fin : α → Bool} (h0 : fin 0 = true) : ∀ (ts : List (Tree α)) (js : List (JTree α)), toJTrees ts = some js →
    (js.all (fun j => fin j.shrinkage && j.root.finite fin) = true ↔ ∀ t ∈ ts, TreeFinite fin t) := by
  intro ts
  induction ts with
  | nil =>
    intro js h
    obtain rfl := Option.some.inj h
    simp
  | cons t ts ih =>
    intro js h
    unfold toJTrees at h
    cases hj : t.toJ (t.nodes.length + 1) 0 with
    | none => simp [Tree.toJTree, hj] at h
    | some j =>
      cases hs : toJTrees ts with
      | none => simp [Tree.toJTree, hj, hs] at h
      | some js' =>
        simp only [Tree.toJTree, hj, hs, Option.some.injEq] at h
        subst h
        rw [List.all_cons, Bool.and_eq_true, Bool.and_eq_true, ih js' hs, List.forall_mem_cons]
        refine and_congr_left fun _ => and_congr_right fun _ => ⟨fun hf id n hb hn => finite_below hb _ _ hj hf n hn, fun hp => nodes_finite h0 _ _ _ hj hp⟩

/-! ## Theorems -/

/-- **C342.** A model that is written has only numbers JSON can hold in all its trees; no document with another number comes into being. -/
theorem written_numbers_finite (fin : α → Bool) (h0 : fin 0 = true) (m : Model α) (doc : JModel α) (h : m.toJSON fin = .ok doc) : ∀ t ∈ m.trees, TreeFinite fin t := by
  unfold Model.toJSON at h
  split at h
  · cases h
  · cases hj : toJTrees m.trees with
    | none => rw [hj] at h; cases h
    | some js =>
      rw [hj] at h
      dsimp only at h
      split at h
      · next hall => exact (toJTrees_all h0 m.trees js hj).1 hall
      · cases h

/-- **C342.** The writer returns an error only for a model with a number JSON cannot hold in some tree. -/
theorem refused_has_bad_number (fin : α → Bool) (h0 : fin 0 = true) (m : Model α) (e : GoErr) (h : m.toJSON fin = .err e) : ∃ t ∈ m.trees, ¬ TreeFinite fin t := by
  unfold Model.toJSON at h
  split at h
  · cases h
  · cases hj : toJTrees m.trees with
    | none => rw [hj] at h; cases h
    | some js =>
      rw [hj] at h
      dsimp only at h
      split at h
      · cases h
      · next hall =>
        by_contra hn
        push Not at hn
        exact hall ((toJTrees_all h0 m.trees js hj).2 hn)

/-- the two-level tree of `deepTree`, with 5 standing for a number JSON cannot hold: it is the threshold of the second split -/
example : ∃ e, ((⟨"regression", 1, 1, 1, [deepTree], 2, 0, 0, false⟩ : Model ℚ).toJSON fun v => v != 5) = .err e := ⟨_, rfl⟩

example : ∃ doc, ((⟨"regression", 1, 1, 1, [deepTree], 2, 0, 0, false⟩ : Model ℚ).toJSON fun v => v != 6) = .ok doc := ⟨_, rfl⟩

end Scigo.LGB
