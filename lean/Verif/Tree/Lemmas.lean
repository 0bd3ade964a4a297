import Verif.Tree.Spec
import Mathlib.Algebra.Order.Field.Basic
import Mathlib.Tactic.Ring
import Mathlib.Tactic.Linarith
import Mathlib.Tactic.FieldSimp
import Mathlib.Tactic.Positivity

set_option linter.unusedSectionVars false

namespace Scigo.Tree

variable {α : Type _}

/-! ## Counting -/

section
variable [Add α] [Sub α] [Mul α] [Div α] [Zero α] [One α] [NatCast α]
  [LT α] [LE α] [DecidableLT α] [DecidableLE α] [BEq α]

theorem getD_modify_nat (l : List Nat) (k i : Nat) :
    (l.modify k (· + 1)).getD i 0 = if k = i ∧ i < l.length then l.getD i 0 + 1 else l.getD i 0 := by
  rw [List.getD_eq_getElem?_getD, List.getElem?_modify, List.getD_eq_getElem?_getD]
  by_cases h : k = i
  · subst h
    by_cases h2 : k < l.length
    · simp [h2]
    · simp [h2]
  · simp [h]

theorem classCounts_aux (S : List (Sample α)) (c : List Nat) :
    (S.foldl (fun c s => c.modify s.2 (· + 1)) c).length = c.length ∧
    ∀ k < c.length, (S.foldl (fun c s => c.modify s.2 (· + 1)) c).getD k 0
      = c.getD k 0 + S.countP (fun s => decide (s.2 = k)) := by
  induction S generalizing c with
  | nil => simp
  | cons s S ih =>
    obtain ⟨h1, h2⟩ := ih (c.modify s.2 (· + 1))
    refine ⟨by rw [List.foldl_cons, h1, List.length_modify], ?_⟩
    intro k hk
    rw [List.foldl_cons, h2 k (by simpa using hk), getD_modify_nat, List.countP_cons]
    by_cases h : s.2 = k
    · simp [h, hk]; omega
    · simp [h]

theorem classCounts_length (n : Nat) (S : List (Sample α)) : (classCounts n S).length = n := by
  unfold classCounts; rw [(classCounts_aux S _).1, List.length_replicate]

theorem classCounts_getD (n : Nat) (S : List (Sample α)) (k : Nat) (hk : k < n) :
    (classCounts n S).getD k 0 = S.countP (fun s => decide (s.2 = k)) := by
  unfold classCounts
  rw [(classCounts_aux S _).2 k (by simpa using hk)]
  simp [hk]

theorem classCounts_eq (n : Nat) (S : List (Sample α)) :
    classCounts n S = (List.range n).map (fun k => S.countP (fun s => decide (s.2 = k))) := by
  apply List.ext_getElem
  · simp [classCounts_length]
  · intro k h1 h2
    have hk : k < n := by simpa using h2
    have := classCounts_getD n S k hk
    rw [List.getD_eq_getElem?_getD, List.getElem?_eq_getElem h1, Option.getD_some] at this
    simp [this]

theorem sum_modify_nat (l : List Nat) (k : Nat) (hk : k < l.length) :
    (l.modify k (· + 1)).sum = l.sum + 1 := by
  induction l generalizing k with
  | nil => simp at hk
  | cons a l ih =>
    cases k with
    | zero => simp; omega
    | succ k => simp [ih k (by simpa using hk)]; omega

theorem classCounts_sum (n : Nat) (S : List (Sample α)) (h : InRange n S) :
    (classCounts n S).sum = S.length := by
  have aux : ∀ (S : List (Sample α)) (c : List Nat), (∀ s ∈ S, s.2 < c.length) →
      (S.foldl (fun c s => c.modify s.2 (· + 1)) c).sum = c.sum + S.length := by
    intro S
    induction S with
    | nil => simp
    | cons s S ih =>
      intro c hc
      rw [List.foldl_cons, ih _ (by intro s' hs'; simpa using hc s' (by simp [hs'])),
        sum_modify_nat _ _ (hc s (by simp)), List.length_cons]
      omega
  unfold classCounts
  rw [aux S _ (by simpa [InRange] using h)]
  simp

theorem foldl_add_nat (l : List Nat) : l.foldl (· + ·) 0 = l.sum := by
  rw [List.sum_eq_foldl]

theorem sideCounts_eq (n : Nat) (S : List (Sample α)) (f : Nat) (thr : α) :
    sideCounts n S f thr = (classCounts n (leftOf S f thr), classCounts n (rightOf S f thr),
      (leftOf S f thr).length, (rightOf S f thr).length) := by
  have aux : ∀ (S : List (Sample α)) (a : List Nat × List Nat × Nat × Nat),
      S.foldl (fun (a : List Nat × List Nat × Nat × Nat) s =>
        if s.1 f ≤ thr then (a.1.modify s.2 (· + 1), a.2.1, a.2.2.1 + 1, a.2.2.2)
        else (a.1, a.2.1.modify s.2 (· + 1), a.2.2.1, a.2.2.2 + 1)) a
      = ((leftOf S f thr).foldl (fun c s => c.modify s.2 (· + 1)) a.1,
         (rightOf S f thr).foldl (fun c s => c.modify s.2 (· + 1)) a.2.1,
         a.2.2.1 + (leftOf S f thr).length, a.2.2.2 + (rightOf S f thr).length) := by
    intro S
    induction S with
    | nil => intro a; rfl
    | cons s S ih =>
      intro a
      rw [List.foldl_cons, ih]
      unfold leftOf rightOf
      by_cases h : s.1 f ≤ thr
      · simp [h]; omega
      · simp [h]; omega
  unfold sideCounts
  rw [aux]
  simp [classCounts]

theorem length_left_right (S : List (Sample α)) (f : Nat) (thr : α) :
    (leftOf S f thr).length + (rightOf S f thr).length = S.length := by
  unfold leftOf rightOf
  induction S with
  | nil => rfl
  | cons s S ih =>
    by_cases h : s.1 f ≤ thr
    · simp [h] at ih ⊢; omega
    · simp [h] at ih ⊢; omega

theorem majority_spec (c : List Nat) (hpos : 0 < c.sum) : FirstMaxNat c (majority c) := by
  have aux : ∀ (l pre : List Nat) (b : Nat × Nat),
      ((b = (0, 0) ∧ ∀ x ∈ pre, x = 0) ∨
        (0 < b.1 ∧ b.2 < pre.length ∧ pre.getD b.2 0 = b.1 ∧ (∀ x ∈ pre, x ≤ b.1) ∧
          ∀ j < b.2, pre.getD j 0 < b.1)) →
      let r := (l.zipIdx pre.length).foldl
        (fun (b : Nat × Nat) p => if b.1 < p.1 then (p.1, p.2) else b) b
      ((r = (0, 0) ∧ ∀ x ∈ pre ++ l, x = 0) ∨
        (0 < r.1 ∧ r.2 < (pre ++ l).length ∧ (pre ++ l).getD r.2 0 = r.1 ∧
          (∀ x ∈ pre ++ l, x ≤ r.1) ∧ ∀ j < r.2, (pre ++ l).getD j 0 < r.1)) := by
    intro l
    induction l with
    | nil => intro pre b h; simpa using h
    | cons x l ih =>
      intro pre b h
      have key := ih (pre ++ [x]) (if b.1 < x then (x, pre.length) else b) (by
        by_cases hlt : b.1 < x
        · rw [if_pos hlt]
          right
          refine ⟨by simp only; omega, by simp, by simp [List.getD_eq_getElem?_getD], ?_, ?_⟩
          · intro y hy
            rcases List.mem_append.1 hy with hy | hy
            · rcases h with ⟨-, h⟩ | ⟨-, -, -, h, -⟩
              · rw [h y hy]; omega
              · exact (h y hy).trans hlt.le
            · simp at hy; rw [hy]
          · intro j hj
            have hj' : j < pre.length := hj
            have e : (pre ++ [x]).getD j 0 = pre.getD j 0 := by
              rw [List.getD_eq_getElem?_getD, List.getElem?_append_left hj', List.getD_eq_getElem?_getD]
            rw [e]
            have hm : pre.getD j 0 ∈ pre := by
              rw [List.getD_eq_getElem?_getD, List.getElem?_eq_getElem hj', Option.getD_some]
              exact List.getElem_mem hj'
            rcases h with ⟨-, h⟩ | ⟨-, -, -, h, -⟩
            · rw [h _ hm]; simp only; omega
            · exact lt_of_le_of_lt (h _ hm) hlt
        · rw [if_neg hlt]
          rcases h with ⟨hb, h⟩ | ⟨h1, h2, h3, h4, h5⟩
          · left
            refine ⟨hb, ?_⟩
            intro y hy
            rcases List.mem_append.1 hy with hy | hy
            · exact h y hy
            · simp at hy; rw [hy]; rw [hb] at hlt; simp only at hlt; omega
          · right
            have e : ∀ j < pre.length, (pre ++ [x]).getD j 0 = pre.getD j 0 := by
              intro j hj
              rw [List.getD_eq_getElem?_getD, List.getElem?_append_left hj, List.getD_eq_getElem?_getD]
            refine ⟨h1, by simp; omega, by rw [e _ h2, h3], ?_, ?_⟩
            · intro y hy
              rcases List.mem_append.1 hy with hy | hy
              · exact h4 y hy
              · simp at hy; omega
            · intro j hj
              rw [e j (by omega)]; exact h5 j hj)
      rw [List.length_append, List.length_singleton] at key
      simp only [List.append_assoc, List.singleton_append] at key
      rw [List.zipIdx_cons, List.foldl_cons]
      exact key
  have h := aux c [] (0, 0) (Or.inl ⟨rfl, by simp⟩)
  simp only [List.length_nil, List.nil_append] at h
  change (_ ∨ _) at h
  rcases h with ⟨-, h⟩ | ⟨h1, h2, h3, h4, h5⟩
  · have : c.sum = 0 := List.sum_eq_zero h
    omega
  · refine ⟨h2, ?_, ?_⟩
    · intro j hj
      unfold majority
      rw [h3]
      apply h4
      rw [List.getD_eq_getElem?_getD, List.getElem?_eq_getElem hj, Option.getD_some]
      exact List.getElem_mem hj
    · intro j hj
      unfold majority
      rw [h3]
      exact h5 j hj

/-! ## Trees that `build` can return -/

/-- `t` is a tree for `S` at depth `d`; `gs` lists the credited importances in order -/
inductive Grown (log2 : α → α) (srt : (Nat → α) → List Nat → List Nat) (P : Params α)
    (nC nF : Nat) : List (Sample α) → Nat → DTree α → List (Nat × α) → Prop
  | leaf (S d) : Grown log2 srt P nC nF S d (.leaf (mkInfo log2 P nC S d)) []
  | split (S d f thr dec l r gl gr)
      (hstop : shouldStop P S.length (mkInfo log2 P nC S d).impurity d = false)
      (hbest : findBestSplit log2 srt P nC nF S (mkInfo log2 P nC S d).impurity = (some f, thr, dec))
      (hmin : ¬ dec < P.minImpurityDecrease)
      (hL : P.minSamplesLeaf ≤ (leftOf S f thr).length)
      (hR : P.minSamplesLeaf ≤ (rightOf S f thr).length)
      (hL0 : leftOf S f thr ≠ []) (hR0 : rightOf S f thr ≠ [])
      (gl' : Grown log2 srt P nC nF (leftOf S f thr) (d + 1) l gl)
      (gr' : Grown log2 srt P nC nF (rightOf S f thr) (d + 1) r gr) :
      Grown log2 srt P nC nF S d (.split (mkInfo log2 P nC S d) f thr l r)
        ((f, dec * (S.length : α)) :: (gl ++ gr))

/-- credit the importances -/
def credit (imps : List α) (gs : List (Nat × α)) : List α :=
  gs.foldl (fun l g => l.modify g.1 (· + g.2)) imps

theorem build_grown (log2 : α → α) (srt : (Nat → α) → List Nat → List Nat) (P : Params α)
    (nC nF : Nat) (fuel : Nat) : ∀ (S : List (Sample α)) (d : Nat) (imps : List α) (t : DTree α)
    (imps' : List α), build log2 srt P nC nF fuel S d imps = some (.ok (t, imps')) →
    ∃ gs, Grown log2 srt P nC nF S d t gs ∧ imps' = credit imps gs := by
  induction fuel with
  | zero => intro S d imps t imps' h; simp [build] at h
  | succ fuel ih =>
    intro S d imps t imps' h
    rw [build] at h
    simp only at h
    have leafcase : some (Outcome.ok (DTree.leaf (mkInfo log2 P nC S d), imps)) = some (.ok (t, imps')) →
        ∃ gs, Grown log2 srt P nC nF S d t gs ∧ imps' = credit imps gs := by
      intro h
      simp only [Option.some.injEq, Outcome.ok.injEq, Prod.mk.injEq] at h
      obtain ⟨rfl, rfl⟩ := h
      exact ⟨[], .leaf S d, rfl⟩
    split at h
    · exact leafcase h
    · rename_i hstop
      split at h
      · exact leafcase h
      · rename_i f thr dec hbest
        split at h
        · exact leafcase h
        · rename_i hmin
          split at h
          · exact leafcase h
          · rename_i hLR
            split at h
            · simp at h
            · rename_i h0
              push Not at hLR h0
              split at h
              · rename_i l imps1 hl
                split at h
                · rename_i r imps2 hr
                  simp only [Option.some.injEq, Outcome.ok.injEq, Prod.mk.injEq] at h
                  obtain ⟨rfl, rfl⟩ := h
                  obtain ⟨gl, hgl, el⟩ := ih _ _ _ _ _ hl
                  obtain ⟨gr, hgr, er⟩ := ih _ _ _ _ _ hr
                  refine ⟨_, .split S d f thr dec l r gl gr (by simpa using hstop) hbest hmin hLR.1
                    hLR.2 (by intro h; exact h0.1 (by rw [h]; rfl))
                    (by intro h; exact h0.2 (by rw [h]; rfl)) hgl hgr, ?_⟩
                  rw [er, el]
                  simp [credit]
                · rename_i hno
                  exact absurd h (by
                    intro h
                    exact hno _ _ h)
              · rename_i hno
                exact absurd h (fun h => hno _ _ h)

/-- if accepted splits leave no side empty, the recursion ends within `S.length + 1` levels -/
theorem build_total (log2 : α → α) (srt : (Nat → α) → List Nat → List Nat) (P : Params α)
    (nC nF : Nat)
    (hne : ∀ (S : List (Sample α)) d f thr dec, S.length ≠ 0 → InRange nC S →
      findBestSplit log2 srt P nC nF S (mkInfo log2 P nC S d).impurity = (some f, thr, dec) →
      P.minSamplesLeaf ≤ (leftOf S f thr).length → P.minSamplesLeaf ≤ (rightOf S f thr).length →
      (leftOf S f thr).length ≠ 0 ∧ (rightOf S f thr).length ≠ 0)
    (fuel : Nat) : ∀ (S : List (Sample α)) (d : Nat) (imps : List α), InRange nC S → S.length ≠ 0 →
      S.length ≤ fuel →
      ∃ t imps', build log2 srt P nC nF fuel S d imps = some (.ok (t, imps')) := by
  induction fuel with
  | zero => intro S d imps _ h0 h; omega
  | succ fuel ih =>
    intro S d imps hr hS0 hS
    rw [build]
    simp only
    split
    · exact ⟨_, _, rfl⟩
    · split
      · exact ⟨_, _, rfl⟩
      · rename_i f thr dec hbest
        split
        · exact ⟨_, _, rfl⟩
        · split
          · exact ⟨_, _, rfl⟩
          · rename_i hLR
            push Not at hLR
            obtain ⟨hL, hR⟩ := hne S d f thr dec hS0 hr hbest hLR.1 hLR.2
            rw [if_neg (by rintro (h | h) <;> contradiction)]
            have hsum := length_left_right S f thr
            obtain ⟨l, i1, e1⟩ := ih (leftOf S f thr) (d + 1)
              (imps.modify f (· + dec * (S.length : α)))
              (fun s hs => hr s (List.mem_filter.1 hs).1) hL (by omega)
            obtain ⟨r, i2, e2⟩ := ih (rightOf S f thr) (d + 1) i1
              (fun s hs => hr s (List.mem_filter.1 hs).1) hR (by omega)
            rw [e1]
            simp only
            rw [e2]
            exact ⟨_, _, rfl⟩

theorem build_mono (log2 : α → α) (srt : (Nat → α) → List Nat → List Nat) (P : Params α)
    (nC nF : Nat) (fuel : Nat) : ∀ (S : List (Sample α)) (d : Nat) (imps : List α) (o),
      build log2 srt P nC nF fuel S d imps = some o →
      build log2 srt P nC nF (fuel + 1) S d imps = some o := by
  induction fuel with
  | zero => intro S d imps o h; simp [build] at h
  | succ fuel ih =>
    intro S d imps o h
    rw [build] at h ⊢
    simp only at h ⊢
    split at h
    · rename_i hc; rw [if_pos hc]; exact h
    · rename_i hc; rw [if_neg hc]
      split at h
      · exact h
      · rename_i f thr dec hb
        split at h
        · rename_i hc2; rw [if_pos hc2]; exact h
        · rename_i hc2; rw [if_neg hc2]
          split at h
          · rename_i hc3; rw [if_pos hc3]; exact h
          · rename_i hc3; rw [if_neg hc3]
            split at h
            · rename_i hc4; rw [if_pos hc4]; exact h
            · rename_i hc4; rw [if_neg hc4]
              split at h
              · rename_i l i1 hl
                rw [ih _ _ _ _ hl]
                simp only
                split at h
                · rename_i r i2 hr
                  rw [ih _ _ _ _ hr]; exact h
                · rename_i hno
                  rw [ih _ _ _ _ h]
                  split
                  · rename_i r i2 hr
                    exact absurd (h.trans hr) (hno _ _)
                  · rfl
              · rename_i hno
                rw [ih _ _ _ _ h]
                split
                · rename_i r i2 hr
                  exact absurd (h.trans hr) (hno _ _)
                · rfl

theorem build_fuel (log2 : α → α) (srt : (Nat → α) → List Nat → List Nat) (P : Params α)
    (nC nF : Nat) (fuel fuel' : Nat) (hle : fuel ≤ fuel') (S : List (Sample α)) (d : Nat)
    (imps : List α) (o) (h : build log2 srt P nC nF fuel S d imps = some o) :
    build log2 srt P nC nF fuel' S d imps = some o := by
  induction hle with
  | refl => exact h
  | step _ ih => exact build_mono _ _ _ _ _ _ _ _ _ _ ih

end

end Scigo.Tree
