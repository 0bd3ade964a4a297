import Verif.EFB.Props

/-!
# What the greedy bundling achieves (C244)

`greedyBundling` of `sklearn/lightgbm/efb.go`: the order in which columns are taken and which columns stay alone.
-/

set_option linter.unusedSectionVars false

namespace Scigo.EFB

variable {α : Type}

theorem fill_sub (bad : Nat → Nat → Bool) (rest : List Nat) : ∀ bundle, ∃ sub, (fill bad bundle rest).1 = bundle ++ sub ∧ sub.Sublist rest ∧
    (fill bad bundle rest).2.Sublist rest := by
  induction rest with
  | nil => exact fun b => ⟨[], by simp [fill]⟩
  | cons i rest ih =>
    intro b
    rw [fill]
    split_ifs with h
    · obtain ⟨sub, h1, h2, h3⟩ := ih (b ++ [i])
      exact ⟨i :: sub, by rw [h1]; simp, h2.cons_cons i, h3.cons i⟩
    · obtain ⟨sub, h1, h2, h3⟩ := ih b
      exact ⟨sub, h1, h2.cons i, h3.cons_cons i⟩

theorem fill_max (bad : Nat → Nat → Bool) (rest : List Nat) : ∀ bundle, ∀ g ∈ (fill bad bundle rest).2, ∃ f ∈ (fill bad bundle rest).1, bad g f = true := by
  induction rest with
  | nil => intro b g hg; simp [fill] at hg
  | cons i rest ih =>
    intro b g hg
    rw [fill] at hg ⊢
    split_ifs at hg ⊢ with h
    · exact ih _ g hg
    · rcases List.mem_cons.1 hg with rfl | hg
      · have : ∃ f ∈ b, bad g f = true := by
          by_contra hc
          apply h
          rw [List.all_eq_true]
          intro f hf
          cases hb : bad g f with
          | false => rfl
          | true => exact absurd ⟨f, hf, hb⟩ hc
        obtain ⟨f, hf, hb⟩ := this
        obtain ⟨sub, h1, -, -⟩ := fill_sub bad rest b
        exact ⟨f, by rw [h1]; exact List.mem_append_left _ hf, hb⟩
      · exact ih b g hg

/-- the bundles so far, the columns left and the columns that stay alone -/
structure Greedy (bad : Nat → Nat → Bool) (key : Nat → Nat) (features : List Nat) (bundles : List (List Nat)) (rest alone : List Nat) : Prop where
  sorted : rest.Pairwise fun f g => key f ≤ key g
  within : ∀ b ∈ bundles, b.Pairwise fun f g => key f ≤ key g
  seeds : bundles.Pairwise fun b c => ∀ f, b.head? = some f → ∀ g ∈ c, key f ≤ key g
  seedsRest : ∀ b ∈ bundles, ∀ f, b.head? = some f → ∀ g ∈ rest, key f ≤ key g
  max : bundles.Pairwise fun b c => ∀ g ∈ c, ∃ f ∈ b, bad g f = true
  maxRest : ∀ b ∈ bundles, ∀ g ∈ rest, ∃ f ∈ b, bad g f = true
  maxAlone : ∀ b ∈ bundles, ∀ g ∈ alone, ∃ f ∈ b, bad g f = true
  aloneRest : ∀ a ∈ alone, ∀ g ∈ rest, bad a g = true
  alonePair : alone.Pairwise fun a b => bad a b = true
  mem : ∀ f ∈ features, f ∈ bundles.flatten ∨ f ∈ rest ∨ f ∈ alone

theorem rounds_greedy (bad : Nat → Nat → Bool) (hsym : ∀ f g, bad f g = bad g f) (key : Nat → Nat) (maxBundles : Int) (n : Nat) (features : List Nat) :
    ∀ fuel bundles rest alone, rest.length ≤ fuel → Greedy bad key features bundles rest alone →
      ∃ rest' alone', Greedy bad key features (rounds bad maxBundles n fuel bundles rest) rest' alone' ∧
        (rest' = [] ∨ ¬ (((rounds bad maxBundles n fuel bundles rest).length : Int) < maxBundles ∧ (rounds bad maxBundles n fuel bundles rest).length < n)) := by
  intro fuel
  induction fuel with
  | zero =>
    intro bundles rest alone hl h
    have : rest = [] := List.length_eq_zero_iff.1 (Nat.le_zero.1 hl)
    exact ⟨rest, alone, h, Or.inl this⟩
  | succ fuel ih =>
    intro bundles rest alone hl h
    unfold rounds
    by_cases hc : (bundles.length : Int) < maxBundles ∧ bundles.length < n
    · rw [if_pos hc]
      cases rest with
      | nil => exact ⟨[], alone, h, Or.inl rfl⟩
      | cons s l =>
        dsimp only
        obtain ⟨sub, f1, f2, f3⟩ := fill_sub bad l [s]
        have f4 := fill_max bad l [s]
        have hlen : (fill bad [s] l).2.length ≤ fuel := by
          have := f3.length_le
          simp only [List.length_cons] at hl
          omega
        have hsl := List.pairwise_cons.1 h.sorted
        have hperm := (fill_spec bad l [s] (List.pairwise_singleton _ _)).2.1
        have hmem : ∀ f ∈ s :: l, f ∈ (fill bad [s] l).1 ∨ f ∈ (fill bad [s] l).2 := by
          intro f hf
          have : f ∈ (fill bad [s] l).1 ++ (fill bad [s] l).2 := hperm.mem_iff.2 hf
          exact List.mem_append.1 this
        have hb1 : ∀ g ∈ (fill bad [s] l).1, g ∈ s :: l := by
          intro g hg
          rw [f1] at hg
          rcases List.mem_append.1 hg with hg | hg
          · exact List.mem_cons.2 (Or.inl (List.mem_singleton.1 hg))
          · exact List.mem_cons_of_mem _ (f2.subset hg)
        have hb2 : ∀ g ∈ (fill bad [s] l).2, g ∈ s :: l := fun g hg => List.mem_cons_of_mem _ (f3.subset hg)
        by_cases hbig : 1 < (fill bad [s] l).1.length
        · rw [if_pos hbig]
          refine ih _ _ alone hlen ⟨hsl.2.sublist f3, ?_, ?_, ?_, ?_, ?_, ?_, ?_, h.alonePair, ?_⟩
          · intro b hb
            rcases List.mem_append.1 hb with hb | hb
            · exact h.within b hb
            · rw [List.mem_singleton.1 hb, f1]
              exact List.Pairwise.sublist (show ([s] ++ sub).Sublist (s :: l) from f2.cons_cons s) h.sorted
          · refine List.pairwise_append.2 ⟨h.seeds, List.pairwise_singleton _ _, fun b hb c hc' f hf g hg => ?_⟩
            rw [List.mem_singleton.1 hc'] at hg
            exact h.seedsRest b hb f hf g (hb1 g hg)
          · intro b hb f hf g hg
            rcases List.mem_append.1 hb with hb | hb
            · exact h.seedsRest b hb f hf g (hb2 g hg)
            · rw [List.mem_singleton.1 hb, f1] at hf
              simp only [List.cons_append, List.nil_append, List.head?_cons, Option.some.injEq] at hf
              rw [← hf]
              exact hsl.1 g (f3.subset hg)
          · refine List.pairwise_append.2 ⟨h.max, List.pairwise_singleton _ _, fun b hb c hc' g hg => ?_⟩
            rw [List.mem_singleton.1 hc'] at hg
            exact h.maxRest b hb g (hb1 g hg)
          · intro b hb g hg
            rcases List.mem_append.1 hb with hb | hb
            · exact h.maxRest b hb g (hb2 g hg)
            · rw [List.mem_singleton.1 hb]
              exact f4 g hg
          · intro b hb g hg
            rcases List.mem_append.1 hb with hb | hb
            · exact h.maxAlone b hb g hg
            · rw [List.mem_singleton.1 hb, f1]
              exact ⟨s, by simp, h.aloneRest g hg s List.mem_cons_self⟩
          · exact fun a ha g hg => h.aloneRest a ha g (hb2 g hg)
          · intro f hf
            rcases h.mem f hf with h1 | h1 | h1
            · left; rw [List.flatten_append]; exact List.mem_append_left _ h1
            · rcases hmem f h1 with h2 | h2
              · left; rw [List.flatten_append]; exact List.mem_append_right _ (by simpa using h2)
              · right; left; exact h2
            · right; right; exact h1
        · rw [if_neg hbig]
          have hsub : sub = [] := by
            rw [f1] at hbig
            simp only [List.length_append, List.length_singleton] at hbig
            exact List.length_eq_zero_iff.1 (by omega)
          have hone : (fill bad [s] l).1 = [s] := by rw [f1, hsub]; rfl
          refine ih _ _ (alone ++ [s]) hlen ⟨hsl.2.sublist f3, h.within, h.seeds, fun b hb f hf g hg => h.seedsRest b hb f hf g (hb2 g hg), h.max,
            fun b hb g hg => h.maxRest b hb g (hb2 g hg), ?_, ?_, ?_, ?_⟩
          · intro b hb g hg
            rcases List.mem_append.1 hg with hg | hg
            · exact h.maxAlone b hb g hg
            · rw [List.mem_singleton.1 hg]
              exact h.maxRest b hb s List.mem_cons_self
          · intro a ha g hg
            rcases List.mem_append.1 ha with ha | ha
            · exact h.aloneRest a ha g (hb2 g hg)
            · obtain ⟨f, hf, hbad⟩ := f4 g hg
              rw [hone] at hf
              rw [List.mem_singleton.1 ha, hsym, ← List.mem_singleton.1 hf]
              exact hbad
          · refine List.pairwise_append.2 ⟨h.alonePair, List.pairwise_singleton _ _, fun a ha b hb => ?_⟩
            rw [List.mem_singleton.1 hb]
            exact h.aloneRest a ha s List.mem_cons_self
          · intro f hf
            rcases h.mem f hf with h1 | h1 | h1
            · left; exact h1
            · rcases hmem f h1 with h2 | h2
              · rw [hone] at h2
                right; right; exact List.mem_append_right _ h2
              · right; left; exact h2
            · right; right; exact List.mem_append_left _ h1
    · rw [if_neg hc]
      exact ⟨rest, alone, h, Or.inr hc⟩

section
variable [LT α] [DecidableLT α] [LE α] [DecidableLE α] [Zero α] [Add α] [Sub α] [Neg α] [Mul α] [Div α]

/-- number of other sparse columns with which a column has a conflict rate above the limit -/
def conflictsOf (L : Lits α) (o : Optimizer α) (X : Mat α) (f : Nat) : Nat :=
  ((List.range X.c).filter fun g => decide (o.sparsityRatio ≤ sparsity L X g ∧ f ≠ g ∧ o.maxConflictRate < conflictRate L X f g)).length

theorem degree_conflicts (L : Lits α) (o : Optimizer α) (X : Mat α) (f : Nat) :
    degree (fun f g => decide (o.maxConflictRate < conflictRate L X f g)) (sparseColumns L o X) f = conflictsOf L o X f := by
  unfold degree conflictsOf sparseColumns
  rw [List.countP_filter, List.countP_eq_length_filter]
  congr 1
  apply List.filter_congr
  intro g _
  by_cases h1 : o.sparsityRatio ≤ sparsity L X g <;> by_cases h2 : f ≠ g <;> by_cases h3 : o.maxConflictRate < conflictRate L X f g <;> simp [h1, h2, h3]

/-- **C244** (law-free) The bundles are built greedily from the columns with the fewest conflicts: within a bundle and from the first column of a bundle to
all columns of later bundles the number of conflicts does not decrease; a column that is in a later bundle, or sparse and in no bundle, is in
conflict with a column of the bundle, so no bundle could have been larger; and unless the limit on the number of bundles is reached, the sparse
columns left alone are pairwise in conflict. `srt key` is any function that sorts by `key`. -/
theorem bundles_greedy (L : Lits α) (srt : (Nat → Nat) → List Nat → List Nat) (hsrt : ∀ key, SortsAsc key (srt key)) (o o' : Optimizer α) (X : Mat α)
    (bundles : List (List Nat)) (m : List Nat) (h : createBundles L srt o X = .ok (bundles, m, o')) :
    (∀ b ∈ bundles, b.Pairwise fun f g => conflictsOf L o X f ≤ conflictsOf L o X g) ∧
    (bundles.Pairwise fun b c => (∀ f, b.head? = some f → ∀ g ∈ c, conflictsOf L o X f ≤ conflictsOf L o X g) ∧
      ∀ g ∈ c, ∃ f ∈ b, o.maxConflictRate < conflictRate L X g f) ∧
    ∃ alone left : List Nat, (∀ f < X.c, o.sparsityRatio ≤ sparsity L X f → f ∉ bundles.flatten → f ∈ alone ∨ f ∈ left) ∧
      (∀ b ∈ bundles, ∀ g, g ∈ alone ∨ g ∈ left → ∃ f ∈ b, o.maxConflictRate < conflictRate L X g f) ∧
      (alone.Pairwise fun f g => o.maxConflictRate < conflictRate L X f g) ∧
      ((bundles.length : Int) < o'.maxBundles → 2 ≤ (sparseColumns L o X).length → left = []) := by
  have hperm : ∀ key l, (srt key l).Perm l := fun key l => (hsrt key l).1
  obtain ⟨bundles', m', rest0, h1, hg, h3, -⟩ := createBundles_inv L srt hperm o X
  rw [h1] at h
  cases h
  by_cases hfew : (sparseColumns L o X).length < 2
  · rw [(h3 hfew).1]
    refine ⟨by simp, List.Pairwise.nil, [], sparseColumns L o X, ?_, by simp, List.Pairwise.nil, fun _ h2 => absurd hfew (not_lt.2 h2)⟩
    intro f hf hs _
    right
    unfold sparseColumns
    rw [List.mem_filter]
    exact ⟨List.mem_range.2 hf, by simpa using hs⟩
  · have he : createBundles L srt o X = (createMapping (greedy srt (fun f g => decide (o.maxConflictRate < conflictRate L X f g)) (limit o X.c)
        (sparseColumns L o X)) X.c).map fun m => (greedy srt (fun f g => decide (o.maxConflictRate < conflictRate L X f g)) (limit o X.c)
        (sparseColumns L o X), m, { o with maxBundles := limit o X.c }) := by
      rw [createBundles]
      simp only [hfew, if_false]
      rfl
    have hb : bundles = greedy srt (fun f g => decide (o.maxConflictRate < conflictRate L X f g)) (limit o X.c) (sparseColumns L o X) := by
      rw [h1] at he
      cases hm : createMapping (greedy srt (fun f g => decide (o.maxConflictRate < conflictRate L X f g)) (limit o X.c) (sparseColumns L o X)) X.c with
      | ok v => rw [hm] at he; cases he; rfl
      | err e => rw [hm] at he; cases he
      | panic e => rw [hm] at he; cases he
    set bad : Nat → Nat → Bool := fun f g => decide (o.maxConflictRate < conflictRate L X f g) with hbad
    have hkey : degree bad (sparseColumns L o X) = conflictsOf L o X := funext (degree_conflicts L o X)
    obtain ⟨rest, alone, hG, hend⟩ := rounds_greedy bad (fun f g => by simp only [hbad, conflictRate_comm L X f g]) (conflictsOf L o X) (limit o X.c)
      (sparseColumns L o X).length (sparseColumns L o X) (sparseColumns L o X).length [] (srt (conflictsOf L o X) (sparseColumns L o X)) []
      (by rw [(hperm _ _).length_eq])
      ⟨(hsrt (conflictsOf L o X) (sparseColumns L o X)).2.imp fun h => not_lt.1 h, by simp, List.Pairwise.nil, by simp, List.Pairwise.nil, by simp, by simp, by simp, List.Pairwise.nil,
        fun f hf => Or.inr (Or.inl ((hperm _ _).mem_iff.2 hf))⟩
    have hb' : bundles = rounds bad (limit o X.c) (sparseColumns L o X).length (sparseColumns L o X).length []
        (srt (conflictsOf L o X) (sparseColumns L o X)) := by rw [hb, ← hkey]; rfl
    rw [← hb'] at hG hend
    refine ⟨hG.within, (hG.seeds.and hG.max).imp fun ⟨h1, h2⟩ => ⟨h1, fun g hg' =>
      (h2 g hg').imp fun f hf => ⟨hf.1, of_decide_eq_true hf.2⟩⟩, alone, rest, ?_, ?_, ?_, ?_⟩
    · intro f hf hs hnot
      have : f ∈ sparseColumns L o X := by
        unfold sparseColumns
        rw [List.mem_filter]
        exact ⟨List.mem_range.2 hf, by simpa using hs⟩
      rcases hG.mem f this with h' | h' | h'
      · exact absurd h' hnot
      · exact Or.inr h'
      · exact Or.inl h'
    · intro b hbm g hgm
      have : ∃ f ∈ b, bad g f = true := by
        rcases hgm with hgm | hgm
        · exact hG.maxAlone b hbm g hgm
        · exact hG.maxRest b hbm g hgm
      obtain ⟨f, hf, hbd⟩ := this
      exact ⟨f, hf, by simpa [hbad] using hbd⟩
    · exact hG.alonePair.imp fun h' => by simpa [hbad] using h'
    · intro hlim h2
      rcases hend with he' | he'
      · exact he'
      · exfalso
        apply he'
        refine ⟨hlim, ?_⟩
        have hsub : bundles.flatten.length ≤ (sparseColumns L o X).length :=
          ((List.sublist_append_left bundles.flatten rest0).subperm.trans hg.sub).length_le
        have hbig : ∀ l : List (List Nat), (∀ b ∈ l, 1 < b.length) → 2 * l.length ≤ l.flatten.length := by
          intro l
          induction l with
          | nil => simp
          | cons b l ih =>
            intro hl
            have h1 := ih fun c hc => hl c (List.mem_cons_of_mem _ hc)
            have h2 := hl b List.mem_cons_self
            simp only [List.length_cons, List.flatten_cons, List.length_append]
            omega
        have := hbig bundles hg.big
        omega

end

/-- the columns 0 and 2 are bundled, column 1 is not sparse -/
example : ∃ m o', createBundles exL (fun key => stableAsc key) exO exX = .ok ([[0, 2]], m, o') ∧ (∀ key : Nat → Nat, SortsAsc key (stableAsc key)) := by
  obtain ⟨bundles, m, o', h, -⟩ := bundles_sound exL (fun key => stableAsc key) (fun key l => (stableAsc_sorts key l).1) exO exX
  have e : (createBundles exL (fun key => stableAsc key) exO exX).map (fun r => r.1) = .ok [[0, 2]] := by decide +kernel
  rw [h] at e
  cases e
  exact ⟨m, o', h, fun key => stableAsc_sorts key⟩

end Scigo.EFB
