import Verif.EFB.Lemmas
import Mathlib.Algebra.Order.Field.Basic
import Mathlib.Algebra.Order.Field.Rat
import Mathlib.Data.Rat.Cast.Order
import Mathlib.Tactic.Positivity
import Mathlib.Tactic.Ring

/-!
# C62, C131, C132: exclusive feature bundling
-/

set_option linter.unusedSectionVars false

namespace Scigo.EFB

variable {α : Type}

section law_free
variable [LT α] [DecidableLT α] [LE α] [DecidableLE α] [Zero α] [Add α] [Sub α] [Neg α] [Mul α] [Div α]

theorem conflictRate_comm (L : Lits α) (X : Mat α) (f g : Nat) : conflictRate L X f g = conflictRate L X g f := by
  have h1 : eitherCount L X f g = eitherCount L X g f := by unfold eitherCount; congr 1; funext i; rw [Bool.or_comm]
  have h2 : bothCount L X f g = bothCount L X g f := by unfold bothCount; congr 1; funext i; rw [Bool.and_comm]
  rw [conflictRate, conflictRate, h1, h2]

theorem sparseColumns_nodup (L : Lits α) (o : Optimizer α) (X : Mat α) : (sparseColumns L o X).Nodup := List.nodup_range.filter _

/-- the limit on the number of bundles in effect -/
def limit (o : Optimizer α) (cols : Nat) : Int := if o.maxBundles = 0 then (if cols / 3 < 1 then 1 else (cols / 3 : Nat)) else o.maxBundles

theorem greedy_good (L : Lits α) (srt : (Nat → Nat) → List Nat → List Nat) (hsrt : ∀ key l, (srt key l).Perm l) (o : Optimizer α) (X : Mat α) :
    ∃ rest, Good (fun f g => decide (o.maxConflictRate < conflictRate L X f g)) (limit o X.c) (sparseColumns L o X)
      (greedy srt (fun f g => decide (o.maxConflictRate < conflictRate L X f g)) (limit o X.c) (sparseColumns L o X)) rest := by
  unfold greedy
  refine rounds_good _ _ _ _ _ _ _ ⟨?_, by simp, by simp, by simp⟩
  simpa using (hsrt _ _).subperm

theorem sane_of_good {bad : Nat → Nat → Bool} {mx : Int} {L : Lits α} {o : Optimizer α} {X : Mat α} {bundles : List (List Nat)} {rest : List Nat}
    (h : Good bad mx (sparseColumns L o X) bundles rest) : Sane bundles X.c := by
  have hsub : bundles.flatten.Subperm (sparseColumns L o X) := (List.sublist_append_left _ _).subperm.trans h.sub
  refine ⟨?_, fun f hf => ?_, fun b hb e => ?_⟩
  · obtain ⟨l, hp, hs⟩ := hsub
    exact hp.nodup_iff.1 ((sparseColumns_nodup L o X).sublist hs)
  · have := hsub.subset hf
    rw [sparseColumns, List.mem_filter] at this
    exact List.mem_range.1 this.1
  · have := h.big b hb
    rw [e] at this
    simp at this

theorem createBundles_inv (L : Lits α) (srt : (Nat → Nat) → List Nat → List Nat) (hsrt : ∀ key l, (srt key l).Perm l) (o : Optimizer α) (X : Mat α) :
    ∃ bundles m rest, createBundles L srt o X = .ok (bundles, m, { o with maxBundles := limit o X.c }) ∧
      Good (fun f g => decide (o.maxConflictRate < conflictRate L X f g)) (limit o X.c) (sparseColumns L o X) bundles rest ∧
      ((sparseColumns L o X).length < 2 → bundles = [] ∧ m = List.replicate X.c 0) ∧
      (2 ≤ (sparseColumns L o X).length → createMapping bundles X.c = .ok m) := by
  by_cases h : (sparseColumns L o X).length < 2
  · refine ⟨[], List.replicate X.c 0, [], ?_, ⟨List.nil_subperm, by simp, by simp, by simp⟩, fun _ => ⟨rfl, rfl⟩, fun h' => by omega⟩
    rw [createBundles]
    simp only [h, if_true]
    rfl
  · obtain ⟨rest, hg⟩ := greedy_good L srt hsrt o X
    obtain ⟨m, hm, -⟩ := createMapping_spec _ _ (sane_of_good hg)
    refine ⟨_, m, rest, ?_, hg, fun h' => by omega, fun _ => hm⟩
    rw [createBundles]
    simp only [h, if_false]
    rw [show (if o.maxBundles = 0 then (if X.c / 3 < 1 then 1 else ((X.c / 3 : Nat) : Int)) else o.maxBundles) = limit o X.c from rfl, hm]
    rfl

/-- **C132** (law-free): `CreateBundles` always succeeds. Its bundles are disjoint, contain only columns of `X` that are sparse enough, have at
least two columns each, no two columns of a bundle have a conflict rate above the limit, and there are at most `MaxBundles` of them -/
theorem bundles_sound (L : Lits α) (srt : (Nat → Nat) → List Nat → List Nat) (hsrt : ∀ key l, (srt key l).Perm l) (o : Optimizer α) (X : Mat α) :
    ∃ bundles m o', createBundles L srt o X = .ok (bundles, m, o') ∧ bundles.flatten.Nodup ∧
      (∀ f ∈ bundles.flatten, f < X.c ∧ o.sparsityRatio ≤ sparsity L X f) ∧
      (∀ b ∈ bundles, 2 ≤ b.length ∧ ∀ f ∈ b, ∀ g ∈ b, f ≠ g → ¬ o.maxConflictRate < conflictRate L X f g) ∧
      (0 < o.maxBundles → (bundles.length : Int) ≤ o.maxBundles) ∧ (o.maxBundles = 0 → bundles.length ≤ max (X.c / 3) 1) ∧
      (o.maxBundles < 0 → bundles = []) := by
  obtain ⟨bundles, m, rest, h1, hg, -, -⟩ := createBundles_inv L srt hsrt o X
  refine ⟨bundles, m, _, h1, (sane_of_good hg).nodup, fun f hf => ?_, fun b hb => ⟨hg.big b hb, fun f hf g hgb hne => ?_⟩, fun h => ?_, fun h => ?_, fun h => ?_⟩
  · have : f ∈ sparseColumns L o X := (hg.sub.subset (List.mem_append_left _ hf))
    rw [sparseColumns, List.mem_filter] at this
    exact ⟨List.mem_range.1 this.1, by simpa using this.2⟩
  · have hp := hg.free b hb
    obtain ⟨i, hi, rfl⟩ := List.getElem_of_mem hf
    obtain ⟨j, hj, rfl⟩ := List.getElem_of_mem hgb
    have hij : i ≠ j := fun h => hne (by subst h; rfl)
    rcases lt_or_gt_of_ne hij with hlt | hlt
    · have := List.pairwise_iff_getElem.1 hp i j hi hj hlt
      rw [conflictRate_comm]
      simpa using this
    · have := List.pairwise_iff_getElem.1 hp j i hj hi hlt
      simpa using this
  · have := hg.few
    unfold limit at this
    rw [if_neg (by omega)] at this
    omega
  · have := hg.few
    unfold limit at this
    rw [if_pos h] at this
    split_ifs at this <;> omega
  · have := hg.few
    unfold limit at this
    rw [if_neg (by omega)] at this
    exact List.length_eq_zero_iff.1 (by omega)

/-! ### the columns of the bundled matrix -/

theorem rank_onto (B : List Nat) : ∀ n c, c < rank B n → ∃ j < n, j ∉ B ∧ rank B j = c := by
  intro n
  induction n with
  | zero => intro c h; simp [rank] at h
  | succ n ih =>
    intro c h
    rw [rank_succ] at h
    by_cases hB : n ∈ B
    · rw [if_pos hB] at h
      obtain ⟨j, a, b⟩ := ih c (by omega)
      exact ⟨j, by omega, b⟩
    · rw [if_neg hB] at h
      by_cases hc : c = rank B n
      · exact ⟨n, by omega, hB, hc.symm⟩
      · obtain ⟨j, a, b⟩ := ih c (by omega)
        exact ⟨j, by omega, b⟩

theorem rank_total (B : List Nat) (hnd : B.Nodup) (n : Nat) (h : ∀ f ∈ B, f < n) : rank B n + B.length = n := by
  have hp : ((List.range n).filter fun i => decide (i ∈ B)).Perm B := by
    refine (List.perm_ext_iff_of_nodup (List.nodup_range.filter _) hnd).2 fun a => ?_
    rw [List.mem_filter, List.mem_range]
    constructor
    · rintro ⟨-, h'⟩; simpa using h'
    · intro h'; exact ⟨h a h', by simpa using h'⟩
  have h1 := List.length_eq_countP_add_countP (p := fun i => decide (i ∈ B)) (l := List.range n)
  rw [List.countP_eq_length_filter, hp.length_eq, List.length_range] at h1
  unfold rank
  have : (fun i => decide (i ∉ B)) = fun i => decide (¬ (decide (i ∈ B)) = true) := by funext i; simp
  rw [this]
  omega

theorem foldl_max (l : List Nat) (a : Nat) : a ≤ l.foldl max a ∧ (∀ x ∈ l, x ≤ l.foldl max a) ∧ (l.foldl max a = a ∨ l.foldl max a ∈ l) := by
  induction l generalizing a with
  | nil => simp
  | cons x l ih =>
    obtain ⟨h1, h2, h3⟩ := ih (max a x)
    simp only [List.foldl_cons]
    refine ⟨by omega, fun y hy => ?_, ?_⟩
    · rcases List.mem_cons.1 hy with rfl | hy
      · omega
      · exact h2 y hy
    · rcases h3 with h3 | h3
      · rcases le_total a x with h | h
        · right; rw [h3, max_eq_right h]; exact List.mem_cons_self ..
        · left; rw [h3, max_eq_left h]
      · right; exact List.mem_cons_of_mem _ h3

/-- the values of the mapping are exactly the numbers below `rank + #bundles` -/
theorem mapping_values (bundles : List (List Nat)) (total : Nat) (h : Sane bundles total) (m : List Nat) (hm : createMapping bundles total = .ok m) :
    m.length = total ∧ (∀ c, c ∈ m ↔ c < rank bundles.flatten total + bundles.length) := by
  obtain ⟨m', h1, h2, h3, h4⟩ := createMapping_spec bundles total h
  rw [hm] at h1
  cases h1
  refine ⟨h2, fun c => ⟨fun hc => ?_, fun hc => ?_⟩⟩
  · obtain ⟨j, hj, rfl⟩ := List.getElem_of_mem hc
    have e := List.getElem?_eq_getElem hj
    by_cases hB : j ∈ bundles.flatten
    · obtain ⟨i, b, hb, hf⟩ := mem_bundle hB
      rw [h4 i b hb j hf] at e
      have := (List.getElem?_eq_some_iff.1 hb).1
      injection e with e
      omega
    · rw [h3 j (by omega) hB] at e
      have := rank_lt bundles.flatten (show j < total by omega) hB
      injection e with e
      omega
  · by_cases hlt : c < rank bundles.flatten total
    · obtain ⟨j, hj, hB, hr⟩ := rank_onto _ _ _ hlt
      have := h3 j hj hB
      rw [hr] at this
      exact List.mem_of_getElem? this
    · have hi : c - rank bundles.flatten total < bundles.length := by omega
      have hb : bundles[c - rank bundles.flatten total]? = some bundles[c - rank bundles.flatten total] := List.getElem?_eq_getElem hi
      obtain ⟨f, fs, he⟩ := List.exists_cons_of_ne_nil (h.nonempty _ (List.getElem_mem hi))
      have := h4 _ _ hb f (by rw [he]; exact List.mem_cons_self ..)
      rw [show rank bundles.flatten total + (c - rank bundles.flatten total) = c by omega] at this
      exact List.mem_of_getElem? this

theorem newCols_eq (bundles : List (List Nat)) (total : Nat) (h : Sane bundles total) (m : List Nat) (hm : createMapping bundles total = .ok m) (h0 : 0 < total) :
    m.foldl max 0 + 1 = rank bundles.flatten total + bundles.length := by
  obtain ⟨hl, hv⟩ := mapping_values bundles total h m hm
  obtain ⟨-, h2, h3⟩ := foldl_max m 0
  have hpos : 0 < rank bundles.flatten total + bundles.length := by
    have : m[0]'(by omega) ∈ m := List.getElem_mem _
    have := (hv _).1 this
    omega
  have hmem := (hv (rank bundles.flatten total + bundles.length - 1)).2 (by omega)
  have := h2 _ hmem
  rcases h3 with h3 | h3
  · omega
  · have := (hv _).1 h3
    omega

/-- **C132** (law-free): with at least two sparse columns, the mapping sends two columns to the same new column exactly if they are in one bundle, its
values are the new columns without gaps, and their number is the one `GetBundlingInfo` and `BundleFeatures` report -/
theorem mapping_faithful (L : Lits α) (srt : (Nat → Nat) → List Nat → List Nat) (hsrt : ∀ key l, (srt key l).Perm l) (o o' : Optimizer α) (X : Mat α)
    (h2 : 2 ≤ (sparseColumns L o X).length) (bundles : List (List Nat)) (m : List Nat) (h : createBundles L srt o X = .ok (bundles, m, o')) :
    m.length = X.c ∧ (∀ c : Nat, c ∈ m ↔ (c : Int) < bundledColumns bundles X.c) ∧
    (∀ i j : Nat, i < X.c → j < X.c → (m[i]? = m[j]? ↔ i = j ∨ ∃ b ∈ bundles, i ∈ b ∧ j ∈ b)) ∧
    (0 < X.r → ∃ B, bundleFeatures L X bundles m = .ok B ∧ B.r = X.r ∧ (B.c : Int) = bundledColumns bundles X.c) := by
  obtain ⟨bundles', m', rest, h1, hg, -, hm⟩ := createBundles_inv L srt hsrt o X
  rw [h] at h1
  cases h1
  have hs := sane_of_good hg
  have hm := hm h2
  obtain ⟨hl, hv⟩ := mapping_values bundles X.c hs m hm
  obtain ⟨m', e1, -, e3, e4⟩ := createMapping_spec bundles X.c hs
  rw [hm] at e1
  cases e1
  have hN : bundledColumns bundles X.c = ((rank bundles.flatten X.c + bundles.length : Nat) : Int) := by
    have := rank_total bundles.flatten hs.nodup X.c hs.inside
    rw [List.length_flatten] at this
    unfold bundledColumns
    omega
  have h0 : 0 < X.c := by
    have hsp : (sparseColumns L o X).length ≤ X.c := by
      unfold sparseColumns
      exact (List.length_filter_le _ _).trans (by simp)
    omega
  refine ⟨hl, fun c => by rw [hN, hv]; exact Int.ofNat_lt.symm, fun i j hi hj => ⟨fun e => ?_, ?_⟩, fun hr => ?_⟩
  · by_cases hBi : i ∈ bundles.flatten
    · obtain ⟨k, b, hb, hf⟩ := mem_bundle hBi
      rw [e4 k b hb i hf] at e
      by_cases hBj : j ∈ bundles.flatten
      · obtain ⟨k', b', hb', hf'⟩ := mem_bundle hBj
        rw [e4 k' b' hb' j hf'] at e
        injection e with e
        have : k = k' := by omega
        subst this
        rw [hb] at hb'
        cases hb'
        exact Or.inr ⟨b, List.mem_of_getElem? hb, hf, hf'⟩
      · rw [e3 j hj hBj] at e
        injection e with e
        have := rank_lt bundles.flatten hj hBj
        omega
    · rw [e3 i hi hBi] at e
      have hi' := rank_lt bundles.flatten hi hBi
      by_cases hBj : j ∈ bundles.flatten
      · obtain ⟨k', b', hb', hf'⟩ := mem_bundle hBj
        rw [e4 k' b' hb' j hf'] at e
        injection e with e
        omega
      · rw [e3 j hj hBj] at e
        injection e with e
        left
        by_contra hne
        rcases lt_or_gt_of_ne hne with hlt | hlt
        · have := rank_lt bundles.flatten hlt hBi; omega
        · have := rank_lt bundles.flatten hlt hBj; omega
  · rintro (rfl | ⟨b, hb, hi', hj'⟩)
    · rfl
    · obtain ⟨k, hk, rfl⟩ := List.getElem_of_mem hb
      rw [e4 k _ (List.getElem?_eq_getElem hk) i hi', e4 k _ (List.getElem?_eq_getElem hk) j hj']
  · obtain ⟨M1, c1, -, -⟩ := copyPlain_spec X bundles.flatten m (fun j hB hj => e3 j (by omega) hB) X.c (by omega) (fun _ _ => 0)
    obtain ⟨M2, c2, -, -⟩ := writeBundles_spec L X m (rank bundles.flatten X.c) bundles 0 M1 (fun i b hb => by
      refine ⟨hs.nonempty b (List.mem_of_getElem? hb), fun f hf => ⟨hs.inside f (List.mem_flatten.2 ⟨b, List.mem_of_getElem? hb, hf⟩), ?_⟩⟩
      exact e4 i b hb f hf)
    refine ⟨⟨X.r, m.foldl max 0 + 1, M2⟩, by rw [bundleFeatures, if_neg (by omega), c1, Outcome.bind_ok, c2, Outcome.bind_ok], rfl, ?_⟩
    rw [hN]
    exact congrArg Nat.cast (newCols_eq bundles X.c hs m hm h0)

/-- **C131** (law-free; a part): an optimizer whose `MaxBundles` is set to something other than 0 is not changed by `CreateBundles` -/
theorem optimizer_unchanged_partial (L : Lits α) (srt : (Nat → Nat) → List Nat → List Nat) (hsrt : ∀ key l, (srt key l).Perm l) (o : Optimizer α) (X : Mat α)
    (h : o.maxBundles ≠ 0) : ∃ bundles m, createBundles L srt o X = .ok (bundles, m, o) := by
  obtain ⟨bundles, m, -, h1, -⟩ := createBundles_inv L srt hsrt o X
  refine ⟨bundles, m, ?_⟩
  rw [h1, limit, if_neg h]

end law_free

/-! ### C62: the round trip, in exact arithmetic -/

section field
variable [Field α] [LinearOrder α] [IsStrictOrderedRing α]

theorem encode_zero (L : Lits α) (value : Nat → α) (fs : List Nat) : ∀ k, (∀ f ∈ fs, nonZero L (value f) = false) → encode L value k fs = 0 := by
  induction fs with
  | nil => intro k _; rfl
  | cons f fs ih =>
    intro k h
    rw [encode, h f (List.mem_cons_self ..)]
    exact ih (k + 1) fun g hg => h g (List.mem_cons_of_mem _ hg)

theorem encode_one (L : Lits α) (value : Nat → α) (fs : List Nat) : ∀ (k i f : Nat), fs[i]? = some f → nonZero L (value f) = true →
    (∀ g ∈ fs, g ≠ f → nonZero L (value g) = false) → fs.Nodup → encode L value k fs = L.base * L.ofNat (k + i + 1) + value f := by
  induction fs with
  | nil => intro k i f h; simp at h
  | cons g fs ih =>
    intro k i f h hn ho hnd
    cases i with
    | zero =>
      simp only [List.getElem?_cons_zero, Option.some.injEq] at h
      subst h
      rw [encode, hn]
      rfl
    | succ i =>
      rw [List.getElem?_cons_succ] at h
      have hne : g ≠ f := by
        rintro rfl
        exact (List.nodup_cons.1 hnd).1 (List.mem_of_getElem? h)
      rw [encode, ho g (List.mem_cons_self ..) hne]
      have := ih (k + 1) i f h hn (fun x hx => ho x (List.mem_cons_of_mem _ hx)) (List.nodup_cons.1 hnd).2
      rw [show k + 1 + i + 1 = k + (i + 1) + 1 by omega] at this
      exact this

theorem decode_encode (L : Lits α) (hof : ∀ n, L.ofNat n = (n : α)) (ht : 0 < L.tiny) (htb : L.tiny ≤ L.base) (value : Nat → α) (b : List Nat) (hnd : b.Nodup)
    (hv : ∀ f ∈ b, value f = 0 ∨ L.tiny < value f ∧ value f < L.base)
    (hex : ∀ f ∈ b, ∀ g ∈ b, f ≠ g → ¬ (nonZero L (value f) = true ∧ nonZero L (value g) = true)) (f : Nat) (hf : f ∈ b) :
    decode L b (encode L value 0 b) f = value f := by
  have hb : 0 < L.base := ht.trans_le htb
  have nz : ∀ f ∈ b, nonZero L (value f) = true ∨ value f = 0 := by
    intro f hf
    rcases hv f hf with h | h
    · exact Or.inr h
    · left
      unfold nonZero abs'
      rw [if_neg (not_lt.2 (ht.trans h.1).le)]
      simpa using h.1
  have nz0 : nonZero L (0 : α) = false := by
    unfold nonZero abs'
    rw [if_neg (lt_irrefl _)]
    simpa using ht.le
  by_cases hall : ∀ g ∈ b, nonZero L (value g) = false
  · rw [encode_zero L value b 0 hall]
    have : value f = 0 := by
      rcases nz f hf with h | h
      · rw [hall f hf] at h; cases h
      · exact h
    rw [this]
    unfold decode isZero abs'
    rw [if_neg (lt_irrefl _), if_pos (by simpa using ht)]
  · push Not at hall
    obtain ⟨g, hg, hgn⟩ := hall
    have hgn : nonZero L (value g) = true := by simpa using hgn
    have others : ∀ h ∈ b, h ≠ g → nonZero L (value h) = false := by
      intro h hh hne
      by_contra hc
      exact hex h hh g hg hne ⟨by simpa using hc, hgn⟩
    obtain ⟨i, hi, hgi⟩ := List.getElem_of_mem hg
    have hgi' : b[i]? = some g := by rw [List.getElem?_eq_getElem hi, hgi]
    have hx : 0 < value g ∧ value g < L.base := by
      rcases hv g hg with h | h
      · rw [h, nz0] at hgn; cases hgn
      · exact ⟨ht.trans h.1, h.2⟩
    rw [encode_one L value b 0 i g hgi' hgn others hnd, Nat.zero_add, hof]
    have hbig : L.base ≤ L.base * ((i + 1 : Nat) : α) := by
      push_cast
      have : (0 : α) ≤ i := Nat.cast_nonneg i
      nlinarith
    have hnz : isZero L (L.base * ((i + 1 : Nat) : α) + value g) = false := by
      unfold isZero abs'
      rw [if_neg (by linarith)]
      simp only [decide_eq_false_iff_not, not_lt]
      linarith
    have hpos : position L (L.base * ((i + 1 : Nat) : α) + value g) b.length = some i := by
      unfold position
      have huniq : ∀ k : Nat, (L.base * ((k + 1 : Nat) : α) ≤ L.base * ((i + 1 : Nat) : α) + value g ∧
          L.base * ((i + 1 : Nat) : α) + value g < L.base * ((k + 1 : Nat) : α) + L.base) ↔ k = i := by
        intro k
        constructor
        · rintro ⟨h1, h2⟩
          by_contra hne
          rcases lt_or_gt_of_ne hne with hlt | hlt
          · have : ((k + 1 + 1 : Nat) : α) ≤ ((i + 1 : Nat) : α) := Nat.cast_le.2 (by omega)
            have e := mul_le_mul_of_nonneg_left this hb.le
            push_cast at e h2
            linarith [hx.1]
          · have : ((i + 1 + 1 : Nat) : α) ≤ ((k + 1 : Nat) : α) := Nat.cast_le.2 (by omega)
            have e := mul_le_mul_of_nonneg_left this hb.le
            push_cast at e h1
            linarith [hx.2]
        · rintro rfl
          exact ⟨by linarith [hx.1], by linarith [hx.2]⟩
      rw [List.find?_eq_some_iff_append]
      refine ⟨by simpa [hof] using (huniq i).2 rfl, List.range i, (List.range' (i + 1) (b.length - i - 1)), ?_, fun k hk => ?_⟩
      · rw [List.range_eq_range', List.range_eq_range', ← List.range'_succ]
        rw [show List.range' i (b.length - i - 1 + 1) = List.range' (0 + 1 * i) (b.length - i) by congr 1 <;> omega, List.range'_append]
        congr 1
        omega
      · have hlt := List.mem_range.1 hk
        have := (not_congr (huniq k)).2 (by omega)
        rw [hof]
        by_contra hc
        apply this
        simpa using hc
    unfold decode
    rw [hnz, hpos]
    simp only [Bool.false_eq_true, if_false]
    by_cases hfg : f = g
    · subst hfg
      rw [if_pos hgi', hof]
      ring
    · rw [if_neg (by rw [hgi']; simpa using Ne.symm hfg)]
      rcases nz f hf with h | h
      · rw [others f hf hfg] at h; cases h
      · exact h.symm

/-- no conflicts allowed: two columns of conflict rate at most 0 are nowhere both non-zero -/
theorem exclusive_of_rate (L : Lits α) (hof : ∀ n, L.ofNat n = (n : α)) (X : Mat α) (f g : Nat) (h : conflictRate L X f g ≤ 0) (i : Nat) (hi : i < X.r) :
    ¬ (nonZero L (X.at' i f) = true ∧ nonZero L (X.at' i g) = true) := by
  rintro ⟨h1, h2⟩
  have hb : 0 < bothCount L X f g := by
    unfold bothCount
    exact List.countP_pos_iff.2 ⟨i, List.mem_range.2 hi, by simp [h1, h2]⟩
  have he : 0 < eitherCount L X f g := by
    unfold eitherCount
    exact List.countP_pos_iff.2 ⟨i, List.mem_range.2 hi, by simp [h1]⟩
  unfold conflictRate at h
  rw [if_pos he, hof, hof] at h
  have : (0 : α) < (bothCount L X f g : α) / (eitherCount L X f g : α) := div_pos (Nat.cast_pos.2 hb) (Nat.cast_pos.2 he)
  linarith

/-- **C62** (exact arithmetic; a part): with at least two sparse columns, no conflicts allowed, and every value of a sparse column either 0 or between
1e-10 and 1000, unbundling the bundled matrix gives back the matrix. Missing: fewer than two sparse columns, negative, tiny and large values, for which it
is false (`round_trip_fails`). -/
theorem round_trip_partial (L : Lits α) (hof : ∀ n, L.ofNat n = (n : α)) (ht : 0 < L.tiny) (htb : L.tiny ≤ L.base)
    (srt : (Nat → Nat) → List Nat → List Nat) (hsrt : ∀ key l, (srt key l).Perm l) (o : Optimizer α) (X : Mat α) (hr : 0 < X.r)
    (h2 : 2 ≤ (sparseColumns L o X).length) (hrate : o.maxConflictRate ≤ 0)
    (hv : ∀ i < X.r, ∀ j < X.c, o.sparsityRatio ≤ sparsity L X j → X.at' i j = 0 ∨ L.tiny < X.at' i j ∧ X.at' i j < L.base) :
    ∃ bundles m o' B Y, createBundles L srt o X = .ok (bundles, m, o') ∧ bundleFeatures L X bundles m = .ok B ∧
      unbundleFeatures L B bundles X.c = .ok Y ∧ Y.Eqv X := by
  obtain ⟨bundles, m, o', h1, snd, sp, cf, -⟩ := bundles_sound L srt hsrt o X
  obtain ⟨bundles', m', rest, h1', hg, -, hm⟩ := createBundles_inv L srt hsrt o X
  rw [h1] at h1'
  cases h1'
  have hs := sane_of_good hg
  have hm := hm h2
  obtain ⟨hl, hvv⟩ := mapping_values bundles X.c hs m hm
  obtain ⟨m', e1, -, e3, e4⟩ := createMapping_spec bundles X.c hs
  rw [hm] at e1
  cases e1
  have h0 : 0 < X.c := by
    have hsp : (sparseColumns L o X).length ≤ X.c := by
      unfold sparseColumns
      exact (List.length_filter_le _ _).trans (by simp)
    omega
  obtain ⟨M1, c1, p1, -⟩ := copyPlain_spec X bundles.flatten m (fun j hB hj => e3 j (by omega) hB) X.c (by omega) (fun _ _ => 0)
  obtain ⟨M2, c2, p2, p2'⟩ := writeBundles_spec L X m (rank bundles.flatten X.c) bundles 0 M1 (fun i b hb => by
    refine ⟨hs.nonempty b (List.mem_of_getElem? hb), fun f hf => ⟨hs.inside f (List.mem_flatten.2 ⟨b, List.mem_of_getElem? hb, hf⟩), ?_⟩⟩
    exact e4 i b hb f hf)
  have hcols := newCols_eq bundles X.c hs m hm h0
  obtain ⟨B, hB⟩ : ∃ B : Mat α, B = ⟨X.r, m.foldl max 0 + 1, M2⟩ := ⟨_, rfl⟩
  have hBc : B.c = rank bundles.flatten X.c + bundles.length := by rw [hB]; exact hcols
  obtain ⟨M3, c3, p3⟩ := restorePlain_spec B bundles.flatten m (fun j hB hj => e3 j (by omega) hB) (by rw [hl, hBc]; omega) X.c (by omega) (fun _ _ => 0)
  obtain ⟨M4, c4, p4, p4'⟩ := restoreBundles_spec L B m (rank bundles.flatten X.c) bundles 0 M3 (fun i b hb => by
    refine ⟨hs.nonempty b (List.mem_of_getElem? hb), ?_, fun f hf => e4 i b hb f hf⟩
    have := (List.getElem?_eq_some_iff.1 hb).1
    rw [hBc]
    omega) hs.nodup
  refine ⟨bundles, m, _, B, ⟨X.r, X.c, M4⟩, h1, ?_, ?_, rfl, rfl, fun i hi j hj => ?_⟩
  · rw [bundleFeatures, if_neg (by omega), c1, Outcome.bind_ok, c2, Outcome.bind_ok, hB]
  · rw [unbundleFeatures, if_neg (by rw [hB]; simp only; omega), hm, Outcome.bind_ok, c3, Outcome.bind_ok, c4, Outcome.bind_ok, hB]
  · simp only at hi hj ⊢
    have hBat : B.at' = M2 := by rw [hB]
    by_cases hjB : j ∈ bundles.flatten
    · obtain ⟨k, b, hb, hf⟩ := mem_bundle hjB
      have hmem := List.mem_of_getElem? hb
      rw [p4 k b hb j hf i, hBat, p2 k b hb i]
      refine decode_encode L hof ht htb (X.at' i) b ?_ (fun f hf => ?_) (fun f hf g hg hne => ?_) j hf
      · exact (List.nodup_flatten.1 hs.nodup).1 b hmem
      · have := sp f (List.mem_flatten.2 ⟨b, hmem, hf⟩)
        exact hv i hi f this.1 this.2
      · exact exclusive_of_rate L hof X f g (le_trans (not_lt.1 ((cf b hmem).2 f hf g hg hne)) hrate) i hi
    · rw [p4' i j hjB, p3 j hj hjB i, hBat, p2' i _ (by have := rank_lt bundles.flatten hj hjB; omega), p1 j hj hjB i]

end field

/-! ### Concrete cases and failures -/

/-- the literals of the code, for the examples -/
def exL : Lits ℚ := ⟨1 / 10000000000, 1000, fun n => n⟩

/-- default settings -/
def exO : Optimizer ℚ := ⟨0, 0, 4 / 5⟩

/-- a matrix from its rows, for the examples -/
def exMat (rows : List (List ℚ)) (c : Nat) : Mat ℚ := ⟨rows.length, c, fun i j => (rows.getD i []).getD j 0⟩

/-- entries of a result -/
def entries : Outcome (Mat ℚ) → Except String (List (List ℚ))
  | .ok Y => .ok ((List.range Y.r).map fun i => (List.range Y.c).map (Y.at' i))
  | .err _ => .error "error"
  | .panic s => .error s

/-- `CreateBundles`, `BundleFeatures` and `UnbundleFeatures` one after the other -/
def roundTrip (X : Mat ℚ) : Outcome (Mat ℚ) :=
  (createBundles exL (fun key => stableAsc key) exO X).bind fun r =>
  (bundleFeatures exL X r.1 r.2.1).bind fun B => unbundleFeatures exL B r.1 X.c

/-- five rows; two exclusive sparse columns around a dense one -/
def exX : Mat ℚ := exMat [[3, 1, 0], [0, 2, 7], [0, 3, 0], [0, 4, 0], [0, 5, 0]] 3

example : 2 ≤ (sparseColumns exL exO exX).length ∧ exO.maxConflictRate ≤ 0 ∧
    (∀ i < exX.r, ∀ j < exX.c, exO.sparsityRatio ≤ sparsity exL exX j → exX.at' i j = 0 ∨ exL.tiny < exX.at' i j ∧ exX.at' i j < exL.base) ∧
    entries (roundTrip exX) = .ok [[3, 1, 0], [0, 2, 7], [0, 3, 0], [0, 4, 0], [0, 5, 0]] ∧
    (createBundles exL (fun key => stableAsc key) exO exX).map (fun r => (r.1, r.2.1)) = .ok ([[0, 2]], [1, 0, 1]) := by
  decide +kernel

/-- **C62** is false: exclusive columns do not survive the round trip if they hold negative values (lost) or values from 1000 on (they appear in another
column), and with fewer than two sparse columns all columns are overlaid -/
theorem round_trip_fails :
    entries (roundTrip (exMat [[-3, 1, 0], [0, 2, 7], [0, 3, 0], [0, 4, 0], [0, 5, 0]] 3)) = .ok [[0, 1, 0], [0, 2, 7], [0, 3, 0], [0, 4, 0], [0, 5, 0]] ∧
    entries (roundTrip (exMat [[1500, 1, 0], [0, 2, 7], [0, 3, 0], [0, 4, 0], [0, 5, 0]] 3)) = .ok [[0, 1, 500], [0, 2, 7], [0, 3, 0], [0, 4, 0], [0, 5, 0]] ∧
    entries (roundTrip (exMat [[1, 2]] 2)) = .error "mat: column index out of range" ∧
    entries ((createBundles exL (fun key => stableAsc key) exO (exMat [[1, 2]] 2)).bind fun r => bundleFeatures exL (exMat [[1, 2]] 2) r.1 r.2.1) = .ok [[2]] := by
  decide +kernel

/-- all six columns sparse, conflicts only within the first and the last three -/
def wideX : Mat ℚ := exMat [[1, 1, 0, 0, 0, 0], [0, 0, 1, 1, 0, 0], [0, 0, 0, 0, 0, 0], [0, 0, 0, 0, 0, 0], [0, 0, 0, 0, 0, 0]] 6

/-- the feature groups that `CreateBundles` makes -/
def bundlesOf (o : Optimizer ℚ) (X : Mat ℚ) : Outcome (List (List Nat)) := (createBundles exL (fun key => stableAsc key) o X).map (·.1)

/-- **C131** is false: after `CreateBundles` on a matrix of three columns the optimizer allows one bundle only; a new optimizer finds two bundles in the
second matrix -/
theorem optimizer_not_reusable :
    bundlesOf exO wideX = .ok [[4, 5, 0, 2], [1, 3]] ∧
    (createBundles exL (fun key => stableAsc key) exO exX).bind (fun r => bundlesOf r.2.2 wideX) = .ok [[4, 5, 0, 2]] := by
  decide +kernel

end Scigo.EFB
