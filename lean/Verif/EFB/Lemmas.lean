import Verif.EFB.Model
import Mathlib.Data.List.Nodup
import Mathlib.Data.List.GetD
import Mathlib.Tactic.Linarith

/-! # Helper lemmas for exclusive feature bundling -/

set_option linter.unusedSectionVars false

namespace Scigo.EFB

variable {α : Type}

/-! ### the greedy loop -/

/-- no two columns of the list are in conflict (each against those before it) -/
def Free (bad : Nat → Nat → Bool) (b : List Nat) : Prop := b.Pairwise fun f g => bad g f = false

theorem fill_spec (bad : Nat → Nat → Bool) (rest : List Nat) : ∀ bundle, Free bad bundle →
    Free bad (fill bad bundle rest).1 ∧ ((fill bad bundle rest).1 ++ (fill bad bundle rest).2).Perm (bundle ++ rest) ∧
    bundle <+: (fill bad bundle rest).1 ∧ (fill bad bundle rest).2.length ≤ rest.length := by
  induction rest with
  | nil => intro b hb; exact ⟨hb, List.Perm.refl _, List.prefix_rfl, le_rfl⟩
  | cons i rest ih =>
    intro b hb
    rw [fill]
    split_ifs with h
    · have hb' : Free bad (b ++ [i]) := by
        refine List.pairwise_append.2 ⟨hb, List.pairwise_singleton _ _, fun f hf g hg => ?_⟩
        rw [List.mem_singleton.1 hg]
        have := List.all_eq_true.1 h f hf
        simpa using this
      obtain ⟨h1, h2, h3, h4⟩ := ih _ hb'
      refine ⟨h1, h2.trans (by simp), (List.prefix_append b [i]).trans h3, by simp only [List.length_cons]; omega⟩
    · obtain ⟨h1, h2, h3, h4⟩ := ih b hb
      refine ⟨h1, ?_, h3, by simp only [List.length_cons]; omega⟩
      simp only
      exact List.perm_middle.trans ((h2.cons i).trans List.perm_middle.symm)

/-- the bundles found so far and what is left -/
structure Good (bad : Nat → Nat → Bool) (maxBundles : Int) (features : List Nat) (bundles : List (List Nat)) (rest : List Nat) : Prop where
  sub : (bundles.flatten ++ rest).Subperm features
  free : ∀ b ∈ bundles, Free bad b
  big : ∀ b ∈ bundles, 1 < b.length
  few : (bundles.length : Int) ≤ max maxBundles 0

theorem rounds_good (bad : Nat → Nat → Bool) (maxBundles : Int) (n : Nat) (features : List Nat) : ∀ fuel bundles rest,
    Good bad maxBundles features bundles rest → ∃ rest', Good bad maxBundles features (rounds bad maxBundles n fuel bundles rest) rest' := by
  intro fuel
  induction fuel with
  | zero => intro bundles rest h; exact ⟨rest, h⟩
  | succ fuel ih =>
    intro bundles rest h
    unfold rounds
    split_ifs with hc
    · cases rest with
      | nil => exact ⟨[], h⟩
      | cons s l =>
        obtain ⟨f1, f2, f3, f4⟩ := fill_spec bad l [s] (List.pairwise_singleton _ _)
        simp only
        apply ih
        split_ifs with hl
        · refine ⟨?_, ?_, ?_, ?_⟩
          · refine List.Subperm.trans (List.Perm.subperm ?_) h.sub
            rw [List.flatten_append, List.append_assoc]
            refine List.Perm.append_left _ ?_
            simpa using f2
          · intro b hb
            rcases List.mem_append.1 hb with hb | hb
            · exact h.free b hb
            · rw [List.mem_singleton.1 hb]; exact f1
          · intro b hb
            rcases List.mem_append.1 hb with hb | hb
            · exact h.big b hb
            · rw [List.mem_singleton.1 hb]; exact hl
          · rw [List.length_append, List.length_singleton]
            have := hc.1
            push_cast
            omega
        · refine ⟨?_, h.free, h.big, h.few⟩
          refine List.Subperm.trans ?_ h.sub
          have : (fill bad [s] l).2.Subperm (s :: l) := by
            refine List.Subperm.trans ?_ f2.subperm
            exact (List.sublist_append_right _ _).subperm
          exact (List.subperm_append_left _).2 this
    · exact ⟨rest, h⟩

/-- more fuel than unused columns changes nothing -/
theorem rounds_fuel (bad : Nat → Nat → Bool) (maxBundles : Int) (n : Nat) : ∀ (fuel fuel' : Nat) (bundles : List (List Nat)) (rest : List Nat),
    rest.length ≤ fuel → rest.length ≤ fuel' → rounds bad maxBundles n fuel bundles rest = rounds bad maxBundles n fuel' bundles rest := by
  intro fuel
  induction fuel with
  | zero =>
    intro fuel' bundles rest h h'
    have : rest = [] := List.length_eq_zero_iff.1 (by omega)
    subst this
    cases fuel' with
    | zero => rfl
    | succ f => unfold rounds; split_ifs <;> rfl
  | succ fuel ih =>
    intro fuel' bundles rest h h'
    cases fuel' with
    | zero =>
      have : rest = [] := List.length_eq_zero_iff.1 (by omega)
      subst this
      unfold rounds; split_ifs <;> rfl
    | succ f =>
      unfold rounds
      split_ifs with hc
      · cases rest with
        | nil => rfl
        | cons s l =>
          have := (fill_spec bad l [s] (List.pairwise_singleton _ _)).2.2.2
          simp only [List.length_cons] at h h'
          exact ih f _ _ (by omega) (by omega)
      · rfl

/-! ### the mapping -/

/-- the bundles are disjoint lists of columns below `total`, none empty -/
structure Sane (bundles : List (List Nat)) (total : Nat) : Prop where
  nodup : bundles.flatten.Nodup
  inside : ∀ f ∈ bundles.flatten, f < total
  nonempty : ∀ b ∈ bundles, b ≠ []

/-- how many columns before `j` are outside all bundles -/
def rank (bundled : List Nat) (j : Nat) : Nat := (List.range j).countP fun i => decide (i ∉ bundled)

theorem rank_succ (B : List Nat) (j : Nat) : rank B (j + 1) = rank B j + if j ∈ B then 0 else 1 := by
  unfold rank
  rw [List.range_succ, List.countP_append]
  simp only [List.countP_cons, List.countP_nil]
  split_ifs <;> simp_all

theorem rank_mono (B : List Nat) {i j : Nat} (h : i ≤ j) : rank B i ≤ rank B j := by
  induction h with
  | refl => exact le_rfl
  | step _ ih => rw [rank_succ]; omega

theorem rank_lt (B : List Nat) {i j : Nat} (h : i < j) (hi : i ∉ B) : rank B i < rank B j := by
  have := rank_mono B (show i + 1 ≤ j from h)
  rw [rank_succ, if_neg hi] at this
  omega

theorem plain_spec (B : List Nat) (n : Nat) :
    (plain B n).1.length = n ∧ (plain B n).2 = rank B n ∧ ∀ j < n, j ∉ B → (plain B n).1[j]? = some (rank B j) := by
  induction n with
  | zero => exact ⟨rfl, rfl, fun j hj => by omega⟩
  | succ n ih =>
    obtain ⟨h1, h2, h3⟩ := ih
    have key : ∀ v m, (n ∉ B → v = rank B n) → m = rank B (n + 1) → (((plain B n).1 ++ [v], m) : List Nat × Nat).1.length = n + 1 ∧ m = rank B (n + 1) ∧
        ∀ j < n + 1, j ∉ B → ((plain B n).1 ++ [v])[j]? = some (rank B j) := by
      intro v m hv hm
      refine ⟨by simp [h1], hm, fun j hj hB => ?_⟩
      by_cases hjn : j < n
      · rw [List.getElem?_append_left (by omega)]
        exact h3 j hjn hB
      · have : j = n := by omega
        subst this
        rw [List.getElem?_append_right (by omega), h1]
        simp [hv hB]
    rw [plain]
    split_ifs with h
    · exact key 0 _ (fun hn => absurd h hn) (by rw [h2, rank_succ, if_pos h, Nat.add_zero])
    · exact key _ _ (fun _ => h2) (by rw [h2, rank_succ, if_neg h])

theorem assign_spec (c : Nat) (b m : List Nat) (h : ∀ f ∈ b, f < m.length) :
    ∃ m', assign c b m = .ok m' ∧ m'.length = m.length ∧ (∀ f ∈ b, m'[f]? = some c) ∧ ∀ f, f ∉ b → m'[f]? = m[f]? := by
  induction b generalizing m with
  | nil => exact ⟨m, rfl, rfl, by simp, fun _ _ => rfl⟩
  | cons f fs ih =>
    obtain ⟨m', h1, h2, h3, h4⟩ := ih (m.set f c) (fun g hg => by rw [List.length_set]; exact h g (List.mem_cons_of_mem _ hg))
    refine ⟨m', by rw [assign, if_pos (h f (List.mem_cons_self ..)), h1], by rw [h2, List.length_set], fun g hg => ?_, fun g hg => ?_⟩
    · by_cases hgs : g ∈ fs
      · exact h3 g hgs
      · have : g = f := by simpa [hgs] using hg
        subst this
        rw [h4 g hgs, List.getElem?_set_self (h g (List.mem_cons_self ..))]
    · simp only [List.mem_cons, not_or] at hg
      rw [h4 g hg.2, List.getElem?_set_ne (Ne.symm hg.1)]

theorem assignAll_spec (first : Nat) (bs : List (List Nat)) : ∀ (k : Nat) (m : List Nat), (∀ f ∈ bs.flatten, f < m.length) → bs.flatten.Nodup →
    ∃ m', assignAll first bs k m = .ok m' ∧ m'.length = m.length ∧ (∀ (i : Nat) (b : List Nat), bs[i]? = some b → ∀ f ∈ b, m'[f]? = some (first + k + i)) ∧
      ∀ f, f ∉ bs.flatten → m'[f]? = m[f]? := by
  induction bs with
  | nil => intro k m _ _; exact ⟨m, rfl, rfl, by simp, fun _ _ => rfl⟩
  | cons b bs ih =>
    intro k m hin hnd
    rw [List.flatten_cons] at hin hnd
    obtain ⟨m1, a1, a2, a3, a4⟩ := assign_spec (first + k) b m (fun f hf => hin f (List.mem_append_left _ hf))
    obtain ⟨m2, b1, b2, b3, b4⟩ := ih (k + 1) m1 (fun f hf => by rw [a2]; exact hin f (List.mem_append_right _ hf)) (List.nodup_append.1 hnd).2.1
    refine ⟨m2, by rw [assignAll, a1, Outcome.bind_ok, b1], by rw [b2, a2], fun i c hc f hf => ?_, fun f hf => ?_⟩
    · cases i with
      | zero =>
        simp only [List.getElem?_cons_zero, Option.some.injEq] at hc
        subst hc
        have : f ∉ bs.flatten := fun h => (List.nodup_append.1 hnd).2.2 f hf f h rfl
        rw [b4 f this, a3 f hf]
        rfl
      | succ i =>
        rw [List.getElem?_cons_succ] at hc
        rw [b3 i c hc f hf]
        congr 1
        omega
    · rw [List.flatten_cons, List.mem_append, not_or] at hf
      rw [b4 f hf.2, a4 f hf.1]

/-- what `createFeatureMapping` returns -/
theorem createMapping_spec (bundles : List (List Nat)) (total : Nat) (h : Sane bundles total) :
    ∃ m, createMapping bundles total = .ok m ∧ m.length = total ∧
      (∀ j < total, j ∉ bundles.flatten → m[j]? = some (rank bundles.flatten j)) ∧
      ∀ (i : Nat) (b : List Nat), bundles[i]? = some b → ∀ f ∈ b, m[f]? = some (rank bundles.flatten total + i) := by
  obtain ⟨p1, p2, p3⟩ := plain_spec bundles.flatten total
  obtain ⟨m, h1, h2, h3, h4⟩ := assignAll_spec (plain bundles.flatten total).2 bundles 0 (plain bundles.flatten total).1
    (fun f hf => by rw [p1]; exact h.inside f hf) h.nodup
  refine ⟨m, h1, by rw [h2, p1], fun j hj hn => by rw [h4 j hn, p3 j hj hn], fun i b hb f hf => ?_⟩
  rw [h3 i b hb f hf, p2]
  rfl

/-- a column in some bundle -/
theorem mem_bundle {bundles : List (List Nat)} {f : Nat} (h : f ∈ bundles.flatten) : ∃ (i : Nat) (b : List Nat), bundles[i]? = some b ∧ f ∈ b := by
  obtain ⟨b, hb, hf⟩ := List.mem_flatten.1 h
  obtain ⟨i, hi, rfl⟩ := List.getElem_of_mem hb
  exact ⟨i, _, List.getElem?_eq_getElem hi, hf⟩

theorem bundle_unique {bundles : List (List Nat)} (h : bundles.flatten.Nodup) {i j : Nat} {b c : List Nat} (hb : bundles[i]? = some b)
    (hc : bundles[j]? = some c) {f : Nat} (hf : f ∈ b) (hg : f ∈ c) : i = j := by
  rw [List.nodup_flatten] at h
  by_contra hne
  obtain ⟨hi, rfl⟩ := List.getElem?_eq_some_iff.1 hb
  obtain ⟨hj, rfl⟩ := List.getElem?_eq_some_iff.1 hc
  rcases lt_or_gt_of_ne hne with hlt | hlt
  · exact List.pairwise_iff_getElem.1 h.2 i j hi hj hlt hf hg
  · exact List.pairwise_iff_getElem.1 h.2 j i hj hi hlt hg hf

/-! ### writing and reading matrices -/

section
variable [LT α] [DecidableLT α] [LE α] [DecidableLE α] [Zero α] [Add α] [Sub α] [Neg α] [Mul α] [Div α]

theorem copyPlain_spec (X : Mat α) (B m : List Nat) (hm : ∀ j ∉ B, j < m.length → m[j]? = some (rank B j)) : ∀ n ≤ m.length, ∀ M,
    ∃ M', copyPlain X B m n M = .ok M' ∧ (∀ j < n, j ∉ B → ∀ i, M' i (rank B j) = X.at' i j) ∧ ∀ i c, rank B n ≤ c → M' i c = M i c := by
  intro n
  induction n with
  | zero => intro _ M; exact ⟨M, rfl, fun j hj => by omega, fun _ _ _ => rfl⟩
  | succ n ih =>
    intro hn M
    obtain ⟨M1, h1, h2, h3⟩ := ih (by omega) M
    rw [copyPlain, h1, Outcome.bind_ok]
    by_cases hB : n ∈ B
    · rw [if_pos hB]
      refine ⟨M1, rfl, fun j hj hjB => h2 j (by rcases Nat.lt_succ_iff_lt_or_eq.1 hj with h | h; exact h; exact absurd (h ▸ hB) hjB) hjB, fun i c hc => h3 i c ?_⟩
      rw [rank_succ, if_pos hB] at hc
      exact hc
    · rw [if_neg hB, hm n hB (by omega)]
      refine ⟨_, rfl, fun j hj hjB i => ?_, fun i c hc => ?_⟩
      · by_cases hjn : j = n
        · subst hjn; simp
        · have hlt : j < n := by omega
          have := rank_lt B hlt hjB
          rw [if_neg (by omega)]
          exact h2 j hlt hjB i
      · rw [rank_succ, if_neg hB] at hc
        rw [if_neg (by omega)]
        exact h3 i c (by omega)

theorem writeBundles_spec (L : Lits α) (X : Mat α) (m : List Nat) (first : Nat) : ∀ (bs : List (List Nat)) (k : Nat) (M : Nat → Nat → α),
    (∀ (i : Nat) (b : List Nat), bs[i]? = some b → b ≠ [] ∧ ∀ f ∈ b, f < X.c ∧ m[f]? = some (first + k + i)) →
    ∃ M', writeBundles L X m bs M = .ok M' ∧ (∀ (i : Nat) (b : List Nat), bs[i]? = some b → ∀ r, M' r (first + k + i) = encode L (X.at' r) 0 b) ∧
      ∀ r c, c < first + k → M' r c = M r c := by
  intro bs
  induction bs with
  | nil => intro k M _; exact ⟨M, rfl, by simp, fun _ _ _ => rfl⟩
  | cons b bs ih =>
    intro k M h
    obtain ⟨hne, hb⟩ := h 0 b rfl
    obtain ⟨f, fs, rfl⟩ := List.exists_cons_of_ne_nil hne
    have h0 := (hb f (List.mem_cons_self ..)).2
    rw [Nat.add_zero] at h0
    obtain ⟨M', h1, h2, h3⟩ := ih (k + 1) (fun i j => if j = first + k then encode L (X.at' i) 0 (f :: fs) else M i j) (fun i c hc => by
      obtain ⟨a, b⟩ := h (i + 1) c hc
      refine ⟨a, fun g hg => ⟨(b g hg).1, ?_⟩⟩
      rw [(b g hg).2]
      congr 1
      omega)
    refine ⟨M', ?_, fun i c hc r => ?_, fun r c hc => ?_⟩
    · rw [writeBundles, h0]
      simp only
      rw [if_pos (List.all_eq_true.2 fun g hg => by simpa using (hb g hg).1), h1]
    · cases i with
      | zero =>
        simp only [List.getElem?_cons_zero, Option.some.injEq] at hc
        subst hc
        rw [Nat.add_zero, h3 r _ (by omega)]
        simp
      | succ i =>
        rw [List.getElem?_cons_succ] at hc
        have := h2 i c hc r
        rwa [show first + (k + 1) + i = first + k + (i + 1) by omega] at this
    · rw [h3 r c (by omega)]
      rw [if_neg (by omega)]

theorem restorePlain_spec (B : Mat α) (Bs m : List Nat) (hm : ∀ j ∉ Bs, j < m.length → m[j]? = some (rank Bs j)) (hc : rank Bs m.length ≤ B.c) :
    ∀ n ≤ m.length, ∀ M, ∃ M', restorePlain B Bs m n M = .ok M' ∧ ∀ j < n, j ∉ Bs → ∀ i, M' i j = B.at' i (rank Bs j) := by
  intro n
  induction n with
  | zero => intro _ M; exact ⟨M, rfl, fun j hj => by omega⟩
  | succ n ih =>
    intro hn M
    obtain ⟨M1, h1, h2⟩ := ih (by omega) M
    rw [restorePlain, h1, Outcome.bind_ok]
    by_cases hB : n ∈ Bs
    · rw [if_pos hB]
      exact ⟨M1, rfl, fun j hj hjB => h2 j (by rcases Nat.lt_succ_iff_lt_or_eq.1 hj with h | h; exact h; exact absurd (h ▸ hB) hjB) hjB⟩
    · have hlt := rank_lt Bs (show n < m.length by omega) hB
      rw [if_neg hB, hm n hB (by omega)]
      simp only
      rw [if_pos (by omega)]
      refine ⟨_, rfl, fun j hj hjB i => ?_⟩
      by_cases hjn : j = n
      · subst hjn; simp
      · rw [if_neg hjn]
        exact h2 j (by omega) hjB i

theorem restoreBundles_spec (L : Lits α) (B : Mat α) (m : List Nat) (first : Nat) : ∀ (bs : List (List Nat)) (k : Nat) (M : Nat → Nat → α),
    (∀ (i : Nat) (b : List Nat), bs[i]? = some b → b ≠ [] ∧ first + k + i < B.c ∧ ∀ f ∈ b, m[f]? = some (first + k + i)) → bs.flatten.Nodup →
    ∃ M', restoreBundles L B m bs M = .ok M' ∧ (∀ (i : Nat) (b : List Nat), bs[i]? = some b → ∀ f ∈ b, ∀ r, M' r f = decode L b (B.at' r (first + k + i)) f) ∧
      ∀ r f, f ∉ bs.flatten → M' r f = M r f := by
  intro bs
  induction bs with
  | nil => intro k M _ _; exact ⟨M, rfl, by simp, fun _ _ _ => rfl⟩
  | cons b bs ih =>
    intro k M h hnd
    obtain ⟨hne, hlt, hb⟩ := h 0 b rfl
    obtain ⟨f, fs, rfl⟩ := List.exists_cons_of_ne_nil hne
    have h0 := hb f (List.mem_cons_self ..)
    rw [Nat.add_zero] at h0 hlt
    rw [List.flatten_cons] at hnd
    obtain ⟨M', h1, h2, h3⟩ := ih (k + 1) (fun i j => if j ∈ f :: fs then decode L (f :: fs) (B.at' i (first + k)) j else M i j) (fun i c hc => by
      obtain ⟨a, b, c⟩ := h (i + 1) c hc
      refine ⟨a, by omega, fun g hg => ?_⟩
      rw [c g hg]
      congr 1
      omega) (List.nodup_append.1 hnd).2.1
    refine ⟨M', ?_, fun i c hc g hg r => ?_, fun r c hc => ?_⟩
    · rw [restoreBundles, h0]
      simp only
      rw [if_pos hlt, h1]
    · cases i with
      | zero =>
        simp only [List.getElem?_cons_zero, Option.some.injEq] at hc
        subst hc
        have : g ∉ bs.flatten := fun h => (List.nodup_append.1 hnd).2.2 g hg g h rfl
        rw [Nat.add_zero, h3 r g this]
        rw [if_pos hg]
      | succ i =>
        rw [List.getElem?_cons_succ] at hc
        have := h2 i c hc g hg r
        rwa [show first + (k + 1) + i = first + k + (i + 1) by omega] at this
    · rw [List.flatten_cons, List.mem_append, not_or] at hc
      rw [h3 r c hc.2]
      rw [if_neg hc.1]

end
end Scigo.EFB
