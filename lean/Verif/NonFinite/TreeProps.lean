import Verif.NonFinite.MetricsProps
import Verif.Round.TreeProps
import Verif.Overflow.MetricsProps

/-!
# C306: a decision tree separates values of every magnitude
-/

namespace Scigo.NonFinite

open Scigo.Tree F64

/-- a finite number of at least `2 ^ 1023`, about `9e307` (a feature value, sklearn/tree/tree.go:327-340) -/
def Huge (x : F64) : Prop := ∃ q, x = .fin q ∧ 2 ^ 1023 ≤ q.1

theorem max_lt : maxF64 < 2 ^ 1024 := by
  unfold maxF64
  rw [show (1024 : Nat) = 53 + 971 from rfl, pow_add]
  exact mul_lt_mul_of_pos_right (sub_lt_self _ one_pos) (pow_pos (by norm_num) _)

theorem huge_add {a b : F64} (ha : Huge a) (hb : Huge b) : a + b = .inf false := by
  obtain ⟨p, rfl, hp⟩ := ha
  obtain ⟨q, rfl, hq⟩ := hb
  show F64.round (p.1 + q.1) = _
  have h1 : (2 : ℚ) ^ 1024 ≤ p.1 + q.1 := by
    have e : (2 : ℚ) ^ 1024 = 2 ^ 1023 + 2 ^ 1023 := by rw [pow_succ (2 : ℚ) 1023, mul_two]
    rw [e]
    exact add_le_add hp hq
  have h2 : (2 : ℚ) ^ 1024 ≤ Binary64.rnd (p.1 + q.1) := by
    have := Binary64.rnd_mono h1
    rwa [rep_pow] at this
  have h3 : (0 : ℚ) < 2 ^ 1024 := pow_pos (by norm_num) _
  unfold F64.round
  rw [dif_neg, decide_eq_false (not_lt.2 (h3.le.trans h1))]
  rw [abs_of_nonneg (h3.le.trans h2), not_le]
  exact lt_of_lt_of_le max_lt h2

theorem inf_half : (F64.inf false) / ((2 : Nat) : F64) = .inf false := by decide +kernel

/-- with an infinite threshold all rows go left -/
theorem sides_inf (nClasses : Nat) (S : List (Sample F64)) (feature : Nat) (h : ∀ s ∈ S, Huge (s.1 feature)) :
    (sideCounts nClasses S feature (.inf false)).2.2.2 = 0 := by
  unfold sideCounts
  have : ∀ (S : List (Sample F64)) (a : List Nat × List Nat × Nat × Nat), (∀ s ∈ S, Huge (s.1 feature)) → a.2.2.2 = 0 →
      (S.foldl (fun (a : List Nat × List Nat × Nat × Nat) s =>
        if s.1 feature ≤ .inf false then (a.1.modify s.2 (· + 1), a.2.1, a.2.2.1 + 1, a.2.2.2)
        else (a.1, a.2.1.modify s.2 (· + 1), a.2.2.1, a.2.2.2 + 1)) a).2.2.2 = 0 := by
    intro S
    induction S with
    | nil => exact fun a _ h => h
    | cons s S ih =>
      intro a hS ha
      rw [List.foldl_cons, if_pos]
      · exact ih _ (fun t ht => hS t (List.mem_cons_of_mem _ ht)) ha
      · obtain ⟨q, e, -⟩ := hS s (List.mem_cons_self ..)
        rw [e]
        exact Or.inl rfl
  exact this S _ h rfl

/-- no candidate threshold is accepted -/
theorem huge_try (log2 : F64 → F64) (P : Params F64) (hP : 1 ≤ P.minSamplesLeaf) (nClasses : Nat) (S : List (Sample F64)) (parent : F64) (feature : Nat)
    (h : ∀ s ∈ S, Huge (s.1 feature)) (best : Best F64) (v : F64 × F64) (hv : Huge v.1 ∧ Huge v.2) :
    tryThreshold log2 P nClasses S parent feature best v = best := by
  unfold tryThreshold
  split
  · rfl
  · dsimp only
    rw [huge_add hv.1 hv.2, inf_half, sides_inf nClasses S feature h, if_pos]
    right
    exact_mod_cast hP

/-- **C306**, negation: a feature whose values are all at least `2 ^ 1023` is never split, however different the values and the classes: the sum of two neighbours overflows. -/
theorem huge_never_split (log2 : F64 → F64) (srt : (Nat → F64) → List Nat → List Nat) (hsrt : ∀ key l, ∀ i ∈ srt key l, i ∈ l) (P : Params F64)
    (hP : 1 ≤ P.minSamplesLeaf) (nClasses nFeatures : Nat) (S : List (Sample F64)) (parent : F64) (h : ∀ s ∈ S, ∀ f < nFeatures, Huge (s.1 f)) :
    (findBestSplit log2 srt P nClasses nFeatures S parent).1 = none := by
  unfold findBestSplit
  have : ∀ (fs : List Nat) (best : Best F64), (∀ f ∈ fs, f < nFeatures) → (fs.foldl (fun best feature =>
      let vs := sortedValues srt S feature
      (vs.zip vs.tail).foldl (tryThreshold log2 P nClasses S parent feature) best) best) = best := by
    intro fs
    induction fs with
    | nil => exact fun _ _ => rfl
    | cons f fs ih =>
      intro best hf
      rw [List.foldl_cons]
      dsimp only
      have hvs : ∀ v ∈ sortedValues srt S f, Huge v := by
        intro v hv
        unfold sortedValues at hv
        obtain ⟨i, hi, rfl⟩ := List.mem_map.1 hv
        have hi' := List.mem_range.1 (hsrt _ _ i hi)
        rw [List.getD_eq_getElem?_getD, List.getElem?_map, List.getElem?_eq_getElem hi']
        exact h _ (List.getElem_mem hi') f (hf f (List.mem_cons_self ..))
      have hin : ∀ (ps : List (F64 × F64)) (best : Best F64), (∀ p ∈ ps, Huge p.1 ∧ Huge p.2) →
          ps.foldl (tryThreshold log2 P nClasses S parent f) best = best := by
        intro ps
        induction ps with
        | nil => exact fun _ _ => rfl
        | cons p ps ih2 =>
          intro best hp
          rw [List.foldl_cons, huge_try log2 P hP nClasses S parent f (fun s hs => h s hs f (hf f (List.mem_cons_self ..))) best p (hp p (List.mem_cons_self ..))]
          exact ih2 best (fun q hq => hp q (List.mem_cons_of_mem _ hq))
      rw [hin _ best (fun p hp => ⟨hvs _ (List.of_mem_zip hp).1, hvs _ (List.mem_of_mem_tail (List.of_mem_zip hp).2)⟩)]
      exact ih best (fun g hg => hf g (List.mem_cons_of_mem _ hg))
  rw [this _ _ (fun f hf => List.mem_range.1 hf)]

/-- **C306**, negation, continued: so `Fit` on such data gives a single leaf, and `Predict` the same class for every sample. -/
theorem huge_single_class (log2 : F64 → F64) (toInt : F64 → Int) (srt : (Nat → F64) → List Nat → List Nat) (hsrt : ∀ key l, ∀ i ∈ srt key l, i ∈ l)
    (iter : List Int → List Int) (P : Params F64) (hP : 1 ≤ P.minSamplesLeaf) (fuel : Nat) (X y : Mat F64) (hX : ∀ i < X.r, ∀ j < X.c, Huge (X.at' i j)) (t t' : Clf F64)
    (h : t.fit log2 toInt srt iter P (fuel + 1) X y = some (t', .ok ())) (Q : Mat F64) (ls : List Int) (hp : t'.predict Q = .ok ls) : ∀ a ∈ ls, ∀ b ∈ ls, a = b := by
  unfold Clf.fit at h
  split at h
  · cases h
  · split at h
    · cases h
    · dsimp only at h
      have hS : ∀ s ∈ samples toInt (extractClasses toInt iter y) X y, ∀ f < X.c, Huge (s.1 f) := by
        intro s hs f hf
        obtain ⟨i, hi, rfl⟩ := List.mem_map.1 hs
        exact hX i (List.mem_range.1 hi) f hf
      generalize samples toInt (extractClasses toInt iter y) X y = S at h hS
      generalize extractClasses toInt iter y = cls at h
      have hb : ∃ info imps, build log2 srt P cls.length X.c (fuel + 1) S 0 (List.replicate X.c 0) = some (.ok (.leaf info, imps)) := by
        unfold build
        dsimp only
        split
        · exact ⟨_, _, rfl⟩
        · have := huge_never_split log2 srt hsrt P hP cls.length X.c S (mkInfo log2 P cls.length S 0).impurity hS
          generalize findBestSplit log2 srt P cls.length X.c S (mkInfo log2 P cls.length S 0).impurity = r at this
          obtain ⟨a, b, c⟩ := r
          cases a with
          | none => exact ⟨_, _, rfl⟩
          | some f => cases this
      obtain ⟨info, imps, hb⟩ := hb
      rw [hb] at h
      dsimp only at h
      have ht := (Prod.ext_iff.1 (Option.some.inj h)).1
      dsimp only at ht
      subst ht
      unfold Clf.predict at hp
      split at hp
      · cases hp
      · split at hp
        · cases hp
        · dsimp only at hp
          have hrow : ∀ i, Clf.predictRow (.leaf info) cls Q.c (Q.at' i) = match cls[info.predictClass]? with
            | some c => Outcome.ok c
            | none => .panic "index out of range" := fun i => rfl
          have key : ∀ (n : Nat) (ls : List Int), rowsM (fun i => Clf.predictRow (.leaf info) cls Q.c (Q.at' i)) n = .ok ls →
              ∀ a ∈ ls, cls[info.predictClass]? = some a := by
            intro n
            induction n with
            | zero =>
              intro ls e a ha
              rw [← Outcome.ok.inj e] at ha
              cases ha
            | succ n ih =>
              intro ls e a ha
              unfold rowsM at e
              cases h1 : rowsM (fun i => Clf.predictRow (.leaf info) cls Q.c (Q.at' i)) n with
              | ok l =>
                rw [h1] at e
                dsimp only [Outcome.bind] at e
                rw [hrow] at e
                cases h2 : cls[info.predictClass]? with
                | none => rw [h2] at e; cases e
                | some c =>
                  rw [h2] at e
                  dsimp only at e
                  rw [← Outcome.ok.inj e] at ha
                  rcases List.mem_append.1 ha with ha | ha
                  · rw [← h2]; exact ih l h1 a ha
                  · rw [List.mem_singleton.1 ha]
              | err e' => rw [h1] at e; cases e
              | panic e' => rw [h1] at e; cases e
          intro a ha b hb'
          have h1 := key _ ls hp a ha
          rw [key _ ls hp b hb'] at h1
          exact (Option.some.inj h1).symm

theorem mid_between (a b : Overflow.B) (ha : |a.val| ≤ 2 ^ 1022) (hb : |b.val| ≤ 2 ^ 1022) (hab : a ≤ b) :
    let thr := (F64.lift a + F64.lift b) / ((2 : Nat) : F64)
    thr.IsFin ∧ F64.lift a ≤ thr ∧ thr ≤ F64.lift b := by
  have m22 : (2 : ℚ) ^ 1022 ≤ maxF64 := pow_le_max (by decide)
  have m23 : (2 : ℚ) ^ 1023 ≤ maxF64 := pow_le_max (by decide)
  have h2 : (((2 : Nat) : Overflow.B)).val = 2 := Round.two_val Round.binary64_doubleExact
  have hs : |(a + b).val| ≤ 2 ^ 1023 := add_bound ha hb (rep_pow 1023) (by rw [pow_succ (2 : ℚ) 1022, mul_two])
  have hd : |((a + b) / ((2 : Nat) : Overflow.B)).val| ≤ 2 ^ 1023 := div_bound hs (by rw [h2]; norm_num) (rep_pow 1023) (le_refl _)
  have e : (F64.lift a + F64.lift b) / ((2 : Nat) : F64) = F64.lift ((a + b) / ((2 : Nat) : Overflow.B)) := by
    rw [lift_add (ha.trans m22) (hb.trans m22), ← lift_natCast, lift_div (hs.trans m23) ?_ ?_]
    · rw [h2]
      refine le_trans ?_ (pow_le_max (k := 1) (by decide))
      norm_num
    · rw [h2]; norm_num
  intro thr
  have e' : thr = F64.lift ((a + b) / ((2 : Nat) : Overflow.B)) := e
  rw [e', lift_le (ha.trans m22) (hd.trans m23), lift_le (hd.trans m23) (hb.trans m22)]
  have hv : a.val ≤ b.val := hab
  refine ⟨lift_isFin (hd.trans m23), Round.le_midpoint Round.binary64_doubleExact a b a ?_, Round.midpoint_le Round.binary64_doubleExact a b b ?_⟩
  · rw [two_mul]; exact add_le_add (le_refl _) hv
  · rw [two_mul]; exact add_le_add hv (le_refl _)

/-- `float64` values of magnitude up to `2 ^ 1022` (`sklearn/tree/tree.go:115`, values of the training data) -/
def Moderate (x : F64) : Prop := ∃ a : Overflow.B, x = F64.lift a ∧ |a.val| ≤ 2 ^ 1022

/-- what is kept of a candidate: a finite threshold between two values of the feature (`sklearn/tree/tree.go:347-387`) -/
def Between (nFeatures : Nat) (S : List (Sample F64)) (b : Best F64) : Prop :=
  ∀ f, b.1 = some f → f < nFeatures ∧ b.2.1.IsFin ∧ ∃ s ∈ S, ∃ s' ∈ S, s.1 f ≤ b.2.1 ∧ b.2.1 ≤ s'.1 f

theorem moderate_mid {x y : F64} (hx : Moderate x) (hy : Moderate y) :
    let thr := (x + y) / ((2 : Nat) : F64)
    thr.IsFin ∧ ((x ≤ thr ∧ thr ≤ y) ∨ (y ≤ thr ∧ thr ≤ x)) := by
  obtain ⟨a, rfl, ha⟩ := hx
  obtain ⟨b, rfl, hb⟩ := hy
  rcases le_total a.val b.val with h | h
  · have := mid_between a b ha hb h
    exact ⟨this.1, Or.inl this.2⟩
  · have := mid_between b a hb ha h
    have m22 : (2 : ℚ) ^ 1022 ≤ maxF64 := pow_le_max (by decide)
    have e : F64.lift a + F64.lift b = F64.lift b + F64.lift a := by
      rw [lift_add (ha.trans m22) (hb.trans m22), lift_add (hb.trans m22) (ha.trans m22)]
      have hc : a + b = b + a := Fl.ext (by rw [Fl.val_add, Fl.val_add, add_comm])
      rw [hc]
    show ((F64.lift a + F64.lift b) / ((2 : Nat) : F64)).IsFin ∧ _
    rw [e]
    exact ⟨this.1, Or.inr this.2⟩

/-- **C306** (partial): on data of magnitude up to `2 ^ 1022` a split that is found has a finite threshold, not below one and not above another value of the feature.
Missing: larger values (`huge_never_split`); neighbours whose midpoint rounds up to the greater one (C272). -/
theorem threshold_between_partial (log2 : F64 → F64) (srt : (Nat → F64) → List Nat → List Nat) (hsrt : ∀ key l, ∀ i ∈ srt key l, i ∈ l) (P : Params F64)
    (nClasses nFeatures : Nat) (S : List (Sample F64)) (parent : F64) (h : ∀ s ∈ S, ∀ f < nFeatures, Moderate (s.1 f)) (f : Nat) (thr d : F64)
    (hb : findBestSplit log2 srt P nClasses nFeatures S parent = (some f, thr, d)) :
    f < nFeatures ∧ thr.IsFin ∧ ∃ s ∈ S, ∃ s' ∈ S, s.1 f ≤ thr ∧ thr ≤ s'.1 f := by
  have : ∀ (fs : List Nat) (best : Best F64), (∀ f ∈ fs, f < nFeatures) → Between nFeatures S best → Between nFeatures S (fs.foldl (fun best feature =>
      let vs := sortedValues srt S feature
      (vs.zip vs.tail).foldl (tryThreshold log2 P nClasses S parent feature) best) best) := by
    intro fs
    induction fs with
    | nil => exact fun _ _ hb => hb
    | cons f fs ih =>
      intro best hf hbest
      rw [List.foldl_cons]
      have hf0 : f < nFeatures := hf f (List.mem_cons_self ..)
      have hvs : ∀ v ∈ sortedValues srt S f, ∃ s ∈ S, s.1 f = v := by
        intro v hv
        unfold sortedValues at hv
        obtain ⟨i, hi, rfl⟩ := List.mem_map.1 hv
        have hi' := List.mem_range.1 (hsrt _ _ i hi)
        rw [List.getD_eq_getElem?_getD, List.getElem?_map, List.getElem?_eq_getElem hi']
        exact ⟨_, List.getElem_mem hi', rfl⟩
      apply ih _ (fun g hg => hf g (List.mem_cons_of_mem _ hg))
      dsimp only
      have hin : ∀ (ps : List (F64 × F64)) (best : Best F64), (∀ p ∈ ps, (∃ s ∈ S, s.1 f = p.1) ∧ ∃ s ∈ S, s.1 f = p.2) → Between nFeatures S best →
          Between nFeatures S (ps.foldl (tryThreshold log2 P nClasses S parent f) best) := by
        intro ps
        induction ps with
        | nil => exact fun _ _ hb => hb
        | cons p ps ih2 =>
          intro best hp hbest
          rw [List.foldl_cons]
          apply ih2 _ (fun q hq => hp q (List.mem_cons_of_mem _ hq))
          unfold tryThreshold
          split
          · exact hbest
          · dsimp only
            split
            · exact hbest
            · split
              · intro g hg
                obtain ⟨⟨s, hs, e1⟩, s', hs', e2⟩ := hp p (List.mem_cons_self ..)
                cases hg
                have hm := moderate_mid (e1 ▸ h s hs f hf0) (e2 ▸ h s' hs' f hf0)
                dsimp only at hm
                refine ⟨hf0, hm.1, ?_⟩
                rcases hm.2 with ⟨ha, hb⟩ | ⟨ha, hb⟩
                · exact ⟨s, hs, s', hs', by rw [e1]; exact ha, by rw [e2]; exact hb⟩
                · exact ⟨s', hs', s, hs, by rw [e2]; exact ha, by rw [e1]; exact hb⟩
              · exact hbest
      exact hin _ best (fun p hp => ⟨hvs _ (List.of_mem_zip hp).1, hvs _ (List.mem_of_mem_tail (List.of_mem_zip hp).2)⟩) hbest
  have hfin := this (List.range nFeatures) (none, 0, 0) (fun f hf => List.mem_range.1 hf) (fun f hf => by cases hf)
  unfold findBestSplit at hb
  rw [hb] at hfin
  exact hfin f rfl

/-- the hypotheses of `threshold_between_partial`: 1 and 2 of different classes are split at 3/2 -/
example : findBestSplit (α := F64) id (fun _ l => l) ⟨"gini", 0, 2, 1, 0⟩ 2 1 [(fun _ => 1, 0), (fun _ => F64.round 2, 1)] (F64.round (1 / 2)) =
    (some 0, F64.round (3 / 2), F64.round (1 / 2)) := by decide +kernel

/-- training data of two classes, `2 ^ 1023` and the greatest `float64` (`Fit`, sklearn/tree/tree.go:115-155) -/
def hugeData : Mat F64 := ⟨2, 1, fun i _ => if i = 0 then F64.round (2 ^ 1023) else F64.round maxF64⟩

example : Huge (hugeData.at' 0 0) ∧ Huge (hugeData.at' 1 0) ∧ (hugeData.at' 0 0 == hugeData.at' 1 0) = false :=
  ⟨⟨⟨2 ^ 1023, by decide +kernel⟩, by decide +kernel, by decide +kernel⟩, ⟨⟨maxF64, by decide +kernel⟩, by decide +kernel, by decide +kernel⟩, by decide +kernel⟩

/-- fitted on both, `Predict` gives both rows class 0; for 1 and 2 in their place it tells them apart -/
example :
    let P : Params F64 := ⟨"gini", 0, 2, 1, 0⟩
    let toInt : F64 → Int := fun x => if x == 0 then 0 else 1
    let run (X : Mat F64) := (Clf.new.fit id toInt (fun _ l => l) id P 9 X ⟨2, 1, fun i _ => if i = 0 then 0 else 1⟩).map (fun r => r.1.predict X)
    run hugeData = some (.ok [0, 0]) ∧ run ⟨2, 1, fun i _ => if i = 0 then 1 else F64.round 2⟩ = some (.ok [0, 1]) := by
  decide +kernel

end Scigo.NonFinite
