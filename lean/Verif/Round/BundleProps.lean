import Verif.EFB.Props
import Verif.Base.Binary64Add

/-!
# C296: exclusive feature bundling in float64
-/

set_option linter.unusedSectionVars false

namespace Scigo.Round

open Scigo.EFB

/-- float64 numbers -/
abbrev F64' := Fl Binary64.rounding

/-- the literals of the bundling code in float64: sklearn/lightgbm/efb.go:84-88, 320 -/
def bundleLits : Lits F64' := ⟨Fl.of _ (1 / 10 ^ 10), Fl.of _ 1000, fun n => (n : F64')⟩

theorem encode_none {α : Type} [LT α] [DecidableLT α] [LE α] [DecidableLE α] [Zero α] [Add α] [Sub α] [Neg α] [Mul α] [Div α]
    (L : Lits α) (value : Nat → α) (fs : List Nat) : ∀ k, (∀ f ∈ fs, nonZero L (value f) = false) → encode L value k fs = 0 := by
  induction fs with
  | nil => intro k _; rfl
  | cons f fs ih =>
    intro k h
    rw [encode, h f (List.mem_cons_self ..)]
    exact ih (k + 1) fun g hg => h g (List.mem_cons_of_mem _ hg)

theorem encode_some {α : Type} [LT α] [DecidableLT α] [LE α] [DecidableLE α] [Zero α] [Add α] [Sub α] [Neg α] [Mul α] [Div α]
    (L : Lits α) (value : Nat → α) (fs : List Nat) : ∀ (k i f : Nat), fs[i]? = some f → nonZero L (value f) = true →
    (∀ g ∈ fs, g ≠ f → nonZero L (value g) = false) → fs.Nodup → encode L value k fs = L.base * L.ofNat (k + i + 1) + value f := by
  induction fs with
  | nil => intro k i f h; simp at h
  | cons g fs ih =>
    intro k i f h hn ho hnd
    cases i with
    | zero =>
      simp only [List.getElem?_cons_zero, Option.some.injEq] at h
      subst h
      rw [encode, hn]
      rfl
    | succ i =>
      rw [List.getElem?_cons_succ] at h
      have hne : g ≠ f := by
        rintro rfl
        exact (List.nodup_cons.1 hnd).1 (List.mem_of_getElem? h)
      rw [encode, ho g (List.mem_cons_self ..) hne]
      have := ih (k + 1) i f h hn (fun x hx => ho x (List.mem_cons_of_mem _ hx)) (List.nodup_cons.1 hnd).2
      rw [show k + 1 + i + 1 = k + (i + 1) + 1 by omega] at this
      exact this

theorem base_val : bundleLits.base.val = 1000 := by
  have := Binary64.nat_exact 1000 (by norm_num)
  exact_mod_cast this

theorem tiny_pos : 0 < bundleLits.tiny.val ∧ bundleLits.tiny.val ≤ 1 := by
  have h2 : Binary64.rounding.rnd ((1 : Int) * Binary64.pow2 (-34)) = (1 : Int) * Binary64.pow2 (-34) :=
    Binary64.rnd_exact 1 (-34) (by norm_num) (by norm_num)
  have m2 := Binary64.rounding.mono (show ((1 : Int) * Binary64.pow2 (-34) : ℚ) ≤ 1 / 10 ^ 10 by rw [Binary64.pow2_eq]; norm_num)
  have m1 := Binary64.rounding.mono (show (1 / 10 ^ 10 : ℚ) ≤ 1 by norm_num)
  rw [h2] at m2
  rw [Binary64.rounding.one] at m1
  refine ⟨lt_of_lt_of_le ?_ m2, m1⟩
  rw [Binary64.pow2_eq]; norm_num

/-- the offset of a position is exact -/
theorem offset_val (i : Nat) (hi : 1000 * i < 2 ^ 53) : (bundleLits.base * bundleLits.ofNat i).val = 1000 * (i : ℚ) := by
  have h1 : (bundleLits.ofNat i).val = i := Binary64.nat_exact i (by omega)
  rw [Fl.val_mul, base_val, h1]
  have := Binary64.nat_exact (1000 * i) hi
  push_cast at this
  exact this

theorem offset_next (i : Nat) (hi : 1000 * (i + 1) < 2 ^ 53) : (bundleLits.base * bundleLits.ofNat i + bundleLits.base).val = 1000 * (i : ℚ) + 1000 := by
  rw [Fl.val_add, offset_val i (by omega), base_val]
  have := Binary64.nat_exact (1000 * (i + 1)) hi
  push_cast at this
  rw [show 1000 * (i : ℚ) + 1000 = 1000 * ((i : ℚ) + 1) by ring]
  exact this

/-- the value written for a column whose value is `v`, and the value read back -/
theorem decode_near (i : Nat) (hi : 1000 * (i + 2) < 2 ^ 53) (v : F64') (h0 : 0 < v.val) (h1 : v.val ≤ 999) :
    let w := bundleLits.base * bundleLits.ofNat (i + 1) + v
    1000 * ((i : ℚ) + 1) ≤ w.val ∧ w.val ≤ 1000 * ((i : ℚ) + 1) + 999 ∧
      |(w - bundleLits.base * bundleLits.ofNat (i + 1)).val - v.val| ≤ 1 / 2 ^ 53 * (1000 * ((i : ℚ) + 2)) ∧
      ((∃ n : Nat, v.val = n) → w - bundleLits.base * bundleLits.ofNat (i + 1) = v) := by
  intro w
  have hoff := offset_val (i + 1) (by omega)
  push_cast at hoff
  have hi0 : (0 : ℚ) ≤ i := Nat.cast_nonneg i
  have hw : w.val = Binary64.rounding.rnd (1000 * ((i : ℚ) + 1) + v.val) := by
    show Binary64.rounding.rnd _ = _
    rw [hoff]
  have r1 : Binary64.rounding.rnd (1000 * ((i : ℚ) + 1)) = 1000 * ((i : ℚ) + 1) := by
    have := Binary64.nat_exact (1000 * (i + 1)) (by omega)
    push_cast at this
    exact this
  have r2 : Binary64.rounding.rnd (1000 * ((i : ℚ) + 1) + 999) = 1000 * ((i : ℚ) + 1) + 999 := by
    have := Binary64.nat_exact (1000 * (i + 1) + 999) (by omega)
    push_cast at this
    exact this
  have w1 : 1000 * ((i : ℚ) + 1) ≤ w.val := by
    rw [hw]
    conv_lhs => rw [← r1]
    exact Binary64.rounding.mono (by linarith)
  have w2 : w.val ≤ 1000 * ((i : ℚ) + 1) + 999 := by
    rw [hw]
    conv_rhs => rw [← r2]
    exact Binary64.rounding.mono (by linarith)
  have hst : (w - bundleLits.base * bundleLits.ofNat (i + 1)).val = w.val - 1000 * ((i : ℚ) + 1) := by
    rw [Fl.val_sub, hoff]
    exact Binary64.sterbenz _ _ r1 w.rep w1 (by linarith)
  refine ⟨w1, w2, ?_, ?_⟩
  · rw [hst, hw]
    have := Binary64.add_accurate _ _ r1 v.rep
    rw [abs_of_nonneg (show (0 : ℚ) ≤ 1000 * ((i : ℚ) + 1) + v.val by linarith)] at this
    have h3 : (1 : ℚ) / 2 ^ 53 * (1000 * ((i : ℚ) + 1) + v.val) ≤ 1 / 2 ^ 53 * (1000 * ((i : ℚ) + 2)) :=
      mul_le_mul_of_nonneg_left (by linarith) (by norm_num)
    refine le_trans (le_of_eq ?_) (this.trans h3)
    congr 1
    ring
  · rintro ⟨n, hn⟩
    refine Fl.ext ?_
    rw [hst, hw, hn]
    have hn999 : n ≤ 999 := by
      rw [hn] at h1
      exact_mod_cast h1
    have := Binary64.nat_exact (1000 * (i + 1) + n) (by omega)
    push_cast at this
    have e : Binary64.rounding.rnd (1000 * ((i : ℚ) + 1) + n) = 1000 * ((i : ℚ) + 1) + n := this
    rw [e]
    ring

/-- one row of one bundle -/
theorem decode_encode_near (value : Nat → F64') (b : List Nat) (hnd : b.Nodup) (hlen : 1000 * (b.length + 1) < 2 ^ 53)
    (hv : ∀ f ∈ b, (value f).val = 0 ∨ bundleLits.tiny.val < (value f).val ∧ (value f).val ≤ 999)
    (hex : ∀ f ∈ b, ∀ g ∈ b, f ≠ g → ¬ (nonZero bundleLits (value f) = true ∧ nonZero bundleLits (value g) = true)) (f : Nat) (hf : f ∈ b) :
    |(decode bundleLits b (encode bundleLits value 0 b) f).val - (value f).val| ≤ 1 / 2 ^ 53 * (1000 * ((b.length : ℚ) + 1)) ∧
      ((∃ n : Nat, (value f).val = n) → decode bundleLits b (encode bundleLits value 0 b) f = value f) := by
  obtain ⟨ht, ht1⟩ := tiny_pos
  have hbound : (0 : ℚ) ≤ 1 / 2 ^ 53 * (1000 * ((b.length : ℚ) + 1)) := by positivity
  have exact_ok : ∀ {y : F64'}, y = value f → |y.val - (value f).val| ≤ 1 / 2 ^ 53 * (1000 * ((b.length : ℚ) + 1)) ∧
      ((∃ n : Nat, (value f).val = n) → y = value f) := by
    rintro y rfl
    refine ⟨by rw [sub_self, abs_zero]; exact hbound, fun _ => rfl⟩
  have nz : ∀ f ∈ b, nonZero bundleLits (value f) = true ∨ value f = 0 := by
    intro f hf
    rcases hv f hf with h | h
    · exact Or.inr (Fl.ext h)
    · left
      unfold nonZero EFB.abs'
      have h0 : ¬ value f < 0 := not_lt.2 (show (0 : ℚ) ≤ (value f).val from (ht.trans h.1).le)
      rw [if_neg h0]
      exact decide_eq_true h.1
  have nz0 : nonZero bundleLits (0 : F64') = false := by
    unfold nonZero EFB.abs'
    rw [if_neg (lt_irrefl _)]
    exact decide_eq_false (not_lt.2 (show (0 : ℚ) ≤ bundleLits.tiny.val from ht.le))
  by_cases hall : ∀ g ∈ b, nonZero bundleLits (value g) = false
  · rw [encode_none bundleLits value b 0 hall]
    apply exact_ok
    have : value f = 0 := by
      rcases nz f hf with h | h
      · rw [hall f hf] at h; cases h
      · exact h
    rw [this]
    unfold decode isZero EFB.abs'
    have ht' : (0 : F64') < bundleLits.tiny := ht
    rw [if_neg (lt_irrefl _), if_pos (decide_eq_true ht')]
  · push Not at hall
    obtain ⟨g, hg, hgn⟩ := hall
    have hgn : nonZero bundleLits (value g) = true := by simpa using hgn
    have others : ∀ h ∈ b, h ≠ g → nonZero bundleLits (value h) = false := by
      intro h hh hne
      by_contra hc
      exact hex h hh g hg hne ⟨by simpa using hc, hgn⟩
    obtain ⟨i, hi, hgi⟩ := List.getElem_of_mem hg
    have hgi' : b[i]? = some g := by rw [List.getElem?_eq_getElem hi, hgi]
    have hx : 0 < (value g).val ∧ (value g).val ≤ 999 := by
      rcases hv g hg with h | h
      · rw [Fl.ext (b := (0 : F64')) h, nz0] at hgn; cases hgn
      · exact ⟨ht.trans h.1, h.2⟩
    have hi2 : 1000 * (i + 2) < 2 ^ 53 := by omega
    obtain ⟨w1, w2, w3, w4⟩ := decode_near i hi2 (value g) hx.1 hx.2
    rw [encode_some bundleLits value b 0 i g hgi' hgn others hnd, Nat.zero_add]
    set w := bundleLits.base * bundleLits.ofNat (i + 1) + value g with hwd
    have hi0 : (0 : ℚ) ≤ i := Nat.cast_nonneg i
    have hnz : isZero bundleLits w = false := by
      unfold isZero EFB.abs'
      have hw0 : ¬ w < 0 := not_lt.2 (Fl.le_iff.2 (show (0 : ℚ) ≤ w.val by linarith))
      rw [if_neg hw0]
      exact decide_eq_false (not_lt.2 (show bundleLits.tiny.val ≤ w.val by linarith))
    have hpos : position bundleLits w b.length = some i := by
      unfold position
      have huniq : ∀ k : Nat, k < i + 1 → ((bundleLits.base * bundleLits.ofNat (k + 1) ≤ w ∧
          w < bundleLits.base * bundleLits.ofNat (k + 1) + bundleLits.base) ↔ k = i) := by
        intro k hk
        rw [Fl.le_iff, Fl.lt_iff, offset_next (k + 1) (by omega), offset_val (k + 1) (by omega)]
        constructor
        · rintro ⟨-, h2⟩
          by_contra hne
          have : ((k + 1 + 1 : Nat) : ℚ) ≤ ((i + 1 : Nat) : ℚ) := Nat.cast_le.2 (by omega)
          push_cast at this h2
          linarith
        · rintro rfl
          push_cast
          exact ⟨w1, by linarith⟩
      rw [List.find?_eq_some_iff_append]
      refine ⟨by simpa using (huniq i (by omega)).2 rfl, List.range i, (List.range' (i + 1) (b.length - i - 1)), ?_, fun k hk => ?_⟩
      · rw [List.range_eq_range', List.range_eq_range', ← List.range'_succ]
        rw [show List.range' i (b.length - i - 1 + 1) = List.range' (0 + 1 * i) (b.length - i) by congr 1 <;> omega, List.range'_append]
        congr 1
        omega
      · have hlt := List.mem_range.1 hk
        have := (not_congr (huniq k (by omega))).2 (by omega)
        by_contra hc
        apply this
        simpa using hc
    have hdec : decode bundleLits b w f = if b[i]? = some f then w - bundleLits.base * bundleLits.ofNat (i + 1) else 0 := by
      unfold decode
      rw [hnz, hpos]
      rfl
    by_cases hfg : f = g
    · subst hfg
      rw [hdec, if_pos hgi']
      refine ⟨w3.trans ?_, w4⟩
      have : (i : ℚ) + 2 ≤ (b.length : ℚ) + 1 := by
        have : ((i + 1 : Nat) : ℚ) ≤ (b.length : ℚ) := Nat.cast_le.2 hi
        push_cast at this
        linarith
      exact mul_le_mul_of_nonneg_left (by linarith) (by norm_num)
    · rw [hdec, if_neg (by rw [hgi']; simpa using Ne.symm hfg)]
      rcases nz f hf with h | h
      · rw [others f hf hfg] at h; cases h
      · exact exact_ok h.symm

/-- with no conflicts allowed two columns of a bundle are nowhere both non-zero, also when the rate is rounded -/
theorem exclusive_rounded (X : Mat F64') (hr : X.r < 2 ^ 53) (f g : Nat) (h : conflictRate bundleLits X f g ≤ 0) (i : Nat) (hi : i < X.r) :
    ¬ (nonZero bundleLits (X.at' i f) = true ∧ nonZero bundleLits (X.at' i g) = true) := by
  rintro ⟨h1, h2⟩
  have hb : 0 < bothCount bundleLits X f g := by
    unfold bothCount
    exact List.countP_pos_iff.2 ⟨i, List.mem_range.2 hi, by simp [h1, h2]⟩
  have he : 0 < eitherCount bundleLits X f g := by
    unfold eitherCount
    exact List.countP_pos_iff.2 ⟨i, List.mem_range.2 hi, by simp [h1]⟩
  have hbl : bothCount bundleLits X f g ≤ X.r := by
    unfold bothCount
    exact List.countP_le_length.trans (by simp)
  have hel : eitherCount bundleLits X f g ≤ X.r := by
    unfold eitherCount
    exact List.countP_le_length.trans (by simp)
  unfold conflictRate at h
  rw [if_pos he] at h
  have hval : (bundleLits.ofNat (bothCount bundleLits X f g) / bundleLits.ofNat (eitherCount bundleLits X f g)).val =
      Binary64.rounding.rnd ((bothCount bundleLits X f g : ℚ) / (eitherCount bundleLits X f g : ℚ)) := by
    rw [Fl.val_div]
    show Binary64.rounding.rnd (Binary64.rounding.rnd _ / Binary64.rounding.rnd _) = _
    rw [Binary64.nat_exact _ (by omega), Binary64.nat_exact _ (by omega)]
  have hq : Binary64.rounding.rnd ((1 : Int) * Binary64.pow2 (-53)) = (1 : Int) * Binary64.pow2 (-53) :=
    Binary64.rnd_exact 1 (-53) (by norm_num) (by norm_num)
  have hle : ((1 : Int) * Binary64.pow2 (-53) : ℚ) ≤ (bothCount bundleLits X f g : ℚ) / (eitherCount bundleLits X f g : ℚ) := by
    have e0 : (0 : ℚ) < (eitherCount bundleLits X f g : ℚ) := by exact_mod_cast he
    rw [le_div_iff₀ e0]
    have e1 : (eitherCount bundleLits X f g : ℚ) ≤ 2 ^ 53 := by
      have : eitherCount bundleLits X f g ≤ 2 ^ 53 := by omega
      exact_mod_cast this
    have e2 : (1 : ℚ) ≤ (bothCount bundleLits X f g : ℚ) := by exact_mod_cast hb
    refine le_trans ?_ e2
    rw [Binary64.pow2_eq]
    push_cast
    rw [one_mul]
    calc (2 : ℚ) ^ (-53 : Int) * (eitherCount bundleLits X f g : ℚ) ≤ (2 : ℚ) ^ (-53 : Int) * 2 ^ 53 :=
          mul_le_mul_of_nonneg_left e1 (by positivity)
      _ = 1 := by norm_num
  have := Binary64.rounding.mono hle
  rw [hq, ← hval] at this
  have hpos : (0 : ℚ) < (1 : Int) * Binary64.pow2 (-53) := by
    rw [Binary64.pow2_eq]; norm_num
  exact absurd (Fl.le_iff.1 h) (not_le.2 (lt_of_lt_of_le hpos this))

/-- C296, the part that holds: in float64, with at least two sparse columns, no conflicts allowed, and every value of a sparse column
either 0 or above 1e-10 and at most 999, unbundling the bundled matrix gives a matrix of the same shape: columns outside the bundles and
whole numbers are given back exactly, the other values up to one rounding at the magnitude of the offset, at most `2^-53·1000·(c+1)` for
`c` columns -/
theorem bundle_round_trip_partial (srt : (Nat → Nat) → List Nat → List Nat) (hsrt : ∀ key l, (srt key l).Perm l) (o : Optimizer F64') (X : Mat F64')
    (hr : 0 < X.r) (hr' : X.r < 2 ^ 53) (hc : 1000 * (X.c + 1) < 2 ^ 53)
    (h2 : 2 ≤ (sparseColumns bundleLits o X).length) (hrate : o.maxConflictRate ≤ 0)
    (hv : ∀ i < X.r, ∀ j < X.c, o.sparsityRatio ≤ sparsity bundleLits X j →
      (X.at' i j).val = 0 ∨ bundleLits.tiny.val < (X.at' i j).val ∧ (X.at' i j).val ≤ 999) :
    ∃ bundles m o' B Y, createBundles bundleLits srt o X = .ok (bundles, m, o') ∧ bundleFeatures bundleLits X bundles m = .ok B ∧
      unbundleFeatures bundleLits B bundles X.c = .ok Y ∧ Y.r = X.r ∧ Y.c = X.c ∧
      ∀ i < X.r, ∀ j < X.c, |(Y.at' i j).val - (X.at' i j).val| ≤ 1 / 2 ^ 53 * (1000 * ((X.c : ℚ) + 1)) ∧
        ((∃ n : Nat, (X.at' i j).val = n) → Y.at' i j = X.at' i j) ∧ (j ∉ bundles.flatten → Y.at' i j = X.at' i j) := by
  obtain ⟨bundles, m, o', h1, snd, sp, cf, -⟩ := bundles_sound bundleLits srt hsrt o X
  obtain ⟨bundles', m', rest, h1', hg, -, hm⟩ := createBundles_inv bundleLits srt hsrt o X
  rw [h1] at h1'
  cases h1'
  have hs := sane_of_good hg
  have hm := hm h2
  obtain ⟨hl, hvv⟩ := mapping_values bundles X.c hs m hm
  obtain ⟨m', e1, -, e3, e4⟩ := createMapping_spec bundles X.c hs
  rw [hm] at e1
  cases e1
  have h0 : 0 < X.c := by
    have hsp : (sparseColumns bundleLits o X).length ≤ X.c := by
      unfold sparseColumns
      exact (List.length_filter_le _ _).trans (by simp)
    omega
  obtain ⟨M1, c1, p1, -⟩ := copyPlain_spec X bundles.flatten m (fun j hB hj => e3 j (by omega) hB) X.c (by omega) (fun _ _ => 0)
  obtain ⟨M2, c2, p2, p2'⟩ := writeBundles_spec bundleLits X m (rank bundles.flatten X.c) bundles 0 M1 (fun i b hb => by
    refine ⟨hs.nonempty b (List.mem_of_getElem? hb), fun f hf => ⟨hs.inside f (List.mem_flatten.2 ⟨b, List.mem_of_getElem? hb, hf⟩), ?_⟩⟩
    exact e4 i b hb f hf)
  have hcols := newCols_eq bundles X.c hs m hm h0
  obtain ⟨B, hB⟩ : ∃ B : Mat F64', B = ⟨X.r, m.foldl max 0 + 1, M2⟩ := ⟨_, rfl⟩
  have hBc : B.c = rank bundles.flatten X.c + bundles.length := by rw [hB]; exact hcols
  obtain ⟨M3, c3, p3⟩ := restorePlain_spec B bundles.flatten m (fun j hB hj => e3 j (by omega) hB) (by rw [hl, hBc]; omega) X.c (by omega) (fun _ _ => 0)
  obtain ⟨M4, c4, p4, p4'⟩ := restoreBundles_spec bundleLits B m (rank bundles.flatten X.c) bundles 0 M3 (fun i b hb => by
    refine ⟨hs.nonempty b (List.mem_of_getElem? hb), ?_, fun f hf => e4 i b hb f hf⟩
    have := (List.getElem?_eq_some_iff.1 hb).1
    rw [hBc]
    omega) hs.nodup
  refine ⟨bundles, m, _, B, ⟨X.r, X.c, M4⟩, h1, ?_, ?_, rfl, rfl, fun i hi j hj => ?_⟩
  · rw [bundleFeatures, if_neg (by omega), c1, Outcome.bind_ok, c2, Outcome.bind_ok, hB]
  · rw [unbundleFeatures, if_neg (by rw [hB]; simp only; omega), hm, Outcome.bind_ok, c3, Outcome.bind_ok, c4, Outcome.bind_ok, hB]
  · simp only at hi hj ⊢
    have hBat : B.at' = M2 := by rw [hB]
    by_cases hjB : j ∈ bundles.flatten
    · obtain ⟨k, b, hb, hf⟩ := mem_bundle hjB
      have hmem := List.mem_of_getElem? hb
      rw [p4 k b hb j hf i, hBat, p2 k b hb i]
      have hnd := (List.nodup_flatten.1 hs.nodup).1 b hmem
      have hblen : b.length ≤ X.c := by
        have hsub : b ⊆ List.range X.c := fun f hf => List.mem_range.2 (hs.inside f (List.mem_flatten.2 ⟨b, hmem, hf⟩))
        have := (hnd.subperm hsub).length_le
        rwa [List.length_range] at this
      obtain ⟨d1, d2⟩ := decode_encode_near (X.at' i) b hnd (by omega) (fun f hf => (by
          have := sp f (List.mem_flatten.2 ⟨b, hmem, hf⟩)
          exact hv i hi f this.1 this.2))
        (fun f hf g hg hne => exclusive_rounded X hr' f g (le_trans (not_lt.1 ((cf b hmem).2 f hf g hg hne)) hrate) i hi) j hf
      refine ⟨d1.trans (mul_le_mul_of_nonneg_left ?_ (by norm_num)), d2, fun hc => absurd hjB hc⟩
      have : (b.length : ℚ) ≤ X.c := Nat.cast_le.2 hblen
      linarith
    · have e : M4 i j = X.at' i j := by
        rw [p4' i j hjB, p3 j hj hjB i, hBat, p2' i _ (by have := rank_lt bundles.flatten hj hjB; omega), p1 j hj hjB i]
      rw [e]
      refine ⟨?_, fun _ => rfl, fun _ => rfl⟩
      rw [sub_self, abs_zero]
      positivity

/-- a matrix from its rows, rounded -/
def matOf (rows : List (List ℚ)) (c : Nat) : Mat F64' := ⟨rows.length, c, fun i j => Fl.of _ ((rows.getD i []).getD j 0)⟩

/-- entries of a result -/
def entriesOf : Outcome (Mat F64') → Except String (List (List ℚ))
  | .ok Y => .ok ((List.range Y.r).map fun i => (List.range Y.c).map fun j => (Y.at' i j).val)
  | .err _ => .error "error"
  | .panic s => .error s

/-- the default settings -/
def bundler : Optimizer F64' := ⟨0, 0, Fl.of _ (4 / 5)⟩

/-- `CreateBundles`, `BundleFeatures` and `UnbundleFeatures` one after the other -/
def bundleTrip (X : Mat F64') : Outcome (Mat F64') :=
  (createBundles bundleLits (fun key => stableAsc key) bundler X).bind fun r =>
  (bundleFeatures bundleLits X r.1 r.2.1).bind fun B => unbundleFeatures bundleLits B r.1 X.c

/-- C296, false of the code: in float64 two exclusive sparse columns do not survive bundling and unbundling. Of the value `0.1` the last
digits are lost; the value just below 1000 becomes 0. -/
theorem bundle_round_trip_lossy :
    entriesOf (.ok (matOf [[1 / 10, 1, 0], [0, 2, 1000 - 1 / 2 ^ 43], [0, 3, 0], [0, 4, 0], [0, 5, 0]] 3)) =
      .ok [[3602879701896397 / 36028797018963968, 1, 0], [0, 2, 1000 - 1 / 2 ^ 43], [0, 3, 0], [0, 4, 0], [0, 5, 0]] ∧
    entriesOf (bundleTrip (matOf [[1 / 10, 1, 0], [0, 2, 1000 - 1 / 2 ^ 43], [0, 3, 0], [0, 4, 0], [0, 5, 0]] 3)) =
      .ok [[879609302221 / 8796093022208, 1, 0], [0, 2, 0], [0, 3, 0], [0, 4, 0], [0, 5, 0]] ∧
    entriesOf (bundleTrip (matOf [[1000 - 1 / 2 ^ 43, 1, 0], [0, 2, 7], [0, 3, 0], [0, 4, 0], [0, 5, 0]] 3)) =
      .ok [[0, 1, 0], [0, 2, 7], [0, 3, 0], [0, 4, 0], [0, 5, 0]] := by
  decide +kernel

/-- a case of `bundle_round_trip_partial` -/
def exB : Mat F64' := matOf [[3, 1, 0], [0, 2, 7 / 10], [0, 3, 0], [0, 4, 0], [0, 5, 0]] 3

example : 0 < exB.r ∧ exB.r < 2 ^ 53 ∧ 1000 * (exB.c + 1) < 2 ^ 53 ∧ 2 ≤ (sparseColumns bundleLits bundler exB).length ∧ bundler.maxConflictRate ≤ 0 ∧
    (∀ i < exB.r, ∀ j < exB.c, bundler.sparsityRatio ≤ sparsity bundleLits exB j →
      (exB.at' i j).val = 0 ∨ bundleLits.tiny.val < (exB.at' i j).val ∧ (exB.at' i j).val ≤ 999) := by
  decide +kernel

end Scigo.Round
