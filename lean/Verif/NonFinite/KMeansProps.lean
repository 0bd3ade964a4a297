import Verif.NonFinite.MetricsProps
import Verif.KMeans.Model
import Verif.Base.Binary64Add
import Verif.Overflow.MetricsProps

/-!
# C298, C299: samples with missing or very large coordinates in mini-batch k-means
-/

namespace Scigo.NonFinite

open Scigo.KMeans F64

/-- no distance below infinity: the scan keeps its start -/
theorem scan_start (d : List F64 → F64) (l : List (List F64 × Nat)) (b : F64 × Nat) (h : ∀ p ∈ l, ¬ d p.1 < b.1) :
    l.foldl (fun (b : F64 × Nat) p => if d p.1 < b.1 then (d p.1, p.2) else b) b = b := by
  induction l with
  | nil => rfl
  | cons p l ih =>
    rw [List.foldl_cons, if_neg (h p (List.mem_cons_self ..))]
    exact ih fun q hq => h q (List.mem_cons_of_mem _ hq)

theorem nearest_start (sqrt : F64 → F64) (inf : F64) (x : List F64) (cs : List (List F64)) (h : ∀ c ∈ cs, ¬ dist sqrt inf x c < inf) :
    nearest sqrt inf x cs = 0 := by
  unfold nearest
  rw [scan_start (dist sqrt inf x) cs.zipIdx (inf, 0)]
  intro p hp
  exact h p.1 (List.mem_zipIdx' hp |>.2 ▸ List.getElem_mem _)

/-- the distance to or from a point with a missing coordinate is no number -/
theorem dist_nan (sqrt : F64 → F64) (hs : sqrt nan = nan) (inf : F64) (a b : List F64) (hl : a.length = b.length) (j : Nat)
    (h : a[j]? = some nan ∨ (b[j]? = some nan)) : dist sqrt inf a b = nan := by
  unfold dist
  rw [if_neg (not_not_intro hl)]
  have hx : ∃ p ∈ List.zip a b, (p.1 - p.2) * (p.1 - p.2) = nan := by
    rcases h with h | h
    · obtain ⟨h1, h2⟩ := List.getElem?_eq_some_iff.1 h
      refine ⟨(a[j], b[j]'(hl ▸ h1)), ?_, ?_⟩
      · have := List.getElem_mem (l := a.zip b) (n := j) (by rw [List.length_zip]; omega)
        rwa [List.getElem_zip] at this
      · rw [h2]
        show (nan - _) * _ = nan
        rw [nan_sub, nan_mul]
    · obtain ⟨h1, h2⟩ := List.getElem?_eq_some_iff.1 h
      refine ⟨(a[j]'(hl ▸ h1), b[j]), ?_, ?_⟩
      · have := List.getElem_mem (l := a.zip b) (n := j) (by rw [List.length_zip]; omega)
        rwa [List.getElem_zip] at this
      · rw [h2]
        show (_ - nan) * _ = nan
        rw [sub_nan, nan_mul]
  rw [foldl_add_nan (fun p : F64 × F64 => (p.1 - p.2) * (p.1 - p.2)) _ 0 hx, hs]

theorem move_getElem? (eta : F64) (c x : List F64) (j : Nat) (h : c[j]? = some nan ∨ (x[j]? = some nan ∧ j < c.length)) :
    (move eta c x)[j]? = some nan := by
  unfold move
  by_cases hj : j < x.length ∧ j < c.length
  · rw [List.getElem?_append_left (by rw [List.length_zipWith]; omega), List.getElem?_zipWith]
    rw [List.getElem?_eq_getElem hj.1, List.getElem?_eq_getElem hj.2] at *
    rcases h with h | ⟨h, -⟩
    · rw [Option.some.inj h]
      show some (_ * nan + _) = _
      rw [mul_nan, nan_add]
    · rw [Option.some.inj h]
      show some (_ + _ * nan) = _
      rw [mul_nan, add_nan]
  · rcases h with h | ⟨h, h'⟩
    · have hc : j < c.length := (List.getElem?_eq_some_iff.1 h).1
      rw [List.getElem?_append_right (by rw [List.length_zipWith]; omega), List.length_zipWith, List.getElem?_drop, ← h]
      congr 1
      omega
    · exact absurd ⟨(List.getElem?_eq_some_iff.1 h).1, h'⟩ hj

theorem move_length (eta : F64) (c x : List F64) : (move eta c x).length = c.length := by
  unfold move
  rw [List.length_append, List.length_zipWith, List.length_drop]
  omega

theorem modify_zero (f : List F64 → List F64) (l : List (List F64)) (k : Nat) (c : List F64) (h : l[0]? = some c) :
    (l.modify k f)[0]? = some (if k = 0 then f c else c) := by
  rw [List.getElem?_modify, h]
  rfl

/-- coordinate `j` of the first centre is no number (`clusterCenters_`, sklearn/cluster/minibatch_kmeans.go:203-214) -/
def Poisoned (j : Nat) (cs : List (List F64)) : Prop := ∃ c, cs[0]? = some c ∧ c[j]? = some nan

theorem step_keeps (sqrt : F64 → F64) (inf : F64) (j : Nat) (cs cs' : List (List F64) × List Nat) (x : List F64) (h : step sqrt inf cs x = .ok cs') :
    (Poisoned j cs.1 → Poisoned j cs'.1) ∧ (∀ n, (∀ c ∈ cs.1, c.length = n) → ∀ c ∈ cs'.1, c.length = n) ∧ cs'.1.length = cs.1.length := by
  unfold step at h
  dsimp only at h
  split at h
  · cases h
    refine ⟨?_, ?_, List.length_modify ..⟩
    · rintro ⟨c, h0, hc⟩
      refine ⟨_, modify_zero _ _ _ c h0, ?_⟩
      split
      · exact move_getElem? _ c x j (Or.inl hc)
      · exact hc
    · intro n hn c hc
      obtain ⟨i, hi, e⟩ := List.mem_iff_getElem.1 hc
      rw [List.getElem_modify] at e
      rw [List.length_modify] at hi
      split at e
      · rw [← e, move_length]
        exact hn _ (List.getElem_mem _)
      · rw [← e]
        exact hn _ (List.getElem_mem _)
  · cases h

theorem step_poisons (sqrt : F64 → F64) (hs : sqrt nan = nan) (inf : F64) (j : Nat) (cs cs' : List (List F64) × List Nat) (x : List F64)
    (hl : ∀ c ∈ cs.1, c.length = x.length) (hx : x[j]? = some nan) (h : step sqrt inf cs x = .ok cs') : Poisoned j cs'.1 := by
  have hk : nearest sqrt inf x cs.1 = 0 := nearest_start _ _ _ _ fun c hc => by
    rw [dist_nan sqrt hs inf x c (hl c hc).symm j (Or.inl hx)]
    exact not_nan_lt _
  unfold step at h
  dsimp only at h
  rw [hk] at h
  split at h
  · rename_i hc
    cases h
    have h0 : cs.1[0]? = some cs.1[0] := List.getElem?_eq_getElem hc.2.1
    refine ⟨_, modify_zero _ _ _ _ h0, ?_⟩
    rw [if_pos rfl]
    refine move_getElem? _ _ x j (Or.inr ⟨hx, ?_⟩)
    rw [hl _ (List.getElem_mem _)]
    exact (List.getElem?_eq_some_iff.1 hx).1
  · cases h

theorem steps_cons (sqrt : F64 → F64) (inf : F64) (cs : List (List F64) × List Nat) (x : List F64) (xs : List (List F64)) (r : List (List F64) × List Nat)
    (h : steps sqrt inf cs (x :: xs) = .ok r) : ∃ cs', step sqrt inf cs x = .ok cs' ∧ steps sqrt inf cs' xs = .ok r := by
  have bad : ∀ (o : Outcome (List (List F64) × List Nat)) (xs : List (List F64)), (∀ v, o ≠ .ok v) →
      ∀ v, xs.foldl (fun o x => o.bind fun cs => step sqrt inf cs x) o ≠ .ok v := by
    intro o xs ho
    induction xs generalizing o with
    | nil => exact ho
    | cons y ys ih =>
      rw [List.foldl_cons]
      refine ih _ fun v => ?_
      cases o with
      | ok a => exact absurd rfl (ho a)
      | err e => exact fun h => nomatch h
      | panic s => exact fun h => nomatch h
  unfold steps at h
  rw [List.foldl_cons] at h
  change List.foldl _ (step sqrt inf cs x) xs = _ at h
  cases hs : step sqrt inf cs x with
  | ok a => rw [hs] at h; exact ⟨a, rfl, h⟩
  | err e => rw [hs] at h; exact absurd h (bad _ xs (fun v h => by cases h) r)
  | panic e => rw [hs] at h; exact absurd h (bad _ xs (fun v h => by cases h) r)

theorem steps_keeps (sqrt : F64 → F64) (inf : F64) (j : Nat) (xs : List (List F64)) (cs r : List (List F64) × List Nat)
    (h : steps sqrt inf cs xs = .ok r) (hp : Poisoned j cs.1) : Poisoned j r.1 := by
  induction xs generalizing cs with
  | nil => cases h; exact hp
  | cons x xs ih =>
    obtain ⟨cs', h1, h2⟩ := steps_cons _ _ _ _ _ _ h
    exact ih cs' h2 ((step_keeps _ _ j _ _ _ h1).1 hp)

theorem steps_poisons (sqrt : F64 → F64) (hs : sqrt nan = nan) (inf : F64) (j : Nat) (xs : List (List F64)) (cs r : List (List F64) × List Nat)
    (n : Nat) (hl : ∀ c ∈ cs.1, c.length = n) (hx : ∀ x ∈ xs, x.length = n) (hj : ∃ x ∈ xs, x[j]? = some nan)
    (h : steps sqrt inf cs xs = .ok r) : Poisoned j r.1 := by
  induction xs generalizing cs with
  | nil => obtain ⟨x, hx, -⟩ := hj; cases hx
  | cons x xs ih =>
    obtain ⟨cs', h1, h2⟩ := steps_cons _ _ _ _ _ _ h
    obtain ⟨y, hy, hyj⟩ := hj
    rcases List.mem_cons.1 hy with rfl | hy
    · refine steps_keeps _ _ j xs _ _ h2 (step_poisons sqrt hs inf j _ _ y (fun c hc => ?_) hyj h1)
      rw [hl c hc, hx y (List.mem_cons_self ..)]
    · exact ih cs' ((step_keeps _ _ j _ _ _ h1).2.1 n hl) (fun z hz => hx z (List.mem_cons_of_mem _ hz)) ⟨y, hy, hyj⟩ h2

/-- **C298**, negation: one row with a missing coordinate (NaN) given to `PartialFit` of a model that has centres makes that coordinate of the first centre NaN. -/
theorem missing_value_spoils (sqrt : F64 → F64) (hs : sqrt nan = nan) (inf : F64) (o : Rng F64) (P : Params F64) (X : Mat F64) (s : KM F64)
    (cs : List (List F64)) (hc : s.centers = some cs) (hl : ∀ c ∈ cs, c.length = X.c) (i j : Nat) (hi : i < X.r) (hj : j < X.c)
    (hx : X.at' i j = nan) (hok : (s.partialFit sqrt inf o P X).2 = .ok ()) :
    ∃ cs', (s.partialFit sqrt inf o P X).1.centers = some cs' ∧ Poisoned j cs' := by
  have hu : s.partialFit sqrt inf o P X = s.update sqrt inf X := by
    unfold KM.partialFit KM.begin
    rw [hc]
  rw [hu] at hok ⊢
  unfold KM.update at hok ⊢
  split at hok
  · cases hok
  · rename_i hw
    rw [if_neg hw]
    rw [hc] at hok ⊢
    cases h : steps sqrt inf ((some cs).getD [], s.counts.getD []) (rowsOf X) with
    | ok r =>
      refine ⟨r.1, rfl, steps_poisons sqrt hs inf j (rowsOf X) _ r X.c hl ?_ ?_ h⟩
      · intro x hx
        obtain ⟨k, -, rfl⟩ := List.mem_map.1 hx
        simp [Mat.row]
      · refine ⟨X.row i, List.mem_map.2 ⟨i, List.mem_range.2 hi, rfl⟩, ?_⟩
        simp [Mat.row, hj, hx]
    | err e => rw [h] at hok; cases hok
    | panic e => rw [h] at hok; cases hok

/-- **C298**, negation, continued: no later `PartialFit` removes it, whatever the data … -/
theorem missing_value_stays (sqrt : F64 → F64) (inf : F64) (o : Rng F64) (P : Params F64) (X : Mat F64) (s : KM F64)
    (cs : List (List F64)) (hc : s.centers = some cs) (j : Nat) (hp : Poisoned j cs) :
    ∃ cs', (s.partialFit sqrt inf o P X).1.centers = some cs' ∧ Poisoned j cs' := by
  unfold KM.partialFit KM.begin
  rw [hc]
  dsimp only
  unfold KM.update
  split
  · exact ⟨cs, hc, hp⟩
  · rw [hc]
    cases h : steps sqrt inf ((some cs).getD [], s.counts.getD []) (rowsOf X) with
    | ok r => exact ⟨r.1, rfl, steps_keeps _ _ j _ _ _ h hp⟩
    | err e => exact ⟨cs, hc, hp⟩
    | panic e => exact ⟨cs, hc, hp⟩

/-- the scan ends below infinity as soon as one distance is, and then names a point with that distance -/
theorem scan_some (d : List F64 → F64) (inf : F64) (l : List (List F64 × Nat)) (b : F64 × Nat) (P : Nat → Prop)
    (hP : ∀ p ∈ l, (∃ a, d p.1 < a) → P p.2)
    (h : ∃ p ∈ l, d p.1 < inf) (hb0 : b = (inf, 0) ∨ P b.2) :
    P (l.foldl (fun (b : F64 × Nat) p => if d p.1 < b.1 then (d p.1, p.2) else b) b).2 := by
  induction l generalizing b with
  | nil => obtain ⟨p, hp, -⟩ := h; cases hp
  | cons q l ih =>
    rw [List.foldl_cons]
    have run : ∀ (l : List (List F64 × Nat)) (b : F64 × Nat), (∀ p ∈ l, (∃ a, d p.1 < a) → P p.2) → P b.2 →
        P (l.foldl (fun (b : F64 × Nat) p => if d p.1 < b.1 then (d p.1, p.2) else b) b).2 := by
      intro l
      induction l with
      | nil => intro b _ h; exact h
      | cons y l ih =>
        intro b hl hb
        rw [List.foldl_cons]
        refine ih _ (fun p hp => hl p (List.mem_cons_of_mem _ hp)) ?_
        split
        · exact hl y (List.mem_cons_self ..) ⟨_, by assumption⟩
        · exact hb
    by_cases hq : d q.1 < b.1
    · rw [if_pos hq]
      exact run l _ (fun p hp => hP p (List.mem_cons_of_mem _ hp)) (hP q (List.mem_cons_self ..) ⟨_, hq⟩)
    · rw [if_neg hq]
      rcases hb0 with rfl | hb1
      · obtain ⟨p, hp, hd⟩ := h
        rcases List.mem_cons.1 hp with rfl | hp
        · exact absurd hd hq
        · exact ih _ (fun p hp => hP p (List.mem_cons_of_mem _ hp)) ⟨p, hp, hd⟩ (Or.inl rfl)
      · exact run l _ (fun p hp => hP p (List.mem_cons_of_mem _ hp)) hb1

/-- **C298**, negation, continued: … and no sample that is at finite distance from any other centre is ever assigned to the first one again. -/
theorem missing_value_empties (sqrt : F64 → F64) (hs : sqrt nan = nan) (inf : F64) (cs : List (List F64)) (j : Nat) (hp : Poisoned j cs)
    (x : List F64) (hl : ∀ c ∈ cs, x.length = c.length) (h : ∃ c ∈ cs, dist sqrt inf x c < inf) : nearest sqrt inf x cs ≠ 0 := by
  unfold nearest
  refine scan_some (dist sqrt inf x) inf cs.zipIdx (inf, 0) (fun k => k ≠ 0) ?_ ?_ (Or.inl rfl)
  · rintro ⟨c, k⟩ hm ⟨a, ha⟩ rfl
    obtain ⟨c0, h0, hc⟩ := hp
    have e := List.mem_zipIdx_iff_getElem?.1 hm
    dsimp only at e ha
    rw [h0] at e
    rw [← Option.some.inj e, dist_nan sqrt hs inf x c0 (hl c0 (List.mem_of_getElem? h0)) j (Or.inr hc)] at ha
    exact not_nan_lt _ ha
  · obtain ⟨c, hc, hd⟩ := h
    obtain ⟨k, hk, e⟩ := List.mem_iff_getElem.1 hc
    refine ⟨(c, k), List.mem_zipIdx_iff_getElem?.2 ?_, hd⟩
    rw [← e]
    exact List.getElem?_eq_getElem hk

/-! ### complete data -/

theorem rnd_scale {z : ℚ} (h : Binary64.pow2 (-1022) ≤ z) (k : Nat) : Binary64.rnd (2 ^ k * z) = 2 ^ k * Binary64.rnd z := by
  induction k with
  | zero => rw [pow_zero, one_mul, one_mul]
  | succ k ih =>
    have h1 : Binary64.pow2 (-1022) ≤ 2 ^ k * z := by
      have h0 : 0 ≤ z := le_trans (Binary64.pow2_pos _).le h
      have : (1 : ℚ) ≤ 2 ^ k := one_le_pow₀ (by norm_num)
      nlinarith
    rw [pow_succ, mul_comm (2 ^ k : ℚ) 2, mul_assoc, Binary64.rnd_two_mul h1, ih, mul_assoc]

theorem small_le {z : ℚ} (h : 1 / 2 ^ 53 ≤ z) : Binary64.pow2 (-1022) ≤ z := by
  refine le_trans ?_ h
  decide +kernel

/-- a convex combination, every operation rounded, does not leave an interval that ends at a power of two -/
theorem convex_bound (n k : Nat) (h1 : 1 ≤ n) (h2 : n < 2 ^ 53) (v x : ℚ) (hv : |v| ≤ 2 ^ k) (hx : |x| ≤ 2 ^ k) :
    0 ≤ Binary64.rnd (1 / n) ∧ Binary64.rnd (1 / n) ≤ 1 ∧ 0 ≤ Binary64.rnd (1 - Binary64.rnd (1 / n)) ∧ Binary64.rnd (1 - Binary64.rnd (1 / n)) ≤ 1 ∧
    |Binary64.rnd (Binary64.rnd (1 - Binary64.rnd (1 / n)) * v)| ≤ 2 ^ k ∧ |Binary64.rnd (Binary64.rnd (1 / n) * x)| ≤ 2 ^ k ∧
    |Binary64.rnd (Binary64.rnd (Binary64.rnd (1 - Binary64.rnd (1 / n)) * v) + Binary64.rnd (Binary64.rnd (1 / n) * x))| ≤ 2 ^ k := by
  have hn1 : (1 : ℚ) ≤ n := by exact_mod_cast h1
  have hn2 : (n : ℚ) ≤ 2 ^ 53 := by exact_mod_cast h2.le
  have r1 : Binary64.rnd 1 = 1 := by decide +kernel
  have r0 : Binary64.rnd 0 = 0 := by decide +kernel
  have rs : Binary64.rnd (1 / 2 ^ 53) = 1 / 2 ^ 53 := by decide +kernel
  have rh : Binary64.rnd (1 / 2) = 1 / 2 := by decide +kernel
  have re : Binary64.rnd (1 + 1 / 2 ^ 53) = 1 := by decide +kernel
  set e := Binary64.rnd (1 / n) with he
  have e1 : e ≤ 1 := by
    have := Binary64.rnd_mono ((div_le_one (by linarith)).2 hn1)
    rwa [r1] at this
  have e0 : 1 / 2 ^ 53 ≤ e := by
    rw [he, ← rs]
    exact Binary64.rnd_mono (one_div_le_one_div_of_le (by linarith) hn2)
  have e0' : 0 ≤ e := le_trans (by norm_num) e0
  have erep : Binary64.rnd e = e := Binary64.rnd_idem _
  set a := Binary64.rnd (1 - e) with ha
  have arep : Binary64.rnd a = a := Binary64.rnd_idem _
  have a0 : 0 ≤ a := Binary64.rnd_nonneg (by linarith)
  have a1 : a ≤ 1 := by
    rw [ha, ← r1]
    exact Binary64.rnd_mono (by linarith)
  have hae : a + e ≤ 1 + 1 / 2 ^ 53 := by
    have := Binary64.add_accurate.sub (1 : ℚ) e r1 erep
    change |a - (1 - e)| ≤ _ at this
    rw [abs_of_nonneg (by linarith : (0 : ℚ) ≤ 1 - e)] at this
    have h3 := (abs_le.1 this).2
    have h4 : (1 : ℚ) / 2 ^ 53 * (1 - e) ≤ 1 / 2 ^ 53 * 1 := mul_le_mul_of_nonneg_left (by linarith) (by norm_num)
    linarith
  have k0 : (0 : ℚ) < 2 ^ k := by positivity
  have arepk : Binary64.rnd (2 ^ k * a) = 2 ^ k * a := by
    by_cases hn : n = 1
    · have : a = 0 := by
        rw [ha, he, hn]
        norm_num [r1, r0]
      rw [this, mul_zero, r0]
    · have hn2 : (2 : ℚ) ≤ n := by
        have : 2 ≤ n := by omega
        exact_mod_cast this
      have eh : e ≤ 1 / 2 := by
        rw [he, ← rh]
        exact Binary64.rnd_mono (one_div_le_one_div_of_le (by norm_num) hn2)
      have ah : 1 / 2 ≤ a := by
        rw [ha, ← rh]
        exact Binary64.rnd_mono (by linarith)
      rw [rnd_scale (small_le (le_trans (by norm_num) ah)), arep]
  have erepk : Binary64.rnd (2 ^ k * e) = 2 ^ k * e := by rw [rnd_scale (small_le e0), erep]
  have p1 : |Binary64.rnd (a * v)| ≤ 2 ^ k * a := F64.rnd_abs_le arepk (by
    rw [abs_mul, abs_of_nonneg a0, mul_comm]
    exact mul_le_mul_of_nonneg_right hv a0)
  have p2 : |Binary64.rnd (e * x)| ≤ 2 ^ k * e := F64.rnd_abs_le erepk (by
    rw [abs_mul, abs_of_nonneg e0', mul_comm]
    exact mul_le_mul_of_nonneg_right hx e0')
  refine ⟨e0', e1, a0, a1, p1.trans (by nlinarith), p2.trans (by nlinarith), ?_⟩
  have hb : |Binary64.rnd (a * v) + Binary64.rnd (e * x)| ≤ 2 ^ k * (1 + 1 / 2 ^ 53) := by
    refine (abs_add_le _ _).trans ((add_le_add p1 p2).trans ?_)
    rw [← mul_add]
    exact mul_le_mul_of_nonneg_left hae k0.le
  have hr : Binary64.rnd (2 ^ k * (1 + 1 / 2 ^ 53)) = 2 ^ k := by rw [rnd_scale (small_le (by norm_num)), re, mul_one]
  rw [abs_le] at hb ⊢
  constructor
  · rw [← hr, ← Binary64.rnd_neg]
    exact Binary64.rnd_mono hb.1
  · rw [← hr]
    exact Binary64.rnd_mono hb.2

/-- a finite number of absolute value at most `2 ^ k` (a coordinate, sklearn/cluster/minibatch_kmeans.go:586-598) -/
def Within (k : Nat) (x : F64) : Prop := ∃ v : Overflow.B, |v.val| ≤ 2 ^ k ∧ x = F64.lift v

theorem move_within (k n : Nat) (hk : k ≤ 1023) (h1 : 1 ≤ n) (h2 : n < 2 ^ 53) (v x : F64) (hv : Within k v) (hx : Within k x) :
    Within k ((1 - 1 / (n : F64)) * v + 1 / (n : F64) * x) := by
  obtain ⟨v, hv, rfl⟩ := hv
  obtain ⟨x, hx, rfl⟩ := hx
  obtain ⟨c1, c2, c3, c4, c5, c6, c7⟩ := convex_bound n k h1 h2 v.val x.val hv hx
  have hmax : ∀ {q : ℚ}, |q| ≤ 2 ^ k → |q| ≤ maxF64 := fun h => h.trans (F64.pow_le_max hk)
  have hone : ∀ {q : ℚ}, 0 ≤ q → q ≤ 1 → |q| ≤ maxF64 := fun h h' => by
    rw [abs_of_nonneg h]
    exact h'.trans (by simpa using F64.pow_le_max (k := 0) (by omega))
  have en : ((n : Overflow.B)).val = n := by rw [Fl.val_natCast]; exact Binary64.nat_exact n h2
  have o1 : ((1 : Overflow.B)).val = 1 := Fl.val_one
  have ee : ((1 : Overflow.B) / (n : Overflow.B)).val = Binary64.rnd (1 / n) := by rw [Fl.val_div, en, o1]; rfl
  have ea : ((1 : Overflow.B) - 1 / (n : Overflow.B)).val = Binary64.rnd (1 - Binary64.rnd (1 / n)) := by rw [Fl.val_sub, ee, o1]; rfl
  have l1 : (1 : F64) / (n : F64) = F64.lift (1 / (n : Overflow.B)) := by
    rw [← F64.lift_natCast, ← F64.lift_one]
    refine F64.lift_div (by rw [o1]; exact hone (by norm_num) le_rfl) ?_ ?_
    · rw [en, Nat.abs_cast]
      refine le_trans ?_ (F64.pow_le_max (k := 53) (by omega))
      exact_mod_cast h2.le
    · rw [en]
      have : (1 : ℚ) ≤ n := by exact_mod_cast h1
      linarith
  have l2 : (1 : F64) - F64.lift (1 / (n : Overflow.B)) = F64.lift (1 - 1 / (n : Overflow.B)) := by
    rw [← F64.lift_one]
    exact F64.lift_sub (by rw [o1]; exact hone (by norm_num) le_rfl) (by rw [ee]; exact hone c1 c2)
  refine ⟨(1 - 1 / (n : Overflow.B)) * v + 1 / (n : Overflow.B) * x, ?_, ?_⟩
  · rw [Fl.val_add, Fl.val_mul, Fl.val_mul, ea, ee]
    exact c7
  · rw [l1, l2, F64.lift_mul (by rw [ea]; exact hone c3 c4) (hmax hv), F64.lift_mul (by rw [ee]; exact hone c1 c2) (hmax hx), F64.lift_add]
    · rw [Fl.val_mul, ea]
      exact hmax c5
    · rw [Fl.val_mul, ee]
      exact hmax c6

theorem steps_within (sqrt : F64 → F64) (inf : F64) (k : Nat) (hk : k ≤ 1023) (xs : List (List F64)) (cs r : List (List F64) × List Nat)
    (hx : ∀ x ∈ xs, ∀ a ∈ x, Within k a) (hc : ∀ c ∈ cs.1, ∀ a ∈ c, Within k a) (N : Nat) (hn : ∀ n ∈ cs.2, n ≤ N) (hN : N + xs.length < 2 ^ 53)
    (h : steps sqrt inf cs xs = .ok r) : (∀ c ∈ r.1, ∀ a ∈ c, Within k a) ∧ ∀ n ∈ r.2, n ≤ N + xs.length := by
  induction xs generalizing cs N with
  | nil => cases h; exact ⟨hc, hn⟩
  | cons x xs ih =>
    obtain ⟨cs', h1, h2⟩ := steps_cons _ _ _ _ _ _ h
    rw [List.length_cons] at hN ⊢
    have hcs : (∀ c ∈ cs'.1, ∀ a ∈ c, Within k a) ∧ ∀ n ∈ cs'.2, n ≤ N + 1 := by
      unfold step at h1
      dsimp only at h1
      split at h1
      · rename_i hk0
        cases h1
        refine ⟨?_, ?_⟩
        · intro c hcm
          obtain ⟨i, hi, e⟩ := List.mem_iff_getElem.1 hcm
          dsimp only at e hi
          rw [List.getElem_modify] at e
          rw [List.length_modify] at hi
          split at e
          · intro a ha
            rw [← e] at ha
            unfold move at ha
            rcases List.mem_append.1 ha with ha | ha
            · obtain ⟨j, hj, e'⟩ := List.mem_iff_getElem.1 ha
              rw [List.getElem_zipWith] at e'
              rw [← e']
              have hkn : (cs.2.modify (nearest sqrt inf x cs.1) (· + 1)).getD (nearest sqrt inf x cs.1) 0 = cs.2[nearest sqrt inf x cs.1]'hk0.1 + 1 := by
                rw [List.getD_eq_getElem?_getD, List.getElem?_modify, List.getElem?_eq_getElem hk0.1]
                simp
              refine move_within k _ hk (by omega) ?_ _ _ (hc _ (List.getElem_mem _) _ (List.getElem_mem _)) (hx x (List.mem_cons_self ..) _ (List.getElem_mem _))
              have := hn _ (List.getElem_mem hk0.1)
              omega
            · exact hc _ (List.getElem_mem _) a (List.mem_of_mem_drop ha)
          · rw [← e]
            exact hc _ (List.getElem_mem _)
        · intro n hm
          obtain ⟨i, hi, e⟩ := List.mem_iff_getElem.1 hm
          dsimp only at e hi
          rw [List.getElem_modify] at e
          rw [List.length_modify] at hi
          have := hn _ (List.getElem_mem hi)
          split at e <;> omega
      · cases h1
    have := ih cs' (fun y hy => hx y (List.mem_cons_of_mem _ hy)) hcs.1 (N + 1) hcs.2 (by omega) h2
    refine ⟨this.1, fun n hn => ?_⟩
    have := this.2 n hn
    omega

/-- **C298** (partial): with complete data of absolute value at most `2 ^ k` (`k ≤ 1023`) the coordinates of all centres stay finite and at most `2 ^ k`, for any
sequence of samples as long as the clusters have fewer than `2 ^ 53` samples; whether the distances overflow does not matter. Missing: rows with NaN
(`missing_value_spoils`). -/
theorem complete_data_partial (sqrt : F64 → F64) (inf : F64) (o : Rng F64) (P : Params F64) (X : Mat F64) (s : KM F64) (k : Nat) (hk : k ≤ 1023)
    (cs : List (List F64)) (hc : s.centers = some cs) (hcs : ∀ c ∈ cs, ∀ a ∈ c, Within k a) (N : Nat) (hn : ∀ n ∈ s.counts.getD [], n ≤ N)
    (hN : N + X.r < 2 ^ 53) (hX : ∀ i < X.r, ∀ j < X.c, Within k (X.at' i j)) :
    ∃ cs', (s.partialFit sqrt inf o P X).1.centers = some cs' ∧ ∀ c ∈ cs', ∀ a ∈ c, Within k a := by
  have hu : s.partialFit sqrt inf o P X = s.update sqrt inf X := by
    unfold KM.partialFit KM.begin
    rw [hc]
  rw [hu]
  unfold KM.update
  split
  · exact ⟨cs, hc, hcs⟩
  · rw [hc]
    cases h : steps sqrt inf ((some cs).getD [], s.counts.getD []) (rowsOf X) with
    | ok r =>
      refine ⟨r.1, rfl, (steps_within sqrt inf k hk (rowsOf X) _ r ?_ hcs N hn ?_ h).1⟩
      · intro x hx a ha
        obtain ⟨i, hi, rfl⟩ := List.mem_map.1 hx
        obtain ⟨j, hj, rfl⟩ := List.mem_map.1 ha
        exact hX i (List.mem_range.1 hi) j (List.mem_range.1 hj)
      · simpa [rowsOf] using hN
    | err e => exact ⟨cs, hc, hcs⟩
    | panic e => exact ⟨cs, hc, hcs⟩

/-! ### very large coordinates -/

/-- a number that is not negative, or `+Inf` (a distance, sklearn/cluster/minibatch_kmeans.go:586-598) -/
def NonNeg (x : F64) : Prop := x = .inf false ∨ ∃ q, x = .fin q ∧ 0 ≤ q.1

theorem round_nonneg {q : ℚ} (h : 0 ≤ q) : NonNeg (F64.round q) := by
  unfold F64.round
  split
  · exact Or.inr ⟨_, rfl, Binary64.rnd_nonneg h⟩
  · rw [decide_eq_false (not_lt.2 h)]
    exact Or.inl rfl

theorem NonNeg.add {x y : F64} (hx : NonNeg x) (hy : NonNeg y) : NonNeg (x + y) := by
  rcases hx with rfl | ⟨p, rfl, hp⟩ <;> rcases hy with rfl | ⟨q, rfl, hq⟩
  · exact Or.inl rfl
  · exact Or.inl rfl
  · exact Or.inl rfl
  · exact round_nonneg (add_nonneg hp hq)

theorem inf_add {x : F64} (hx : NonNeg x) : F64.inf false + x = .inf false := by
  rcases hx with rfl | ⟨p, rfl, -⟩ <;> rfl

theorem add_inf {x : F64} (hx : NonNeg x) : x + F64.inf false = .inf false := by
  rcases hx with rfl | ⟨p, rfl, -⟩ <;> rfl

theorem sq_nonneg_of_ne (x : F64) (hx : x ≠ nan) : NonNeg (x * x) := by
  cases x with
  | nan => exact absurd rfl hx
  | inf s => exact Or.inl (by cases s <;> rfl)
  | fin q => exact round_nonneg (mul_self_nonneg _)

theorem sum_nonneg {β : Type _} (f : β → F64) (l : List β) (a : F64) (ha : NonNeg a) (h : ∀ x ∈ l, NonNeg (f x)) :
    NonNeg (l.foldl (fun s x => s + f x) a) ∧ ((a = .inf false ∨ ∃ x ∈ l, f x = .inf false) → l.foldl (fun s x => s + f x) a = .inf false) := by
  induction l generalizing a with
  | nil =>
    refine ⟨ha, ?_⟩
    rintro (h | ⟨x, hx, -⟩)
    · exact h
    · cases hx
  | cons y l ih =>
    rw [List.foldl_cons]
    have hy := h y (List.mem_cons_self ..)
    obtain ⟨h1, h2⟩ := ih (a + f y) (ha.add hy) fun x hx => h x (List.mem_cons_of_mem _ hx)
    refine ⟨h1, fun hh => h2 ?_⟩
    rcases hh with rfl | ⟨x, hx, e⟩
    · exact Or.inl (inf_add hy)
    · rcases List.mem_cons.1 hx with rfl | hx
      · rw [e]
        exact Or.inl (add_inf ha)
      · exact Or.inr ⟨x, hx, e⟩

/-- the square of a difference of `2 ^ 512` or more overflows -/
theorem far_square (p q : { q : ℚ // Binary64.rnd q = q ∧ |q| ≤ maxF64 }) (h : 2 ^ 512 ≤ |p.1 - q.1|) :
    (F64.fin p - F64.fin q) * (F64.fin p - F64.fin q) = .inf false := by
  have e : F64.fin p - F64.fin q = F64.round (p.1 - q.1) := rfl
  rw [e]
  have h1 : 2 ^ 512 ≤ |Binary64.rnd (p.1 - q.1)| := by
    rcases le_abs.1 h with h | h
    · refine le_abs.2 (Or.inl ?_)
      have := Binary64.rnd_mono h
      rwa [F64.rep_pow] at this
    · refine le_abs.2 (Or.inr ?_)
      have := Binary64.rnd_mono h
      rwa [F64.rep_pow, Binary64.rnd_neg] at this
  unfold F64.round
  split
  · show F64.round (Binary64.rnd (p.1 - q.1) * Binary64.rnd (p.1 - q.1)) = _
    have h2 : 2 ^ 1024 ≤ Binary64.rnd (p.1 - q.1) * Binary64.rnd (p.1 - q.1) := by
      rw [← abs_mul_abs_self, show (1024 : Nat) = 512 + 512 from rfl, pow_add]
      exact mul_le_mul h1 h1 (by positivity) (abs_nonneg _)
    have h3 : (2 : ℚ) ^ 1024 ≤ Binary64.rnd (Binary64.rnd (p.1 - q.1) * Binary64.rnd (p.1 - q.1)) := by
      have := Binary64.rnd_mono h2
      rwa [F64.rep_pow] at this
    have h4 : maxF64 < 2 ^ 1024 := by
      unfold maxF64
      rw [show (1024 : Nat) = 53 + 971 from rfl, pow_add]
      exact mul_lt_mul_of_pos_right (by norm_num) (by positivity)
    unfold F64.round
    rw [dif_neg (not_le.2 (lt_of_lt_of_le h4 (h3.trans (le_abs_self _)))), decide_eq_false (not_lt.2 (mul_self_nonneg _))]
  · generalize decide (p.1 - q.1 < 0) = b
    cases b <;> rfl

/-- two points with finite coordinates, some of which differ by `2 ^ 512` (about `10 ^ 154`) or more
(sample and centre, sklearn/cluster/minibatch_kmeans.go:553-598) -/
def Far (a b : List F64) : Prop :=
  (∀ x ∈ a, x.IsFin) ∧ (∀ x ∈ b, x.IsFin) ∧
    ∃ (j : Nat) (p q : { q : ℚ // Binary64.rnd q = q ∧ |q| ≤ maxF64 }), a[j]? = some (.fin p) ∧ b[j]? = some (.fin q) ∧ 2 ^ 512 ≤ |p.1 - q.1|

theorem isFin_sub_ne {x y : F64} (hx : x.IsFin) (hy : y.IsFin) : x - y ≠ nan := by
  cases x with
  | fin p => cases y with
    | fin q =>
      show F64.round (p.1 - q.1) ≠ nan
      unfold F64.round
      split <;> exact fun h => nomatch h
    | inf s => exact hy.elim
    | nan => exact hy.elim
  | inf s => exact hx.elim
  | nan => exact hx.elim

theorem dist_far (sqrt : F64 → F64) (hs : sqrt (.inf false) = .inf false) (a b : List F64) (h : Far a b) : dist sqrt (.inf false) a b = .inf false := by
  unfold dist
  split
  · rfl
  · rename_i hl
    rw [not_not] at hl
    obtain ⟨ha, hb, j, p, q, hp, hq, hd⟩ := h
    rw [(sum_nonneg (fun x : F64 × F64 => (x.1 - x.2) * (x.1 - x.2)) (a.zip b) 0 (round_nonneg le_rfl) ?_).2 (Or.inr ?_), hs]
    · intro x hx
      exact sq_nonneg_of_ne _ (isFin_sub_ne (ha _ (List.of_mem_zip hx).1) (hb _ (List.of_mem_zip hx).2))
    · obtain ⟨j1, e1⟩ := List.getElem?_eq_some_iff.1 hp
      obtain ⟨j2, e2⟩ := List.getElem?_eq_some_iff.1 hq
      refine ⟨(.fin p, .fin q), ?_, far_square p q hd⟩
      have := List.getElem_mem (l := a.zip b) (n := j) (by rw [List.length_zip]; omega)
      rwa [List.getElem_zip, e1, e2] at this

/-- **C299**, negation: a sample with a coordinate at least `2 ^ 512` away from every centre is assigned to the first cluster, whichever centre is nearest … -/
theorem far_sample_first (sqrt : F64 → F64) (hs : sqrt (.inf false) = .inf false) (x : List F64) (cs : List (List F64)) (h : ∀ c ∈ cs, Far x c) :
    nearest sqrt (.inf false) x cs = 0 := nearest_start _ _ _ _ fun c hc => by
  rw [dist_far sqrt hs x c (h c hc)]
  exact Bool.false_ne_true

/-- **C299**, negation: … so `Predict` gives label 0 to `2 ^ 600` when the centres are `0` and `2 ^ 599`. -/
theorem far_sample_not_nearest (sqrt : F64 → F64) (hs : sqrt (.inf false) = .inf false) (s : KM F64) (hf : s.fitted = true) (hn : s.nFeatures = 1)
    (hc : s.centers = some [[F64.round 0], [F64.round (2 ^ 599)]]) (X : Mat F64) (hr : X.r = 1) (hc1 : X.c = 1) (hx : X.at' 0 0 = F64.round (2 ^ 600)) :
    s.predict sqrt (.inf false) X = .ok [0] ∧ |((2 : ℚ) ^ 600) - 2 ^ 599| < |((2 : ℚ) ^ 600) - 0| := by
  have hfin : ∀ k ≤ 1023, ∃ h, F64.round (2 ^ k) = .fin ⟨2 ^ k, h⟩ := by
    intro k hk
    have h1 : |Binary64.rnd (2 ^ k)| ≤ maxF64 := by
      rw [F64.rep_pow, abs_of_pos (by positivity)]
      exact F64.pow_le_max hk
    refine ⟨⟨F64.rep_pow k, by rw [abs_of_pos (by positivity)]; exact F64.pow_le_max hk⟩, ?_⟩
    rw [F64.round_fin h1]
    congr 1
    exact Subtype.ext (F64.rep_pow k)
  obtain ⟨a1, e1⟩ := hfin 600 (by omega)
  obtain ⟨a2, e2⟩ := hfin 599 (by omega)
  have e0 : F64.round 0 = .fin ⟨0, by decide +kernel, by rw [abs_zero]; exact F64.maxF64_pos.le⟩ := by decide +kernel
  have h512 : (2 : ℚ) ^ 512 ≤ 2 ^ 599 := pow_le_pow_right₀ (by norm_num) (by omega)
  have h599 : (2 : ℚ) ^ 600 = 2 ^ 599 + 2 ^ 599 := by rw [show (600 : Nat) = 599 + 1 from rfl, pow_succ]; ring
  have p599 : (0 : ℚ) < 2 ^ 599 := by positivity
  constructor
  · unfold KM.predict
    rw [if_neg (by rw [hf]; simp), if_neg (by rw [hc1, hn]; simp), if_neg (by omega), hc]
    have hrow : rowsOf X = [[F64.round (2 ^ 600)]] := by
      unfold rowsOf Mat.row
      rw [hr, hc1]
      show [[X.at' 0 0]] = _
      rw [hx]
    rw [hrow]
    show Outcome.ok [nearest sqrt (.inf false) [F64.round (2 ^ 600)] [[F64.round 0], [F64.round (2 ^ 599)]]] = _
    rw [far_sample_first sqrt hs _ _ ?_]
    intro c hcm
    rw [e0, e1, e2] at *
    rcases List.mem_cons.1 hcm with rfl | hcm
    · refine ⟨?_, ?_, 0, _, _, rfl, rfl, ?_⟩
      · intro x hx; cases List.mem_singleton.1 hx; trivial
      · intro x hx; cases List.mem_singleton.1 hx; trivial
      · show (2 : ℚ) ^ 512 ≤ |2 ^ 600 - 0|
        rw [sub_zero, h599, abs_of_pos (add_pos p599 p599)]
        exact h512.trans (le_add_of_nonneg_left p599.le)
    · rw [List.mem_singleton.1 hcm]
      refine ⟨?_, ?_, 0, _, _, rfl, rfl, ?_⟩
      · intro x hx; cases List.mem_singleton.1 hx; trivial
      · intro x hx; cases List.mem_singleton.1 hx; trivial
      · show (2 : ℚ) ^ 512 ≤ |2 ^ 600 - 2 ^ 599|
        rw [h599, add_sub_cancel_right, abs_of_pos p599]
        exact h512
  · rw [sub_zero, h599, add_sub_cancel_right, abs_of_pos p599, abs_of_pos (add_pos p599 p599)]
    exact lt_add_of_pos_left _ p599

theorem lt_trans' {a b c : F64} (h1 : a < b) (h2 : b < c) : a < c := by
  cases a with
  | nan => exact absurd h1 (not_nan_lt _)
  | fin p => cases b with
    | nan => exact absurd h1 (not_lt_nan _)
    | fin q => cases c with
      | nan => exact absurd h2 (not_lt_nan _)
      | fin r =>
        exact decide_eq_true (lt_trans (of_decide_eq_true h1) (of_decide_eq_true h2))
      | inf s => exact h2
    | inf s => cases c with
      | nan => exact absurd h2 (not_lt_nan _)
      | fin r => cases s <;> simp_all [LT.lt, F64.ltB]
      | inf t => cases s <;> cases t <;> simp_all [LT.lt, F64.ltB]
  | inf s => cases b with
    | nan => exact absurd h1 (not_lt_nan _)
    | fin q => cases c with
      | nan => exact absurd h2 (not_lt_nan _)
      | fin r => exact h1
      | inf t => cases s <;> cases t <;> simp_all [LT.lt, F64.ltB]
    | inf t => cases c with
      | nan => exact absurd h2 (not_lt_nan _)
      | fin r => cases s <;> cases t <;> simp_all [LT.lt, F64.ltB]
      | inf u => cases s <;> cases t <;> cases u <;> simp_all [LT.lt, F64.ltB]

/-- the scan ends at a smallest distance -/
theorem scan_min (d : List F64 → F64) (inf : F64) (l : List (List F64 × Nat)) (b : F64 × Nat) (seen : List (List F64 × Nat))
    (hs : ∀ p ∈ seen, ¬ d p.1 < b.1) (hb : b = (inf, 0) ∨ ∃ p ∈ seen, b = (d p.1, p.2)) :
    let r := l.foldl (fun (b : F64 × Nat) p => if d p.1 < b.1 then (d p.1, p.2) else b) b
    (∀ p ∈ seen ++ l, ¬ d p.1 < r.1) ∧ (r = (inf, 0) ∨ ∃ p ∈ seen ++ l, r = (d p.1, p.2)) := by
  induction l generalizing b seen with
  | nil => rw [List.append_nil]; exact ⟨hs, hb⟩
  | cons q l ih =>
    rw [List.foldl_cons, show seen ++ q :: l = (seen ++ [q]) ++ l by simp]
    by_cases hq : d q.1 < b.1
    · rw [if_pos hq]
      refine ih _ (seen ++ [q]) ?_ (Or.inr ⟨q, by simp, rfl⟩)
      intro p hp hlt
      rcases List.mem_append.1 hp with hp | hp
      · exact hs p hp (lt_trans' hlt hq)
      · rw [List.mem_singleton.1 hp] at hlt
        revert hlt
        generalize d q.1 = z
        cases z with
        | nan => exact not_nan_lt _
        | fin p => exact fun h => lt_irrefl _ (of_decide_eq_true h)
        | inf s => cases s <;> exact Bool.false_ne_true
    · rw [if_neg hq]
      refine ih _ (seen ++ [q]) ?_ ?_
      · intro p hp
        rcases List.mem_append.1 hp with hp | hp
        · exact hs p hp
        · rw [List.mem_singleton.1 hp]
          exact hq
      · rcases hb with h | ⟨p, hp, e⟩
        · exact Or.inl h
        · exact Or.inr ⟨p, List.mem_append_left _ hp, e⟩

/-- **C299** (partial): if some centre is at finite computed distance, the assigned centre exists and no centre has a smaller computed distance; all distances are
finite if the coordinates are at most `2 ^ 484` in absolute value. Missing: larger coordinates (`far_sample_not_nearest`); that the computed distances are rounded. -/
theorem assigned_nearest_partial (sqrt : F64 → F64) (hs : ∀ x : F64, x.IsFin → (sqrt x).IsFin) (x : List F64) (cs : List (List F64)) :
    ((∃ c ∈ cs, dist sqrt (.inf false) x c < .inf false) →
      ∃ c, cs[nearest sqrt (.inf false) x cs]? = some c ∧ ∀ c' ∈ cs, ¬ dist sqrt (.inf false) x c' < dist sqrt (.inf false) x c) ∧
    (x.length < 2 ^ 53 → (∀ a ∈ x, Within 484 a) → ∀ c ∈ cs, c.length = x.length → (∀ a ∈ c, Within 484 a) → (dist sqrt (.inf false) x c).IsFin) := by
  constructor
  · rintro ⟨c, hc, hd⟩
    obtain ⟨h1, h2⟩ := scan_min (dist sqrt (.inf false) x) (.inf false) cs.zipIdx (.inf false, 0) [] (by simp) (Or.inl rfl)
    rw [List.nil_append] at h1 h2
    obtain ⟨k, hk, e⟩ := List.mem_iff_getElem.1 hc
    rcases h2 with h2 | ⟨p, hp, h2⟩
    · rw [h2] at h1
      exact absurd hd (h1 (c, k) (List.mem_zipIdx_iff_getElem?.2 (by rw [← e]; exact List.getElem?_eq_getElem hk)))
    · refine ⟨p.1, ?_, ?_⟩
      · unfold nearest
        rw [h2]
        exact List.mem_zipIdx_iff_getElem?.1 hp
      · intro c' hc'
        obtain ⟨k', hk', e'⟩ := List.mem_iff_getElem.1 hc'
        have := h1 (c', k') (List.mem_zipIdx_iff_getElem?.2 (by rw [← e']; exact List.getElem?_eq_getElem hk'))
        rwa [h2] at this
  · intro hl hx c _ hcl hc
    unfold dist
    rw [if_neg (not_not_intro hcl.symm)]
    refine hs _ ?_
    have lifts : ∀ l : List F64, (∀ a ∈ l, Within 484 a) → ∃ u : List Overflow.B, l = u.map F64.lift ∧ ∀ v ∈ u, |v.val| ≤ 2 ^ 484 := by
      intro l
      induction l with
      | nil => intro _; exact ⟨[], rfl, by simp⟩
      | cons a l ih =>
        intro h
        obtain ⟨u, e, hu⟩ := ih fun b hb => h b (List.mem_cons_of_mem _ hb)
        obtain ⟨v, hv, e'⟩ := h a (List.mem_cons_self ..)
        refine ⟨v :: u, by rw [e, e']; rfl, fun w hw => ?_⟩
        rcases List.mem_cons.1 hw with rfl | hw
        · exact hv
        · exact hu w hw
    obtain ⟨u, rfl, hu⟩ := lifts x hx
    obtain ⟨w, rfl, hw⟩ := lifts c hc
    rw [Overflow.zip_map]
    rw [List.length_map] at hl
    have hlen : (u.zip w).length < 2 ^ 53 := by rw [List.length_zip]; omega
    have := Overflow.lift_sumOver (u.zip w) (fun x => (F64.lift x.1, F64.lift x.2)) (fun x => (x.1 - x.2) * (x.1 - x.2)) (fun x => (x.1 - x.2) * (x.1 - x.2)) 970
      (le_refl _) hlen
      (fun x hx => (Overflow.sq_lift (le_refl _) _ _ (hu _ (List.of_mem_zip hx).1) (hw _ (List.of_mem_zip hx).2)).2.2.1)
      (fun x hx => (Overflow.sq_lift (le_refl _) _ _ (hu _ (List.of_mem_zip hx).1) (hw _ (List.of_mem_zip hx).2)).2.2.2)
    refine (congrArg F64.IsFin this.1).mpr ?_
    refine F64.lift_isFin (this.2.trans ?_)
    have h1 : ((u.zip w).length : ℚ) ≤ 2 ^ 53 := by exact_mod_cast hlen.le
    have h2 : (2 : ℚ) ^ 53 * 2 ^ 970 ≤ maxF64 := by
      rw [← pow_add]
      exact F64.pow_le_max (by omega)
    exact (mul_le_mul_of_nonneg_right h1 (by positivity)).trans h2

/-- two centres, then a row with a missing value, then a row at the first centre: the first centre is lost, and its row goes to the other one -/
example : (steps id (.inf false) ([[F64.round 0, F64.round 0], [F64.round 5, F64.round 5]], [1, 1]) [[nan, F64.round 0], [F64.round 0, F64.round 0]]).bind
    (fun r => .ok ((r.1.getD 0 []).getD 0 0, r.2)) = .ok (nan, [2, 2]) := by decide +kernel

example : Poisoned 0 [[nan, F64.round 0], [F64.round 5, F64.round 5]] := ⟨_, rfl, rfl⟩

example : nearest id (.inf false) [F64.round 0, F64.round 0] [[nan, F64.round 0], [F64.round 5, F64.round 5]] = 1 := by decide +kernel

example : Within 3 (F64.round 5) := ⟨Fl.of Binary64.rounding 5, by
  show |Binary64.rnd 5| ≤ 2 ^ 3
  decide +kernel, by decide +kernel⟩

end Scigo.NonFinite
