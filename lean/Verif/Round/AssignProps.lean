import Verif.KMeans.Props
import Verif.Round.CountProps
import Verif.Round.MomentProps
import Verif.Round.CentreProps

/-!
# C309, C310: assignment to a nearest centre, distances and inertia with every operation rounded

In exact arithmetic `Predict` gives the first of the nearest centres (C36). With rounding it can give a centre that is
not nearest. Here: by how much at most it is farther, how accurate the distances of `Transform` are, and a witness.
-/

set_option linter.unusedSectionVars false

namespace Scigo.Round

open Scigo.KMeans Scigo.KMeans.Spec

variable {K : Type _} [Field K] [LinearOrder K] [IsStrictOrderedRing K] {R : Rounding K} {eps eta : K}

/-- the exact squared distance of two rows of representable numbers (cf. sklearn/cluster/minibatch_kmeans.go:586-598) -/
def exactSq (a b : List (Fl R)) : K := ((a.zip b).map fun p => (p.1.val - p.2.val) ^ 2).sum

theorem exactSq_nonneg (a b : List (Fl R)) : 0 ≤ exactSq a b := by
  apply List.sum_nonneg
  intro x hx
  obtain ⟨p, _, rfl⟩ := List.mem_map.1 hx
  exact sq_nonneg _

/-- the square of a computed distance is the exact squared distance up to n + 5 relative errors and n underflows -/
theorem dist_error (he : 0 ≤ eps) (hη : 0 ≤ eta) (hR : R.Accurate eps eta) (hA : R.AddAccurate eps) (sqrt : Fl R → Fl R)
    (hsq : SqrtAccurate eps sqrt) (inf : Fl R) (a b : List (Fl R)) (h : a.length = b.length) :
    0 ≤ (dist sqrt inf a b).val ∧ Near eps eta (a.length + 5) a.length ((dist sqrt inf a b).val ^ 2) (exactSq a b) := by
  have hlz : (a.zip b).length = a.length := by simp [h]
  have hterm : ∀ x ∈ a.zip b, Near eps eta 3 1 ((x.1 - x.2) * (x.1 - x.2)).val ((x.1.val - x.2.val) ^ 2) := by
    intro x _
    rw [Fl.val_mul, pow_two]
    have h1 : Near eps eta 1 0 (x.1 - x.2).val (x.1.val - x.2.val) :=
      (Near.refl eps eta (x.1.val - x.2.val)).rel he (by rw [Fl.val_sub]; exact hA.sub _ _ x.1.rep x.2.rep)
    have h2 := (h1.sq he).rnd he hη hR
    rwa [zero_add] at h2
  obtain ⟨h1, h0⟩ := Near.sum he hη hA (a.zip b) (fun x => (x.1 - x.2) * (x.1 - x.2)) (fun x => (x.1.val - x.2.val) ^ 2) 3 1
    zero_le_one (fun x _ => sq_nonneg _) hterm
  have hd : dist sqrt inf a b = sqrt (sumOver (a.zip b) (fun x => (x.1 - x.2) * (x.1 - x.2))) := by
    unfold KMeans.dist sumOver
    rw [if_neg (by simpa using h)]
  have hS : 0 ≤ (sumOver (a.zip b) (fun x => (x.1 - x.2) * (x.1 - x.2))).val := by
    have key : ∀ (l : List (Fl R × Fl R)) (s : Fl R), 0 ≤ s.val → 0 ≤ (l.foldl (fun s x => s + (x.1 - x.2) * (x.1 - x.2)) s).val := by
      intro l
      induction l with
      | nil => intro s hs; exact hs
      | cons p l ih =>
        intro s hs
        refine ih _ ?_
        rw [Fl.val_add]
        refine R.nonneg (add_nonneg hs ?_)
        rw [Fl.val_mul]
        exact R.nonneg (mul_self_nonneg _)
    exact key _ _ (le_of_eq Fl.val_zero.symm)
  obtain ⟨s0, s1⟩ := hsq _ hS
  rw [hd]
  refine ⟨s0, ?_⟩
  have h2 := h1.more he (j := 2) (r := (sqrt (sumOver (a.zip b) (fun x => (x.1 - x.2) * (x.1 - x.2)))).val ^ 2) (by rwa [abs_of_nonneg hS])
  rw [hlz, mul_one] at h2
  rwa [show a.length + 5 = 3 + a.length + 2 by omega]

/-- the chosen centre has a smallest computed distance -/
theorem nearest_computed (sqrt : Fl R → Fl R) (inf : Fl R) (x : List (Fl R)) (cs : List (List (Fl R))) (h0 : cs ≠ [])
    (hinf : ∀ v ∈ cs, (dist sqrt inf x v).val < inf.val) :
    nearest sqrt inf x cs < cs.length ∧ ∀ j < cs.length,
      (dist sqrt inf x (cs.getD (nearest sqrt inf x cs) [])).val ≤ (dist sqrt inf x (cs.getD j [])).val := by
  unfold nearest
  obtain ⟨r, hr⟩ : ∃ r, cs.zipIdx.foldl (fun (b : Fl R × Nat) p =>
    if dist sqrt inf x p.1 < b.1 then (dist sqrt inf x p.1, p.2) else b) (inf, 0) = r := ⟨_, rfl⟩
  have := scan_spec (dist sqrt inf x) inf cs r hr
  rw [hr]
  rcases this with ⟨_, h⟩ | ⟨h1, h2, _, h3, _⟩
  · exfalso
    obtain ⟨c, hc⟩ := List.exists_mem_of_ne_nil _ h0
    exact h c hc (hinf c hc)
  · refine ⟨h1, fun j hj => ?_⟩
    have := h3 j hj
    rw [h2] at this
    rw [List.getD_eq_getElem _ _ h1, List.getD_eq_getElem _ _ hj]
    exact this

/-- two squared distances whose computed values are ordered -/
theorem near_order {k : Nat} {m x y x' y' : K} (hx : Near eps eta k m x' x) (hy : Near eps eta k m y' y) (hx0 : 0 ≤ x) (hy0 : 0 ≤ y)
    (h : x' ≤ y') : (2 - (1 + eps) ^ k) * x ≤ (1 + eps) ^ k * (y + 2 * m * eta) := by
  unfold Near at hx hy
  rw [abs_of_nonneg hx0] at hx
  rw [abs_of_nonneg hy0] at hy
  have h1 := (abs_le.1 hx).1
  have h2 := (abs_le.1 hy).2
  linarith

/-- **C309**: `Predict` with every operation rounded gives each row a centre whose exact squared distance is at most that of any other centre, up to
n + 5 relative errors on both and n underflows on both, n the number of columns, as long as no distance overflows. -/
theorem assigned_nearly_nearest (he : 0 ≤ eps) (hη : 0 ≤ eta) (hR : R.Accurate eps eta) (hA : R.AddAccurate eps) (sqrt : Fl R → Fl R)
    (hsq : SqrtAccurate eps sqrt) (inf : Fl R) (s : KM (Fl R)) (cs : List (List (Fl R))) (hc : s.centers = some cs) (hne : cs ≠ [])
    (hf : s.fitted = true) (hcs : ∀ v ∈ cs, v.length = s.nFeatures) (X : Mat (Fl R)) (hXc : X.c = s.nFeatures) (hr : 0 < X.r)
    (hinf : ∀ i < X.r, ∀ v ∈ cs, (dist sqrt inf (X.row i) v).val < inf.val) :
    ∃ ys, s.predict sqrt inf X = .ok ys ∧ ys.length = X.r ∧ ∀ i < X.r, ys.getD i 0 < cs.length ∧ ∀ j < cs.length,
      (2 - (1 + eps) ^ (X.c + 5)) * exactSq (X.row i) (cs.getD (ys.getD i 0) []) ≤
        (1 + eps) ^ (X.c + 5) * (exactSq (X.row i) (cs.getD j []) + 2 * X.c * eta) := by
  refine ⟨(rowsOf X).map (fun x => nearest sqrt inf x cs), ?_, by simp [rowsOf], ?_⟩
  · simp [KM.predict, hf, hXc, hr.ne', hc]
  · intro i hlt
    have e : ((rowsOf X).map (fun x => nearest sqrt inf x cs)).getD i 0 = nearest sqrt inf (X.row i) cs := by
      rw [List.getD_eq_getElem _ _ (by simpa [rowsOf] using hlt)]
      simp [rowsOf]
    have hx : (X.row i).length = X.c := by simp [Mat.row]
    rw [e]
    obtain ⟨h1, h2⟩ := nearest_computed sqrt inf (X.row i) cs hne (hinf i hlt)
    refine ⟨h1, fun j hj => ?_⟩
    have hmem : ∀ k, k < cs.length → (X.row i).length = (cs.getD k []).length := by
      intro k hk
      rw [List.getD_eq_getElem _ _ hk, hcs _ (List.getElem_mem _), hx, hXc]
    obtain ⟨a0, a1⟩ := dist_error he hη hR hA sqrt hsq inf _ _ (hmem _ h1)
    obtain ⟨b0, b1⟩ := dist_error he hη hR hA sqrt hsq inf _ _ (hmem j hj)
    have := near_order a1 b1 (exactSq_nonneg _ _) (exactSq_nonneg _ _) (pow_le_pow_left₀ a0 (h2 j hj) 2)
    rwa [hx] at this

open Binary64 in
/-- **C309** (what holds in float64): for fewer than 2^40 columns and distances that do not overflow, the exact squared distance to the centre given by
`Predict` exceeds that to any other centre by at most 6(n + 5) units of 2^-53, relatively, and n of the smallest positive numbers. -/
theorem assigned_nearest_float_partial (sqrt : Fl rounding → Fl rounding) (hsq : SqrtAccurate (1 / 2 ^ 53) sqrt) (inf : Fl rounding)
    (s : KM (Fl rounding)) (cs : List (List (Fl rounding))) (hc : s.centers = some cs) (hne : cs ≠ []) (hf : s.fitted = true)
    (hcs : ∀ v ∈ cs, v.length = s.nFeatures) (X : Mat (Fl rounding)) (hXc : X.c = s.nFeatures) (hr : 0 < X.r) (hn : X.c < 2 ^ 40)
    (hinf : ∀ i < X.r, ∀ v ∈ cs, (dist sqrt inf (X.row i) v).val < inf.val) :
    ∃ ys, s.predict sqrt inf X = .ok ys ∧ ys.length = X.r ∧ ∀ i < X.r, ys.getD i 0 < cs.length ∧ ∀ j < cs.length,
      exactSq (X.row i) (cs.getD (ys.getD i 0) []) ≤
        (1 + 6 * (X.c + 5) * (1 / 2 ^ 53)) * (exactSq (X.row i) (cs.getD j []) + X.c * (1 / 2 ^ 1074)) := by
  obtain ⟨ys, h1, h2, h3⟩ := assigned_nearly_nearest (by positivity) (by positivity) accurate add_accurate sqrt hsq inf s cs hc hne hf hcs X hXc hr hinf
  refine ⟨ys, h1, h2, fun i hi => ⟨(h3 i hi).1, fun j hj => ?_⟩⟩
  have h4 := (h3 i hi).2 j hj
  have hcK : (X.c : ℚ) ≤ 2 ^ 40 := by exact_mod_cast hn.le
  have hc0 : (0 : ℚ) ≤ X.c := Nat.cast_nonneg _
  have hsmall : ((X.c + 5 : Nat) : ℚ) * (1 / 2 ^ 53) ≤ 1 / 1000 := by
    push_cast
    have h40 : (2 : ℚ) ^ 40 = 1099511627776 := by norm_num
    have h53 : (2 : ℚ) ^ 53 = 9007199254740992 := by norm_num
    rw [h40] at hcK
    rw [h53]
    linarith
  have hp := pow_sub_one_le (K := ℚ) (eps := 1 / 2 ^ 53) (by positivity) (X.c + 5) (by linarith)
  have hg := grow (K := ℚ) (eps := 1 / 2 ^ 53) (by positivity) (X.c + 5)
  have he : (2 : ℚ) * X.c * (1 / 2 ^ 1075) = X.c * (1 / 2 ^ 1074) := by
    rw [pow_succ (2 : ℚ) 1074]
    field_simp
  rw [he] at h4
  have hA := exactSq_nonneg (X.row i) (cs.getD (ys.getD i 0) [])
  have hB : 0 ≤ exactSq (X.row i) (cs.getD j []) + X.c * (1 / 2 ^ 1074) := add_nonneg (exactSq_nonneg _ _) (by positivity)
  generalize exactSq (X.row i) (cs.getD (ys.getD i 0) []) = A at *
  generalize exactSq (X.row i) (cs.getD j []) + X.c * (1 / 2 ^ 1074) = B at *
  generalize hgp : ((1 : ℚ) + 1 / 2 ^ 53) ^ (X.c + 5) = p at *
  have hq : 6 * ((X.c : ℚ) + 5) * (1 / 2 ^ 53) = 3 * (2 * ((X.c + 5 : Nat) : ℚ) * (1 / 2 ^ 53)) := by push_cast; ring
  rw [hq]
  have hd0 : 2 * ((X.c + 5 : Nat) : ℚ) * (1 / 2 ^ 53) ≤ 1 / 500 := by linarith
  generalize 2 * ((X.c + 5 : Nat) : ℚ) * (1 / 2 ^ 53) = d at *
  have hd : 0 ≤ d := by linarith
  have k1 : (1 - d) * A ≤ (1 + d) * B := by
    refine le_trans (mul_le_mul_of_nonneg_right (by linarith) hA) (h4.trans (mul_le_mul_of_nonneg_right (by linarith) hB))
  have k2 : (1 + d) * B ≤ (1 - d) * ((1 + 3 * d) * B) := by
    rw [← mul_assoc]
    refine mul_le_mul_of_nonneg_right ?_ hB
    nlinarith
  exact le_of_mul_le_mul_left (k1.trans k2) (by linarith)

open Binary64 in
example : ∃ (sqrt : Fl rounding → Fl rounding) (ys : List Nat),
    (⟨some [[lit 0, lit 0], [lit 3, lit 4]], none, 0, 0, none, 2, 0, true, 0⟩ : KM (Fl rounding)).predict sqrt (lit 100) (table 2 [[1, 1], [3, 3]]) = .ok ys ∧
    ys.length = 2 ∧ ys.getD 1 0 < 2 := by
  obtain ⟨sqrt, hsq⟩ := exists_sqrt
  obtain ⟨ys, h1, h2, h3⟩ := assigned_nearest_float_partial sqrt hsq (lit 100) ⟨some [[lit 0, lit 0], [lit 3, lit 4]], none, 0, 0, none, 2, 0, true, 0⟩
    [[lit 0, lit 0], [lit 3, lit 4]] rfl (by simp) rfl (by simp) (table 2 [[1, 1], [3, 3]]) rfl (by decide) (by decide) (by
      have key : ∀ a ∈ [(table 2 [[1, 1], [3, 3]]).row 0, (table 2 [[1, 1], [3, 3]]).row 1], ∀ v ∈ [[lit 0, lit 0], [lit 3, lit 4]],
          0 ≤ ((List.zip a v).foldl (fun s p => s + (p.1 - p.2) * (p.1 - p.2)) (0 : Fl rounding)).val ∧
          ((List.zip a v).foldl (fun s p => s + (p.1 - p.2) * (p.1 - p.2)) (0 : Fl rounding)).val ≤ 18 ∧ a.length = v.length := by decide +kernel
      intro i hi v hv
      have hi' : i < 2 := hi
      have hm : (table 2 [[1, 1], [3, 3]]).row i ∈ [(table 2 [[1, 1], [3, 3]]).row 0, (table 2 [[1, 1], [3, 3]]).row 1] := by
        rcases (show i = 0 ∨ i = 1 by omega) with rfl | rfl <;> simp
      obtain ⟨k0, k1, k2⟩ := key _ hm v hv
      obtain ⟨s0, s1⟩ := hsq _ k0
      unfold KMeans.dist
      rw [if_neg (by simpa using k2)]
      have h100 : (lit 100 : Fl rounding).val = 100 := by decide +kernel
      rw [h100]
      have := (abs_le.1 s1).2
      norm_num at this
      nlinarith)
  exact ⟨sqrt, ys, h1, h2, (h3 1 (by decide)).1⟩

open Binary64 in
/-- **C309** (negation): in float64 a fitted model with the centres -1 and 0 gives the value 2^53 the centre -1, though 0 is strictly nearer, whatever
the square root. -/
theorem assigned_not_nearest (sqrt : Fl rounding → Fl rounding) (inf : Fl rounding) (s : KM (Fl rounding))
    (hc : s.centers = some [[lit (-1)], [lit 0]]) (hf : s.fitted = true) (hw : s.nFeatures = 1) :
    s.predict sqrt inf (table 1 [[2 ^ 53]]) = .ok [0] ∧
      exactSq ((table 1 [[2 ^ 53]]).row 0) [lit 0] < exactSq ((table 1 [[2 ^ 53]]).row 0) [lit (-1)] := by
  have e0 : (table 1 [[2 ^ 53]]).row 0 = [lit (2 ^ 53)] := by decide +kernel
  have e1 : ∀ v : Fl rounding, dist sqrt inf [lit (2 ^ 53)] [v] = sqrt (0 + (lit (2 ^ 53) - v) * (lit (2 ^ 53) - v)) := by
    intro v
    simp [KMeans.dist]
  have e2 : (lit (2 ^ 53) - lit (-1) : Fl rounding) = lit (2 ^ 53) - lit 0 := by decide +kernel
  refine ⟨?_, ?_⟩
  · have hn : nearest sqrt inf [lit (2 ^ 53)] [[lit (-1)], [lit 0]] = 0 := by
      simp only [nearest, List.zipIdx_cons, List.zipIdx_nil, List.foldl_cons, List.foldl_nil, e1, e2]
      by_cases h : sqrt (0 + (lit (2 ^ 53) - lit 0) * (lit (2 ^ 53) - lit 0)) < inf
      · rw [if_pos h, if_neg (lt_irrefl _)]
      · rw [if_neg h, if_neg h]
    have hrow : rowsOf (table 1 [[2 ^ 53]]) = [[lit (2 ^ 53)]] := by decide +kernel
    have hr : (table 1 [[2 ^ 53]]).r = 1 := rfl
    have hcc : (table 1 [[2 ^ 53]]).c = 1 := rfl
    simp [KM.predict, hf, hw, hc, hrow, hn, hr, hcc]
  · rw [e0]
    decide +kernel

open Binary64 in
example (sqrt : Fl rounding → Fl rounding) (inf : Fl rounding) :
    (⟨some [[lit (-1)], [lit 0]], none, 0, 0, some [1, 1], 1, 2, true, 0⟩ : KM (Fl rounding)).predict sqrt inf (table 1 [[2 ^ 53]]) = .ok [0] :=
  (assigned_not_nearest sqrt inf _ rfl rfl rfl).1

/-! ## C310 -/

section
variable {α : Type _} [Add α] [Sub α] [Mul α] [Div α] [Zero α] [One α] [NatCast α] [LT α] [LE α] [DecidableLT α] [DecidableLE α]

theorem steps_width (sqrt : α → α) (inf : α) (w : Nat) (xs : List (List α)) (cs r : List (List α) × List Nat) (hcs : ∀ v ∈ cs.1, v.length = w)
    (h : steps sqrt inf cs xs = .ok r) : (∀ v ∈ r.1, v.length = w) ∧ r.1.length = cs.1.length := by
  have one : ∀ (a b : List (List α) × List Nat) x, (∀ v ∈ a.1, v.length = w) → step sqrt inf a x = .ok b →
      (∀ v ∈ b.1, v.length = w) ∧ b.1.length = a.1.length := by
    intro a b x ha hb
    unfold step at hb
    dsimp only at hb
    split at hb
    · cases hb
      refine ⟨fun v hv => ?_, by simp⟩
      obtain ⟨i, hi, rfl⟩ := List.getElem_of_mem hv
      rw [List.getElem_modify]
      have hi' : i < a.1.length := by simpa using hi
      split
      · rw [move, List.length_append, List.length_zipWith, List.length_drop, ha _ (List.getElem_mem _)]
        have := ha _ (List.getElem_mem hi')
        omega
      · exact ha _ (List.getElem_mem _)
    · cases hb
  have key : ∀ (xs : List (List α)) (o : Outcome (List (List α) × List Nat)),
      (∀ v, o = .ok v → (∀ u ∈ v.1, u.length = w) ∧ v.1.length = cs.1.length) →
      ∀ v, xs.foldl (fun o x => o.bind fun cs => step sqrt inf cs x) o = .ok v → (∀ u ∈ v.1, u.length = w) ∧ v.1.length = cs.1.length := by
    intro xs
    induction xs with
    | nil => intro o ho v hv; exact ho v hv
    | cons y ys ih =>
      intro o ho v hv
      rw [List.foldl_cons] at hv
      refine ih _ (fun u hu => ?_) v hv
      cases o with
      | ok a =>
        obtain ⟨h1, h2⟩ := ho a rfl
        obtain ⟨h3, h4⟩ := one a u y h1 hu
        exact ⟨h3, h4.trans h2⟩
      | err e => cases hu
      | panic e => cases hu
  exact key xs (.ok cs) (fun v hv => by cases hv; exact ⟨hcs, rfl⟩) r h

theorem iterate_width (sqrt : α → α) (inf : α) (o : Rng α) (P : Params α) (rows : List (List α)) (w left iter : Nat) (r r' : Run α)
    (hr : ∀ v ∈ r.centers, v.length = w) (h : iterate sqrt inf o P rows left iter r = .ok r') :
    (∀ v ∈ r'.centers, v.length = w) ∧ r'.centers.length = r.centers.length := by
  induction left generalizing iter r with
  | zero =>
    unfold iterate at h
    cases h
    exact ⟨hr, rfl⟩
  | succ n ih =>
    unfold iterate at h
    dsimp only at h
    cases hs : steps sqrt inf (r.centers, r.counts) ((selectMiniBatch o P.batchSize rows.length r.pos).1.map (fun i => rows.getD i [])) with
    | ok cs =>
      rw [hs, Outcome.bind_ok] at h
      obtain ⟨h1, h2⟩ := steps_width sqrt inf w _ _ _ hr hs
      split at h
      · split at h
        · cases h
          exact ⟨h1, h2⟩
        · obtain ⟨h3, h4⟩ := ih _ _ h1 h
          exact ⟨h3, h4.trans h2⟩
      · obtain ⟨h3, h4⟩ := ih _ _ h1 h
        exact ⟨h3, h4.trans h2⟩
    | err e => rw [hs] at h; cases h
    | panic e => rw [hs] at h; cases h

/-- what a finished run knows about its own result (cf. sklearn/cluster/minibatch_kmeans.go:186-248) -/
def Consistent (sqrt : α → α) (inf : α) (P : Params α) (rows : List (List α)) (w : Nat) (f : Fitted α) : Prop :=
  (∀ v ∈ f.centers, v.length = w) ∧ f.centers ≠ [] ∧ f.inertia = computeInertia sqrt inf rows f.centers ∧
    f.labels = if P.computeLabels then some (rows.map (fun x => nearest sqrt inf x f.centers)) else none

theorem run_consistent (sqrt : α → α) (inf : α) (o : Rng α) (P : Params α) (rows : List (List α)) (w pos : Nat) (hk : 0 < P.nClusters) (h0 : rows ≠ [])
    (hw : ∀ x ∈ rows, x.length = w) (f : Fitted α × Nat) (h : fitSingleRun sqrt inf o P rows pos = .ok f) : Consistent sqrt inf P rows w f.1 := by
  obtain ⟨i, h1, h2, h3⟩ := initCenters_spec sqrt inf o P hk h0 pos
  unfold fitSingleRun at h
  rw [h1, Outcome.bind_ok] at h
  split at h
  · cases h
  · cases hit : iterate sqrt inf o P rows P.maxIter 0 ⟨i.1, List.replicate P.nClusters 0, inf, 0, 0, i.2⟩ with
    | ok r =>
      rw [hit, Outcome.map_ok] at h
      cases h
      obtain ⟨h4, h5⟩ := iterate_width sqrt inf o P rows w _ _ _ _ (fun v hv => hw v (h3 v hv)) hit
      refine ⟨h4, ?_, rfl, rfl⟩
      intro he
      have h6 : r.centers.length = 0 := by
        have : r.centers = [] := he
        rw [this]
        rfl
      have h7 : r.centers.length = i.1.length := h5
      omega
    | err e => rw [hit] at h; cases h
    | panic e => rw [hit] at h; cases h

theorem best_consistent (sqrt : α → α) (inf : α) (o : Rng α) (P : Params α) (rows : List (List α)) (w : Nat) (hk : 0 < P.nClusters) (h0 : rows ≠ [])
    (hw : ∀ x ∈ rows, x.length = w) (n : Nat) (b : Option (Fitted α)) (pos : Nat) (r : Option (Fitted α) × Nat)
    (hb : ∀ f, b = some f → Consistent sqrt inf P rows w f) (h : bestOf sqrt inf o P rows n b pos = .ok r) :
    ∀ f, r.1 = some f → Consistent sqrt inf P rows w f := by
  induction n generalizing b pos with
  | zero =>
    unfold bestOf at h
    cases h
    exact hb
  | succ n ih =>
    unfold bestOf at h
    cases hs : fitSingleRun sqrt inf o P rows pos with
    | ok f =>
      rw [hs, Outcome.bind_ok] at h
      refine ih _ _ (fun g hg => ?_) h
      split at hg
      · cases hg
        exact run_consistent sqrt inf o P rows w pos hk h0 hw f hs
      · exact hb g hg
    | err e => rw [hs] at h; cases h
    | panic e => rw [hs] at h; cases h

end

/-- **C310**: after a successful `Fit` with every operation rounded, `Inertia()` is the exact sum of the squared distances of the rows to the centres of
their labels, up to the relative errors of columns + rows + 6 operations and (columns + 1) underflows per row. -/
theorem inertia_error (he : 0 ≤ eps) (hη : 0 ≤ eta) (hR : R.Accurate eps eta) (hA : R.AddAccurate eps) (sqrt : Fl R → Fl R)
    (hsq : SqrtAccurate eps sqrt) (inf : Fl R) (o : Rng (Fl R)) (P : Params (Fl R)) (hk : 0 < P.nClusters) (hl : P.computeLabels = true) (X : Mat (Fl R))
    (s : KM (Fl R)) (hok : (s.fit sqrt inf o P X).2 = .ok ()) (cs : List (List (Fl R))) (hc : (s.fit sqrt inf o P X).1.centers = some cs) :
    ∃ ls, (s.fit sqrt inf o P X).1.labels = some ls ∧ ls.length = X.r ∧ (∀ l ∈ ls, l < cs.length) ∧
      |(s.fit sqrt inf o P X).1.inertia.val - ((List.range X.r).map fun i => exactSq (X.row i) (cs.getD (ls.getD i 0) [])).sum| ≤
        ((1 + eps) ^ (X.c + X.r + 6) - 1) * ((List.range X.r).map fun i => exactSq (X.row i) (cs.getD (ls.getD i 0) [])).sum +
          X.r * (X.c + 1) * (1 + eps) ^ (X.c + X.r + 6) * eta := by
  unfold KM.fit at hok hc ⊢
  dsimp only at hok hc ⊢
  split at hok
  · cases hok
  · rename_i hlt
    rw [if_neg hlt] at hc ⊢
    have h0 : rowsOf X ≠ [] := by
      intro h
      have : (rowsOf X).length = 0 := by rw [h]; rfl
      simp only [rowsOf, List.length_map, List.length_range] at this
      omega
    have hw : ∀ x ∈ rowsOf X, x.length = X.c := by
      intro x hx
      simp only [rowsOf, List.mem_map] at hx
      obtain ⟨i, _, rfl⟩ := hx
      simp [Mat.row]
    cases hb : bestOf sqrt inf o P (rowsOf X) P.nInit none s.pos with
    | ok r =>
      obtain ⟨best, pos⟩ := r
      rw [hb] at hc
      dsimp only at hc ⊢
      cases best with
      | none => cases hc
      | some f =>
        cases hc
        obtain ⟨c1, c2, c3, c4⟩ := best_consistent sqrt inf o P (rowsOf X) X.c hk h0 hw _ none _ _ (fun f h => by cases h) hb f rfl
        rw [if_pos hl] at c4
        refine ⟨(rowsOf X).map (fun x => nearest sqrt inf x f.centers), c4, by simp [rowsOf], ?_, ?_⟩
        · intro l hlm
          obtain ⟨x, _, rfl⟩ := List.mem_map.1 hlm
          exact nearest_lt sqrt inf x c2
        · have hget : ∀ i ∈ List.range X.r, exactSq (X.row i) (f.centers.getD (((rowsOf X).map (fun x => nearest sqrt inf x f.centers)).getD i 0) []) =
              exactSq (X.row i) (f.centers.getD (nearest sqrt inf (X.row i) f.centers) []) := by
            intro i hi
            have hi' := List.mem_range.1 hi
            rw [List.getD_eq_getElem _ _ (show i < ((rowsOf X).map (fun x => nearest sqrt inf x f.centers)).length by simpa [rowsOf] using hi')]
            simp [rowsOf]
          rw [List.map_congr_left hget]
          have hin : (Option.map (fun x => x.inertia) (some f)).getD inf = sumOver (List.range X.r) (fun i =>
              KMeans.dist sqrt inf (X.row i) (f.centers.getD (nearest sqrt inf (X.row i) f.centers) []) *
                KMeans.dist sqrt inf (X.row i) (f.centers.getD (nearest sqrt inf (X.row i) f.centers) [])) := by
            show f.inertia = _
            rw [c3, computeInertia, rowsOf, List.foldl_map, sumOver]
          rw [hin]
          have hterm : ∀ i ∈ List.range X.r, Near eps eta (X.c + 6) (X.c + 1)
              (KMeans.dist sqrt inf (X.row i) (f.centers.getD (nearest sqrt inf (X.row i) f.centers) []) *
                KMeans.dist sqrt inf (X.row i) (f.centers.getD (nearest sqrt inf (X.row i) f.centers) [])).val
              (exactSq (X.row i) (f.centers.getD (nearest sqrt inf (X.row i) f.centers) [])) := by
            intro i _
            have hx : (X.row i).length = X.c := by simp [Mat.row]
            have hlen : (X.row i).length = (f.centers.getD (nearest sqrt inf (X.row i) f.centers) []).length := by
              rw [List.getD_eq_getElem _ _ (nearest_lt sqrt inf _ c2), c1 _ (List.getElem_mem _), hx]
            have := (dist_error he hη hR hA sqrt hsq inf _ _ hlen).2.rnd he hη hR
            rw [Fl.val_mul, ← pow_two]
            rwa [hx] at this
          have := (Near.sum he hη hA (List.range X.r) _ _ (X.c + 6) (X.c + 1) (by positivity) (fun i _ => exactSq_nonneg _ _) hterm)
          obtain ⟨n1, n0⟩ := this
          unfold Near at n1
          rw [abs_of_nonneg n0, List.length_range, show X.c + 6 + X.r = X.c + X.r + 6 by omega] at n1
          exact n1
    | err e => rw [hb] at hc hok; cases hok
    | panic e => rw [hb] at hc hok; cases hok

/-- **C310**: every distance reported by `Transform` has a square within n + 5 relative errors and n underflows of the exact squared distance. -/
theorem transform_error (he : 0 ≤ eps) (hη : 0 ≤ eta) (hR : R.Accurate eps eta) (hA : R.AddAccurate eps) (sqrt : Fl R → Fl R)
    (hsq : SqrtAccurate eps sqrt) (inf : Fl R) (P : Params (Fl R)) (s : KM (Fl R)) (cs : List (List (Fl R))) (hc : s.centers = some cs)
    (hcs : ∀ v ∈ cs, v.length = s.nFeatures) (X M : Mat (Fl R)) (h : s.transform sqrt inf P X = .ok M) (i j : Nat) (hj : j < P.nClusters) :
    M.r = X.r ∧ M.c = P.nClusters ∧ 0 ≤ (M.at' i j).val ∧
      |(M.at' i j).val ^ 2 - exactSq (X.row i) (cs.getD j [])| ≤
        ((1 + eps) ^ (X.c + 5) - 1) * exactSq (X.row i) (cs.getD j []) + X.c * (1 + eps) ^ (X.c + 5) * eta := by
  unfold KM.transform at h
  split at h
  · cases h
  split at h
  · cases h
  split at h
  · cases h
  split at h
  · cases h
  rename_i h1 h2 h3 h4
  cases h
  rw [hc, Option.getD_some] at *
  have hx : (X.row i).length = X.c := by simp [Mat.row]
  have hj' : j < cs.length := by omega
  obtain ⟨d0, d1⟩ := dist_error he hη hR hA sqrt hsq inf (X.row i) (cs.getD j []) (by
    rw [List.getD_eq_getElem _ _ hj', hcs _ (List.getElem_mem _), hx]; exact not_ne_iff.1 h2)
  refine ⟨rfl, rfl, d0, ?_⟩
  unfold Near at d1
  rwa [abs_of_nonneg (exactSq_nonneg (X.row i) (cs.getD j [])), hx] at d1

open Binary64 in
theorem sqrt_nine : ∃ sqrt : Fl rounding → Fl rounding, SqrtAccurate (1 / 2 ^ 53) sqrt ∧ sqrt (lit 9) = lit 3 ∧ sqrt (lit 0) = lit 0 := by
  obtain ⟨f, hf⟩ := exists_sqrt
  refine ⟨fun x => if x = lit 9 then lit 3 else if x = lit 0 then lit 0 else f x, fun x hx => ?_, if_pos rfl, ?_⟩
  · dsimp only
    by_cases h : x = lit 9
    · rw [if_pos h, h]
      have h3 : (lit 3 : Fl rounding).val = 3 := by decide +kernel
      have h9 : (lit 9 : Fl rounding).val = 9 := by decide +kernel
      rw [h3, h9]
      norm_num
    · rw [if_neg h]
      by_cases h' : x = lit 0
      · rw [if_pos h', h']
        have h0 : (lit 0 : Fl rounding).val = 0 := by decide +kernel
        rw [h0]
        norm_num
      · rw [if_neg h']
        exact hf x hx
  · dsimp only
    rw [if_neg (by decide +kernel), if_pos rfl]

open Binary64 in
/-- the hypotheses of `inertia_error` and `transform_error` are met: one cluster, rows 0 and 3 -/
example : ∃ (sqrt : Fl rounding → Fl rounding) (o : Rng (Fl rounding)) (P : Params (Fl rounding)), SqrtAccurate (1 / 2 ^ 53) sqrt ∧ 0 < P.nClusters ∧
    P.computeLabels = true ∧ ((KM.new 0).fit sqrt (lit 100) o P (table 1 [[0], [3]])).2 = .ok () ∧
    ((KM.new 0).fit sqrt (lit 100) o P (table 1 [[0], [3]])).1.centers = some [[lit 0]] ∧
    ((KM.new 0).fit sqrt (lit 100) o P (table 1 [[0], [3]])).1.inertia = lit 9 := by
  obtain ⟨sqrt, h1, h2, h3⟩ := sqrt_nine
  refine ⟨sqrt, ⟨fun _ _ => 0, fun p => (0, p), fun p _ => (0, p), fun p => (lit 0, p), fun p => (lit 0, p)⟩, ⟨1, "random", 0, 1, true, lit 0, 10, 1⟩, h1, by decide, rfl, ?_⟩
  have hrow : rowsOf (table 1 [[0], [3]]) = [[lit 0], [lit 3]] := by decide +kernel
  have hr : ¬ (table 1 [[0], [3]]).r < 1 := by decide
  have d0 : KMeans.dist sqrt (lit 100) [lit 0] [lit 0] = lit 0 := by
    refine Eq.trans ?_ h3
    simp only [KMeans.dist, List.length_singleton, ne_eq, not_true_eq_false, if_false]
    refine congrArg sqrt ?_
    decide +kernel
  have d1 : KMeans.dist sqrt (lit 100) [lit 3] [lit 0] = lit 3 := by
    refine Eq.trans ?_ h2
    simp only [KMeans.dist, List.length_singleton, ne_eq, not_true_eq_false, if_false]
    refine congrArg sqrt ?_
    decide +kernel
  have hn : ∀ x, nearest sqrt (lit 100) x [[lit 0]] = 0 := by
    intro x
    have := nearest_lt sqrt (lit 100) x (cs := [[lit 0]]) (by simp)
    simpa using this
  have hI : computeInertia sqrt (lit 100) [[lit 0], [lit 3]] [[lit 0]] = lit 9 := by
    simp only [computeInertia, List.foldl_cons, List.foldl_nil, hn, List.getD_cons_zero, d0, d1]
    decide +kernel
  have hlt : (lit 9 : Fl rounding) < lit 100 := by decide +kernel
  simp [KM.fit, hrow, hr, bestOf, fitSingleRun, initCenters, initRandom, intN, iterate, hI, hlt, KM.new]

end Scigo.Round
