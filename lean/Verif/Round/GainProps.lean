import Verif.Round.MomentProps
import Verif.Hist.SplitProps

/-!
# C312: the split found in a histogram with every operation rounded

The scan returns a boundary whose computed gain is maximal (C64, for every arithmetic). Here: how far the computed gain is from the exact
one when every operation is rounded, so that the boundary found is nearly the best one.
-/

set_option linter.unusedSectionVars false

namespace Scigo.Round

open Scigo.Hist

variable {K : Type} [Field K] [LinearOrder K] [IsStrictOrderedRing K] {R : Rounding K} {eps eta : K}

/-- the error of a rounded sum over a list -/
theorem sum_list_error (he : 0 ≤ eps) (hA : R.AddAccurate eps) {β : Type} (l : List β) (f : β → Fl R) :
    |(sumOver l f).val - (l.map fun i => (f i).val).sum| ≤ ((1 + eps) ^ l.length - 1) * (l.map fun i => |(f i).val|).sum := by
  induction l using List.reverseRecOn with
  | nil => simp [sumOver]
  | append_singleton l a ih =>
    have hsum : sumOver (l ++ [a]) f = sumOver l f + f a := by
      unfold sumOver
      rw [List.foldl_append]
      rfl
    rw [hsum, Fl.val_add, List.map_append, List.sum_append, List.map_append, List.sum_append, List.length_append]
    simp only [List.map_cons, List.map_nil, List.sum_cons, List.sum_nil, add_zero, List.length_cons, List.length_nil, zero_add]
    set S := (sumOver l f).val
    set T := (l.map fun i => (f i).val).sum
    set B := (l.map fun i => |(f i).val|).sum
    have hTB : |T| ≤ B := by
      have : ∀ l : List β, |(l.map fun i => (f i).val).sum| ≤ (l.map fun i => |(f i).val|).sum := by
        intro l
        induction l with
        | nil => simp
        | cons b l ih => simpa using (abs_add_le _ _).trans (by linarith)
      exact this l
    have hr := hA S (f a).val (sumOver l f).rep (f a).rep
    have hG : 1 ≤ (1 + eps) ^ l.length := one_le_pow₀ (by linarith)
    have hB : 0 ≤ B := (abs_nonneg _).trans hTB
    set G := (1 + eps) ^ l.length
    have hS : |S| ≤ G * B := by
      have := abs_add_le (S - T) T
      rw [sub_add_cancel] at this
      linarith
    have h1 : |S + (f a).val| ≤ G * B + |(f a).val| := (abs_add_le _ _).trans (by linarith)
    have h2 : eps * |S + (f a).val| ≤ eps * (G * B + |(f a).val|) := mul_le_mul_of_nonneg_left h1 he
    have h3 : |R.rnd (S + (f a).val) - (T + (f a).val)| ≤ |R.rnd (S + (f a).val) - (S + (f a).val)| + |S - T| := by
      have := abs_add_le (R.rnd (S + (f a).val) - (S + (f a).val)) (S - T)
      refine le_trans (le_of_eq ?_) this
      congr 1
      ring
    have ha := abs_nonneg (f a).val
    rw [pow_succ]
    have h4 : 0 ≤ (G - 1) * |(f a).val| := mul_nonneg (by linarith) ha
    have h5 : 0 ≤ eps * ((G - 1) * |(f a).val|) := mul_nonneg he h4
    calc |R.rnd (S + (f a).val) - (T + (f a).val)| ≤ eps * (G * B + |(f a).val|) + (G - 1) * B := by linarith
      _ ≤ (G * (1 + eps) - 1) * (B + |(f a).val|) := by nlinarith

/-- the exact sum of a field of some bins (cf. sklearn/lightgbm/histogram_optimization.go:302-312) -/
def binSum (f : Bin (Fl R) → Fl R) (bins : List (Bin (Fl R))) : K := (bins.map fun b => (f b).val).sum

/-- the exact sum of the absolute gradients of the bins (cf. sklearn/lightgbm/histogram_optimization.go:302-312) -/
def gradMass (bins : List (Bin (Fl R))) : K := (bins.map fun b => |b.grad.val|).sum

/-- the exact gain of the boundary after bin `i`, without L1 regularisation (cf. sklearn/lightgbm/histogram_optimization.go:423-455) -/
def exactBinGain (lambda : K) (bins : List (Bin (Fl R))) (i : Nat) : K :=
  (binSum (·.grad) (bins.take (i + 1)) ^ 2 / (binSum (·.hess) (bins.take (i + 1)) + lambda) +
    binSum (·.grad) (bins.drop (i + 1)) ^ 2 / (binSum (·.hess) (bins.drop (i + 1)) + lambda) -
    binSum (·.grad) bins ^ 2 / (binSum (·.hess) bins + lambda)) / 2

/-- one of the three quotients -/
theorem quotient_error (he : 0 ≤ eps) (hη : 0 ≤ eta) (hR : R.Accurate eps eta) {x S T m : K} (hex : eps ≤ x) (hx : x ≤ 1 / 8) (hS : 0 ≤ S) (hm : 0 < m)
    (hT : m ≤ T) (hxT : x * T ≤ m / 4) (a : K) (d : K) (a' d' : Fl R) (ha : |a| ≤ S) (ha' : |a'.val - a| ≤ x * S) (hd : m ≤ d)
    (hd' : |d'.val - d| ≤ x * T) :
    |(a' * a' / d').val - a ^ 2 / d| ≤ 9 * x * (S ^ 2 * T / m ^ 2) + (2 * eta / m + eta) ∧ a ^ 2 / d ≤ S ^ 2 * T / m ^ 2 := by
  have hx0 : 0 ≤ x := he.trans hex
  have hS2 : 0 ≤ S ^ 2 := sq_nonneg S
  have a2 : a ^ 2 ≤ S ^ 2 := by rw [← sq_abs a]; exact pow_le_pow_left₀ (abs_nonneg _) ha 2
  have hd0 : 0 < d := lt_of_lt_of_le hm hd
  have hdl : 3 / 4 * m ≤ d'.val := by have := (abs_le.1 hd').1; linarith
  have hd'0 : 0 < d'.val := lt_of_lt_of_le (by linarith) hdl
  have ha'S : |a'.val| ≤ (1 + x) * S := by
    have := abs_add_le (a'.val - a) a
    rw [sub_add_cancel] at this
    linarith
  have sq1 : |a'.val * a'.val - a ^ 2| ≤ x * (2 + x) * S ^ 2 := by
    have e : a'.val * a'.val - a ^ 2 = (a'.val - a) * (a'.val + a) := by ring
    rw [e, abs_mul]
    have h2 : |a'.val + a| ≤ (2 + x) * S := (abs_add_le _ _).trans (by linarith)
    calc |a'.val - a| * |a'.val + a| ≤ (x * S) * ((2 + x) * S) := mul_le_mul ha' h2 (abs_nonneg _) (by positivity)
      _ = x * (2 + x) * S ^ 2 := by ring
  have sq2 : |a'.val * a'.val| ≤ (1 + x) ^ 2 * S ^ 2 := by
    rw [abs_mul]
    calc |a'.val| * |a'.val| ≤ ((1 + x) * S) * ((1 + x) * S) := mul_le_mul ha'S ha'S (abs_nonneg _) (by positivity)
      _ = (1 + x) ^ 2 * S ^ 2 := by ring
  have hr := hR (a'.val * a'.val)
  obtain ⟨p, hp⟩ : ∃ p, p = R.rnd (a'.val * a'.val) := ⟨_, rfl⟩
  rw [← hp] at hr
  have p1 : |p - a ^ 2| ≤ 4 * x * S ^ 2 + eta := by
    have := abs_add_le (p - a'.val * a'.val) (a'.val * a'.val - a ^ 2)
    rw [sub_add_sub_cancel] at this
    have h3 : eps * |a'.val * a'.val| ≤ x * ((1 + x) ^ 2 * S ^ 2) := mul_le_mul hex sq2 (abs_nonneg _) hx0
    have h4 : x * ((1 + x) ^ 2 * S ^ 2) + x * (2 + x) * S ^ 2 ≤ 4 * x * S ^ 2 := by
      have h5 : (1 + x) ^ 2 + (2 + x) ≤ 4 := by nlinarith
      have := mul_le_mul_of_nonneg_left h5 (mul_nonneg hx0 hS2)
      linarith
    linarith
  have p2 : |p| ≤ 3 / 2 * S ^ 2 + eta := by
    have := abs_add_le (p - a ^ 2) (a ^ 2)
    rw [sub_add_cancel, abs_of_nonneg (sq_nonneg a)] at this
    have h5 := mul_le_mul_of_nonneg_right hx hS2
    linarith
  have hQ : S ^ 2 / m ≤ S ^ 2 * T / m ^ 2 := by
    rw [div_le_div_iff₀ hm (by positivity)]
    have := mul_le_mul_of_nonneg_left hT (mul_nonneg hS2 hm.le)
    nlinarith
  have inv : 1 / d'.val ≤ 4 / 3 * (1 / m) := by
    rw [div_le_iff₀ hd'0]
    have : 4 / 3 * (1 / m) * (3 / 4 * m) ≤ 4 / 3 * (1 / m) * d'.val := mul_le_mul_of_nonneg_left hdl (by positivity)
    have e : 4 / 3 * (1 / m) * (3 / 4 * m) = 1 := by field_simp
    linarith
  have inv0 : 0 ≤ 1 / d'.val := by positivity
  have q1 : |p / d'.val - a ^ 2 / d| ≤ (4 * x * S ^ 2 + eta) * (4 / 3 * (1 / m)) + S ^ 2 * (x * T) * (4 / 3 * (1 / m)) * (1 / m) := by
    have e : p / d'.val - a ^ 2 / d = (p - a ^ 2) * (1 / d'.val) + a ^ 2 * (d - d'.val) * (1 / d'.val) * (1 / d) := by
      field_simp
      ring
    rw [e]
    refine (abs_add_le _ _).trans (add_le_add ?_ ?_)
    · rw [abs_mul, abs_of_nonneg inv0]
      exact mul_le_mul p1 inv inv0 (by positivity)
    · rw [abs_mul, abs_mul, abs_mul, abs_of_nonneg inv0, abs_of_nonneg (sq_nonneg a), abs_sub_comm, abs_of_nonneg (show 0 ≤ 1 / d by positivity)]
      have i1 : 1 / d ≤ 1 / m := one_div_le_one_div_of_le hm hd
      have hxT0 : 0 ≤ x * T := mul_nonneg hx0 (hm.le.trans hT)
      have h1 : a ^ 2 * |d'.val - d| ≤ S ^ 2 * (x * T) := mul_le_mul a2 hd' (abs_nonneg _) hS2
      have h2 := mul_le_mul h1 inv inv0 (mul_nonneg hS2 hxT0)
      exact mul_le_mul h2 i1 (by positivity) (by positivity)
  have q2 : |p / d'.val| ≤ (3 / 2 * S ^ 2 + eta) * (4 / 3 * (1 / m)) := by
    rw [div_eq_mul_one_div, abs_mul, abs_of_nonneg inv0]
    exact mul_le_mul p2 inv inv0 (by positivity)
  have hr2 := hR (p / d'.val)
  refine ⟨?_, ?_⟩
  · rw [Fl.val_div, Fl.val_mul, ← hp]
    have t := abs_add_le (R.rnd (p / d'.val) - p / d'.val) (p / d'.val - a ^ 2 / d)
    rw [sub_add_sub_cancel] at t
    have h6 : eps * |p / d'.val| ≤ x * ((3 / 2 * S ^ 2 + eta) * (4 / 3 * (1 / m))) := mul_le_mul hex q2 (abs_nonneg _) hx0
    have e1 : x * ((3 / 2 * S ^ 2 + eta) * (4 / 3 * (1 / m))) = 2 * x * (S ^ 2 / m) + 4 / 3 * x * (eta / m) := by field_simp; ring
    have e2 : (4 * x * S ^ 2 + eta) * (4 / 3 * (1 / m)) + S ^ 2 * (x * T) * (4 / 3 * (1 / m)) * (1 / m) =
        16 / 3 * x * (S ^ 2 / m) + 4 / 3 * (eta / m) + 4 / 3 * x * (S ^ 2 * T / m ^ 2) := by field_simp; ring
    have hηm : 0 ≤ eta / m := div_nonneg hη hm.le
    have h7 : 4 / 3 * x * (eta / m) ≤ 1 / 6 * (eta / m) := mul_le_mul_of_nonneg_right (by linarith) hηm
    have h8 := mul_le_mul_of_nonneg_left hQ hx0
    have h9 : 0 ≤ x * (S ^ 2 * T / m ^ 2) := mul_nonneg hx0 (le_trans (div_nonneg hS2 hm.le) hQ)
    have e3 : 2 * eta / m = 2 * (eta / m) := by ring
    rw [e3]
    rw [e2] at q1
    rw [e1] at h6
    linarith
  · refine le_trans ?_ hQ
    exact div_le_div₀ hS2 a2 hm hd

/-- the whole gain -/
theorem gain_terms_error (he : 0 ≤ eps) (hη : 0 ≤ eta) (hR : R.Accurate eps eta) (hA : R.AddAccurate eps) {x Q nu : K} (hex : eps ≤ x) (hx : x ≤ 1 / 8)
    (hnu : eta ≤ nu) (half q1 q2 q3 : Fl R) (hhalf : half.val = 1 / 2) (t1 t2 t3 : K) (h1 : |q1.val - t1| ≤ 9 * x * Q + nu)
    (h2 : |q2.val - t2| ≤ 9 * x * Q + nu) (h3 : |q3.val - t3| ≤ 9 * x * Q + nu) (p1 : 0 ≤ t1) (p2 : 0 ≤ t2) (p3 : 0 ≤ t3) (b1 : t1 ≤ Q) (b2 : t2 ≤ Q) (b3 : t3 ≤ Q) :
    |(half * (q1 + q2 - q3)).val - (t1 + t2 - t3) / 2| ≤ 24 * x * Q + 4 * nu := by
  have hx0 : 0 ≤ x := he.trans hex
  have hQ : 0 ≤ Q := p1.trans b1
  have hxQ : 0 ≤ x * Q := mul_nonneg hx0 hQ
  have hnu0 : 0 ≤ nu := hη.trans hnu
  obtain ⟨E, hE⟩ : ∃ E, E = 9 * x * Q + nu := ⟨_, rfl⟩
  rw [← hE] at h1 h2 h3
  have hE0 : 0 ≤ E := (abs_nonneg _).trans h1
  -- x (Q + E)
  obtain ⟨z, hz⟩ : ∃ z, z = x * (Q + E) := ⟨_, rfl⟩
  have hzb : z ≤ 17 / 8 * (x * Q) + nu / 8 := by
    have := mul_le_mul_of_nonneg_right hx hE0
    rw [hz, mul_add]
    rw [hE] at this ⊢
    linarith
  have hz0 : 0 ≤ z := by rw [hz]; positivity
  have r1 := hA q1.val q2.val q1.rep q2.rep
  have m1 : |q1.val + q2.val| ≤ 2 * (Q + E) := by
    have := abs_le.1 h1
    have := abs_le.1 h2
    rw [abs_le]
    constructor <;> linarith
  have r1' : |(q1 + q2).val - (q1.val + q2.val)| ≤ 2 * z := by
    rw [Fl.val_add, hz]
    have := mul_le_mul hex m1 (abs_nonneg _) hx0
    linarith
  have m2 : |(q1 + q2).val - q3.val| ≤ 3 * (Q + E) + 2 * z := by
    have := abs_le.1 h1
    have := abs_le.1 h2
    have := abs_le.1 h3
    have := abs_le.1 r1'
    rw [abs_le]
    constructor <;> linarith
  have hxz : x * z ≤ z / 8 := by
    have := mul_le_mul_of_nonneg_right hx hz0
    linarith
  have r2' : |(q1 + q2 - q3).val - ((q1 + q2).val - q3.val)| ≤ 13 / 4 * z := by
    rw [Fl.val_sub]
    have r2 := hA.sub (q1 + q2).val q3.val (Fl.rep _) q3.rep
    have := mul_le_mul hex m2 (abs_nonneg _) hx0
    have e : x * (3 * (Q + E) + 2 * z) = 3 * z + 2 * (x * z) := by rw [hz]; ring
    rw [e] at this
    linarith
  have tot : |(q1 + q2 - q3).val - (t1 + t2 - t3)| ≤ 3 * E + 21 / 4 * z := by
    have := abs_le.1 h1
    have := abs_le.1 h2
    have := abs_le.1 h3
    have := abs_le.1 r1'
    have := abs_le.1 r2'
    rw [abs_le]
    constructor <;> linarith
  have m3 : |half.val * (q1 + q2 - q3).val| ≤ (3 * (Q + E) + 21 / 4 * z) / 2 := by
    rw [hhalf]
    have := abs_le.1 tot
    rw [abs_le]
    constructor <;> linarith
  have r3 := hR (half.val * (q1 + q2 - q3).val)
  have r3' : |(half * (q1 + q2 - q3)).val - half.val * (q1 + q2 - q3).val| ≤ 2 * z + eta := by
    rw [Fl.val_mul]
    have := mul_le_mul hex m3 (abs_nonneg _) hx0
    have e : x * ((3 * (Q + E) + 21 / 4 * z) / 2) = 3 / 2 * z + 21 / 8 * (x * z) := by rw [hz]; ring
    rw [e] at this
    linarith
  rw [hhalf] at r3'
  have := abs_le.1 tot
  have := abs_le.1 r3'
  rw [abs_le]
  constructor <;> linarith

theorem binSum_split (f : Bin (Fl R) → Fl R) (bins : List (Bin (Fl R))) (n : Nat) : binSum f (bins.take n) + binSum f (bins.drop n) = binSum f bins := by
  unfold binSum
  rw [← List.sum_append, ← List.map_append, List.take_append_drop]

theorem binSum_nonneg (f : Bin (Fl R) → Fl R) (bins : List (Bin (Fl R))) (h : ∀ b ∈ bins, 0 ≤ (f b).val) : 0 ≤ binSum f bins := by
  apply List.sum_nonneg
  intro x hx
  obtain ⟨b, hb, rfl⟩ := List.mem_map.1 hx
  exact h b hb

theorem mass_split (bins : List (Bin (Fl R))) (n : Nat) : gradMass (bins.take n) + gradMass (bins.drop n) = gradMass bins := by
  unfold gradMass
  rw [← List.sum_append, ← List.map_append, List.take_append_drop]

theorem mass_nonneg (bins : List (Bin (Fl R))) : 0 ≤ gradMass bins := by
  apply List.sum_nonneg
  intro x hx
  obtain ⟨b, _, rfl⟩ := List.mem_map.1 hx
  exact abs_nonneg _

theorem grad_le_mass (bins : List (Bin (Fl R))) : |binSum (·.grad) bins| ≤ gradMass bins := by
  unfold binSum gradMass
  induction bins with
  | nil => simp
  | cons b l ih => simpa using (abs_add_le _ _).trans (by linarith)

/-- the computed gain of a boundary, against the exact one -/
theorem gainAt_error (he : 0 ≤ eps) (hη : 0 ≤ eta) (hR : R.Accurate eps eta) (hA : R.AddAccurate eps) (hb : Builder (Fl R)) (L : Lits (Fl R))
    (hhalf : L.half.val = 1 / 2) (ha : hb.alpha.val ≤ 0) (hl : 0 ≤ hb.lambda.val) (bins : List (Bin (Fl R))) (hh : ∀ b ∈ bins, 0 ≤ b.hess.val)
    (tg th : Fl R) {y m : K} (hey : eps ≤ y) (hy : y ≤ 1 / 40) (hpow : (1 + eps) ^ bins.length - 1 ≤ y)
    (htg : |tg.val - binSum (·.grad) bins| ≤ y * gradMass bins) (hth : |th.val - binSum (·.hess) bins| ≤ y * binSum (·.hess) bins)
    (hm : 0 < m) (hmin : L.minHess.val ≤ m / 2) (hyT : 20 * y * (binSum (·.hess) bins + hb.lambda.val) ≤ m) (i : Nat)
    (hml : m ≤ binSum (·.hess) (bins.take (i + 1)) + hb.lambda.val) (hmr : m ≤ binSum (·.hess) (bins.drop (i + 1)) + hb.lambda.val) :
    |(gainAt hb L (fun _ => false) bins tg th i).val - exactBinGain hb.lambda.val bins i| ≤
      120 * y * (gradMass bins ^ 2 * (binSum (·.hess) bins + hb.lambda.val) / m ^ 2) + 4 * (2 * eta / m + eta) := by
  have hy0 : 0 ≤ y := he.trans hey
  have hGl := (sum_list_error he hA (bins.take (i + 1)) (·.grad))
  have hHl := (sum_list_error he hA (bins.take (i + 1)) (·.hess))
  have hlen : (bins.take (i + 1)).length ≤ bins.length := by rw [List.length_take]; omega
  have hpl : (1 + eps) ^ (bins.take (i + 1)).length - 1 ≤ y := by
    have := pow_le_pow_right₀ (show (1 : K) ≤ 1 + eps by linarith) hlen
    linarith
  have hgs := binSum_split (R := R) (·.grad) bins (i + 1)
  have hhs := binSum_split (R := R) (·.hess) bins (i + 1)
  have hms := mass_split (R := R) bins (i + 1)
  have hM1 := mass_nonneg (R := R) (bins.take (i + 1))
  have hM2 := mass_nonneg (R := R) (bins.drop (i + 1))
  have hgl := grad_le_mass (R := R) (bins.take (i + 1))
  have hgr := grad_le_mass (R := R) (bins.drop (i + 1))
  have hgt := grad_le_mass (R := R) bins
  have hH1 := binSum_nonneg (R := R) (·.hess) (bins.take (i + 1)) (fun b hb => hh b (List.mem_of_mem_take hb))
  have hH2 := binSum_nonneg (R := R) (·.hess) (bins.drop (i + 1)) (fun b hb => hh b (List.mem_of_mem_drop hb))
  have habs : ((bins.take (i + 1)).map fun b => |b.hess.val|).sum = binSum (·.hess) (bins.take (i + 1)) := by
    unfold binSum
    congr 1
    exact List.map_congr_left fun b hb => abs_of_nonneg (hh b (List.mem_of_mem_take hb))
  rw [habs] at hHl
  change |(sumOver (bins.take (i + 1)) (·.grad)).val - binSum (·.grad) (bins.take (i + 1))| ≤ _ * gradMass (bins.take (i + 1)) at hGl
  change |(sumOver (bins.take (i + 1)) (·.hess)).val - binSum (·.hess) (bins.take (i + 1))| ≤ _ at hHl
  unfold gainAt exactBinGain Builder.gain
  dsimp only
  obtain ⟨lg, hlg⟩ : ∃ lg, lg = sumOver (bins.take (i + 1)) (·.grad) := ⟨_, rfl⟩
  obtain ⟨lh, hlh⟩ : ∃ lh, lh = sumOver (bins.take (i + 1)) (·.hess) := ⟨_, rfl⟩
  rw [← hlg] at hGl ⊢
  rw [← hlh] at hHl ⊢
  generalize binSum (·.grad) (bins.take (i + 1)) = GL at *
  generalize binSum (·.grad) (bins.drop (i + 1)) = GR at *
  generalize binSum (·.hess) (bins.take (i + 1)) = HL at *
  generalize binSum (·.hess) (bins.drop (i + 1)) = HR at *
  generalize gradMass (bins.take (i + 1)) = SL at *
  generalize gradMass (bins.drop (i + 1)) = SR at *
  rw [← hgs] at htg hgt ⊢
  rw [← hhs] at hth hyT ⊢
  rw [← hms] at htg hgt ⊢
  generalize (1 + eps) ^ (bins.take (i + 1)).length - 1 = pw at *
  generalize hb.lambda = lam at *
  have hlgE : |lg.val - GL| ≤ y * (SL + SR) := by
    have := mul_le_mul_of_nonneg_right hpl hM1
    have := mul_nonneg hy0 hM2
    linarith
  have hlhE : |lh.val - HL| ≤ y * (HL + HR) := by
    have := mul_le_mul_of_nonneg_right hpl hH1
    have := mul_nonneg hy0 hH2
    linarith
  set S := SL + SR
  have hS : 0 ≤ S := by simp only [S]; linarith
  have hyS : 0 ≤ y * S := mul_nonneg hy0 hS
  have hyyS : y * (y * S) ≤ 1 / 40 * (y * S) := mul_le_mul_of_nonneg_right hy hyS
  set H := HL + HR
  have hH : 0 ≤ H := by simp only [H]; linarith
  have hyH : 0 ≤ y * H := mul_nonneg hy0 hH
  have hT0 : 0 ≤ H + lam.val := by linarith
  have hyT0 : 0 ≤ y * (H + lam.val) := mul_nonneg hy0 hT0
  have hyHT : y * H ≤ y * (H + lam.val) := mul_le_mul_of_nonneg_left (by linarith) hy0
  have hyyT : y * (y * (H + lam.val)) ≤ 1 / 40 * (y * (H + lam.val)) := mul_le_mul_of_nonneg_right hy hyT0
  have gE := abs_le.1 hlgE
  have hE := abs_le.1 hlhE
  have tgE := abs_le.1 htg
  have thE := abs_le.1 hth
  have gl := abs_le.1 hgl
  have gr := abs_le.1 hgr
  -- the gradients on the right
  have hrg : |(tg - lg).val - GR| ≤ 5 * y * S := by
    have r := hA.sub tg.val lg.val tg.rep lg.rep
    have b : |tg.val - lg.val| ≤ S + 2 * (y * S) := by
      rw [abs_le]; simp only [S] at *; constructor <;> linarith
    have r' : |R.rnd (tg.val - lg.val) - (tg.val - lg.val)| ≤ y * (S + 2 * (y * S)) := r.trans (mul_le_mul hey b (abs_nonneg _) hy0)
    have r'' := abs_le.1 r'
    have e : y * (S + 2 * (y * S)) = y * S + 2 * (y * (y * S)) := by ring
    rw [Fl.val_sub, abs_le]
    rw [e] at r''
    constructor <;> linarith
  have hrh : |(th - lh).val - HR| ≤ 7 / 2 * (y * H) := by
    have r := hA.sub th.val lh.val th.rep lh.rep
    have b : |th.val - lh.val| ≤ H + 2 * (y * H) := by
      rw [abs_le]; simp only [H] at *; constructor <;> linarith
    have r' : |R.rnd (th.val - lh.val) - (th.val - lh.val)| ≤ y * (H + 2 * (y * H)) := r.trans (mul_le_mul hey b (abs_nonneg _) hy0)
    have r'' := abs_le.1 r'
    have e : y * (H + 2 * (y * H)) = y * H + 2 * (y * (y * H)) := by ring
    have hyyH : y * (y * H) ≤ 1 / 40 * (y * H) := mul_le_mul_of_nonneg_right hy hyH
    rw [Fl.val_sub, abs_le]
    rw [e] at r''
    constructor <;> linarith
  have addl : ∀ (d : Fl R) (e : K), 0 ≤ e → e ≤ H → |d.val - e| ≤ 7 / 2 * (y * H) → |(d + lam).val - (e + lam.val)| ≤ 5 * y * (H + lam.val) := by
    intro d e h0 h1 h2
    have r := hA d.val lam.val d.rep lam.rep
    have h2' := abs_le.1 h2
    have b : |d.val + lam.val| ≤ (H + lam.val) + 7 / 2 * (y * (H + lam.val)) := by
      rw [abs_le]; constructor <;> linarith
    have r' := abs_le.1 (r.trans (mul_le_mul hey b (abs_nonneg _) hy0))
    have e' : y * ((H + lam.val) + 7 / 2 * (y * (H + lam.val))) = y * (H + lam.val) + 7 / 2 * (y * (y * (H + lam.val))) := by ring
    rw [e'] at r'
    rw [Fl.val_add, abs_le]
    constructor <;> linarith
  have dL := addl lh HL hH1 (by simp only [H]; linarith) (hlhE.trans (by linarith))
  have dR := addl (th - lh) HR hH2 (by simp only [H]; linarith) hrh
  have dT := addl th H hH le_rfl (hth.trans (by linarith))
  have hmT : m ≤ H + lam.val := by simp only [H]; linarith
  have hxT : 5 * y * (H + lam.val) ≤ m / 4 := by linarith
  have big : ∀ (d : Fl R) (e : K), m ≤ e → |d.val - e| ≤ 5 * y * (H + lam.val) → ¬ d < L.minHess := by
    intro d e h1 h2
    have := (abs_le.1 h2).1
    rw [not_lt]
    show L.minHess.val ≤ d.val
    linarith
  rw [if_neg (by
    rintro (h | h | h)
    · exact big _ _ hml dL h
    · exact big _ _ hmr dR h
    · exact big _ _ hmT dT h)]
  rw [if_neg (by simp), if_neg (show ¬ (0 : Fl R) < hb.alpha from not_lt.2 ha)]
  have hx8 : 5 * y ≤ 1 / 8 := by linarith
  have hex : eps ≤ 5 * y := by linarith
  obtain ⟨t1, u1⟩ := quotient_error he hη hR hex hx8 hS hm hmT hxT GL (HL + lam.val) lg (lh + lam) (hgl.trans (by simp only [S]; linarith)) (hlgE.trans (by linarith)) hml dL
  obtain ⟨t2, u2⟩ := quotient_error he hη hR hex hx8 hS hm hmT hxT GR (HR + lam.val) (tg - lg) (th - lh + lam) (hgr.trans (by simp only [S]; linarith)) hrg hmr dR
  obtain ⟨t3, u3⟩ := quotient_error he hη hR hex hx8 hS hm hmT hxT (GL + GR) (H + lam.val) tg (th + lam) hgt (htg.trans (by linarith)) hmT dT
  have hnu : eta ≤ 2 * eta / m + eta := by
    have : 0 ≤ 2 * eta / m := by positivity
    linarith
  have hd : ∀ a e : K, m ≤ e → 0 ≤ a ^ 2 / e := fun a e h => div_nonneg (sq_nonneg a) (hm.le.trans h)
  have fin := gain_terms_error he hη hR hA hex hx8 hnu L.half _ _ _ hhalf _ _ _ t1 t2 t3 (hd _ _ hml) (hd _ _ hmr) (hd _ _ hmT) u1 u2 u3
  have e5 : 24 * (5 * y) * (S ^ 2 * (H + lam.val) / m ^ 2) = 120 * y * (S ^ 2 * (H + lam.val) / m ^ 2) := by ring
  rw [e5] at fin
  exact fin

/-- what is known of the histogram of a node: hessians that are not negative, totals within `y` of the sums of the bins (relatively to the absolute sums),
every boundary leaving at least `m` of hessian (with the regularisation) on both sides, and `y` small against `m` -/
structure WellConditioned (lambda : K) (bins : List (Bin (Fl R))) (tg th : Fl R) (y m : K) : Prop where
  hess : ∀ b ∈ bins, 0 ≤ b.hess.val
  totalGrad : |tg.val - binSum (·.grad) bins| ≤ y * gradMass bins
  totalHess : |th.val - binSum (·.hess) bins| ≤ y * binSum (·.hess) bins
  pos : 0 < m
  small : y ≤ 1 / 40 ∧ 20 * y * (binSum (·.hess) bins + lambda) ≤ m
  left : ∀ i < bins.length - 1, m ≤ binSum (·.hess) (bins.take (i + 1)) + lambda
  right : ∀ i < bins.length - 1, m ≤ binSum (·.hess) (bins.drop (i + 1)) + lambda

/-- **C312**: with every operation rounded, the split found in the histogram of a node is within `2 E` of the best: its true gain is at most `2 E` below that
of any boundary with enough rows on both sides, and the gain reported is within `E` of its true gain; when no split is reported no such boundary has a true
gain above `E`. `E` is 120 times the error of the sums, times (sum of absolute gradients)² · (total hessian + λ) / m². -/
theorem split_near_best (he : 0 ≤ eps) (hη : 0 ≤ eta) (hR : R.Accurate eps eta) (hA : R.AddAccurate eps) (hb : Builder (Fl R)) (L : Lits (Fl R))
    (hhalf : L.half.val = 1 / 2) (ha : hb.alpha.val ≤ 0) (hl : 0 ≤ hb.lambda.val) (H : Hist.Hist (Fl R)) (tg th : Fl R) (minData : Int) {y m : K}
    (hey : eps ≤ y) (hpow : (1 + eps) ^ H.bins.length - 1 ≤ y) (hmin : L.minHess.val ≤ m / 2) (hw : WellConditioned hb.lambda.val H.bins tg th y m) :
    ∃ E : K, E = 120 * y * (gradMass H.bins ^ 2 * (binSum (·.hess) H.bins + hb.lambda.val) / m ^ 2) + 4 * (2 * eta / m + eta) ∧
      ((hb.findSplit L (fun _ => false) H tg th minData = noSplit H.feature 0 ∧
          ∀ j < H.bins.length - 1, Admissible H.bins minData j → exactBinGain hb.lambda.val H.bins j ≤ E) ∨
        ∃ (i : Nat) (b : Bin (Fl R)), i < H.bins.length - 1 ∧ H.bins[i]? = some b ∧ Admissible H.bins minData i ∧
          (hb.findSplit L (fun _ => false) H tg th minData).threshold = b.hi ∧
          |(hb.findSplit L (fun _ => false) H tg th minData).gain.val - exactBinGain hb.lambda.val H.bins i| ≤ E ∧
          ∀ j < H.bins.length - 1, Admissible H.bins minData j → exactBinGain hb.lambda.val H.bins j ≤ exactBinGain hb.lambda.val H.bins i + 2 * E) := by
  refine ⟨_, rfl, ?_⟩
  have err : ∀ i < H.bins.length - 1, _ := fun i hi => abs_le.1 (gainAt_error he hη hR hA hb L hhalf ha hl H.bins hw.hess tg th hey hw.small.1 hpow
    hw.totalGrad hw.totalHess hw.pos hmin hw.small.2 i (hw.left i hi) (hw.right i hi))
  rcases split_is_best hb L (fun _ => false) H tg th minData with ⟨e, hmax⟩ | ⟨i, hi, hadm, -, e, hmax, -⟩
  · refine Or.inl ⟨e, fun j hj hadm => ?_⟩
    have h1 : (gainAt hb L (fun _ => false) H.bins tg th j).val ≤ 0 := hmax j hj hadm
    have h2 := (err j hj).1
    linarith
  · refine Or.inr ⟨i, H.bins[i]'(by omega), hi, List.getElem?_eq_getElem (by omega), hadm, ?_, ?_, fun j hj hadm => ?_⟩
    · rw [e]
      show (Option.map (·.hi) H.bins[i]?).getD 0 = _
      rw [List.getElem?_eq_getElem (show i < H.bins.length by omega)]
      rfl
    · rw [e]
      exact abs_le.2 (err i hi)
    · have h1 : (gainAt hb L (fun _ => false) H.bins tg th j).val ≤ (gainAt hb L (fun _ => false) H.bins tg th i).val := hmax j hj hadm
      have h2 := (err j hj).1
      have h3 := (err i hi).2
      linarith

open Binary64 in
/-- **C312** (what holds in float64): a histogram of at most 2^16 bins; `y` bounds the error of the node's totals and is at least 2^-36 -/
theorem split_near_best_float_partial (hb : Builder (Fl rounding)) (L : Lits (Fl rounding)) (hhalf : L.half.val = 1 / 2) (ha : hb.alpha.val ≤ 0)
    (hl : 0 ≤ hb.lambda.val) (H : Hist.Hist (Fl rounding)) (hlen : H.bins.length ≤ 2 ^ 16) (tg th : Fl rounding) (minData : Int) {y m : ℚ}
    (hy : 1 / 2 ^ 36 ≤ y) (hmin : L.minHess.val ≤ m / 2) (hw : WellConditioned hb.lambda.val H.bins tg th y m) :
    ∃ E : ℚ, E = 120 * y * (gradMass H.bins ^ 2 * (binSum (·.hess) H.bins + hb.lambda.val) / m ^ 2) + 4 * (2 * (1 / 2 ^ 1075) / m + 1 / 2 ^ 1075) ∧
      ((hb.findSplit L (fun _ => false) H tg th minData = noSplit H.feature 0 ∧
          ∀ j < H.bins.length - 1, Admissible H.bins minData j → exactBinGain hb.lambda.val H.bins j ≤ E) ∨
        ∃ (i : Nat) (b : Bin (Fl rounding)), i < H.bins.length - 1 ∧ H.bins[i]? = some b ∧ Admissible H.bins minData i ∧
          (hb.findSplit L (fun _ => false) H tg th minData).threshold = b.hi ∧
          |(hb.findSplit L (fun _ => false) H tg th minData).gain.val - exactBinGain hb.lambda.val H.bins i| ≤ E ∧
          ∀ j < H.bins.length - 1, Admissible H.bins minData j → exactBinGain hb.lambda.val H.bins j ≤ exactBinGain hb.lambda.val H.bins i + 2 * E) := by
  have hnK : (H.bins.length : ℚ) ≤ 2 ^ 16 := by exact_mod_cast hlen
  have h16 : (2 : ℚ) ^ 16 = 65536 := by norm_num
  have h53 : (2 : ℚ) ^ 53 = 9007199254740992 := by norm_num
  have h36 : (2 : ℚ) ^ 36 = 68719476736 := by norm_num
  have hn0 : (0 : ℚ) ≤ H.bins.length := by positivity
  have hp : (1 + (1 : ℚ) / 2 ^ 53) ^ H.bins.length - 1 ≤ y := by
    have h := pow_sub_one_le (K := ℚ) (eps := 1 / 2 ^ 53) (by positivity) H.bins.length (by rw [h53]; rw [h16] at hnK; linarith)
    refine h.trans (le_trans ?_ hy)
    rw [h53, h36]; rw [h16] at hnK; linarith
  exact split_near_best (by positivity) (by positivity) accurate add_accurate hb L hhalf ha hl H tg th minData
    (le_trans (by rw [h53, h36]; norm_num) hy) hp hmin hw

open Binary64 in
/-- three bins whose gradients are 2^53, 1 and -2^53; the second has no hessian (data for sklearn/lightgbm/histogram_optimization.go:286-348) -/
def lostBins : Hist.Hist (Fl rounding) :=
  ⟨0, [⟨lit 0, lit 1, 1, lit (2 ^ 53), lit 1⟩, ⟨lit 1, lit 2, 1, lit 1, lit 0⟩, ⟨lit 2, lit 3, 1, lit (-2 ^ 53), lit 1⟩], []⟩

open Binary64 in
/-- the literals 1e-10, 1e-16 and 0.5 (data for sklearn/lightgbm/histogram_optimization.go:286-455) -/
def lits : Lits (Fl rounding) := ⟨lit (1 / 10 ^ 10), lit (1 / 10 ^ 16), lit (1 / 2)⟩

open Binary64 in
/-- **C312** (negation): the split returned is not always the best one: here the second boundary has the larger gain and the first is returned -/
theorem split_not_best_float :
    ((⟨255, 0, 0⟩ : Builder (Fl rounding)).findSplit lits (fun _ => false) lostBins 0 (lit 2) 1).threshold = lit 1 ∧
      Admissible lostBins.bins 1 0 ∧ Admissible lostBins.bins 1 1 ∧ exactBinGain 0 lostBins.bins 0 + 2 ^ 52 < exactBinGain 0 lostBins.bins 1 := by
  refine ⟨by decide +kernel, ⟨by decide +kernel, by decide +kernel⟩, ⟨by decide +kernel, by decide +kernel⟩, ?_⟩
  have a1 : binSum (·.grad) (lostBins.bins.take 1) = 2 ^ 53 := by decide +kernel
  have a2 : binSum (·.grad) (lostBins.bins.take 2) = 2 ^ 53 + 1 := by decide +kernel
  have b1 : binSum (·.grad) (lostBins.bins.drop 1) = 1 - 2 ^ 53 := by decide +kernel
  have b2 : binSum (·.grad) (lostBins.bins.drop 2) = -2 ^ 53 := by decide +kernel
  have c1 : binSum (·.hess) (lostBins.bins.take 1) = 1 := by decide +kernel
  have c2 : binSum (·.hess) (lostBins.bins.take 2) = 1 := by decide +kernel
  have d1 : binSum (·.hess) (lostBins.bins.drop 1) = 1 := by decide +kernel
  have d2 : binSum (·.hess) (lostBins.bins.drop 2) = 1 := by decide +kernel
  unfold exactBinGain
  rw [a1, a2, b1, b2, c1, c2, d1, d2]
  norm_num
  linarith

open Binary64 in
/-- three bins with small gradients (data for the example below; cf. sklearn/lightgbm/histogram_optimization.go:286-348) -/
def plainBins : Hist.Hist (Fl rounding) :=
  ⟨0, [⟨lit 0, lit 1, 1, lit 1, lit 1⟩, ⟨lit 1, lit 2, 1, lit 2, lit 1⟩, ⟨lit 2, lit 3, 1, lit (-3), lit 1⟩], []⟩

open Binary64 in
example : WellConditioned (R := rounding) (1 : ℚ) plainBins.bins 0 (lit 3) (1 / 2 ^ 36) 2 ∧ lits.minHess.val ≤ (2 : ℚ) / 2 ∧ lits.half.val = 1 / 2 ∧
    ((⟨255, 1, 0⟩ : Builder (Fl rounding)).findSplit lits (fun _ => false) plainBins 0 (lit 3) 1).threshold = lit 2 := by
  refine ⟨⟨by decide +kernel, by decide +kernel, by decide +kernel, by decide +kernel, by decide +kernel, by decide +kernel, by decide +kernel⟩,
    by decide +kernel, by decide +kernel, by decide +kernel⟩

end Scigo.Round
