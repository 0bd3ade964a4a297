import Verif.Round.StartProps
import Verif.Metrics.Model
import Verif.NonFinite.MetricsProps

/-!
# C320: the log loss with every operation rounded

In exact arithmetic the log loss is the mean of the costs of the rows and does not change when both classes are swapped
(labels and probabilities). In float64 `1 - (1 - 1e-15)` is not `1e-15`, so a wrong certain prediction of the class 1 costs more than one of
the class 0. Here: that witness, the accuracy and the range of the loss, and when swapping the classes is exact.
-/

set_option linter.unusedSectionVars false

namespace Scigo.Round

open Scigo.Metrics

section
variable {K : Type} [Field K] [LinearOrder K] [IsStrictOrderedRing K] {R : Rounding K} {eps eta : K}

/-- the probability that the clipped prediction `p` gives to the label `y`, with the subtraction rounded (specification for metrics/classification.go:269-281) -/
def given (e : Fl R) (x : Fl R × Fl R) : Fl R := if x.1 = 1 then clipProb e x.2 else 1 - clipProb e x.2

/-- the clipping bounds make sense: `0 < e ≤ 1 - e` and `1 - (1 - e)` is not rounded to 0 -/
structure Clip (e : Fl R) : Prop where
  pos : 0 < e
  half : e ≤ 1 - e
  gap : 0 < 1 - (1 - e)

theorem clip_range {e : Fl R} (h : Clip e) (p : Fl R) : e ≤ clipProb e p ∧ clipProb e p ≤ 1 - e := by
  unfold clipProb
  split
  · exact ⟨le_rfl, h.half⟩
  · rename_i h1
    split
    · exact ⟨h.half, le_rfl⟩
    · rename_i h2
      exact ⟨not_lt.1 h1, not_lt.1 h2⟩

/-- the least probability that a label can get: `e` for the label 1, `1 - (1 - e)` for the label 0 -/
theorem given_range {e : Fl R} (h : Clip e) (x : Fl R × Fl R) : min e (1 - (1 - e)) ≤ given e x ∧ given e x ≤ 1 - e ∧ 0 < given e x := by
  obtain ⟨h1, h2⟩ := clip_range h x.2
  unfold given
  split
  · exact ⟨(min_le_left _ _).trans h1, h2, lt_of_lt_of_le h.pos h1⟩
  · have h3 : 1 - (1 - e) ≤ 1 - clipProb e x.2 := Fl.sub_le le_rfl h2
    exact ⟨(min_le_right _ _).trans h3, Fl.sub_le le_rfl h1, lt_of_lt_of_le h.gap h3⟩

/-- on binary labels the loop adds up the costs -/
theorem loop_sum (log : Fl R → Fl R) (e big : Fl R) (he : Clip e) (z : List (Fl R × Fl R)) (hz : ∀ x ∈ z, x.1 = 0 ∨ x.1 = 1) (s : Fl R) :
    logLossLoop log e big z s = .ok (z.foldl (fun s x => s + -(log (given e x))) s) := by
  induction z generalizing s with
  | nil => rfl
  | cons x z ih =>
    obtain ⟨y, p⟩ := x
    have hy := hz (y, p) (List.mem_cons_self ..)
    have hsub : ∀ a b : Fl R, a - b = a + -b := fun a b => Fl.ext (by rw [Fl.val_sub, Fl.val_add, Fl.val_neg, sub_eq_add_neg])
    have hpos := (given_range he (y, p)).2.2
    have hsafe : logSafe log big (given e (y, p)) = log (given e (y, p)) := by
      unfold logSafe
      rw [if_neg (not_le.2 hpos)]
    have hnb : notBinary y = false := by
      unfold notBinary
      rcases hy with h | h
      · simp [show y = 0 from h]
      · simp [show y = 1 from h]
    unfold logLossLoop
    rw [hnb, if_neg Bool.false_ne_true]
    dsimp only
    rw [List.foldl_cons]
    by_cases h1 : y = 1
    · have hg : given e (y, p) = clipProb e p := if_pos h1
      rw [if_pos (by simpa using h1), ih fun x hx => hz x (List.mem_cons_of_mem _ hx), hsub, ← hsafe, hg]
    · have hg : given e (y, p) = 1 - clipProb e p := if_neg h1
      rw [if_neg (by simpa using h1), ih fun x hx => hz x (List.mem_cons_of_mem _ hx), hsub, ← hsafe, hg]

/-- the exact mean of the costs of the rows, for the computed logarithms (specification for metrics/classification.go:254-285) -/
def meanCost (log : Fl R → Fl R) (e : Fl R) (t p : List (Fl R)) : K := listMean ((t.zip p).map fun x => -(log (given e x)).val)

/-- **C320**: with every operation rounded the log loss of valid vectors is not negative and differs from the mean cost of the rows by about the number of rows
plus one relative errors -/
theorem log_loss_error (he : 0 ≤ eps) (hR : R.Accurate eps eta) (hA : R.AddAccurate eps) (log : Fl R → Fl R)
    (hlog : ∀ x, 0 < x → x ≤ 1 → log x ≤ 0) (e big : Fl R) (hc : Clip e) (t p : List (Fl R)) (ht : t ≠ []) (hl : t.length = p.length)
    (hb : ∀ y ∈ t, y = 0 ∨ y = 1) (hN : ((t.length : Nat) : Fl R).val = t.length) :
    ∃ v, binaryLogLoss log e big (some t) (some p) = .ok v ∧ 0 ≤ v ∧ 0 ≤ meanCost log e t p ∧
      |v.val - meanCost log e t p| ≤ ((1 + eps) ^ (t.length + 1) - 1) * meanCost log e t p + eta := by
  set z := t.zip p with hzdef
  have hzl : z.length = t.length := by rw [hzdef, List.length_zip, ← hl, min_self]
  have hz : ∀ x ∈ z, x.1 = 0 ∨ x.1 = 1 := fun x hx => hb _ (List.of_mem_zip hx).1
  have hcost : ∀ x : Fl R × Fl R, 0 ≤ -(log (given e x)).val := by
    intro x
    obtain ⟨-, h2, h3⟩ := given_range hc x
    have h1e : (1 : Fl R) - e ≤ 1 := by
      have : (1 : Fl R) - e ≤ 1 - 0 := Fl.sub_le le_rfl hc.pos.le
      rwa [Fl.sub_zero'] at this
    have := hlog _ h3 (h2.trans h1e)
    have : (log (given e x)).val ≤ 0 := this
    linarith
  have hv : binaryLogLoss log e big (some t) (some p) = .ok (sumOver z (fun x => -(log (given e x))) / ((z.length : Nat) : Fl R)) := by
    unfold binaryLogLoss clsGuard
    dsimp only
    rw [if_neg (by simpa using ht), if_neg (not_not.2 hl), ← hzdef, loop_sum log e big hc z hz]
    rfl
  have hsum0 : 0 ≤ sumOver z (fun x => -(log (given e x))) := by
    unfold sumOver
    have : ∀ (z : List (Fl R × Fl R)) (s : Fl R), 0 ≤ s → 0 ≤ z.foldl (fun s x => s + -(log (given e x))) s := by
      intro z
      induction z with
      | nil => exact fun s h => h
      | cons x z ih => exact fun s h => ih _ (Fl.add_nonneg' h (hcost x))
    exact this z 0 le_rfl
  have hn0 : (0 : Fl R) ≤ ((z.length : Nat) : Fl R) := by
    rw [hzl]
    show (0 : K) ≤ ((t.length : Nat) : Fl R).val
    rw [hN]
    exact Nat.cast_nonneg _
  have habs : ((z.map fun x => -(log (given e x))).map fun x => |x.val|) = z.map fun x => -(log (given e x)).val := by
    rw [List.map_map]
    exact List.map_congr_left fun x _ => abs_of_nonneg (hcost x)
  have hval : ((z.map fun x => -(log (given e x))).map Fl.val) = z.map fun x => -(log (given e x)).val := by
    rw [List.map_map]
    rfl
  have hm := mean_list_error he hR hA ⟨id, id, fun a _ => a, id, id, fun _ => false, fun n : Nat => (n : Fl R), 0, 0, 0, 0, 0⟩ (z.map fun x => -(log (given e x)))
    (by intro h; exact ht (List.length_eq_zero_iff.1 (by rw [← hzl, ← List.length_map (f := fun x => -(log (given e x))), h]; rfl)))
    (by rw [List.length_map, hzl]; exact hN)
  have hme : ∀ N : Online.Num (Fl R), N.ofNat = (fun n : Nat => (n : Fl R)) → Boost.meanOf N (z.map fun x => -(log (given e x))) = sumOver z (fun x => -(log (given e x))) / ((z.length : Nat) : Fl R) := by
    intro N hN'
    unfold Boost.meanOf sumOver
    rw [hN', List.foldl_map, List.length_map]
  rw [hme _ rfl, hval, habs, List.length_map, hzl] at hm
  refine ⟨_, hv, Fl.div_nonneg' hsum0 hn0, ?_, by rw [hzl]; exact hm⟩
  unfold meanCost listMean
  exact div_nonneg (List.sum_nonneg fun a ha => by obtain ⟨x, -, rfl⟩ := List.mem_map.1 ha; exact hcost x) (Nat.cast_nonneg _)

/-- **C320**: no row costs more than the dearer of the two wrong certain predictions, and the mean cost is at most that -/
theorem mean_cost_bound (log : Fl R → Fl R) (hmono : ∀ x y, 0 < x → x ≤ y → log x ≤ log y) (e : Fl R) (hc : Clip e) (t p : List (Fl R)) (ht : t ≠ [])
    (hl : t.length = p.length) : meanCost log e t p ≤ max (-(log e).val) (-(log (1 - (1 - e))).val) := by
  have hn : (0 : K) < ((t.zip p).map fun x => -(log (given e x)).val).length := by
    rw [List.length_map, List.length_zip, ← hl, min_self]
    exact Nat.cast_pos.2 (List.length_pos_iff.2 ht)
  unfold meanCost listMean
  rw [div_le_iff₀ hn, mul_comm, ← nsmul_eq_mul]
  refine List.sum_le_card_nsmul _ _ fun a ha => ?_
  obtain ⟨x, -, rfl⟩ := List.mem_map.1 ha
  obtain ⟨h1, -, -⟩ := given_range hc x
  have h0 : 0 < min e (1 - (1 - e)) := lt_min hc.pos hc.gap
  have h2 : (log (min e (1 - (1 - e)))).val ≤ (log (given e x)).val := hmono _ _ h0 h1
  rcases min_choice e (1 - (1 - e)) with hm | hm
  · rw [hm] at h2
    exact le_max_of_le_left (by linarith)
  · rw [hm] at h2
    exact le_max_of_le_right (by linarith)

/-- **C320** (part): when all predictions and their complements are within the clipping bounds and the complements are exact, swapping the classes does not change
the loss, bit for bit -/
theorem swap_classes_partial (log : Fl R → Fl R) (e big : Fl R) (hc : Clip e) (t p : List (Fl R)) (hl : t.length = p.length) (hb : ∀ y ∈ t, y = 0 ∨ y = 1)
    (hp : ∀ q ∈ p, e ≤ q ∧ q ≤ 1 - e ∧ e ≤ 1 - q ∧ 1 - q ≤ 1 - e ∧ 1 - (1 - q) = q) :
    binaryLogLoss log e big (some (t.map fun y => 1 - y)) (some (p.map fun q => 1 - q)) = binaryLogLoss log e big (some t) (some p) := by
  have h01 : (1 : Fl R) - 0 = 1 := Fl.sub_zero' _
  have h11 : (1 : Fl R) - 1 = 0 := Fl.sub_self' _
  have hne : (0 : Fl R) ≠ 1 := fun h => zero_ne_one (congrArg Fl.val h)
  unfold binaryLogLoss clsGuard
  dsimp only
  rw [List.length_map, List.length_map]
  split
  · rfl
  rw [if_neg (not_not.2 hl), if_neg (not_not.2 hl), List.zip_map]
  rw [loop_sum log e big hc _ (by
      intro x hx
      obtain ⟨w, hw, rfl⟩ := List.mem_map.1 hx
      rcases hb _ (List.of_mem_zip hw).1 with h | h
      · right; simp only [Prod.map]; rw [h, h01]
      · left; simp only [Prod.map]; rw [h, h11]),
    loop_sum log e big hc _ (fun x hx => hb _ (List.of_mem_zip hx).1), List.foldl_map, List.length_map]
  have hclip : ∀ q : Fl R, e ≤ q → q ≤ 1 - e → clipProb e q = q := by
    intro q h1 h2
    unfold clipProb
    rw [if_neg (not_lt.2 h1), if_neg (not_lt.2 h2)]
  have hgiven : ∀ x ∈ t.zip p, given e (Prod.map (fun y => 1 - y) (fun q => 1 - q) x) = given e x := by
    intro x hx
    obtain ⟨q1, q2, q3, q4, q5⟩ := hp _ (List.of_mem_zip hx).2
    unfold given
    simp only [Prod.map]
    rw [hclip _ q1 q2, hclip _ q3 q4, q5]
    rcases hb _ (List.of_mem_zip hx).1 with h | h
    · rw [h, h01, if_pos rfl, if_neg hne]
    · rw [h, h11, if_pos rfl, if_neg hne]
  have hf : ∀ (z : List (Fl R × Fl R)) (s : Fl R), (∀ x ∈ z, given e (Prod.map (fun y => 1 - y) (fun q => 1 - q) x) = given e x) →
      z.foldl (fun s x => s + -(log (given e (Prod.map (fun y => 1 - y) (fun q => 1 - q) x)))) s = z.foldl (fun s x => s + -(log (given e x))) s := by
    intro z
    induction z with
    | nil => exact fun _ _ => rfl
    | cons x z ih =>
      intro s h
      rw [List.foldl_cons, List.foldl_cons, h x (List.mem_cons_self ..)]
      exact ih _ fun y hy => h y (List.mem_cons_of_mem _ hy)
  rw [hf _ _ hgiven]

end

open Binary64 in
/-- `1e-15` as a float64 (metrics/classification.go:253) -/
def tiny : Fl rounding := lit (1 / 10 ^ 15)

open Binary64 in
/-- the code's `1e-15` makes sense as a clipping bound, but `1 - (1 - 1e-15)` is `9 / 2^53`, less than `1e-15` -/
theorem tiny_clip : Clip tiny ∧ ((1 : Fl rounding) - (1 - tiny)).val = 9 / 2 ^ 53 ∧ (1 : Fl rounding) - (1 - tiny) < tiny := by
  refine ⟨⟨?_, ?_, ?_⟩, ?_, ?_⟩ <;> decide +kernel

open Binary64 in
/-- **C320**, negation: whatever the logarithm, if it tells `9 / 2^53` from `1e-15` the wrong certain predictions of the two classes cost differently, so swapping the
classes changes the loss -/
theorem swap_classes_changes (log : Fl rounding → Fl rounding) (big : Fl rounding) (hlog : log (1 - (1 - tiny)) ≠ log tiny) :
    binaryLogLoss log tiny big (some [1]) (some [0]) = .ok (-(log tiny)) ∧
      binaryLogLoss log tiny big (some [1 - 1]) (some [1 - 0]) = .ok (-(log (1 - (1 - tiny)))) ∧
      binaryLogLoss log tiny big (some [1 - 1]) (some [1 - 0]) ≠ binaryLogLoss log tiny big (some [1]) (some [0]) := by
  have key : ∀ y p : Fl rounding, (y = 0 ∨ y = 1) → binaryLogLoss log tiny big (some [y]) (some [p]) = .ok (-(log (given tiny (y, p)))) := by
    intro y p hy
    unfold binaryLogLoss clsGuard
    dsimp only
    rw [if_neg (by simp), if_neg (by simp)]
    show (logLossLoop log tiny big [(y, p)] 0).bind _ = _
    rw [loop_sum log tiny big tiny_clip.1 [(y, p)] (by intro x hx; rw [List.mem_singleton.1 hx]; exact hy)]
    show Outcome.ok ((0 + -(log (given tiny (y, p)))) / ((1 : Nat) : Fl rounding)) = _
    have h1 : ((1 : Nat) : Fl rounding) = 1 := by decide +kernel
    rw [h1, Fl.div_one', Fl.zero_add']
  have g1 : given tiny ((1 : Fl rounding), 0) = tiny := by decide +kernel
  have g2 : given tiny ((1 - 1 : Fl rounding), 1 - 0) = 1 - (1 - tiny) := by decide +kernel
  have h1 := key 1 0 (Or.inr rfl)
  have h2 := key (1 - 1) (1 - 0) (Or.inl (by decide +kernel))
  rw [g1] at h1
  rw [g2] at h2
  refine ⟨h1, h2, ?_⟩
  rw [h1, h2]
  intro h
  have h3 := congrArg Fl.val (Outcome.ok.inj h)
  rw [Fl.val_neg, Fl.val_neg] at h3
  exact hlog (Fl.ext (neg_injective h3))

open Binary64 in
/-- a logarithm meeting the hypotheses, and predictions for which swapping is exact -/
example : (∃ log : Fl rounding → Fl rounding, (∀ x, 0 < x → x ≤ 1 → log x ≤ 0) ∧ (∀ x y, 0 < x → x ≤ y → log x ≤ log y) ∧ log (1 - (1 - tiny)) ≠ log tiny) ∧
    (∀ q ∈ [lit (1 / 4), lit (3 / 4)], tiny ≤ q ∧ q ≤ 1 - tiny ∧ tiny ≤ 1 - q ∧ 1 - q ≤ 1 - tiny ∧ 1 - (1 - q) = q) := by
  have h10 : (-1 : Fl rounding) ≤ 0 := by decide +kernel
  refine ⟨⟨fun x => if x < tiny then -1 else 0, fun x _ _ => ?_, fun x y _ h => ?_, by decide +kernel⟩, by decide +kernel⟩
  · dsimp only
    split
    · exact h10
    · exact le_rfl
  · dsimp only
    split
    · split
      · exact le_rfl
      · exact h10
    · rename_i hx
      rw [if_neg fun hy => hx (lt_of_le_of_lt h hy)]

end Scigo.Round

namespace Scigo.NonFinite

open Scigo.Metrics F64

/-- **C320**: a prediction that is not a number is not hidden: the loss is NaN -/
theorem log_loss_missing (log : F64 → F64) (hlog : log nan = nan) (e big : F64) (t p : List F64) (ht : t ≠ []) (hl : t.length = p.length)
    (hb : ∀ y ∈ t, notBinary y = false) (hn : nan ∈ p) : binaryLogLoss log e big (some t) (some p) = .ok nan := by
  have hloop : ∀ (z : List (F64 × F64)) (s : F64), (∀ x ∈ z, notBinary x.1 = false) → (s = nan ∨ ∃ x ∈ z, x.2 = nan) →
      logLossLoop log e big z s = .ok nan := by
    intro z
    induction z with
    | nil =>
      intro s _ h
      rcases h with rfl | ⟨x, hx, -⟩
      · rfl
      · cases hx
    | cons x z ih =>
      intro s hz h
      obtain ⟨y, q⟩ := x
      unfold logLossLoop
      rw [hz _ (List.mem_cons_self ..), if_neg Bool.false_ne_true]
      dsimp only
      have hz' : ∀ x ∈ z, notBinary x.1 = false := fun x hx => hz x (List.mem_cons_of_mem _ hx)
      have hclip : clipProb e nan = nan := by
        unfold clipProb
        rw [if_neg (not_nan_lt _), if_neg (not_lt_nan _)]
      have hsafe : logSafe log big nan = nan := by
        unfold logSafe
        rw [if_neg (not_nan_le _), hlog]
      rcases h with rfl | ⟨x, hx, hxn⟩
      · split
        · exact ih _ hz' (Or.inl (nan_sub _))
        · exact ih _ hz' (Or.inl (nan_sub _))
      · rcases List.mem_cons.1 hx with rfl | hx
        · have hq : q = nan := hxn
          subst hq
          rw [hclip]
          split
          · exact ih _ hz' (Or.inl (by rw [hsafe, sub_nan]))
          · exact ih _ hz' (Or.inl (by rw [sub_nan, hsafe, sub_nan]))
        · split
          · exact ih _ hz' (Or.inr ⟨x, hx, hxn⟩)
          · exact ih _ hz' (Or.inr ⟨x, hx, hxn⟩)
  unfold binaryLogLoss clsGuard
  dsimp only
  rw [if_neg (by simpa using ht), if_neg (not_not.2 hl), hloop _ _ (fun x hx => hb _ (List.of_mem_zip hx).1) (Or.inr ?_)]
  · show Outcome.ok (nan / _) = _
    rw [nan_div]
  · obtain ⟨i, hi, e'⟩ := List.getElem_of_mem hn
    refine ⟨(t[i]'(by omega), p[i]), ?_, e'⟩
    have hi' : i < (t.zip p).length := by rw [List.length_zip]; omega
    have := List.getElem_mem hi'
    rwa [List.getElem_zip] at this

example : notBinary (0 : F64) = false ∧ notBinary (1 : F64) = false := by decide +kernel

end Scigo.NonFinite
