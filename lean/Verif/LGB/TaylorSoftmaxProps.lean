import Verif.LGB.TaylorProps
import Mathlib.Analysis.Complex.ExponentialBounds
import Mathlib.Tactic.Linarith

/-!
# C253: the multiclass probabilities of `Model.Predict`
-/

set_option linter.unusedSectionVars false

namespace Scigo.LGB

/-! ## Lemmas -/

theorem maxOf_greatest (l : List ℝ) (hl : l ≠ []) : maxOf l ∈ l ∧ ∀ v ∈ l, v ≤ maxOf l := by
  have h : ∀ (t : List ℝ) (a : ℝ), (t.foldl (fun m v => if m < v then v else m) a = a ∨ t.foldl (fun m v => if m < v then v else m) a ∈ t) ∧
      a ≤ t.foldl (fun m v => if m < v then v else m) a ∧ ∀ v ∈ t, v ≤ t.foldl (fun m v => if m < v then v else m) a := by
    intro t
    induction t with
    | nil => intro a; simp
    | cons b t ih =>
      intro a
      simp only [List.foldl_cons]
      by_cases hab : a < b
      · rw [if_pos hab]
        obtain ⟨i1, i2, i3⟩ := ih b
        refine ⟨.inr ?_, hab.le.trans i2, fun v hv => ?_⟩
        · rcases i1 with h | h
          · rw [h]; exact List.mem_cons_self
          · exact List.mem_cons_of_mem _ h
        · rcases List.mem_cons.1 hv with rfl | hv
          · exact i2
          · exact i3 v hv
      · rw [if_neg hab]
        obtain ⟨i1, i2, i3⟩ := ih a
        refine ⟨?_, i2, fun v hv => ?_⟩
        · rcases i1 with h | h
          · exact .inl h
          · exact .inr (List.mem_cons_of_mem _ h)
        · rcases List.mem_cons.1 hv with rfl | hv
          · exact (not_lt.1 hab).trans i2
          · exact i3 v hv
  cases l with
  | nil => exact absurd rfl hl
  | cons a t =>
    obtain ⟨i1, i2, i3⟩ := h t a
    refine ⟨?_, fun v hv => ?_⟩
    · rcases i1 with h | h
      · show t.foldl _ a ∈ _
        rw [h]; exact List.mem_cons_self
      · exact List.mem_cons_of_mem _ h
    · rcases List.mem_cons.1 hv with rfl | hv
      · exact i2
      · exact i3 v hv

theorem sumOver_real (l : List ℝ) : sumOver l id = l.sum := by rw [sumOver_eq, List.map_id]

/-- the weights of the classes before normalising: the one of a largest score is 1 -/
theorem weight_top (N : ENum ℝ) (hN : RealENum N) : taylorExp N 0 = 1 := by
  rw [taylorExp_eq N hN, if_neg (by norm_num), if_neg (by norm_num), series_zero]

theorem weights_sum (N : ENum ℝ) (hN : RealENum N) (l : List ℝ) (hl : l ≠ []) :
    1 ≤ (l.map (fun v => taylorExp N (v - maxOf l))).sum := by
  obtain ⟨hm, -⟩ := maxOf_greatest l hl
  have h1 : taylorExp N (maxOf l - maxOf l) ∈ l.map (fun v => taylorExp N (v - maxOf l)) := List.mem_map_of_mem hm
  rw [sub_self, weight_top N hN] at h1
  refine List.single_le_sum (fun x hx => ?_) _ h1
  obtain ⟨v, -, rfl⟩ := List.mem_map.1 hx
  exact taylorExp_nonneg N hN _

theorem softmax_at (N : ENum ℝ) (l : List ℝ) (j : Nat) (hj : j < l.length) :
    (softmaxWith (taylorExp N) l).getD j 0 = taylorExp N (l.getD j 0 - maxOf l) / (l.map (fun v => taylorExp N (v - maxOf l))).sum := by
  unfold softmaxWith
  simp only [sumOver_real]
  rw [List.getD_eq_getElem _ _ (by simpa using hj), List.getD_eq_getElem _ _ hj]
  simp

/-- the series decreases on `[0, 6]` in `-x` -/
theorem series20_anti : StrictAntiOn (fun x : ℝ => series 20 (-x)) (Set.Icc 0 6) := by
  have hd : ∀ x : ℝ, HasDerivAt (fun y => series 20 (-y)) (-(series 19 (-x))) x := series_neg_deriv 19
  refine strictAntiOn_of_deriv_neg (convex_Icc 0 6) (fun x _ => (hd x).continuousAt.continuousWithinAt) fun x hx => ?_
  rw [interior_Icc] at hx
  rw [(hd x).deriv]
  have e := (series_error 19 x hx.1.le).2
  norm_num at e
  have hf : ((20 : Nat).factorial : ℝ) = 2432902008176640000 := by norm_num [Nat.factorial]
  have h20 : x ^ 20 ≤ 6 ^ 20 := pow_le_pow_left₀ hx.1.le hx.2.le 20
  have h6 : (1 : ℝ) / 600 ≤ Real.exp (-x) := by
    have h1 : Real.exp 6 ≤ 600 := by
      have : Real.exp 6 = Real.exp 1 ^ 6 := by rw [← Real.exp_nat_mul]; norm_num
      rw [this]
      calc Real.exp 1 ^ 6 ≤ 2.7182818286 ^ 6 := pow_le_pow_left₀ (Real.exp_pos 1).le Real.exp_one_lt_d9.le 6
        _ ≤ 600 := by norm_num
    have h2 : Real.exp x ≤ 600 := (Real.exp_le_exp.2 hx.2.le).trans h1
    rw [Real.exp_neg, ← one_div]
    exact one_div_le_one_div_of_le (Real.exp_pos x) h2
  have h7 : x ^ 20 / ((20 : Nat).factorial : ℝ) < 1 / 600 := by
    rw [hf, div_lt_div_iff₀ (by norm_num) (by norm_num)]
    calc x ^ 20 * 600 ≤ 6 ^ 20 * 600 := by linarith
      _ < _ := by norm_num
  linarith

theorem weight_lt_one (N : ENum ℝ) (hN : RealENum N) (g : ℝ) (h0 : 0 < g) (h8 : g ≤ 8) : taylorExp N (-g) < 1 := by
  have h := ((model_probability_order_partial N hN g h8).1).2 h0
  unfold taylorSigmoid at h
  have hp := taylorExp_nonneg N hN (-g)
  rw [div_lt_div_iff₀ (by norm_num) (by linarith)] at h
  linarith

/-! ## Properties -/

/-- **C253** (exact arithmetic, every list of raw scores): what `Model.Predict` reports for a multiclass objective are probabilities — one per
class, between 0 and 1, adding up to 1; each is the share of a weight that is 1 for the classes of largest score, 0 for those more than 700 below
it, and for the others at least the exponential of the distance, by no more than `distance^21 / 21!`. -/
theorem multiclass_probabilities (N : ENum ℝ) (hN : RealENum N) (m : Model ℝ) (ho : m.objective = "multiclass") (l : List ℝ) (hl : l ≠ []) :
    (m.link N l).length = l.length ∧ (m.link N l).sum = 1 ∧ (∀ p ∈ m.link N l, 0 ≤ p ∧ p ≤ 1) ∧
    ∃ w : Nat → ℝ, (∀ j < l.length, (m.link N l).getD j 0 = w j / ((List.range l.length).map w).sum) ∧
      ∀ j < l.length, (maxOf l - l.getD j 0 = 0 → w j = 1) ∧ (700 < maxOf l - l.getD j 0 → w j = 0) ∧
        (maxOf l - l.getD j 0 ≤ 700 → Real.exp (-(maxOf l - l.getD j 0)) ≤ w j ∧
          w j ≤ Real.exp (-(maxOf l - l.getD j 0)) + (maxOf l - l.getD j 0) ^ 21 / (21 : Nat).factorial) := by
  have hlink : m.link N l = softmaxWith (taylorExp N) l := by
    unfold Model.link; rw [ho, if_neg (by decide), if_pos rfl]
  rw [hlink]
  have hs := weights_sum N hN l hl
  have hlen : (softmaxWith (taylorExp N) l).length = l.length := by simp [softmaxWith]
  have hsum : (softmaxWith (taylorExp N) l).sum = 1 := by
    unfold softmaxWith
    simp only [sumOver_real]
    generalize l.map (fun v => taylorExp N (v - maxOf l)) = e at *
    have : (e.map fun v => v / e.sum).sum = e.sum / e.sum := by
      rw [show (fun v : ℝ => v / e.sum) = fun v => v * (e.sum)⁻¹ from funext fun v => div_eq_mul_inv v _, List.sum_map_mul_right, List.map_id',
        div_eq_mul_inv]
    rw [this, div_self (by linarith)]
  have hnn : ∀ p ∈ softmaxWith (taylorExp N) l, 0 ≤ p := by
    intro p hp
    unfold softmaxWith at hp
    simp only [sumOver_real, List.mem_map] at hp
    obtain ⟨e, ⟨v, -, rfl⟩, rfl⟩ := hp
    exact div_nonneg (taylorExp_nonneg N hN _) (by linarith)
  refine ⟨hlen, hsum, fun p hp => ⟨hnn p hp, hsum ▸ List.single_le_sum hnn p hp⟩,
    fun j => taylorExp N (l.getD j 0 - maxOf l), fun j hj => ?_, fun j hj => ⟨fun h => ?_, fun h => ?_, fun h => ?_⟩⟩
  · rw [softmax_at N l j hj]
    congr 2
    apply List.ext_getElem (by simp)
    intro i h1 h2
    have hi : i < l.length := by simpa using h1
    simp [List.getElem?_eq_getElem hi]
  · show taylorExp N _ = 1
    rw [show l.getD j 0 - maxOf l = 0 by linarith, weight_top N hN]
  · show taylorExp N _ = 0
    rw [taylorExp_eq N hN, if_neg (by linarith), if_pos (by linarith)]
  · have hd : 0 ≤ maxOf l - l.getD j 0 := by
      have := (maxOf_greatest l hl).2 (l.getD j 0) (by rw [List.getD_eq_getElem _ _ hj]; exact List.getElem_mem hj)
      linarith
    show Real.exp _ ≤ taylorExp N _ ∧ taylorExp N _ ≤ _
    rw [taylorExp_eq N hN, if_neg (by linarith), if_neg (by linarith)]
    obtain ⟨e1, e2⟩ := series_error 20 _ hd
    rw [neg_sub] at *
    generalize l.getD j 0 = v at *
    norm_num at e1 e2 ⊢
    constructor <;> linarith

/-- **C253** for the entry point: every row of the matrix of a model with more than two classes is a list of probabilities. -/
theorem model_predict_multiclass (N : ENum ℝ) (hN : RealENum N) (toInt : ℝ → Int) (m : Model ℝ) (ho : m.objective = "multiclass")
    (hc : 2 < m.numClass) (X M : Mat ℝ) (h : m.predict N toInt X = .ok M) :
    (M.c : Int) = m.numClass ∧ M.r = X.r ∧ ∀ i < X.r, (∀ j < M.c, 0 ≤ M.at' i j ∧ M.at' i j ≤ 1) ∧ ((List.range M.c).map (M.at' i)).sum = 1 := by
  obtain ⟨h1, h2, h3, h4, h5⟩ := batch_ok h
  have hcols : m.outCols = m.numClass.toNat := by unfold Model.outCols; rw [if_pos (by omega)]
  refine ⟨by rw [h4, hcols]; omega, h3, fun i hi => ?_⟩
  obtain ⟨p, hp, hM⟩ := h5 i hi
  simp only [Model.predictSingle] at hp
  cases hq : m.raw toInt (if (-1 : Int) < 0 ∨ (-1 : Int) > m.trees.length then m.trees.length else (-1 : Int).toNat) (rowOf X i) with
  | err e => rw [hq] at hp; cases hp
  | panic e => rw [hq] at hp; cases hp
  | ok q =>
    rw [hq] at hp
    have hp := Outcome.ok.inj hp
    have hlen : q.length = m.outCols := (accumulate_length _ _ _ _ _ _ hq).trans (start_length m)
    have hne : q ≠ [] := by intro e; rw [e, hcols] at hlen; simp at hlen; omega
    obtain ⟨a1, a2, a3, -⟩ := multiclass_probabilities N hN m ho q hne
    rw [hp] at a1 a2 a3
    have hpl : p.length = M.c := by rw [a1, hlen, h4]
    refine ⟨fun j hj => ?_, ?_⟩
    · rw [hM, List.getD_eq_getElem _ _ (by omega)]
      exact a3 _ (List.getElem_mem _)
    · rw [← a2]
      congr 1
      apply List.ext_getElem (by simp [hpl])
      intro j g1 g2
      rw [List.getElem_map, List.getElem_range, hM, List.getD_eq_getElem _ _ g2]

/-- **C253**, what holds of the order: if all raw scores are within 6 of the largest, the probabilities are ordered as the scores are; if they are
within 8, the classes of largest probability are those of largest score. Missing: scores further apart (`multiclass_wrong_for_large_gaps`). -/
theorem multiclass_order_partial (N : ENum ℝ) (hN : RealENum N) (m : Model ℝ) (ho : m.objective = "multiclass") (l : List ℝ) (hl : l ≠ [])
    (j k : Nat) (hj : j < l.length) (hk : k < l.length) :
    (maxOf l - l.getD j 0 ≤ 6 → maxOf l - l.getD k 0 ≤ 6 → ((m.link N l).getD j 0 < (m.link N l).getD k 0 ↔ l.getD j 0 < l.getD k 0)) ∧
    (maxOf l - l.getD j 0 ≤ 8 → l.getD k 0 = maxOf l → ((m.link N l).getD j 0 < (m.link N l).getD k 0 ↔ l.getD j 0 < l.getD k 0)) := by
  have hlink : m.link N l = softmaxWith (taylorExp N) l := by
    unfold Model.link; rw [ho, if_neg (by decide), if_pos rfl]
  have hs := weights_sum N hN l hl
  rw [hlink, softmax_at N l j hj, softmax_at N l k hk, div_lt_div_iff_of_pos_right (by linarith)]
  have hle : ∀ i < l.length, l.getD i 0 ≤ maxOf l := fun i hi =>
    (maxOf_greatest l hl).2 _ (by rw [List.getD_eq_getElem _ _ hi]; exact List.getElem_mem hi)
  have hj' := hle j hj
  have hk' := hle k hk
  have hser : ∀ g : ℝ, 0 ≤ g → g ≤ 8 → taylorExp N (-g) = series 20 (-g) := by
    intro g h0 h8
    rw [taylorExp_eq N hN, if_neg (by linarith), if_neg (by linarith)]
  constructor
  · intro h1 h2
    rw [← neg_sub (maxOf l) (l.getD j 0), ← neg_sub (maxOf l) (l.getD k 0), hser _ (by linarith) (by linarith), hser _ (by linarith) (by linarith)]
    have := series20_anti.lt_iff_gt (a := maxOf l - l.getD j 0) (b := maxOf l - l.getD k 0) ⟨by linarith, h1⟩ ⟨by linarith, h2⟩
    rw [this]
    constructor <;> intro h <;> linarith
  · intro h1 h2
    rw [h2, sub_self, weight_top N hN, ← neg_sub (maxOf l) (l.getD j 0)]
    constructor
    · intro h
      by_contra hn
      have : maxOf l - l.getD j 0 = 0 := by linarith
      rw [this, neg_zero, weight_top N hN] at h
      exact lt_irrefl _ h
    · intro h
      exact weight_lt_one N hN _ (by linarith) h1

/-- **C253 is false of the code**: with raw scores 30, 0 and 0 the first class is practically certain, and `Model.Predict` gives it less than one in
a thousand million and each of the others more than 0.49. -/
theorem multiclass_wrong_for_large_gaps (N : ENum ℝ) (hN : RealENum N) (m : Model ℝ) (ho : m.objective = "multiclass") :
    (m.link N [30, 0, 0]).getD 0 0 < 1 / 10 ^ 9 ∧ 49 / 100 < (m.link N [30, 0, 0]).getD 1 0 ∧ 49 / 100 < (m.link N [30, 0, 0]).getD 2 0 := by
  have hlink : m.link N [30, 0, 0] = softmaxWith (taylorExp N) [30, 0, 0] := by
    unfold Model.link; rw [ho, if_neg (by decide), if_pos rfl]
  have hmax : maxOf [(30 : ℝ), 0, 0] = 30 := by unfold maxOf; norm_num
  have hw : (10 : ℝ) ^ 9 < taylorExp N (-30) := by
    rw [taylorExp_eq N hN, if_neg (by norm_num), if_neg (by norm_num)]
    unfold series
    simp only [Finset.sum_range_succ, Finset.sum_range_zero, Nat.factorial]
    norm_num
  rw [hlink, softmax_at N _ 0 (by decide), softmax_at N _ 1 (by decide), softmax_at N _ 2 (by decide), hmax]
  have h1 : taylorExp N (30 - 30) = 1 := by rw [sub_self, weight_top N hN]
  have h2 : taylorExp N (0 - 30) = taylorExp N (-30) := by rw [zero_sub]
  simp only [List.map_cons, List.map_nil, List.sum_cons, List.sum_nil, h1, h2, List.getD_cons_zero, List.getD_cons_succ]
  have hp : (0 : ℝ) < 10 ^ 9 := by norm_num
  refine ⟨?_, ?_, ?_⟩
  · rw [div_lt_div_iff₀ (by linarith) hp]; linarith
  · rw [div_lt_div_iff₀ (by norm_num) (by linarith)]; norm_num at hw ⊢; linarith
  · rw [div_lt_div_iff₀ (by norm_num) (by linarith)]; norm_num at hw ⊢; linarith

/-- the hypotheses are met by scores 2, 1 and 0 -/
example : maxOf [(2 : ℝ), 1, 0] - ([(2 : ℝ), 1, 0] : List ℝ).getD 2 0 ≤ 6 := by unfold maxOf; norm_num

end Scigo.LGB
