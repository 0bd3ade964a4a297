import Verif.Overflow.ScalerProps
import Verif.Round.ProbaProps

/-!
# C278: probabilities of logistic regression in binary64 with overflow
-/

namespace Scigo.Overflow

open Scigo.Round Scigo.Logistic

/-- what is used of `math.Exp`: a number that is not negative or `+Inf` on everything but NaN, one at zero, at most one on what is not positive, `-Inf` included -/
structure ExpF (exp : F64 → F64) : Prop where
  nonneg : ∀ x, x ≠ .nan → exp x = .inf false ∨ ∃ v : B, 0 ≤ v ∧ |v.val| ≤ maxF64 ∧ exp x = F64.lift v
  zero : exp 0 = 1
  le_one : ∀ x, x ≤ 0 → ∃ v : B, 0 ≤ v ∧ v ≤ 1 ∧ exp x = F64.lift v

/-- a `float64` in the unit interval -/
def UnitNum (x : F64) : Prop := ∃ v : B, 0 ≤ v ∧ v ≤ 1 ∧ x = F64.lift v

theorem one_le_max : (1 : ℚ) ≤ maxF64 := by simpa using F64.pow_le_max (k := 0) (by omega)

theorem abs_of_unit {v : B} (h0 : 0 ≤ v) (h1 : v ≤ 1) : |v.val| ≤ 1 := by
  rw [abs_of_nonneg (show 0 ≤ v.val from h0)]
  exact h1

theorem isFin_lift {x : F64} (h : x.IsFin) : ∃ v : B, |v.val| ≤ maxF64 ∧ x = F64.lift v := by
  cases x with
  | fin q => exact ⟨⟨q.1, q.2.1⟩, q.2.2, (F64.lift_fin (x := ⟨q.1, q.2.1⟩) q.2.2).symm⟩
  | inf s => exact h.elim
  | nan => exact h.elim

theorem lift_inf {x : B} (h : ¬ |x.val| ≤ maxF64) : F64.lift x = .inf (decide (x.val < 0)) := by
  unfold F64.lift F64.round
  rw [dif_neg]
  rw [show Binary64.rnd x.val = x.val from x.rep]
  exact h

/-- the logistic function of anything but NaN is in the unit interval, whether or not the exponential overflows -/
theorem sigmoid_unit (N : Online.Num F64) (hexp : ExpF N.exp) (z : F64) (hz : z ≠ .nan) : UnitNum (sigmoid N z) := by
  unfold sigmoid
  have hn : -z ≠ .nan := by
    cases z with
    | nan => exact absurd rfl hz
    | inf s => intro h; cases h
    | fin q =>
      show F64.round (-q.1) ≠ .nan
      unfold F64.round
      split <;> simp
  rcases hexp.nonneg _ hn with h | ⟨v, h0, h1, h⟩
  · rw [h]
    refine ⟨0, le_refl _, (zero_le_one : (0 : ℚ) ≤ 1), ?_⟩
    rw [← F64.lift_one, F64.lift_fin (x := 1) (by rw [Fl.val_one, abs_one]; exact one_le_max)]
    rfl
  · rw [h, ← F64.lift_one, F64.lift_add (by rw [Fl.val_one, abs_one]; exact one_le_max) h1]
    have hd : (1 : B) ≤ 1 + v := Fl.le_add_right' h0
    have hd0 : (0 : B) ≤ 1 + v := le_trans (zero_le_one : (0 : ℚ) ≤ 1) hd
    by_cases hb : |(1 + v).val| ≤ maxF64
    · rw [F64.lift_div (by rw [Fl.val_one, abs_one]; exact one_le_max) hb (ne_of_gt (lt_of_lt_of_le one_pos hd))]
      exact ⟨_, Fl.div_nonneg' (zero_le_one : (0 : ℚ) ≤ 1) hd0, Fl.div_le_one' (zero_le_one : (0 : ℚ) ≤ 1) hd, rfl⟩
    · rw [lift_inf hb]
      refine ⟨0, le_refl _, (zero_le_one : (0 : ℚ) ≤ 1), ?_⟩
      rw [F64.lift_fin (x := 1) (by rw [Fl.val_one, abs_one]; exact one_le_max)]
      rfl

/-- the running maximum of finite numbers -/
theorem runMax_lift (l : List B) (hl : ∀ x ∈ l, |x.val| ≤ maxF64) (a : B) (ha : |a.val| ≤ maxF64) :
    (l.map F64.lift).foldl (fun m s => if m < s then s else m) (F64.lift a) = F64.lift (l.foldl (fun m s => if m < s then s else m) a) := by
  induction l generalizing a with
  | nil => rfl
  | cons x l ih =>
    have hx := hl x List.mem_cons_self
    rw [List.map_cons, List.foldl_cons, List.foldl_cons]
    have e : (if F64.lift a < F64.lift x then F64.lift x else F64.lift a) = F64.lift (if a < x then x else a) := by
      simp only [F64.lift_lt ha hx]
      split <;> rfl
    rw [e]
    exact ih (fun y hy => hl y (List.mem_cons_of_mem _ hy)) _ (by split <;> assumption)

/-- the shifted softmax of finite scores is in the unit interval, whether or not a difference of scores overflows -/
theorem softmax_unit (exp : F64 → F64) (hexp : ExpF exp) (l : List B) (hne : l ≠ []) (hlen : l.length < 2 ^ 53) (hl : ∀ x ∈ l, |x.val| ≤ maxF64) :
    ∀ p ∈ softmaxShift exp (F64.round (-maxF64)) (l.map F64.lift), UnitNum p := by
  have hrep : Binary64.rounding.rnd (-maxF64) = -maxF64 := by
    rw [Binary64.rounding.neg]
    exact congrArg _ F64.maxF64_rep
  set low : B := ⟨-maxF64, hrep⟩ with hlow
  have blow : |low.val| ≤ maxF64 := by
    show |-maxF64| ≤ maxF64
    rw [abs_neg, abs_of_pos F64.maxF64_pos]
  have hmx := runMax_lift l hl low blow
  obtain ⟨m1, m2⟩ := runMax_spec low l hne (fun x hx => (abs_le.1 (hl x hx)).1)
  set mx := l.foldl (fun m s => if m < s then s else m) low
  have bmx := hl mx m1
  -- the exponentials
  have hsub : ∀ x ∈ l, F64.lift x - F64.lift mx ≤ 0 := by
    intro x hx
    rw [F64.lift_sub (hl x hx) bmx]
    have hle : (x - mx).val ≤ 0 := Binary64.rounding.nonpos (sub_nonpos.2 (m2 x hx))
    by_cases hb : |(x - mx).val| ≤ maxF64
    · rw [← F64.lift_zero, F64.lift_le hb (by rw [Fl.val_zero, abs_zero]; exact F64.maxF64_pos.le)]
      exact hle
    · rw [lift_inf hb]
      have h0 : (x - mx).val < 0 := lt_of_le_of_ne hle (fun e => hb (by rw [e, abs_zero]; exact F64.maxF64_pos.le))
      rw [decide_eq_true h0]
      rw [← F64.lift_zero, F64.lift_fin (x := 0) (by rw [Fl.val_zero, abs_zero]; exact F64.maxF64_pos.le)]
      exact Or.inl rfl
  have hchoose : ∀ x : B, ∃ v : B, x ∈ l → (0 ≤ v ∧ v ≤ 1 ∧ exp (F64.lift x - F64.lift mx) = F64.lift v ∧ (x = mx → v = 1)) := by
    intro x
    by_cases hx : x ∈ l
    · by_cases he : x = mx
      · refine ⟨1, fun _ => ⟨(zero_le_one : (0 : ℚ) ≤ 1), le_refl _, ?_, fun _ => rfl⟩⟩
        rw [he, F64.lift_sub bmx bmx, Fl.sub_self', F64.lift_zero, hexp.zero]
        rfl
      · obtain ⟨v, h0, h1, h2⟩ := hexp.le_one _ (hsub x hx)
        exact ⟨v, fun _ => ⟨h0, h1, h2, fun h => absurd h he⟩⟩
    · exact ⟨0, fun h => absurd h hx⟩
  choose g hg using hchoose
  have hsum := lift_sumOver l (fun x => exp (F64.lift x - F64.lift mx)) g id 0 (by omega) hlen (fun x hx => (hg x hx).2.2.1)
    (fun x hx => by rw [pow_zero]; exact abs_of_unit (hg x hx).1 (hg x hx).2.1)
  have hmax : (l.length : ℚ) * 2 ^ 0 ≤ maxF64 := by
    rw [pow_zero, mul_one]
    have h1 : (l.length : ℚ) ≤ 2 ^ 53 := by exact_mod_cast hlen.le
    exact h1.trans (F64.pow_le_max (by omega))
  have hge : (1 : B) ≤ sumOver l g := by
    have := term_le_sumOver l g (fun x hx => (hg x hx).1) mx m1
    rwa [(hg mx m1).2.2.2 rfl] at this
  intro p hp
  unfold softmaxShift at hp
  dsimp only at hp
  have e : (l.map F64.lift).map (fun s => exp (s - F64.lift mx)) = l.map fun x => exp (F64.lift x - F64.lift mx) := List.map_map
  rw [show F64.round (-maxF64) = F64.lift low from rfl, hmx, e, hsum.1] at hp
  obtain ⟨y, hy, rfl⟩ := List.mem_map.1 hp
  obtain ⟨x, hx, rfl⟩ := List.mem_map.1 hy
  show UnitNum (exp (F64.lift x - F64.lift mx) / F64.lift (sumOver l g))
  rw [(hg x hx).2.2.1, F64.lift_div ((abs_of_unit (hg x hx).1 (hg x hx).2.1).trans one_le_max) (hsum.2.trans hmax)
    (ne_of_gt (lt_of_lt_of_le one_pos hge))]
  refine ⟨_, Fl.div_nonneg' (hg x hx).1 (le_trans (zero_le_one : (0 : ℚ) ≤ 1) hge), ?_, rfl⟩
  exact Fl.div_le_one' (hg x hx).1 ((hg x hx).2.1.trans hge)

theorem guarded_okF {β : Type _} {m : LR F64} {X : Mat F64} {k : Outcome β} {v : β} (h : m.guarded X k = .ok v) : k = .ok v ∧ m.classes ≠ [] := by
  unfold LR.guarded at h
  dsimp only at h
  rcases Bool.eq_false_or_eq_true m.fitted with hf | hf
  · rw [hf, Bool.not_true, if_neg Bool.false_ne_true] at h
    by_cases h1 : X.r = 0 ∨ m.classes = []
    · rw [if_pos h1] at h; cases h
    rw [if_neg h1] at h
    by_cases h2 : X.c < m.nFeatures
    · rw [if_pos h2] at h; cases h
    rw [if_neg h2] at h
    generalize (if m.classes.length = 2 then 1 else m.classes.length) = q at h
    split at h
    · cases h
    · exact ⟨h, fun e => h1 (Or.inr e)⟩
  · rw [hf, Bool.not_false, if_pos rfl] at h
    cases h

/-- a finite `float64` of absolute value at most `2 ^ k` -/
def Small (k : Nat) (x : F64) : Prop := ∃ v : B, |v.val| ≤ 2 ^ k ∧ x = F64.lift v

theorem small_zero (k : Nat) : Small k 0 := ⟨0, by rw [Fl.val_zero, abs_zero]; positivity, rfl⟩

/-- a score is finite if the weights, the intercept and the row are not too large -/
theorem score_finite (nF : Nat) (w : Nat → F64) (b : F64) (X : Mat F64) (i : Nat) (hn : nF + 1 < 2 ^ 53) (hw : ∀ j < nF, Small 485 (w j))
    (hb : Small 970 b) (hX : ∀ j < nF, Small 485 (X.at' i j)) : (zAt nF w b X i).IsFin := by
  obtain ⟨b', hb1, rfl⟩ := hb
  have hch : ∀ j, ∃ v : B, j < nF → |v.val| ≤ 2 ^ 970 ∧ X.at' i j * w j = F64.lift v := by
    intro j
    by_cases hj : j < nF
    · obtain ⟨x, x1, x2⟩ := hX j hj
      obtain ⟨y, y1, y2⟩ := hw j hj
      refine ⟨x * y, fun _ => ⟨F64.mul_bound x1 y1 (F64.rep_pow 970) (le_of_eq (pow_add 2 485 485).symm), ?_⟩⟩
      rw [x2, y2]
      exact F64.lift_mul (x1.trans (F64.pow_le_max (by omega))) (y1.trans (F64.pow_le_max (by omega)))
    · exact ⟨0, fun h => absurd h hj⟩
  choose g hg using hch
  obtain ⟨h1, h2⟩ := lift_foldl (fun j : Nat => j) g (fun j => X.at' i j * w j) 970 (le_refl _) (List.range nF) 1 b' (by rw [List.length_range]; omega)
    (fun j hj => (hg j (List.mem_range.1 hj)).2) (fun j hj => (hg j (List.mem_range.1 hj)).1) (by rw [Nat.cast_one, one_mul]; exact hb1)
  rw [List.map_id'] at h1
  unfold zAt
  rw [h1]
  refine F64.lift_isFin (h2.trans ?_)
  rw [List.length_range]
  have h3 : ((1 + nF : Nat) : ℚ) ≤ 2 ^ 53 := by exact_mod_cast (show 1 + nF ≤ 2 ^ 53 by omega)
  refine (mul_le_mul_of_nonneg_right h3 (by positivity)).trans ?_
  rw [← pow_add]
  exact F64.pow_le_max (by omega)

/-- **C278** (partial): all probabilities of a fitted logistic regression are numbers in `[0, 1]` if the scores of the row are finite — also if the exponential or
a difference of scores overflows; for two classes an infinite score does no harm either. Missing: infinite scores for three or more classes
(`logistic_not_a_number`). -/
theorem finite_logistic_proba_partial (N : Online.Num F64) (hexp : ExpF N.exp) (m : LR F64) (hcl : m.classes.length < 2 ^ 53) (X M : Mat F64)
    (hM : m.predictProba N (F64.round (-maxF64)) X = .ok M) (i : Nat)
    (hs : (m.classes.length = 2 ∧ m.scoreAt X i 0 ≠ .nan) ∨ ∀ k < m.classes.length, (m.scoreAt X i k).IsFin) :
    M.c = m.classes.length ∧ ∀ c < M.c, UnitNum (M.at' i c) := by
  obtain ⟨hM, hne⟩ := guarded_okF hM
  injection hM with hM
  subst hM
  refine ⟨rfl, fun c hc => ?_⟩
  dsimp only at hc ⊢
  by_cases h2 : m.classes.length = 2
  · simp only [h2, if_true]
    have hz : m.scoreAt X i 0 ≠ .nan := by
      rcases hs with h | h
      · exact h.2
      · intro e
        have := h 0 (by omega)
        rw [e] at this
        exact this
    obtain ⟨v, v0, v1, hv⟩ := sigmoid_unit N hexp _ hz
    rw [hv]
    split
    · rw [← F64.lift_one, F64.lift_sub (by rw [Fl.val_one, abs_one]; exact one_le_max) ((abs_of_unit v0 v1).trans one_le_max)]
      refine ⟨_, Fl.sub_nonneg' v1, ?_, rfl⟩
      have := Fl.sub_le (le_refl (1 : B)) v0
      rwa [Fl.sub_zero'] at this
    · exact ⟨v, v0, v1, rfl⟩
  · rw [if_neg h2]
    have hfin : ∀ k < m.classes.length, (m.scoreAt X i k).IsFin := hs.resolve_left fun h => h2 h.1
    have hch : ∀ k, ∃ v : B, k < m.classes.length → |v.val| ≤ maxF64 ∧ m.scoreAt X i k = F64.lift v := by
      intro k
      by_cases hk : k < m.classes.length
      · obtain ⟨v, hv⟩ := isFin_lift (hfin k hk)
        exact ⟨v, fun _ => hv⟩
      · exact ⟨0, fun h => absurd h hk⟩
    choose g hg using hch
    have e : (List.range m.classes.length).map (m.scoreAt X i) = ((List.range m.classes.length).map g).map F64.lift := by
      rw [List.map_map]
      exact List.map_congr_left fun k hk => (hg k (List.mem_range.1 hk)).2
    rw [e]
    have hlen : ((List.range m.classes.length).map g).length = m.classes.length := by simp
    have hall := softmax_unit N.exp hexp ((List.range m.classes.length).map g) (fun e => by
        rw [e] at hlen
        exact hne (List.length_eq_zero_iff.1 hlen.symm)) (by rw [hlen]; exact hcl) (fun x hx => by
        obtain ⟨k, hk, rfl⟩ := List.mem_map.1 hx
        exact (hg k (List.mem_range.1 hk)).1)
    refine hall _ ?_
    rw [List.getD_eq_getElem _ _ (by simp [softmaxShift]; exact hc)]
    exact List.getElem_mem _

/-- **C278** (partial): finite weights and data of absolute value at most `2 ^ 485`, intercepts of absolute value at most `2 ^ 970`: every probability of
every row is a number in `[0, 1]`. Missing: larger ones. -/
theorem small_logistic_proba_partial (N : Online.Num F64) (hexp : ExpF N.exp) (m : LR F64) (hcl : m.classes.length < 2 ^ 53) (hn : m.nFeatures + 1 < 2 ^ 53)
    (hw : ∀ w ∈ m.coef.getD [], ∀ x ∈ w, Small 485 x) (hb : ∀ b ∈ m.intercept, Small 970 b) (X M : Mat F64) (hX : ∀ i j, Small 485 (X.at' i j))
    (hM : m.predictProba N (F64.round (-maxF64)) X = .ok M) :
    M.r = X.r ∧ M.c = m.classes.length ∧ ∀ i, ∀ c < M.c, UnitNum (M.at' i c) := by
  have hr : M.r = X.r := by
    obtain ⟨h, -⟩ := guarded_okF hM
    injection h with h
    rw [← h]
  have key : ∀ i k, (m.scoreAt X i k).IsFin := by
    intro i k
    refine score_finite _ _ _ X i hn (fun j _ => ?_) ?_ (fun j _ => hX i j)
    · by_cases h1 : k < (m.coef.getD []).length
      · rw [List.getD_eq_getElem _ _ h1]
        by_cases h2 : j < ((m.coef.getD [])[k]).length
        · rw [List.getD_eq_getElem _ _ h2]
          exact hw _ (List.getElem_mem _) _ (List.getElem_mem _)
        · rw [List.getD_eq_default _ _ (by omega)]
          exact small_zero _
      · rw [List.getD_eq_default _ _ (by omega : (m.coef.getD []).length ≤ k), List.getD_nil]
        exact small_zero _
    · by_cases h1 : k < m.intercept.length
      · rw [List.getD_eq_getElem _ _ h1]
        exact hb _ (List.getElem_mem _)
      · rw [List.getD_eq_default _ _ (by omega)]
        exact small_zero _
  exact ⟨hr, (finite_logistic_proba_partial N hexp m hcl X M hM 0 (Or.inr fun k _ => key 0 k)).1,
    fun i => (finite_logistic_proba_partial N hexp m hcl X M hM i (Or.inr fun k _ => key i k)).2⟩

theorem runMax_inf (l : List F64) : l.foldl (fun m s => if m < s then s else m) (.inf false) = .inf false := by
  induction l with
  | nil => rfl
  | cons x l ih =>
    rw [List.foldl_cons, if_neg (by show ¬ F64.ltB (.inf false) x = true; cases x <;> simp [F64.ltB])]
    exact ih

theorem runMax_of_inf (l : List F64) (h : F64.inf false ∈ l) (a : F64) (ha : a ≠ .nan) : l.foldl (fun m s => if m < s then s else m) a = .inf false := by
  induction l generalizing a with
  | nil => cases h
  | cons x l ih =>
    rw [List.foldl_cons]
    rcases List.mem_cons.1 h with rfl | h
    · have : (if a < F64.inf false then F64.inf false else a) = .inf false := by
        cases a with
        | nan => exact absurd rfl ha
        | fin q => exact if_pos rfl
        | inf s => cases s <;> rfl
      rw [this]
      exact runMax_inf l
    · refine ih h _ ?_
      split
      · rename_i hlt
        intro e
        rw [e] at hlt
        have : F64.ltB a .nan = true := hlt
        cases a <;> cases this
      · exact ha

theorem nan_fold (l : List F64) : l.foldl (fun s x => s + id x) .nan = .nan := by
  induction l with
  | nil => rfl
  | cons x l ih => exact ih

theorem add_nan (a : F64) : a + .nan = .nan := by cases a <;> rfl

theorem div_nan (a : F64) : a / .nan = .nan := by cases a <;> rfl

theorem sum_nan (l : List F64) (h : F64.nan ∈ l) : sumOver l id = .nan := by
  unfold sumOver
  generalize (0 : F64) = a
  induction l generalizing a with
  | nil => cases h
  | cons x l ih =>
    rw [List.foldl_cons]
    rcases List.mem_cons.1 h with rfl | h
    · rw [show a + id F64.nan = .nan from add_nan a]
      exact nan_fold l
    · exact ih h _

/-- **C278**: if the score of one class is `+Inf` and the number of classes is not two, every probability of the row is NaN -/
theorem logistic_not_a_number (N : Online.Num F64) (hnan : N.exp .nan = .nan) (m : LR F64) (hcl : m.classes.length ≠ 2) (X M : Mat F64)
    (hM : m.predictProba N (F64.round (-maxF64)) X = .ok M) (i k : Nat) (hk : k < m.classes.length) (hs : m.scoreAt X i k = .inf false) :
    ∀ c < M.c, M.at' i c = .nan := by
  obtain ⟨hM, -⟩ := guarded_okF hM
  injection hM with hM
  subst hM
  intro c hc
  dsimp only at hc ⊢
  rw [if_neg hcl]
  have hmem : F64.inf false ∈ (List.range m.classes.length).map (m.scoreAt X i) := List.mem_map.2 ⟨k, List.mem_range.2 hk, hs⟩
  have hl : F64.round (-maxF64) ≠ .nan := by
    unfold F64.round
    split <;> simp
  unfold softmaxShift
  dsimp only
  rw [runMax_of_inf _ hmem _ hl]
  have hsum := sum_nan (((List.range m.classes.length).map (m.scoreAt X i)).map fun s => N.exp (s - .inf false)) (List.mem_map.2 ⟨_, hmem, by
    rw [show F64.inf false - F64.inf false = F64.nan from rfl]
    exact hnan⟩)
  rw [hsum, List.getD_eq_getElem _ _ (by simpa using hc), List.getElem_map]
  exact div_nan _

/-- a model with three classes and one weight each (sklearn/linear_model/logistic.go:26-54) -/
def hugeModel (w : List (List F64)) : LR F64 := ⟨"l2", 1, true, "lbfgs", 100, "auto", false, 1, some w, [0, 0, 0], [0, 1, 2], 1, [], true⟩

/-- **C278** is false: the weights `2, 0, 0` and the value `2 ^ 1023` are finite, and all three probabilities are NaN, without an error -/
theorem logistic_proba_nan (N : Online.Num F64) (hnan : N.exp .nan = .nan) :
    ((hugeModel [[F64.round 2], [0], [0]]).predictProba N (F64.round (-maxF64)) (Mat.ofRows [[F64.round (2 ^ 1023)]] 1 0)).map
      (fun M => (List.range 3).map (M.at' 0)) = .ok [.nan, .nan, .nan] := by
  have hg : (hugeModel [[F64.round 2], [0], [0]]).predictProba N (F64.round (-maxF64)) (Mat.ofRows [[F64.round (2 ^ 1023)]] 1 0) =
      .ok ⟨1, 3, fun i c => (softmaxShift N.exp (F64.round (-maxF64))
        ((List.range 3).map ((hugeModel [[F64.round 2], [0], [0]]).scoreAt (Mat.ofRows [[F64.round (2 ^ 1023)]] 1 0) i))).getD c 0⟩ := rfl
  have h := logistic_not_a_number N hnan _ (by decide) _ _ hg 0 0 (by decide) (by decide +kernel)
  rw [hg]
  show Outcome.ok [_, _, _] = _
  rw [h 0 (show 0 < 3 by decide), h 1 (show 1 < 3 by decide), h 2 (show 2 < 3 by decide)]

/-- a function with the properties asked of the exponential (in place of `math.Exp`, sklearn/linear_model/logistic.go:845) -/
def stepExp : F64 → F64
  | .nan => .nan
  | x => if 0 < x then .inf false else if x < 0 then 0 else 1

example : ExpF stepExp := by
  have hz : (0 : F64) = .fin ⟨0, by decide +kernel, by decide +kernel⟩ := by decide +kernel
  have h1 : (1 : F64) = F64.lift 1 := rfl
  have hle : ∀ x : F64, x ≤ 0 → stepExp x = 0 ∨ stepExp x = 1 := by
    intro x h
    have h0 : ¬ (0 : F64) < x := by
      rw [hz] at h ⊢
      cases x with
      | nan => exact fun h => by cases h
      | inf s =>
        cases s
        · rcases h with h | h <;> cases h
        · exact fun h => by cases h
      | fin q =>
        intro h'
        have h' : (0 : ℚ) < q.1 := of_decide_eq_true h'
        rcases h with h | h
        · exact absurd (of_decide_eq_true h : q.1 < 0) (not_lt.2 h'.le)
        · have := of_decide_eq_true h
          injection this with this
          rw [this] at h'
          exact lt_irrefl _ h'
    cases x with
    | nan => rcases h with h | h <;> cases h
    | inf s => unfold stepExp; simp only [h0, if_false]; split <;> simp
    | fin q => unfold stepExp; simp only [h0, if_false]; split <;> simp
  have hu : ∀ y : F64, y = 0 ∨ y = 1 → ∃ v : B, 0 ≤ v ∧ v ≤ 1 ∧ y = F64.lift v := by
    rintro y (rfl | rfl)
    · exact ⟨0, le_refl _, (zero_le_one : (0 : ℚ) ≤ 1), rfl⟩
    · exact ⟨1, (zero_le_one : (0 : ℚ) ≤ 1), le_refl _, rfl⟩
  refine ⟨fun x hx => ?_, by decide +kernel, fun x h => hu _ (hle x h)⟩
  by_cases h0 : 0 < x
  · left
    cases x with
    | nan => exact absurd rfl hx
    | inf s => exact if_pos h0
    | fin q => exact if_pos h0
  · right
    have : stepExp x = 0 ∨ stepExp x = 1 := by
      cases x with
      | nan => exact absurd rfl hx
      | inf s => unfold stepExp; simp only [h0, if_false]; split <;> simp
      | fin q => unfold stepExp; simp only [h0, if_false]; split <;> simp
    obtain ⟨v, v0, v1, hv⟩ := hu _ this
    exact ⟨v, v0, (abs_of_unit v0 v1).trans one_le_max, hv⟩

/-- three classes, scores `10 ^ 300`, `0` and `-10 ^ 300`: the exponential of the differences underflows and nothing overflows to NaN -/
example : ∀ k < 3, ((hugeModel [[F64.round (10 ^ 150)], [0], [F64.round (-10 ^ 150)]]).scoreAt (Mat.ofRows [[F64.round (10 ^ 150)]] 1 0) 0 k).IsFin := by
  decide +kernel

end Scigo.Overflow
