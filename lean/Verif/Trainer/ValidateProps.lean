import Verif.Trainer.Validate
import Verif.Trainer.ServeProps
import Verif.Boost.ObjectiveProps
import Mathlib.Algebra.BigOperators.Intervals
import Mathlib.Algebra.Order.BigOperators.Group.Finset

/-!
# Training with validation data: theorems (C225, C226)
-/

set_option linter.unusedSectionVars false

namespace Scigo.Trainer

variable {α : Type}

section fit
variable [DecidableEq α] [LT α] [DecidableLT α] [LE α] [DecidableLE α] [Zero α] [One α] [Add α] [Sub α] [Neg α] [Mul α] [Div α]

/-- every iteration uses all rows, and no initial score was set -/
def Config.Plain (C : Config α) : Prop :=
  C.boosting ≠ "goss" ∧ (C.baggingFreq ≤ 0 ∨ 1 ≤ C.baggingFraction ∨ C.baggingFraction ≤ 0) ∧ C.initScore = none

/-- same trees and same cached scores -/
def SameTrees (a b : St α) : Prop := a.trees = b.trees ∧ a.preds = b.preds

theorem own_plain {C : Config α} (h : C.Plain) : C.own = C := by
  obtain ⟨-, -, h⟩ := h
  cases C
  simp only [Config.own] at *
  rw [h]

theorem sample_plain {C : Config α} (h : C.Plain) (lib : Lib α) (byGrad : (Nat → α) → List Nat → List Nat) (r : Nat → Nat) (P : Problem α)
    (k : Nat) (g hh : Nat → α) : C.sample lib byGrad r P k g hh = (List.range P.rows, g, hh) := by
  obtain ⟨h1, h2, -⟩ := h
  unfold Config.sample sampleInstances
  rw [if_neg h1]
  by_cases a : C.baggingFreq ≤ 0 ∨ (k : Int) % C.baggingFreq ≠ 0
  · rw [if_pos a]
  · rw [if_neg a]
    push Not at a
    rw [if_pos (h2.resolve_left (by omega))]

theorem iterateAll_of_iterate {C : Config α} (hp : C.Plain) {lib : Lib α} {byGrad : (Nat → α) → List Nat → List Nat} {rand : Nat → Nat → Nat}
    {fuel : Nat} {P : Problem α} {k : Nat} {st st' st2 : St α} (h : C.iterate lib byGrad rand fuel P k st = .ok st') (hs : SameTrees st st2) :
    ∃ s2, C.iterateAll lib fuel P st2 = .ok s2 ∧ SameTrees st' s2 ∧ ∃ t, st'.trees = st.trees ++ [t] := by
  unfold Config.iterate at h
  unfold Config.iterateAll
  rw [own_plain hp]
  obtain ⟨e1, e2⟩ := hs
  split_ifs at h with hr
  · push Not at hr
    rw [if_neg (by simpa using hr)]
    obtain ⟨scores, h1, h⟩ := bind_ok_inv h
    obtain ⟨gs, h2, h⟩ := bind_ok_inv h
    obtain ⟨hs, h3, h⟩ := bind_ok_inv h
    rw [sample_plain hp] at h
    simp only at h
    have ec : C.cache P st2 = C.cache P st := by unfold Config.cache; rw [e2]
    rw [ec, ← e1, h1, Outcome.bind_ok, h2, Outcome.bind_ok, h3, Outcome.bind_ok]
    split at h
    · cases h
    · next t ht =>
      obtain ⟨cache, h4, h⟩ := bind_ok_inv h
      obtain ⟨loss, h5, h⟩ := bind_ok_inv h
      cases h
      rw [ht]
      simp only
      refine ⟨⟨st.trees ++ [t], some cache, st2.losses⟩, ?_, ⟨rfl, rfl⟩, t, rfl⟩
      exact congrArg (fun o => Outcome.bind o fun cache => Outcome.ok (⟨st.trees ++ [t], some cache, st2.losses⟩ : St α)) h4

/-- a run without callbacks, one step -/
theorem run_go_succ {C : Config α} {lib : Lib α} {byGrad : (Nat → α) → List Nat → List Nat} {rand : Nat → Nat → Nat} {fuel : Nat} {P : Problem α}
    {n k : Nat} {st stf : St α} (h : C.run lib byGrad rand fuel P (fun _ _ => .go) (fun _ _ => .go) (n + 1) k st = .ok stf) :
    ∃ s1, C.iterate lib byGrad rand fuel P k st = .ok s1 ∧ C.run lib byGrad rand fuel P (fun _ _ => .go) (fun _ _ => .go) n (k + 1) s1 = .ok stf := by
  rw [Config.run] at h
  exact bind_ok_inv h

theorem run_go_trees {C : Config α} (hp : C.Plain) {lib : Lib α} {byGrad : (Nat → α) → List Nat → List Nat} {rand : Nat → Nat → Nat} {fuel : Nat}
    {P : Problem α} {n k : Nat} {st stf : St α} (h : C.run lib byGrad rand fuel P (fun _ _ => .go) (fun _ _ => .go) n k st = .ok stf) :
    ∃ l, stf.trees = st.trees ++ l := by
  induction n generalizing k st with
  | zero => cases h; exact ⟨[], by simp⟩
  | succ n ih =>
    obtain ⟨s1, h1, h2⟩ := run_go_succ h
    obtain ⟨-, -, -, t, ht⟩ := iterateAll_of_iterate hp h1 ⟨rfl, rfl⟩
    obtain ⟨l, hl⟩ := ih h2
    exact ⟨t :: l, by rw [hl, ht]; simp⟩

theorem validRun_none {C : Config α} (hp : C.Plain) {lib : Lib α} {byGrad : (Nat → α) → List Nat → List Nat} {rand : Nat → Nat → Nat} {fuel : Nat}
    {P : Problem α} (score : St α → Outcome α) {n k : Nat} {st stf st2 : St α}
    (h : C.run lib byGrad rand fuel P (fun _ _ => .go) (fun _ _ => .go) n k st = .ok stf) (hs : SameTrees st st2) :
    ∃ s2, C.validRun lib fuel P score n k none st2 = .ok s2 ∧ SameTrees stf s2 := by
  induction n generalizing k st st2 with
  | zero => cases h; exact ⟨st2, rfl, hs⟩
  | succ n ih =>
    obtain ⟨s1, h1, h2⟩ := run_go_succ h
    obtain ⟨s2, e, hs2, -⟩ := iterateAll_of_iterate hp h1 hs
    rw [Config.validRun, e, Outcome.bind_ok]
    exact ih h2 hs2

theorem validRun_prefix {C : Config α} (hp : C.Plain) {lib : Lib α} {byGrad : (Nat → α) → List Nat → List Nat} {rand : Nat → Nat → Nat} {fuel : Nat}
    {P : Problem α} (score : St α → Outcome α) {n k : Nat} {es : Option (Boost.ES α)} {st stf st2 s : St α}
    (h : C.run lib byGrad rand fuel P (fun _ _ => .go) (fun _ _ => .go) n k st = .ok stf) (hs : SameTrees st st2)
    (hv : C.validRun lib fuel P score n k es st2 = .ok s) : s.trees <+: stf.trees := by
  induction n generalizing k st st2 es with
  | zero =>
    cases h
    rw [Config.validRun] at hv
    cases hv
    rw [hs.1]
  | succ n ih =>
    obtain ⟨s1, h1, h2⟩ := run_go_succ h
    obtain ⟨s2, e, hs2, -⟩ := iterateAll_of_iterate hp h1 hs
    cases es with
    | none =>
      rw [Config.validRun, e, Outcome.bind_ok] at hv
      exact ih h2 hs2 hv
    | some es =>
      rw [Config.validRun, e, Outcome.bind_ok] at hv
      by_cases he : es.enabled = true
      · rw [if_pos he] at hv
        obtain ⟨sc, -, hv⟩ := bind_ok_inv hv
        by_cases hu : (es.update k (some sc)).2 = true
        · rw [if_pos hu] at hv
          cases hv
          obtain ⟨l, hl⟩ := run_go_trees hp h2
          have hpre : s2.trees <+: stf.trees := ⟨l, by rw [hl, hs2.1]⟩
          show kept _ s2.trees <+: _
          unfold kept
          split_ifs
          · exact (List.take_prefix _ _).trans hpre
          · exact hpre
        · rw [if_neg hu] at hv
          exact ih h2 hs2 hv
      · rw [if_neg he] at hv
        exact ih h2 hs2 hv

/-! ### C225 -/

/-- **C225 (partial).** If no rows are sampled and no initial score was set, `FitWithValidation` grows the trees of `Fit`: all of
them when early stopping is off or there is no validation data, otherwise the first so many of them. Missing: sampled rows and
initial scores, which it ignores (`validation_ignores`, `validation_differs`). -/
theorem validation_fit_partial (C : Config α) (hp : C.Plain) (lib : Lib α) (N : LGB.ENum α) (inf ninf : α)
    (byGrad : (Nat → α) → List Nat → List Nat) (rand : Nat → Nat → Nat) (fuel : Nat) (P : Problem α) (name : String) (numClass rounds : Int)
    (metric : String) (v : Option (Valid α)) (st : St α)
    (h : C.fit lib byGrad rand fuel P (fun _ _ => .go) (fun _ _ => .go) St.new = .ok st) :
    (rounds ≤ 0 ∨ v = none → ∃ s, C.fitWithValidation lib N inf ninf fuel P name numClass rounds metric v = .ok s ∧ s.trees = st.trees) ∧
    ∀ s, C.fitWithValidation lib N inf ninf fuel P name numClass rounds metric v = .ok s → s.trees <+: st.trees := by
  unfold Config.fit at h
  unfold Config.fitWithValidation
  constructor
  · intro hn
    rw [if_neg (by
      rintro ⟨a, b⟩
      rcases hn with hn | rfl
      · omega
      · cases b)]
    obtain ⟨s, e, hs⟩ := validRun_none hp _ h (st2 := St.new) ⟨rfl, rfl⟩
    exact ⟨s, e, hs.1.symm⟩
  · intro s hs
    exact validRun_prefix hp _ h (st2 := St.new) ⟨rfl, rfl⟩ hs

theorem validRun_congr (C C' : Config α) (lib : Lib α) (fuel : Nat) (P : Problem α) (score score' : St α → Outcome α)
    (h1 : ∀ st, C.iterateAll lib fuel P st = C'.iterateAll lib fuel P st) (h2 : ∀ st, score st = score' st) (n k : Nat) (es : Option (Boost.ES α))
    (st : St α) : C.validRun lib fuel P score n k es st = C'.validRun lib fuel P score' n k es st := by
  have : score = score' := funext h2
  subst this
  induction n generalizing k es st with
  | zero => rfl
  | succ n ih =>
    cases es with
    | none =>
      rw [Config.validRun, Config.validRun, h1]
      congr 1
      funext s
      exact ih _ _ _
    | some es =>
      rw [Config.validRun, Config.validRun, h1]
      congr 1
      funext s
      rw [ih]
      congr 2
      funext sc
      rw [ih]

/-- **C225 is false:** `FitWithValidation` gives the same result whatever the boosting type, the sampling rates and the initial
score that was set. -/
theorem validation_ignores (C : Config α) (lib : Lib α) (N : LGB.ENum α) (inf ninf : α) (fuel : Nat) (P : Problem α) (name : String)
    (numClass rounds : Int) (metric : String) (v : Option (Valid α)) (boosting : String) (top other fraction : α) (freq : Int) (init : Option α) :
    ({ C with boosting := boosting, topRate := top, otherRate := other, baggingFraction := fraction, baggingFreq := freq, initScore := init }
      : Config α).fitWithValidation lib N inf ninf fuel P name numClass rounds metric v =
    C.fitWithValidation lib N inf ninf fuel P name numClass rounds metric v := by
  unfold Config.fitWithValidation
  apply validRun_congr
  · intro st
    rfl
  · intro st
    rfl

end fit

/-- parts of the results compared below -/
def firstLeaves : Outcome (St Rat) → Option (List (List Rat))
  | .ok st => some (st.trees.map fun t => (t.nodes.filter fun n => decide (n.kind = .leaf)).map LGB.Node.leafValue)
  | _ => none

/-- `exConfig` with bagging of half the rows in every iteration -/
def exBagging : Config Rat := { exConfig 1 1 with baggingFraction := 1 / 2, baggingFreq := 1 }

/-- `exConfig` with an initial score -/
def exInit : Config Rat := { exConfig 1 1 with initScore := some 10 }

/-- the numbers of the examples -/
def exENum : LGB.ENum Rat := ⟨⟨fun _ => false, fun _ => 0, 0⟩, fun _ => 1, fun n => n, 1000, 700, 500, 1000⟩

/-- training with validation data, without early stopping -/
def exValid (C : Config Rat) (xs ys : List Rat) : Outcome (St Rat) :=
  C.fitWithValidation exSlow exENum 1000 (-1000) 5 (exProblem xs ys) "regression" 0 0 "" none

/-- **C225 is false, concretely:** with bagging, and with an initial score, the trees are not those of `Fit`. -/
theorem validation_differs :
    firstLeaves (exBagging.fit exSlow (fun _ l => l) (fun _ _ => 0) 5 (exProblem [1, 2, 3, 4] [0, 1, 5, 30]) go go St.new) ≠
      firstLeaves (exValid exBagging [1, 2, 3, 4] [0, 1, 5, 30]) ∧
    firstLeaves (exInit.fit exSlow (fun _ l => l) (fun _ _ => 0) 5 (exProblem [1, 2, 3, 4] [0, 1, 5, 30]) go go St.new) ≠
      firstLeaves (exValid exInit [1, 2, 3, 4] [0, 1, 5, 30]) ∧
    firstLeaves (exValid exInit [1, 2, 3, 4] [0, 1, 5, 30]) = firstLeaves (exRun 1 1 [1, 2, 3, 4] [0, 1, 5, 30] St.new) := by
  decide +kernel

/-! ### C226 -/

section score
variable [Field α] [LinearOrder α] [IsStrictOrderedRing α]

/-- the weight of row `i` -/
def Valid.w (v : Valid α) (i : Nat) : α := match v.weight with
  | none => 1
  | some w => w.getD i 1

theorem scaled_eq (v : Valid α) (i : Nat) (l : α) : v.scaled i l = l * v.w i := by
  unfold Valid.scaled Valid.w
  cases v.weight with
  | none => simp
  | some w =>
    simp only
    rw [List.getD_eq_getElem?_getD]
    cases w[i]? <;> simp

theorem losses_eq (obj : Boost.Objective α) (v : Valid α) (p : Mat α) (n : Nat) :
    v.losses obj p n = ∑ i ∈ Finset.range n, obj.loss (p.at' i 0) (v.y.at' i 0) * ∏ j ∈ Finset.Ico i n, v.w j := by
  induction n with
  | zero => rfl
  | succ n ih =>
    rw [Valid.losses, scaled_eq, ih, Finset.sum_range_succ, add_mul, Finset.sum_mul]
    congr 1
    · refine Finset.sum_congr rfl (fun i hi => ?_)
      rw [Finset.prod_Ico_succ_top (by have := Finset.mem_range.mp hi; omega), mul_assoc]
    · simp

/-- the predictions on the validation rows -/
def PredictsRows (N : LGB.ENum α) (toInt : α → Int) (m : LGB.Model α) (v : Valid α) (p : Nat → α) : Prop :=
  ∃ q, m.predict N toInt v.x = .ok q ∧ ∀ i < v.y.r, q.at' i 0 = p i

/-- **C226 (what the score is).** The validation score multiplies the loss of every row by the weights of all rows from that one
on, and divides by the number of rows. -/
theorem validation_score (N : LGB.ENum α) (toInt : α → Int) (inf : α) (obj : Boost.Objective α) (m : LGB.Model α) (v : Valid α) (p : Nat → α)
    (hp : PredictsRows N toInt m v p) (hr : v.y.r ≤ v.x.r) :
    evaluateValidation N toInt inf obj m (some v) =
      .ok ((∑ i ∈ Finset.range v.y.r, obj.loss (p i) (v.y.at' i 0) * ∏ j ∈ Finset.Ico i v.y.r, v.w j) / N.ofNat v.y.r) := by
  obtain ⟨q, e, hq⟩ := hp
  simp only [evaluateValidation, e]
  rw [if_neg (by omega), losses_eq]
  congr 2
  refine Finset.sum_congr rfl (fun i hi => ?_)
  rw [hq i (Finset.mem_range.mp hi)]

/-- the raw scores of the model on the validation rows -/
def ScoresRows (toInt : α → Int) (m : LGB.Model α) (v : Valid α) (s : Nat → α) : Prop :=
  ∀ i < v.x.r, m.raw toInt m.trees.length (LGB.rowOf v.x i) = .ok [s i]

theorem forRows_ok (X : Mat α) (f : List α → Outcome (List α)) (g : Nat → List α) (n : Nat) (h : ∀ i < n, f (LGB.rowOf X i) = .ok (g i)) :
    LGB.forRows X f n = .ok ((List.range n).map g) := by
  induction n with
  | zero => rfl
  | succ n ih =>
    rw [LGB.forRows, ih (fun i hi => h i (by omega))]
    simp only
    rw [h n (by omega), List.range_succ, List.map_append]
    rfl

theorem predicts_of_raw (N : LGB.ENum α) (toInt : α → Int) (m : LGB.Model α) (v : Valid α) (s : Nat → α) (hs : ScoresRows toInt m v s)
    (hc : (v.x.c : Int) = m.numFeatures) (h0 : 0 < v.x.r) (hr : v.y.r ≤ v.x.r) (f : α → α) (hf : ∀ i < v.x.r, m.link N [s i] = [f (s i)]) :
    PredictsRows N toInt m v (fun i => f (s i)) := by
  unfold PredictsRows LGB.Model.predict LGB.Model.batch
  rw [if_neg (by simpa using hc), if_neg (by omega)]
  rw [forRows_ok v.x _ (fun i => [f (s i)]) v.x.r]
  · refine ⟨_, rfl, fun i hi => ?_⟩
    have hi' : i < v.x.r := by omega
    simp [List.getD_eq_getElem?_getD, List.getElem?_range hi']
  · intro i hi
    unfold LGB.Model.predictSingle
    rw [if_pos (Or.inl (by decide))]
    dsimp only
    rw [hs i hi, Outcome.map_ok, hf i hi]

/-- **C226 (partial).** Without weights, or with weights that are all one, the validation score of an objective without link is
the mean loss at the raw scores. Missing: other weights (`validation_score`, `zero_weight_score`), and objectives with a link, for
which the loss is taken at the probability instead of the raw score (`binary_validation_inverted`). -/
theorem validation_score_partial (N : LGB.ENum α) (hN : ∀ n, N.ofNat n = (n : α)) (toInt : α → Int) (inf : α) (obj : Boost.Objective α)
    (m : LGB.Model α) (v : Valid α) (s : Nat → α) (hs : ScoresRows toInt m v s) (hc : (v.x.c : Int) = m.numFeatures) (h0 : 0 < v.y.r)
    (hr : v.y.r ≤ v.x.r) (hw : ∀ i < v.y.r, v.w i = 1)
    (hl : m.objective ≠ "binary" ∧ m.objective ≠ "cross_entropy" ∧ m.objective ≠ "multiclass") :
    evaluateValidation N toInt inf obj m (some v) = .ok ((∑ i ∈ Finset.range v.y.r, obj.loss (s i) (v.y.at' i 0)) / (v.y.r : α)) := by
  have hp := predicts_of_raw N toInt m v s hs hc (by omega) hr id (fun i _ => by
    unfold LGB.Model.link
    rw [if_neg (by simp [hl.1, hl.2.1]), if_neg hl.2.2]
    rfl)
  rw [validation_score N toInt inf obj m v _ hp hr, hN]
  congr 2
  refine Finset.sum_congr rfl (fun i hi => ?_)
  rw [Finset.prod_eq_one (fun j hj => hw j (Finset.mem_Ico.mp hj).2), mul_one]
  rfl

/-- **C226 is false for weights:** if the last row has weight 0, the score is 0 whatever the model predicts, so every iteration
after the first counts as no improvement. -/
theorem zero_weight_score (N : LGB.ENum α) (toInt : α → Int) (inf : α) (obj : Boost.Objective α) (m : LGB.Model α) (v : Valid α) (p : Nat → α)
    (hp : PredictsRows N toInt m v p) (hr : v.y.r ≤ v.x.r) (h0 : 0 < v.y.r) (hw : v.w (v.y.r - 1) = 0) :
    evaluateValidation N toInt inf obj m (some v) = .ok 0 := by
  rw [validation_score N toInt inf obj m v p hp hr, Finset.sum_eq_zero, zero_div]
  intro i hi
  have := Finset.mem_range.mp hi
  rw [Finset.prod_eq_zero (Finset.mem_Ico.mpr ⟨by omega, by omega⟩ : v.y.r - 1 ∈ Finset.Ico i v.y.r) hw, mul_zero]

/-- without a model that accepts the validation data the score is infinite, without data it is 0 -/
theorem validation_score_errors (N : LGB.ENum α) (toInt : α → Int) (inf : α) (obj : Boost.Objective α) (m : LGB.Model α) (v : Valid α) :
    evaluateValidation N toInt inf obj m none = .ok 0 ∧
    ((v.x.c : Int) ≠ m.numFeatures → evaluateValidation N toInt inf obj m (some v) = .ok inf) := by
  refine ⟨rfl, fun h => ?_⟩
  simp only [evaluateValidation, LGB.Model.predict, LGB.Model.batch]
  rw [if_pos h]

end score

/-- the loss the binary objective assigns to a probability of a positive row grows with the probability -/
theorem binary_loss_pos_mono {p q : ℝ} (h0 : 0 ≤ p) (h : p < q) (h1 : q ≤ 700) :
    (Boost.binary Online.realNum Boost.realLits).loss p 1 < (Boost.binary Online.realNum Boost.realLits).loss q 1 := by
  show (if 0 ≤ Boost.clampA Boost.realLits p then _ else _) < (if 0 ≤ Boost.clampA Boost.realLits q then _ else _)
  rw [Boost.clampA_id (by linarith) (by linarith), Boost.clampA_id (by linarith) h1, if_pos h0, if_pos (by linarith)]
  show 1 * p + Real.log (1 + Real.exp (-p)) < 1 * q + Real.log (1 + Real.exp (-q))
  have e : ∀ x : ℝ, 1 * x + Real.log (1 + Real.exp (-x)) = Real.log (Real.exp x + 1) := by
    intro x
    rw [one_mul]
    conv_lhs => rw [← Real.log_exp x]
    rw [← Real.log_mul (Real.exp_pos x).ne' (by positivity)]
    rw [mul_add, mul_one, Real.log_exp, ← Real.exp_add]
    simp
  rw [e, e]
  exact Real.log_lt_log (by positivity) (by have := Real.exp_lt_exp.mpr h; linarith)

/-- and that of a negative row falls -/
theorem binary_loss_neg_anti {p q : ℝ} (h0 : 0 ≤ p) (h : p < q) (h1 : q ≤ 700) :
    (Boost.binary Online.realNum Boost.realLits).loss q 0 < (Boost.binary Online.realNum Boost.realLits).loss p 0 := by
  show (if 0 ≤ Boost.clampA Boost.realLits q then _ else _) < (if 0 ≤ Boost.clampA Boost.realLits p then _ else _)
  rw [Boost.clampA_id (by linarith) (by linarith), Boost.clampA_id (by linarith) (by linarith), if_pos h0, if_pos (by linarith)]
  show 0 * q + Real.log (1 + Real.exp (-q)) < 0 * p + Real.log (1 + Real.exp (-p))
  rw [zero_mul, zero_mul, zero_add, zero_add]
  exact Real.log_lt_log (by positivity) (by have := Real.exp_lt_exp.mpr (neg_lt_neg h); linarith)

/-- **C226 is false for the binary objective:** of two models, the one that gives every positive row a lower and every negative
row a higher probability has the better (lower) validation score. -/
theorem binary_validation_inverted (N : LGB.ENum ℝ) (hN : ∀ n, N.ofNat n = (n : ℝ)) (toInt : ℝ → Int) (inf : ℝ) (good bad : LGB.Model ℝ)
    (v : Valid ℝ) (p q : Nat → ℝ) (hp : PredictsRows N toInt good v p) (hq : PredictsRows N toInt bad v q) (h0 : 0 < v.y.r) (hr : v.y.r ≤ v.x.r)
    (hw : v.weight = none) (hpr : ∀ i < v.y.r, 0 ≤ p i ∧ p i ≤ 1) (hqr : ∀ i < v.y.r, 0 ≤ q i ∧ q i ≤ 1)
    (hy : ∀ i < v.y.r, (v.y.at' i 0 = 1 ∧ q i < p i) ∨ (v.y.at' i 0 = 0 ∧ p i < q i)) :
    ∃ a b, evaluateValidation N toInt inf (Boost.binary Online.realNum Boost.realLits) good (some v) = .ok a ∧
      evaluateValidation N toInt inf (Boost.binary Online.realNum Boost.realLits) bad (some v) = .ok b ∧ b < a := by
  refine ⟨_, _, validation_score N toInt inf _ good v p hp hr, validation_score N toInt inf _ bad v q hq hr, ?_⟩
  have hw1 : ∀ i, ∏ j ∈ Finset.Ico i v.y.r, v.w j = 1 := fun i => Finset.prod_eq_one (fun j _ => by unfold Valid.w; rw [hw])
  rw [hN]
  have hn : (0 : ℝ) < (v.y.r : ℝ) := by exact_mod_cast h0
  apply div_lt_div_of_pos_right _ hn
  apply Finset.sum_lt_sum_of_nonempty (Finset.nonempty_range_iff.mpr (by omega))
  intro i hi
  have hi := Finset.mem_range.mp hi
  rw [hw1, mul_one, mul_one]
  rcases hy i hi with ⟨e, h⟩ | ⟨e, h⟩
  · rw [e]
    exact binary_loss_pos_mono (hqr i hi).1 h (by linarith [(hpr i hi).2])
  · rw [e]
    exact binary_loss_neg_anti (hpr i hi).1 h (by linarith [(hqr i hi).2])

/-- the numbers of the code as reals -/
noncomputable def realENum : LGB.ENum ℝ := ⟨⟨fun _ => false, fun _ => 0, 0⟩, Real.exp, fun n => n, 10 ^ 308, 700, 500, 0⟩

/-- a binary model without trees -/
def exLogit (c : ℝ) : LGB.Model ℝ := ⟨"binary", 1, 0, 1, [], 1, 0, c, false⟩

/-- one positive validation row -/
def exPositive : Valid ℝ := ⟨⟨1, 1, fun _ _ => 0⟩, ⟨1, 1, fun _ _ => 1⟩, none⟩

theorem exLogit_predicts (c : ℝ) : PredictsRows realENum (fun _ => 0) (exLogit c) exPositive (fun _ => LGB.taylorSigmoid realENum c) :=
  predicts_of_raw realENum _ (exLogit c) exPositive (fun _ => c) (fun _ _ => rfl) rfl (by decide) (by decide) (LGB.taylorSigmoid realENum)
    (fun _ _ => by
      unfold LGB.Model.link
      rw [if_pos (show (exLogit c).objective = "binary" ∨ _ from Or.inl rfl)]
      rfl)

/-- the score 1000 has probability 1, the score -1000 almost 0; the second model has the better validation score on a positive row -/
example : ∃ a b, evaluateValidation realENum (fun _ => 0) 0 (Boost.binary Online.realNum Boost.realLits) (exLogit 1000) (some exPositive) = .ok a ∧
    evaluateValidation realENum (fun _ => 0) 0 (Boost.binary Online.realNum Boost.realLits) (exLogit (-1000)) (some exPositive) = .ok b ∧ b < a := by
  have e1 : LGB.taylorSigmoid realENum (1000 : ℝ) = 1 := by
    unfold LGB.taylorSigmoid LGB.taylorExp realENum
    norm_num
  have e2 : LGB.taylorSigmoid realENum (-1000 : ℝ) = 1 / (1 + 10 ^ 308) := by
    unfold LGB.taylorSigmoid LGB.taylorExp realENum
    rw [if_pos (by norm_num)]
  have hlt : (1 : ℝ) / (1 + 10 ^ 308) < 1 := by
    rw [div_lt_one (by positivity)]
    have : (0 : ℝ) < 10 ^ 308 := by positivity
    exact lt_add_of_pos_right 1 this
  exact binary_validation_inverted realENum (fun _ => rfl) _ 0 (exLogit 1000) (exLogit (-1000)) exPositive _ _ (exLogit_predicts _) (exLogit_predicts _)
    (by decide) (by decide) rfl (fun _ _ => by rw [e1]; norm_num) (fun _ _ => by rw [e2]; exact ⟨by positivity, hlt.le⟩)
    (fun _ _ => Or.inl ⟨rfl, by rw [e1, e2]; exact hlt⟩)

/-! ### Concrete scores -/

/-- a model of one feature with initial score `c` and no trees -/
def exConst (c : Rat) : LGB.Model Rat := ⟨"regression", 1, 0, 1, [], 1, 0, c, false⟩

/-- two validation rows with targets 0 and 2 -/
def exRows (w : Option (List Rat)) : Valid Rat := ⟨⟨2, 1, fun _ _ => 0⟩, ⟨2, 1, fun i _ => [0, 2].getD i 0⟩, w⟩

/-- the score, if there is one -/
def scoreOf : Outcome Rat → Option Rat
  | .ok a => some a
  | _ => none

example : scoreOf (evaluateValidation exENum (fun _ => 0) 1000 exObjective (exConst 1) (some (exRows none))) = some (1 / 2) ∧
    scoreOf (evaluateValidation exENum (fun _ => 0) 1000 exObjective (exConst 1) (some (exRows (some [1, 3])))) = some (3 / 2) ∧
    scoreOf (evaluateValidation exENum (fun _ => 0) 1000 exObjective (exConst 1) (some (exRows (some [1, 0])))) = some 0 ∧
    scoreOf (evaluateValidation exENum (fun _ => 0) 1000 exObjective (exConst 7) (some (exRows (some [1, 0])))) = some 0 := by
  decide +kernel

example : ScoresRows (fun _ => 0) (exConst 1) (exRows none) (fun _ => 1) := fun _ _ => rfl

example : PredictsRows exENum (fun _ => 0) (exConst 1) (exRows (some [1, 0])) (fun _ => 1) ∧ (exRows (some [1, 0])).w 1 = 0 :=
  ⟨predicts_of_raw exENum _ (exConst 1) _ (fun _ => 1) (fun _ _ => rfl) rfl (by decide) (by decide) id (fun _ _ => by decide +kernel), by decide +kernel⟩

/-- three iterations with early stopping: `exConfig` on the rows it was trained on -/
example : (exConfig 3 1).Plain := ⟨by decide, Or.inl (by decide), rfl⟩

example : (match (exConfig 3 1).fitWithValidation exSlow exENum 1000 (-1000) 5 (exProblem [1, 2] [0, 4]) "regression" 0 1 "" (some
    ⟨⟨2, 1, fun i _ => [1, 2].getD i 0⟩, ⟨2, 1, fun i _ => [4, 0].getD i 0⟩, none⟩) with
    | .ok st => some st.trees.length
    | _ => none) = some 1 := by
  decide +kernel

end Scigo.Trainer
