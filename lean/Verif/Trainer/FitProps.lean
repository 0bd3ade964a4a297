import Verif.Trainer.Fit
import Verif.Trainer.GrowProps
import Verif.Trainer.SampleProps
import Verif.Hist.SplitProps
import Verif.LGB.Ensemble
import Mathlib.Tactic.Linarith

/-!
# The training loop (C122, C128)

Specification: the score of a row under a list of trees (`IsScore`), the factors by which a gradient is weighted (`factors`), the regularised
objective of a leaf (`Hist.leafObjective`) and the weighted mean of the losses.
-/

set_option linter.unusedSectionVars false

namespace Scigo.Trainer

variable {α : Type}

/-! ### C122: leaf values -/

section leaf
variable [Field α] [LinearOrder α] [IsStrictOrderedRing α]

/-- **C122** (exact arithmetic): the value of a leaf minimises `G w + (H + lambda + 1e-10) w² / 2 + alpha |w|`, `G` and `H` being the sums of the
gradients and hessians of its rows. A negative `alpha` counts as 0. -/
theorem leaf_value_optimal (eps l1 l2 G H : α) (hpos : 0 < H + l2 + eps) (w : α) :
    Hist.leafObjective (l2 + eps) (max l1 0) G H (leafValue eps l1 l2 G H) ≤ Hist.leafObjective (l2 + eps) (max l1 0) G H w := by
  have hD : 0 < H + (l2 + eps) := by linarith
  have e : H + l2 + eps = H + (l2 + eps) := by ring
  unfold Hist.leafObjective leafValue
  simp only
  rw [e]
  obtain ⟨D, hDe⟩ : ∃ D, D = H + (l2 + eps) := ⟨_, rfl⟩
  rw [← hDe] at hD ⊢
  clear hDe e hpos
  by_cases h1 : 0 < l1
  · rw [if_pos h1, max_eq_left h1.le]
    by_cases h2 : l1 < G
    · rw [if_pos h2]
      obtain ⟨v, hv⟩ : ∃ v, v = -(G - l1) / D := ⟨_, rfl⟩
      rw [← hv]
      have hvD : D * v = l1 - G := by rw [hv]; field_simp; ring
      have hneg : v ≤ 0 := by rw [hv]; exact div_nonpos_of_nonpos_of_nonneg (by linarith) hD.le
      rw [abs_of_nonpos hneg]
      have hw := neg_abs_le w
      have hG : G = l1 - D * v := by linarith
      clear hv hvD
      subst hG
      have e : (l1 - D * v) * w + D * w ^ 2 / 2 + l1 * |w| - ((l1 - D * v) * v + D * v ^ 2 / 2 + l1 * -v) = D * (w - v) ^ 2 / 2 + l1 * (|w| + w) := by ring
      have p1 : 0 ≤ D * (w - v) ^ 2 / 2 := by positivity
      have p2 : 0 ≤ l1 * (|w| + w) := mul_nonneg h1.le (by linarith)
      linarith
    · rw [if_neg h2]
      by_cases h3 : G < -l1
      · rw [if_pos h3]
        obtain ⟨v, hv⟩ : ∃ v, v = -(G + l1) / D := ⟨_, rfl⟩
        rw [← hv]
        have hvD : D * v = -l1 - G := by rw [hv]; field_simp; ring
        have hposv : 0 ≤ v := by rw [hv]; exact div_nonneg (by linarith) hD.le
        rw [abs_of_nonneg hposv]
        have hw := le_abs_self w
        have hG : G = -l1 - D * v := by linarith
        clear hv hvD
        subst hG
        have e : (-l1 - D * v) * w + D * w ^ 2 / 2 + l1 * |w| - ((-l1 - D * v) * v + D * v ^ 2 / 2 + l1 * v) = D * (w - v) ^ 2 / 2 + l1 * (|w| - w) := by ring
        have p1 : 0 ≤ D * (w - v) ^ 2 / 2 := by positivity
        have p2 : 0 ≤ l1 * (|w| - w) := mul_nonneg h1.le (by linarith)
        linarith
      · rw [if_neg h3]
        push Not at h2 h3
        simp only [mul_zero, abs_zero, ne_eq, OfNat.ofNat_ne_zero, not_false_eq_true, zero_pow, zero_div, add_zero]
        rcases abs_cases w with ⟨ha, hw⟩ | ⟨ha, hw⟩
        · rw [ha]
          nlinarith [mul_nonneg hD.le (sq_nonneg w), mul_nonneg hw (by linarith : (0 : α) ≤ G + l1)]
        · rw [ha]
          nlinarith [mul_nonneg hD.le (sq_nonneg w), mul_nonneg (neg_nonneg.2 hw.le) (by linarith : (0 : α) ≤ l1 - G)]
  · rw [if_neg h1, max_eq_right (not_lt.1 h1)]
    obtain ⟨v, hv⟩ : ∃ v, v = -G / D := ⟨_, rfl⟩
    rw [← hv]
    have hvD : D * v = -G := by rw [hv]; field_simp
    have hG : G = -(D * v) := by linarith
    clear hv hvD
    subst hG
    have e : -(D * v) * w + D * w ^ 2 / 2 + 0 * |w| - (-(D * v) * v + D * v ^ 2 / 2 + 0 * |v|) = D * (w - v) ^ 2 / 2 := by ring
    have p1 : 0 ≤ D * (w - v) ^ 2 / 2 := by positivity
    linarith

example : leafValue (0 : Rat) 1 2 5 2 = -1 ∧ Hist.leafObjective (2 : Rat) 1 5 2 (-1) = -2 ∧ Hist.leafObjective (2 : Rat) 1 5 2 0 = 0 := by
  refine ⟨by decide +kernel, ?_, ?_⟩ <;> (unfold Hist.leafObjective; norm_num)

/-- moving by a fraction (at most 2) of the leaf value does not increase the quadratic model without regularisation -/
theorem leaf_step (eps l1 l2 G H lr : α) (hH : 0 ≤ H) (hl2 : 0 ≤ l2) (he : 0 < eps) (h0 : 0 ≤ lr) (h2 : lr ≤ 2) :
    leafValue eps l1 l2 G H * lr * G + (leafValue eps l1 l2 G H * lr) ^ 2 * H / 2 ≤ 0 := by
  have hD : 0 < H + l2 + eps := by linarith
  have key : leafValue eps l1 l2 G H * G ≤ -(leafValue eps l1 l2 G H ^ 2 * H) := by
    have hmain : leafValue eps l1 l2 G H * G ≤ -(leafValue eps l1 l2 G H ^ 2 * (H + l2 + eps)) := by
      unfold leafValue
      simp only
      generalize H + l2 + eps = D at hD
      by_cases h1 : 0 < l1
      · rw [if_pos h1]
        by_cases hg : l1 < G
        · rw [if_pos hg]
          obtain ⟨v, hv⟩ : ∃ v, v = -(G - l1) / D := ⟨_, rfl⟩
          rw [← hv]
          have hvD : D * v = l1 - G := by rw [hv]; field_simp; ring
          have hneg : v ≤ 0 := by rw [hv]; exact div_nonpos_of_nonpos_of_nonneg (by linarith) hD.le
          nlinarith [mul_nonneg h1.le (neg_nonneg.2 hneg)]
        · rw [if_neg hg]
          by_cases hg' : G < -l1
          · rw [if_pos hg']
            obtain ⟨v, hv⟩ : ∃ v, v = -(G + l1) / D := ⟨_, rfl⟩
            rw [← hv]
            have hvD : D * v = -l1 - G := by rw [hv]; field_simp; ring
            have hposv : 0 ≤ v := by rw [hv]; exact div_nonneg (by linarith) hD.le
            nlinarith [mul_nonneg h1.le hposv]
          · rw [if_neg hg']
            simp
      · rw [if_neg h1]
        obtain ⟨v, hv⟩ : ∃ v, v = -G / D := ⟨_, rfl⟩
        rw [← hv]
        have hvD : D * v = -G := by rw [hv]; field_simp
        have : v ^ 2 * D = v * (D * v) := by ring
        rw [this, hvD]
        linarith
    have hsq := sq_nonneg (leafValue eps l1 l2 G H)
    nlinarith [mul_nonneg hsq hl2, mul_nonneg hsq he.le]
  generalize leafValue eps l1 l2 G H = v at key
  have h3 : v * lr * G ≤ lr * -(v ^ 2 * H) := by nlinarith
  have h4 : (v * lr) ^ 2 * H / 2 ≤ lr * (v ^ 2 * H) := by
    have : (v * lr) ^ 2 * H / 2 = lr * (v ^ 2 * H) * (lr / 2) := by ring
    rw [this]
    have hn : 0 ≤ lr * (v ^ 2 * H) := by positivity
    nlinarith
  linarith

end leaf

/-! ### C128: the training loop -/

section run
variable [DecidableEq α] [LT α] [DecidableLT α] [LE α] [DecidableLE α] [Zero α] [One α] [Add α] [Sub α] [Neg α] [Mul α] [Div α]

/-- `s` is the score of the row `x`: the initial score plus the outputs of the trees, each times the learning rate -/
def IsScore (toInt : α → Int) (lr init : α) (x : List α) (trees : List (LGB.Tree α)) (s : α) : Prop :=
  ∃ vs : List α, trees.map (fun t => t.predict toInt x) = vs.map Outcome.ok ∧ s = vs.foldl (fun a v => a + v * lr) init

/-- the sample weight of row `i`; 1 if there are no weights -/
def rowWeight (C : Config α) (i : Nat) : α :=
  match C.weights with
  | none => 1
  | some w => w.getD i 0

/-- the factors of the gradient of row `i`: the sample weight, and the weight of its class if there is one -/
def factors (C : Config α) (toInt : α → Int) (target : α) (i : Nat) : List α :=
  rowWeight C i ::
  (match C.classWeight with
    | none => []
    | some cw => (cw (toInt target)).toList)

theorem isScore_unique {toInt : α → Int} {lr init : α} {x : List α} {trees : List (LGB.Tree α)} {s s' : α} (h : IsScore toInt lr init x trees s)
    (h' : IsScore toInt lr init x trees s') : s = s' := by
  obtain ⟨vs, e, rfl⟩ := h
  obtain ⟨vs', e', rfl⟩ := h'
  rw [e] at e'
  rw [List.map_injective_iff.2 (fun a b h => by cases h; rfl) e']

theorem isScore_append {toInt : α → Int} {lr init : α} {x : List α} {trees : List (LGB.Tree α)} {s v : α} {t : LGB.Tree α}
    (h : IsScore toInt lr init x trees s) (hv : t.predict toInt x = .ok v) : IsScore toInt lr init x (trees ++ [t]) (s + v * lr) := by
  obtain ⟨vs, e, rfl⟩ := h
  exact ⟨vs ++ [v], by simp [e, hv], by simp⟩

theorem onDemand_ok {toInt : α → Int} {lr : α} {x : List α} {trees : List (LGB.Tree α)} {init s : α}
    (h : onDemand toInt lr x trees init = .ok s) : IsScore toInt lr init x trees s := by
  induction trees generalizing init with
  | nil =>
    cases h
    exact ⟨[], rfl, rfl⟩
  | cons t ts ih =>
    rw [onDemand] at h
    cases hp : t.predict toInt x with
    | ok v =>
      rw [hp, Outcome.bind_ok] at h
      obtain ⟨vs, e, rfl⟩ := ih h
      exact ⟨v :: vs, by simp [hp, e], by simp⟩
    | err e => rw [hp] at h; cases h
    | panic e => rw [hp] at h; cases h

theorem bind_ok_inv {β γ : Type} {o : Outcome β} {f : β → Outcome γ} {c : γ} (h : o.bind f = .ok c) : ∃ b, o = .ok b ∧ f b = .ok c := by
  cases o with
  | ok b => exact ⟨b, rfl, h⟩
  | err e => cases h
  | panic e => cases h

theorem collect_ok {f : Nat → Outcome α} {n : Nat} {l : List α} (h : collect f n = .ok l) :
    l.length = n ∧ ∀ i < n, ∃ v, f i = .ok v ∧ l[i]? = some v := by
  induction n generalizing l with
  | zero =>
    cases h
    exact ⟨rfl, by omega⟩
  | succ n ih =>
    rw [collect] at h
    obtain ⟨l', h1, h⟩ := bind_ok_inv h
    obtain ⟨v, h2, h⟩ := bind_ok_inv h
    cases h
    obtain ⟨hl, hi⟩ := ih h1
    refine ⟨by simp [hl], fun i hin => ?_⟩
    by_cases hlt : i < n
    · obtain ⟨w, e, hw⟩ := hi i hlt
      exact ⟨w, e, by rw [List.getElem?_append_left (by omega)]; exact hw⟩
    · have : i = n := by omega
      subst this
      exact ⟨v, h2, by rw [List.getElem?_append_right (by omega), hl]; simp⟩

/-- everything an iteration did -/
structure Did (C : Config α) (lib : Lib α) (byGrad : (Nat → α) → List Nat → List Nat) (rand : Nat → Nat → Nat) (fuel : Nat) (P : Problem α)
    (iteration : Nat) (st st' : St α) : Prop where
  rows : P.y.length = P.rows
  ex : ∃ (scores gs hs cache : List α) (t : LGB.Tree α) (loss : α),
    collect (C.current lib.toInt P st.trees (C.cache P st)) P.rows = .ok scores ∧
    C.derivs lib.toInt P C.objective.grad scores = .ok gs ∧ C.derivs lib.toInt P C.objective.hess scores = .ok hs ∧
    (grower lib C.hb C.lim C.categorical ⟨P.cols, P.x, (C.sample lib byGrad (rand iteration) P iteration (fun i => gs.getD i 0) (fun i => hs.getD i 0)).2.1,
      (C.sample lib byGrad (rand iteration) P iteration (fun i => gs.getD i 0) (fun i => hs.getD i 0)).2.2⟩).buildTree C.learningRate fuel
        (C.sample lib byGrad (rand iteration) P iteration (fun i => gs.getD i 0) (fun i => hs.getD i 0)).1 = some t ∧
    (∀ i < P.rows, ∃ s v, (C.cache P st)[i]? = some s ∧ t.predict lib.toInt (P.row i) = .ok v ∧ cache[i]? = some (s + v * t.shrinkage)) ∧
    cache.length = P.rows ∧ C.loss lib.toInt P (st.trees ++ [t]) cache = .ok loss ∧ st' = ⟨st.trees ++ [t], some cache, st.losses ++ [loss]⟩

theorem iterate_inv {C : Config α} {lib : Lib α} {byGrad : (Nat → α) → List Nat → List Nat} {rand : Nat → Nat → Nat} {fuel : Nat} {P : Problem α}
    {iteration : Nat} {st st' : St α} (h : C.iterate lib byGrad rand fuel P iteration st = .ok st') : Did C lib byGrad rand fuel P iteration st st' := by
  unfold Config.iterate at h
  split_ifs at h with hr
  · push Not at hr
    refine ⟨hr, ?_⟩
    obtain ⟨scores, h1, h⟩ := bind_ok_inv h
    obtain ⟨gs, h2, h⟩ := bind_ok_inv h
    obtain ⟨hs, h3, h⟩ := bind_ok_inv h
    simp only at h
    split at h
    · cases h
    · next t ht =>
      obtain ⟨cache, h4, h⟩ := bind_ok_inv h
      obtain ⟨loss, h5, h⟩ := bind_ok_inv h
      cases h
      obtain ⟨hl, hi⟩ := collect_ok h4
      refine ⟨scores, gs, hs, cache, t, loss, h1, h2, h3, ht, fun i hin => ?_, hl, h5, rfl⟩
      obtain ⟨v, e, hv⟩ := hi i hin
      split at e
      · cases e
      · next s hs =>
        obtain ⟨o, e1, e2⟩ := bind_ok_inv e
        cases e2
        exact ⟨s, o, hs, e1, hv⟩

/-- the derivatives `d` (gradients or hessians) of the objective at the given scores, weighted; rows outside the training set have none -/
def weightedDeriv (C : Config α) (toInt : α → Int) (P : Problem α) (d : α → α → α) (scores : Nat → α) (i : Nat) : α :=
  if i < P.rows then (factors C toInt (P.y.getD i 0) i).foldl (· * ·) (d (scores i) (P.y.getD i 0)) else 0

/-- tree number `k` is the one grown from the derivatives of the objective at the scores of the trees before it -/
def GrownFrom (C : Config α) (lib : Lib α) (byGrad : (Nat → α) → List Nat → List Nat) (rand : Nat → Nat → Nat) (fuel : Nat) (P : Problem α)
    (k : Nat) (prev : List (LGB.Tree α)) (t : LGB.Tree α) : Prop :=
  ∃ scores : Nat → α, (∀ i < P.rows, IsScore lib.toInt C.learningRate (C.init P) (P.row i) prev (scores i)) ∧
    let smp := C.sample lib byGrad (rand k) P k (weightedDeriv C lib.toInt P C.objective.grad scores) (weightedDeriv C lib.toInt P C.objective.hess scores)
    (grower lib C.hb C.lim C.categorical ⟨P.cols, P.x, smp.2.1, smp.2.2⟩).buildTree C.learningRate fuel smp.1 = some t

/-- `l` is the weighted mean of the losses of the rows at the scores of the trees -/
def IsLoss (C : Config α) (toInt : α → Int) (P : Problem α) (trees : List (LGB.Tree α)) (l : α) : Prop :=
  ∃ scores : Nat → α, (∀ i < P.rows, IsScore toInt C.learningRate (C.init P) (P.row i) trees (scores i)) ∧
    l = (List.range P.rows).foldl (fun a i => a + C.objective.loss (scores i) (P.y.getD i 0) * rowWeight C i) 0 /
      (List.range P.rows).foldl (fun a i => a + rowWeight C i) 0

theorem weight_ok {C : Config α} {i : Nat} {w : α} (h : C.weight i = .ok w) : w = rowWeight C i := by
  unfold Config.weight at h
  unfold rowWeight
  split at h
  · next hw => rw [hw]; cases h; rfl
  · next l hw =>
    rw [hw]
    split at h
    · next v hv =>
      cases h
      simp only [List.getD_eq_getElem?_getD, hv]
      rfl
    · cases h

theorem weighted_eq (C : Config α) (toInt : α → Int) (target v : α) (i : Nat) :
    C.weighted toInt target (rowWeight C i) v = (factors C toInt target i).foldl (· * ·) v := by
  unfold Config.weighted factors
  cases C.classWeight with
  | none => rfl
  | some cw =>
    simp only
    cases cw (toInt target) with
    | none => rfl
    | some c => rfl

theorem derivs_ok {C : Config α} {toInt : α → Int} {P : Problem α} {d : α → α → α} {scores gs : List α} (h : C.derivs toInt P d scores = .ok gs) :
    (fun i => gs.getD i 0) = weightedDeriv C toInt P d (fun i => scores.getD i 0) := by
  obtain ⟨hl, hi⟩ := collect_ok h
  funext i
  unfold weightedDeriv
  by_cases hin : i < P.rows
  · rw [if_pos hin]
    obtain ⟨v, e, hv⟩ := hi i hin
    obtain ⟨w, e1, e2⟩ := bind_ok_inv e
    cases e2
    rw [weight_ok e1] at hv
    rw [List.getD_eq_getElem?_getD, hv]
    exact weighted_eq C toInt _ _ i
  · rw [if_neg hin, List.getD_eq_getElem?_getD, List.getElem?_eq_none (by omega)]
    rfl

/-- the cached scores are the scores -/
def Cached (C : Config α) (toInt : α → Int) (P : Problem α) (trees : List (LGB.Tree α)) (cache : List α) : Prop :=
  C.wide = false → ∀ i < P.rows, ∃ s, cache[i]? = some s ∧ IsScore toInt C.learningRate (C.init P) (P.row i) trees s

theorem current_ok {C : Config α} {toInt : α → Int} {P : Problem α} {trees : List (LGB.Tree α)} {cache : List α} (hc : Cached C toInt P trees cache)
    {i : Nat} (hi : i < P.rows) {s : α} (h : C.current toInt P trees cache i = .ok s) : IsScore toInt C.learningRate (C.init P) (P.row i) trees s := by
  unfold Config.current at h
  by_cases hw : C.wide = true
  · rw [if_pos hw] at h
    exact onDemand_ok h
  · rw [if_neg hw] at h
    obtain ⟨v, e, hv⟩ := hc (by simpa using hw) i hi
    rw [e] at h
    cases h
    exact hv

theorem lossSums_ok {C : Config α} {toInt : α → Int} {P : Problem α} {trees : List (LGB.Tree α)} {cache : List α} (hc : Cached C toInt P trees cache)
    {n : Nat} (hn : n ≤ P.rows) {s : α × α} (h : C.lossSums toInt P trees cache n = .ok s) :
    ∃ scores : Nat → α, (∀ i < n, IsScore toInt C.learningRate (C.init P) (P.row i) trees (scores i)) ∧
      s.1 = (List.range n).foldl (fun a i => a + C.objective.loss (scores i) (P.y.getD i 0) * rowWeight C i) 0 ∧
      s.2 = (List.range n).foldl (fun a i => a + rowWeight C i) 0 := by
  induction n generalizing s with
  | zero =>
    cases h
    exact ⟨fun _ => 0, by omega, rfl, rfl⟩
  | succ n ih =>
    rw [Config.lossSums] at h
    obtain ⟨s0, h1, h⟩ := bind_ok_inv h
    obtain ⟨p, h2, h⟩ := bind_ok_inv h
    obtain ⟨w, h3, h⟩ := bind_ok_inv h
    cases h
    obtain ⟨scores, hs, e1, e2⟩ := ih (by omega) h1
    have hp := current_ok hc (by omega) h2
    refine ⟨fun i => if i = n then p else scores i, fun i hi => ?_, ?_, ?_⟩
    · by_cases hin : i = n
      · subst hin; simpa using hp
      · simp only [if_neg hin]
        exact hs i (by omega)
    · rw [List.range_succ, List.foldl_append]
      simp only [List.foldl_cons, List.foldl_nil, if_true]
      rw [e1, weight_ok h3]
      congr 1
      have : ∀ (l : List Nat) (a : α), (∀ i ∈ l, i ≠ n) → l.foldl (fun a i => a + C.objective.loss (scores i) (P.y.getD i 0) * rowWeight C i) a =
          l.foldl (fun a i => a + C.objective.loss (if i = n then p else scores i) (P.y.getD i 0) * rowWeight C i) a := by
        intro l
        induction l with
        | nil => intro a _; rfl
        | cons j l ih2 =>
          intro a hj
          rw [List.foldl_cons, List.foldl_cons, if_neg (hj j (List.mem_cons_self ..)), ih2 _ (fun i hi => hj i (List.mem_cons_of_mem _ hi))]
      exact this _ _ (fun i hi => by have := List.mem_range.1 hi; omega)
    · rw [List.range_succ, List.foldl_append, e2, weight_ok h3]
      rfl

theorem buildTree_shrinkage (G : Grower α) {lr : α} {fuel : Nat} {I : List Nat} {t : LGB.Tree α} (h : G.buildTree lr fuel I = some t) : t.shrinkage = lr := by
  unfold Grower.buildTree at h
  split at h
  · cases h
  · cases h; rfl

/-- what holds after `k` iterations -/
structure Inv (C : Config α) (lib : Lib α) (byGrad : (Nat → α) → List Nat → List Nat) (rand : Nat → Nat → Nat) (fuel : Nat) (P : Problem α)
    (k : Nat) (st : St α) : Prop where
  trees : st.trees.length = k
  losses : st.losses.length = k
  cached : Cached C lib.toInt P st.trees (C.cache P st)
  preds : 0 < k → ∃ p, st.preds = some p ∧ p.length = P.rows
  shrink : ∀ t ∈ st.trees, t.shrinkage = C.learningRate
  grown : ∀ j t, st.trees[j]? = some t → GrownFrom C lib byGrad rand fuel P j (st.trees.take j) t
  loss : ∀ j l, st.losses[j]? = some l → IsLoss C lib.toInt P (st.trees.take (j + 1)) l

theorem inv_new (C : Config α) (lib : Lib α) (byGrad : (Nat → α) → List Nat → List Nat) (rand : Nat → Nat → Nat) (fuel : Nat) (P : Problem α) :
    Inv C lib byGrad rand fuel P 0 (St.new : St α) := by
  refine ⟨rfl, rfl, fun _ i hi => ⟨C.init P, ?_, [], rfl, rfl⟩, by omega, by simp [St.new], by simp [St.new], by simp [St.new]⟩
  show (List.replicate P.rows (C.init P))[i]? = _
  rw [List.getElem?_replicate_of_lt hi]

theorem inv_step {C : Config α} {lib : Lib α} {byGrad : (Nat → α) → List Nat → List Nat} {rand : Nat → Nat → Nat} {fuel : Nat} {P : Problem α}
    {k : Nat} {st st' : St α} (h : Inv C lib byGrad rand fuel P k st) (d : Did C lib byGrad rand fuel P k st st') :
    Inv C lib byGrad rand fuel P (k + 1) st' := by
  obtain ⟨_, scores, gs, hs, cache, t, loss, h1, h2, h3, h4, h5, h6, h7, rfl⟩ := d
  have hsh := buildTree_shrinkage _ h4
  obtain ⟨hsl, hsi⟩ := collect_ok h1
  have hscore : ∀ i < P.rows, IsScore lib.toInt C.learningRate (C.init P) (P.row i) st.trees (scores.getD i 0) := by
    intro i hi
    obtain ⟨v, e, hv⟩ := hsi i hi
    rw [List.getD_eq_getElem?_getD, hv]
    exact current_ok h.cached hi e
  have hcached : Cached C lib.toInt P (st.trees ++ [t]) cache := by
    intro hw i hi
    obtain ⟨s, v, e1, e2, e3⟩ := h5 i hi
    obtain ⟨s', e4, e5⟩ := h.cached hw i hi
    rw [e1] at e4
    cases e4
    rw [hsh] at e3
    exact ⟨_, e3, isScore_append e5 e2⟩
  refine ⟨by simp [h.trees], by simp [h.losses], hcached, fun _ => ⟨cache, rfl, h6⟩, ?_, ?_, ?_⟩
  · intro t' ht'
    rcases List.mem_append.1 ht' with ht' | ht'
    · exact h.shrink t' ht'
    · rw [List.mem_singleton.1 ht', hsh]
  · intro j t' ht'
    show GrownFrom C lib byGrad rand fuel P j ((st.trees ++ [t]).take j) t'
    have ht'' : (st.trees ++ [t])[j]? = some t' := ht'
    by_cases hj : j < st.trees.length
    · rw [List.getElem?_append_left hj] at ht''
      rw [List.take_append_of_le_length hj.le]
      exact h.grown j t' ht''
    · rw [List.getElem?_append_right (by omega)] at ht''
      have hj' : j = k := by
        have := (List.getElem?_eq_some_iff.1 ht'').1
        simp only [List.length_singleton] at this
        have := h.trees
        omega
      subst hj'
      have htt : t = t' := by
        rw [← h.trees, Nat.sub_self] at ht''
        simpa using ht''
      subst htt
      rw [List.take_append_of_le_length h.trees.ge, List.take_of_length_le h.trees.le]
      refine ⟨fun i => scores.getD i 0, hscore, ?_⟩
      rw [derivs_ok h2, derivs_ok h3] at h4
      exact h4
  · intro j l hl
    show IsLoss C lib.toInt P ((st.trees ++ [t]).take (j + 1)) l
    have hl' : (st.losses ++ [loss])[j]? = some l := hl
    by_cases hj : j < st.losses.length
    · rw [List.getElem?_append_left hj] at hl'
      have := h.losses
      have := h.trees
      rw [List.take_append_of_le_length (by omega)]
      exact h.loss j l hl'
    · rw [List.getElem?_append_right (by omega)] at hl'
      have hj' : j = k := by
        have := (List.getElem?_eq_some_iff.1 hl').1
        simp only [List.length_singleton] at this
        have := h.losses
        omega
      subst hj'
      have hll : loss = l := by
        rw [← h.losses, Nat.sub_self] at hl'
        simpa using hl'
      subst hll
      rw [List.take_of_length_le (by simp [h.trees])]
      obtain ⟨s, e1, e2⟩ := bind_ok_inv h7
      cases e2
      obtain ⟨sc, hsc, e3, e4⟩ := lossSums_ok hcached le_rfl e1
      exact ⟨sc, hsc, by rw [e3, e4]⟩

theorem run_inv {C : Config α} {lib : Lib α} {byGrad : (Nat → α) → List Nat → List Nat} {rand : Nat → Nat → Nat} {fuel : Nat} {P : Problem α}
    {before after : Nat → St α → CB} {n k : Nat} {st st' : St α} (h : Inv C lib byGrad rand fuel P k st)
    (hr : C.run lib byGrad rand fuel P before after n k st = .ok st') :
    ∃ k', k ≤ k' ∧ k' ≤ k + n ∧ Inv C lib byGrad rand fuel P k' st' ∧
      ((∀ i s, before i s = .go ∧ after i s = .go) → k' = k + n) ∧ ((∀ i s, before i s = .go) → 0 < n → k < k') := by
  induction n generalizing k st with
  | zero =>
    cases hr
    exact ⟨k, le_rfl, le_rfl, h, fun _ => rfl, by omega⟩
  | succ n ih =>
    rw [Config.run] at hr
    split at hr
    · cases hr
    · next hb =>
      cases hr
      exact ⟨k, le_rfl, by omega, h, fun hg => (by rw [(hg _ _).1] at hb; cases hb), fun hg => (by rw [hg _ _] at hb; cases hb)⟩
    · obtain ⟨s1, e1, hr⟩ := bind_ok_inv hr
      have h1 := inv_step h (iterate_inv e1)
      split at hr
      · cases hr
      · next ha =>
        cases hr
        exact ⟨k + 1, by omega, by omega, h1, fun hg => (by rw [(hg _ _).2] at ha; cases ha), fun _ _ => by omega⟩
      · obtain ⟨k', a, b, c, d, _⟩ := ih h1 hr
        exact ⟨k', by omega, by omega, c, fun hg => by rw [d hg]; omega, fun _ _ => by omega⟩

/-- **C128**: training as a whole. A new trainer that finishes has at most `NumIterations` trees (exactly that many if no callback stops it),
all with the learning rate as shrinkage. Tree `k` is the tree grown from the weighted gradients and hessians of the objective at the scores of
the trees before it. The score cached for a training row is the initial score plus the outputs of all trees times the learning rate,
and loss `k` reported to the callbacks is the weighted mean of the losses at the scores of the first `k + 1` trees. -/
theorem fit_boosts (C : Config α) (lib : Lib α) (byGrad : (Nat → α) → List Nat → List Nat) (rand : Nat → Nat → Nat) (fuel : Nat) (P : Problem α)
    (before after : Nat → St α → CB) (st : St α) (h : C.fit lib byGrad rand fuel P before after St.new = .ok st) :
    st.trees.length ≤ C.iterations ∧ ((∀ i s, before i s = .go ∧ after i s = .go) → st.trees.length = C.iterations) ∧
    (∀ t ∈ st.trees, t.shrinkage = C.learningRate) ∧
    (∀ k t, st.trees[k]? = some t → GrownFrom C lib byGrad rand fuel P k (st.trees.take k) t) ∧
    (st.trees ≠ [] → C.wide = false → ∃ p, st.preds = some p ∧ p.length = P.rows ∧
      ∀ i < P.rows, ∃ s, p[i]? = some s ∧ IsScore lib.toInt C.learningRate (C.init P) (P.row i) st.trees s) ∧
    st.losses.length = st.trees.length ∧ ∀ k l, st.losses[k]? = some l → IsLoss C lib.toInt P (st.trees.take (k + 1)) l := by
  obtain ⟨k, -, hk, hi, hall, -⟩ := run_inv (inv_new C lib byGrad rand fuel P) h
  refine ⟨by rw [hi.trees]; omega, fun hg => by rw [hi.trees, hall hg]; omega, hi.shrink, hi.grown, fun hne hw => ?_, by rw [hi.losses, hi.trees], hi.loss⟩
  have hpos : 0 < k := by
    have := List.length_pos_iff.2 hne
    rw [hi.trees] at this
    exact this
  obtain ⟨p, e, hl⟩ := hi.preds hpos
  refine ⟨p, e, hl, fun i hin => ?_⟩
  have := hi.cached hw i hin
  rw [Config.cache, e] at this
  exact this

end run

section loss
variable [Field α] [LinearOrder α] [IsStrictOrderedRing α]

theorem foldl_sum (l : List Nat) (f : Nat → α) (a : α) : l.foldl (fun a i => a + f i) a = a + (l.map f).sum := by
  induction l generalizing a with
  | nil => simp
  | cons b l ih => rw [List.foldl_cons, ih, List.map_cons, List.sum_cons, add_assoc]

theorem sum_flatten (parts : List (List Nat)) (f : Nat → α) : (parts.flatten.map f).sum = (parts.map fun P => (P.map f).sum).sum := by
  induction parts with
  | nil => rfl
  | cons P parts ih => rw [List.flatten_cons, List.map_append, List.sum_append, ih, List.map_cons, List.sum_cons]

theorem sum_le_sum {β : Type} (l : List β) (f g : β → α) (h : ∀ b ∈ l, f b ≤ g b) : (l.map f).sum ≤ (l.map g).sum := by
  induction l with
  | nil => simp
  | cons b l ih =>
    rw [List.map_cons, List.sum_cons, List.map_cons, List.sum_cons]
    exact add_le_add (h b (List.mem_cons_self ..)) (ih fun c hc => h c (List.mem_cons_of_mem _ hc))

/-- the change of the squared error of the rows of one leaf -/
theorem leaf_loss (Q : List Nat) (s y w : Nat → α) (c : α) :
    (Q.map fun i => (s i + c - y i) ^ 2 * w i / 2).sum =
      (Q.map fun i => (s i - y i) ^ 2 * w i / 2).sum + (c * (Q.map fun i => (s i - y i) * w i).sum + c ^ 2 * (Q.map w).sum / 2) := by
  induction Q with
  | nil => simp
  | cons i Q ih =>
    simp only [List.map_cons, List.sum_cons, ih]
    ring

/-- the squared error before and after one tree -/
theorem tree_loss (lib : Lib α) (hratio : ∀ l, (lib.byRatio l).Perm l) (he : 0 < lib.eps) (hb : Hist.Builder α) (hl2 : 0 ≤ hb.lambda) (lim : Limits α)
    (categorical : List Int) (cols : Nat) (x : Nat → Nat → α) (s y w : Nat → α) (rows : Nat) (hw : ∀ i < rows, 0 ≤ w i) (g h : Nat → α)
    (hg : ∀ i < rows, g i = (s i - y i) * w i) (hh : ∀ i < rows, h i = w i) (lr : α) (h0 : 0 ≤ lr) (h2 : lr ≤ 2) (fuel : Nat) (t : LGB.Tree α)
    (ht : (grower lib hb lim categorical ⟨cols, x, g, h⟩).buildTree lr fuel (List.range rows) = some t) (s' : Nat → α)
    (hs' : ∀ i < rows, ∃ v, t.predict lib.toInt ((List.range cols).map (x i)) = .ok v ∧ s' i = s i + v * lr) :
    ((List.range rows).map fun i => (s' i - y i) ^ 2 * w i / 2).sum ≤ ((List.range rows).map fun i => (s i - y i) ^ 2 * w i / 2).sum := by
  obtain ⟨parts, -, -, hp, hval⟩ := trained_tree_fits_rows_partial lib hratio hb lim categorical ⟨cols, x, g, h⟩ (List.range rows) lr fuel t ht
  have hmem : ∀ Q ∈ parts, ∀ i ∈ Q, i < rows := fun Q hQ i hi => List.mem_range.1 (hp.mem_iff.1 (List.mem_flatten.2 ⟨Q, hQ, hi⟩))
  rw [← (hp.map fun i => (s' i - y i) ^ 2 * w i / 2).sum_eq, ← (hp.map fun i => (s i - y i) ^ 2 * w i / 2).sum_eq, sum_flatten, sum_flatten]
  apply sum_le_sum
  intro Q hQ
  have eG : (Q.map g).sum = (Q.map fun i => (s i - y i) * w i).sum := by
    rw [List.map_congr_left fun i hi => hg i (hmem Q hQ i hi)]
  have eH : (Q.map h).sum = (Q.map w).sum := by rw [List.map_congr_left fun i hi => hh i (hmem Q hQ i hi)]
  have hv := hval Q hQ
  simp only at hv
  rw [eG, eH] at hv
  have e1 : (Q.map fun i => (s' i - y i) ^ 2 * w i / 2) = Q.map fun i =>
      (s i + leafValue lib.eps hb.alpha hb.lambda (Q.map fun i => (s i - y i) * w i).sum (Q.map w).sum * lr - y i) ^ 2 * w i / 2 := by
    apply List.map_congr_left
    intro i hi
    obtain ⟨v, e, es⟩ := hs' i (hmem Q hQ i hi)
    rw [hv i hi] at e
    cases e
    rw [es]
  rw [e1, leaf_loss]
  have hH : 0 ≤ (Q.map w).sum := List.sum_nonneg fun v hv => by
    obtain ⟨i, hi, rfl⟩ := List.mem_map.1 hv
    exact hw i (hmem Q hQ i hi)
  have := leaf_step lib.eps hb.alpha hb.lambda (Q.map fun i => (s i - y i) * w i).sum (Q.map w).sum lr hH hl2 he h0 h2
  linarith

/-- **C128** (exact arithmetic): with the squared error, no bagging or GOSS, no class weights, non-negative sample weights of positive sum,
`lambda_l2 ≥ 0` and a learning rate between 0 and 2, the training loss never increases from one iteration to the next, and is never
above the loss of the initial score -/
theorem squared_loss_decreases (C : Config α) (lib : Lib α) (hratio : ∀ l, (lib.byRatio l).Perm l) (he : 0 < lib.eps)
    (byGrad : (Nat → α) → List Nat → List Nat) (rand : Nat → Nat → Nat) (fuel : Nat) (P : Problem α) (before after : Nat → St α → CB)
    (hgrad : ∀ p y, C.objective.grad p y = p - y) (hhess : ∀ p y, C.objective.hess p y = 1) (hloss : ∀ p y, C.objective.loss p y = (p - y) ^ 2 / 2)
    (hgoss : C.boosting ≠ "goss") (hbag : C.baggingFreq ≤ 0 ∨ 1 ≤ C.baggingFraction ∨ C.baggingFraction ≤ 0) (hcw : C.classWeight = none)
    (hw : ∀ i < P.rows, 0 ≤ rowWeight C i) (hsum : 0 < ((List.range P.rows).map (rowWeight C)).sum) (hl2 : 0 ≤ C.hb.lambda) (h0 : 0 ≤ C.learningRate)
    (h2 : C.learningRate ≤ 2) (st : St α) (h : C.fit lib byGrad rand fuel P before after St.new = .ok st) :
    st.losses.Pairwise (fun a b => b ≤ a) ∧ ∀ l ∈ st.losses,
      l ≤ ((List.range P.rows).map fun i => (C.init P - P.y.getD i 0) ^ 2 / 2 * rowWeight C i).sum / ((List.range P.rows).map (rowWeight C)).sum := by
  obtain ⟨-, -, -, hgrown, -, hlen, hl⟩ := fit_boosts C lib byGrad rand fuel P before after st h
  have hloss' : ∀ trees l, IsLoss C lib.toInt P trees l → ∃ scores : Nat → α,
      (∀ i < P.rows, IsScore lib.toInt C.learningRate (C.init P) (P.row i) trees (scores i)) ∧
      l = ((List.range P.rows).map fun i => (scores i - P.y.getD i 0) ^ 2 * rowWeight C i / 2).sum / ((List.range P.rows).map (rowWeight C)).sum := by
    rintro trees l ⟨scores, hs, rfl⟩
    refine ⟨scores, hs, ?_⟩
    rw [foldl_sum, foldl_sum, zero_add, zero_add]
    congr 2
    apply List.map_congr_left
    intro i _
    rw [hloss]
    ring
  have step : ∀ k < st.losses.length, ∀ scores scores' : Nat → α,
      (∀ i < P.rows, IsScore lib.toInt C.learningRate (C.init P) (P.row i) (st.trees.take k) (scores i)) →
      (∀ i < P.rows, IsScore lib.toInt C.learningRate (C.init P) (P.row i) (st.trees.take (k + 1)) (scores' i)) →
      ((List.range P.rows).map fun i => (scores' i - P.y.getD i 0) ^ 2 * rowWeight C i / 2).sum ≤
        ((List.range P.rows).map fun i => (scores i - P.y.getD i 0) ^ 2 * rowWeight C i / 2).sum := by
    intro k hk scores scores' hs hs'
    rw [hlen] at hk
    have htk : st.trees[k]? = some st.trees[k] := List.getElem?_eq_getElem hk
    obtain ⟨sc, hsc, hb⟩ := hgrown k _ htk
    simp only at hb
    have hsample : ∀ g h : Nat → α, C.sample lib byGrad (rand k) P k g h = (List.range P.rows, g, h) := by
      intro g h
      unfold Config.sample
      rw [if_neg hgoss]
      unfold sampleInstances
      rcases hbag with hb | hb
      · rw [if_pos (Or.inl hb)]
      · split_ifs <;> first | rfl | exact absurd hb ‹_›
    rw [hsample] at hb
    dsimp only at hb
    have hfac : ∀ i, factors C lib.toInt (P.y.getD i 0) i = [rowWeight C i] := fun i => by unfold factors; rw [hcw]
    refine tree_loss lib hratio he C.hb hl2 C.lim C.categorical P.cols P.x scores (fun i => P.y.getD i 0) (rowWeight C) P.rows hw _ _ ?_ ?_
      C.learningRate h0 h2 fuel _ hb scores' ?_
    · intro i hi
      unfold weightedDeriv
      rw [if_pos hi, hfac, hgrad, isScore_unique (hs i hi) (hsc i hi)]
      rfl
    · intro i hi
      unfold weightedDeriv
      rw [if_pos hi, hfac, hhess]
      exact one_mul _
    · intro i hi
      have hsi := hs' i hi
      rw [List.take_succ_eq_append_getElem hk] at hsi
      obtain ⟨vs, e, es⟩ := hsi
      rw [List.map_append] at e
      obtain ⟨us, u2, rfl, e1, e2⟩ := List.append_eq_map_iff.1 e
      have hu2 : u2.length = 1 := by simpa using congrArg List.length e2
      obtain ⟨v, rfl⟩ := List.length_eq_one_iff.1 hu2
      · simp only [List.map_cons, List.map_nil, List.cons.injEq, and_true] at e2
        refine ⟨v, e2.symm, ?_⟩
        rw [es, List.foldl_append, isScore_unique (hs i hi) ⟨us, e1.symm, rfl⟩]
        rfl
  have hnext : ∀ (k : Nat) (l : α), st.losses[k]? = some l → ∀ l0, IsLoss C lib.toInt P (st.trees.take k) l0 → l ≤ l0 := by
    intro k l hkl l0 hl0
    obtain ⟨s0, hs0, rfl⟩ := hloss' _ _ hl0
    obtain ⟨s1, hs1, rfl⟩ := hloss' _ _ (hl k l hkl)
    exact div_le_div_of_nonneg_right (step k (List.getElem?_eq_some_iff.1 hkl).1 s0 s1 hs0 hs1) hsum.le
  have hinit : IsLoss C lib.toInt P (st.trees.take 0)
      (((List.range P.rows).map fun i => (C.init P - P.y.getD i 0) ^ 2 / 2 * rowWeight C i).sum / ((List.range P.rows).map (rowWeight C)).sum) := by
    refine ⟨fun _ => C.init P, fun i _ => ⟨[], rfl, rfl⟩, ?_⟩
    rw [foldl_sum, foldl_sum, zero_add, zero_add]
    simp only [hloss]
  have hmono : ∀ (k : Nat) (l : α), st.losses[k]? = some l → ∀ j < k, ∀ l' : α, st.losses[j]? = some l' → l ≤ l' := by
    intro k
    induction k with
    | zero => intro l _ j hj; omega
    | succ k ih =>
      intro l hkl j hj l' hjl
      have hk : k < st.losses.length := by have := (List.getElem?_eq_some_iff.1 hkl).1; omega
      have hkk : st.losses[k]? = some st.losses[k] := List.getElem?_eq_getElem hk
      have h1 := hnext (k + 1) l hkl _ (hl k _ hkk)
      by_cases hjk : j = k
      · subst hjk
        rw [hkk] at hjl
        cases hjl
        exact h1
      · exact h1.trans (ih _ hkk j (by omega) l' hjl)
  constructor
  · rw [List.pairwise_iff_getElem]
    intro i j hi hj hij
    exact hmono j _ (List.getElem?_eq_getElem hj) i hij _ (List.getElem?_eq_getElem hi)
  · intro l hmem
    obtain ⟨k, hk⟩ := List.getElem?_of_mem hmem
    have hk0 : 0 < st.losses.length := by have := (List.getElem?_eq_some_iff.1 hk).1; omega
    have hz := hnext 0 _ (List.getElem?_eq_getElem hk0) _ hinit
    by_cases h0 : k = 0
    · subst h0
      rw [List.getElem?_eq_getElem hk0] at hk
      cases hk
      exact hz
    · exact (hmono k l hk 0 (by omega) _ (List.getElem?_eq_getElem hk0)).trans hz

end loss

/-! ### Training succeeds -/

section succeeds
variable [Field α] [LinearOrder α] [IsStrictOrderedRing α]

theorem collect_all {f : Nat → Outcome α} {n : Nat} (h : ∀ i < n, ∃ v, f i = .ok v) : ∃ l, collect f n = .ok l := by
  induction n with
  | zero => exact ⟨[], rfl⟩
  | succ n ih =>
    obtain ⟨l, hl⟩ := ih fun i hi => h i (by omega)
    obtain ⟨v, hv⟩ := h n (by omega)
    exact ⟨l ++ [v], by rw [collect, hl, Outcome.bind_ok, hv, Outcome.bind_ok]⟩

/-- a tree the trainer built predicts every row of the right length -/
theorem built_predicts (lib : Lib α) (hratio : ∀ l, (lib.byRatio l).Perm l) (hb : Hist.Builder α) (lim : Limits α) (categorical : List Int) (D : Data α)
    {lr : α} {fuel : Nat} {I : List Nat} {t : LGB.Tree α} (ht : (grower lib hb lim categorical D).buildTree lr fuel I = some t) (x : List α)
    (hx : x.length = D.cols) : ∃ v, t.predict lib.toInt x = .ok v := by
  obtain ⟨d, parts, hs, hf, -⟩ := rows_reach_their_leaf_partial (grower lib hb lim categorical D) (fun v thr h => by simp at h) D.cols
    (fun I => findBestSplit_feature lib hratio hb categorical lim.minData lim.minGain D I) lr fuel I t ht
  exact ⟨_, LGB.predict_returns lib.toInt t x _ (LGB.stores_returns lib.toInt t x 0 d hs (by rw [hx]; exact hf))⟩

/-- the trees so far predict every row, and there is a cached score for every row -/
structure Ready (C : Config α) (lib : Lib α) (P : Problem α) (st : St α) : Prop where
  trees : ∀ t ∈ st.trees, ∀ x : List α, x.length = P.cols → ∃ v, t.predict lib.toInt x = .ok v
  cache : (C.cache P st).length = P.rows

theorem current_all (C : Config α) (lib : Lib α) (P : Problem α) (trees : List (LGB.Tree α)) (cache : List α)
    (ht : ∀ t ∈ trees, ∀ x : List α, x.length = P.cols → ∃ v, t.predict lib.toInt x = .ok v) (hc : cache.length = P.rows) (i : Nat) (hi : i < P.rows) :
    ∃ v, C.current lib.toInt P trees cache i = .ok v := by
  unfold Config.current
  split_ifs
  · generalize C.init P = s
    induction trees generalizing s with
    | nil => exact ⟨s, rfl⟩
    | cons t ts ih =>
      obtain ⟨v, hv⟩ := ht t (List.mem_cons_self ..) (P.row i) (by simp [Problem.row])
      obtain ⟨o, ho⟩ := ih (fun t h => ht t (List.mem_cons_of_mem _ h)) (s + v * C.learningRate)
      exact ⟨o, by rw [onDemand, hv, Outcome.bind_ok, ho]⟩
  · rw [List.getElem?_eq_getElem (by omega)]
    exact ⟨_, rfl⟩

theorem weight_all (C : Config α) (P : Problem α) (hw : ∀ w, C.weights = some w → P.rows ≤ w.length) (i : Nat) (hi : i < P.rows) :
    ∃ v, C.weight i = .ok v := by
  unfold Config.weight
  split
  · exact ⟨1, rfl⟩
  · next w e =>
    have := hw w e
    rw [List.getElem?_eq_getElem (by omega)]
    exact ⟨_, rfl⟩

theorem iterate_ready (C : Config α) (lib : Lib α) (hratio : ∀ l, (lib.byRatio l).Perm l) (byGrad : (Nat → α) → List Nat → List Nat)
    (rand : Nat → Nat → Nat) (fuel : Nat) (P : Problem α) (hy : P.y.length = P.rows) (hw : ∀ w, C.weights = some w → P.rows ≤ w.length)
    (hd : 0 < C.lim.maxDepth) (hf : C.lim.maxDepth < fuel) (k : Nat) (st : St α) (h : Ready C lib P st) :
    ∃ st', C.iterate lib byGrad rand fuel P k st = .ok st' ∧ Ready C lib P st' := by
  obtain ⟨scores, h1⟩ := collect_all (n := P.rows) (current_all C lib P st.trees (C.cache P st) h.trees h.cache)
  have hder : ∀ d : α → α → α, ∃ l, C.derivs lib.toInt P d scores = .ok l := by
    intro d
    apply collect_all
    intro i hi
    obtain ⟨w, e⟩ := weight_all C P hw i hi
    exact ⟨_, by rw [e, Outcome.bind_ok]⟩
  obtain ⟨gs, h2⟩ := hder C.objective.grad
  obtain ⟨hs, h3⟩ := hder C.objective.hess
  obtain ⟨smp, hsmp⟩ : ∃ smp, smp = C.sample lib byGrad (rand k) P k (fun i => gs.getD i 0) (fun i => hs.getD i 0) := ⟨_, rfl⟩
  obtain ⟨t, d, hb, -, -⟩ := max_depth_partial (grower lib C.hb C.lim C.categorical ⟨P.cols, P.x, smp.2.1, smp.2.2⟩) P.cols
    (fun I => findBestSplit_feature lib hratio C.hb C.categorical C.lim.minData C.lim.minGain ⟨P.cols, P.x, smp.2.1, smp.2.2⟩ I) hd C.learningRate smp.1
  have ht := hb fuel hf
  have htp := built_predicts lib hratio C.hb C.lim C.categorical ⟨P.cols, P.x, smp.2.1, smp.2.2⟩ ht
  obtain ⟨cache, h4⟩ := collect_all (n := P.rows) (f := fun i => match (C.cache P st)[i]? with
        | none => .panic "mat: row index out of range"
        | some s => (t.predict lib.toInt (P.row i)).bind fun v => .ok (s + v * t.shrinkage)) (by
    intro i hi
    obtain ⟨v, hv⟩ := htp (P.row i) (by simp [Problem.row])
    have hc := h.cache
    rw [List.getElem?_eq_getElem (by omega : i < (C.cache P st).length), hv]
    exact ⟨_, rfl⟩)
  have hcl := (collect_ok h4).1
  have htrees : ∀ t' ∈ st.trees ++ [t], ∀ x : List α, x.length = P.cols → ∃ v, t'.predict lib.toInt x = .ok v := by
    intro t' h' x hx
    rcases List.mem_append.1 h' with h' | h'
    · exact h.trees t' h' x hx
    · rw [List.mem_singleton.1 h']
      exact htp x hx
  have hsums : ∀ n ≤ P.rows, ∃ s, C.lossSums lib.toInt P (st.trees ++ [t]) cache n = .ok s := by
    intro n
    induction n with
    | zero => intro _; exact ⟨_, rfl⟩
    | succ n ih =>
      intro hn
      obtain ⟨s, e1⟩ := ih (by omega)
      obtain ⟨p, e2⟩ := current_all C lib P (st.trees ++ [t]) cache htrees hcl n (by omega)
      obtain ⟨w, e3⟩ := weight_all C P hw n (by omega)
      exact ⟨_, by rw [Config.lossSums, e1, Outcome.bind_ok, e2, Outcome.bind_ok, e3, Outcome.bind_ok]⟩
  obtain ⟨s, h5⟩ := hsums P.rows le_rfl
  refine ⟨⟨st.trees ++ [t], some cache, st.losses ++ [s.1 / s.2]⟩, ?_, htrees, hcl⟩
  unfold Config.iterate
  rw [if_neg (by simpa using hy), h1, Outcome.bind_ok, h2, Outcome.bind_ok, h3, Outcome.bind_ok]
  simp only
  rw [← hsmp, ht]
  simp only
  refine (congrArg (fun o => Outcome.bind o _) h4).trans ?_
  rw [Outcome.bind_ok, Config.loss, h5, Outcome.bind_ok, Outcome.bind_ok]

/-- **C128**: with a positive `MaxDepth`, as many targets as rows and no fewer weights, training with callbacks that let it run finishes
without error or panic, after exactly `NumIterations` trees, whatever the data, the objective and the random draws -/
theorem fit_succeeds (C : Config α) (lib : Lib α) (hratio : ∀ l, (lib.byRatio l).Perm l) (byGrad : (Nat → α) → List Nat → List Nat)
    (rand : Nat → Nat → Nat) (fuel : Nat) (P : Problem α) (hy : P.y.length = P.rows) (hw : ∀ w, C.weights = some w → P.rows ≤ w.length)
    (hd : 0 < C.lim.maxDepth) (hf : C.lim.maxDepth < fuel) (before after : Nat → St α → CB) (hcb : ∀ i s, before i s = .go ∧ after i s = .go) :
    ∃ st, C.fit lib byGrad rand fuel P before after St.new = .ok st ∧ st.trees.length = C.iterations := by
  have key : ∀ n k st, Ready C lib P st → ∃ st', C.run lib byGrad rand fuel P before after n k st = .ok st' := by
    intro n
    induction n with
    | zero => intro k st _; exact ⟨st, rfl⟩
    | succ n ih =>
      intro k st hst
      obtain ⟨s1, e, h1⟩ := iterate_ready C lib hratio byGrad rand fuel P hy hw hd hf k st hst
      obtain ⟨s2, e2⟩ := ih (k + 1) s1 h1
      exact ⟨s2, by rw [Config.run, (hcb k st).1]; simp only; rw [e, Outcome.bind_ok, (hcb k s1).2]; exact e2⟩
  obtain ⟨st, h⟩ := key C.iterations 0 St.new ⟨by simp [St.new], by simp [St.new, Config.cache]⟩
  exact ⟨st, h, (fit_boosts C lib byGrad rand fuel P before after st h).2.1 hcb⟩

end succeeds

end Scigo.Trainer
