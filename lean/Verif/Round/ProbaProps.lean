import Verif.Round.MetricsProps
import Verif.Logistic.Model
import Verif.NaiveBayes.Model
import Verif.Online.Model
import Verif.Linear.Model
import Mathlib.Tactic.Linarith
import Mathlib.Tactic.Ring
import Mathlib.Tactic.Positivity
import Mathlib.Tactic.IntervalCases
import Mathlib.Data.List.GetD

/-!
# C273, C274: probabilities and linear predictions when every operation is rounded
-/

set_option linter.unusedSectionVars false

namespace Scigo.Round

variable {K : Type _} [Field K] [LinearOrder K] [IsStrictOrderedRing K] {R : Rounding K}

/-! ## Sums -/

theorem Accurate.le {eps eta : K} (h : R.Accurate eps eta) (x : K) : |R.rnd x - x| ≤ eps * |x| + eta := h x

theorem abs_sum_le {β : Type _} (l : List β) (f : β → K) : |(l.map f).sum| ≤ (l.map fun x => |f x|).sum := by
  induction l with
  | nil => simp
  | cons x l ih =>
    simp only [List.map_cons, List.sum_cons]
    exact (abs_add_le _ _).trans (by linarith)

/-- the error of a rounded sum -/
theorem foldl_error {β : Type _} {eps eta : K} (h : R.Accurate eps eta) (he : 0 ≤ eps) (hη : 0 ≤ eta) (l : List β) (f : β → Fl R) :
    |(sumOver l f).val - (l.map fun x => (f x).val).sum| ≤
      ((1 + eps) ^ l.length - 1) * (l.map fun x => |(f x).val|).sum + l.length * (1 + eps) ^ l.length * eta := by
  induction l using List.reverseRecOn with
  | nil => simp [sumOver]
  | append_singleton l a ih =>
    have hs : sumOver (l ++ [a]) f = sumOver l f + f a := by simp [sumOver]
    rw [hs, List.map_append, List.map_append, List.sum_append, List.sum_append]
    simp only [List.map_cons, List.map_nil, List.sum_cons, List.sum_nil, add_zero, List.length_append, List.length_cons, List.length_nil, zero_add]
    set s := (sumOver l f).val
    set S := (l.map fun x => (f x).val).sum
    set A := (l.map fun x => |(f x).val|).sum
    set t := (f a).val
    set n := l.length
    have hSA : |S| ≤ A := abs_sum_le l _
    have h1 := h (s + t)
    rw [← show (sumOver l f + f a).val = R.rnd (s + t) from rfl] at h1
    have hg : 1 ≤ (1 + eps) ^ n := one_le_pow₀ (by linarith)
    have h2 : |s| ≤ A + |s - S| := by
      have := abs_add_le (s - S) S
      rw [sub_add_cancel] at this
      linarith
    have h3 : |s + t| ≤ A + |s - S| + |t| := (abs_add_le s t).trans (by linarith)
    have h4 : |(sumOver l f + f a).val - (S + t)| ≤ eps * (A + |s - S| + |t|) + eta + |s - S| := by
      have e : (sumOver l f + f a).val - (S + t) = ((sumOver l f + f a).val - (s + t)) + (s - S) := by ring
      rw [e]
      refine (abs_add_le _ _).trans ?_
      have := mul_le_mul_of_nonneg_left h3 he
      linarith
    have ha : 0 ≤ |t| := abs_nonneg t
    have hA : 0 ≤ A := (abs_nonneg S).trans hSA
    refine h4.trans ?_
    have h5 : (1 + eps) * |s - S| ≤ (1 + eps) * (((1 + eps) ^ n - 1) * A + n * (1 + eps) ^ n * eta) := mul_le_mul_of_nonneg_left ih (by linarith)
    have h6 : eps * |t| ≤ ((1 + eps) ^ (n + 1) - 1) * |t| := by
      refine mul_le_mul_of_nonneg_right ?_ ha
      rw [pow_succ]
      nlinarith
    have h7 : eta ≤ (1 + eps) ^ (n + 1) * eta := by
      have : (1 : K) ≤ (1 + eps) ^ (n + 1) := one_le_pow₀ (by linarith)
      nlinarith
    push_cast
    rw [pow_succ] at *
    nlinarith

/-! ## C273 -/

/-- normalised lists -/
theorem normalized_range (e : List (Fl R)) (h0 : ∀ x ∈ e, 0 ≤ x) (p : Fl R) (hp : p ∈ e.map (· / sumOver e id)) : 0 ≤ p ∧ p ≤ 1 := by
  obtain ⟨x, hx, rfl⟩ := List.mem_map.1 hp
  have hle := term_le_sumOver e id h0 x hx
  exact ⟨Fl.div_nonneg' (h0 x hx) (sumOver_nonneg e id h0), Fl.div_le_one' (h0 x hx) hle⟩

/-- the sum of the normalised entries is close to one -/
theorem normalized_sum {eps eta : K} (h : R.Accurate eps eta) (he : 0 ≤ eps) (hη : 0 ≤ eta) (e : List (Fl R)) (h0 : ∀ x ∈ e, 0 ≤ x ∧ x ≤ 1) (h1 : 1 ∈ e) :
    |((e.map (· / sumOver e id)).map Fl.val).sum - 1| ≤
      (1 + eps) * (e.length * ((1 + eps) ^ e.length - 1 + (1 + eps) ^ e.length * eta)) + eps + e.length * eta := by
  set T := (sumOver e id).val
  set S := (e.map Fl.val).sum
  have hT1 : 1 ≤ T := term_le_sumOver e id (fun x hx => (h0 x hx).1) 1 h1
  have hTpos : 0 < T := lt_of_lt_of_le zero_lt_one hT1
  have hS0 : ∀ l : List (Fl R), (∀ x ∈ l, 0 ≤ x ∧ x ≤ 1) → 0 ≤ (l.map Fl.val).sum ∧ (l.map Fl.val).sum ≤ l.length ∧
      (l.map fun x => |x.val|).sum = (l.map Fl.val).sum := by
    intro l
    induction l with
    | nil => simp
    | cons x l ih =>
      intro hl
      obtain ⟨a1, a2, a3⟩ := ih fun y hy => hl y (List.mem_cons_of_mem _ hy)
      obtain ⟨b1, b2⟩ := hl x List.mem_cons_self
      have b1' : 0 ≤ x.val := b1
      have b2' : x.val ≤ 1 := b2
      simp only [List.map_cons, List.sum_cons, List.length_cons, a3, abs_of_nonneg b1']
      push_cast
      exact ⟨by linarith, by linarith, trivial⟩
  obtain ⟨s0, s1, s2⟩ := hS0 e h0
  have herr := foldl_error h he hη e (id : Fl R → Fl R)
  simp only [id_eq] at herr
  rw [s2] at herr
  change |T - S| ≤ ((1 + eps) ^ e.length - 1) * S + e.length * (1 + eps) ^ e.length * eta at herr
  have hg : 1 ≤ (1 + eps) ^ e.length := one_le_pow₀ (by linarith)
  have hTS : |T - S| ≤ e.length * ((1 + eps) ^ e.length - 1 + (1 + eps) ^ e.length * eta) := by
    refine herr.trans ?_
    have : ((1 + eps) ^ e.length - 1) * S ≤ ((1 + eps) ^ e.length - 1) * e.length := mul_le_mul_of_nonneg_left s1 (by linarith)
    nlinarith
  have hdiv : ∀ l : List (Fl R), (∀ x ∈ l, 0 ≤ x ∧ x ≤ 1) →
      |((l.map (· / sumOver e id)).map Fl.val).sum - (l.map Fl.val).sum / T| ≤ eps * ((l.map Fl.val).sum / T) + l.length * eta := by
    intro l
    induction l with
    | nil => simp
    | cons x l ih =>
      intro hl
      have ih := ih fun y hy => hl y (List.mem_cons_of_mem _ hy)
      have b1' : 0 ≤ x.val := (hl x List.mem_cons_self).1
      simp only [List.map_cons, List.sum_cons, List.length_cons]
      have hx := h (x.val / T)
      rw [abs_of_nonneg (div_nonneg b1' hTpos.le)] at hx
      rw [Fl.val_div]
      have e1 : R.rnd (x.val / T) + ((l.map (· / sumOver e id)).map Fl.val).sum - (x.val + (l.map Fl.val).sum) / T =
          (R.rnd (x.val / T) - x.val / T) + (((l.map (· / sumOver e id)).map Fl.val).sum - (l.map Fl.val).sum / T) := by
        rw [add_div]; ring
      rw [e1]
      refine (abs_add_le _ _).trans ?_
      push_cast
      rw [add_div]
      linarith
  have hd := hdiv e h0
  change |_ - S / T| ≤ eps * (S / T) + _ at hd
  have hST : |S / T - 1| ≤ e.length * ((1 + eps) ^ e.length - 1 + (1 + eps) ^ e.length * eta) := by
    have : S / T - 1 = -(T - S) / T := by field_simp; ring
    rw [this, abs_div, abs_neg, abs_of_pos hTpos]
    exact (div_le_self (abs_nonneg _) hT1).trans hTS
  have hST' : S / T ≤ 1 + |S / T - 1| := by
    have := le_abs_self (S / T - 1)
    linarith
  have e2 : ((e.map (· / sumOver e id)).map Fl.val).sum - 1 = (((e.map (· / sumOver e id)).map Fl.val).sum - S / T) + (S / T - 1) := by ring
  rw [e2]
  refine (abs_add_le _ _).trans ?_
  have := mul_le_mul_of_nonneg_left hST' he
  nlinarith [mul_le_mul_of_nonneg_left hST he]

/-- the running maximum from a value below all entries -/
theorem runMax_spec (lowest : Fl R) (l : List (Fl R)) (hne : l ≠ []) (hlow : ∀ x ∈ l, lowest ≤ x) :
    l.foldl (fun m s => if m < s then s else m) lowest ∈ l ∧ ∀ x ∈ l, x ≤ l.foldl (fun m s => if m < s then s else m) lowest := by
  have key : ∀ (l : List (Fl R)) (a : Fl R), (l.foldl (fun m s => if m < s then s else m) a = a ∨ l.foldl (fun m s => if m < s then s else m) a ∈ l) ∧
      a ≤ l.foldl (fun m s => if m < s then s else m) a ∧ ∀ x ∈ l, x ≤ l.foldl (fun m s => if m < s then s else m) a := by
    intro l
    induction l with
    | nil => intro a; exact ⟨Or.inl rfl, le_refl _, by simp⟩
    | cons y l ih =>
      intro a
      obtain ⟨h1, h2, h3⟩ := ih (if a < y then y else a)
      rw [List.foldl_cons]
      have hy : y ≤ if a < y then y else a := by split <;> simp_all
      have ha : a ≤ if a < y then y else a := by
        split
        · exact le_of_lt ‹_›
        · exact le_refl _
      refine ⟨?_, ha.trans h2, fun x hx => ?_⟩
      · rcases h1 with h1 | h1
        · rw [h1]
          split
          · exact Or.inr List.mem_cons_self
          · exact Or.inl rfl
        · exact Or.inr (List.mem_cons_of_mem _ h1)
      · rcases List.mem_cons.1 hx with rfl | hx
        · exact hy.trans h2
        · exact h3 x hx
  obtain ⟨h1, h2, h3⟩ := key l lowest
  refine ⟨?_, h3⟩
  rcases h1 with h1 | h1
  · obtain ⟨x, hx⟩ := List.exists_mem_of_ne_nil l hne
    have : x = lowest := le_antisymm (h1 ▸ h3 x hx) (hlow x hx)
    rw [h1, ← this]
    exact hx
  · exact h1

/-- what is used of `math.Exp`: values that are not negative, one at zero, at most one below -/
structure ExpLike (exp : Fl R → Fl R) : Prop where
  nonneg : ∀ x, 0 ≤ exp x
  zero : exp 0 = 1
  le_one : ∀ x, x ≤ 0 → exp x ≤ 1

/-- the exponentials of the shifted scores -/
theorem shifted_exp {exp : Fl R → Fl R} (hexp : ExpLike exp) (l : List (Fl R)) (mx : Fl R) (hm : mx ∈ l) (hle : ∀ x ∈ l, x ≤ mx) :
    (∀ x ∈ l.map (fun s => exp (s - mx)), 0 ≤ x ∧ x ≤ 1) ∧ 1 ∈ l.map (fun s => exp (s - mx)) := by
  constructor
  · intro x hx
    obtain ⟨s, hs, rfl⟩ := List.mem_map.1 hx
    refine ⟨hexp.nonneg _, hexp.le_one _ (R.nonpos ?_)⟩
    have : s.val ≤ mx.val := hle s hs
    exact sub_nonpos.2 this
  · exact List.mem_map.2 ⟨mx, hm, by rw [Fl.sub_self', hexp.zero]⟩

/-- how far the sum of `n` probabilities may be from one -/
def sumBound (eps eta : K) (n : Nat) : K := (1 + eps) * (n * ((1 + eps) ^ n - 1 + (1 + eps) ^ n * eta)) + eps + n * eta

theorem sum_getD {n : Nat} (l : List (Fl R)) (hl : l.length = n) : ((List.range n).map fun c => (l.getD c 0).val).sum = (l.map Fl.val).sum := by
  subst hl
  congr 1
  apply List.ext_getElem
  · simp
  · intro i h1 h2
    simp only [List.length_map, List.length_range] at h1
    simp [h1]

/-- one row of probabilities: within `[0, 1]`, and the sum is one up to the given error -/
structure ProbaRow (eps eta : K) (n : Nat) (p : Nat → Fl R) : Prop where
  range : ∀ c < n, 0 ≤ p c ∧ p c ≤ 1
  sum : |((List.range n).map fun c => (p c).val).sum - 1| ≤ sumBound eps eta n

theorem softmax_row {eps eta : K} (h : R.Accurate eps eta) (he : 0 ≤ eps) (hη : 0 ≤ eta) {exp : Fl R → Fl R} (hexp : ExpLike exp) (l : List (Fl R)) (mx : Fl R)
    (hm : mx ∈ l) (hle : ∀ x ∈ l, x ≤ mx) (n : Nat) (hn : l.length = n) :
    ProbaRow eps eta n fun c => (((l.map fun s => exp (s - mx)).map (· / sumOver (l.map fun s => exp (s - mx)) id)).getD c 0) := by
  obtain ⟨h0, h1⟩ := shifted_exp hexp l mx hm hle
  have hlen : ((l.map fun s => exp (s - mx)).map (· / sumOver (l.map fun s => exp (s - mx)) id)).length = n := by simpa using hn
  constructor
  · intro c hc
    apply normalized_range _ (fun x hx => (h0 x hx).1)
    rw [List.getD_eq_getElem _ _ (by rw [hlen]; exact hc)]
    exact List.getElem_mem _
  · rw [sum_getD _ hlen]
    have := normalized_sum h he hη _ h0 h1
    rw [List.length_map, hn] at this
    exact this

theorem guarded_ok {β : Type _} {m : Logistic.LR (Fl R)} {X : Mat (Fl R)} {k : Outcome β} {v : β} (h : m.guarded X k = .ok v) : k = .ok v ∧ m.classes ≠ [] := by
  unfold Logistic.LR.guarded at h
  dsimp only at h
  rcases Bool.eq_false_or_eq_true m.fitted with hf | hf
  · rw [hf, Bool.not_true, if_neg Bool.false_ne_true] at h
    by_cases h1 : X.r = 0 ∨ m.classes = []
    · rw [if_pos h1] at h; cases h
    rw [if_neg h1] at h
    by_cases h2 : X.c < m.nFeatures
    · rw [if_pos h2] at h; cases h
    rw [if_neg h2] at h
    generalize (if m.classes.length = 2 then 1 else m.classes.length) = q at h
    split at h
    · cases h
    · exact ⟨h, fun e => h1 (Or.inr e)⟩
  · rw [hf, Bool.not_false, if_pos rfl] at h
    cases h

/-- **C273** (logistic regression): with every operation rounded, the probabilities of `PredictProba` are in `[0, 1]` and sum to one up to the
stated error, for a model with two classes and, if the scores are not below the initial value of the maximum, for any number of classes. -/
theorem rounded_logistic_proba {eps eta : K} (h : R.Accurate eps eta) (he : 0 ≤ eps) (hη : 0 ≤ eta) (N : Online.Num (Fl R)) (hexp : ExpLike N.exp)
    (lowest : Fl R) (m : Logistic.LR (Fl R)) (X : Mat (Fl R)) (hlow : ∀ i k, lowest ≤ m.scoreAt X i k) (M : Mat (Fl R)) (hM : m.predictProba N lowest X = .ok M) :
    M.r = X.r ∧ M.c = m.classes.length ∧ ∀ i < M.r, ProbaRow eps eta M.c (M.at' i) := by
  obtain ⟨hM, hne⟩ := guarded_ok hM
  injection hM with hM
  subst hM
  refine ⟨rfl, rfl, fun i hi => ?_⟩
  dsimp only
  by_cases h2 : m.classes.length = 2
  · simp only [h2, if_true]
    set p := Logistic.sigmoid N (m.scoreAt X i 0)
    have hd : (1 : Fl R) ≤ 1 + N.exp (-m.scoreAt X i 0) := Fl.le_add_right' (hexp.nonneg _)
    have hp0 : (0 : Fl R) ≤ p := Fl.div_nonneg' (zero_le_one : (0 : K) ≤ 1) (le_trans (zero_le_one : (0 : K) ≤ 1) hd)
    have hp1 : p ≤ 1 := Fl.div_le_one' (zero_le_one : (0 : K) ≤ 1) hd
    have hq0 : (0 : Fl R) ≤ 1 - p := Fl.sub_nonneg' hp1
    have hq1 : (1 : Fl R) - p ≤ 1 := by
      have := Fl.sub_le (le_refl (1 : Fl R)) hp0
      rwa [Fl.sub_zero'] at this
    constructor
    · intro c hc
      interval_cases c
      · exact ⟨hq0, hq1⟩
      · exact ⟨hp0, hp1⟩
    · have hr := h (1 - p.val)
      have hp0' : 0 ≤ p.val := hp0
      have hp1' : p.val ≤ 1 := hp1
      rw [abs_of_nonneg (a := 1 - p.val) (by linarith)] at hr
      have e : ((List.range 2).map fun c => (if c = 0 then (1 : Fl R) - p else p).val).sum - 1 = R.rnd (1 - p.val) - (1 - p.val) := by
        simp only [List.range_succ, List.range_zero, List.nil_append, List.map_append, List.map_cons, List.map_nil, List.sum_append, List.sum_cons, List.sum_nil,
          if_true, one_ne_zero, if_false, add_zero, Fl.val_sub, Fl.val_one]
        ring
      rw [e]
      refine hr.trans ?_
      have hg : 1 ≤ (1 + eps) ^ 2 := one_le_pow₀ (by linarith)
      have h3 : eps * (1 - p.val) ≤ eps := by nlinarith
      have h4 : 0 ≤ (1 + eps) * (((2 : Nat) : K) * ((1 + eps) ^ 2 - 1 + (1 + eps) ^ 2 * eta)) := by
        have : 0 ≤ (1 + eps) ^ 2 * eta := by positivity
        have : 0 ≤ (1 + eps) ^ 2 - 1 + (1 + eps) ^ 2 * eta := by linarith
        positivity
      unfold sumBound
      push_cast at h4 ⊢
      linarith
  · simp only [h2, if_false]
    have hlen : ((List.range m.classes.length).map (m.scoreAt X i)).length = m.classes.length := by simp
    have hne' : (List.range m.classes.length).map (m.scoreAt X i) ≠ [] := by
      intro e
      rw [e] at hlen
      exact hne (List.length_eq_zero_iff.1 hlen.symm)
    obtain ⟨q1, q2⟩ := runMax_spec lowest _ hne' (fun x hx => by obtain ⟨k, -, rfl⟩ := List.mem_map.1 hx; exact hlow i k)
    exact softmax_row h he hη hexp _ _ q1 q2 _ hlen

/-- **C273** (naive Bayes): the probabilities of `PredictProba` are in `[0, 1]` and sum to one up to the stated error -/
theorem rounded_bayes_proba {eps eta : K} (h : R.Accurate eps eta) (he : 0 ≤ eps) (hη : 0 ≤ eta) (log exp : Fl R → Fl R) (hexp : ExpLike exp)
    (ninf : Fl R) (s : NaiveBayes.NB (Fl R)) (X L M : Mat (Fl R)) (hL : s.predictLogProba log exp ninf X = .ok L) (hlow : ∀ i c, ninf ≤ L.at' i c)
    (hM : s.predictProba log exp ninf X = .ok M) :
    M.r = X.r ∧ M.c = s.nClasses ∧ ∀ i < M.r, ProbaRow eps eta M.c (M.at' i) := by
  unfold NaiveBayes.NB.predictProba at hM
  rw [hL] at hM
  have hdim : L.r = X.r ∧ L.c = s.nClasses ∧ s.nClasses ≠ 0 := by
    unfold NaiveBayes.NB.predictLogProba at hL
    split at hL
    · cases hL
    split at hL
    · cases hL
    split at hL
    · cases hL
    rename_i hz
    split at hL
    · cases hL
    injection hL with hL
    subst hL
    exact ⟨rfl, rfl, fun e => hz (Or.inr e)⟩
  injection hM with hM
  subst hM
  refine ⟨hdim.1, hdim.2.1, fun i hi => ?_⟩
  have hlen : (L.row i).length = L.c := by simp [Mat.row]
  have hne : L.row i ≠ [] := fun e => by
    rw [e] at hlen
    exact hdim.2.2 (hdim.2.1 ▸ hlen.symm)
  obtain ⟨q1, q2⟩ := runMax_spec ninf (L.row i) hne (fun x hx => by
    unfold Mat.row at hx
    obtain ⟨k, -, rfl⟩ := List.mem_map.1 hx
    exact hlow i k)
  exact softmax_row h he hη hexp _ _ q1 q2 _ hlen

/-- **C273** (stochastic gradient descent): the probabilities of `PredictProba` are in `[0, 1]`, if the exponential of some score does not vanish -/
theorem rounded_sgd_proba (exp : Fl R → Fl R) (hexp : ∀ x, 0 ≤ exp x) (m : Online.Clf (Fl R)) (X M : Mat (Fl R)) (hM : m.predictProba exp X = .ok M) (i : Nat)
    (hpos : ∃ s ∈ m.scores X i, 0 < exp s) :
    0 < sumOver ((m.scores X i).map exp) id ∧ M.c = m.classes.length ∧ ∀ c < M.c, 0 ≤ M.at' i c ∧ M.at' i c ≤ 1 := by
  unfold Online.Clf.predictProba Online.checked at hM
  split at hM
  · cases hM
  split at hM
  · cases hM
  split at hM
  · cases hM
  split at hM
  · cases hM
  split at hM
  · cases hM
  injection hM with hM
  subst hM
  have h0 : ∀ x ∈ (m.scores X i).map exp, 0 ≤ x := fun x hx => by obtain ⟨s, -, rfl⟩ := List.mem_map.1 hx; exact hexp s
  obtain ⟨s, hs, hp⟩ := hpos
  refine ⟨lt_of_lt_of_le hp (term_le_sumOver _ id h0 _ (List.mem_map.2 ⟨s, hs, rfl⟩)), rfl, fun c hc => ?_⟩
  have hlen : (Online.softmaxPlain exp (m.scores X i)).length = m.classes.length := by simp [Online.softmaxPlain, Online.Clf.scores]
  apply normalized_range _ h0
  dsimp only at hc ⊢
  rw [List.getD_eq_getElem _ _ (by rw [hlen]; exact hc)]
  exact List.getElem_mem _

/-! ## C274 -/

/-- **C274**: the error of a rounded linear prediction `b + Σ x w` -/
theorem rounded_predRow {eps eta : K} (h : R.Accurate eps eta) (he : 0 ≤ eps) (hη : 0 ≤ eta) (w : List (Fl R)) (b : Fl R) (X : Mat (Fl R)) (i : Nat) :
    |(Linear.predRow w b X i).val - (b.val + ((List.range X.c).map fun j => (X.at' i j).val * (w.getD j 0).val).sum)| ≤
      ((1 + eps) ^ (X.c + 1) - 1) * (|b.val| + ((List.range X.c).map fun j => |(X.at' i j).val * (w.getD j 0).val|).sum) +
        X.c * (2 + eps) * (1 + eps) ^ X.c * eta := by
  unfold Linear.predRow
  generalize X.c = n
  induction n with
  | zero =>
    simp only [List.range_zero, List.foldl_nil, List.map_nil, List.sum_nil, add_zero, sub_self, abs_zero, Nat.cast_zero, zero_mul, zero_add, pow_one]
    have := abs_nonneg b.val
    have : 0 ≤ eps * |b.val| := by positivity
    linarith
  | succ n ih =>
    rw [List.range_succ, List.foldl_append, List.map_append, List.map_append, List.sum_append, List.sum_append]
    simp only [List.foldl_cons, List.foldl_nil, List.map_cons, List.map_nil, List.sum_cons, List.sum_nil, add_zero]
    set s := (List.range n).foldl (fun s j => s + X.at' i j * w.getD j 0) b
    set Q := ((List.range n).map fun j => (X.at' i j).val * (w.getD j 0).val).sum
    set A := ((List.range n).map fun j => |(X.at' i j).val * (w.getD j 0).val|).sum
    set p := (X.at' i n).val * (w.getD n 0).val
    set E := |s.val - (b.val + Q)|
    have hQA : |Q| ≤ A := abs_sum_le _ _
    have ht := h p
    have ht' : (X.at' i n * w.getD n 0).val = R.rnd p := rfl
    set t := R.rnd p
    have h1 := h (s.val + t)
    have hv : (s + X.at' i n * w.getD n 0).val = R.rnd (s.val + t) := rfl
    rw [hv]
    have hb : |b.val + Q| ≤ |b.val| + A := (abs_add_le _ _).trans (by linarith)
    have hs : |s.val| ≤ |b.val| + A + E := by
      have := abs_add_le (s.val - (b.val + Q)) (b.val + Q)
      rw [sub_add_cancel] at this
      change |s.val| ≤ E + _ at this
      linarith
    have htt : |t| ≤ (1 + eps) * |p| + eta := by
      have := abs_add_le (t - p) p
      rw [sub_add_cancel] at this
      linarith
    have hst : |s.val + t| ≤ |b.val| + A + E + ((1 + eps) * |p| + eta) := (abs_add_le _ _).trans (by linarith)
    have h2 : |R.rnd (s.val + t) - (b.val + (Q + p))| ≤ eps * (|b.val| + A + E + ((1 + eps) * |p| + eta)) + eta + (eps * |p| + eta) + E := by
      have e : R.rnd (s.val + t) - (b.val + (Q + p)) = (R.rnd (s.val + t) - (s.val + t)) + (t - p) + (s.val - (b.val + Q)) := by ring
      rw [e]
      refine (abs_add_le _ _).trans ?_
      have h3 := abs_add_le (R.rnd (s.val + t) - (s.val + t)) (t - p)
      have h4 := mul_le_mul_of_nonneg_left hst he
      change _ + E ≤ _
      linarith
    refine h2.trans ?_
    have hE : (1 + eps) * E ≤ (1 + eps) * (((1 + eps) ^ (n + 1) - 1) * (|b.val| + A) + n * (2 + eps) * (1 + eps) ^ n * eta) :=
      mul_le_mul_of_nonneg_left ih (by linarith)
    have hp : 0 ≤ |p| := abs_nonneg p
    have hg : 1 ≤ (1 + eps) ^ n := one_le_pow₀ (by linarith)
    have h5 : (eps + eps * (1 + eps)) * |p| ≤ ((1 + eps) ^ (n + 1 + 1) - 1) * |p| := by
      refine mul_le_mul_of_nonneg_right ?_ hp
      rw [pow_succ, pow_succ]
      nlinarith [mul_nonneg he he]
    have h6 : (2 + eps) * eta ≤ (2 + eps) * (1 + eps) ^ (n + 1) * eta := by
      have : (1 : K) ≤ (1 + eps) ^ (n + 1) := one_le_pow₀ (by linarith)
      have h7 : 0 ≤ (2 + eps) * eta := by positivity
      nlinarith
    push_cast
    have e3 : (1 + eps) ^ (n + 1 + 1) = (1 + eps) * (1 + eps) ^ (n + 1) := by rw [pow_succ _ (n + 1)]; ring
    have e4 : (1 + eps) ^ (n + 1) = (1 + eps) * (1 + eps) ^ n := by rw [pow_succ]; ring
    rw [e3] at h5 ⊢
    rw [e4] at h5 h6 hE ⊢
    linarith

/-- how far a rounded linear prediction with `n` features may be from the exact value, for the sum `A` of the absolute values of its terms -/
def linBound (eps eta : K) (n : Nat) (A : K) : K := ((1 + eps) ^ (n + 1) - 1) * A + n * (2 + eps) * (1 + eps) ^ n * eta

/-- the exact value of a linear model and the sum of the absolute values of its terms, for row `i` -/
def exactLin (w : List (Fl R)) (b : Fl R) (X : Mat (Fl R)) (i : Nat) : K × K :=
  (b.val + ((List.range X.c).map fun j => (X.at' i j).val * (w.getD j 0).val).sum,
    |b.val| + ((List.range X.c).map fun j => |(X.at' i j).val * (w.getD j 0).val|).sum)

/-- **C274**: with every operation rounded, the predictions of a linear regression, of its other implementation and of an SGD regressor
differ from intercept plus sum of feature times coefficient by at most `linBound`. -/
theorem rounded_linear_predict {eps eta : K} (h : R.Accurate eps eta) (he : 0 ≤ eps) (hη : 0 ≤ eta) (X M : Mat (Fl R)) :
    (∀ m : Linear.LinReg (Fl R), m.predict X = .ok M → M.r = X.r ∧ M.c = 1 ∧ ∀ i < X.r,
      |(M.at' i 0).val - (exactLin (m.weights.getD []) m.intercept X i).1| ≤ linBound eps eta X.c (exactLin (m.weights.getD []) m.intercept X i).2) ∧
    (∀ m : Linear.LM (Fl R), m.predict X = .ok M → M.r = X.r ∧ M.c = 1 ∧ ∀ i < X.r,
      |(M.at' i 0).val - (exactLin m.coef m.intercept X i).1| ≤ linBound eps eta X.c (exactLin m.coef m.intercept X i).2) ∧
    (∀ m : Online.Reg (Fl R), m.predict X = .ok M → M.r = X.r ∧ M.c = 1 ∧ ∀ i < X.r,
      |(M.at' i 0).val - (exactLin (m.coef.getD []) m.intercept X i).1| ≤ linBound eps eta X.c (exactLin (m.coef.getD []) m.intercept X i).2) := by
  refine ⟨fun m hM => ?_, fun m hM => ?_, fun m hM => ?_⟩
  · unfold Linear.LinReg.predict Linear.LinReg.predictBody at hM
    split at hM
    · cases hM
    split at hM
    · cases hM
    split at hM
    · cases hM
    split at hM
    · cases hM
    injection hM with hM
    subst hM
    exact ⟨rfl, rfl, fun i hi => rounded_predRow h he hη (m.weights.getD []) m.intercept X i⟩
  · unfold Linear.LM.predict at hM
    split at hM
    · cases hM
    split at hM
    · cases hM
    split at hM
    · cases hM
    split at hM
    · cases hM
    injection hM with hM
    subst hM
    exact ⟨rfl, rfl, fun i hi => rounded_predRow h he hη m.coef m.intercept X i⟩
  · unfold Online.Reg.predict Online.checked at hM
    split at hM
    · cases hM
    split at hM
    · cases hM
    split at hM
    · cases hM
    split at hM
    · cases hM
    injection hM with hM
    subst hM
    exact ⟨rfl, rfl, fun i hi => rounded_predRow h he hη (m.coef.getD []) m.intercept X i⟩

/-! ## Concrete cases -/

/-- an exponential for the examples: one from zero on, a half below (in place of `math.Exp`, sklearn/linear_model/logistic.go:845) -/
def exExp (x : Fl Binary64.rounding) : Fl Binary64.rounding := if 0 ≤ x then 1 else Binary64.lit (1 / 2)

theorem exExp_like : ExpLike exExp := by
  refine ⟨fun x => ?_, by decide +kernel, fun x _ => ?_⟩
  · unfold exExp; split <;> decide +kernel
  · unfold exExp; split <;> decide +kernel

/-- the functions and literals of the examples (sklearn/linear_model/logistic.go:845) -/
def exNum : Online.Num (Fl Binary64.rounding) :=
  ⟨id, Fl.abs, fun x _ => x, exExp, id, fun _ => false, fun n => n, Binary64.lit (1 / 2), Binary64.lit (1 / 10), Binary64.lit 10, Binary64.lit 2, Binary64.lit 4⟩

/-- a fitted model with three classes and equal weights (sklearn/linear_model/logistic.go:26-54) -/
def exLR : Logistic.LR (Fl Binary64.rounding) :=
  ⟨"l2", 1, true, "lbfgs", 100, "auto", false, Binary64.lit (1 / 10000), some [[1], [1], [1]], [0, 0, 0], [0, 1, 2], 1, [5, 5, 5], true⟩

/-- one row (the data of a call of sklearn/linear_model/logistic.go:812-863) -/
def exRow : Mat (Fl Binary64.rounding) := Mat.ofRows [[Binary64.lit (1 / 10)]] 1 0

/-- `PredictProba` answers: three probabilities, each the binary64 number next to 1/3 -/
theorem exLR_proba : ((exLR.predictProba exNum (Binary64.lit (-(10 ^ 308))) exRow).map fun M => (M.r, M.c, (List.range 3).map fun c => M.at' 0 c)) =
    .ok (1, 3, [Binary64.lit (1 / 3), Binary64.lit (1 / 3), Binary64.lit (1 / 3)]) := by decide +kernel

/-- there is a fitted model of three classes and a row for which the exact sum of the probabilities `PredictProba` returns is not one: the error in `rounded_logistic_proba`
cannot be left out -/
theorem rounded_sum_not_one : ∃ (m : Logistic.LR (Fl Binary64.rounding)) (X P : Mat (Fl Binary64.rounding)),
    m.predictProba exNum (Binary64.lit (-(10 ^ 308))) X = .ok P ∧ P.r = 1 ∧ P.c = 3 ∧ ((P.at' 0 0).val + (P.at' 0 1).val + (P.at' 0 2).val : ℚ) ≠ 1 := by
  have h := exLR_proba
  cases hp : exLR.predictProba exNum (Binary64.lit (-(10 ^ 308))) exRow with
  | err e => rw [hp] at h; cases h
  | panic e => rw [hp] at h; cases h
  | ok P =>
    rw [hp] at h
    have h' := Outcome.ok.inj h
    simp only [Prod.mk.injEq, List.range_succ, List.range_zero, List.nil_append, List.map_append, List.map_cons, List.map_nil, List.cons_append, List.cons.injEq, and_true] at h'
    obtain ⟨h1, h2, h3, h4, h5⟩ := h'
    refine ⟨exLR, exRow, P, hp, h1, h2, ?_⟩
    rw [h3, h4, h5]
    decide +kernel

theorem exLR_low (i k : Nat) : Binary64.lit (-(10 ^ 308)) ≤ exLR.scoreAt exRow i k := by
  have h : ∀ x : Fl Binary64.rounding, x = 0 ∨ x = 1 → ∀ y : Fl Binary64.rounding, y = 0 ∨ y = Binary64.lit (1 / 10) →
      Binary64.lit (-(10 ^ 308)) ≤ (0 : Fl Binary64.rounding) + y * x := by
    rintro x (rfl | rfl) y (rfl | rfl) <;> decide +kernel
  have hx : (((exLR.coef.getD []).getD k []).getD 0 0) = 0 ∨ (((exLR.coef.getD []).getD k []).getD 0 0) = 1 := by
    match k with
    | 0 => exact Or.inr rfl
    | 1 => exact Or.inr rfl
    | 2 => exact Or.inr rfl
    | k + 3 => exact Or.inl rfl
  have hb : exLR.intercept.getD k 0 = 0 := by
    match k with
    | 0 => rfl
    | 1 => rfl
    | 2 => rfl
    | k + 3 => rfl
  have hy : exRow.at' i 0 = 0 ∨ exRow.at' i 0 = Binary64.lit (1 / 10) := by
    match i with
    | 0 => exact Or.inr rfl
    | i + 1 => exact Or.inl rfl
  have := h _ hx _ hy
  unfold Logistic.LR.scoreAt Logistic.zAt
  rw [hb]
  exact this

/-- the hypotheses of `rounded_logistic_proba` are met -/
example : ∃ M, exLR.predictProba exNum (Binary64.lit (-(10 ^ 308))) exRow = .ok M ∧ ProbaRow (1 / 2 ^ 53) (1 / 2 ^ 1075) M.c (M.at' 0) := by
  obtain ⟨M, hM⟩ : ∃ M, exLR.predictProba exNum (Binary64.lit (-(10 ^ 308))) exRow = .ok M := ⟨_, rfl⟩
  obtain ⟨h1, -, h3⟩ := rounded_logistic_proba Binary64.accurate (by positivity) (by positivity) exNum exExp_like _ exLR exRow exLR_low M hM
  exact ⟨M, hM, h3 0 (by rw [h1]; decide)⟩

/-- a linear model whose prediction is not exact: 0.2 + 3 · 0.1 in binary64 -/
example : (Linear.predRow [Binary64.lit 3] (Binary64.lit (2 / 10)) exRow 0).val ≠ (exactLin [Binary64.lit 3] (Binary64.lit (2 / 10)) exRow 0).1 ∧
    |(Linear.predRow [Binary64.lit 3] (Binary64.lit (2 / 10)) exRow 0).val - (exactLin [Binary64.lit 3] (Binary64.lit (2 / 10)) exRow 0).1| ≤
      linBound (1 / 2 ^ 53) (1 / 2 ^ 1075) 1 (exactLin [Binary64.lit 3] (Binary64.lit (2 / 10)) exRow 0).2 :=
  ⟨by decide +kernel, rounded_predRow Binary64.accurate (by positivity) (by positivity) _ _ exRow 0⟩

end Scigo.Round
