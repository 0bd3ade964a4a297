import Verif.Boost.EarlyStop
import Mathlib.Order.Defs.LinearOrder
import Mathlib.Order.Basic
import Mathlib.Order.Interval.Finset.Nat
import Mathlib.Data.Finset.Card
import Mathlib.Tactic.Linarith
import Mathlib.Tactic.Ring

/-!
# Early stopping: specification and theorems
-/

namespace Scigo.Boost

set_option linter.unusedSectionVars false

section

variable {β : Type _} [LinearOrder β] {τ : Type _}

/-- the score `x` is strictly better than `y` -/
def Better (minimize : Bool) (x y : β) : Prop := if minimize then x < y else y < x

theorem improves_iff (m : Bool) (v b : β) : improves m (some v) (some b) = true ↔ Better m v b := by
  cases m <;> simp [improves, below, Better]

theorem improves_none (m : Bool) (b : Option β) : improves m none b = false := by
  cases m <;> cases b <;> rfl

theorem better_trans {m : Bool} {x y z : β} (h1 : Better m x y) (h2 : ¬ Better m z y) : Better m x z := by
  cases m
  · simp only [Better, Bool.false_eq_true, if_false, not_lt] at *; exact lt_of_le_of_lt h2 h1
  · simp only [Better, if_true, not_lt] at *; exact lt_of_lt_of_le h1 h2

theorem better_trans' {m : Bool} {x y z : β} (h1 : Better m x y) (h2 : Better m y z) : Better m x z := by
  cases m
  · simp only [Better, Bool.false_eq_true, if_false] at *; exact lt_trans h2 h1
  · simp only [Better, if_true] at *; exact lt_trans h1 h2

theorem not_better_trans {m : Bool} {x y z : β} (h1 : ¬ Better m x y) (h2 : Better m z y) : ¬ Better m x z := by
  intro h; exact h1 (better_trans' h h2)

theorem not_better_self {m : Bool} (x : β) : ¬ Better m x x := by cases m <;> simp [Better]

theorem better_asymm {m : Bool} {x y : β} (h : Better m x y) : ¬ Better m y x :=
  fun h' => not_better_self x (better_trans' h h')

/-- the score of iteration `i` beats the starting value and every earlier score; a NaN beats nothing -/
def Improving (m : Bool) (start : β) (s : Nat → Option β) (i : Nat) : Prop :=
  ∃ v, s i = some v ∧ Better m v start ∧ ∀ j, j < i → ∀ w, s j = some w → Better m v w

/-- iteration `k` is the first with the best score among the first `n`, and beats the starting value -/
def FirstBest (m : Bool) (start : β) (s : Nat → Option β) (n k : Nat) : Prop :=
  k < n ∧ ∃ v, s k = some v ∧ Better m v start ∧
    (∀ j, j < n → ∀ w, s j = some w → ¬ Better m w v) ∧ (∀ j, j < k → ∀ w, s j = some w → Better m v w)

/-- iteration `n` completes `rounds` consecutive iterations without improvement -/
def Exhausted (m : Bool) (start : β) (s : Nat → Option β) (rounds : Int) (n : Nat) : Prop :=
  rounds ≤ n + 1 ∧ ∀ j : Nat, (n : Int) + 1 - rounds ≤ j → j ≤ n → ¬ Improving m start s j

/-- the state after `n` scores -/
structure Seen (m : Bool) (start : β) (s : Nat → Option β) (n : Nat) (best : Option β) (bestIter noImprove : Int) : Prop where
  ex : ∃ k : Nat, k ≤ n ∧ noImprove = n - k ∧ (∀ j, k ≤ j → j < n → ¬ Improving m start s j) ∧
    ∃ b, best = some b ∧ ¬ Better m start b ∧ (∀ j, j < n → ∀ w, s j = some w → ¬ Better m w b) ∧
      (k = 0 ∧ b = start ∧ bestIter = 0 ∨
        ∃ k', k = k' + 1 ∧ bestIter = k' ∧ s k' = some b ∧ Improving m start s k')

theorem seen_zero (m : Bool) (start : β) (s : Nat → Option β) : Seen m start s 0 (some start) 0 0 :=
  ⟨0, le_refl _, by simp, fun j _ h => absurd h (Nat.not_lt_zero _), start, rfl, not_better_self _,
    fun j h => absurd h (Nat.not_lt_zero _), .inl ⟨rfl, rfl, rfl⟩⟩

theorem seen_improves {m : Bool} {start : β} {s : Nat → Option β} {n : Nat} {best : Option β} {bi ni : Int}
    (h : Seen m start s n best bi ni) : improves m (s n) best = true ↔ Improving m start s n := by
  obtain ⟨k, hk, hn, hno, b, hb, hs, hall, hor⟩ := h.ex
  subst hb
  constructor
  · intro hi
    rcases hv : s n with _ | v
    · rw [hv, improves_none] at hi; simp at hi
    · rw [hv, improves_iff] at hi
      exact ⟨v, hv, better_trans hi hs, fun j hj w hw => better_trans hi (hall j hj w hw)⟩
  · rintro ⟨v, hv, h1, h2⟩
    rw [hv, improves_iff]
    rcases hor with ⟨_, rfl, _⟩ | ⟨k', rfl, _, hsk, _⟩
    · exact h1
    · exact h2 k' (by omega) b hsk

theorem seen_better {m : Bool} {start : β} {s : Nat → Option β} {n : Nat} {best : Option β} {bi ni : Int}
    (h : Seen m start s n best bi ni) (hi : improves m (s n) best = true) : Seen m start s (n + 1) (s n) n 0 := by
  have hI := (seen_improves h).1 hi
  obtain ⟨v, hv, h1, h2⟩ := hI
  refine ⟨n + 1, le_refl _, by simp, fun j a b => absurd a (by omega), v, hv, better_asymm h1, ?_,
    .inr ⟨n, rfl, rfl, hv, v, hv, h1, h2⟩⟩
  intro j hj w hw
  rcases Nat.lt_succ_iff_lt_or_eq.1 hj with hj | rfl
  · exact better_asymm (h2 j hj w hw)
  · rw [hv] at hw; cases hw; exact not_better_self _

theorem seen_worse {m : Bool} {start : β} {s : Nat → Option β} {n : Nat} {best : Option β} {bi ni : Int}
    (h : Seen m start s n best bi ni) (hi : ¬ improves m (s n) best = true) : Seen m start s (n + 1) best bi (ni + 1) := by
  have hI := fun x => hi ((seen_improves h).2 x)
  obtain ⟨k, hk, hn, hno, b, hb, hs, hall, hor⟩ := h.ex
  refine ⟨k, by omega, by push_cast; omega, ?_, b, hb, hs, ?_, hor⟩
  · intro j a c
    rcases Nat.lt_succ_iff_lt_or_eq.1 c with c | rfl
    · exact hno j a c
    · exact hI
  · intro j hj w hw
    rcases Nat.lt_succ_iff_lt_or_eq.1 hj with hj | rfl
    · exact hall j hj w hw
    · rw [hw, hb, improves_iff] at hi; exact hi

/-- the waiting count decides whether the patience is exhausted -/
theorem seen_exhausted {m : Bool} {start : β} {s : Nat → Option β} {n : Nat} {best : Option β} {bi ni : Int}
    (h : Seen m start s (n + 1) best bi ni) (rounds : Int) (_hr : 0 < rounds) :
    rounds ≤ ni ↔ Exhausted m start s rounds n := by
  obtain ⟨k, hk, hn, hno, b, hb, hs, hall, hor⟩ := h.ex
  push_cast at hn
  constructor
  · intro hc
    exact ⟨by omega, fun j a c => hno j (by omega) (by omega)⟩
  · rintro ⟨h1, h2⟩
    rcases hor with ⟨rfl, _, _⟩ | ⟨k', rfl, _, _, hI⟩
    · push_cast at hn; omega
    · by_contra hc
      exact h2 k' (by omega) (by omega) hI

/-- what is remembered is the first best score -/
theorem seen_best {m : Bool} {start : β} {s : Nat → Option β} {n : Nat} {best : Option β} {bi ni : Int}
    (h : Seen m start s n best bi ni) :
    (∀ k, FirstBest m start s n k → bi = k ∧ best = s k) ∧
      ((∀ j, j < n → ∀ w, s j = some w → ¬ Better m w start) → bi = 0 ∧ best = some start) := by
  obtain ⟨k, hk, hn, hno, b, hb, hs, hall, hor⟩ := h.ex
  subst hb
  constructor
  · rintro i ⟨hin, v, hv, h1, h2, h3⟩
    rcases hor with ⟨rfl, rfl, _⟩ | ⟨k', rfl, rfl, hsk, hI⟩
    · exact absurd h1 (hall i hin v hv)
    · obtain ⟨v', hv', g1, g2⟩ := hI
      rw [hsk] at hv'; cases hv'
      have : k' = i := by
        rcases Nat.lt_trichotomy k' i with hlt | heq | hgt
        · exact absurd (h3 k' hlt b hsk) (hall i hin v hv)
        · exact heq
        · exact absurd (g2 i hgt v hv) (h2 k' (by omega) b hsk)
      subst this
      exact ⟨rfl, hsk.symm⟩
  · intro hall'
    rcases hor with ⟨rfl, rfl, rfl⟩ | ⟨k', rfl, rfl, hsk, v', hv', g1, g2⟩
    · exact ⟨rfl, rfl⟩
    · exact absurd g1 (hall' k' (by omega) v' hv')

/-! ## `EarlyStopping` -/

/-- the starting value of a direction -/
def startOf (inf ninf : β) (m : Bool) : β := if m then inf else ninf

theorem ES.feed_succ (e : ES β) (s : Nat → Option β) (n : Nat) :
    e.feed s (n + 1) = ((e.feed s n).update n (s n)).1 := by
  simp [ES.feed, List.range_succ, List.foldl_append]

theorem ES.update_seen {e : ES β} {start : β} {s : Nat → Option β} {n : Nat} (he : e.enabled = true)
    (h : Seen e.minimize start s n e.best e.bestIter e.noImprove) :
    Seen e.minimize start s (n + 1) (e.update n (s n)).1.best (e.update n (s n)).1.bestIter
      (e.update n (s n)).1.noImprove ∧ (e.update n (s n)).1.enabled = true ∧
      (e.update n (s n)).1.minimize = e.minimize ∧ (e.update n (s n)).1.rounds = e.rounds ∧
      (e.update n (s n)).2 = decide (e.rounds ≤ (e.update n (s n)).1.noImprove) := by
  by_cases hi : improves e.minimize (s n) e.best = true
  · simp only [ES.update, he, hi, if_true]
    exact ⟨seen_better h hi, trivial, trivial, trivial, trivial⟩
  · simp only [ES.update, he, hi, if_true, if_false]
    exact ⟨seen_worse h hi, rfl, rfl, rfl, rfl⟩

theorem ES.feed_seen (inf ninf zero : β) (rounds : Int) (metric : String) (s : Nat → Option β) (hr : 0 < rounds) (n : Nat) :
    Seen (minimizes metric) (startOf inf ninf (minimizes metric)) s n ((ES.new inf ninf zero rounds metric).feed s n).best
      ((ES.new inf ninf zero rounds metric).feed s n).bestIter ((ES.new inf ninf zero rounds metric).feed s n).noImprove ∧
      ((ES.new inf ninf zero rounds metric).feed s n).enabled = true ∧
      ((ES.new inf ninf zero rounds metric).feed s n).minimize = minimizes metric ∧
      ((ES.new inf ninf zero rounds metric).feed s n).rounds = rounds := by
  induction n with
  | zero =>
    have : ¬ rounds ≤ 0 := by omega
    simp only [ES.feed, ES.new, this, if_false, List.range_zero, List.foldl_nil]
    exact ⟨seen_zero _ _ _, trivial, trivial, trivial⟩
  | succ n ih =>
    obtain ⟨h1, h2, h3, h4⟩ := ih
    rw [ES.feed_succ]
    generalize (ES.new inf ninf zero rounds metric).feed s n = e at h1 h2 h3 h4 ⊢
    rw [← h3] at h1
    obtain ⟨g1, g2, g3, g4, g5⟩ := ES.update_seen h2 h1
    rw [← h3]
    exact ⟨h3 ▸ g1, g2, g3, g4.trans h4⟩

/-- C58: for every score sequence, with NaN anywhere, the handler signals a stop at an iteration exactly when this
iteration completes `rounds` consecutive iterations none of which beats all earlier ones -/
theorem early_stopping_signal (inf ninf zero : β) (rounds : Int) (metric : String) (s : Nat → Option β) (hr : 0 < rounds)
    (n : Nat) :
    (((ES.new inf ninf zero rounds metric).feed s n).update n (s n)).2 = true ↔
      Exhausted (minimizes metric) (startOf inf ninf (minimizes metric)) s rounds n := by
  obtain ⟨h1, h2, h3, h4⟩ := ES.feed_seen inf ninf zero rounds metric s hr n
  generalize (ES.new inf ninf zero rounds metric).feed s n = e at h1 h2 h3 h4 ⊢
  rw [← h3] at h1 ⊢
  obtain ⟨g1, g2, g3, g4, g5⟩ := ES.update_seen h2 h1
  rw [g5, decide_eq_true_iff, h4]
  exact seen_exhausted g1 rounds hr

/-- C58: what is remembered after any number of scores is the first of the best of them, or the starting value and
iteration 0 when no score beats the starting value; asking again whether to stop repeats the last answer -/
theorem early_stopping_best (inf ninf zero : β) (rounds : Int) (metric : String) (s : Nat → Option β) (hr : 0 < rounds)
    (n : Nat) :
    (∀ k, FirstBest (minimizes metric) (startOf inf ninf (minimizes metric)) s n k →
      ((ES.new inf ninf zero rounds metric).feed s n).getBestIteration = k ∧
        ((ES.new inf ninf zero rounds metric).feed s n).best = s k) ∧
    ((∀ j, j < n → ∀ w, s j = some w → ¬ Better (minimizes metric) w (startOf inf ninf (minimizes metric))) →
      ((ES.new inf ninf zero rounds metric).feed s n).getBestIteration = 0 ∧
        ((ES.new inf ninf zero rounds metric).feed s n).best = some (startOf inf ninf (minimizes metric))) ∧
    ((ES.new inf ninf zero rounds metric).feed s (n + 1)).shouldStop =
      (((ES.new inf ninf zero rounds metric).feed s n).update n (s n)).2 := by
  obtain ⟨h1, h2, h3, h4⟩ := ES.feed_seen inf ninf zero rounds metric s hr n
  rw [ES.feed_succ]
  generalize (ES.new inf ninf zero rounds metric).feed s n = e at h1 h2 h3 h4 ⊢
  obtain ⟨b1, b2⟩ := seen_best h1
  rw [← h3] at h1
  obtain ⟨g1, g2, g3, g4, g5⟩ := ES.update_seen h2 h1
  simp only [ES.getBestIteration, ES.shouldStop, h2, if_true, g2, g4, g5]
  exact ⟨b1, b2, trivial⟩

/-- C58: the metrics of which more is better are auc, accuracy, precision, recall, f1 and r2; of all others less is
better.  (The other statements on early stopping compare scores in this direction.) -/
theorem early_stopping_direction (inf ninf zero : β) (rounds : Int) (metric : String) (hr : 0 < rounds) :
    (ES.new inf ninf zero rounds metric).minimize = minimizes metric ∧
    (minimizes metric = false ↔ metric = "auc" ∨ metric = "accuracy" ∨ metric = "precision" ∨ metric = "recall" ∨
      metric = "f1" ∨ metric = "r2") := by
  have : ¬ rounds ≤ 0 := by omega
  refine ⟨by simp only [ES.new, this, if_false], ?_⟩
  simp [minimizes]
  tauto

/-- C58: without a positive patience nothing is ever signalled and no best iteration is reported -/
theorem early_stopping_disabled (inf ninf zero : β) (rounds : Int) (metric : String) (s : Nat → Option β)
    (hr : rounds ≤ 0) (n : Nat) (v : Option β) :
    (((ES.new inf ninf zero rounds metric).feed s n).update n v).2 = false ∧
      ((ES.new inf ninf zero rounds metric).feed s n).getBestIteration = -1 ∧
      ((ES.new inf ninf zero rounds metric).feed s n).shouldStop = false := by
  have h : ((ES.new inf ninf zero rounds metric).feed s n).enabled = false := by
    induction n with
    | zero => simp [ES.feed, ES.new, hr]
    | succ n ih => rw [ES.feed_succ]; simp [ES.update, ih]
  simp [ES.update, ES.getBestIteration, ES.shouldStop, h]

/-- C58: the scores 5, 3, NaN, 3, 4 with a patience of 3: the best is iteration 1, the stop comes at iteration 4 -/
example : let s : Nat → Option Int := fun i => [some 5, some 3, none, some 3, some 4].getD i none
    (((ES.new (10 ^ 9) (-10 ^ 9) 0 3 "l2").feed s 4).update 4 (s 4)).2 = true ∧
    (((ES.new (10 ^ 9) (-10 ^ 9) 0 3 "l2").feed s 3).update 3 (s 3)).2 = false ∧
    ((ES.new (10 ^ 9) (-10 ^ 9) 0 3 "l2").feed s 5).getBestIteration = 1 := by decide +kernel

/-! ## `FitWithValidation` -/

/-- the first `n` trees the trainer would build -/
def grow (build : List τ → τ) : Nat → List τ
  | 0 => []
  | n + 1 => grow build n ++ [build (grow build n)]

theorem grow_length (build : List τ → τ) (n : Nat) : (grow build n).length = n := by
  induction n with
  | zero => rfl
  | succ n ih => simp [grow, ih]

theorem grow_take (build : List τ → τ) (n k : Nat) (h : k ≤ n) : (grow build n).take k = grow build k := by
  induction n with
  | zero => obtain rfl : k = 0 := by omega
            rfl
  | succ n ih =>
    rcases Nat.lt_succ_iff_lt_or_eq.1 (Nat.lt_succ_of_le h) with h | rfl
    · rw [grow, List.take_append_of_le_length (by rw [grow_length]; omega), ih (by omega)]
    · rw [List.take_of_length_le (by rw [grow_length])]

theorem fitLoop_none (build : List τ → τ) (val : List τ → Option β) (n iter : Nat) :
    fitLoop build val n iter none (grow build iter) = grow build (iter + n) := by
  induction n generalizing iter with
  | zero => rfl
  | succ n ih =>
    have := ih (iter + 1)
    simp only [fitLoop]
    simp only [grow] at this
    rw [this]
    congr 1; omega

theorem fitLoop_spec (build : List τ → τ) (val : List τ → Option β) (start : β) (rounds : Int) (m : Bool) (hr : 0 < rounds)
    (n : Nat) : ∀ (iter : Nat) (e : ES β), e.enabled = true → e.minimize = m → e.rounds = rounds →
      Seen m start (fun i => val (grow build (i + 1))) iter e.best e.bestIter e.noImprove →
      ((∀ i, iter ≤ i → i < iter + n → ¬ Exhausted m start (fun i => val (grow build (i + 1))) rounds i) ∧
          fitLoop build val n iter (some e) (grow build iter) = grow build (iter + n)) ∨
        ∃ i, iter ≤ i ∧ i < iter + n ∧ Exhausted m start (fun i => val (grow build (i + 1))) rounds i ∧
          (∀ j, iter ≤ j → j < i → ¬ Exhausted m start (fun i => val (grow build (i + 1))) rounds j) ∧
          ∃ bi best ni, Seen m start (fun i => val (grow build (i + 1))) (i + 1) best (bi : Nat) ni ∧ bi ≤ i ∧
            fitLoop build val n iter (some e) (grow build iter) = grow build (bi + 1) := by
  induction n with
  | zero => intro iter e _ _ _ _; exact .inl ⟨fun i a b => absurd b (by omega), rfl⟩
  | succ n ih =>
    intro iter e he hm hrr hseen
    subst hm hrr
    obtain ⟨g1, g2, g3, g4, g5⟩ := ES.update_seen he hseen
    simp only [fitLoop, he, if_true]
    have hg : grow build iter ++ [build (grow build iter)] = grow build (iter + 1) := rfl
    rw [hg]
    have hex := seen_exhausted g1 e.rounds hr
    generalize hu : e.update (iter : Int) (val (grow build (iter + 1))) = u at g1 g2 g3 g4 g5 hex ⊢
    by_cases hs : u.2 = true
    · right
      rw [if_pos hs]
      rw [g5, decide_eq_true_iff] at hs
      refine ⟨iter, le_refl _, by omega, hex.1 hs, fun j a b => absurd b (by omega), ?_⟩
      obtain ⟨k, hk, hn, hno, b, hb, hs', hall, hor⟩ := g1.ex
      have hbi : ∃ bi : Nat, u.1.bestIter = bi ∧ bi ≤ iter := by
        rcases hor with ⟨_, _, h⟩ | ⟨k', hk', h, _⟩
        · exact ⟨0, by simpa using h, by omega⟩
        · exact ⟨k', h, by omega⟩
      obtain ⟨bi, hbi, hle⟩ := hbi
      refine ⟨bi, u.1.best, u.1.noImprove, hbi ▸ g1, hle, ?_⟩
      rw [hbi, grow_length, if_pos (by push_cast; omega)]
      rw [show ((bi : Int) + 1).toNat = bi + 1 by omega]
      exact grow_take _ _ _ (by omega)
    · rw [if_neg hs]
      have hns : ¬ Exhausted e.minimize start (fun i => val (grow build (i + 1))) e.rounds iter := by
        intro hx
        apply hs; rw [g5, decide_eq_true_iff]; exact hex.2 hx
      rcases ih (iter + 1) u.1 g2 g3 g4 g1 with ⟨a, b⟩ | ⟨i, a1, a2, a3, a4, a5⟩
      · left
        refine ⟨fun i x y => ?_, b.trans (by congr 1; omega)⟩
        rcases Nat.eq_or_lt_of_le x with rfl | x
        · exact hns
        · exact a i x (by omega)
      · right
        refine ⟨i, by omega, by omega, a3, ?_, a5⟩
        intro j x y
        rcases Nat.eq_or_lt_of_le x with rfl | x
        · exact hns
        · exact a4 j x y

/-- C104 (partial): what training with a validation set returns. Missing for the full property: the trees after the
best iteration are dropped only when the patience runs out (`fit_keeps_worse_trees`), and a metric for which
larger is better is compared with the loss (`fit_auc_keeps_worst`). -/
theorem fit_truncates_partial (inf ninf zero : β) (build : List τ → τ) (val : List τ → Option β) (N : Nat) (rounds : Int)
    (hr : 0 < rounds) (metric : String) (hm : metric ≠ "") :
    -- never exhausted: every tree is kept
    ((∀ i, i < N → ¬ Exhausted (minimizes metric) (startOf inf ninf (minimizes metric))
        (fun i => val (grow build (i + 1))) rounds i) →
      fitWithValidation inf ninf zero build val N rounds metric true = grow build N) ∧
    -- first exhausted at iteration `i`: the trees up to the first best iteration are kept
    (∀ i k, i < N → Exhausted (minimizes metric) (startOf inf ninf (minimizes metric))
        (fun i => val (grow build (i + 1))) rounds i →
      (∀ j, j < i → ¬ Exhausted (minimizes metric) (startOf inf ninf (minimizes metric))
        (fun i => val (grow build (i + 1))) rounds j) →
      FirstBest (minimizes metric) (startOf inf ninf (minimizes metric)) (fun i => val (grow build (i + 1))) (i + 1) k →
      fitWithValidation inf ninf zero build val N rounds metric true = grow build (k + 1)) ∧
    -- without validation data or patience every tree is kept
    (∀ r : Int, fitWithValidation inf ninf zero build val N r metric false = grow build N) ∧
    (∀ v : Bool, fitWithValidation inf ninf zero build val N 0 metric v = grow build N) := by
  have h0 := (ES.feed_seen inf ninf zero rounds metric (fun i => val (grow build (i + 1))) hr 0)
  simp only [ES.feed, List.range_zero, List.foldl_nil] at h0
  obtain ⟨h1, h2, h3, h4⟩ := h0
  have hmain := fitLoop_spec build val (startOf inf ninf (minimizes metric)) rounds (minimizes metric) hr N 0
    (ES.new inf ninf zero rounds metric) h2 h3 h4 h1
  have heq : fitWithValidation inf ninf zero build val N rounds metric true =
      fitLoop build val N 0 (some (ES.new inf ninf zero rounds metric)) (grow build 0) := by
    simp [fitWithValidation, hr, hm, grow]
  refine ⟨fun hno => ?_, fun i k hi hx hfirst hk => ?_, fun r => ?_, fun v => ?_⟩
  · rw [heq]
    rcases hmain with ⟨_, b⟩ | ⟨i, a1, a2, a3, _⟩
    · simpa using b
    · exact absurd a3 (hno i (by omega))
  · rw [heq]
    rcases hmain with ⟨a, _⟩ | ⟨i', a1, a2, a3, a4, bi, best, ni, hs, hle, hres⟩
    · exact absurd hx (a i (Nat.zero_le _) (by omega))
    · have : i' = i := by
        rcases Nat.lt_trichotomy i i' with h | h | h
        · exact absurd hx (a4 i (Nat.zero_le _) h)
        · exact h.symm
        · exact absurd a3 (hfirst i' h)
      subst this
      have := ((seen_best hs).1 k hk).1
      rw [hres]
      have : bi = k := by omega
      rw [this]
  · have := fitLoop_none build val N 0
    simpa [fitWithValidation, grow] using this
  · have := fitLoop_none build val N 0
    simpa [fitWithValidation, grow] using this

/-- C104 is false: when the iterations run out before the patience does, trees after the best iteration stay in the
model although the validation score is better without them -/
theorem fit_keeps_worse_trees :
    ∃ (val : List Nat → Option Int) (N : Nat),
      FirstBest true (10 ^ 9) (fun i => val (grow List.length (i + 1))) N 0 ∧
        fitWithValidation (10 ^ 9) (-10 ^ 9) 0 List.length val N 5 "l2" true = grow List.length 3 ∧ 3 ≤ N := by
  refine ⟨fun ts => some ts.length, 3, ⟨by decide, 1, rfl, by simp [Better], ?_, ?_⟩, by decide +kernel, by decide⟩
  · intro j hj w hw
    simp only [grow_length, Option.some.injEq] at hw
    subst hw
    simp only [Better, if_true]; push_cast; omega
  · intro j hj; omega

/-- C104 is false: with the metric "auc" the handler maximises the validation loss; although every tree lowers the
loss only the first one is kept -/
theorem fit_auc_keeps_worst :
    ∃ val : List Nat → Option Int,
      (∀ n, val (grow List.length (n + 1)) = some (100 - (n : Int))) ∧
        fitWithValidation (10 ^ 9) (-10 ^ 9) 0 List.length val 50 1 "auc" true = grow List.length 1 := by
  refine ⟨fun ts => some (101 - ts.length), fun n => ?_, by decide +kernel⟩
  simp only [grow_length]; push_cast; congr 1; ring

/-- C104: the losses 5, 3, 4, 4 with patience 2 leave two trees -/
example : fitWithValidation (10 ^ 9) (-10 ^ 9) 0 List.length
    (fun ts => [none, some 5, some (3 : Int), some 4, some 4, some 1].getD ts.length none) 5 2 "l2" true = [0, 1] := by
  decide +kernel

/-! ## The callback of the trainer -/

/-- C105 is false: a patience of one iteration ends training after the first tree whatever the losses are -/
theorem callback_patience_one (inf ninf : β) (minimize : Bool) (loss : Nat → Option β) (N : Nat) :
    fitWithCallback inf ninf 1 minimize loss (N + 1) = 1 := by
  simp only [fitWithCallback, cbLoop, CB.call, CB.new]
  by_cases h0 : improves minimize (loss 0) (some (if minimize then inf else ninf)) = true
  · simp only [Bool.false_eq_true, if_false, h0, if_true, Bool.false_or]
    norm_num
    cases N with
    | zero => rfl
    | succ N =>
      have : improves minimize (loss 0) (loss 0) = false := by
        rcases loss 0 with _ | v
        · cases minimize <;> rfl
        · have := not_better_self (m := minimize) v
          rw [← improves_iff] at this; simpa using this
      simp [cbLoop, CB.call, this]
  · simp [h0]

theorem cbLoop_flat (rounds : Int) (minimize : Bool) (v : Option β) (best : Option β) (bi : Int)
    (hv : improves minimize v best = false) (n : Nat) : ∀ (iter : Nat) (k : Nat), (k : Int) < rounds →
      cbLoop rounds minimize (fun _ => v) n iter ⟨best, bi, k, false⟩ (some v) =
        min (iter + n) (iter + ((rounds - k).toNat) / 2) := by
  induction n with
  | zero => intro iter k hk; simp [cbLoop]
  | succ n ih =>
    intro iter k hk
    simp only [cbLoop, CB.call, hv, Bool.false_eq_true, if_false, Bool.false_or, decide_eq_true_eq]
    by_cases h1 : rounds ≤ (k : Int) + 1
    · rw [if_pos h1]; omega
    · rw [if_neg h1]
      simp only [h1, decide_false, Bool.false_or, decide_eq_true_eq]
      by_cases h2 : rounds ≤ (k : Int) + 1 + 1
      · rw [if_pos h2]; omega
      · rw [if_neg h2]
        simp only [h2, decide_false]
        have := ih (iter + 1) (k + 2) (by push_cast; omega)
        rw [show ((k + 2 : Nat) : Int) = (k : Int) + 1 + 1 by push_cast; ring] at this
        rw [this]; omega

/-- C105 is false: when the loss stops improving after the first iteration, training ends after half the patience -/
theorem callback_halves_patience (inf ninf : β) (minimize : Bool) (v : β)
    (hv : Better minimize v (startOf inf ninf minimize)) (rounds N : Nat) (hr : 1 ≤ rounds) (hN : 1 + rounds ≤ N) :
    fitWithCallback inf ninf rounds minimize (fun _ => some v) N = 1 + rounds / 2 := by
  obtain ⟨N, rfl⟩ : ∃ M, N = M + 1 := ⟨N - 1, by omega⟩
  have hv' : improves minimize (some v) (some (if minimize then inf else ninf)) = true := (improves_iff _ _ _).2 hv
  have hself : improves minimize (some v) (some v) = false := by
    have := not_better_self (m := minimize) v
    rw [← improves_iff] at this; simpa using this
  have h0 : ¬ ((rounds : Int) ≤ 0) := by omega
  simp only [fitWithCallback, cbLoop, CB.call, CB.new, hv', if_true, h0, decide_false, Bool.or_self, Bool.false_eq_true,
    if_false]
  have := cbLoop_flat (rounds : Int) minimize (some v) (some v) ((0 : Nat) : Int) hself N 1 0 (by push_cast; omega)
  simp only [Nat.cast_zero, sub_zero, Int.toNat_natCast, Nat.zero_add] at this ⊢
  rw [this]; omega

theorem cbLoop_improving (rounds : Int) (minimize : Bool) (hr : 2 ≤ rounds) (loss : Nat → β)
    (hi : ∀ i, Better minimize (loss (i + 1)) (loss i)) (n : Nat) : ∀ (iter : Nat) (bi : Int),
      cbLoop rounds minimize (fun i => some (loss i)) n (iter + 1) ⟨some (loss iter), bi, 0, false⟩ (some (some (loss iter))) =
        iter + 1 + n := by
  induction n with
  | zero => intro iter bi; rfl
  | succ n ih =>
    intro iter bi
    have hself : improves minimize (some (loss iter)) (some (loss iter)) = false := by
      have := not_better_self (m := minimize) (loss iter)
      rw [← improves_iff] at this; simpa using this
    have hstep : improves minimize (some (loss (iter + 1))) (some (loss iter)) = true := (improves_iff _ _ _).2 (hi iter)
    have h1 : ¬ rounds ≤ 0 + 1 := by omega
    have h2 : ¬ rounds ≤ 0 := by omega
    simp only [cbLoop, CB.call, hself, Bool.false_eq_true, if_false, h1, h2, decide_false, Bool.or_self, hstep, if_true]
    rw [ih (iter + 1)]; omega

/-- C105 (partial): with a patience of at least two, training that improves at every iteration is never stopped.
Missing for the full property: every evaluation is counted twice, see `callback_halves_patience` and
`callback_patience_one`. -/
theorem callback_improving_partial (inf ninf : β) (minimize : Bool) (loss : Nat → β) (rounds : Int) (hr : 2 ≤ rounds)
    (h0 : Better minimize (loss 0) (startOf inf ninf minimize)) (hi : ∀ i, Better minimize (loss (i + 1)) (loss i)) (N : Nat) :
    fitWithCallback inf ninf rounds minimize (fun i => some (loss i)) N = N := by
  cases N with
  | zero => rfl
  | succ N =>
    have hv' : improves minimize (some (loss 0)) (some (if minimize then inf else ninf)) = true := (improves_iff _ _ _).2 h0
    have h2 : ¬ rounds ≤ 0 := by omega
    simp only [fitWithCallback, cbLoop, CB.call, CB.new, hv', if_true, h2, decide_false, Bool.or_self, Bool.false_eq_true,
      if_false]
    have := cbLoop_improving rounds minimize hr loss hi N 0 ((0 : Nat) : Int)
    simp only [Nat.zero_add] at this ⊢
    rw [this]; omega

/-- C105: falling losses, patience 3, and then flat ones: four trees improve, one more is built -/
example : fitWithCallback (10 ^ 9) (-10 ^ 9) 3 true (fun i => some (10 - min (i : Int) 3)) 50 = 5 := by decide +kernel

example : fitWithCallback (10 ^ 9) (-10 ^ 9) 3 true (fun i => some (100 - (i : Int))) 20 = 20 :=
  callback_improving_partial _ _ _ (fun i => 100 - (i : Int)) _ (by decide) (by simp [Better, startOf])
    (fun i => by simp only [Better, if_true]; push_cast; omega) _

/-- C105 is false: the recorded history of `n` iterations has `2 n - 1` entries, every loss but the last one twice -/
theorem record_doubles (loss : Nat → Option β) (n : Nat) :
    (recordLoop loss (n + 1)).length = 2 * n + 1 ∧
      ∀ i, i < n → (recordLoop loss (n + 1))[2 * i]? = some (loss i) ∧
        (recordLoop loss (n + 1))[2 * i + 1]? = some (loss i) := by
  induction n with
  | zero => exact ⟨rfl, fun i hi => absurd hi (by omega)⟩
  | succ n ih =>
    obtain ⟨h1, h2⟩ := ih
    have hlast : (recordLoop loss (n + 1))[2 * n]? = some (loss n) := by
      have : recordLoop loss (n + 1) = (recordLoop loss (n + 1)).take (2 * n) ++ [loss n] := by
        have hs : ∃ l, recordLoop loss (n + 1) = l ++ [loss n] := by
          simp only [recordLoop, List.range_succ (n := n), List.foldl_append, List.foldl_cons, List.foldl_nil]
          exact ⟨_, rfl⟩
        obtain ⟨l, hl⟩ := hs
        have hlen : l.length = 2 * n := by rw [hl] at h1; simp at h1; exact h1
        rw [hl, List.take_append_of_le_length (by omega), List.take_of_length_le (by omega)]
      rw [this, List.getElem?_append_right (by simp [h1])]
      simp [h1]
    have hrec : recordLoop loss (n + 1 + 1) = recordLoop loss (n + 1) ++ [loss n] ++ [loss (n + 1)] := by
      simp [recordLoop, List.range_succ (n := n + 1), List.foldl_append]
    rw [hrec]
    refine ⟨by simp [h1]; omega, fun i hi => ?_⟩
    rcases Nat.lt_succ_iff_lt_or_eq.1 hi with hi | rfl
    · obtain ⟨a, b⟩ := h2 i hi
      rw [List.append_assoc, List.getElem?_append_left (by omega), List.getElem?_append_left (by omega)]
      exact ⟨a, b⟩
    · rw [List.append_assoc, List.getElem?_append_left (by omega), List.getElem?_append_right (by omega), h1]
      exact ⟨hlast, by simp⟩

example : recordLoop (fun i => some i) 3 = [some 0, some 0, some 1, some 1, some 2] := by decide

end

end Scigo.Boost
