import Mathlib.Order.Defs.LinearOrder
import Mathlib.Data.List.Perm.Basic
import Mathlib.Data.List.Sort

/-!
# `sort.Slice`

Go's `sort.Slice` is an unstable pattern-defeating quicksort.  All that its documentation
promises is that the result is a rearrangement ordered by `less` (when `less` is a strict
weak order).  The model takes the sorting function as a parameter and theorems assume only
that contract.
-/

namespace Scigo

variable {β κ : Type _}

/-- Contract of `sort.Slice(s, func(i,j) bool { return key(s[i]) > key(s[j]) })`
(used at `metrics/classification.go:91`, `metrics/ranking.go:113,135,307`). -/
def SortsDesc [LT κ] (key : β → κ) (srt : List β → List β) : Prop :=
  ∀ l, (srt l).Perm l ∧ (srt l).Pairwise (fun a b => ¬ key a < key b)

/-- Contract of `sort.Slice(s, func(i,j) bool { return key(s[i]) < key(s[j]) })`. (sorting calls such as metrics/classification.go:91) -/
def SortsAsc [LT κ] (key : β → κ) (srt : List β → List β) : Prop :=
  ∀ l, (srt l).Perm l ∧ (srt l).Pairwise (fun a b => ¬ key b < key a)

/-- A concrete (stable) sorter meeting the contract: the contract is satisfiable. (sorting calls such as metrics/classification.go:91) -/
def stableDesc [LE κ] [DecidableLE κ] (key : β → κ) (l : List β) : List β :=
  l.insertionSort (fun a b => key b ≤ key a)

/-- A concrete (stable) ascending sorter. (sorting calls such as metrics/classification.go:91) -/
def stableAsc [LE κ] [DecidableLE κ] (key : β → κ) (l : List β) : List β :=
  l.insertionSort (fun a b => key a ≤ key b)

theorem stableDesc_sorts [LinearOrder κ] (key : β → κ) : SortsDesc key (stableDesc key) := by
  intro l
  refine ⟨List.perm_insertionSort _ _, ?_⟩
  haveI : Std.Total (fun a b : β => key b ≤ key a) := ⟨fun a b => le_total _ _⟩
  haveI : IsTrans β (fun a b : β => key b ≤ key a) := ⟨fun a b c h1 h2 => h2.trans h1⟩
  exact (List.pairwise_insertionSort (fun a b : β => key b ≤ key a) l).imp (fun h => not_lt.2 h)

theorem stableAsc_sorts [LinearOrder κ] (key : β → κ) : SortsAsc key (stableAsc key) := by
  intro l
  refine ⟨List.perm_insertionSort _ _, ?_⟩
  haveI : Std.Total (fun a b : β => key a ≤ key b) := ⟨fun a b => le_total _ _⟩
  haveI : IsTrans β (fun a b : β => key a ≤ key b) := ⟨fun a b c h1 h2 => h1.trans h2⟩
  exact (List.pairwise_insertionSort (fun a b : β => key a ≤ key b) l).imp (fun h => not_lt.2 h)

/-- Contract of ranging over the keys of a Go map that was filled from a list: each distinct
value once, in any order (`preprocessing/encoder.go:78-89`). -/
def MapKeys {κ : Type _} (iter : List κ → List κ) : Prop := ∀ l, (iter l).Nodup ∧ ∀ x, x ∈ iter l ↔ x ∈ l

/-! ## The exchange sort written out by hand in the classifiers -/

section
variable [LT κ] [DecidableLT κ]

/-- inner loop `for j := i+1; …; if a[i] > a[j] { swap }` on `a[i] = x`, `a[i+1:] = l`
(e.g. `sklearn/naive_bayes/multinomial_nb.go:499-503`) -/
def exchangePass (x : κ) : List κ → κ × List κ
  | [] => (x, [])
  | y :: ys =>
    if y < x then
      let r := exchangePass y ys
      (r.1, x :: r.2)
    else
      let r := exchangePass x ys
      (r.1, y :: r.2)

/-- outer loop; the count is the number of positions left (sklearn/naive_bayes/multinomial_nb.go:498-504) -/
def exchangeLoop : Nat → List κ → List κ
  | 0, l => l
  | _ + 1, [] => []
  | n + 1, x :: xs =>
    let r := exchangePass x xs
    r.1 :: exchangeLoop n r.2

/-- the hand-written sort of class labels
(e.g. `sklearn/naive_bayes/multinomial_nb.go:498-504`) -/
def exchangeSort (l : List κ) : List κ := exchangeLoop l.length l

end

theorem exchangePass_spec [LinearOrder κ] (x : κ) (l : List κ) :
    ((exchangePass x l).1 :: (exchangePass x l).2).Perm (x :: l) ∧
    ∀ y ∈ x :: l, (exchangePass x l).1 ≤ y := by
  induction l generalizing x with
  | nil => simp [exchangePass]
  | cons y ys ih =>
    unfold exchangePass
    split_ifs with h
    · obtain ⟨h1, h2⟩ := ih y
      refine ⟨?_, ?_⟩
      · exact (List.Perm.swap _ _ _).trans (h1.cons x)
      · intro z hz
        rcases List.mem_cons.1 hz with e | hz
        · rw [e]; exact (h2 y (by simp)).trans h.le
        · exact h2 z hz
    · obtain ⟨h1, h2⟩ := ih x
      refine ⟨?_, ?_⟩
      · exact (List.Perm.swap _ _ _).trans ((h1.cons y).trans (List.Perm.swap _ _ _))
      · intro z hz
        rcases List.mem_cons.1 hz with e | hz
        · exact h2 z (by simp [e])
        · rcases List.mem_cons.1 hz with e | hz
          · rw [e]; exact (h2 x (by simp)).trans (not_lt.1 h)
          · exact h2 z (by simp [hz])

theorem exchangeLoop_spec [LinearOrder κ] (n : Nat) (l : List κ) (hn : l.length ≤ n) :
    (exchangeLoop n l).Perm l ∧ (exchangeLoop n l).Pairwise (· ≤ ·) := by
  induction n generalizing l with
  | zero =>
    have : l = [] := List.length_eq_zero_iff.1 (Nat.le_zero.1 hn)
    subst this
    simp [exchangeLoop]
  | succ n ih =>
    cases l with
    | nil => simp [exchangeLoop]
    | cons x xs =>
      obtain ⟨h1, h2⟩ := exchangePass_spec x xs
      have hl := h1.length_eq
      simp only [List.length_cons] at hl hn
      obtain ⟨i1, i2⟩ := ih (exchangePass x xs).2 (by omega)
      simp only [exchangeLoop]
      refine ⟨(i1.cons _).trans h1, List.pairwise_cons.2 ⟨?_, i2⟩⟩
      intro y hy
      exact h2 y (h1.subset (List.mem_cons_of_mem _ (i1.subset hy)))

/-- the hand-written sort sorts -/
theorem exchangeSort_spec [LinearOrder κ] (l : List κ) :
    (exchangeSort l).Perm l ∧ (exchangeSort l).Pairwise (· ≤ ·) :=
  exchangeLoop_spec _ l le_rfl

end Scigo
