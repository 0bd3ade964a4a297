import Verif.Round.ProbaProps
import Verif.Online.SessionMore
import Verif.NaiveBayes.Model

/-!
# C319: the class predicted by a linear classifier with every operation rounded

`SGDClassifier`, `PassiveAggressiveClassifier` and `MultinomialNB` take the first class with the greatest score. With
rounding that need not be the class with the greatest exact score. Here: by how much at most it is behind, and a witness.
-/

set_option linter.unusedSectionVars false

namespace Scigo.Round

open Scigo.Online

variable {K : Type} [Field K] [LinearOrder K] [IsStrictOrderedRing K] {R : Rounding K} {eps eta : K}

/-- class `c` of `n` has, up to the rounding errors of its own score and of the other, the greatest exact score `b + Σ x w` for row `i` -/
def NearlyBest (eps eta : K) (X : Mat (Fl R)) (i : Nat) (W : List (List (Fl R))) (b : List (Fl R)) (n c : Nat) : Prop :=
  ∀ c' < n, (exactLin (W.getD c' []) (b.getD c' 0) X i).1 ≤ (exactLin (W.getD c []) (b.getD c 0) X i).1 +
    (linBound eps eta X.c (exactLin (W.getD c []) (b.getD c 0) X i).2 + linBound eps eta X.c (exactLin (W.getD c' []) (b.getD c' 0) X i).2)

/-- class `c` of `n` is ahead of the others by more than the rounding errors -/
def ClearlyBest (eps eta : K) (X : Mat (Fl R)) (i : Nat) (W : List (List (Fl R))) (b : List (Fl R)) (n c : Nat) : Prop :=
  ∀ c' < n, c' ≠ c → (exactLin (W.getD c' []) (b.getD c' 0) X i).1 +
    (linBound eps eta X.c (exactLin (W.getD c []) (b.getD c 0) X i).2 + linBound eps eta X.c (exactLin (W.getD c' []) (b.getD c' 0) X i).2) <
      (exactLin (W.getD c []) (b.getD c 0) X i).1

/-- a class that is nearly best is the one that is clearly best, if there is one -/
theorem NearlyBest.eq_clear {X : Mat (Fl R)} {i : Nat} {W : List (List (Fl R))} {b : List (Fl R)} {n c d : Nat} (h : NearlyBest eps eta X i W b n c)
    (hd : ClearlyBest eps eta X i W b n d) (hdn : d < n) (hcn : c < n) : c = d := by
  by_contra hne
  have h1 := h d hdn
  have h2 := hd c hcn hne
  linarith

theorem nearly_of_greatest (h : R.Accurate eps eta) (he : 0 ≤ eps) (hη : 0 ≤ eta) (X : Mat (Fl R)) (i : Nat) (W : List (List (Fl R))) (b : List (Fl R)) (n c : Nat)
    (hg : ∀ c' < n, Online.predRow (W.getD c' []) (b.getD c' 0) X i ≤ Online.predRow (W.getD c []) (b.getD c 0) X i) : NearlyBest eps eta X i W b n c := by
  intro c' hc'
  have h1 := abs_le.1 (rounded_predRow h he hη (W.getD c []) (b.getD c 0) X i)
  have h2 := abs_le.1 (rounded_predRow h he hη (W.getD c' []) (b.getD c' 0) X i)
  have h3 : (Linear.predRow (W.getD c' []) (b.getD c' 0) X i).val ≤ (Linear.predRow (W.getD c []) (b.getD c 0) X i).val := hg c' hc'
  unfold exactLin linBound
  dsimp only
  linarith [h1.2, h2.1]

/-- the first greatest score among the classes, if all scores are above the start value of the scan -/
theorem argmax_greatest (ninf : Fl R) (classes : List Int) (f : Nat → Fl R) (hne : classes ≠ []) (hi : ∀ c < classes.length, ninf < f c) :
    ∃ c < classes.length, classes[c]? = some (argmaxClass ninf classes ((List.range classes.length).map f)) ∧ ∀ c' < classes.length, f c' ≤ f c := by
  obtain ⟨c, s, e1, e2, e3⟩ := argmaxClass_first ninf classes ((List.range classes.length).map f) (by simp) hne (by
    intro s hs
    obtain ⟨c, hc, rfl⟩ := List.mem_map.1 hs
    exact hi c (List.mem_range.1 hc))
  have hc : c < classes.length := (List.getElem?_eq_some_iff.1 e2).1
  have hsc : ∀ c < classes.length, ((List.range classes.length).map f)[c]? = some (f c) := by
    intro c hc
    rw [List.getElem?_map, List.getElem?_range hc]
    rfl
  rw [hsc c hc] at e1
  cases e1
  exact ⟨c, hc, e2, fun c' hc' => (e3 c' _ (hsc c' hc')).1⟩

/-- **C319** for `SGDClassifier` -/
theorem sgd_class_nearly_best (h : R.Accurate eps eta) (he : 0 ≤ eps) (hη : 0 ≤ eta) (ofInt : Int → Fl R) (ninf : Fl R) (m : Clf (Fl R)) (X P : Mat (Fl R))
    (hp : m.predict ofInt ninf X = .ok P) (i : Nat)
    (hfin : ∀ c < m.classes.length, ninf < predRow ((m.coef.getD []).getD c []) (m.intercept.getD c 0) X i) :
    ∃ c k, c < m.classes.length ∧ m.classes[c]? = some k ∧ P.at' i 0 = ofInt k ∧
      NearlyBest eps eta X i (m.coef.getD []) m.intercept m.classes.length c := by
  have hP : m.classes ≠ [] ∧ P = ⟨X.r, 1, fun i _ => ofInt (argmaxClass ninf m.classes (m.scores X i))⟩ := by
    unfold Clf.predict checked at hp
    split at hp
    · cases hp
    split at hp
    · cases hp
    split at hp
    · cases hp
    split at hp
    · cases hp
    split at hp
    · cases hp
    rename_i h4 _
    exact ⟨h4, (Outcome.ok.inj hp).symm⟩
  obtain ⟨hne, rfl⟩ := hP
  obtain ⟨c, hc, e1, e2⟩ := argmax_greatest ninf m.classes (fun c => predRow ((m.coef.getD []).getD c []) (m.intercept.getD c 0) X i) hne hfin
  exact ⟨c, _, hc, e1, rfl, nearly_of_greatest h he hη X i _ _ _ c e2⟩

/-- **C319** for `PassiveAggressiveClassifier` -/
theorem pa_class_nearly_best (h : R.Accurate eps eta) (he : 0 ≤ eps) (hη : 0 ≤ eta) (ofInt : Int → Fl R) (ninf : Fl R) (m : PAClf (Fl R)) (X P : Mat (Fl R))
    (hp : m.predict ofInt ninf X = .ok P) (i : Nat)
    (hfin : ∀ c < m.classes.length, ninf < predRow ((m.coef.getD []).getD c []) (m.intercept.getD c 0) X i) :
    ∃ c k, c < m.classes.length ∧ m.classes[c]? = some k ∧ P.at' i 0 = ofInt k ∧
      NearlyBest eps eta X i (m.coef.getD []) m.intercept m.classes.length c := by
  obtain ⟨c, k, h1, h2, h3⟩ := paClf_predict_greatest ofInt ninf m X P hp i hfin
  exact ⟨c, k, (List.getElem?_eq_some_iff.1 h1).1, h1, h2, nearly_of_greatest h he hη X i _ _ _ c fun c' hc' => (h3 c' hc').1⟩

theorem joint_predRow (s : NaiveBayes.NB (Fl R)) (c : Nat) (X : Mat (Fl R)) (i : Nat) (hl : (s.featLogProb.getD c []).length = X.c) :
    s.joint c (X.row i) = predRow (s.featLogProb.getD c []) (s.logPrior.getD c 0) X i := by
  unfold NaiveBayes.NB.joint predRow Mat.row
  generalize s.featLogProb.getD c [] = w at hl
  generalize s.logPrior.getD c 0 = b
  have hz : (((List.range X.c).map fun j => X.at' i j).zip w) = (List.range X.c).map fun j => (X.at' i j, w.getD j 0) := by
    refine List.ext_getElem (by simp [hl]) fun j h1 h2 => ?_
    have hj : j < w.length := by
      rw [List.length_map, List.length_range] at h2
      omega
    simp [List.getElem?_eq_getElem hj]
  rw [hz, List.foldl_map]

theorem zipIdx_zip {β : Type _} (f : Nat → β) (l : List Int) (n : Nat) :
    (l.zipIdx n).map (fun p => (f p.2, p.1)) = List.zip ((List.range' n l.length).map f) l := by
  induction l generalizing n with
  | nil => rfl
  | cons a l ih =>
    rw [List.zipIdx_cons, List.map_cons, ih, List.length_cons, List.range'_succ, List.map_cons, List.zip_cons_cons]

/-- **C319** for `MultinomialNB` with the log probabilities it holds -/
theorem nb_class_nearly_best (h : R.Accurate eps eta) (he : 0 ≤ eps) (hη : 0 ≤ eta) (ninf : Fl R) (s : NaiveBayes.NB (Fl R)) (X P : Mat (Fl R))
    (hp : s.predict ninf X = .ok P) (i : Nat) (hl : ∀ c < s.nClasses, (s.featLogProb.getD c []).length = s.nFeatures)
    (hfin : ∀ c < s.nClasses, ninf < s.joint c (X.row i)) :
    ∃ c k, c < s.nClasses ∧ (s.classes.getD [])[c]? = some k ∧ P.at' i 0 = ((k : Int) : Fl R) ∧
      NearlyBest eps eta X i s.featLogProb s.logPrior s.nClasses c := by
  unfold NaiveBayes.NB.nClasses at *
  have hP : X.c = s.nFeatures ∧ s.classes.getD [] ≠ [] ∧
      P.at' i 0 = ((argmaxClass ninf (s.classes.getD []) ((List.range (s.classes.getD []).length).map fun c => s.joint c (X.row i)) : Int) : Fl R) := by
    unfold NaiveBayes.NB.predict at hp
    split at hp
    · cases hp
    split at hp
    · cases hp
    rename_i h2
    split at hp
    · cases hp
    split at hp
    · cases hp
    rename_i c0 cs hcs
    split at hp
    · cases hp
    have := Outcome.ok.inj hp
    rw [← this, hcs]
    refine ⟨not_ne_iff.1 h2, by simp, ?_⟩
    dsimp only
    rw [zipIdx_zip (fun c => s.joint c (X.row i)) (c0 :: cs) 0, ← List.range_eq_range']
    rfl
  obtain ⟨hc, hne, hP⟩ := hP
  obtain ⟨c, hcl, e1, e2⟩ := argmax_greatest ninf (s.classes.getD []) (fun c => s.joint c (X.row i)) hne hfin
  refine ⟨c, _, hcl, e1, hP, nearly_of_greatest h he hη X i _ _ _ c fun c' hc' => ?_⟩
  have h1 := e2 c' hc'

  rwa [joint_predRow s c' X i (by rw [hc]; exact hl c' hc'), joint_predRow s c X i (by rw [hc]; exact hl c hcl)] at h1

open Binary64 in
/-- a model with the classes 0 and 1 (sklearn/linear_model/passive_aggressive.go:507-549) -/
def twoClasses (w0 w1 : List ℚ) : PAClf (Fl rounding) :=
  ⟨lit 1, "hinge", true, false, 1, some [w0.map lit, w1.map lit], [lit 0, lit 0], [0, 1], w0.length, 0, 0, true⟩

open Binary64 in
/-- **C319**, negation: with the weights `2 ^ 53, 0` and `2 ^ 53, 1` the row `1, 1` has the greater exact score in the second class, but the first is predicted -/
theorem rounding_changes_class :
    ((twoClasses [2 ^ 53, 0] [2 ^ 53, 1]).predict (fun k => lit k) (lit (-1)) (Mat.ofRows [[lit 1, lit 1]] 2 0)).map (fun P => P.at' 0 0) = .ok (lit 0) ∧
    (exactLin [lit (2 ^ 53), lit 0] (lit 0) (Mat.ofRows [[lit 1, lit 1]] 2 0) 0).1 < (exactLin [lit (2 ^ 53), lit 1] (lit 0) (Mat.ofRows [[lit 1, lit 1]] 2 0) 0).1 := by
  constructor <;> decide +kernel

open Binary64 in
/-- the hypotheses of `pa_class_nearly_best` are met, and the class 1 is clearly best for the weights 1 and 3 -/
example : (∃ P, (twoClasses [1] [3]).predict (fun k => lit k) (lit (-1)) (Mat.ofRows [[lit 1]] 1 0) = .ok P) ∧
    (∀ c < (twoClasses [1] [3]).classes.length, (lit (-1) : Fl rounding) <
      predRow (((twoClasses [1] [3]).coef.getD []).getD c []) ((twoClasses [1] [3]).intercept.getD c 0) (Mat.ofRows [[lit 1]] 1 0) 0) ∧
    ClearlyBest (1 / 2 ^ 53) (1 / 2 ^ 1074) (Mat.ofRows [[lit 1]] 1 0) 0 ((twoClasses [1] [3]).coef.getD []) (twoClasses [1] [3]).intercept 2 1 := by
  refine ⟨⟨_, rfl⟩, by decide +kernel, ?_⟩
  intro c hc hne
  have : c = 0 := by omega
  subst this
  unfold linBound exactLin
  decide +kernel

open Binary64 in
/-- a Bayes model with the classes 0 and 1 (sklearn/naive_bayes/multinomial_nb.go:248-289) -/
def twoBayes (p0 p1 : List ℚ) : NaiveBayes.NB (Fl rounding) :=
  ⟨lit 1, true, none, some [0, 1], [lit (-1), lit (-1)], [p0.map lit, p1.map lit], [], [], p0.length, 2, true⟩

open Binary64 in
/-- the hypotheses of `nb_class_nearly_best` are met -/
example : (∃ P, (twoBayes [-1] [-2]).predict (lit (-100)) (Mat.ofRows [[lit 1]] 1 0) = .ok P) ∧
    (∀ c < (twoBayes [-1] [-2]).nClasses, ((twoBayes [-1] [-2]).featLogProb.getD c []).length = (twoBayes [-1] [-2]).nFeatures) ∧
    (∀ c < (twoBayes [-1] [-2]).nClasses, (lit (-100) : Fl rounding) < (twoBayes [-1] [-2]).joint c ((Mat.ofRows [[lit 1]] 1 0).row 0)) := by
  refine ⟨?_, by decide +kernel, by decide +kernel⟩
  unfold NaiveBayes.NB.predict
  rw [if_neg (by decide), if_neg (by decide), if_neg (by decide)]
  dsimp only [twoBayes, Option.getD_some]
  rw [if_neg (by decide +kernel)]
  exact ⟨_, rfl⟩

end Scigo.Round
