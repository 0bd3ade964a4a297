import Verif.NonFinite.StandardProps
import Verif.Logistic.Model

/-!
# C347: missing values in the rows given to the linear classifiers
-/

set_option linter.unusedSectionVars false

namespace Scigo.NonFinite

open F64 Scigo.Logistic Scigo.Online

/-! ## Lemmas -/

theorem scoreAt_nan (m : LR F64) (X : Mat F64) (i c j : Nat) (hj : j < m.nFeatures) (h : X.at' i j = nan) : m.scoreAt X i c = nan := by
  unfold LR.scoreAt zAt
  exact foldl_add_nan (fun j => X.at' i j * ((m.coef.getD []).getD c []).getD j 0) (List.range m.nFeatures) _ ⟨j, List.mem_range.2 hj, by rw [h, nan_mul]⟩

theorem argmax_all_nan (ninf : F64) (classes : List Int) (scores : List F64) (h : ∀ s ∈ scores, s = nan) : argmaxClass ninf classes scores = classes.headD 0 := by
  unfold argmaxClass
  have key : ∀ (l : List (F64 × Int)) (b : F64 × Int), (∀ p ∈ l, p.1 = nan) → l.foldl (fun best p => if best.1 < p.1 then p else best) b = b := by
    intro l
    induction l with
    | nil => intro b _; rfl
    | cons p t ih =>
      intro b hl
      rw [List.foldl_cons, hl p (List.mem_cons_self ..), if_neg (not_lt_nan _)]
      exact ih b fun q hq => hl q (List.mem_cons_of_mem _ hq)
  rw [key]
  intro p hp
  exact h p.1 (List.of_mem_zip hp).1

theorem lr_guarded_ok {β : Type _} {m : LR F64} {X : Mat F64} {k : Outcome β} {v : β} (h : m.guarded X k = .ok v) : k = .ok v ∧ m.classes ≠ [] := by
  unfold LR.guarded at h
  dsimp only at h
  generalize (if m.classes.length = 2 then 1 else m.classes.length) = n at h
  split at h
  · cases h
  · split at h
    · cases h
    · rename_i hc
      split at h
      · cases h
      · split at h
        · cases h
        · exact ⟨h, fun e => hc (.inr e)⟩

theorem sigmoid_nan (N : Num F64) (he : N.exp nan = nan) : sigmoid N nan = nan := by
  unfold sigmoid
  rw [show (-nan : F64) = nan from rfl, he, add_nan, div_nan]

theorem softmax_nan (exp : F64 → F64) (he : exp nan = nan) (lowest : F64) (l : List F64) (h : ∀ s ∈ l, s = nan) : softmaxShift exp lowest l = l := by
  unfold softmaxShift
  dsimp only
  rw [List.map_map]
  conv_rhs => rw [← List.map_id l]
  refine List.map_congr_left fun s hs => ?_
  rw [h s hs]
  show exp (nan - _) / _ = nan
  rw [nan_sub, he, nan_div]

theorem online_predRow_nan (w : List F64) (b : F64) (X : Mat F64) (i j : Nat) (hj : j < X.c) (h : X.at' i j = nan) : predRow w b X i = nan := by
  unfold predRow
  exact foldl_add_nan (fun j => X.at' i j * w.getD j 0) (List.range X.c) b ⟨j, List.mem_range.2 hj, by rw [h, nan_mul]⟩

theorem online_checked_ok {β : Type _} {f : Bool} {n : Nat} {X : Mat F64} {k : Outcome β} {v : β} (h : checked f n X k = .ok v) : k = .ok v := by
  unfold checked at h
  split at h
  · cases h
  · split at h
    · cases h
    · split at h
      · cases h
      · exact h

/-! ## Theorems -/

/-- **C347** (float64): a row with a missing value in a column the model uses always gets the first class as its label, without an error and whatever the weights are. -/
theorem missing_row_first_class (N : Num F64) (he : N.exp nan = nan) (ofInt : Int → F64) (lowest : F64) (m : LR F64) (X P : Mat F64)
    (h : m.predict N ofInt lowest X = .ok P) (i j : Nat) (hj : j < m.nFeatures) (hx : X.at' i j = nan) :
    ∃ c, m.classes[0]? = some c ∧ P.at' i 0 = ofInt c := by
  obtain ⟨hk, hc⟩ := lr_guarded_ok h
  obtain rfl := Outcome.ok.inj hk
  obtain ⟨c, t, e⟩ := List.exists_cons_of_ne_nil hc
  refine ⟨c, by rw [e]; rfl, ?_⟩
  dsimp only
  split
  · rw [scoreAt_nan m X i 0 j hj hx, sigmoid_nan N he, if_neg, e]
    · rfl
    · exact not_le_nan _
  · unfold LR.bestClass
    rw [argmax_all_nan, e]
    · rfl
    · intro s hs
      obtain ⟨c', -, rfl⟩ := List.mem_map.1 hs
      exact scoreAt_nan m X i c' j hj hx

/-- **C347** (float64): the probabilities of such a row are missing in every class: the label does not come from them. -/
theorem missing_row_proba_missing (N : Num F64) (he : N.exp nan = nan) (lowest : F64) (m : LR F64) (X P : Mat F64)
    (h : m.predictProba N lowest X = .ok P) (i j : Nat) (hj : j < m.nFeatures) (hx : X.at' i j = nan) (c : Nat) (hc : c < P.c) :
    P.at' i c = nan := by
  obtain ⟨hk, -⟩ := lr_guarded_ok h
  obtain rfl := Outcome.ok.inj hk
  dsimp only at hc ⊢
  split
  · rw [scoreAt_nan m X i 0 j hj hx, sigmoid_nan N he]
    split
    · exact sub_nan _
    · rfl
  · rw [softmax_nan N.exp he]
    · rw [List.getD_eq_getElem?_getD, List.getElem?_map, List.getElem?_range hc]
      exact scoreAt_nan m X i c j hj hx
    · intro s hs
      obtain ⟨c', -, rfl⟩ := List.mem_map.1 hs
      exact scoreAt_nan m X i c' j hj hx

/-- **C347** (float64): a missing value in a column behind those the model was fitted on changes nothing. -/
theorem extra_column_ignored (N : Num F64) (ofInt : Int → F64) (lowest : F64) (m : LR F64) (X X' P P' : Mat F64)
    (h : m.predict N ofInt lowest X = .ok P) (h' : m.predict N ofInt lowest X' = .ok P') (i : Nat)
    (hi : ∀ j < m.nFeatures, X'.at' i j = X.at' i j) : P'.at' i 0 = P.at' i 0 := by
  obtain rfl := Outcome.ok.inj (lr_guarded_ok h).1
  obtain rfl := Outcome.ok.inj (lr_guarded_ok h').1
  have key : ∀ c, m.scoreAt X' i c = m.scoreAt X i c := by
    intro c
    unfold LR.scoreAt zAt
    refine List.foldl_ext _ _ _ fun s j hj => ?_
    rw [hi j (List.mem_range.1 hj)]
  dsimp only
  unfold LR.bestClass
  rw [key 0, show m.scoreAt X' i = m.scoreAt X i from funext key]

/-- **C347** (float64): the SGD classifier labels every row with a missing value as the first class. -/
theorem sgd_missing_row_first_class (ofInt : Int → F64) (ninf : F64) (m : Clf F64) (X P : Mat F64) (h : m.predict ofInt ninf X = .ok P)
    (i j : Nat) (hj : j < X.c) (hx : X.at' i j = nan) : ∃ c, m.classes[0]? = some c ∧ P.at' i 0 = ofInt c := by
  unfold Clf.predict at h
  have hk := online_checked_ok h
  split at hk
  · cases hk
  · rename_i hc
    split at hk
    · cases hk
    · obtain rfl := Outcome.ok.inj hk
      obtain ⟨c, t, e⟩ := List.exists_cons_of_ne_nil hc
      refine ⟨c, by rw [e]; rfl, ?_⟩
      dsimp only
      rw [argmax_all_nan, e]
      · rfl
      · intro s hs
        obtain ⟨c', -, rfl⟩ := List.mem_map.1 hs
        exact online_predRow_nan _ _ X i j hj hx

/-- **C347** (float64): the probabilities the SGD classifier gives such a row are missing in every class. -/
theorem sgd_missing_row_proba_missing (exp : F64 → F64) (he : exp nan = nan) (m : Clf F64) (X P : Mat F64) (h : m.predictProba exp X = .ok P)
    (i j : Nat) (hj : j < X.c) (hx : X.at' i j = nan) (c : Nat) (hc : c < P.c) : P.at' i c = nan := by
  unfold Clf.predictProba at h
  have hk := online_checked_ok h
  split at hk
  · cases hk
  · split at hk
    · cases hk
    · obtain rfl := Outcome.ok.inj hk
      dsimp only at hc ⊢
      unfold softmaxPlain Clf.scores
      dsimp only
      rw [List.getD_eq_getElem?_getD, List.map_map, List.map_map, List.getElem?_map, List.getElem?_range hc]
      show exp (predRow _ _ X i) / _ = nan
      rw [online_predRow_nan _ _ X i j hj hx, he, nan_div]

/-- **C347** (float64): the passive-aggressive classifier labels every row with a missing value as the first class. -/
theorem pa_missing_row_first_class (ofInt : Int → F64) (ninf : F64) (m : PAClf F64) (X P : Mat F64) (h : m.predict ofInt ninf X = .ok P)
    (i j : Nat) (hj : j < X.c) (hx : X.at' i j = nan) : ∃ c, m.classes[0]? = some c ∧ P.at' i 0 = ofInt c := by
  unfold PAClf.predict at h
  have hk := online_checked_ok h
  split at hk
  · cases hk
  · rename_i hc
    split at hk
    · cases hk
    · obtain rfl := Outcome.ok.inj hk
      obtain ⟨c, t, e⟩ := List.exists_cons_of_ne_nil hc
      refine ⟨c, by rw [e]; rfl, ?_⟩
      dsimp only
      rw [argmax_all_nan, e]
      · rfl
      · intro s hs
        obtain ⟨c', -, rfl⟩ := List.mem_map.1 hs
        exact online_predRow_nan _ _ X i j hj hx

/-- two classes 3 and 7, one feature; `exp` is a coarse stand-in with the value 1 everywhere except at NaN (input of sklearn/linear_model/logistic.go:766) -/
def exMissNum : Num F64 := ⟨id, id, fun a _ => a, fun a => match a with | nan => nan | _ => 1, id, fun _ => false, fun n => (n : F64), F64.round (1/2), 0, 0, 0, 0⟩

/-- a fitted two-class model (state at sklearn/linear_model/logistic.go:26-54) -/
def exMissLR : LR F64 := ⟨"l2", 1, true, "lbfgs", 100, "auto", false, 0, some [[1]], [0], [3, 7], 1, [], true⟩

/-- a missing value in the first row (input of sklearn/linear_model/logistic.go:766) -/
def exMissX : Mat F64 := ⟨2, 1, fun i _ => if i = 0 then nan else 1⟩

/-- the missing row gets class 3, the other one class 7 -/
example : ∃ P, exMissLR.predict exMissNum (fun n => F64.round n) (F64.inf true) exMissX = .ok P ∧ P.at' 0 0 = F64.round 3 ∧ P.at' 1 0 = F64.round 7 :=
  ⟨_, rfl, by decide +kernel, by decide +kernel⟩

example : ∃ P, exMissLR.predictProba exMissNum (F64.inf true) exMissX = .ok P ∧ P.at' 0 0 = nan ∧ P.at' 0 1 = nan ∧ P.at' 1 1 = F64.round (1/2) :=
  ⟨_, rfl, by decide +kernel, by decide +kernel, by decide +kernel⟩

/-- three classes -/
example : ∃ P, LR.predict exMissNum (fun n => F64.round n) (F64.inf true)
    ⟨"l2", 1, true, "lbfgs", 100, "auto", false, 0, some [[0], [1], [2]], [0, 0, 0], [4, 5, 6], 1, [], true⟩ exMissX = .ok P ∧ P.at' 0 0 = F64.round 4 ∧ P.at' 1 0 = F64.round 6 :=
  ⟨_, rfl, by decide +kernel, by decide +kernel⟩

/-- the passive-aggressive classifier: class 4 for the missing row, class 5 for the other one -/
example : ∃ P, PAClf.predict (fun n => F64.round n) (F64.inf true)
    ⟨1, "hinge", true, false, 10, some [[0], [1]], [0, 0], [4, 5], 1, 1, 1, true⟩ exMissX = .ok P ∧ P.at' 0 0 = F64.round 4 ∧ P.at' 1 0 = F64.round 5 :=
  ⟨_, rfl, by decide +kernel, by decide +kernel⟩

end Scigo.NonFinite
