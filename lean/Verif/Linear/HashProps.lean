import Verif.Linear.Hash
import Verif.Linear.Props

/-!
# C266: hashes tell weights apart; C267: importing refuses altered weights
-/

set_option linter.unusedSectionVars false

namespace Scigo.Linear

variable {α : Type _} {β : Type _}

/-- specification of the hash function and the encoding: no two lists of accepted numbers have the same text, no text is empty, and the sums of different texts differ -/
structure Hasher.Collisionless (H : Hasher α β) : Prop where
  text : ∀ a b : List α, a.all H.finite = true → b.all H.finite = true → H.encode a = H.encode b → a = b
  nonempty : ∀ a, H.encode a ≠ H.none
  sums : ∀ s t, H.sha s = H.sha t → s = t
  visible : ∀ s, H.sha s ≠ ""

/-- specification: all weights of the model are numbers JSON can hold -/
def LM.Finite (H : Hasher α β) (m : LM α) : Prop := (∀ x ∈ m.coef, H.finite x = true) ∧ H.finite m.intercept = true

instance (H : Hasher α β) (m : LM α) : Decidable (m.Finite H) := by unfold LM.Finite; infer_instance

theorem exports (checksum : List α → String) (m : LM α) (hf : m.fitted = true) :
    ∃ w, m.exportWeights checksum = .ok w ∧ w.coefficients = m.coef ∧ w.intercept = m.intercept ∧ w.modelType = "LinearRegression" ∧
      w.meta_ "checksum" = some (.str (checksum m.coef)) := by
  refine ⟨_, by simp only [LM.exportWeights, hf]; rfl, rfl, rfl, rfl, ?_⟩
  simp

theorem import_bad (checksum : List α → String) (toInt : α → Int) (r : LM α) (W : MW α) (hm : W.modelType = "LinearRegression")
    (hc : LM.checksumBad checksum W = true) : (r.importWeights checksum toInt (some W)).2 = .err (.other "checksum mismatch") := by
  simp only [LM.importWeights, hm, hc]
  simp

theorem import_good (checksum : List α → String) (toInt : α → Int) (r : LM α) (W : MW α) (hm : W.modelType = "LinearRegression")
    (hc : LM.checksumBad checksum W = false) : (r.importWeights checksum toInt (some W)).2 = .ok () ∧
      (r.importWeights checksum toInt (some W)).1.intercept = W.intercept ∧ (r.importWeights checksum toInt (some W)).1.coef = W.coefficients := by
  simp only [LM.importWeights, hm, hc]
  simp

theorem finite_all (H : Hasher α β) (m : LM α) (h : m.Finite H) : (m.coef ++ [m.intercept]).all H.finite = true := by
  rw [List.all_eq_true]
  intro x hx
  rcases List.mem_append.1 hx with hx | hx
  · exact h.1 x hx
  · rw [List.mem_singleton] at hx
    rw [hx]
    exact h.2

/-- **C266**: fitted models with the same coefficients and intercept have the same hash, whatever their settings; so has the model that imported the weights another
one exported. -/
theorem same_weights_same_hash (H : Hasher α β) (m m' : LM α) (hf : m.fitted = true) (hf' : m'.fitted = true) (hc : m.coef = m'.coef) (hi : m.intercept = m'.intercept)
    (checksum : List α → String) (toInt : α → Int) (r : LM α) (w : MW α) (hw : m.exportWeights checksum = .ok w) :
    m.weightHash H = m'.weightHash H ∧ (r.importWeights checksum toInt (some w)).1.weightHash H = m.weightHash H := by
  obtain ⟨w', h1, h2, h3, h4, h9⟩ := exports checksum m hf
  rw [hw] at h1
  obtain rfl : w = w' := by injection h1
  constructor
  · unfold LM.weightHash
    rw [hf, hf', hc, hi]
  · have hcs : LM.checksumBad checksum w = false := by simp [LM.checksumBad, h9, h2]
    simp only [LM.importWeights, h4, hcs]
    simp [LM.weightHash, hf, h2, h3, LM.setParams]

/-- **C266** (partial): the hashes of models with finite weights are equal only if the coefficients and the intercept are, and only unfitted models have no hash. Missing:
models with NaN or infinite weights, which all have the same hash (`nonfinite_hash`). -/
theorem hash_tells_weights_apart_partial (H : Hasher α β) (hH : H.Collisionless) (m m' : LM α) (h : m.Finite H) (h' : m'.Finite H) (hf : m.fitted = true) :
    (m.weightHash H = m'.weightHash H ↔ m'.fitted = true ∧ m.coef = m'.coef ∧ m.intercept = m'.intercept) ∧ m.weightHash H ≠ "" := by
  have hv : ∀ l, H.sum l ≠ "" := fun l => hH.visible _
  have e : m.weightHash H = H.sum (m.coef ++ [m.intercept]) := by unfold LM.weightHash; rw [if_neg (by rw [hf]; simp)]
  refine ⟨⟨fun he => ?_, fun ⟨a, b, c⟩ => ?_⟩, by rw [e]; exact hv _⟩
  · rw [e] at he
    cases hf' : m'.fitted with
    | false =>
      unfold LM.weightHash at he
      rw [if_pos hf'] at he
      exact absurd he (hv _)
    | true =>
      unfold LM.weightHash at he
      rw [if_neg (by rw [hf']; simp)] at he
      unfold Hasher.sum at he
      rw [if_pos (finite_all H m h), if_pos (finite_all H m' h')] at he
      have := hH.text _ _ (finite_all H m h) (finite_all H m' h') (hH.sums _ _ he)
      have := List.append_inj' this rfl
      exact ⟨rfl, this.1, by simpa using this.2⟩
  · unfold LM.weightHash
    rw [hf, a, b, c]

/-- **C266**: all fitted models with a weight JSON cannot hold (NaN, an infinity) have the same hash, that of no bytes -/
theorem nonfinite_hash (H : Hasher α β) (m : LM α) (hf : m.fitted = true) (x : α) (hx : x ∈ m.coef ∨ x = m.intercept) (hn : H.finite x = false) :
    m.weightHash H = H.sha H.none := by
  unfold LM.weightHash Hasher.sum
  rw [if_neg (by rw [hf]; simp), if_neg]
  rw [List.all_eq_true]
  intro hall
  have := hall x (by rcases hx with hx | hx <;> simp [hx])
  rw [hn] at this
  exact Bool.false_ne_true this

/-- **C267** (partial): weights whose coefficients were changed after the export, between numbers JSON can hold, are refused. Missing: changes of the intercept and of the
other fields (`altered_intercept_accepted`), of coefficients that JSON cannot hold, and weights without their checksum. -/
theorem altered_coefficients_refused_partial (H : Hasher α β) (hH : H.Collisionless) (toInt : α → Int) (m r : LM α) (w : MW α) (hw : m.exportWeights H.sum = .ok w)
    (coef : List α) (hne : coef ≠ m.coef) (hfin : coef.all H.finite = true ∨ m.coef.all H.finite = true) (intercept : α) :
    ∃ e, (r.importWeights H.sum toInt (some { w with coefficients := coef, intercept := intercept })).2 = .err e := by
  have hf : m.fitted = true := by
    by_contra hn
    simp only [LM.exportWeights] at hw
    rw [if_pos (by simpa using hn)] at hw
    simp at hw
  obtain ⟨w', h1, h2, h3, h4, h9⟩ := exports H.sum m hf
  rw [hw] at h1
  obtain rfl : w = w' := by injection h1
  have hd : H.sum m.coef ≠ H.sum coef := by
    intro e
    have e' := hH.sums _ _ e
    by_cases h1 : m.coef.all H.finite = true
    · rw [if_pos h1] at e'
      by_cases h2 : coef.all H.finite = true
      · rw [if_pos h2] at e'
        exact hne (hH.text _ _ h1 h2 e').symm
      · rw [if_neg h2] at e'
        exact hH.nonempty _ e'
    · rcases hfin with h2 | h2
      · rw [if_neg h1, if_pos h2] at e'
        exact hH.nonempty _ e'.symm
      · exact h1 h2
  have hcs : LM.checksumBad H.sum { w with coefficients := coef, intercept := intercept } = true := by
    simp [LM.checksumBad, h9, hd]
  exact ⟨_, import_bad H.sum toInt r _ h4 hcs⟩

/-- **C267**: the checksum covers the coefficients only: weights with another intercept are accepted, by every model, and change its predictions -/
theorem altered_intercept_accepted (checksum : List α → String) (toInt : α → Int) (m r : LM α) (w : MW α) (hw : m.exportWeights checksum = .ok w) (b : α) :
    (r.importWeights checksum toInt (some { w with intercept := b })).2 = .ok () ∧
    (r.importWeights checksum toInt (some { w with intercept := b })).1.intercept = b ∧
    (r.importWeights checksum toInt (some { w with intercept := b })).1.coef = m.coef := by
  have hf : m.fitted = true := by
    by_contra hn
    simp only [LM.exportWeights] at hw
    rw [if_pos (by simpa using hn)] at hw
    simp at hw
  obtain ⟨w', h1, h2, h3, h4, h9⟩ := exports checksum m hf
  rw [hw] at h1
  obtain rfl : w = w' := by injection h1
  have hcs : LM.checksumBad checksum { w with intercept := b } = false := by simp [LM.checksumBad, h9, h2]
  obtain ⟨a1, a2, a3⟩ := import_good checksum toInt r { w with intercept := b } h4 hcs
  exact ⟨a1, a2, a3.trans h2⟩

/-! ### A concrete case -/

/-- weights are characters, `n` stands for NaN; the text of a list is the list after a bracket, the sum shows it -/
def exHasher : Hasher Char (List Char) := ⟨fun x => x != 'n', fun l => '[' :: l, [], fun s => String.ofList ('s' :: s)⟩

theorem exHasher_collisionless : exHasher.Collisionless where
  text a b _ _ h := by
    have : ('[' :: a) = '[' :: b := h
    exact List.cons.inj this |>.2
  nonempty a h := by
    have : ('[' :: a) = [] := h
    cases this
  sums s t h := by
    have : String.ofList ('s' :: s) = String.ofList ('s' :: t) := h
    exact (List.cons.inj (String.ofList_injective this)).2
  visible s h := by
    have : String.ofList ('s' :: s) = String.ofList [] := h
    have := String.ofList_injective this
    cases this

/-- a fitted model -/
def exLM (coef : List Char) (b : Char) : LM Char := ⟨true, false, true, 1, false, "1.0.0", coef, b, coef.length, 10, 2, true⟩

example : (exLM ['1', '2'] '3').weightHash exHasher ≠ (exLM ['1', '2'] '4').weightHash exHasher := by
  intro h
  have := ((hash_tells_weights_apart_partial exHasher exHasher_collisionless (exLM ['1', '2'] '3') (exLM ['1', '2'] '4') (by decide) (by decide) rfl).1.1 h).2.2
  exact absurd this (by decide)

example : (exLM ['n', '2'] '3').weightHash exHasher = (exLM ['5'] 'n').weightHash exHasher :=
  (nonfinite_hash exHasher _ rfl 'n' (Or.inl (by decide)) rfl).trans (nonfinite_hash exHasher _ rfl 'n' (Or.inr rfl) rfl).symm

/-- a second coefficient changed from 2 to 3 -/
example : ∃ w e, (exLM ['1', '2'] '3').exportWeights exHasher.sum = .ok w ∧
    ((exLM ['7'] '7').importWeights exHasher.sum (fun _ => 0) (some { w with coefficients := ['1', '3'], intercept := '3' })).2 = .err e := by
  obtain ⟨w, h, -⟩ := exports exHasher.sum (exLM ['1', '2'] '3') rfl
  obtain ⟨e, he⟩ := altered_coefficients_refused_partial exHasher exHasher_collisionless (fun _ => 0) (exLM ['1', '2'] '3') (exLM ['7'] '7') w h ['1', '3'] (by decide)
    (Or.inl (by decide)) '3'
  exact ⟨w, e, h, he⟩

end Scigo.Linear
