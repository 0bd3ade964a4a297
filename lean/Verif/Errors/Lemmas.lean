import Verif.Errors.Spec
import Mathlib.Analysis.SpecialFunctions.Log.Basic
import Mathlib.Analysis.SpecialFunctions.Pow.Real
import Mathlib.Algebra.Order.BigOperators.Group.List
import Mathlib.Tactic.Positivity

namespace Scigo.Errors

theorem runMax_spec {α : Type _} [LinearOrder α] (v0 : α) (vs : List α) :
    runMax v0 vs ∈ v0 :: vs ∧ ∀ v ∈ v0 :: vs, v ≤ runMax v0 vs := by
  induction vs generalizing v0 with
  | nil => simp [runMax]
  | cons w ws ih =>
    have h := ih (if w > v0 then w else v0)
    have e : runMax v0 (w :: ws) = runMax (if w > v0 then w else v0) ws := rfl
    rw [e]
    refine ⟨?_, ?_⟩
    · rcases List.mem_cons.1 h.1 with h1 | h1
      · rw [h1]; split <;> simp
      · simp [h1]
    · have h0 := h.2 _ (List.mem_cons_self ..)
      intro v hv
      rcases List.mem_cons.1 hv with rfl | hv
      · refine le_trans ?_ h0; split
        · next h => exact le_of_lt h
        · exact le_refl _
      · rcases List.mem_cons.1 hv with rfl | hv
        · refine le_trans ?_ h0; split
          · exact le_refl _
          · next h => exact not_lt.1 h
        · exact h.2 v (by simp [hv])

theorem scanRow_spec {α : Type _} (bad : α → Bool) (row acc : List α)
    (ha : ∀ v ∈ acc, bad v = true) (hl : acc.length < 10) :
    (∀ v ∈ scanRow bad row acc, bad v = true) ∧ (scanRow bad row acc).length ≤ 10 ∧
    (∀ v ∈ scanRow bad row acc, v ∈ acc ∨ v ∈ row) ∧
    (0 < (scanRow bad row acc).length ↔ 0 < acc.length ∨ ∃ v ∈ row, bad v = true) := by
  induction row generalizing acc with
  | nil => simp [scanRow]; exact ⟨ha, by omega⟩
  | cons w ws ih =>
    unfold scanRow
    by_cases hb : bad w = true
    · have ha' : ∀ v ∈ acc ++ [w], bad v = true := by
        intro v hv
        rcases List.mem_append.1 hv with h | h
        · exact ha v h
        · simp at h; subst h; exact hb
      rw [if_pos hb]
      split
      · refine ⟨ha', by simp; omega, ?_, ?_⟩
        · intro v hv
          rcases List.mem_append.1 hv with h | h
          · exact .inl h
          · right; simp at h; simp [h]
        · simp [hb]
      · next hlen =>
        have := ih (acc ++ [w]) ha' (by omega)
        refine ⟨this.1, this.2.1, ?_, ?_⟩
        · intro v hv
          rcases this.2.2.1 v hv with h | h
          · rcases List.mem_append.1 h with h | h
            · exact .inl h
            · right; simp at h; simp [h]
          · right; simp [h]
        · rw [this.2.2.2]; simp [hb]
    · rw [if_neg hb]
      have := ih acc ha hl
      refine ⟨this.1, this.2.1, ?_, ?_⟩
      · intro v hv
        rcases this.2.2.1 v hv with h | h
        · exact .inl h
        · right; simp [h]
      · rw [this.2.2.2]; simp [hb]

theorem scanRows_spec {α : Type _} (bad : α → Bool) (m : Mat α) (cols : Nat) (is : List Nat) :
    (∀ v ∈ scanRows bad m cols is [], bad v = true ∧ ∃ i ∈ is, ∃ j < cols, m.at' i j = v) ∧
    (scanRows bad m cols is []).length ≤ 10 ∧
    (0 < (scanRows bad m cols is []).length ↔ ∃ i ∈ is, ∃ j < cols, bad (m.at' i j) = true) := by
  induction is with
  | nil => simp [scanRows]
  | cons i is ih =>
    have h := scanRow_spec bad ((List.range cols).map (m.at' i)) [] (by simp) (by simp)
    unfold scanRows
    simp only
    have hiff : 0 < (scanRow bad ((List.range cols).map (m.at' i)) []).length
        ↔ ∃ j < cols, bad (m.at' i j) = true := by
      rw [h.2.2.2]; simp
    split
    · next hpos =>
      refine ⟨?_, h.2.1, ?_⟩
      · intro v hv
        refine ⟨h.1 v hv, i, by simp, ?_⟩
        rcases h.2.2.1 v hv with h' | h'
        · simp at h'
        · simpa using h'
      · have := hiff.1 hpos
        simp only [hpos, true_iff]
        exact ⟨i, by simp, this⟩
    · next hpos =>
      have hnil : scanRow bad ((List.range cols).map (m.at' i)) [] = [] := by
        rw [← List.length_eq_zero_iff]; omega
      rw [hnil]
      refine ⟨?_, ih.2.1, ?_⟩
      · intro v hv
        obtain ⟨hb, i', hi', j⟩ := ih.1 v hv
        exact ⟨hb, i', by simp [hi'], j⟩
      · rw [ih.2.2]
        constructor
        · rintro ⟨i', hi', h'⟩; exact ⟨i', by simp [hi'], h'⟩
        · rintro ⟨i', hi', h'⟩
          rcases List.mem_cons.1 hi' with rfl | hi'
          · exact absurd (hiff.2 h') hpos
          · exact ⟨i', hi', h'⟩

theorem sum_sq_mul (g : List ℝ) (s : ℝ) :
    ((g.map (fun x => x * s)).map (fun x => x * x)).sum = s ^ 2 * (g.map (fun x => x * x)).sum := by
  induction g with
  | nil => simp
  | cons x xs ih => simp only [List.map_cons, List.sum_cons, ih]; ring

theorem sum_sq_nonneg (g : List ℝ) : 0 ≤ (g.map (fun x => x * x)).sum := by
  apply List.sum_nonneg
  intro y hy
  obtain ⟨x, _, rfl⟩ := List.mem_map.1 hy
  exact mul_self_nonneg x

theorem gradNorm_scale (g : List ℝ) (s : ℝ) :
    gradNorm Real.sqrt (g.map (fun x => x * s)) = |s| * gradNorm Real.sqrt g := by
  simp only [gradNorm, sumOver_eq]
  rw [sum_sq_mul, Real.sqrt_mul (sq_nonneg s), Real.sqrt_sq_eq_abs]

theorem gradNorm_nonneg (g : List ℝ) : 0 ≤ gradNorm Real.sqrt g := Real.sqrt_nonneg _

/-! ### LogSumExp on reals extended by `-Inf` -/

theorem expBot_add (v : WithBot ℝ) (c : ℝ) :
    expBot (v + (c : WithBot ℝ)) = expBot v * Real.exp c := by
  cases v with
  | bot => simp [expBot]
  | coe x => exact Real.exp_add x c

theorem expBot_sub (v : WithBot ℝ) (c : ℝ) :
    expBot (v.map (fun x => x - c)) = expBot v * Real.exp (-c) := by
  cases v with
  | bot => simp [expBot]
  | coe x =>
    change Real.exp (x - c) = Real.exp x * Real.exp (-c)
    rw [← Real.exp_add, sub_eq_add_neg]

theorem expBot_nonneg (v : WithBot ℝ) : 0 ≤ expBot v := by
  cases v with
  | bot => exact le_refl _
  | coe x => exact (Real.exp_pos x).le

theorem lseBot_eq (junk : WithBot ℝ → WithBot ℝ) (vs : List (WithBot ℝ)) :
    lseBot junk vs = logBot ((vs.map expBot).sum) := by
  cases vs with
  | nil => simp [lseBot, logSumExp, logBot]
  | cons v0 vs =>
    have hm := runMax_spec v0 vs
    unfold lseBot logSumExp
    simp only
    cases hM : runMax v0 vs with
    | bot =>
      simp only [decide_true, if_true]
      have : ((v0 :: vs).map expBot).sum = 0 := by
        apply List.sum_eq_zero
        intro x hx
        obtain ⟨v, hv, rfl⟩ := List.mem_map.1 hx
        have := hm.2 v hv
        rw [hM, le_bot_iff] at this
        rw [this]; rfl
      rw [this]; simp [logBot]
    | coe M =>
      have hne : ((M : ℝ) : WithBot ℝ) ≠ ⊥ := WithBot.coe_ne_bot
      simp only [hne, decide_false, Bool.false_eq_true, if_false]
      have hfold : ∀ (l : List (WithBot ℝ)) (s : ℝ),
          l.foldl (fun s v => s + ((expBot (v.map (fun x => x - M)) : ℝ) : WithBot ℝ))
            ((s : ℝ) : WithBot ℝ)
          = ((s + Real.exp (-M) * (l.map expBot).sum : ℝ) : WithBot ℝ) := by
        intro l
        induction l with
        | nil => intro s; simp
        | cons v l ih =>
          intro s
          rw [List.foldl_cons, ← WithBot.coe_add, ih, expBot_sub]
          simp only [List.map_cons, List.sum_cons]
          congr 1; ring
      rw [hfold]
      simp only
      have hpos : 0 < ((v0 :: vs).map expBot).sum := by
        have h1 : expBot (M : WithBot ℝ) ∈ (v0 :: vs).map expBot :=
          List.mem_map_of_mem (hM ▸ hm.1)
        refine lt_of_lt_of_le (Real.exp_pos M) (List.single_le_sum ?_ _ h1)
        intro x hx
        obtain ⟨v, _, rfl⟩ := List.mem_map.1 hx
        exact expBot_nonneg v
      have hpos' : Real.exp (-M) * ((v0 :: vs).map expBot).sum ≠ 0 :=
        (mul_pos (Real.exp_pos _) hpos).ne'
      rw [zero_add, logBot, logBot, if_neg hpos', if_neg hpos.ne',
        Real.log_mul (Real.exp_ne_zero _) hpos.ne', Real.log_exp, ← WithBot.coe_add]
      congr 1; ring

end Scigo.Errors
