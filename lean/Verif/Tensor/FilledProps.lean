import Verif.Tensor.Props

/-!
# C337: `NewZeros` and `NewOnes`
-/

namespace Scigo.Tensor

variable {α : Type} [Zero α]

/-- **C337.** A tensor made by `NewZeros` or `NewOnes` with two positive dimensions has that shape, holds the value at every position, and lives in memory of its own. -/
theorem filled_spec (v : α) (h : Heap α) (shape : Nat) (a b : Int) (hs : h.ints shape = [a, b]) (ha : 0 < a) (hb : 0 < b) :
    ∃ t, (filled v h shape).2 = .ok t ∧ t.shapeOf (filled v h shape).1 = [a, b] ∧ h.nf ≤ t.data.buf ∧
      (∀ i j : Int, 0 ≤ i → i < a → 0 ≤ j → j < b → t.at' (filled v h shape).1 i j = .ok v) ∧
      ∀ k < h.nf, (filled v h shape).1.floats k = h.floats k := by
  obtain ⟨m, rfl⟩ := Int.eq_ofNat_of_zero_le ha.le
  obtain ⟨n, rfl⟩ := Int.eq_ofNat_of_zero_le hb.le
  have e : filled v h shape = ((h.allocF (List.replicate (m * n) v)).1, .ok ⟨⟨h.nf, 0, m, n, n⟩, shape⟩) := by
    have hmn : ((m : Int) * (n : Int)).toNat = m * n := by exact_mod_cast Int.toNat_natCast (m * n)
    have h0 : ¬ (m : Int) * (n : Int) < 0 := not_lt.2 (mul_nonneg ha.le hb.le)
    have hz : (List.any [(m : Int), (n : Int)] fun d => decide (d ≤ 0)) = false := by simp; omega
    unfold filled
    simp only [hs, List.length_cons, List.length_nil, List.getD_cons_zero, List.getD_cons_succ, hmn]
    rw [if_neg (by simp), if_neg h0]
    unfold newTensor
    have hi : (h.allocF (List.replicate (m * n) v)).1.ints shape = [(m : Int), (n : Int)] := hs
    have hf : (h.allocF (List.replicate (m * n) v)).1.floats (h.allocF (List.replicate (m * n) v)).2 = List.replicate (m * n) v := by
      simp [Heap.allocF]
    simp only [hi, hf, hz, List.length_replicate, List.foldl_cons, List.foldl_nil, List.length_cons, List.length_nil, List.getD_cons_zero, List.getD_cons_succ]
    rw [if_neg (by simp), if_neg (by simp), if_neg (by push_cast; simp), if_neg (by simp)]
    unfold newDense
    rw [if_neg (by omega), hf, if_neg (by simp)]
    rfl
  rw [e]
  refine ⟨_, rfl, hs, le_refl _, fun i j hi0 hi hj0 hj => ?_, fun k hk => ?_⟩
  · unfold Tensor.at'
    rw [if_neg (by simp only; omega)]
    refine congrArg Outcome.ok ?_
    have hi' : i.toNat < m := by omega
    have hj' : j.toNat < n := by omega
    have hlt : i.toNat * n + j.toNat < m * n := by
      calc i.toNat * n + j.toNat < i.toNat * n + n := by omega
        _ = (i.toNat + 1) * n := by ring
        _ ≤ m * n := Nat.mul_le_mul_right n hi'
    simp [Dense.get, Dense.pos, Heap.allocF, List.getD_eq_getElem?_getD, hlt]
  · simp only [Heap.allocF]
    rw [if_neg (by omega)]

/-- a two by three tensor of ones -/
example : ∃ t, (filled (1 : Int) ⟨fun _ => [], 0, fun _ => [2, 3], 1⟩ 0).2 = .ok t ∧ t.at' (filled (1 : Int) ⟨fun _ => [], 0, fun _ => [2, 3], 1⟩ 0).1 1 2 = .ok 1 := by
  obtain ⟨t, h1, -, -, h2, -⟩ := filled_spec (1 : Int) ⟨fun _ => [], 0, fun _ => [2, 3], 1⟩ 0 2 3 rfl (by decide) (by decide)
  exact ⟨t, h1, h2 1 2 (by decide) (by decide) (by decide) (by decide)⟩

end Scigo.Tensor
