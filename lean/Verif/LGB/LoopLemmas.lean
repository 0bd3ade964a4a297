import Verif.LGB.Spec
import Mathlib.Data.Finset.Card
import Mathlib.Data.Fintype.Card

/-!
# Lemmas about loops that may not end
-/

namespace Scigo.LGB

variable {σ β : Type _} {step : σ → Outcome (Move σ β)}

theorem loop_mono (n m : Nat) (s : σ) (r : Outcome β) (h : loop step n s = some r) (hm : n ≤ m) :
    loop step m s = some r := by
  induction n generalizing m s with
  | zero => simp [loop] at h
  | succ n ih =>
    obtain ⟨m, rfl⟩ : ∃ k, m = k + 1 := ⟨m - 1, by omega⟩
    unfold loop at h ⊢
    split at h
    · exact h
    · exact ih m _ h (by omega)
    · exact h
    · exact h

theorem returns_unique {s : σ} {r r' : Outcome β} (h : Returns step s r) (h' : Returns step s r') : r = r' := by
  obtain ⟨n, hn⟩ := h
  obtain ⟨m, hm⟩ := h'
  have h1 := loop_mono n (max n m) s r hn (le_max_left _ _)
  have h2 := loop_mono m (max n m) s r' hm (le_max_right _ _)
  rw [h1] at h2
  exact Option.some.inj h2

theorem returns_go {s s' : σ} {r : Outcome β} (h : step s = .ok (.go s')) (hr : Returns step s' r) :
    Returns step s r := by
  obtain ⟨n, hn⟩ := hr
  exact ⟨n + 1, by simp [loop, h, hn]⟩

theorem returns_stop {s : σ} {v : β} (h : step s = .ok (.stop v)) : Returns step s (.ok v) :=
  ⟨1, by simp [loop, h]⟩

theorem returns_panic {s : σ} {p : String} (h : step s = .panic p) : Returns step s (.panic p) :=
  ⟨1, by simp [loop, h]⟩

/-- a loop that is still running after `n` rounds has passed through `n + 1` states -/
theorem loop_none_orbit (n : Nat) (s : σ) (h : loop step n s = none) :
    ∃ orb : Nat → σ, orb 0 = s ∧ (∀ k < n, step (orb k) = .ok (.go (orb (k + 1)))) := by
  induction n generalizing s with
  | zero => exact ⟨fun _ => s, rfl, fun k hk => absurd hk (by omega)⟩
  | succ n ih =>
    unfold loop at h
    split at h
    · simp at h
    · next s' hs =>
      obtain ⟨orb, h0, h1⟩ := ih s' h
      refine ⟨fun k => if k = 0 then s else orb (k - 1), by simp, ?_⟩
      intro k hk
      by_cases hz : k = 0
      · subst hz; simpa [h0] using hs
      · have := h1 (k - 1) (by omega)
        simp only [hz, if_false, Nat.succ_ne_zero]
        rw [this]
        congr 3
        omega
    · simp at h
    · simp at h

theorem loop_orbit (n k : Nat) (orb : Nat → σ) (h : ∀ j < k, step (orb j) = .ok (.go (orb (j + 1)))) :
    loop step (k + n) (orb 0) = loop step n (orb k) := by
  induction k generalizing n with
  | zero => simp
  | succ k ih =>
    rw [show k + 1 + n = k + (n + 1) by omega, ih (n + 1) (fun j hj => h j (by omega))]
    simp only [loop, h k (by omega)]

/-- If the states in which the loop continues can be told apart by a number below `L`, a loop that ends
at all ends within `L + 1` rounds. -/
theorem loop_bound (L : Nat) (key : σ → Nat) (hkey : ∀ s s', step s = .ok (.go s') → key s < L)
    (hinj : ∀ s s' u u', step s = .ok (.go u) → step s' = .ok (.go u') → key s = key s' → s = s')
    (s : σ) (r : Outcome β) (h : Returns step s r) : loop step (L + 1) s = some r := by
  classical
  have hex : ∃ n, loop step n s ≠ none := by
    obtain ⟨n, hn⟩ := h; exact ⟨n, by rw [hn]; simp⟩
  let M := Nat.find hex
  have hM : loop step M s ≠ none := Nat.find_spec hex
  have hmin : ∀ m < M, loop step m s = none := fun m hm => not_not.1 (Nat.find_min hex hm)
  obtain ⟨r', hr'⟩ := Option.ne_none_iff_exists'.1 hM
  have hrr : r' = r := returns_unique ⟨M, hr'⟩ h
  subst hrr
  refine loop_mono M (L + 1) s r' hr' ?_
  by_contra hlt
  have hMpos : L + 1 < M := not_le.1 hlt
  obtain ⟨orb, h0, h1⟩ := loop_none_orbit (M - 1) s (hmin _ (by omega))
  -- the first `L + 1` states are continuing states
  have hmaps : ∀ i ∈ Finset.range (L + 1), key (orb i) ∈ Finset.range L := by
    intro i hi
    rw [Finset.mem_range] at hi ⊢
    exact hkey _ _ (h1 i (by omega))
  obtain ⟨i, hi, j, hj, hne, he⟩ := Finset.exists_ne_map_eq_of_card_lt_of_maps_to (by simp) hmaps
  rw [Finset.mem_range] at hi hj
  have heq : orb i = orb j := hinj _ _ _ _ (h1 i (by omega)) (h1 j (by omega)) he
  -- without loss of generality i < j
  have key2 : ∀ i j, i < j → j < L + 1 → orb i = orb j → False := by
    intro i j hij hj heq
    have e1 : loop step M s = loop step (M - j) (orb j) := by
      have := loop_orbit (M - j) j orb (fun k hk => h1 k (by omega))
      rw [h0] at this
      rw [← this]
      congr 1
      omega
    have e2 : loop step (i + (M - j)) s = loop step (M - j) (orb i) := by
      have := loop_orbit (M - j) i orb (fun k hk => h1 k (by omega))
      rw [h0] at this
      exact this
    rw [heq, ← e1, hr', hmin _ (by omega)] at e2
    cases e2
  rcases Nat.lt_or_gt_of_ne hne with hlt | hgt
  · exact key2 i j hlt hj heq
  · exact key2 j i hgt hi heq.symm

end Scigo.LGB
