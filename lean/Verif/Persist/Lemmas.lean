import Verif.Persist.Model
import Mathlib.Data.Nat.Digits.Lemmas
import Mathlib.Tactic.Linarith

/-!
# Lemmas on gob framing
-/

namespace Scigo.Persist

theorem foldl_digits (l : List Nat) (a : Nat) :
    l.foldl (fun a x => a * 256 + x) a = a * 256 ^ l.length + Nat.ofDigits 256 l.reverse := by
  induction l generalizing a with
  | nil => simp
  | cons x l ih =>
    rw [List.foldl_cons, ih, List.reverse_cons, Nat.ofDigits_append, List.length_cons, List.length_reverse]
    simp only [Nat.ofDigits_singleton, pow_succ]
    ring

theorem digits_len {x : Nat} (h : x < 2 ^ 64) : (Nat.digits 256 x).length ≤ 8 := by
  rw [Nat.digits_length_le_iff (by norm_num)]
  calc x < 2 ^ 64 := h
    _ = 256 ^ 8 := by norm_num

theorem readUint_put {x : Nat} (h : x < 2 ^ 64) (rest : Bytes) : readUint (putUint x ++ rest) = some (x, rest) := by
  unfold putUint
  split_ifs with hx
  · simp [readUint, hx]
  · have h8 := digits_len h
    have hpos : 0 < (Nat.digits 256 x).length := by
      rw [List.length_pos_iff]
      exact Nat.digits_ne_nil_iff_ne_zero.2 (by omega)
    have e : 256 - (256 - (Nat.digits 256 x).length) = (Nat.digits 256 x).length := by omega
    simp only [List.cons_append, readUint]
    rw [if_neg (by omega), e, if_neg (by omega), if_neg (by simp)]
    have e2 : ((Nat.digits 256 x).reverse ++ rest).take (Nat.digits 256 x).length = (Nat.digits 256 x).reverse := by
      rw [← List.length_reverse, List.take_left]
    have e3 : ((Nat.digits 256 x).reverse ++ rest).drop (Nat.digits 256 x).length = rest := by
      conv_lhs => rw [← List.length_reverse (as := Nat.digits 256 x), List.drop_left]
    rw [e2, e3, foldl_digits]
    simp [Nat.ofDigits_digits]

/-- a proper prefix of an encoded number is not a number -/
theorem readUint_cut {x : Nat} (h : x < 2 ^ 64) {k : Nat} (hk : k < (putUint x).length) : readUint ((putUint x).take k) = none := by
  unfold putUint at hk ⊢
  split_ifs at hk ⊢ with hx
  · have : k = 0 := by simpa using hk
    subst this; rfl
  · cases k with
    | zero => rfl
    | succ k =>
      have h8 := digits_len h
      have hpos : 0 < (Nat.digits 256 x).length := by
        rw [List.length_pos_iff]
        exact Nat.digits_ne_nil_iff_ne_zero.2 (by omega)
      simp only [List.length_cons, List.length_reverse, Nat.add_lt_add_iff_right] at hk
      simp only [List.take_succ_cons, readUint]
      rw [if_neg (by omega), if_neg (by omega), if_pos (by simp; omega)]

theorem readFrame_frame {p : Bytes} (h : p.length < tooBig) (rest : Bytes) : readFrame (frame p ++ rest) = some (p, rest) := by
  have h64 : p.length < 2 ^ 64 := lt_trans h (by unfold tooBig; norm_num)
  unfold readFrame frame
  rw [List.append_assoc, readUint_put h64]
  simp only
  rw [if_neg (by omega), if_neg (by simp)]
  simp

theorem readFrame_cut {p : Bytes} (h : p.length < tooBig) {k : Nat} (hk : k < (frame p).length) : readFrame ((frame p).take k) = none := by
  have h64 : p.length < 2 ^ 64 := lt_trans h (by unfold tooBig; norm_num)
  unfold readFrame frame at *
  by_cases hl : k < (putUint p.length).length
  · rw [List.take_append_of_le_length (by omega), readUint_cut h64 hl]
  · rw [List.take_append, List.take_of_length_le (by omega), readUint_put h64]
    simp only
    rw [if_neg (by omega), if_pos]
    rw [List.length_append] at hk
    simp
    omega

theorem frame_pos (p : Bytes) : 0 < (frame p).length := by
  unfold frame putUint
  split_ifs <;> simp

set_option linter.unusedSectionVars false

section
variable {V : Type} [DecidableEq V] [Zero V]

theorem decode_stream (c : Codec V) (ds : List Bytes) (p : Bytes) (hd : ∀ d ∈ ds, c.isDef d = true ∧ d.length < tooBig)
    (hp : c.isDef p = false) (hlen : p.length < tooBig) (rest : Bytes) :
    ∀ (k : Nat) (defs : List Bytes), ds.length < k → decodeLoop c k defs ((ds ++ [p]).flatMap frame ++ rest) = c.decodeValue (defs ++ ds) p := by
  induction ds with
  | nil =>
    intro k defs hk
    obtain ⟨k, rfl⟩ : ∃ k', k = k' + 1 := ⟨k - 1, by simp only [List.length_nil] at hk; omega⟩
    simp [decodeLoop, readFrame_frame hlen, hp]
  | cons d ds ih =>
    intro k defs hk
    obtain ⟨k, rfl⟩ : ∃ k', k = k' + 1 := ⟨k - 1, by simp only [List.length_cons] at hk; omega⟩
    have hd1 := hd d (by simp)
    rw [List.cons_append, List.flatMap_cons, List.append_assoc]
    unfold decodeLoop
    rw [readFrame_frame hd1.2]
    simp only [hd1.1, if_true]
    rw [ih (fun x hx => hd x (by simp [hx])) k (defs ++ [d]) (by simp only [List.length_cons] at hk; omega)]
    simp

theorem decode_cut (c : Codec V) (ps : List Bytes) (hlen : ∀ p ∈ ps, p.length < tooBig) :
    (∀ pre p post, ps = pre ++ p :: post → post ≠ [] → c.isDef p = true) → ∀ (k : Nat) (defs : List Bytes) (n : Nat), n < (ps.flatMap frame).length →
      decodeLoop c k defs ((ps.flatMap frame).take n) = none := by
  induction ps with
  | nil => intro _ k defs n hn; simp at hn
  | cons p ps ih =>
    intro hdef k defs n hn
    cases k with
    | zero => rfl
    | succ k =>
      rw [List.flatMap_cons] at hn ⊢
      unfold decodeLoop
      by_cases hl : n < (frame p).length
      · rw [List.take_append_of_le_length (by omega), readFrame_cut (hlen p (by simp)) hl]
      · rw [List.take_append, List.take_of_length_le (by omega), readFrame_frame (hlen p (by simp))]
        have hne : ps ≠ [] := by
          rintro rfl
          simp at hn
          omega
        simp only [hdef [] p ps rfl hne, if_true]
        refine ih (fun q hq => hlen q (by simp [hq])) (fun pre q post h hp => ?_) k _ _ ?_
        · exact hdef (p :: pre) q post (by rw [h]; rfl) hp
        · rw [List.length_append] at hn
          omega

/-- a stream of type definitions only does not decode -/
theorem decode_defs (c : Codec V) (ds : List Bytes) (hd : ∀ d ∈ ds, c.isDef d = true ∧ d.length < tooBig) :
    ∀ (k : Nat) (defs : List Bytes), decodeLoop c k defs (ds.flatMap frame) = none := by
  induction ds with
  | nil => intro k defs; cases k <;> rfl
  | cons d ds ih =>
    intro k defs
    cases k with
    | zero => rfl
    | succ k =>
      have hd1 := hd d (by simp)
      rw [List.flatMap_cons]
      unfold decodeLoop
      rw [readFrame_frame hd1.2]
      simp only [hd1.1, if_true]
      exact ih (fun x hx => hd x (by simp [hx])) k _

theorem decode_defs_cut (c : Codec V) (ds : List Bytes) (hd : ∀ d ∈ ds, c.isDef d = true ∧ d.length < tooBig) (k n : Nat) (defs : List Bytes) :
    decodeLoop c k defs ((ds.flatMap frame).take n) = none := by
  by_cases h : n < (ds.flatMap frame).length
  · exact decode_cut c ds (fun p hp => (hd p hp).2) (fun pre p post h _ => (hd p (by rw [h]; simp)).1) k defs n h
  · rw [List.take_of_length_le (by omega)]
    exact decode_defs c ds hd k defs

theorem length_le_flatMap (ps : List Bytes) : ps.length ≤ (ps.flatMap frame).length := by
  induction ps with
  | nil => simp
  | cons p ps ih =>
    rw [List.flatMap_cons, List.length_append, List.length_cons]
    have := frame_pos p
    omega

theorem storeFields_sent (n : Nat) (m t : Struct V) (i : Nat) :
    storeFields t (sent n m) i = if i < n ∧ m i ≠ 0 then m i else t i := by
  unfold storeFields sent
  induction n with
  | zero => simp
  | succ n ih =>
    rw [List.range_succ, List.map_append, List.filter_append, List.foldl_append]
    by_cases hz : m n = 0
    · simp only [List.map_cons, List.map_nil, List.filter_cons, hz, ne_eq, not_true_eq_false, decide_false, List.filter_nil, List.foldl_nil]
      simp only [ne_eq, decide_not] at ih ⊢
      simp only [Bool.false_eq_true, if_false, List.foldl_nil]
      rw [ih]
      by_cases hi : i = n
      · subst hi; simp [hz]
      · have : i < n + 1 ↔ i < n := by omega
        simp [this]
    · simp only [List.map_cons, List.map_nil, List.filter_cons, hz, ne_eq, not_false_eq_true, decide_true, if_true, List.filter_nil, List.foldl_cons, List.foldl_nil]
      by_cases hi : i = n
      · subst hi; simp [hz]
      · rw [Function.update_of_ne hi]
        simp only [ne_eq] at ih
        rw [ih]
        have : i < n + 1 ↔ i < n := by omega
        simp [this]

end

end Scigo.Persist
