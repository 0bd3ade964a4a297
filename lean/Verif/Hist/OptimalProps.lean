import Verif.Hist.SplitProps

/-!
# C264: the categorical split found is the best of all groupings
-/

set_option linter.unusedSectionVars false

namespace Scigo.Hist

/-! ### Prefixes beat all groups -/

section convex
variable {α β : Type} [Field α] [LinearOrder α] [IsStrictOrderedRing α]

theorem tangent (p x : α) {y : α} (hy : 0 < y) : 2 * p * x - p ^ 2 * y ≤ x * x / y := by
  rw [le_div_iff₀ hy]
  have := sq_nonneg (x - p * y)
  nlinarith

theorem filter_prefix (R : β → β → Prop) (T : β → Bool) (hT : ∀ a b, R a b → T b = true → T a = true) (l : List β) (h : l.Pairwise R) :
    ∃ k ≤ l.length, l.filter T = l.take k := by
  induction l with
  | nil => exact ⟨0, by simp, rfl⟩
  | cons a l ih =>
    rw [List.pairwise_cons] at h
    by_cases ha : T a = true
    · obtain ⟨k, hk, e⟩ := ih h.2
      exact ⟨k + 1, by simpa using hk, by rw [List.filter_cons_of_pos ha, e, List.take_succ_cons]⟩
    · refine ⟨0, by simp, ?_⟩
      rw [List.filter_cons_of_neg ha, List.take_zero, List.filter_eq_nil_iff]
      exact fun b hb hc => ha (hT a b (h.1 b hb) hc)

theorem sum_filter_le (S T : β → Bool) (w : β → α) (l : List β) (h1 : ∀ b ∈ l, T b = true → 0 ≤ w b) (h2 : ∀ b ∈ l, T b = false → w b ≤ 0) :
    ((l.filter S).map w).sum ≤ ((l.filter T).map w).sum := by
  induction l with
  | nil => simp
  | cons a l ih =>
    have i := ih (fun b hb => h1 b (List.mem_cons_of_mem _ hb)) (fun b hb => h2 b (List.mem_cons_of_mem _ hb))
    have p := h1 a List.mem_cons_self
    have n := h2 a List.mem_cons_self
    cases hs : S a <;> cases ht : T a <;> simp only [List.filter_cons, hs, ht, if_true, if_false, List.map_cons, List.sum_cons, Bool.false_eq_true]
    · exact i
    · have := p ht; linarith
    · have := n ht; linarith
    · linarith

theorem sum_linear (g h : β → α) (a b : α) (l : List β) :
    (l.map fun c => a * g c + b * h c).sum = a * (l.map g).sum + b * (l.map h).sum := by
  induction l with
  | nil => simp
  | cons c l ih => simp only [List.map_cons, List.sum_cons, ih]; ring

/-- twice the gain of dividing the totals `X`, `Y` into `x`, `y` and the rest, but for the score of the whole -/
def twoScores (lam X Y x y : α) : α := x * x / (y + lam) + (X - x) * (X - x) / (Y - y + lam)

theorem sum_take_bounds (h : β → α) (m : α) (hm : 0 ≤ m) (l : List β) (hpos : ∀ b ∈ l, m ≤ h b) (k : Nat) (h0 : 0 < k) (hk : k < l.length) :
    m ≤ ((l.take k).map h).sum ∧ ((l.take k).map h).sum + m ≤ (l.map h).sum := by
  have pos : ∀ (l : List β), (∀ b ∈ l, m ≤ h b) → l ≠ [] → m ≤ (l.map h).sum := by
    intro l
    induction l with
    | nil => intro _ c; exact absurd rfl c
    | cons a l ih =>
      intro hp _
      rw [List.map_cons, List.sum_cons]
      have ha := hp a List.mem_cons_self
      by_cases hl : l = []
      · subst hl; simpa using ha
      · have := ih (fun b hb => hp b (List.mem_cons_of_mem _ hb)) hl
        linarith
  have e : (l.map h).sum = ((l.take k).map h).sum + ((l.drop k).map h).sum := by
    rw [← List.sum_append, ← List.map_append, List.take_append_drop]
  have a := pos (l.take k) (fun b hb => hpos b (List.mem_of_mem_take hb)) (by
    intro c
    have := congrArg List.length c
    rw [List.length_take, List.length_nil] at this
    omega)
  have b := pos (l.drop k) (fun b hb => hpos b (List.mem_of_mem_drop hb)) (by
    intro c
    have := congrArg List.length c
    rw [List.length_drop, List.length_nil] at this
    omega)
  exact ⟨a, by linarith⟩

theorem prefix_beats_low (lam : α) (hlam : 0 ≤ lam) (l : List β) (g h : β → α) (m : α) (hm : 0 < m) (hpos : ∀ b ∈ l, m ≤ h b)
    (hs : l.Pairwise fun a b => g a * h b ≤ g b * h a) (S : β → Bool) (X Y x y : α) (hX : X = (l.map g).sum) (hY : Y = (l.map h).sum)
    (hx : x = ((l.filter S).map g).sum) (hy : y = ((l.filter S).map h).sum) (h1 : 0 < y + lam) (h2 : 0 < Y - y + lam) (h3 : 0 < Y + lam)
    (hpq : x / (y + lam) ≤ (X - x) / (Y - y + lam)) :
    twoScores lam X Y x y ≤ X * X / (Y + lam) ∨
      ∃ k, 0 < k ∧ k < l.length ∧ twoScores lam X Y x y ≤ twoScores lam X Y ((l.take k).map g).sum ((l.take k).map h).sum := by
  set p := x / (y + lam) with hp
  set q := (X - x) / (Y - y + lam) with hq
  have ep : p * (y + lam) = x := by rw [hp]; field_simp
  have eq : q * (Y - y + lam) = X - x := by rw [hq]; field_simp
  -- the value at the group itself is the tangent's
  have eF : twoScores lam X Y x y = 2 * p * x - p ^ 2 * (y + lam) + (2 * q * (X - x) - q ^ 2 * (Y - y + lam)) := by
    have a1 : x * x / (y + lam) = p * x := by rw [hp]; field_simp
    have a2 : (X - x) * (X - x) / (Y - y + lam) = q * (X - x) := by rw [hq]; field_simp
    unfold twoScores
    rw [a1, a2]
    have b1 : p ^ 2 * (y + lam) = p * x := by rw [← ep]; ring
    have b2 : q ^ 2 * (Y - y + lam) = q * (X - x) := by rw [← eq]; ring
    rw [b1, b2]
    ring
  let T : β → Bool := fun b => decide (2 * g b < (p + q) * h b)
  have hfil : ∃ k ≤ l.length, l.filter T = l.take k := by
    have hs' : l.Pairwise fun a b => (0 < h a ∧ 0 < h b) ∧ g a * h b ≤ g b * h a := by
      rw [List.pairwise_iff_forall_sublist] at hs ⊢
      intro a b hab
      exact ⟨⟨lt_of_lt_of_le hm (hpos a (hab.subset (by simp))), lt_of_lt_of_le hm (hpos b (hab.subset (by simp)))⟩, hs hab⟩
    refine filter_prefix _ T (fun a b hab hb => ?_) l hs'
    obtain ⟨⟨ha0, hb0⟩, hle⟩ := hab
    simp only [T, decide_eq_true_eq] at hb ⊢
    have : 2 * g a * h b < (p + q) * h a * h b := by nlinarith
    exact lt_of_mul_lt_mul_right this hb0.le
  obtain ⟨k, hk, ek⟩ := hfil
  have hw : ((l.filter S).map fun c => (2 * (p - q)) * g c + (-((p - q) * (p + q))) * h c).sum ≤
      ((l.filter T).map fun c => (2 * (p - q)) * g c + (-((p - q) * (p + q))) * h c).sum := by
    refine sum_filter_le S T _ l (fun b _ hb => ?_) (fun b _ hb => ?_)
    · simp only [T, decide_eq_true_eq] at hb
      nlinarith
    · simp only [T, decide_eq_false_iff_not, not_lt] at hb
      nlinarith
  rw [sum_linear, sum_linear, ← hx, ← hy, ek] at hw
  set xk := ((l.take k).map g).sum with hxk
  set yk := ((l.take k).map h).sum with hyk
  have hF : twoScores lam X Y x y ≤ 2 * p * xk - p ^ 2 * (yk + lam) + (2 * q * (X - xk) - q ^ 2 * (Y - yk + lam)) := by
    rw [eF]
    nlinarith
  by_cases k0 : k = 0
  · left
    subst k0
    rw [show xk = 0 by simp [hxk], show yk = 0 by simp [hyk]] at hF
    have t := tangent q X h3
    have : 0 ≤ p ^ 2 * lam := mul_nonneg (sq_nonneg p) hlam
    have e1 : (X - 0) = X := sub_zero X
    have e2 : Y - 0 + lam = Y + lam := by ring
    rw [e1, e2] at hF
    nlinarith
  · by_cases kn : k = l.length
    · left
      subst kn
      rw [show xk = X by rw [hxk, hX, List.take_length], show yk = Y by rw [hyk, hY, List.take_length]] at hF
      have t := tangent p X h3
      have : 0 ≤ q ^ 2 * lam := mul_nonneg (sq_nonneg q) hlam
      have e1 : (X - X) = 0 := sub_self X
      have e2 : Y - Y + lam = lam := by ring
      rw [e1, e2] at hF
      nlinarith
    · right
      have kp : 0 < k := by omega
      have kl : k < l.length := by omega
      obtain ⟨y0, y1⟩ := sum_take_bounds h m hm.le l hpos k kp kl
      rw [← hyk] at y0 y1
      rw [← hY] at y1
      refine ⟨k, kp, kl, hF.trans ?_⟩
      rw [← hxk, ← hyk]
      unfold twoScores
      have t1 := tangent p xk (show 0 < yk + lam by linarith)
      have t2 := tangent q (X - xk) (show 0 < Y - yk + lam by linarith)
      linarith

theorem sum_filter_not (f : β → α) (S : β → Bool) (l : List β) : ((l.filter fun b => !S b).map f).sum = (l.map f).sum - ((l.filter S).map f).sum := by
  induction l with
  | nil => simp
  | cons a l ih =>
    cases h : S a
    · simp [h, ih]; ring
    · simp [h, ih]

/-- In exact arithmetic a group of elements is never better than the best prefix of the order by `g / h`, or no division at all -/
theorem prefix_beats (lam : α) (hlam : 0 ≤ lam) (l : List β) (g h : β → α) (m : α) (hm : 0 < m) (hpos : ∀ b ∈ l, m ≤ h b)
    (hs : l.Pairwise fun a b => g a * h b ≤ g b * h a) (S : β → Bool) (X Y x y : α) (hX : X = (l.map g).sum) (hY : Y = (l.map h).sum)
    (hx : x = ((l.filter S).map g).sum) (hy : y = ((l.filter S).map h).sum) (h1 : 0 < y + lam) (h2 : 0 < Y - y + lam) (h3 : 0 < Y + lam) :
    twoScores lam X Y x y ≤ X * X / (Y + lam) ∨
      ∃ k, 0 < k ∧ k < l.length ∧ twoScores lam X Y x y ≤ twoScores lam X Y ((l.take k).map g).sum ((l.take k).map h).sum := by
  rcases le_total (x / (y + lam)) ((X - x) / (Y - y + lam)) with hpq | hpq
  · exact prefix_beats_low lam hlam l g h m hm hpos hs S X Y x y hX hY hx hy h1 h2 h3 hpq
  · have e : twoScores lam X Y x y = twoScores lam X Y (X - x) (Y - y) := by
      unfold twoScores
      rw [sub_sub_cancel, sub_sub_cancel]
      ring
    rw [e]
    refine prefix_beats_low lam hlam l g h m hm hpos hs (fun b => !S b) X Y (X - x) (Y - y) hX hY ?_ ?_ (by linarith) (by rw [sub_sub_cancel]; linarith) h3 ?_
    · rw [sum_filter_not, hX, hx]
    · rw [sum_filter_not, hY, hy]
    · rw [sub_sub_cancel, sub_sub_cancel]
      exact hpq

end convex

/-! ### Groups of categories -/

section rows
variable {α : Type} [Field α] [LinearOrder α] [IsStrictOrderedRing α]

/-- specification: the rows whose category belongs to the group `S` -/
def groupRows (toInt : α → Int) (x : Nat → α) (indices : List Nat) (S : Int → Bool) : List Nat := indices.filter fun i => S (toInt (x i))

theorem sum_indicator (cs : List Int) (hn : cs.Nodup) (a : Int) (v : α) : (cs.map fun c => if a = c then v else 0).sum = if a ∈ cs then v else 0 := by
  induction cs with
  | nil => simp
  | cons c cs ih =>
    rw [List.nodup_cons] at hn
    rw [List.map_cons, List.sum_cons, ih hn.2]
    by_cases h : a = c
    · subst h
      simp [hn.1]
    · simp [h]

theorem sum_by_category (toInt : α → Int) (x f : Nat → α) (cs : List Int) (hn : cs.Nodup) (S : Int → Bool) (indices : List Nat)
    (hc : ∀ i ∈ indices, toInt (x i) ∈ cs) :
    ((cs.filter S).map fun c => ((rowsOf toInt x indices c).map f).sum).sum = ((groupRows toInt x indices S).map f).sum := by
  induction indices with
  | nil =>
    have : ∀ l : List Int, (l.map fun c => ((rowsOf toInt x [] c).map f).sum).sum = 0 := by
      intro l
      induction l with
      | nil => rfl
      | cons a l ih => rw [List.map_cons, List.sum_cons, ih]; simp [rowsOf]
    rw [this]
    rfl
  | cons i is ih =>
    have e : ∀ c, ((rowsOf toInt x (i :: is) c).map f).sum = (if toInt (x i) = c then f i else 0) + ((rowsOf toInt x is c).map f).sum := by
      intro c
      unfold rowsOf
      by_cases h : toInt (x i) = c
      · simp [h]
      · simp [h]
    have hadd : ∀ (u v : Int → α) (l : List Int), (l.map fun c => u c + v c).sum = (l.map u).sum + (l.map v).sum := by
      intro u v l
      induction l with
      | nil => simp
      | cons a l ih => simp only [List.map_cons, List.sum_cons, ih]; ring
    simp only [e]
    rw [hadd, ih (fun j hj => hc j (List.mem_cons_of_mem _ hj)), sum_indicator _ (hn.sublist List.filter_sublist)]
    have hm : toInt (x i) ∈ cs.filter S ↔ S (toInt (x i)) = true := by
      rw [List.mem_filter]
      exact ⟨fun h => h.2, fun h => ⟨hc i List.mem_cons_self, h⟩⟩
    unfold groupRows
    by_cases hS : S (toInt (x i)) = true
    · rw [if_pos (hm.2 hS), List.filter_cons_of_pos (by simpa using hS), List.map_cons, List.sum_cons]
    · rw [if_neg (fun h => hS (hm.1 h)), List.filter_cons_of_neg (by simpa using hS), zero_add]

/-- **C264** (exact arithmetic): without L1 regularisation, with at most one row asked for in a leaf and hessians above the smallest accepted one, no group `S` of
categories has a higher gain than the split found for a categorical feature, if there is no L2 regularisation or all categories carry the same hessian. Missing: the
general case with L2 regularisation (`l2_order_not_optimal`), and with more rows asked for (`min_data_not_optimal`). -/
theorem categorical_split_optimal_partial (hb : Builder α) (L : Lits α) (hhalf : L.half = 1 / 2) (hmin : 0 < L.minHess) (special : α → Bool)
    (hsp : ∀ v, special v = false) (hal : hb.alpha ≤ 0) (hlam : 0 ≤ hb.lambda) (toInt : α → Int) (ofNat : Nat → α) (ofInt : Int → α)
    (iter : List (Cat α) → List (Cat α)) (hiter : ∀ l, (iter l).Perm l) (byCategory : List (Cat α) → List (Cat α))
    (hcat : SortsAsc (fun c : Cat α => c.category) byCategory) (byRatio : List (Bin α) → List (Bin α))
    (hratio : SortsAsc (fun b : Bin α => b.grad / (b.hess + hb.lambda)) byRatio) (feature : Nat) (x g h : Nat → α) (indices : List Nat)
    (hint : ∀ i ∈ indices, toInt (ofInt (toInt (x i))) = toInt (x i)) (hh : ∀ i ∈ indices, L.minHess ≤ h i) (minData : Int) (hd : minData ≤ 1)
    (hbal : hb.lambda = 0 ∨ ∃ c, ∀ i ∈ indices, sumOver (rowsOf toInt x indices (toInt (x i))) h = c) (S : Int → Bool) :
    hb.gain L special (sumOver (groupRows toInt x indices S) g) (sumOver (groupRows toInt x indices S) h)
        (sumOver (groupRows toInt x indices fun c => !S c) g) (sumOver (groupRows toInt x indices fun c => !S c) h) (sumOver indices g) (sumOver indices h) ≤
      (hb.findCategorical L special toInt ofNat byRatio (buildCategorical toInt ofInt iter byCategory feature x g h indices)
        (sumOver indices g) (sumOver indices h) minData).gain := by
  obtain ⟨cs, hc1, hc2, hbins⟩ := categorical_histogram toInt ofInt iter hiter byCategory hcat feature x g h indices
  have hnod : cs.Nodup := hc1.imp fun h => ne_of_lt h
  have hcov : ∀ i ∈ indices, toInt (x i) ∈ cs := fun i hi => (hc2 _).2 ⟨i, hi, rfl⟩
  set H := buildCategorical toInt ofInt iter byCategory feature x g h indices with hH
  obtain ⟨hperm, hsort⟩ := hratio H.bins
  have best := categorical_split_is_best hb L special toInt ofNat byRatio H hperm.length_eq (sumOver indices g) (sumOver indices h) minData
  set r := hb.findCategorical L special toInt ofNat byRatio H (sumOver indices g) (sumOver indices h) minData with hr
  have r0 : 0 ≤ r.gain := by
    rcases best with ⟨e, -⟩ | ⟨i, -, -, h0, e, -⟩
    · rw [e]; exact le_refl _
    · rw [e]; exact h0.le
  have rall : ∀ i < H.bins.length - 1, Admissible (byRatio H.bins) minData i →
      gainAt hb L special (byRatio H.bins) (sumOver indices g) (sumOver indices h) i ≤ r.gain := by
    rcases best with ⟨e, hall⟩ | ⟨i, -, -, -, e, hall, -⟩
    · rw [e]; exact hall
    · rw [e]; exact hall
  -- the gain of a division as the scores of its sides
  have gform : ∀ lg lh rg rh : α, hb.gain L special lg lh rg rh (sumOver indices g) (sumOver indices h) =
      if lh + hb.lambda < L.minHess ∨ rh + hb.lambda < L.minHess ∨ sumOver indices h + hb.lambda < L.minHess then 0
      else 1 / 2 * (lg * lg / (lh + hb.lambda) + rg * rg / (rh + hb.lambda) - sumOver indices g * sumOver indices g / (sumOver indices h + hb.lambda)) := by
    intro lg lh rg rh
    unfold Builder.gain
    simp only [hsp, hhalf, Bool.false_eq_true, if_false, if_neg (not_lt.2 hal)]
  -- sums over the bins of a group are sums over its rows
  have hrow : ∀ c ∈ cs, ∃ i ∈ indices, toInt (x i) = c := fun c hc => (hc2 c).1 hc
  have binpos : ∀ b ∈ byRatio H.bins, L.minHess ≤ b.hess ∧ 1 ≤ b.count := by
    intro b hb'
    have hm := hperm.mem_iff.1 hb'
    rw [hbins] at hm
    obtain ⟨c, hc, rfl⟩ := List.mem_map.1 hm
    obtain ⟨i, hi, ei⟩ := hrow c hc
    have hin : i ∈ rowsOf toInt x indices c := List.mem_filter.2 ⟨hi, by simpa using ei⟩
    constructor
    · show L.minHess ≤ sumOver (rowsOf toInt x indices c) h
      rw [sumOver_eq]
      have : ∀ l : List Nat, (∀ j ∈ l, L.minHess ≤ h j) → i ∈ l → L.minHess ≤ (l.map h).sum := by
        intro l
        induction l with
        | nil => intro _ c; cases c
        | cons a l ih =>
          intro hl hi
          rw [List.map_cons, List.sum_cons]
          have nn : 0 ≤ (l.map h).sum := List.sum_nonneg fun v hv => by
            obtain ⟨j, hj, rfl⟩ := List.mem_map.1 hv
            exact hmin.le.trans (hl j (List.mem_cons_of_mem _ hj))
          rcases List.mem_cons.1 hi with rfl | hi
          · have := hl i List.mem_cons_self; linarith
          · have := ih (fun j hj => hl j (List.mem_cons_of_mem _ hj)) hi
            have := hl a List.mem_cons_self
            linarith
      exact this _ (fun j hj => hh j (List.mem_filter.1 hj).1) hin
    · show (1 : Int) ≤ ((rowsOf toInt x indices c).length : Nat)
      have : 0 < (rowsOf toInt x indices c).length := List.length_pos_of_mem hin
      omega
  have sums : ∀ (f : Nat → α) (F : Bin α → α) (hF : ∀ c, F ⟨ofInt c, ofInt c + 1, (rowsOf toInt x indices c).length, sumOver (rowsOf toInt x indices c) g,
      sumOver (rowsOf toInt x indices c) h⟩ = sumOver (rowsOf toInt x indices c) f) (S : Int → Bool),
      (((byRatio H.bins).filter fun b => S (toInt b.lo)).map F).sum = sumOver (groupRows toInt x indices S) f := by
    intro f F hF S
    rw [((hperm.filter _).map F).sum_eq, hbins, List.filter_map, List.map_map, sumOver_eq, ← sum_by_category toInt x f cs hnod S indices hcov]
    congr 1
    have hfil : cs.filter ((fun b : Bin α => S (toInt b.lo)) ∘ fun c => ⟨ofInt c, ofInt c + 1, (rowsOf toInt x indices c).length,
        sumOver (rowsOf toInt x indices c) g, sumOver (rowsOf toInt x indices c) h⟩) = cs.filter S := by
      refine List.filter_congr fun c hc => ?_
      obtain ⟨i, hi, rfl⟩ := hrow c hc
      simp only [Function.comp_apply, hint i hi]
    rw [hfil]
    refine List.map_congr_left fun c _ => ?_
    rw [Function.comp_apply, hF, sumOver_eq]
  have allrows : groupRows toInt x indices (fun _ => true) = indices := by simp [groupRows]
  have gtot : sumOver indices g = ((byRatio H.bins).map (·.grad)).sum := by
    have e := sums g (·.grad) (fun c => rfl) (fun _ => true)
    rw [allrows] at e
    rw [← e]
    simp
  have htot : sumOver indices h = ((byRatio H.bins).map (·.hess)).sum := by
    have e := sums h (·.hess) (fun c => rfl) (fun _ => true)
    rw [allrows] at e
    rw [← e]
    simp
  have gS := sums g (·.grad) (fun c => rfl) S
  have hS := sums h (·.hess) (fun c => rfl) S
  have gN : sumOver (groupRows toInt x indices fun c => !S c) g = sumOver indices g - sumOver (groupRows toInt x indices S) g := by
    rw [← sums g (·.grad) (fun c => rfl) (fun c => !S c)]
    exact (sum_filter_not _ (fun b : Bin α => S (toInt b.lo)) _).trans (by rw [← gtot, gS])
  have hN : sumOver (groupRows toInt x indices fun c => !S c) h = sumOver indices h - sumOver (groupRows toInt x indices S) h := by
    rw [← sums h (·.hess) (fun c => rfl) (fun c => !S c)]
    exact (sum_filter_not _ (fun b : Bin α => S (toInt b.lo)) _).trans (by rw [← htot, hS])
  rw [gform]
  split_ifs with hc
  · exact r0
  · rw [not_or, not_or, not_lt, not_lt, not_lt] at hc
    obtain ⟨k1, k2, k3⟩ := hc
    rw [hN] at k2
    rw [gN, hN]
    have hsort' : (byRatio H.bins).Pairwise fun a b => a.grad * b.hess ≤ b.grad * a.hess := by
      have hall : (byRatio H.bins).Pairwise fun a b => a ∈ byRatio H.bins ∧ b ∈ byRatio H.bins ∧ ¬ b.grad / (b.hess + hb.lambda) < a.grad / (a.hess + hb.lambda) := by
        rw [List.pairwise_iff_forall_sublist] at hsort ⊢
        intro a b hab
        exact ⟨hab.subset (by simp), hab.subset (by simp), hsort hab⟩
      refine hall.imp fun {a b} ⟨ha, hb', hle⟩ => ?_
      have pa := (binpos a ha).1
      have pb := (binpos b hb').1
      have pa' : 0 < a.hess := lt_of_lt_of_le hmin pa
      have pb' : 0 < b.hess := lt_of_lt_of_le hmin pb
      rw [not_lt, div_le_div_iff₀ (by linarith) (by linarith)] at hle
      rcases hbal with e | ⟨c, hc⟩
      · rw [e, add_zero, add_zero] at hle
        exact hle
      · have eqh : ∀ b ∈ byRatio H.bins, b.hess = c := by
          intro b hb'
          have hm := hperm.mem_iff.1 hb'
          rw [hbins] at hm
          obtain ⟨k, hk, rfl⟩ := List.mem_map.1 hm
          obtain ⟨i, hi, rfl⟩ := hrow k hk
          exact hc i hi
        rw [eqh a ha, eqh b hb'] at hle ⊢
        rw [eqh a ha] at pa'
        have : 0 < c + hb.lambda := by linarith
        have := le_of_mul_le_mul_right hle this
        exact mul_le_mul_of_nonneg_right this pa'.le
    rcases prefix_beats hb.lambda hlam (byRatio H.bins) (·.grad) (·.hess) L.minHess hmin (fun b hb' => (binpos b hb').1) hsort' (fun b => S (toInt b.lo))
      (sumOver indices g) (sumOver indices h) (sumOver (groupRows toInt x indices S) g) (sumOver (groupRows toInt x indices S) h) gtot htot gS.symm hS.symm
      (lt_of_lt_of_le hmin k1) (lt_of_lt_of_le hmin k2) (lt_of_lt_of_le hmin k3) with hle | ⟨k, kp, kl, hle⟩
    · refine le_trans ?_ r0
      unfold twoScores at hle
      linarith
    · have hadm : Admissible (byRatio H.bins) minData (k - 1) := by
        have cnt : ∀ l : List (Bin α), (∀ b ∈ l, 1 ≤ b.count) → l ≠ [] → 1 ≤ countOf l := by
          intro l
          induction l with
          | nil => intro _ c; exact absurd rfl c
          | cons a l ih =>
            intro hl _
            unfold countOf
            rw [List.map_cons, List.sum_cons]
            have ha := hl a List.mem_cons_self
            by_cases hn : l = []
            · subst hn; simpa using ha
            · have := ih (fun b hb => hl b (List.mem_cons_of_mem _ hb)) hn
              unfold countOf at this
              omega
        refine ⟨hd.trans (cnt _ (fun b hb' => (binpos b (List.mem_of_mem_take hb')).2) ?_), hd.trans (cnt _ (fun b hb' => (binpos b (List.mem_of_mem_drop hb')).2) ?_)⟩
        · intro c
          have := congrArg List.length c
          rw [List.length_take, List.length_nil] at this
          omega
        · intro c
          have := congrArg List.length c
          rw [List.length_drop, List.length_nil] at this
          omega
      have hk := rall (k - 1) (by rw [← hperm.length_eq]; omega) hadm
      refine le_trans ?_ hk
      unfold gainAt
      rw [show k - 1 + 1 = k by omega, gform, sumOver_eq (l := (byRatio H.bins).take k), sumOver_eq (l := (byRatio H.bins).take k)]
      obtain ⟨y0, y1⟩ := sum_take_bounds (·.hess) L.minHess hmin.le (byRatio H.bins) (fun b hb' => (binpos b hb').1) k kp kl
      rw [if_neg]
      · unfold twoScores at hle
        linarith
      · rw [← htot] at y1
        rw [not_or, not_or, not_lt, not_lt, not_lt]
        exact ⟨by linarith, by linarith, k3⟩

end rows

section witnesses

/-- the categories of the witnesses are the numbers 0, 1 and 2 -/
def catOf (v : ℚ) : Int := v.floor

/-- gain of the split found over the rows `0 … n-1` with hessians 1 and gradients `g` -/
def foundGain (hb : Builder ℚ) (minData : Int) (x g : List ℚ) : ℚ :=
  let rows := List.range x.length
  let gs : Nat → ℚ := fun i => g.getD i 0
  (hb.findCategorical ⟨1 / 10, 1 / 1000, 1 / 2⟩ (fun _ => false) catOf (fun n => n) (stableAsc fun b : Bin ℚ => b.grad / (b.hess + hb.lambda))
    (buildCategorical catOf (fun c => c) id (stableAsc fun c : Cat ℚ => c.category) 0 (fun i => x.getD i 0) gs (fun _ => 1) rows)
    (sumOver rows gs) (sumOver rows fun _ => (1 : ℚ)) minData).gain

/-- gain of the group `S` over the same rows -/
def groupGain (hb : Builder ℚ) (x g : List ℚ) (S : Int → Bool) : ℚ :=
  let rows := List.range x.length
  let xs : Nat → ℚ := fun i => x.getD i 0
  let gs : Nat → ℚ := fun i => g.getD i 0
  let inside := groupRows catOf xs rows S
  let outside := groupRows catOf xs rows fun c => !S c
  hb.gain ⟨1 / 10, 1 / 1000, 1 / 2⟩ (fun _ => false) (sumOver inside gs) (sumOver inside fun _ => 1) (sumOver outside gs) (sumOver outside fun _ => 1)
    (sumOver rows gs) (sumOver rows fun _ => 1)

/-- **C264**: with `lambda = 1` the order by `grad / (hess + lambda)` does not lead to the best grouping: categories with gradients 1, 3 and 2, 0, 0 are best divided
by putting the last one apart (gain 1/6), and the split found gains 3/20. -/
theorem l2_order_not_optimal : ∃ (hb : Builder ℚ) (x g : List ℚ) (S : Int → Bool), hb.lambda = 1 ∧ hb.alpha = 0 ∧
    foundGain hb 1 x g = 3 / 20 ∧ groupGain hb x g S = 1 / 6 :=
  ⟨⟨255, 1, 0⟩, [0, 1, 2, 2, 2], [1, 3, 2, 0, 0], fun c => c == 2, rfl, rfl, by decide +kernel, by decide +kernel⟩

/-- **C264**: with two rows asked for in a leaf and no regularisation the search finds no split at all for categories with gradients -4, (-3, 0) and 4, although the
group of the second category alone and the rest both hold two rows and gain 9/8. -/
theorem min_data_not_optimal : ∃ (hb : Builder ℚ) (x g : List ℚ) (S : Int → Bool), hb.lambda = 0 ∧ hb.alpha = 0 ∧
    (groupRows catOf (fun i => x.getD i 0) (List.range x.length) S).length = 2 ∧
    (groupRows catOf (fun i => x.getD i 0) (List.range x.length) fun c => !S c).length = 2 ∧
    foundGain hb 2 x g = 0 ∧ groupGain hb x g S = 9 / 8 :=
  ⟨⟨255, 0, 0⟩, [0, 1, 1, 2], [-4, -3, 0, 4], fun c => c == 1, rfl, rfl, by decide +kernel, by decide +kernel, by decide +kernel, by decide +kernel⟩

/-- without regularisation, and one row asked for: the second example above has a gain of at least 9/8 -/
example : groupGain ⟨255, 0, 0⟩ [0, 1, 1, 2] [-4, -3, 0, 4] (fun c => c == 1) ≤ foundGain ⟨255, 0, 0⟩ 1 [0, 1, 1, 2] [-4, -3, 0, 4] :=
  categorical_split_optimal_partial ⟨255, 0, 0⟩ ⟨1 / 10, 1 / 1000, 1 / 2⟩ rfl (by norm_num) _ (fun _ => rfl) (le_refl _) (le_refl _) catOf _ _ id (fun l => List.Perm.refl l)
    _ (stableAsc_sorts _) _ (stableAsc_sorts _) 0 _ _ _ _ (fun i _ => by simp [catOf]) (fun _ _ => by norm_num) 1 (le_refl _) (Or.inl rfl) _

end witnesses
end Scigo.Hist
