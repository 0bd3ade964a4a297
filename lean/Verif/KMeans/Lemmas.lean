import Verif.KMeans.Spec
import Mathlib.Tactic.Linarith
import Mathlib.Tactic.FieldSimp
import Mathlib.Tactic.Ring
import Mathlib.Data.List.Induction
import Mathlib.Data.List.GetD
import Mathlib.Algebra.Order.BigOperators.Group.List

/-! Helper lemmas for mini-batch k-means. -/

set_option linter.unusedSectionVars false

namespace Scigo.KMeans

open Spec

section Scan
variable {β α : Type _} [LinearOrder α]

/-- first index of the smallest key below `inf`, or 0 -/
theorem scan_spec (f : β → α) (inf : α) (l : List β) (r : α × Nat)
    (hr : l.zipIdx.foldl (fun (b : α × Nat) p => if f p.1 < b.1 then (f p.1, p.2) else b) (inf, 0)
      = r) :
    (r = (inf, 0) ∧ ∀ c ∈ l, ¬ f c < inf) ∨
    (∃ h : r.2 < l.length, r.1 = f l[r.2] ∧ r.1 < inf ∧
      (∀ i (hi : i < l.length), r.1 ≤ f l[i]) ∧ (∀ i (hi : i < r.2), r.1 < f (l[i]'(by omega)))) := by
  induction l using List.reverseRecOn generalizing r with
  | nil => left; simp at hr; simp [← hr]
  | append_singleton l x ih =>
    simp only [List.zipIdx_append, List.foldl_append, Nat.zero_add] at hr
    obtain ⟨r, hr0⟩ : ∃ r', l.zipIdx.foldl (fun (b : α × Nat) p =>
      if f p.1 < b.1 then (f p.1, p.2) else b) (inf, 0) = r' := ⟨_, rfl⟩
    replace ih := ih r hr0
    rw [hr0] at hr
    simp only [List.zipIdx_cons, List.zipIdx_nil, List.foldl_cons, List.foldl_nil] at hr
    by_cases hx : f x < r.1
    · rw [if_pos hx] at hr
      subst hr
      right
      refine ⟨by simp, by simp, ?_, ?_, ?_⟩
      · rcases ih with ⟨e, _⟩ | ⟨_, _, h2, _⟩
        · rw [e] at hx; exact hx
        · exact hx.trans h2
      · intro i hi
        simp only [List.length_append, List.length_cons, List.length_nil] at hi
        rcases Nat.lt_or_ge i l.length with h | h
        · rw [List.getElem_append_left h]
          rcases ih with ⟨e, h3⟩ | ⟨_, _, _, h3, _⟩
          · rw [e] at hx
            exact hx.le.trans (not_lt.1 (h3 _ (List.getElem_mem h)))
          · exact hx.le.trans (h3 i h)
        · have : i = l.length := by omega
          subst this; simp
      · intro i hi
        simp only at hi
        rw [List.getElem_append_left hi]
        rcases ih with ⟨e, h3⟩ | ⟨_, _, _, h3, _⟩
        · rw [e] at hx
          exact hx.trans_le (not_lt.1 (h3 _ (List.getElem_mem hi)))
        · exact hx.trans_le (h3 i hi)
    · rw [if_neg hx] at hr
      subst hr
      rcases ih with ⟨e, h3⟩ | ⟨h0, h1, h2, h3, h4⟩
      · left
        refine ⟨e, ?_⟩
        intro c hc
        rcases List.mem_append.1 hc with h | h
        · exact h3 c h
        · simp only [List.mem_singleton] at h; subst h; rw [e] at hx; exact hx
      · right
        refine ⟨by simp; omega, ?_, h2, ?_, ?_⟩
        · rw [List.getElem_append_left h0]; exact h1
        · intro i hi
          simp only [List.length_append, List.length_cons, List.length_nil] at hi
          rcases Nat.lt_or_ge i l.length with h | h
          · rw [List.getElem_append_left h]; exact h3 i h
          · have : i = l.length := by omega
            subst this; simpa using hx
        · intro i hi
          rw [List.getElem_append_left (by omega)]; exact h4 i hi

end Scan

section Field
variable {K : Type _} [Field K] [LinearOrder K] [IsStrictOrderedRing K]

theorem sqDist_nonneg (a b : List K) : 0 ≤ sqDist a b := by
  apply List.sum_nonneg
  intro x hx
  obtain ⟨i, h, rfl⟩ := List.getElem_of_mem hx
  simp only [List.getElem_zipWith]
  exact mul_self_nonneg _

theorem foldl_sq (l : List (K × K)) (s : K) :
    l.foldl (fun s p => s + (p.1 - p.2) * (p.1 - p.2)) s
      = s + (l.map (fun p => (p.1 - p.2) * (p.1 - p.2))).sum := by
  induction l generalizing s with
  | nil => simp
  | cons p l ih => simp [ih]; ring

theorem dist_eq (sqrt : K → K) (inf : K) (a b : List K) (h : a.length = b.length) :
    dist sqrt inf a b = sqrt (sqDist a b) := by
  unfold dist sqDist
  rw [if_neg (by simpa using h), foldl_sq, zero_add, List.zip, List.map_zipWith]

theorem isSqrt_le {sqrt : K → K} (hs : IsSqrt sqrt) {a b : K} (ha : 0 ≤ a) (hb : 0 ≤ b) :
    sqrt a ≤ sqrt b ↔ a ≤ b := by
  obtain ⟨ha0, ha1⟩ := hs a ha
  obtain ⟨hb0, hb1⟩ := hs b hb
  constructor
  · intro h; rw [← ha1, ← hb1]; exact mul_self_le_mul_self ha0 h
  · intro h; rw [← ha1, ← hb1] at h; exact (mul_self_le_mul_self_iff ha0 hb0).2 h

theorem isSqrt_lt {sqrt : K → K} (hs : IsSqrt sqrt) {a b : K} (ha : 0 ≤ a) (hb : 0 ≤ b) :
    sqrt a < sqrt b ↔ a < b := by
  rw [← not_le, ← not_le, isSqrt_le hs hb ha]

/-- the code's nearest centre is the nearest centre, when no distance overflows -/
theorem nearest_isNearest {sqrt : K → K} (hs : IsSqrt sqrt) {inf : K} {x : List K}
    {cs : List (List K)} (h0 : cs ≠ []) (hl : ∀ c ∈ cs, x.length = c.length)
    (hinf : ∀ c ∈ cs, sqrt (sqDist x c) < inf) : IsNearest cs x (nearest sqrt inf x cs) := by
  have key : ∀ c ∈ cs, dist sqrt inf x c = sqrt (sqDist x c) := fun c hc => dist_eq _ _ _ _ (hl c hc)
  unfold nearest
  obtain ⟨r, hr⟩ : ∃ r, cs.zipIdx.foldl (fun (b : K × Nat) p =>
    if dist sqrt inf x p.1 < b.1 then (dist sqrt inf x p.1, p.2) else b) (inf, 0) = r := ⟨_, rfl⟩
  have := scan_spec (dist sqrt inf x) inf cs r hr
  rw [hr]
  rcases this with ⟨_, h⟩ | ⟨h1, h2, _, h3, h4⟩
  · exfalso
    obtain ⟨c, hc⟩ := List.exists_mem_of_ne_nil _ h0
    exact h c hc (by rw [key c hc]; exact hinf c hc)
  · refine ⟨h1, ?_, ?_⟩
    · intro c hc
      have := h3 c hc
      rw [h2, key _ (List.getElem_mem _), key _ (List.getElem_mem _),
        isSqrt_le hs (sqDist_nonneg _ _) (sqDist_nonneg _ _)] at this
      rw [List.getD_eq_getElem _ _ h1, List.getD_eq_getElem _ _ hc]
      exact this
    · intro c hc
      have := h4 c hc
      rw [h2, key _ (List.getElem_mem _), key _ (List.getElem_mem _),
        isSqrt_lt hs (sqDist_nonneg _ _) (sqDist_nonneg _ _)] at this
      rw [List.getD_eq_getElem _ _ h1, List.getD_eq_getElem _ _ (show c < cs.length by omega)]
      exact this

theorem members_append (p q : List (List K × Nat)) (k : Nat) :
    members (p ++ q) k = members p k ++ members q k := by simp [members]

theorem members_mem {p : List (List K × Nat)} {k : Nat} {x : List K} (h : x ∈ members p k) :
    x ∈ p.map (·.1) := by
  simp only [members, List.mem_map, List.mem_filter] at h ⊢
  obtain ⟨q, ⟨hq, _⟩, rfl⟩ := h
  exact ⟨q, hq, rfl⟩

@[simp] theorem centersOf_length (init : List (List K)) (p : List (List K × Nat)) :
    (centersOf init p).length = init.length := by simp [centersOf]

@[simp] theorem countsOf_length (n : Nat) (p : List (List K × Nat)) :
    (countsOf n p).length = n := by simp [countsOf]

theorem centersOf_nil (init : List (List K)) : centersOf init [] = init := by
  apply List.ext_getElem <;> simp [centersOf, members]

theorem countsOf_nil (n : Nat) : countsOf n ([] : List (List K × Nat)) = List.replicate n 0 := by
  apply List.ext_getElem <;> simp [countsOf, members]

/-- a mean of points of the box is in the box -/
theorem meanVec_inBox {lo hi : Nat → K} {c : Nat} {A : List (List K)} (h0 : A ≠ [])
    (h : ∀ x ∈ A, InBox lo hi c x) : InBox lo hi c (meanVec c A) := by
  refine ⟨by simp [meanVec], ?_⟩
  intro j hj
  have e : (meanVec c A).getD j 0 = (A.map (fun x => x.getD j 0)).sum / (A.length : K) := by
    simp [meanVec, List.getD_eq_getElem?_getD, hj]
  have hlen : (0 : K) < A.length := by
    have := List.length_pos_iff.2 h0
    exact_mod_cast this
  rw [e]
  have b1 : ∀ B : List (List K), (∀ x ∈ B, InBox lo hi c x) →
      (B.length : K) * lo j ≤ (B.map (fun x => x.getD j 0)).sum ∧
      (B.map (fun x => x.getD j 0)).sum ≤ (B.length : K) * hi j := by
    intro B hB
    induction B with
    | nil => simp
    | cons x B ih =>
      have h1 := ih (fun y hy => hB y (List.mem_cons_of_mem _ hy))
      have h2 := (hB x List.mem_cons_self).2 j hj
      simp only [List.length_cons, List.map_cons, List.sum_cons, Nat.cast_add, Nat.cast_one]
      constructor <;> nlinarith [h1.1, h1.2, h2.1, h2.2]
  obtain ⟨h1, h2⟩ := b1 A h
  exact ⟨(le_div_iff₀ hlen).2 (by linarith), (div_le_iff₀ hlen).2 (by linarith)⟩

theorem centersOf_inBox {lo hi : Nat → K} {c : Nat} {init : List (List K)}
    {p : List (List K × Nat)} (hi' : ∀ x ∈ init, InBox lo hi c x)
    (hp : ∀ q ∈ p, InBox lo hi c q.1) : ∀ x ∈ centersOf init p, InBox lo hi c x := by
  intro x hx
  obtain ⟨k, hk, rfl⟩ := List.getElem_of_mem hx
  simp only [centersOf, List.getElem_mapIdx]
  simp only [centersOf_length] at hk
  have hb := hi' _ (List.getElem_mem hk)
  split
  · exact hb
  · rename_i h
    rw [hb.1]
    apply meanVec_inBox
    · intro e; rw [e] at h; simp at h
    · intro y hy
      have := members_mem hy
      obtain ⟨q, hq, rfl⟩ := List.mem_map.1 this
      exact hp q hq

theorem move_meanVec {c : Nat} {v x : List K} (A : List (List K)) (hv : v.length = c)
    (hx : x.length = c) (hA : A ≠ [] → v = meanVec c A) :
    move (1 / ((A.length + 1 : Nat) : K)) v x = meanVec c (A ++ [x]) := by
  apply List.ext_getElem
  · simp [move, meanVec, hv, hx]
  · intro j h1 h2
    have hj : j < c := by simpa [meanVec] using h2
    have hjv : j < v.length := by omega
    have hjx : j < x.length := by omega
    simp only [move]
    rw [List.getElem_append_left (by simp; omega)]
    simp only [List.getElem_zipWith, meanVec, List.getElem_map, List.getElem_range,
      List.map_append, List.map_cons, List.map_nil, List.sum_append, List.sum_cons, List.sum_nil,
      List.length_append, List.length_cons, List.length_nil, Nat.zero_add, add_zero,
      List.getD_eq_getElem _ _ hjx, Nat.cast_add, Nat.cast_one]
    have hpos : ((A.length : K) + 1) ≠ 0 := by
      have : (0 : K) ≤ A.length := Nat.cast_nonneg _
      linarith
    by_cases h : A = []
    · subst h; simp
    · have hlen : (A.length : K) ≠ 0 := by
        have := List.length_pos_iff.2 h
        exact_mod_cast this.ne'
      have e : v[j] = (A.map (fun x => x.getD j 0)).sum / (A.length : K) := by
        have := hA h
        subst this
        simp [meanVec]
      rw [e]
      field_simp
      ring

theorem step_spec {sqrt : K → K} (hs : IsSqrt sqrt) {inf : K} {lo hi : Nat → K} {c : Nat}
    (hov : NoOverflow sqrt inf lo hi c) {init : List (List K)} (h0 : init ≠ [])
    (hin : ∀ x ∈ init, InBox lo hi c x) {p : List (List K × Nat)}
    (hp : ∀ q ∈ p, InBox lo hi c q.1) {x : List K} (hx : InBox lo hi c x) :
    ∃ k, IsNearest (centersOf init p) x k ∧
      step sqrt inf (centersOf init p, countsOf init.length p) x
        = .ok (centersOf init (p ++ [(x, k)]), countsOf init.length (p ++ [(x, k)])) := by
  have hbox := centersOf_inBox hin hp
  have hn : IsNearest (centersOf init p) x (nearest sqrt inf x (centersOf init p)) := by
    apply nearest_isNearest hs
    · intro e
      have := congrArg List.length e
      simp at this
      exact h0 this
    · intro v hv; rw [hx.1, (hbox v hv).1]
    · intro v hv; exact hov _ _ hx (hbox v hv)
  refine ⟨_, hn, ?_⟩
  unfold step
  simp only
  generalize nearest sqrt inf x (centersOf init p) = k at hn ⊢
  have hk : k < init.length := by simpa using hn.1
  have hkc : k < (centersOf init p).length := by simpa using hk
  have hvb := hbox _ (List.getElem_mem hkc)
  have hcnt : (countsOf init.length p).modify k (· + 1) = countsOf init.length (p ++ [(x, k)]) := by
    apply List.ext_getElem
    · simp
    · intro i h1 h2
      simp only [List.getElem_modify, countsOf, List.getElem_map, List.getElem_range,
        members_append, List.length_append]
      by_cases h : k = i
      · subst h; simp [members]
      · simp [members, h]
  have hck : ((countsOf init.length p).modify k (· + 1)).getD k 0 = (members p k).length + 1 := by
    rw [hcnt, List.getD_eq_getElem _ _ (by simpa using hk)]
    simp [countsOf, members_append, members]
  rw [if_pos ⟨by simpa using hk, hkc, by
    rw [List.getD_eq_getElem _ _ hkc, hvb.1, hx.1]⟩, hck, hcnt]
  congr 2
  apply List.ext_getElem
  · simp
  · intro i h1 h2
    have hi0 : i < init.length := by simpa using h2
    have hb := hin _ (List.getElem_mem hi0)
    simp only [List.getElem_modify]
    by_cases h : k = i
    · subst h
      rw [if_pos rfl, move_meanVec (c := c) (members p k) hvb.1 hx.1]
      · simp [centersOf, members_append, members, hb.1]
      · intro hA
        simp [centersOf, hA, hb.1]
    · rw [if_neg h]
      have hm : members (p ++ [(x, k)]) i = members p i := by
        rw [members_append]; simp [members, h]
      simp only [centersOf, List.getElem_mapIdx, hm]

theorem trace_snoc {init : List (List K)} {p : List (List K × Nat)} {x : List K} {k : Nat}
    (h : Trace init p) (hn : IsNearest (centersOf init p) x k) : Trace init (p ++ [(x, k)]) := by
  intro pre y i post e
  rcases List.eq_nil_or_concat post with rfl | ⟨post', z, rfl⟩
  · have := List.append_inj' e rfl
    obtain ⟨rfl, e2⟩ := this
    simp only [List.cons.injEq, Prod.mk.injEq, and_true] at e2
    obtain ⟨rfl, rfl⟩ := e2
    exact hn
  · simp only [List.concat_eq_append] at e
    have e' : p ++ [(x, k)] = (pre ++ (y, i) :: post') ++ [z] := by rw [e]; simp
    have := List.append_inj' e' rfl
    exact h pre y i post' this.1

theorem steps_spec {sqrt : K → K} (hs : IsSqrt sqrt) {inf : K} {lo hi : Nat → K} {c : Nat}
    (hov : NoOverflow sqrt inf lo hi c) {init : List (List K)} (h0 : init ≠ [])
    (hin : ∀ x ∈ init, InBox lo hi c x) {p : List (List K × Nat)}
    (hp : ∀ q ∈ p, InBox lo hi c q.1) (ht : Trace init p) (xs : List (List K))
    (hxs : ∀ x ∈ xs, InBox lo hi c x) :
    ∃ ks : List Nat, ks.length = xs.length ∧ Trace init (p ++ xs.zip ks) ∧
      steps sqrt inf (centersOf init p, countsOf init.length p) xs
        = .ok (centersOf init (p ++ xs.zip ks), countsOf init.length (p ++ xs.zip ks)) := by
  induction xs generalizing p with
  | nil => exact ⟨[], rfl, by simpa using ht, by simp [steps]⟩
  | cons x xs ih =>
    have hx := hxs x List.mem_cons_self
    obtain ⟨k, hn, he⟩ := step_spec hs hov h0 hin hp hx
    have hp' : ∀ q ∈ p ++ [(x, k)], InBox lo hi c q.1 := by
      intro q hq
      rcases List.mem_append.1 hq with h | h
      · exact hp q h
      · simp only [List.mem_singleton] at h; subst h; exact hx
    obtain ⟨ks, h1, h2, h3⟩ := ih hp' (trace_snoc ht hn) (fun y hy => hxs y (List.mem_cons_of_mem _ hy))
    refine ⟨k :: ks, by simp [h1], by simpa using h2, ?_⟩
    simp only [steps, List.foldl_cons, Outcome.bind_ok, he]
    simp only [steps] at h3
    rw [h3]
    simp

end Field

section Law
variable {α : Type _} [Add α] [Sub α] [Mul α] [Div α] [Zero α] [One α] [NatCast α]
  [LT α] [LE α] [DecidableLT α] [DecidableLE α]

theorem swap_perm (l : List Nat) (i j : Nat) (hi : i < l.length) (hj : j < l.length) :
    (swap l i j).Perm l := by
  unfold swap
  rw [List.getD_eq_getElem _ _ hi, List.getD_eq_getElem _ _ hj]
  exact List.set_set_perm hi hj

theorem shuffle_perm (o : Rng α) (i : Nat) (l : List Nat) (pos : Nat) (h : i < l.length ∨ i = 0) :
    (shuffle o i l pos).1.Perm l := by
  induction i generalizing l pos with
  | zero => simp [shuffle]
  | succ i ih =>
    have hl : i + 1 < l.length := by omega
    have hm : (o.int pos (i + 2)).1 % (i + 2) < i + 2 := Nat.mod_lt _ (by omega)
    have hp := swap_perm l (i + 1) ((o.int pos (i + 2)).1 % (i + 2)) hl (by omega)
    simp only [shuffle]
    exact (ih _ _ (Or.inl (by rw [hp.length_eq]; omega))).trans hp

theorem selectMiniBatch_spec (o : Rng α) (b n pos : Nat) :
    (selectMiniBatch o b n pos).1.length = min b n ∧
    (selectMiniBatch o b n pos).1.Nodup ∧ ∀ i ∈ (selectMiniBatch o b n pos).1, i < n := by
  have hp : (shuffle o (n - 1) (List.range n) pos).1.Perm (List.range n) :=
    shuffle_perm o _ _ _ (by simp; omega)
  simp only [selectMiniBatch]
  refine ⟨?_, ?_, ?_⟩
  · rw [List.length_take, hp.length_eq, List.length_range]
    split <;> omega
  · exact (List.take_sublist _ _).nodup ((hp.nodup_iff).2 List.nodup_range)
  · intro i hi
    have := (hp.mem_iff).1 (List.mem_of_mem_take hi)
    simpa using this

theorem initRandom_spec (o : Rng α) {rows : List (List α)} (h0 : rows ≠ []) (n pos : Nat) :
    ∃ r, initRandom o rows n pos = .ok r ∧ r.1.length = n ∧ ∀ x ∈ r.1, x ∈ rows := by
  induction n with
  | zero => exact ⟨_, rfl, rfl, by simp⟩
  | succ n ih =>
    obtain ⟨r, h1, h2, h3⟩ := ih
    have hl := List.length_pos_iff.2 h0
    simp only [initRandom, h1, Outcome.bind_ok, intN, if_neg hl.ne']
    refine ⟨_, rfl, by simp [h2], ?_⟩
    intro x hx
    rcases List.mem_append.1 hx with h | h
    · exact h3 x h
    · simp only [List.mem_singleton] at h
      subst h
      rw [List.getD_eq_getElem _ _ (Nat.mod_lt _ hl)]
      exact List.getElem_mem _

theorem pickIdx_lt (t : α) (ds : List α) (i : Nat) (cum : α) :
    pickIdx t ds i cum = 0 ∨ pickIdx t ds i cum < i + ds.length := by
  induction ds generalizing i cum with
  | nil => left; rfl
  | cons d ds ih =>
    simp only [pickIdx, List.length_cons]
    split
    · right; omega
    · rcases ih (i + 1) (cum + d) with h | h
      · left; exact h
      · right; omega

theorem ppMore_spec (sqrt : α → α) (inf : α) (o : Rng α) {rows : List (List α)} (h0 : rows ≠ [])
    (k : Nat) (r : List (List α) × Nat) (hr : ∀ x ∈ r.1, x ∈ rows) :
    (ppMore sqrt inf o rows k r).1.length = r.1.length + k ∧
    ∀ x ∈ (ppMore sqrt inf o rows k r).1, x ∈ rows := by
  induction k generalizing r with
  | zero => exact ⟨rfl, hr⟩
  | succ k ih =>
    have hl := List.length_pos_iff.2 h0
    simp only [ppMore]
    have hr' : ∀ x ∈ (ppNext sqrt inf o rows r).1, x ∈ rows := by
      intro x hx
      simp only [ppNext] at hx
      rcases List.mem_append.1 hx with h | h
      · exact hr x h
      · simp only [List.mem_singleton] at h
        subst h
        rw [List.getD_eq_getElem]
        · exact List.getElem_mem _
        · rcases pickIdx_lt ((o.flt r.2).1 * (rows.map (minSq sqrt inf r.1)).foldl (· + ·) 0)
            (rows.map (minSq sqrt inf r.1)) 0 0 with h | h
          · rw [h]; exact hl
          · simpa using h
    obtain ⟨h1, h2⟩ := ih _ hr'
    refine ⟨?_, h2⟩
    rw [h1]
    simp [ppNext]; omega

theorem initCenters_spec (sqrt : α → α) (inf : α) (o : Rng α) (P : Params α)
    (hk : 0 < P.nClusters) {rows : List (List α)} (h0 : rows ≠ []) (pos : Nat) :
    ∃ r, initCenters sqrt inf o P rows pos = .ok r ∧ r.1.length = P.nClusters ∧
      ∀ x ∈ r.1, x ∈ rows := by
  unfold initCenters
  split
  · exact initRandom_spec o h0 _ _
  · obtain ⟨k, hk'⟩ : ∃ k, P.nClusters = k + 1 := ⟨P.nClusters - 1, by omega⟩
    have hl := List.length_pos_iff.2 h0
    simp only [hk', intN, if_neg hl.ne', Outcome.map_ok]
    have := ppMore_spec sqrt inf o h0 k ([rows.getD ((o.int pos rows.length).1 % rows.length) []], (o.int pos rows.length).2) (by
      intro x hx
      simp only [List.mem_singleton] at hx
      subst hx
      rw [List.getD_eq_getElem _ _ (Nat.mod_lt _ hl)]
      exact List.getElem_mem _)
    refine ⟨_, rfl, ?_, this.2⟩
    rw [this.1]; simp; omega

end Law

section Fit
variable {K : Type _} [Field K] [LinearOrder K] [IsStrictOrderedRing K]

/-- a run keeps its centres running means of rows -/
theorem iterate_spec {sqrt : K → K} (hs : IsSqrt sqrt) {inf : K} {lo hi : Nat → K} {c : Nat}
    (hov : NoOverflow sqrt inf lo hi c) (o : Rng K) (P : Params K) {rows : List (List K)}
    (hrows : ∀ x ∈ rows, InBox lo hi c x) {init : List (List K)} (h0 : init ≠ [])
    (hin : ∀ x ∈ init, InBox lo hi c x) (left iter : Nat) (r : Run K)
    (p : List (List K × Nat)) (hp : ∀ q ∈ p, q.1 ∈ rows) (ht : Trace init p)
    (hc : r.centers = centersOf init p) (hn : r.counts = countsOf init.length p) :
    ∃ r' p', iterate sqrt inf o P rows left iter r = .ok r' ∧ (∀ q ∈ p', q.1 ∈ rows) ∧
      Trace init p' ∧ r'.centers = centersOf init p' := by
  induction left generalizing iter r p with
  | zero => exact ⟨r, p, rfl, hp, ht, hc⟩
  | succ left ih =>
    obtain ⟨xs, hxs⟩ : ∃ xs, (selectMiniBatch o P.batchSize rows.length r.pos).1.map
      (fun i => rows.getD i []) = xs := ⟨_, rfl⟩
    have hmem : ∀ x ∈ xs, x ∈ rows := by
      intro x hx
      rw [← hxs] at hx
      obtain ⟨i, hi, rfl⟩ := List.mem_map.1 hx
      have := (selectMiniBatch_spec o P.batchSize rows.length r.pos).2.2 i hi
      rw [List.getD_eq_getElem _ _ this]
      exact List.getElem_mem _
    obtain ⟨ks, h1, h2, h3⟩ := steps_spec hs hov h0 hin (fun q hq => hrows _ (hp q hq)) ht xs
      (fun x hx => hrows _ (hmem x hx))
    have hp' : ∀ q ∈ p ++ xs.zip ks, q.1 ∈ rows := by
      intro q hq
      rcases List.mem_append.1 hq with h | h
      · exact hp q h
      · exact hmem _ (List.of_mem_zip h).1
    simp only [iterate, hxs, hc, hn, h3, Outcome.bind_ok]
    split
    · split
      · exact ⟨_, p ++ xs.zip ks, rfl, hp', h2, rfl⟩
      · exact ih _ _ (p ++ xs.zip ks) hp' h2 rfl rfl
    · exact ih _ _ (p ++ xs.zip ks) hp' h2 rfl rfl

/-- what a run returns -/
def RunOk (sqrt : K → K) (inf : K) (P : Params K) (rows : List (List K)) (f : Fitted K) : Prop :=
  (∃ init p, init.length = P.nClusters ∧ (∀ x ∈ init, x ∈ rows) ∧ (∀ q ∈ p, q.1 ∈ rows) ∧
    Trace init p ∧ f.centers = centersOf init p) ∧
  f.labels = (if P.computeLabels then some (rows.map (fun x => nearest sqrt inf x f.centers))
    else none) ∧
  f.inertia = computeInertia sqrt inf rows f.centers

theorem fitSingleRun_spec {sqrt : K → K} (hs : IsSqrt sqrt) {inf : K} {lo hi : Nat → K} {c : Nat}
    (hov : NoOverflow sqrt inf lo hi c) (o : Rng K) (P : Params K) (hk : 0 < P.nClusters)
    {rows : List (List K)} (h0 : rows ≠ []) (hrows : ∀ x ∈ rows, InBox lo hi c x) (pos : Nat) :
    ∃ r, fitSingleRun sqrt inf o P rows pos = .ok r ∧ RunOk sqrt inf P rows r.1 := by
  obtain ⟨i, h1, h2, h3⟩ := initCenters_spec sqrt inf o P hk h0 pos
  have hne : i.1 ≠ [] := by intro e; rw [e] at h2; simp at h2; omega
  obtain ⟨r', p', e, hp, ht, hc⟩ := iterate_spec hs hov o P hrows hne
    (fun x hx => hrows _ (h3 x hx)) P.maxIter 0
    ⟨i.1, List.replicate P.nClusters 0, inf, 0, 0, i.2⟩ [] (by simp) (by intro a b c d e; simp at e)
    (centersOf_nil _).symm (by rw [countsOf_nil, h2])
  unfold fitSingleRun
  rw [h1, Outcome.bind_ok, if_neg (by simp [hne]), e, Outcome.map_ok]
  exact ⟨_, rfl, ⟨i.1, p', h2, h3, hp, ht, hc⟩, rfl, rfl⟩

theorem bestOf_spec {sqrt : K → K} (hs : IsSqrt sqrt) {inf : K} {lo hi : Nat → K} {c : Nat}
    (hov : NoOverflow sqrt inf lo hi c) (o : Rng K) (P : Params K) (hk : 0 < P.nClusters)
    {rows : List (List K)} (h0 : rows ≠ []) (hrows : ∀ x ∈ rows, InBox lo hi c x) (n : Nat)
    (best : Option (Fitted K)) (hb : ∀ f ∈ best, RunOk sqrt inf P rows f) (pos : Nat) :
    ∃ r, bestOf sqrt inf o P rows n best pos = .ok r ∧ ∀ f ∈ r.1, RunOk sqrt inf P rows f := by
  induction n generalizing best pos with
  | zero => exact ⟨_, rfl, hb⟩
  | succ n ih =>
    obtain ⟨r, h1, h2⟩ := fitSingleRun_spec hs hov o P hk h0 hrows pos
    simp only [bestOf, h1, Outcome.bind_ok]
    apply ih
    split
    · intro f hf; simp at hf; subst hf; exact h2
    · exact hb

end Fit

end Scigo.KMeans
