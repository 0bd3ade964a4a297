import Verif.Metrics.RegLemmas
import Verif.Metrics.Spec
import Mathlib.Logic.Function.Iterate

set_option linter.unusedSectionVars false

namespace Scigo.Metrics

/-! ### law-free part: the sweep only depends on the multiset of pairs -/

section LawFree

variable {α : Type _} [LinearOrder α] [Add α] [Sub α] [Mul α] [Div α] [Zero α] [One α]

/-- `n` times `x++` -/
def incs (n : Nat) (x : α) : α := (fun y : α => y + 1)^[n] x

/-- does the pair carry the positive label? -/
def isPos (q : α × α) : Bool := q.2 == 1

theorem sweep_group (P N : α) (s : α) (g r : List (α × α)) (hg : ∀ q ∈ g, q.1 = s) (tp fp : α) :
    sweep P N (g ++ r) tp fp s
      = sweep P N r (incs (g.countP isPos) tp) (incs (g.countP (fun q => !isPos q)) fp) s := by
  induction g generalizing tp fp with
  | nil => simp [incs]
  | cons q g ih =>
    have hq : q.1 = s := hg q (by simp)
    have ih' := fun tp fp => ih (fun x hx => hg x (by simp [hx])) tp fp
    rw [List.cons_append, sweep]
    simp only [hq, bne_self_eq_false, Bool.false_eq_true, if_false]
    by_cases h : q.2 = 1
    · simp only [h, beq_self_eq_true, if_true]
      rw [ih']
      simp [isPos, h, incs, Function.iterate_succ_apply]
    · have h' : (q.2 == 1) = false := by simpa using h
      simp only [h', Bool.false_eq_true, if_false]
      rw [ih']
      simp [isPos, h, incs, Function.iterate_succ_apply]

theorem sweep_first (P N : α) (q : α × α) (g r : List (α × α)) (hg : ∀ x ∈ g, x.1 = q.1)
    (tp fp prev : α) :
    sweep P N (q :: g ++ r) tp fp prev
      = (if q.1 = prev then [] else [(fp / N, tp / P)]) ++
        sweep P N r (incs ((q :: g).countP isPos) tp)
          (incs ((q :: g).countP (fun q => !isPos q)) fp) q.1 := by
  have h := sweep_group P N q.1 (q :: g) r (by simpa using hg) tp fp
  rw [← h]
  by_cases hp : q.1 = prev
  · rw [← hp]; simp
  · rw [if_neg hp]
    simp [List.cons_append, sweep, hp]

theorem filter_split (s : α) (l : List (α × α)) (hs : l.Pairwise (fun a b => ¬ a.1 < b.1))
    (hm : ∀ q ∈ l, q.1 ≤ s) :
    l = l.filter (fun q => decide (q.1 = s)) ++ l.filter (fun q => decide (q.1 ≠ s)) := by
  induction l with
  | nil => rfl
  | cons q l ih =>
    rw [List.pairwise_cons] at hs
    by_cases h : q.1 = s
    · rw [List.filter_cons_of_pos (by simpa using h), List.filter_cons_of_neg (by simpa using h),
        List.cons_append, ← ih hs.2 (fun x hx => hm x (by simp [hx]))]
    · have hlt : q.1 < s := lt_of_le_of_ne (hm q (by simp)) h
      have h1 : (q :: l).filter (fun q => decide (q.1 = s)) = [] := by
        rw [List.filter_eq_nil_iff]
        intro x hx
        rcases List.mem_cons.1 hx with rfl | hx
        · simpa using h
        · have := not_lt.1 (hs.1 x hx)
          simpa using (lt_of_le_of_lt this hlt).ne
      have h2 : (q :: l).filter (fun q => decide (q.1 ≠ s)) = q :: l := by
        rw [List.filter_eq_self]
        intro x hx
        rcases List.mem_cons.1 hx with rfl | hx
        · simpa using h
        · have := not_lt.1 (hs.1 x hx)
          simpa using (lt_of_le_of_lt this hlt).ne
      rw [h1, h2]; rfl

theorem head_max {q : α × α} {l : List (α × α)}
    (hs : (q :: l).Pairwise (fun a b => ¬ a.1 < b.1)) : ∀ x ∈ q :: l, x.1 ≤ q.1 := by
  intro x hx
  rcases List.mem_cons.1 hx with rfl | hx
  · exact le_refl _
  · exact not_lt.1 ((List.pairwise_cons.1 hs).1 x hx)

theorem heads_eq {q q' : α × α} {l l' : List (α × α)}
    (hs : (q :: l).Pairwise (fun a b => ¬ a.1 < b.1))
    (hs' : (q' :: l').Pairwise (fun a b => ¬ a.1 < b.1)) (hp : (q :: l).Perm (q' :: l')) :
    q.1 = q'.1 :=
  le_antisymm (head_max hs' q (hp.mem_iff.1 (by simp)))
    (head_max hs q' (hp.mem_iff.2 (by simp)))

theorem sorted_group (q : α × α) (l : List (α × α))
    (hs : (q :: l).Pairwise (fun a b => ¬ a.1 < b.1)) :
    ∃ g r, q :: l = q :: g ++ r ∧ (∀ x ∈ g, x.1 = q.1) ∧
      q :: g = (q :: l).filter (fun x => decide (x.1 = q.1)) ∧
      r = (q :: l).filter (fun x => decide (x.1 ≠ q.1)) := by
  refine ⟨l.filter (fun x => decide (x.1 = q.1)), (q :: l).filter (fun x => decide (x.1 ≠ q.1)),
    ?_, ?_, ?_, rfl⟩
  · conv_lhs => rw [filter_split q.1 (q :: l) hs (head_max hs)]
    rw [List.filter_cons_of_pos (by simp)]
  · intro x hx; simpa using (List.mem_filter.1 hx).2
  · rw [List.filter_cons_of_pos (by simp)]

theorem sweep_perm (P N : α) (n : Nat) :
    ∀ (l l' : List (α × α)), l.length ≤ n → l.Perm l' →
      l.Pairwise (fun a b => ¬ a.1 < b.1) → l'.Pairwise (fun a b => ¬ a.1 < b.1) →
      ∀ tp fp prev, sweep P N l tp fp prev = sweep P N l' tp fp prev := by
  induction n with
  | zero =>
    intro l l' hl hp _ _ tp fp prev
    have : l = [] := by simpa using hl
    subst this
    rw [hp.nil_eq]
  | succ n ih =>
    intro l l' hl hp hs hs' tp fp prev
    cases l with
    | nil => rw [hp.nil_eq]
    | cons q l =>
      cases l' with
      | nil => simp at hp
      | cons q' l' =>
        have hq := heads_eq hs hs' hp
        obtain ⟨g, r, e, hg, e1, e2⟩ := sorted_group q l hs
        obtain ⟨g', r', e', hg', e1', e2'⟩ := sorted_group q' l' hs'
        have hpg : (q :: g).Perm (q' :: g') := by
          rw [e1, e1', ← hq]; exact hp.filter _
        have hpr : r.Perm r' := by
          rw [e2, e2', ← hq]; exact hp.filter _
        have hr : r.length ≤ n := by
          have := congrArg List.length e
          simp at this hl; omega
        have hsr : r.Pairwise (fun a b => ¬ a.1 < b.1) := by rw [e2]; exact hs.filter _
        have hsr' : r'.Pairwise (fun a b => ¬ a.1 < b.1) := by rw [e2']; exact hs'.filter _
        rw [e, e', sweep_first P N q g r hg, sweep_first P N q' g' r' hg', hpg.countP_eq,
          hpg.countP_eq, ← hq, ih r r' hr hpr hsr hsr']

theorem countLabels_eq (one : Bool) (ts : List α) :
    countLabels one ts = incs (ts.countP (fun y => (y == 1) == one)) (0 : α) := by
  have h : ∀ (s : α), ts.foldl (fun s y => if (y == 1) = one then s + 1 else s) s
      = incs (ts.countP (fun y => (y == 1) == one)) s := by
    induction ts with
    | nil => intro s; rfl
    | cons y ts ih =>
      intro s
      rw [List.foldl_cons, ih]
      by_cases h : (y == 1) = one
      · rw [if_pos h, List.countP_cons_of_pos (by simpa using h)]; rfl
      · rw [if_neg h, List.countP_cons_of_neg (by simpa using h)]
  exact h 0

end LawFree

/-! ### exact arithmetic -/

section K

variable {K : Type _} [Field K] [LinearOrder K] [IsStrictOrderedRing K]

omit [LinearOrder K] [IsStrictOrderedRing K] in
theorem incs_eq (n : Nat) (x : K) : incs n x = x + n := by
  induction n generalizing x with
  | zero => simp [incs]
  | succ n ih =>
    have : incs (n + 1) x = incs n (x + 1) := by simp [incs, Function.iterate_succ_apply]
    rw [this, ih]; push_cast; ring

/-- the score of a pair: 1 if ranked correctly, 1/2 for a tie -/
def cmp (x y : K) : K := if y < x then 1 else if x = y then 1 / 2 else 0

/-- wins of earlier positives (`tp`) plus positives of `r`, over the negatives of `r` -/
def mwAux (r : List (K × K)) (tp : K) : K :=
  ((r.filter (fun q => !isPos q)).map (fun q =>
    tp + ((r.filter isPos).map (fun p => cmp p.1 q.1)).sum)).sum

omit [IsStrictOrderedRing K] in
theorem mwAux_group (g r : List (K × K)) (s : K) (hg : ∀ x ∈ g, x.1 = s)
    (hr : ∀ x ∈ r, x.1 < s) (tp : K) :
    mwAux (g ++ r) tp = (g.countP (fun q => !isPos q) : K) * (tp + (g.countP isPos : K) / 2)
      + mwAux r (tp + g.countP isPos) := by
  unfold mwAux
  simp only [List.filter_append]
  rw [List.map_append, List.sum_append]
  congr 1
  · have : ∀ q ∈ g.filter (fun q => !isPos q),
        tp + ((g.filter isPos ++ r.filter isPos).map (fun p => cmp p.1 q.1)).sum
          = tp + (g.countP isPos : K) / 2 := by
      intro q hq
      have hqs : q.1 = s := hg q (List.mem_filter.1 hq).1
      rw [List.map_append, List.sum_append]
      have h1 : ((g.filter isPos).map (fun p => cmp p.1 q.1)).sum = (g.countP isPos : K) / 2 := by
        have : (g.filter isPos).map (fun p => cmp p.1 q.1)
            = (g.filter isPos).map (fun _ => (1 / 2 : K)) := by
          apply List.map_congr_left
          intro p hp
          have : p.1 = s := hg p (List.mem_filter.1 hp).1
          simp [cmp, this, hqs]
        rw [this, List.map_const', List.sum_replicate, nsmul_eq_mul, ← List.countP_eq_length_filter]
        ring
      have h2 : ((r.filter isPos).map (fun p => cmp p.1 q.1)).sum = 0 := by
        apply List.sum_eq_zero
        intro x hx
        obtain ⟨p, hp, rfl⟩ := List.mem_map.1 hx
        have := hr p (List.mem_filter.1 hp).1
        rw [cmp, if_neg (by rw [hqs]; exact not_lt.2 this.le), if_neg (by rw [hqs]; exact this.ne)]
      rw [h1, h2, add_zero]
    rw [List.map_congr_left this, List.map_const', List.sum_replicate, nsmul_eq_mul,
      ← List.countP_eq_length_filter]
  · congr 1
    apply List.map_congr_left
    intro q hq
    have hqs : q.1 < s := hr q (List.mem_filter.1 hq).1
    rw [List.map_append, List.sum_append]
    have h1 : ((g.filter isPos).map (fun p => cmp p.1 q.1)).sum = (g.countP isPos : K) := by
      have : (g.filter isPos).map (fun p => cmp p.1 q.1)
          = (g.filter isPos).map (fun _ => (1 : K)) := by
        apply List.map_congr_left
        intro p hp
        have : p.1 = s := hg p (List.mem_filter.1 hp).1
        simp [cmp, this, hqs]
      rw [this, List.map_const', List.sum_replicate, nsmul_eq_mul, ← List.countP_eq_length_filter]
      ring
    rw [h1]; ring

theorem area_main (P N : K) (hP : P ≠ 0) (hN : N ≠ 0) (n : Nat) :
    ∀ (r : List (K × K)), r.length ≤ n → r.Pairwise (fun a b => ¬ a.1 < b.1) →
      ∀ (tp fp prev : K), P = tp + (r.countP isPos : K) →
        N = fp + (r.countP (fun q => !isPos q) : K) → (∀ x ∈ r, x.1 ≠ prev) →
        (∃ tl, sweep P N r tp fp prev ++ [(1, 1)] = (fp / N, tp / P) :: tl) ∧
        ∀ acc, trapezoid 2 (sweep P N r tp fp prev ++ [(1, 1)]) acc
          = acc + mwAux r tp / (P * N) := by
  have h2 : (2 : K) ≠ 0 := by norm_num
  induction n with
  | zero =>
    intro r hr _ tp fp prev h1 h2 _
    have : r = [] := by simpa using hr
    subst this
    simp only [List.countP_nil, Nat.cast_zero, add_zero] at h1 h2
    subst h1 h2
    simp [sweep, div_self hP, div_self hN, trapezoid, mwAux]
  | succ n ih =>
    intro r hr hs tp fp prev h1 h2' hprev
    cases r with
    | nil =>
      simp only [List.countP_nil, Nat.cast_zero, add_zero] at h1 h2'
      subst h1 h2'
      simp [sweep, div_self hP, div_self hN, trapezoid, mwAux]
    | cons q l =>
      obtain ⟨g, r, e, hg, e1, e2⟩ := sorted_group q l hs
      have hgq : ∀ x ∈ q :: g, x.1 = q.1 := by simpa using hg
      have hrlt : ∀ x ∈ r, x.1 < q.1 := by
        intro x hx
        rw [e2] at hx
        obtain ⟨hx1, hx2⟩ := List.mem_filter.1 hx
        exact lt_of_le_of_ne (head_max hs x hx1) (by simpa using hx2)
      have hrl : r.length ≤ n := by
        have := congrArg List.length e
        simp at this hr; omega
      have hsr : r.Pairwise (fun a b => ¬ a.1 < b.1) := by rw [e2]; exact hs.filter _
      rw [e] at h1 h2'
      rw [List.countP_append] at h1 h2'
      have hpq : q.1 ≠ prev := hprev q (by simp)
      have key := ih r hrl hsr (tp + ((q :: g).countP isPos : K))
        (fp + ((q :: g).countP (fun q => !isPos q) : K)) q.1
        (by rw [h1]; push_cast; ring) (by rw [h2']; push_cast; ring)
        (fun x hx => (hrlt x hx).ne)
      obtain ⟨⟨tl, htl⟩, harea⟩ := key
      rw [e, sweep_first P N q g r hg, if_neg hpq, incs_eq, incs_eq]
      simp only [List.cons_append, List.nil_append]
      refine ⟨⟨_, rfl⟩, fun acc => ?_⟩
      rw [htl] at harea ⊢
      rw [trapezoid, harea, ← List.cons_append, mwAux_group (q :: g) r q.1 hgq hrlt tp]
      field_simp
      ring

/-- every permutation-invariant form -/
theorem mwAux_eq (r : List (K × K)) :
    mwAux r 0 = mannWhitney ((r.filter isPos).map Prod.fst)
      ((r.filter (fun q => !isPos q)).map Prod.fst) := by
  unfold mwAux mannWhitney
  simp only [zero_add, List.map_map]
  generalize r.filter isPos = ps
  generalize r.filter (fun q => !isPos q) = ns
  clear r
  induction ps with
  | nil => simp
  | cons p ps ih =>
    simp only [List.map_cons, List.sum_cons]
    rw [← ih]
    clear ih
    induction ns with
    | nil => simp
    | cons q ns ih2 =>
      simp only [List.map_cons, List.sum_cons, Function.comp] at ih2 ⊢
      rw [ih2]
      simp only [cmp, Function.comp_def]
      ring

omit [IsStrictOrderedRing K] in
theorem mannWhitney_perm {ps ps' ns ns' : List K} (h1 : ps.Perm ps') (h2 : ns.Perm ns') :
    mannWhitney ps ns = mannWhitney ps' ns' := by
  unfold mannWhitney
  rw [(h1.map _).sum_eq]
  congr 1
  apply List.map_congr_left
  intro p _
  exact (h2.map _).sum_eq

theorem mem_scoresOf (l s : K) (a b : List K) :
    s ∈ scoresOf l a b ↔ ∃ x ∈ a.zip b, x.1 = l ∧ x.2 = s := by
  unfold scoresOf
  rw [List.mem_map]
  simp only [List.mem_filter, decide_eq_true_eq, and_assoc]

theorem scoresOf_length_pos {l : K} {a b : List K} (hl : a.length = b.length) (h : l ∈ a) :
    0 < (scoresOf l a b).length := by
  rw [List.length_pos_iff_exists_mem]
  rw [← List.map_fst_zip hl.le] at h
  obtain ⟨x, hx, rfl⟩ := List.mem_map.1 h
  exact ⟨x.2, (mem_scoresOf _ _ _ _).2 ⟨x, hx, rfl, rfl⟩⟩

theorem scoresOf_map (l : K) (f : K → K) (a b : List K) :
    scoresOf l a (b.map f) = (scoresOf l a b).map f := by
  unfold scoresOf
  rw [List.zip_map_right, List.filter_map, List.map_map, List.map_map]
  rfl

theorem scoresOf_map_fst (l : K) (f : K → K) (a b : List K) :
    scoresOf l (a.map f) b
      = ((a.zip b).filter (fun x => decide (f x.1 = l))).map Prod.snd := by
  unfold scoresOf
  rw [List.zip_map_left, List.filter_map, List.map_map]
  rfl

theorem scoresOf_congr (l : K) (f : K → K) (m : K) (a b : List K) (h : ∀ x, f x = l ↔ x = m) :
    ((a.zip b).filter (fun x => decide (f x.1 = l))).map Prod.snd = scoresOf m a b := by
  unfold scoresOf
  simp only [h]

theorem cmp_bounds (p q : K) : 0 ≤ (if q < p then (1 : K) else if p = q then 1 / 2 else 0) ∧
    (if q < p then (1 : K) else if p = q then 1 / 2 else 0) ≤ 1 ∧
    ((if q < p then (1 : K) else if p = q then 1 / 2 else 0) = 1 ↔ q < p) := by
  have h2 : (1 : K) / 2 ≠ 1 := by norm_num
  split_ifs with h h'
  · simp [h]
  · refine ⟨by positivity, by norm_num, ?_⟩
    simp only [h, iff_false]; exact h2
  · simpa using not_lt.1 h

theorem sum_le_length {β : Type _} (l : List β) (f : β → K) (h : ∀ x ∈ l, 0 ≤ f x ∧ f x ≤ 1) :
    0 ≤ (l.map f).sum ∧ (l.map f).sum ≤ l.length ∧
      ((l.map f).sum = l.length ↔ ∀ x ∈ l, f x = 1) := by
  induction l with
  | nil => simp
  | cons x l ih =>
    obtain ⟨h1, h2, h3⟩ := ih (fun y hy => h y (by simp [hy]))
    obtain ⟨hx0, hx1⟩ := h x (by simp)
    simp only [List.map_cons, List.sum_cons, List.length_cons, Nat.cast_add, Nat.cast_one,
      List.mem_cons, forall_eq_or_imp]
    refine ⟨by linarith, by linarith, ?_⟩
    rw [← h3]
    constructor
    · intro e; constructor <;> linarith
    · rintro ⟨e1, e2⟩; rw [e1, e2]; ring

theorem mannWhitney_bounds (ps ns : List K) :
    0 ≤ mannWhitney ps ns ∧ mannWhitney ps ns ≤ ps.length * ns.length ∧
      (mannWhitney ps ns = ps.length * ns.length ↔ ∀ p ∈ ps, ∀ q ∈ ns, q < p) := by
  unfold mannWhitney
  induction ps with
  | nil => simp
  | cons p ps ih =>
    obtain ⟨h1, h2, h3⟩ := ih
    obtain ⟨g1, g2, g3⟩ := sum_le_length ns
      (fun q => if q < p then (1 : K) else if p = q then 1 / 2 else 0)
      (fun q _ => ⟨(cmp_bounds p q).1, (cmp_bounds p q).2.1⟩)
    simp only [(cmp_bounds p _).2.2] at g3
    simp only [List.map_cons, List.sum_cons, List.length_cons, Nat.cast_add, Nat.cast_one,
      List.mem_cons, forall_eq_or_imp, add_mul, one_mul]
    refine ⟨by linarith, by linarith, ?_⟩
    rw [← h3, ← g3]
    constructor
    · intro e; constructor <;> linarith
    · rintro ⟨e1, e2⟩; rw [e1, e2]; ring

theorem mannWhitney_map (f : K → K) (hf : StrictMono f) (ps ns : List K) :
    mannWhitney (ps.map f) (ns.map f) = mannWhitney ps ns := by
  unfold mannWhitney
  simp only [List.map_map, Function.comp_def, hf.lt_iff_lt, hf.injective.eq_iff]

theorem cmp_swap (p q : K) : (if q < p then (1 : K) else if p = q then 1 / 2 else 0)
    = 1 - (if p < q then (1 : K) else if q = p then 1 / 2 else 0) := by
  rcases lt_trichotomy p q with h | h | h
  · simp [h, h.not_gt, h.ne]
  · subst h; simp; norm_num
  · simp [h, h.not_gt, h.ne]

theorem sum_one_sub {β : Type _} (l : List β) (f : β → K) :
    (l.map (fun x => 1 - f x)).sum = l.length - (l.map f).sum := by
  induction l with
  | nil => simp
  | cons x l ih => simp only [List.map_cons, List.sum_cons, ih, List.length_cons]; push_cast; ring

theorem mannWhitney_comp (g : K → K → K) (h : K → K → K) (hh : ∀ p q, g p q = 1 - h p q)
    (ps ns : List K) :
    (ps.map (fun p => (ns.map (fun q => g p q)).sum)).sum
      = ps.length * ns.length - (ps.map (fun p => (ns.map (fun q => h p q)).sum)).sum := by
  induction ps with
  | nil => simp
  | cons p ps ih =>
    simp only [List.map_cons, List.sum_cons, ih, List.length_cons]
    have := sum_one_sub ns (fun q => h p q)
    simp only [hh p]
    rw [this]; push_cast; ring

theorem sum_swap (g : K → K → K) (ps ns : List K) :
    (ps.map (fun p => (ns.map (fun q => g p q)).sum)).sum
      = (ns.map (fun q => (ps.map (fun p => g p q)).sum)).sum := by
  induction ps with
  | nil => simp
  | cons p ps ih =>
    simp only [List.map_cons, List.sum_cons, ih]
    rw [← List.sum_map_add]

theorem mannWhitney_swap (ps ns : List K) :
    mannWhitney ns ps = ps.length * ns.length - mannWhitney ps ns := by
  unfold mannWhitney
  rw [sum_swap]
  exact mannWhitney_comp _ _ (fun p q => cmp_swap q p) ps ns

theorem mannWhitney_neg (ps ns : List K) :
    mannWhitney (ps.map (fun x => -x)) (ns.map (fun x => -x))
      = ps.length * ns.length - mannWhitney ps ns := by
  unfold mannWhitney
  simp only [List.map_map, Function.comp_def, neg_lt_neg_iff, neg_inj]
  apply mannWhitney_comp
  intro p q
  rw [cmp_swap p q, sub_sub_cancel]
  by_cases h : p = q
  · simp [h]
  · simp [h, Ne.symm h]

end K

end Scigo.Metrics
