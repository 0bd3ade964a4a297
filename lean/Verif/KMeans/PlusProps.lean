import Verif.KMeans.Props

/-!
# Where mini-batch k-means starts

Property C281: the initial centres are distinct rows of the data. Exact arithmetic; the generator is arbitrary.
-/

set_option linter.unusedSectionVars false

namespace Scigo.KMeans

open Spec

section
variable {K : Type _} [Field K] [LinearOrder K] [IsStrictOrderedRing K]

/-- `d` is the squared distance of `x` to the nearest of the centres -/
def NearestSq (centers : List (List K)) (x : List K) (d : K) : Prop :=
  (∃ c ∈ centers, d = sqDist x c) ∧ ∀ c ∈ centers, d ≤ sqDist x c

theorem pickIdx_spec (t : K) (ds : List K) (i : Nat) (cum : K) (h0 : ds ≠ []) (h : t ≤ cum + ds.sum) :
    ∃ n < ds.length, pickIdx t ds i cum = i + n ∧ t ≤ cum + (ds.take (n + 1)).sum ∧
      ∀ m < n, cum + (ds.take (m + 1)).sum < t := by
  induction ds generalizing i cum with
  | nil => exact absurd rfl h0
  | cons d ds ih =>
    unfold pickIdx
    by_cases hd : t ≤ cum + d
    · exact ⟨0, by simp, by rw [if_pos hd]; rfl, by simpa using hd, fun m hm => absurd hm (by omega)⟩
    · rw [if_neg hd]
      have h1 : ds ≠ [] := by
        rintro rfl
        simp at h
        exact hd h
      obtain ⟨n, hn, e, a, b⟩ := ih (i + 1) (cum + d) h1 (by simpa [add_assoc] using h)
      refine ⟨n + 1, by simpa using hn, by rw [e]; omega, by simpa [add_assoc] using a, fun m hm => ?_⟩
      rcases m with _ | m
      · simpa using hd
      · simpa [add_assoc] using b m (by omega)

theorem minScan (f : List K → K) (inf : K) (cs : List (List K)) :
    let m := cs.foldl (fun m c => if f c < m then f c else m) inf
    m ≤ inf ∧ (∀ c ∈ cs, m ≤ f c) ∧ (m = inf ∨ ∃ c ∈ cs, m = f c) := by
  induction cs using List.reverseRecOn with
  | nil => exact ⟨le_refl _, by simp, .inl rfl⟩
  | append_singleton cs c ih =>
    dsimp only at ih ⊢
    rw [List.foldl_append]
    simp only [List.foldl_cons, List.foldl_nil]
    obtain ⟨a, b, d⟩ := ih
    set m := cs.foldl (fun m c => if f c < m then f c else m) inf
    by_cases hc : f c < m
    · rw [if_pos hc]
      refine ⟨by linarith, fun c' hc' => ?_, .inr ⟨c, by simp, rfl⟩⟩
      rcases List.mem_append.1 hc' with h | h
      · exact (hc.trans_le (b c' h)).le
      · rw [List.mem_singleton.1 h]
    · rw [if_neg hc]
      refine ⟨a, fun c' hc' => ?_, d.imp id fun ⟨c', h, e⟩ => ⟨c', by simp [h], e⟩⟩
      rcases List.mem_append.1 hc' with h | h
      · exact b c' h
      · rw [List.mem_singleton.1 h]; exact not_lt.1 hc

theorem minSq_nearest {sqrt : K → K} (hs : IsSqrt sqrt) {inf : K} {cs : List (List K)} (h0 : cs ≠ []) {x : List K}
    (hl : ∀ c ∈ cs, x.length = c.length) (hi : ∀ c ∈ cs, sqrt (sqDist x c) < inf) :
    NearestSq cs x (minSq sqrt inf cs x) := by
  unfold minSq
  obtain ⟨a, b, d⟩ := minScan (dist sqrt inf x) inf cs
  dsimp only at a b d ⊢
  set m := cs.foldl (fun m c => if dist sqrt inf x c < m then dist sqrt inf x c else m) inf
  have hd : ∃ c ∈ cs, m = dist sqrt inf x c := by
    rcases d with d | d
    · obtain ⟨c, hc⟩ := List.exists_mem_of_ne_nil _ h0
      have := b c hc
      rw [dist_eq _ _ _ _ (hl c hc)] at this
      have := hi c hc
      linarith
    · exact d
  obtain ⟨c, hc, e⟩ := hd
  rw [dist_eq _ _ _ _ (hl c hc)] at e
  obtain ⟨s0, s1⟩ := hs _ (sqDist_nonneg x c)
  have em : m * m = sqDist x c := by rw [e, s1]
  refine ⟨⟨c, hc, em⟩, fun c' hc' => ?_⟩
  have h1 := b c' hc'
  rw [dist_eq _ _ _ _ (hl c' hc'), e] at h1
  rw [em]
  exact (isSqrt_le hs (sqDist_nonneg _ _) (sqDist_nonneg _ _)).1 h1

theorem sqDist_self (x : List K) : sqDist x x = 0 := by
  unfold sqDist
  rw [List.zipWith_self]
  simp

theorem sqDist_eq_zero {x y : List K} (hl : x.length = y.length) (h : sqDist x y = 0) : x = y := by
  induction x generalizing y with
  | nil => exact (List.length_eq_zero_iff.1 hl.symm).symm
  | cons a x ih =>
    rcases y with _ | ⟨b, y⟩
    · simp at hl
    · have h1 : (a - b) * (a - b) + sqDist x y = 0 := by simpa [sqDist] using h
      have h2 := mul_self_nonneg (a - b)
      have h3 := sqDist_nonneg x y
      have h4 : (a - b) * (a - b) = 0 := by linarith
      have h5 := sub_eq_zero.1 (mul_self_eq_zero.1 h4)
      rw [h5, ih (by simpa using hl) (by linarith)]

/-- the sum of the first entries of a list of squared distances -/
private theorem sum_take_succ (ds : List K) (n : Nat) (hn : n < ds.length) : (ds.take (n + 1)).sum = (ds.take n).sum + ds[n] := by
  rw [List.take_add_one, List.sum_append, List.getElem?_eq_getElem hn]
  simp

/-- **C281** (exact arithmetic) One k-means++ draw: with `d i` the squared distance of row `i` to the nearest of the centres so far and `u` the random number,
the new centre is the first row at which the running sum of the `d` reaches `u` times their total. So for `u` uniform a row is chosen with probability
proportional to `d`; and unless `u = 0` it is a row that is not a centre yet, as long as there is one. -/
theorem plusplus_draw {sqrt : K → K} (hs : IsSqrt sqrt) {inf : K} (o : Rng K) {rows : List (List K)} {c : Nat}
    (hc : ∀ x ∈ rows, x.length = c) (hi : ∀ x ∈ rows, ∀ y ∈ rows, sqrt (sqDist x y) < inf)
    (r : List (List K) × Nat) (hr : ∀ x ∈ r.1, x ∈ rows) (hr0 : r.1 ≠ [])
    (hu : 0 ≤ (o.flt r.2).1 ∧ (o.flt r.2).1 < 1) :
    ∃ ds : List K, ds.length = rows.length ∧ (∀ i (h : i < rows.length) (h' : i < ds.length), NearestSq r.1 rows[i] ds[i]) ∧
      ∃ n, ∃ h : n < rows.length, (ppNext sqrt inf o rows r).1 = r.1 ++ [rows[n]] ∧ (ppNext sqrt inf o rows r).2 = (o.flt r.2).2 ∧
        (o.flt r.2).1 * ds.sum ≤ (ds.take (n + 1)).sum ∧ (∀ m < n, (ds.take (m + 1)).sum < (o.flt r.2).1 * ds.sum) ∧
        (0 < (o.flt r.2).1 → (∃ x ∈ rows, x ∉ r.1) → rows[n] ∉ r.1) := by
  have hnear : ∀ x ∈ rows, NearestSq r.1 x (minSq sqrt inf r.1 x) := fun x hx =>
    minSq_nearest hs hr0 (fun y hy => (hc x hx).trans (hc y (hr y hy)).symm) (fun y hy => hi x hx y (hr y hy))
  have hnn : ∀ d ∈ rows.map (minSq sqrt inf r.1), 0 ≤ d := by
    intro d hd
    obtain ⟨x, hx, rfl⟩ := List.mem_map.1 hd
    obtain ⟨⟨y, _, e⟩, _⟩ := hnear x hx
    rw [e]; exact sqDist_nonneg _ _
  obtain ⟨c0, hc0⟩ := List.exists_mem_of_ne_nil _ hr0
  have hrows : rows ≠ [] := List.ne_nil_of_mem (hr c0 hc0)
  refine ⟨rows.map (minSq sqrt inf r.1), by simp, fun i h h' => by simpa using hnear _ (List.getElem_mem h), ?_⟩
  set ds := rows.map (minSq sqrt inf r.1) with hds
  have hsum : ds.foldl (· + ·) 0 = ds.sum := List.sum_eq_foldl.symm
  have hs0 : 0 ≤ ds.sum := List.sum_nonneg hnn
  have hds0 : ds ≠ [] := by simpa [hds] using hrows
  obtain ⟨n, hn, e, ha, hb⟩ := pickIdx_spec ((o.flt r.2).1 * ds.sum) ds 0 0 hds0 (by nlinarith [hu.1, hu.2])
  have hn' : n < rows.length := by simpa [hds] using hn
  simp only [zero_add] at e ha hb
  refine ⟨n, hn', ?_, rfl, ha, hb, fun hup hex hmem => ?_⟩
  · unfold ppNext
    dsimp only
    rw [← hds, hsum, e, List.getD_eq_getElem _ _ hn']
  · -- the chosen row is a centre, so its distance is zero
    have hz : ds[n] = 0 := by
      obtain ⟨⟨y, hy, e1⟩, e2⟩ := hnear rows[n] (List.getElem_mem hn')
      have h1 := e2 _ hmem
      rw [sqDist_self] at h1
      have h2 := hnn ds[n] (List.getElem_mem hn)
      have h3 : ds[n] = minSq sqrt inf r.1 rows[n] := by simp [hds]
      rw [h3] at h2 ⊢
      linarith
    rw [sum_take_succ ds n hn, hz, add_zero] at ha
    rcases n with _ | n
    · simp only [List.take_zero, List.sum_nil] at ha
      obtain ⟨x, hx, hxn⟩ := hex
      have hpos : 0 < ds.sum := by
        have hx' : minSq sqrt inf r.1 x ∈ ds := List.mem_map_of_mem hx
        have hle := List.single_le_sum hnn _ hx'
        obtain ⟨⟨y, hy, e1⟩, _⟩ := hnear x hx
        have h0 : 0 ≤ minSq sqrt inf r.1 x := hnn _ hx'
        rcases h0.lt_or_eq with h | h
        · linarith
        · rw [e1] at h
          have := sqDist_eq_zero ((hc x hx).trans (hc y (hr y hy)).symm) h.symm
          rw [this] at hxn
          exact absurd hy hxn
      have := mul_pos hup hpos
      linarith
    · have := hb n (by omega)
      linarith

theorem ppMore_nodup {sqrt : K → K} (hs : IsSqrt sqrt) {inf : K} (o : Rng K) {rows : List (List K)} {c : Nat}
    (hc : ∀ x ∈ rows, x.length = c) (hi : ∀ x ∈ rows, ∀ y ∈ rows, sqrt (sqDist x y) < inf)
    (hu : ∀ pos, 0 < (o.flt pos).1 ∧ (o.flt pos).1 < 1) (S : List (List K)) (hS : S.Nodup) (hSr : ∀ x ∈ S, x ∈ rows)
    (k : Nat) (r : List (List K) × Nat) (hr : ∀ x ∈ r.1, x ∈ rows) (hr0 : r.1 ≠ []) (hnd : r.1.Nodup) (hk : r.1.length + k ≤ S.length) :
    (ppMore sqrt inf o rows k r).1.Nodup := by
  induction k generalizing r with
  | zero => exact hnd
  | succ k ih =>
    unfold ppMore
    obtain ⟨_, _, _, n, hn, e, _, _, _, hnew⟩ := plusplus_draw hs o hc hi r hr hr0 ⟨(hu r.2).1.le, (hu r.2).2⟩
    have hex : ∃ x ∈ rows, x ∉ r.1 := by
      by_contra hcon
      push Not at hcon
      have := (hS.subperm fun x hx => hcon x (hSr x hx)).length_le
      omega
    have hnot := hnew (hu r.2).1 hex
    apply ih
    · intro x hx
      rw [e] at hx
      rcases List.mem_append.1 hx with h | h
      · exact hr x h
      · rw [List.mem_singleton.1 h]; exact List.getElem_mem hn
    · rw [e]; simp
    · rw [e, List.nodup_append]
      exact ⟨hnd, by simp, fun a ha b hb => by rw [List.mem_singleton.1 hb]; rintro rfl; exact hnot ha⟩
    · rw [e]; simp; omega

/-- **C281** (partial; exact arithmetic) With k-means++ (the default), if the data have at least as many distinct rows as there are clusters and no random number is exactly 0,
the initial centres are that many distinct rows. Missing: the random initialisation (`random_start_repeats`) and random numbers that are exactly 0
(`plusplus_zero_draw_repeats`). -/
theorem distinct_start_partial {sqrt : K → K} (hs : IsSqrt sqrt) {inf : K} (o : Rng K) (P : Params K) (hP : P.init ≠ "random") (h0 : 0 < P.nClusters)
    {rows : List (List K)} {c : Nat} (hc : ∀ x ∈ rows, x.length = c) (hi : ∀ x ∈ rows, ∀ y ∈ rows, sqrt (sqDist x y) < inf)
    (hu : ∀ pos, 0 < (o.flt pos).1 ∧ (o.flt pos).1 < 1) (S : List (List K)) (hS : S.Nodup) (hSr : ∀ x ∈ S, x ∈ rows) (hk : P.nClusters ≤ S.length) (pos : Nat) :
    ∃ r, initCenters sqrt inf o P rows pos = .ok r ∧ r.1.length = P.nClusters ∧ r.1.Nodup ∧ ∀ x ∈ r.1, x ∈ rows := by
  have hrows : rows ≠ [] := by
    obtain ⟨x, hx⟩ := List.exists_mem_of_length_pos (show 0 < S.length by omega)
    exact List.ne_nil_of_mem (hSr x hx)
  obtain ⟨r, e, hl, hm⟩ := initCenters_spec sqrt inf o P h0 hrows pos
  refine ⟨r, e, hl, ?_, hm⟩
  unfold initCenters at e
  rw [if_neg hP] at e
  obtain ⟨k, hk'⟩ : ∃ k, P.nClusters = k + 1 := ⟨P.nClusters - 1, by omega⟩
  have hl := List.length_pos_iff.2 hrows
  simp only [hk', intN, if_neg hl.ne', Outcome.map_ok, Outcome.ok.injEq] at e
  rw [← e]
  apply ppMore_nodup hs o hc hi hu S hS hSr
  · intro x hx
    rw [List.mem_singleton.1 hx, List.getD_eq_getElem _ _ (Nat.mod_lt _ hl)]
    exact List.getElem_mem _
  · simp
  · simp
  · simp; omega

end

/-- **C281** is false for `init = "random"`: rows are drawn with replacement, so whenever two draws agree two clusters start from the same row — for every data set, however many distinct rows
it has. -/
theorem random_start_repeats {α : Type} [Add α] [Sub α] [Mul α] [Div α] [Zero α] [One α] [NatCast α] [LT α] [LE α] [DecidableLT α] [DecidableLE α]
    (sqrt : α → α) (inf : α) (o : Rng α) (P : Params α) (hP : P.init = "random") (h2 : P.nClusters = 2) (rows : List (List α)) (h0 : rows ≠ []) (pos : Nat)
    (hsame : (o.int pos rows.length).1 % rows.length = (o.int (o.int pos rows.length).2 rows.length).1 % rows.length) :
    ∃ x pos', x ∈ rows ∧ initCenters sqrt inf o P rows pos = .ok ([x, x], pos') := by
  have hl := List.length_pos_iff.2 h0
  refine ⟨rows.getD ((o.int pos rows.length).1 % rows.length) [], (o.int (o.int pos rows.length).2 rows.length).2, ?_, ?_⟩
  rotate_left
  · unfold initCenters
    rw [if_pos hP, h2]
    simp only [initRandom, intN, if_neg hl.ne', Outcome.bind_ok, List.nil_append]
    rw [← hsame]
    rfl
  · rw [List.getD_eq_getElem _ _ (Nat.mod_lt _ hl)]
    exact List.getElem_mem _

/-- **C281** is false when a random number is exactly 0, which `Float64` can return: the first row is taken again although there is another one. -/
theorem plusplus_zero_draw_repeats : ∃ (o : Rng ℝ) (rows : List (List ℝ)) (P : Params ℝ), P.init = "k-means++" ∧ P.nClusters = 2 ∧ rows.Nodup ∧ rows.length = 2 ∧
    (∀ pos, 0 ≤ (o.flt pos).1 ∧ (o.flt pos).1 < 1) ∧
    ∃ pos', initCenters Real.sqrt 1000 o P rows 0 = .ok ([[0], [0]], pos') := by
  refine ⟨⟨fun _ _ => 0, fun s => (0, s), fun s _ => (0, s), fun s => (0, s), fun s => (0, s)⟩, [[0], [1]], ⟨2, "k-means++", 5, 2, true, 0, 10, 3⟩, rfl, rfl, by simp, rfl,
    fun _ => ⟨le_refl _, one_pos⟩, 0, ?_⟩
  have h0 : dist Real.sqrt 1000 ([0] : List ℝ) [0] = 0 := by simp [dist]
  simp [initCenters, intN, ppMore, ppNext, pickIdx, minSq, h0]

/-- the hypotheses of `distinct_start_partial` are met by three points on a line -/
example : ∃ r, initCenters Real.sqrt 1000 ⟨fun _ _ => 0, fun s => (0, s), fun s _ => (0, s), fun s => (0, s), fun s => (1 / 2, s)⟩
    (⟨2, "k-means++", 5, 2, true, 0, 10, 3⟩ : Params ℝ) [[0], [1], [4]] 0 = .ok r ∧ r.1.length = 2 ∧ r.1.Nodup ∧ ∀ x ∈ r.1, x ∈ [[0], [1], [(4 : ℝ)]] := by
  refine distinct_start_partial (c := 1) (fun a ha => ⟨Real.sqrt_nonneg a, Real.mul_self_sqrt ha⟩) _ _ (by decide) (show 0 < 2 by omega) (by simp) ?_
    (fun _ => ⟨by norm_num, by norm_num⟩) [[0], [1], [4]] (by norm_num) (fun x hx => hx) (show 2 ≤ 3 by omega) 0
  intro x hx y hy
  have hb : sqDist x y ≤ 16 := by
    simp only [List.mem_cons, List.not_mem_nil, or_false] at hx hy
    rcases hx with rfl | rfl | rfl <;> rcases hy with rfl | rfl | rfl <;> norm_num [sqDist]
  have := Real.sqrt_le_sqrt hb
  have h4 : Real.sqrt 16 = 4 := by rw [show (16 : ℝ) = 4 * 4 by norm_num, Real.sqrt_mul_self (by norm_num)]
  rw [h4] at this
  linarith

end Scigo.KMeans
