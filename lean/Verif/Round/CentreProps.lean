import Verif.KMeans.Props
import Verif.Round.CountProps
import Verif.Round.ErrorProps
import Verif.Base.Binary64Add

/-!
# C288: centres of mini-batch k-means with every operation rounded

In exact arithmetic every centre stays inside the box of the data (C36). With rounding it does not: the update
`(1 - eta) * centre + eta * sample` can step outside. Here: by how much at most, and a witness.
-/

set_option linter.unusedSectionVars false

namespace Scigo.Round

open Scigo.KMeans Scigo.KMeans.Spec

variable {K : Type _} [Field K] [LinearOrder K] [IsStrictOrderedRing K] {R : Rounding K} {eps eta : K}

/-- the vector has `c` coordinates, coordinate `j` at most `e j` outside `[lo j, hi j]` -/
def NearBox (lo hi e : Nat → K) (c : Nat) (x : List (Fl R)) : Prop :=
  x.length = c ∧ ∀ j < c, lo j - e j ≤ (x.getD j 0).val ∧ (x.getD j 0).val ≤ hi j + e j

/-- how far a coordinate with values of size at most `M` can be off after `n` samples -/
def drift (eps eta : K) (n : Nat) (M : K) : K := (1 + eps) ^ (3 * n) * (M + 2 * n * eta) - M

theorem move_error (he : 0 ≤ eps) (hη : 0 ≤ eta) (hR : R.Accurate eps eta) (hA : R.AddAccurate eps) (t v x : Fl R) (ht0 : 0 ≤ t.val) (ht1 : t.val ≤ 1)
    {A : K} (hv : |v.val| ≤ A) (hx : |x.val| ≤ A) :
    |((1 - t) * v + t * x).val - ((1 - t.val) * v.val + t.val * x.val)| ≤ ((1 + eps) ^ 3 - 1) * A + 2 * (1 + eps) * eta := by
  have hA0 : 0 ≤ A := le_trans (abs_nonneg _) hv
  obtain ⟨s, hs⟩ : ∃ s, s = 1 - t.val := ⟨_, rfl⟩
  have hs0 : 0 ≤ s := by linarith
  obtain ⟨a, ha⟩ : ∃ a, a = (1 - t).val := ⟨_, rfl⟩
  have ea : |a - s| ≤ eps * s := by
    have := hA.sub 1 t.val R.one t.rep
    rw [← hs, abs_of_nonneg hs0] at this
    rwa [ha, Fl.val_sub, Fl.val_one, ← hs]
  obtain ⟨p, hp⟩ : ∃ p, p = ((1 - t) * v).val := ⟨_, rfl⟩
  obtain ⟨q, hq⟩ : ∃ q, q = (t * x).val := ⟨_, rfl⟩
  have haa : |a| ≤ (1 + eps) * s := by
    have := abs_near ea
    rw [abs_of_nonneg hs0] at this
    linarith
  have e1 : |p - a * v.val| ≤ eps * ((1 + eps) * s * A) + eta := by
    have h := hR (a * v.val)
    have h' : |a * v.val| ≤ (1 + eps) * s * A := by
      rw [abs_mul]
      exact mul_le_mul haa hv (abs_nonneg _) (le_trans (abs_nonneg _) haa)
    have e : p = R.rnd (a * v.val) := by rw [hp, Fl.val_mul, ha]
    rw [e]
    exact h.trans (by have := mul_le_mul_of_nonneg_left h' he; linarith)
  have e2 : |a * v.val - s * v.val| ≤ eps * s * A := by
    rw [← sub_mul, abs_mul]
    exact mul_le_mul ea hv (abs_nonneg _) (by positivity)
  have e3 : |q - t.val * x.val| ≤ eps * (t.val * A) + eta := by
    have h := hR (t.val * x.val)
    have h' : |t.val * x.val| ≤ t.val * A := by
      rw [abs_mul, abs_of_nonneg ht0]
      exact mul_le_mul_of_nonneg_left hx ht0
    rw [hq, Fl.val_mul]
    exact h.trans (by have := mul_le_mul_of_nonneg_left h' he; linarith)
  have e4 : |s * v.val + t.val * x.val| ≤ A := by
    refine (abs_add_le _ _).trans ?_
    rw [abs_mul, abs_mul, abs_of_nonneg hs0, abs_of_nonneg ht0]
    have h1 := mul_le_mul_of_nonneg_left hv hs0
    have h2 := mul_le_mul_of_nonneg_left hx ht0
    have : s * A + t.val * A = A := by rw [hs]; ring
    linarith
  have hsA : s * A + t.val * A = A := by rw [hs]; ring
  have e5 : |(p + q) - (s * v.val + t.val * x.val)| ≤ ((1 + eps) ^ 2 - 1) * A + 2 * eta := by
    have : (p + q) - (s * v.val + t.val * x.val) = (p - a * v.val) + (a * v.val - s * v.val) + (q - t.val * x.val) := by ring
    rw [this]
    refine (abs_add_le _ _).trans ((add_le_add_left (abs_add_le _ _) _).trans ?_)
    have h3 : 0 ≤ (eps + eps * eps) * (t.val * A) := by positivity
    have : ((1 + eps) ^ 2 - 1) * A = ((1 + eps) ^ 2 - 1) * (s * A + t.val * A) := by rw [hsA]
    nlinarith [e1, e2, e3]
  have e6 := hA p q (by rw [hp]; exact Fl.rep _) (by rw [hq]; exact Fl.rep _)
  have e7 : |p + q| ≤ (1 + eps) ^ 2 * A + 2 * eta := by
    have := abs_near e5
    linarith
  have e8 := mul_le_mul_of_nonneg_left e7 he
  have e9 : ((1 - t) * v + t * x).val = R.rnd (p + q) := by rw [Fl.val_add, hp, hq]
  rw [e9, ← hs]
  calc |R.rnd (p + q) - (s * v.val + t.val * x.val)|
      ≤ |R.rnd (p + q) - (p + q)| + |(p + q) - (s * v.val + t.val * x.val)| := abs_sub_le _ _ _
    _ ≤ _ := by nlinarith [e6, e8, e5]

theorem drift_zero (M : K) : drift eps eta 0 M = 0 := by simp [drift]

theorem drift_nonneg (he : 0 ≤ eps) (hη : 0 ≤ eta) (n : Nat) {M : K} (hM : 0 ≤ M) : 0 ≤ drift eps eta n M := by
  have h := grow he (3 * n)
  have h1 : 0 ≤ 2 * (n : K) * eta := by positivity
  unfold drift
  nlinarith

theorem drift_succ (he : 0 ≤ eps) (hη : 0 ≤ eta) (n : Nat) (M : K) :
    drift eps eta n M + (((1 + eps) ^ 3 - 1) * (M + drift eps eta n M) + 2 * (1 + eps) * eta) ≤ drift eps eta (n + 1) M := by
  have h : 1 + eps ≤ (1 + eps) ^ (3 * (n + 1)) := by
    have := pow_le_pow_right₀ (by linarith : (1 : K) ≤ 1 + eps) (show 1 ≤ 3 * (n + 1) by omega)
    rwa [pow_one] at this
  have e : (1 + eps) ^ (3 * (n + 1)) = (1 + eps) ^ (3 * n) * (1 + eps) ^ 3 := by rw [← pow_add]; congr 1
  have h' := mul_le_mul_of_nonneg_right h (by linarith : 0 ≤ 2 * eta)
  unfold drift
  push_cast
  rw [e] at h' ⊢
  nlinarith

theorem move_near (he : 0 ≤ eps) (hη : 0 ≤ eta) (hR : R.Accurate eps eta) (hA : R.AddAccurate eps) {lo hi : Nat → K} {c : Nat} (t : Fl R)
    (ht0 : 0 ≤ t.val) (ht1 : t.val ≤ 1) (n : Nat) {v x : List (Fl R)}
    (hv : NearBox lo hi (fun j => drift eps eta n (max |lo j| |hi j|)) c v) (hx : NearBox lo hi (fun _ => 0) c x) :
    NearBox lo hi (fun j => drift eps eta (n + 1) (max |lo j| |hi j|)) c (move t v x) := by
  refine ⟨by simp [move, hv.1, hx.1], ?_⟩
  intro j hj
  have e : (move t v x).getD j 0 = (1 - t) * v.getD j 0 + t * x.getD j 0 := by
    have hjv : j < v.length := by rw [hv.1]; exact hj
    have hjx : j < x.length := by rw [hx.1]; exact hj
    rw [List.getD_eq_getElem _ _ (by simp [move, hv.1, hx.1, hj]), List.getD_eq_getElem _ _ hjv, List.getD_eq_getElem _ _ hjx]
    simp only [move]
    rw [List.getElem_append_left (by simp; omega)]
    simp
  rw [e]
  obtain ⟨a1, a2⟩ := hv.2 j hj
  obtain ⟨b1, b2⟩ := hx.2 j hj
  dsimp only at a1 a2 b1 b2 ⊢
  generalize v.getD j 0 = w at *
  generalize x.getD j 0 = y at *
  obtain ⟨M, hM⟩ : ∃ M, M = max |lo j| |hi j| := ⟨_, rfl⟩
  have l1 : |lo j| ≤ M := by rw [hM]; exact le_max_left _ _
  have l2 : |hi j| ≤ M := by rw [hM]; exact le_max_right _ _
  rw [← hM] at a1 a2 ⊢
  have hM0 : 0 ≤ M := le_trans (abs_nonneg _) l1
  have hd := drift_nonneg he hη n hM0
  have hw : |w.val| ≤ M + drift eps eta n M := by
    rw [abs_le] at l1 l2 ⊢
    constructor <;> linarith [l1.1, l1.2, l2.1, l2.2]
  have hy : |y.val| ≤ M + drift eps eta n M := by
    rw [abs_le] at l1 l2 ⊢
    constructor <;> linarith [l1.1, l1.2, l2.1, l2.2]
  have h := abs_le.1 (move_error he hη hR hA t w y ht0 ht1 hw hy)
  have hs := drift_succ he hη n M
  have ht : 0 ≤ 1 - t.val := by linarith
  have c1 := mul_le_mul_of_nonneg_left a1 ht
  have c2 := mul_le_mul_of_nonneg_left a2 ht
  have c3 := mul_le_mul_of_nonneg_left b1 ht0
  have c4 := mul_le_mul_of_nonneg_left b2 ht0
  have c5 : 0 ≤ t.val * drift eps eta n M := by positivity
  constructor
  · nlinarith [h.1]
  · nlinarith [h.2]

theorem NearBox.mono {lo hi e e' : Nat → K} {c : Nat} {x : List (Fl R)} (h : NearBox lo hi e c x) (he : ∀ j < c, e j ≤ e' j) : NearBox lo hi e' c x :=
  ⟨h.1, fun j hj => by obtain ⟨a, b⟩ := h.2 j hj; have := he j hj; constructor <;> linarith⟩

theorem nearest_lt {α : Type _} [Add α] [Sub α] [Mul α] [Zero α] [LT α] [DecidableLT α] (sqrt : α → α) (inf : α) (x : List α)
    {cs : List (List α)} (h : cs ≠ []) : nearest sqrt inf x cs < cs.length := by
  have key : ∀ (l : List (List α × Nat)) (b : α × Nat), b.2 < cs.length → (∀ p ∈ l, p.2 < cs.length) →
      (l.foldl (fun (b : α × Nat) p => if dist sqrt inf x p.1 < b.1 then (dist sqrt inf x p.1, p.2) else b) b).2 < cs.length := by
    intro l
    induction l with
    | nil => intro b hb _; exact hb
    | cons p l ih =>
      intro b hb hl
      rw [List.foldl_cons]
      refine ih _ ?_ (fun q hq => hl q (List.mem_cons_of_mem _ hq))
      split
      · exact hl p List.mem_cons_self
      · exact hb
  refine key _ _ (List.length_pos_iff.2 h) fun p hp => ?_
  have := List.mem_zipIdx hp
  omega

theorem steps_near (he : 0 ≤ eps) (hη : 0 ≤ eta) (hR : R.Accurate eps eta) (hA : R.AddAccurate eps) (sqrt : Fl R → Fl R) (inf : Fl R)
    {lo hi : Nat → K} {c : Nat} (xs : List (List (Fl R))) (hxs : ∀ x ∈ xs, NearBox lo hi (fun _ => 0) c x) (n : Nat)
    (cs : List (List (Fl R)) × List Nat) (h0 : cs.1 ≠ []) (hl : cs.2.length = cs.1.length)
    (hb : ∀ v ∈ cs.1, NearBox lo hi (fun j => drift eps eta n (max |lo j| |hi j|)) c v) :
    ∃ r, steps sqrt inf cs xs = .ok r ∧ r.1.length = cs.1.length ∧ r.2.length = cs.2.length ∧
      ∀ v ∈ r.1, NearBox lo hi (fun j => drift eps eta (n + xs.length) (max |lo j| |hi j|)) c v := by
  induction xs generalizing cs n with
  | nil => exact ⟨cs, rfl, rfl, rfl, hb⟩
  | cons x xs ih =>
    have hx := hxs x List.mem_cons_self
    have hn := nearest_lt sqrt inf x h0
    obtain ⟨k, hkd⟩ : ∃ k, nearest sqrt inf x cs.1 = k := ⟨_, rfl⟩
    rw [hkd] at hn
    have hcond : k < cs.2.length ∧ k < cs.1.length ∧ x.length ≤ (cs.1.getD k []).length := by
      refine ⟨hl ▸ hn, hn, ?_⟩
      rw [List.getD_eq_getElem _ _ hn, (hb _ (List.getElem_mem _)).1, hx.1]
    obtain ⟨m, hm⟩ : ∃ m : Nat, (cs.2.modify k (· + 1)).getD k 0 = m + 1 := by
      rw [List.getD_eq_getElem _ _ (by simpa using hcond.1)]
      simp
    have hstep : step sqrt inf cs x = .ok (cs.1.modify k (fun v => move (1 / ((m + 1 : Nat) : Fl R)) v x), cs.2.modify k (· + 1)) := by
      unfold step
      simp only [hkd, if_pos hcond, hm]
    have hone : (0 : Fl R) ≤ 1 := (zero_le_one : (0 : K) ≤ 1)
    have he0 : 0 ≤ (1 / ((m + 1 : Nat) : Fl R)).val := Fl.div_nonneg' hone (Fl.natCast_nonneg' _)
    have he1 : (1 / ((m + 1 : Nat) : Fl R)).val ≤ 1 := Fl.div_le_one' hone (Fl.one_le_natCast (Nat.succ_pos m))
    obtain ⟨r, e1, e2, e3, e4⟩ := ih (fun y hy => hxs y (List.mem_cons_of_mem _ hy)) (n + 1)
        (cs.1.modify k (fun v => move (1 / ((m + 1 : Nat) : Fl R)) v x), cs.2.modify k (· + 1)) (by
          intro e
          have := congrArg List.length e
          simp at this
          exact h0 this) (by simpa using hl) (by
          intro v hv
          obtain ⟨i, hi', rfl⟩ := List.getElem_of_mem hv
          simp only [List.getElem_modify]
          simp only [List.length_modify] at hi'
          have hbi := hb _ (List.getElem_mem hi')
          split
          · exact move_near he hη hR hA _ he0 he1 n hbi hx
          · refine hbi.mono fun j _ => ?_
            have hM0 : 0 ≤ max |lo j| |hi j| := le_trans (abs_nonneg _) (le_max_left _ _)
            have h1 := drift_succ he hη n (max |lo j| |hi j|)
            have h2 := drift_nonneg he hη n hM0
            have h3 : 0 ≤ (1 + eps) ^ 3 - 1 := by linarith [grow he 3]
            have h4 : 0 ≤ ((1 + eps) ^ 3 - 1) * (max |lo j| |hi j| + drift eps eta n (max |lo j| |hi j|)) := mul_nonneg h3 (by linarith)
            have h5 : 0 ≤ 2 * (1 + eps) * eta := by positivity
            linarith)
    refine ⟨r, ?_, by simpa using e2, by simpa using e3, ?_⟩
    · simp only [steps, List.foldl_cons, Outcome.bind_ok, hstep]
      exact e1
    · rw [List.length_cons, show n + (xs.length + 1) = n + 1 + xs.length by omega]
      exact e4

theorem runPartial_near (he : 0 ≤ eps) (hη : 0 ≤ eta) (hR : R.Accurate eps eta) (hA : R.AddAccurate eps) (sqrt : Fl R → Fl R) (inf : Fl R)
    (o : Rng (Fl R)) (P : Params (Fl R)) {lo hi : Nat → K} {c : Nat} (Xs : List (Mat (Fl R))) (hw : ∀ Y ∈ Xs, Y.c = c)
    (hX : ∀ Y ∈ Xs, ∀ x ∈ rowsOf Y, NearBox lo hi (fun _ => 0) c x) (n : Nat) (s : KM (Fl R)) (cs : List (List (Fl R))) (ns : List Nat)
    (h0 : cs ≠ []) (hl : ns.length = cs.length) (hc : s.centers = some cs) (hn : s.counts = some ns) (hf : s.nFeatures = c)
    (hb : ∀ v ∈ cs, NearBox lo hi (fun j => drift eps eta n (max |lo j| |hi j|)) c v) :
    (runPartial sqrt inf o P Xs s).2 = List.replicate Xs.length (.ok ()) ∧
    ∃ cs', (runPartial sqrt inf o P Xs s).1.centers = some cs' ∧ cs'.length = cs.length ∧
      ∀ v ∈ cs', NearBox lo hi (fun j => drift eps eta (n + (Xs.map (·.r)).sum) (max |lo j| |hi j|)) c v := by
  induction Xs generalizing n s cs ns with
  | nil => exact ⟨rfl, cs, hc, rfl, by simpa using hb⟩
  | cons X Xs ih =>
    obtain ⟨r, e1, e2, e3, e4⟩ := steps_near he hη hR hA sqrt inf (rowsOf X) (hX X List.mem_cons_self) n (cs, ns) h0 hl hb
    have hrun : s.partialFit sqrt inf o P X = ({ s with centers := some r.1, counts := some r.2, fitted := true }, .ok ()) := by
      simp [KM.partialFit, KM.begin, KM.update, hc, hn, hf, hw X List.mem_cons_self, e1]
    dsimp only at e2 e3
    have hne : r.1 ≠ [] := by
      rw [← List.length_pos_iff, e2]
      exact List.length_pos_iff.2 h0
    obtain ⟨i1, cs', i2, i3, i4⟩ := ih (fun Y hY => hw Y (List.mem_cons_of_mem _ hY)) (fun Y hY => hX Y (List.mem_cons_of_mem _ hY))
      (n + (rowsOf X).length) (s.partialFit sqrt inf o P X).1 r.1 r.2 hne (by omega) (by rw [hrun]) (by rw [hrun]) (by rw [hrun]; exact hf) e4
    refine ⟨?_, cs', i2, by omega, ?_⟩
    · simp only [runPartial, i1, List.length_cons, List.replicate_succ]
      rw [hrun]
    · rw [List.map_cons, List.sum_cons, show n + (X.r + (Xs.map (·.r)).sum) = n + (rowsOf X).length + (Xs.map (·.r)).sum by rw [rowsOf_length]; omega]
      exact i4

/-- **C288** (part that holds): train a fresh model by any sequence of `PartialFit` calls on tables of one width (the first with a row), with every
operation rounded. Every call succeeds, and after `n` rows in all every coordinate of every centre lies within
`(1 + eps) ^ (3 n) * (M + 2 n eta) - M` of the range of the data in that coordinate, `M` the largest size of a value there. Nothing is assumed about the
square root, so the bound holds whichever centre a row is assigned to. Missing: containment in the range itself, see `identical_rows_drift`. -/
theorem partialFit_near_range_partial (he : 0 ≤ eps) (hη : 0 ≤ eta) (hR : R.Accurate eps eta) (hA : R.AddAccurate eps) (sqrt : Fl R → Fl R)
    (inf : Fl R) (o : Rng (Fl R)) (g : Nat) (P : Params (Fl R)) (hk : 0 < P.nClusters) {lo hi : Nat → K} {c : Nat}
    (X : Mat (Fl R)) (Xs : List (Mat (Fl R))) (hr : 0 < X.r) (hw : ∀ Y ∈ X :: Xs, Y.c = c)
    (hX : ∀ Y ∈ X :: Xs, ∀ i < Y.r, ∀ j < c, lo j ≤ (Y.at' i j).val ∧ (Y.at' i j).val ≤ hi j) :
    (runPartial sqrt inf o P (X :: Xs) (KM.new g)).2 = List.replicate (Xs.length + 1) (.ok ()) ∧
    ∃ cs, (runPartial sqrt inf o P (X :: Xs) (KM.new g)).1.centers = some cs ∧ cs.length = P.nClusters ∧
      ∀ v ∈ cs, v.length = c ∧ ∀ j < c,
        lo j - ((1 + eps) ^ (3 * ((X :: Xs).map (·.r)).sum) * (max |lo j| |hi j| + 2 * (((X :: Xs).map (·.r)).sum : Nat) * eta) - max |lo j| |hi j|)
          ≤ (v.getD j 0).val ∧
        (v.getD j 0).val ≤
          hi j + ((1 + eps) ^ (3 * ((X :: Xs).map (·.r)).sum) * (max |lo j| |hi j| + 2 * (((X :: Xs).map (·.r)).sum : Nat) * eta) - max |lo j| |hi j|) := by
  have hrows : ∀ Y ∈ X :: Xs, ∀ x ∈ rowsOf Y, NearBox lo hi (fun _ => 0) c x := by
    intro Y hY x hx
    simp only [rowsOf, List.mem_map, List.mem_range] at hx
    obtain ⟨i, hi', rfl⟩ := hx
    have hl : (Y.row i).length = c := by rw [← hw Y hY]; simp [Mat.row]
    refine ⟨hl, fun j hj => ?_⟩
    have e : (Y.row i).getD j 0 = Y.at' i j := by
      rw [List.getD_eq_getElem _ _ (by omega)]
      simp [Mat.row]
    rw [e]
    simpa using hX Y hY i hi' j hj
  obtain ⟨i, h1, h2, h3⟩ := initCenters_spec sqrt inf o P hk (rowsOf_ne hr) g
  have hne : i.1 ≠ [] := by intro e; rw [e] at h2; simp at h2; omega
  have hb : ∀ v ∈ i.1, NearBox lo hi (fun j => drift eps eta 0 (max |lo j| |hi j|)) c v := by
    intro v hv
    simp only [drift_zero]
    exact hrows X List.mem_cons_self v (h3 v hv)
  obtain ⟨s, hsd⟩ : ∃ s : KM (Fl R), s = { (KM.new g : KM (Fl R)) with
    nFeatures := X.c, centers := some i.1, counts := some (List.replicate P.nClusters 0),
    pos := i.2, fitted := true } := ⟨_, rfl⟩
  have hfirst : (KM.new g).partialFit sqrt inf o P X = s.partialFit sqrt inf o P X := by
    obtain ⟨r, e, -⟩ := steps_near he hη hR hA sqrt inf (rowsOf X) (hrows X List.mem_cons_self) 0 (i.1, List.replicate P.nClusters 0) hne
      (by simp [h2]) hb
    simp only [KM.partialFit, KM.begin, KM.new, hsd] at h1 ⊢
    simp only [h1, Outcome.map_ok]
    simp only [KM.update, ne_eq, not_true_eq_false, if_false, Option.getD_some]
    rw [e]
  have hrun : runPartial sqrt inf o P (X :: Xs) (KM.new g) = runPartial sqrt inf o P (X :: Xs) s := by
    simp only [runPartial, hfirst]
  obtain ⟨j1, cs, j2, j3, j4⟩ := runPartial_near he hη hR hA sqrt inf o P (X :: Xs) hw hrows 0 s i.1 (List.replicate P.nClusters 0) hne
    (by simp [h2]) (by rw [hsd]) (by rw [hsd]) (by rw [hsd]; exact hw X List.mem_cons_self) hb
  rw [hrun]
  refine ⟨by simpa using j1, cs, j2, by omega, fun v hv => ?_⟩
  have := j4 v hv
  rw [Nat.zero_add] at this
  exact this

example (sqrt : Fl Binary64.rounding → Fl Binary64.rounding) (inf : Fl Binary64.rounding) (o : Rng (Fl Binary64.rounding)) :
    ∃ cs, (runPartial sqrt inf o ⟨2, "random", 1, 1, true, 0, 0, 1⟩ [table 2 [[3, 1], [4, 2]], table 2 [[5, 2]]] (KM.new 0)).1.centers = some cs ∧
      cs.length = 2 ∧ ∀ v ∈ cs, v.length = 2 ∧ ∀ j < 2,
        (1 : ℚ) - ((1 + 1 / 2 ^ 53) ^ 9 * (5 + 2 * 3 * (1 / 2 ^ 1075)) - 5) ≤ (v.getD j 0).val ∧
        (v.getD j 0).val ≤ 5 + ((1 + 1 / 2 ^ 53) ^ 9 * (5 + 2 * 3 * (1 / 2 ^ 1075)) - 5) := by
  have hX : ∀ Y ∈ [table 2 [[3, 1], [4, 2]], table 2 [[5, 2]]], ∀ i < Y.r, ∀ j < 2, (1 : ℚ) ≤ (Y.at' i j).val ∧ (Y.at' i j).val ≤ 5 := by
    decide +kernel
  obtain ⟨-, cs, h1, h2, h3⟩ := partialFit_near_range_partial (lo := fun _ => 1) (hi := fun _ => 5) (c := 2) (eps := 1 / 2 ^ 53) (eta := 1 / 2 ^ 1075)
    (by positivity) (by positivity) Binary64.accurate Binary64.add_accurate sqrt inf o 0 ⟨2, "random", 1, 1, true, 0, 0, 1⟩ (by decide)
    (table 2 [[3, 1], [4, 2]]) [table 2 [[5, 2]]] (by decide) (by intro Y hY; fin_cases hY <;> rfl) hX
  refine ⟨cs, h1, h2, fun v hv => ?_⟩
  obtain ⟨h4, h5⟩ := h3 v hv
  refine ⟨h4, fun j hj => ?_⟩
  have e : (max |(1 : ℚ)| |(5 : ℚ)|) = 5 := by norm_num
  have e2 : ((table 2 [[3, 1], [4, 2]] :: [table 2 [[5, 2]]]).map (·.r)).sum = 3 := rfl
  have := h5 j hj
  rw [e2, e] at this
  exact_mod_cast this

theorem step_single {α : Type _} [Add α] [Sub α] [Mul α] [Div α] [Zero α] [One α] [NatCast α] [LT α] [LE α] [DecidableLT α] [DecidableLE α]
    (sqrt : α → α) (inf v x : α) (n : Nat) :
    step sqrt inf ([[v]], [n]) [x] = .ok ([[(1 - 1 / ((n + 1 : Nat) : α)) * v + 1 / ((n + 1 : Nat) : α) * x]], [n + 1]) := by
  have h : nearest sqrt inf [x] [[v]] = 0 := by
    have := nearest_lt sqrt inf [x] (cs := [[v]]) (by simp)
    simpa using this
  simp [step, h, move]

/-- **C288** (negation): in float64, one cluster trained on five rows that are all exactly 3 ends with the centre 3.0000000000000004, outside the range
of the data, whatever the generator does and whatever the square root. -/
theorem identical_rows_drift (sqrt : Fl Binary64.rounding → Fl Binary64.rounding) (inf : Fl Binary64.rounding) (o : Rng (Fl Binary64.rounding)) (g : Nat)
    (P : Params (Fl Binary64.rounding)) (hP : P.nClusters = 1) :
    ∃ x, ((KM.new g).partialFit sqrt inf o P (table 1 [[3], [3], [3], [3], [3]])).2 = .ok () ∧
      ((KM.new g).partialFit sqrt inf o P (table 1 [[3], [3], [3], [3], [3]])).1.centers = some [[x]] ∧ 3 < x.val := by
  obtain ⟨i, h1, h2, h3⟩ := initCenters_spec sqrt inf o P (by omega) (rows := rowsOf (table 1 [[3], [3], [3], [3], [3]])) (by decide) g
  have hrow : rowsOf (table 1 [[3], [3], [3], [3], [3]]) = List.replicate 5 [Binary64.lit 3] := by decide +kernel
  have hi : i.1 = [[Binary64.lit 3]] := by
    rw [hP] at h2
    obtain ⟨v, hv⟩ := List.length_eq_one_iff.1 h2
    have := h3 v (by rw [hv]; simp)
    rw [hrow] at this
    rw [hv, List.eq_of_mem_replicate this]
  refine ⟨Binary64.lit (6755399441055745 / 2251799813685248), ?_⟩
  have e1 : ∀ n v, steps sqrt inf ([[v]], [n]) (List.replicate 5 [Binary64.lit 3]) = .ok (
      ((List.range 5).foldl (fun v i => (1 - 1 / ((n + i + 1 : Nat) : Fl Binary64.rounding)) * v + 1 / ((n + i + 1 : Nat) : Fl Binary64.rounding) * Binary64.lit 3) v
        |> fun w => [[w]]), [n + 5]) := by
    intro n v
    simp [steps, List.replicate, step_single, Outcome.bind_ok, List.range_succ]
  have e2 : (List.range 5).foldl (fun v i => (1 - 1 / ((0 + i + 1 : Nat) : Fl Binary64.rounding)) * v + 1 / ((0 + i + 1 : Nat) : Fl Binary64.rounding) * Binary64.lit 3)
      (Binary64.lit 3) = Binary64.lit (6755399441055745 / 2251799813685248) := by
    decide +kernel
  have e3 := e1 0 (Binary64.lit 3)
  rw [e2] at e3
  have hpf : (KM.new g).partialFit sqrt inf o P (table 1 [[3], [3], [3], [3], [3]]) =
      ({ (KM.new g : KM (Fl Binary64.rounding)) with
          nFeatures := 1
          centers := some [[Binary64.lit (6755399441055745 / 2251799813685248)]]
          counts := some [0 + 5]
          pos := i.2
          fitted := true }, .ok ()) := by
    simp only [KM.partialFit, KM.begin, KM.new] at h1 ⊢
    simp only [h1, Outcome.map_ok]
    simp only [KM.update, ne_eq, not_true_eq_false, if_false, Option.getD_some, hP, hi]
    rw [hrow, show List.replicate 1 0 = [0] from rfl, e3]
    rfl
  rw [hpf]
  refine ⟨rfl, rfl, ?_⟩
  decide +kernel

end Scigo.Round
