import Verif.Wrapper.Props
import Verif.LGB.TaylorProps
import Mathlib.Algebra.Order.BigOperators.Group.List

/-!
# C160, C163, C164: probabilities, labels and decision values in exact arithmetic

The carrier is `ℝ`, `math.Exp` the real exponential, the literals those of the code (`RealENum`); `epsilon` (`1e-15`) is any number that is
small enough.
-/

set_option linter.unusedSectionVars false

namespace Scigo.Wrapper

open Scigo.LGB (ENum RealENum)
open Scigo.Trainer (bind_ok_inv)

/-! ## The predictor's sigmoid and softmax -/

theorem ensure_real {N : ENum ℝ} (hN : RealENum N) (v : ℝ) : N.toPNum.ensure v = if |v| < N.epsilon then 0 else v := by
  unfold LGB.PNum.ensure
  have h1 : LGB.isNaN v = false := by simp [LGB.isNaN]
  have h2 : LGB.absV v = |v| := by
    unfold LGB.absV
    split_ifs with h
    · rw [abs_of_neg h]
    · rw [abs_of_nonneg (not_lt.1 h)]
  rw [h1, hN.isInf v, h2]
  simp

theorem ensure_unit {N : ENum ℝ} (hN : RealENum N) {v : ℝ} (h0 : 0 ≤ v) (h1 : v ≤ 1) :
    0 ≤ N.toPNum.ensure v ∧ N.toPNum.ensure v ≤ v ∧ v - N.toPNum.ensure v ≤ max N.epsilon 0 := by
  rw [ensure_real hN]
  split_ifs with h
  · rw [abs_of_nonneg h0] at h
    exact ⟨le_rfl, h0, by rw [sub_zero]; exact h.le.trans (le_max_left _ _)⟩
  · exact ⟨h0, le_rfl, by simp⟩

/-- the sigmoid of the predictor lies between 0 and 1 -/
theorem stableSigmoid_range {N : ENum ℝ} (hN : RealENum N) (x : ℝ) : 0 ≤ LGB.stableSigmoid N x ∧ LGB.stableSigmoid N x ≤ 1 := by
  unfold LGB.stableSigmoid
  rw [hN.exp, hN.exp]
  split_ifs
  · norm_num
  · norm_num
  · have := Real.exp_pos (-x)
    have h1 : 1 / (1 + Real.exp (-x)) ≤ 1 := by rw [div_le_one (by linarith)]; linarith
    obtain ⟨a, b, -⟩ := ensure_unit hN (v := 1 / (1 + Real.exp (-x))) (by positivity) h1
    exact ⟨a, b.trans h1⟩
  · have := Real.exp_pos x
    have h1 : Real.exp x / (1 + Real.exp x) ≤ 1 := by rw [div_le_one (by linarith)]; linarith
    obtain ⟨a, b, -⟩ := ensure_unit hN (v := Real.exp x / (1 + Real.exp x)) (by positivity) h1
    exact ⟨a, b.trans h1⟩

/-- the sigmoid of the predictor is at least one half for scores that are not negative -/
theorem stableSigmoid_half {N : ENum ℝ} (hN : RealENum N) (he : N.epsilon ≤ 1 / 2) (x : ℝ) (hx : 0 ≤ x) : 1 / 2 ≤ LGB.stableSigmoid N x := by
  unfold LGB.stableSigmoid
  rw [hN.exp]
  by_cases h1 : N.c500 < x
  · rw [if_pos h1]; norm_num
  rw [if_neg h1, if_neg (by rw [hN.c500]; linarith), if_pos hx]
  have h2 : Real.exp (-x) ≤ 1 := Real.exp_le_one_iff.2 (by linarith)
  have h3 := Real.exp_pos (-x)
  have h4 : (1 : ℝ) / 2 ≤ 1 / (1 + Real.exp (-x)) := one_div_le_one_div_of_le (by linarith) (by linarith)
  rw [ensure_real hN, abs_of_nonneg (by linarith), if_neg (by linarith)]
  exact h4

theorem maxOf_spec (l : List ℝ) (hl : l ≠ []) : LGB.maxOf l ∈ l ∧ ∀ v ∈ l, v ≤ LGB.maxOf l := by
  cases l with
  | nil => exact absurd rfl hl
  | cons a l =>
    unfold LGB.maxOf
    simp only [List.tail_cons, List.headD_cons]
    have key : ∀ (l : List ℝ) (a : ℝ), (l.foldl (fun m v => if m < v then v else m) a ∈ a :: l) ∧ a ≤ l.foldl (fun m v => if m < v then v else m) a ∧
        ∀ v ∈ l, v ≤ l.foldl (fun m v => if m < v then v else m) a := by
      intro l
      induction l with
      | nil => intro a; simp
      | cons b l ih =>
        intro a
        rw [List.foldl_cons]
        obtain ⟨h1, h2, h3⟩ := ih (if a < b then b else a)
        have ha : a ≤ if a < b then b else a := by split_ifs with h; exacts [h.le, le_rfl]
        have hb : b ≤ if a < b then b else a := by split_ifs with h; exacts [le_rfl, not_lt.1 h]
        refine ⟨?_, ha.trans h2, fun v hv => ?_⟩
        · rcases List.mem_cons.1 h1 with h | h
          · rw [h]
            split_ifs <;> simp
          · exact List.mem_cons_of_mem _ (List.mem_cons_of_mem _ h)
        · rcases List.mem_cons.1 hv with rfl | h
          · exact hb.trans h2
          · exact h3 v h
    obtain ⟨h1, h2, h3⟩ := key l a
    refine ⟨h1, fun v hv => ?_⟩
    rcases List.mem_cons.1 hv with rfl | h
    · exact h2
    · exact h3 v h

theorem stableExp_nonpos {N : ENum ℝ} (hN : RealENum N) (x : ℝ) (hx : x ≤ 0) : 0 ≤ LGB.stableExp N x ∧ LGB.stableExp N x ≤ 1 := by
  unfold LGB.stableExp
  rw [if_neg (by rw [hN.c700]; linarith), hN.exp]
  split_ifs
  · norm_num
  · have h1 : Real.exp x ≤ 1 := Real.exp_le_one_iff.2 hx
    obtain ⟨a, b, -⟩ := ensure_unit hN (Real.exp_pos x).le h1
    exact ⟨a, b.trans h1⟩

theorem stableExp_zero {N : ENum ℝ} (hN : RealENum N) (he : N.epsilon ≤ 1) : LGB.stableExp N 0 = 1 := by
  unfold LGB.stableExp
  rw [if_neg (by rw [hN.c700]; norm_num), if_neg (by rw [hN.c700]; norm_num), hN.exp, Real.exp_zero, ensure_real hN, abs_one, if_neg (by linarith)]

/-- the softmax of the predictor: as long as the scores, every entry between 0 and 1, one of them positive, the sum at most 1 and at least
`1 - k·epsilon` -/
theorem stableSoftmax_spec {N : ENum ℝ} (hN : RealENum N) (h0 : 0 ≤ N.epsilon) (l : List ℝ) (hl : l ≠ []) (he : l.length * N.epsilon ≤ 1) :
    (LGB.stableSoftmax N l).length = l.length ∧ (∀ p ∈ LGB.stableSoftmax N l, 0 ≤ p ∧ p ≤ 1) ∧ (∃ p ∈ LGB.stableSoftmax N l, 0 < p) ∧
    (LGB.stableSoftmax N l).sum ≤ 1 ∧ 1 - l.length * N.epsilon ≤ (LGB.stableSoftmax N l).sum := by
  obtain ⟨hm, hle⟩ := maxOf_spec l hl
  have hlen : (1 : ℝ) ≤ l.length := by exact_mod_cast List.length_pos_of_ne_nil hl
  have he1 : N.epsilon ≤ 1 := by nlinarith
  obtain ⟨e, hedef⟩ : ∃ e, e = l.map (fun v => LGB.stableExp N (v - LGB.maxOf l)) := ⟨_, rfl⟩
  have heu : ∀ v ∈ e, 0 ≤ v ∧ v ≤ 1 := by
    intro v hv
    rw [hedef] at hv
    obtain ⟨w, hw, rfl⟩ := List.mem_map.1 hv
    exact stableExp_nonpos hN _ (by linarith [hle w hw])
  have h1e : (1 : ℝ) ∈ e := by
    rw [hedef]
    exact List.mem_map.2 ⟨_, hm, by rw [sub_self, stableExp_zero hN he1]⟩
  have hs : sumOver e id = e.sum := by rw [sumOver_eq, List.map_id]
  have hs1 : 1 ≤ e.sum := List.single_le_sum (fun v hv => (heu v hv).1) 1 h1e
  have hsk : e.sum ≤ l.length := by
    have := List.sum_le_card_nsmul e 1 (fun v hv => (heu v hv).2)
    rw [hedef, List.length_map, ← hedef] at this
    simpa using this
  have hpos : 0 < e.sum := by linarith
  have hdef : LGB.stableSoftmax N l = e.map (fun v => N.toPNum.ensure (v / e.sum)) := by
    unfold LGB.stableSoftmax
    simp only
    rw [← hedef, hs, if_pos hpos]
  have hunit : ∀ v ∈ e, 0 ≤ v / e.sum ∧ v / e.sum ≤ 1 := by
    intro v hv
    refine ⟨div_nonneg (heu v hv).1 hpos.le, ?_⟩
    rw [div_le_one hpos]
    exact (heu v hv).2.trans hs1
  have hsum : (e.map (fun v => v / e.sum)).sum = 1 := by
    have : ∀ (l : List ℝ) (s : ℝ), (l.map (fun v => v / s)).sum = l.sum / s := by
      intro l s
      induction l with
      | nil => simp
      | cons a l ih => rw [List.map_cons, List.sum_cons, ih, List.sum_cons, add_div]
    rw [this, div_self hpos.ne']
  rw [hdef]
  refine ⟨by rw [List.length_map, hedef, List.length_map], fun p hp => ?_, ?_, ?_, ?_⟩
  · obtain ⟨v, hv, rfl⟩ := List.mem_map.1 hp
    obtain ⟨a, b, -⟩ := ensure_unit hN (hunit v hv).1 (hunit v hv).2
    exact ⟨a, b.trans (hunit v hv).2⟩
  · refine ⟨_, List.mem_map.2 ⟨1, h1e, rfl⟩, ?_⟩
    have hge : N.epsilon ≤ 1 / e.sum := by
      rw [le_div_iff₀ hpos]
      nlinarith
    rw [ensure_real hN, abs_of_nonneg (by positivity), if_neg (not_lt.2 hge)]
    positivity
  · rw [← hsum]
    exact List.sum_le_sum (fun v hv => (ensure_unit hN (hunit v hv).1 (hunit v hv).2).2.1)
  · have key : ∀ l' : List ℝ, (∀ v ∈ l', v ∈ e) → (l'.map (fun v => v / e.sum)).sum - l'.length * N.epsilon ≤
        (l'.map (fun v => N.toPNum.ensure (v / e.sum))).sum := by
      intro l' hl'
      induction l' with
      | nil => simp
      | cons a l' ih =>
        have h1 := ih (fun v hv => hl' v (List.mem_cons_of_mem _ hv))
        have ha := hl' a (List.mem_cons_self ..)
        have h2 := (ensure_unit hN (hunit a ha).1 (hunit a ha).2).2.2
        rw [max_eq_left h0] at h2
        simp only [List.map_cons, List.sum_cons, List.length_cons]
        push_cast
        linarith
    have := key e (fun v hv => hv)
    rw [hsum, hedef, List.length_map, ← hedef] at this
    exact this

/-! ## `train` returns a model for the objective asked for -/

section
variable {α : Type} [DecidableEq α] [LT α] [DecidableLT α] [LE α] [DecidableLE α] [Zero α] [One α] [Add α] [Sub α] [Neg α] [Mul α] [Div α]

/-- inverting `train` -/
theorem train_ok {E : Env α} {r : Request α} {X y : Mat α} {m : LGB.Model α} (h : train E r X y = .ok m) :
    ∃ obj st, Boost.createObjective E.num E.lits E.floor E.ceil r.huberDelta r.fairC r.quantileAlpha r.tweediePower E.threeHalves r.objective = some obj ∧
      (r.config E obj).fit E.lib E.byGrad (E.rand r.seed r.deterministic) E.fuel (problem X y) (fun _ _ => .go) (fun _ _ => .go) Trainer.St.new = .ok st ∧
      m = (r.config E obj).getModel r.objective r.numClass (problem X y) st := by
  unfold train at h
  split at h
  · cases h
  · next obj ho =>
    obtain ⟨st, h1, h2⟩ := bind_ok_inv h
    cases h2
    exact ⟨obj, st, ho, h1, rfl⟩

/-- the model is for the objective, the classes and the width asked for -/
def Serves (train : Request α → Mat α → Mat α → Outcome (LGB.Model α)) : Prop :=
  ∀ r X y m, train r X y = .ok m → m.objective = r.objective ∧ (0 < r.numClass → m.numClass = r.numClass) ∧ m.numFeatures = X.c

theorem train_serves (E : Env α) : Serves (train E) := by
  intro r X y m h
  obtain ⟨obj, st, -, -, rfl⟩ := train_ok h
  exact ⟨rfl, fun hp => if_pos hp, rfl⟩

end

/-! ## Probabilities -/

/-- the matrix of `PredictProba` of a trained classifier -/
theorem trained_proba {train : Request ℝ → Mat ℝ → Mat ℝ → Outcome (LGB.Model ℝ)} (hserve : Serves train) {N : ENum ℝ} (hN : RealENum N)
    (h0 : 0 ≤ N.epsilon) {toInt : ℝ → Int} {X y : Mat ℝ} {m : Clf ℝ} (hk : Knows toInt train X y m) (he : m.classes.length * N.epsilon ≤ 1)
    {Z P : Mat ℝ} (h : m.predictProba N Z = .ok P) :
    P.r = Z.r ∧ P.c = m.classes.length ∧ ∀ i < P.r, (∀ j < P.c, 0 ≤ P.at' i j ∧ P.at' i j ≤ 1) ∧ (∃ j < P.c, 0 < P.at' i j) ∧
      ((P.row i).sum ≤ 1 ∧ 1 - m.classes.length * N.epsilon ≤ (P.row i).sum) := by
  obtain ⟨model, hm, hp⟩ := predictProba_ok h
  obtain ⟨r, model', hask, htr, hm'⟩ := hk.model
  rw [hm] at hm'
  cases hm'
  obtain ⟨s1, s2, -⟩ := hserve r X y model htr
  refine ⟨proba_rows hp, ?_⟩
  unfold predictorProba at hp
  obtain ⟨Q, hq, hp⟩ := bind_ok_inv hp
  obtain ⟨-, -, q3, q4, q5⟩ := LGB.batch_ok hq
  rcases hask with ⟨hlen, ho, hc⟩ | ⟨hlen, ho, hc⟩
  · have hob : model.objective = "binary" ∨ model.objective = "cross_entropy" := Or.inl (s1.trans ho)
    have hnc : model.numClass = 1 := (s2 (by omega)).trans hc
    rw [if_pos hob] at hp
    cases hp
    refine ⟨hlen.symm, fun i hi => ?_⟩
    obtain ⟨p, e1, e2⟩ := q5 i (q3 ▸ hi)
    have hu : 0 ≤ Q.at' i 0 ∧ Q.at' i 0 ≤ 1 := by
      rw [e2 0]
      unfold LGB.Model.pSample at e1
      obtain ⟨raw, f1, f2⟩ := bind_ok_inv e1
      cases f2
      have hcols : model.outCols = 1 := by unfold LGB.Model.outCols; rw [if_neg (by omega)]
      have hl := ((LGB.accumulate_length _ _ _ _ _ _ f1).trans (LGB.start_length model)).trans hcols
      obtain ⟨s, rfl⟩ := List.length_eq_one_iff.1 hl
      unfold LGB.Model.pLink
      rw [if_pos hob]
      simpa using stableSigmoid_range hN s
    obtain ⟨u1, u2⟩ := hu
    obtain ⟨v1, v2, v3⟩ := ensure_unit hN (v := 1 - Q.at' i 0) (by linarith) (by linarith)
    rw [max_eq_left h0] at v3
    have e0 : (⟨Q.r, 2, fun i j => if j = 0 then N.toPNum.ensure (1 - Q.at' i 0) else Q.at' i 0⟩ : Mat ℝ).row i =
        [N.toPNum.ensure (1 - Q.at' i 0), Q.at' i 0] := by
      simp [Mat.row, List.range_succ]
    rw [e0]
    simp only [List.sum_cons, List.sum_nil, add_zero]
    rw [hlen] at he ⊢
    push_cast at he ⊢
    refine ⟨fun j _ => ?_, ?_, by linarith, by linarith⟩
    · split_ifs
      · exact ⟨v1, by linarith⟩
      · exact ⟨u1, u2⟩
    · by_cases hz : 0 < Q.at' i 0
      · exact ⟨1, by norm_num, by simpa using hz⟩
      · refine ⟨0, by norm_num, ?_⟩
        have hz : Q.at' i 0 = 0 := le_antisymm (not_lt.1 hz) u1
        rw [if_pos rfl, hz, sub_zero, ensure_real hN, abs_one, if_neg (by linarith)]
        norm_num
  · have hob : model.objective = "multiclass" := s1.trans ho
    have hnc : model.numClass = m.classes.length := (s2 (by omega)).trans hc
    rw [if_neg (by rw [hob]; decide), if_pos hob] at hp
    have hp : Q = P := Outcome.ok.inj hp
    subst hp
    have hcols : model.outCols = m.classes.length := by
      unfold LGB.Model.outCols
      rw [if_pos (by omega), hnc]
      rfl
    refine ⟨q4.trans hcols, fun i hi => ?_⟩
    obtain ⟨p, e1, e2⟩ := q5 i (q3 ▸ hi)
    unfold LGB.Model.pSample at e1
    obtain ⟨raw, f1, f2⟩ := bind_ok_inv e1
    have hl := ((LGB.accumulate_length _ _ _ _ _ _ f1).trans (LGB.start_length model)).trans hcols
    have f2 : model.pLink N raw = p := Outcome.ok.inj f2
    have hp : p = LGB.stableSoftmax N raw := by
      rw [← f2]
      unfold LGB.Model.pLink
      rw [if_neg (by rw [hob]; decide), if_pos hob]
    have hne : raw ≠ [] := by
      intro hh
      rw [hh] at hl
      simp at hl
      omega
    obtain ⟨g1, g2, ⟨v, g3, g3'⟩, g4, g5⟩ := stableSoftmax_spec hN h0 raw hne (by rw [hl]; exact he)
    rw [← hp] at g1 g2 g3 g4 g5
    have hpc : p.length = Q.c := by rw [g1, hl, q4, hcols]
    have hrow : Q.row i = p := by
      apply List.ext_getElem
      · rw [row_length, hpc]
      · intro j h1 h2
        have : (Q.row i)[j]? = p[j]? := by
          rw [row_get Q i j (by rwa [row_length] at h1), e2 j, List.getD_eq_getElem?_getD, List.getElem?_eq_getElem h2]
          rfl
        rw [List.getElem?_eq_getElem h1, List.getElem?_eq_getElem h2] at this
        exact Option.some.inj this
    have hat : ∀ j (hj : j < p.length), Q.at' i j = p[j] := by
      intro j hj
      rw [e2 j, List.getD_eq_getElem?_getD, List.getElem?_eq_getElem hj]
      rfl
    rw [hrow, ← hl]
    refine ⟨fun j hj => ?_, ?_, g4, g5⟩
    · rw [hat j (by omega)]
      exact g2 _ (List.getElem_mem _)
    · obtain ⟨j, hj, rfl⟩ := List.mem_iff_getElem.1 g3
      exact ⟨j, by omega, by rw [hat j hj]; exact g3'⟩

/-- **C163** (exact arithmetic): after a successful `Fit`, `FitWeighted` or `FitWithInit` every row of `PredictProba` has one entry per class, all
between 0 and 1, and sums to 1 up to the number of classes times the predictor's `epsilon`. -/
theorem trained_probabilities (E : Env ℝ) {N : ENum ℝ} (hN : RealENum N) (h0 : 0 ≤ N.epsilon) (c : ℝ) (toInt : ℝ → Int)
    {iter : List Int → List Int} (hi : MapKeys iter) (m m' : Clf ℝ) (X y : Mat ℝ) (ht : TrainedBy c toInt iter (train E) m X y m' (.ok ()))
    (he : m'.classes.length * N.epsilon ≤ 1) (Z P : Mat ℝ) (h : m'.predictProba N Z = .ok P) :
    P.r = Z.r ∧ P.c = m'.classes.length ∧ ∀ i < P.r, (∀ j < P.c, 0 ≤ P.at' i j ∧ P.at' i j ≤ 1) ∧
      1 - m'.classes.length * N.epsilon ≤ (P.row i).sum ∧ (P.row i).sum ≤ 1 := by
  obtain ⟨h1, h2, h3⟩ := trained_proba (train_serves E) hN h0 (trained_knows c toInt hi (train E) m X y m' ht) he h
  exact ⟨h1, h2, fun i hi => ⟨(h3 i hi).1, (h3 i hi).2.2.2, (h3 i hi).2.2.1⟩⟩

/-- **C160** (exact arithmetic): after a successful `Fit`, `FitWeighted` or `FitWithInit` every label `Predict` returns is the truncated target of a
training row, for every input, and with more than two classes it is the first most probable class. -/
theorem predicted_labels_were_seen (E : Env ℝ) {N : ENum ℝ} (hN : RealENum N) (h0 : 0 ≤ N.epsilon) (c half : ℝ) (toInt : ℝ → Int)
    {iter : List Int → List Int} (hi : MapKeys iter) (m m' : Clf ℝ) (X y : Mat ℝ) (ht : TrainedBy c toInt iter (train E) m X y m' (.ok ()))
    (he : m'.classes.length * N.epsilon ≤ 1) (Z : Mat ℝ) (ls : List Int) (h : m'.predict N half Z = .ok ls) :
    ls.length = Z.r ∧ (∀ l ∈ ls, ∃ i < y.r, toInt (y.at' i 0) = l) ∧
    ∃ P, m'.predictProba N Z = .ok P ∧ (m'.classes.length ≠ 2 → ∀ i < Z.r, ∃ l, ls[i]? = some l ∧ FirstBest m'.classes (P.row i) l) := by
  have hk := trained_knows c toInt hi (train E) m X y m' ht
  obtain ⟨P, p1, p2, p3, p4, p5⟩ := predict_follows_proba N half m' Z ls h
  obtain ⟨-, q2, q3⟩ := trained_proba (train_serves E) hN h0 hk he p1
  have hbest : m'.classes.length ≠ 2 → ∀ i < P.r, ∃ l, ls[i]? = some l ∧ FirstBest m'.classes (P.row i) l := by
    intro hne i hi
    obtain ⟨l, e1, -, e2, -⟩ := p5 i hi
    obtain ⟨j, hj, hp⟩ := (q3 i hi).2.1
    exact ⟨l, e1, e2 hne ⟨j, by omega, hp⟩⟩
  refine ⟨p4.trans p2, fun l hl => ?_, P, p1, fun hne i hi => hbest hne i (by omega)⟩
  rw [← hk.seen]
  rcases (predicts_known_classes N half m' Z ls h).2 l hl with h1 | ⟨hne, -⟩
  · exact h1
  · obtain ⟨i, hi, rfl⟩ := List.mem_iff_getElem.1 hl
    obtain ⟨l, e1, j, p, e2, -⟩ := hbest hne i (by omega)
    rw [List.getElem?_eq_getElem hi] at e1
    cases e1
    exact List.mem_of_getElem? e2

/-! ## Decision values -/

/-- **C164** is false (exact arithmetic): for a classifier trained on two classes every value of `DecisionFunction` is a number greater than 0 and at
most 1: the raw score has already gone through the sigmoid, its sign says nothing about the predicted class. -/
theorem decision_values_positive (E : Env ℝ) {N : ENum ℝ} (hN : RealENum N) (c : ℝ) (toInt toInt' : ℝ → Int)
    {iter : List Int → List Int} (hi : MapKeys iter) (m m' : Clf ℝ) (X y : Mat ℝ) (ht : TrainedBy c toInt iter (train E) m X y m' (.ok ()))
    (h2 : m'.classes.length = 2) (Z D : Mat ℝ) (h : m'.decisionFunction N toInt' Z = .ok D) :
    D.r = Z.r ∧ D.c = 1 ∧ ∀ i < D.r, 0 < D.at' i 0 ∧ D.at' i 0 ≤ 1 := by
  obtain ⟨r, model, hask, htr, hm⟩ := (trained_knows c toInt hi (train E) m X y m' ht).model
  obtain ⟨s1, s2, -⟩ := train_serves E r X y model htr
  have hob : model.objective = "binary" ∨ model.objective = "cross_entropy" := by
    rcases hask with ⟨-, ho, -⟩ | ⟨hlen, -⟩
    · exact Or.inl (s1.trans ho)
    · omega
  unfold Clf.decisionFunction at h
  by_cases h1 : m'.fitted = false
  · rw [if_pos h1] at h; cases h
  rw [if_neg h1] at h
  by_cases h3 : (Z.c : Int) ≠ m'.nFeatures
  · rw [if_pos h3] at h; cases h
  rw [if_neg h3] at h
  by_cases h4 : Z.r = 0 ∨ m'.classes.length = 0
  · rw [if_pos h4] at h; cases h
  rw [if_neg h4, hm] at h
  simp only at h
  cases hf : LGB.forRows Z (m'.decisionRow N toInt' model) Z.r with
  | err e => rw [hf] at h; cases h
  | panic e => rw [hf] at h; cases h
  | ok rows =>
    rw [hf] at h
    cases h
    obtain ⟨-, hrow⟩ := (LGB.forRows_ok _ _).1 hf
    refine ⟨rfl, if_pos h2, fun i hi => ?_⟩
    have hr := hrow i hi
    show 0 < (rows.getD i []).getD 0 0 ∧ (rows.getD i []).getD 0 0 ≤ 1
    unfold Clf.decisionRow at hr
    obtain ⟨raw, e1, e2⟩ := bind_ok_inv hr
    rw [if_pos h2] at e2
    cases raw with
    | nil => cases e2
    | cons v vs =>
      have e2 : [v] = rows.getD i [] := Outcome.ok.inj e2
      rw [← e2]
      simp only [List.getD_cons_zero]
      unfold LGB.Model.predictSingle at e1
      obtain ⟨sc, f1, f2⟩ := bind_ok_inv e1
      have f2 : model.link N sc = v :: vs := Outcome.ok.inj f2
      unfold LGB.Model.link at f2
      rw [if_pos hob] at f2
      cases sc with
      | nil => cases f2
      | cons s ss =>
        have : LGB.taylorSigmoid N s = v := by
          simp at f2
          exact f2.1
        rw [← this]
        have := LGB.model_probability_range N hN s
        exact ⟨this.1, this.2.1⟩

section
variable {α : Type} [BEq α] [LE α] [DecidableLE α] [LT α] [DecidableLT α] [Zero α] [One α] [Add α] [Sub α] [Neg α] [Mul α] [Div α]

/-- **C164**, what holds (law-free): `DecisionFunction` returns the raw scores — the first one for two classes, otherwise one per class — if the model
carries an objective without a final transformation, as a loaded `multiclass_logloss` model does. Missing: the objectives `binary` and `multiclass`,
the only ones training uses. -/
theorem decision_values_raw_partial (N : ENum α) (toInt : α → Int) (m : Clf α) (model : LGB.Model α) (hm : m.model = some model)
    (ho : model.objective ∉ ["binary", "cross_entropy", "multiclass"]) (Z D : Mat α) (h : m.decisionFunction N toInt Z = .ok D) (i : Nat) (hi : i < Z.r) :
    ∃ raw, model.raw toInt model.trees.length (LGB.rowOf Z i) = .ok raw ∧
      (m.classes.length = 2 → D.at' i 0 = raw.getD 0 0) ∧ (m.classes.length ≠ 2 → ∀ j < m.classes.length, D.at' i j = raw.getD j 0) := by
  unfold Clf.decisionFunction at h
  by_cases h1 : m.fitted = false
  · rw [if_pos h1] at h; cases h
  rw [if_neg h1] at h
  by_cases h3 : (Z.c : Int) ≠ m.nFeatures
  · rw [if_pos h3] at h; cases h
  rw [if_neg h3] at h
  by_cases h4 : Z.r = 0 ∨ m.classes.length = 0
  · rw [if_pos h4] at h; cases h
  rw [if_neg h4, hm] at h
  simp only at h
  cases hf : LGB.forRows Z (m.decisionRow N toInt model) Z.r with
  | err e => rw [hf] at h; cases h
  | panic e => rw [hf] at h; cases h
  | ok rows =>
    rw [hf] at h
    cases h
    obtain ⟨-, hrow⟩ := (LGB.forRows_ok _ _).1 hf
    have hr := hrow i hi
    unfold Clf.decisionRow at hr
    obtain ⟨raw, e1, e2⟩ := bind_ok_inv hr
    unfold LGB.Model.predictSingle at e1
    obtain ⟨sc, f1, f2⟩ := bind_ok_inv e1
    have f2 : model.link N sc = raw := Outcome.ok.inj f2
    have hlink : model.link N sc = sc := by
      unfold LGB.Model.link
      simp only [List.mem_cons, List.not_mem_nil, or_false, not_or] at ho
      rw [if_neg (not_or.2 ⟨ho.1, ho.2.1⟩), if_neg ho.2.2]
    rw [hlink] at f2
    refine ⟨sc, f1, fun h2 => ?_, fun h2 j hj => ?_⟩
    · rw [if_pos h2] at e2
      show (rows.getD i []).getD 0 0 = _
      rw [f2]
      cases raw with
      | nil => cases e2
      | cons v vs => rw [← Outcome.ok.inj e2]; rfl
    · rw [if_neg h2] at e2
      show (rows.getD i []).getD j 0 = _
      rw [← Outcome.ok.inj e2, f2]
      rw [List.getD_eq_getElem?_getD, List.getElem?_map, List.getElem?_range hj]
      rfl

end
end Scigo.Wrapper
