import Verif.Trainer.Mono
import Verif.Trainer.FitProps
import Verif.Hist.SplitLemmas

/-!
# C127: monotone constraints

`mono_split_partial`: the split search that knows the constraints respects them. `monotone_ignored`: `Fit` does not use it.
-/

set_option linter.unusedSectionVars false

namespace Scigo.Trainer

variable {α : Type}

section
variable [LinearOrder α] [Zero α] [One α] [Add α] [Sub α] [Neg α] [Mul α] [Div α]

/-- sums over the first `i + 1` bins -/
def sumsAt (bins : List (Hist.Bin α)) (i : Nat) : α × α × Int :=
  (sumOver (bins.take (i + 1)) (·.grad), sumOver (bins.take (i + 1)) (·.hess), Hist.countOf (bins.take (i + 1)))

/-- the boundary after bin `i` may be chosen: both sides have enough rows and the constraint holds -/
def Permitted (ok : α → α → α → α → Bool) (tg th : α) (tc minData : Int) (bins : List (Hist.Bin α)) (i : Nat) : Prop :=
  minData ≤ (sumsAt bins i).2.2 ∧ minData ≤ tc - (sumsAt bins i).2.2 ∧
    ok (sumsAt bins i).1 (sumsAt bins i).2.1 (tg - (sumsAt bins i).1) (th - (sumsAt bins i).2.1) = true

/-- gain of the boundary after bin `i` -/
def boundaryGain (gain : α → α → α → α → α) (tg th : α) (bins : List (Hist.Bin α)) (i : Nat) : α :=
  gain (sumsAt bins i).1 (sumsAt bins i).2.1 (tg - (sumsAt bins i).1) (th - (sumsAt bins i).2.1)

/-- `s` describes the boundary after bin `i` -/
def Describes (gain : α → α → α → α → α) (tg th : α) (tc : Int) (feature : Nat) (bins : List (Hist.Bin α)) (i : Nat) (s : Hist.Split α) : Prop :=
  ∃ b, bins[i]? = some b ∧ s.feature = feature ∧ s.threshold = b.hi ∧ s.gain = boundaryGain gain tg th bins i ∧
    s.leftCount = (sumsAt bins i).2.2 ∧ s.rightCount = tc - (sumsAt bins i).2.2 ∧ s.leftGrad = (sumsAt bins i).1 ∧
    s.rightGrad = tg - (sumsAt bins i).1 ∧ s.leftHess = (sumsAt bins i).2.1 ∧ s.rightHess = th - (sumsAt bins i).2.1

theorem histScan_inv (lowest : α) (gain : α → α → α → α → α) (ok : α → α → α → α → Bool) (tg th : α) (tc minData : Int) (feature : Nat)
    (bins : List (Hist.Bin α)) (n : Nat) (hn : n ≤ bins.length) :
    let s := (bins.take n).foldl (histStep gain ok tg th tc minData) ⟨Hist.noSplit feature lowest, 0, 0, 0⟩
    s.lg = sumOver (bins.take n) (·.grad) ∧ s.lh = sumOver (bins.take n) (·.hess) ∧ s.lc = Hist.countOf (bins.take n) ∧ lowest ≤ s.best.gain ∧
    (∀ i < n, Permitted ok tg th tc minData bins i → boundaryGain gain tg th bins i ≤ s.best.gain) ∧
    (s.best = Hist.noSplit feature lowest ∨
      ∃ i < n, Permitted ok tg th tc minData bins i ∧ lowest < s.best.gain ∧ Describes gain tg th tc feature bins i s.best) := by
  induction n with
  | zero =>
    simp only [List.take_zero, List.foldl_nil]
    exact ⟨rfl, rfl, rfl, le_rfl, fun i hi => by omega, Or.inl trivial⟩
  | succ n ih =>
    have hb : bins[n]? = some bins[n] := List.getElem?_eq_getElem (by omega)
    generalize bins[n] = b at hb
    have ht : bins.take (n + 1) = bins.take n ++ [b] := by rw [List.take_add_one, hb]; rfl
    have eg := Hist.sumOver_take_succ bins (·.grad) n b hb
    have eh := Hist.sumOver_take_succ bins (·.hess) n b hb
    have ec := Hist.countOf_take_succ bins n b hb
    obtain ⟨h1, h2, h3, h4, h5, h6⟩ := ih (by omega)
    generalize hs : (bins.take n).foldl (histStep gain ok tg th tc minData) ⟨Hist.noSplit feature lowest, 0, 0, 0⟩ = s at *
    have hfold : (bins.take (n + 1)).foldl (histStep gain ok tg th tc minData) ⟨Hist.noSplit feature lowest, 0, 0, 0⟩ =
        histStep gain ok tg th tc minData s b := by
      rw [ht, List.foldl_append, hs]
      rfl
    simp only
    rw [hfold]
    have hg : s.lg + b.grad = (sumsAt bins n).1 := by rw [h1]; exact eg.symm
    have hh : s.lh + b.hess = (sumsAt bins n).2.1 := by rw [h2]; exact eh.symm
    have hc : s.lc + b.count = (sumsAt bins n).2.2 := by rw [h3]; exact ec.symm
    have keep : ∀ i < n + 1, i ≠ n → Permitted ok tg th tc minData bins i → boundaryGain gain tg th bins i ≤ s.best.gain :=
      fun i hi hne hp => h5 i (by omega) hp
    have old : s.best = Hist.noSplit feature lowest ∨
        ∃ i < n + 1, Permitted ok tg th tc minData bins i ∧ lowest < s.best.gain ∧ Describes gain tg th tc feature bins i s.best := by
      rcases h6 with h | ⟨i, hi, h⟩
      · exact Or.inl h
      · exact Or.inr ⟨i, by omega, h⟩
    have same : ∀ t : Hist.Scan α, t.best = s.best → t.lg = (sumsAt bins n).1 → t.lh = (sumsAt bins n).2.1 → t.lc = (sumsAt bins n).2.2 →
        (Permitted ok tg th tc minData bins n → boundaryGain gain tg th bins n ≤ s.best.gain) →
        t.lg = sumOver (bins.take (n + 1)) (·.grad) ∧ t.lh = sumOver (bins.take (n + 1)) (·.hess) ∧ t.lc = Hist.countOf (bins.take (n + 1)) ∧
        lowest ≤ t.best.gain ∧ (∀ i < n + 1, Permitted ok tg th tc minData bins i → boundaryGain gain tg th bins i ≤ t.best.gain) ∧
        (t.best = Hist.noSplit feature lowest ∨
          ∃ i < n + 1, Permitted ok tg th tc minData bins i ∧ lowest < t.best.gain ∧ Describes gain tg th tc feature bins i t.best) := by
      intro t hb e1 e2 e3 hlast
      rw [hb]
      refine ⟨e1, e2, e3, h4, fun i hi hp => ?_, old⟩
      by_cases hin : i = n
      · subst hin; exact hlast hp
      · exact keep i hi hin hp
    unfold histStep
    simp only
    rw [hg, hh, hc]
    split_ifs with c1 c2 c3
    · exact same _ rfl rfl rfl rfl fun hp => absurd hp.1 (by rcases c1 with c | c; omega; have := hp.2.1; omega)
    · exact same _ rfl rfl rfl rfl fun hp => by rw [hp.2.2] at c2; cases c2
    · have hfeat : s.best.feature = feature := by
        rcases h6 with h | ⟨i, -, -, -, b', -, h, -⟩
        · rw [h]; rfl
        · exact h
      refine ⟨rfl, rfl, rfl, (h4.trans c3.le), fun i hi hp => ?_, Or.inr ⟨n, by omega, ⟨by omega, by omega, by simpa using c2⟩, lt_of_le_of_lt h4 c3,
        b, hb, hfeat, rfl, rfl, rfl, rfl, rfl, rfl, rfl, rfl⟩⟩
      by_cases hin : i = n
      · subst hin; exact le_rfl
      · exact (keep i hi hin hp).trans c3.le
    · exact same _ rfl rfl rfl rfl fun _ => not_lt.1 c3

/-- **C127** (law-free over a linear order; a part only: `Fit` does not use this search, see `monotone_ignored`): the split found on a
node's histogram is a boundary with enough rows on both sides at which the monotone constraint of the feature holds for the (unregularised)
values of the two sides, and no other such boundary has a higher gain; if the gain is `lowest` no such boundary has a gain above it -/
theorem mono_split_partial (lowest eps : α) (gain : α → α → α → α → α) (monotone : List Int) (tg th : α) (tc minData : Int) (feature : Nat)
    (bins : List (Hist.Bin α)) :
    let s := histSplit lowest gain (allowed eps monotone feature) tg th tc minData feature bins
    (∀ i, i + 1 < bins.length → Permitted (allowed eps monotone feature) tg th tc minData bins i → boundaryGain gain tg th bins i ≤ s.gain) ∧
    (s = Hist.noSplit feature lowest ∨
      lowest < s.gain ∧ minData ≤ s.leftCount ∧ minData ≤ s.rightCount ∧
      (monotone[feature]? = some 1 → -s.leftGrad / (s.leftHess + eps) ≤ -s.rightGrad / (s.rightHess + eps)) ∧
      (monotone[feature]? = some (-1) → -s.rightGrad / (s.rightHess + eps) ≤ -s.leftGrad / (s.leftHess + eps)) ∧
      ∃ i, i + 1 < bins.length ∧ Describes gain tg th tc feature bins i s) := by
  obtain ⟨-, -, -, -, h5, h6⟩ := histScan_inv lowest gain (allowed eps monotone feature) tg th tc minData feature bins (bins.length - 1) (by omega)
  refine ⟨fun i hi hp => h5 i (by omega) hp, ?_⟩
  rcases h6 with h | ⟨i, hi, hp, hlow, hd⟩
  · exact Or.inl h
  right
  refine ⟨hlow, ?_⟩
  obtain ⟨b, hb, d1, d2, d3, d4, d5, d6, d7, d8, d9⟩ := hd
  rw [show (histSplit lowest gain (allowed eps monotone feature) tg th tc minData feature bins) = _ from rfl] at *
  unfold histSplit
  refine ⟨by rw [d4]; exact hp.1, by rw [d5]; exact hp.2.1, fun hc => ?_, fun hc => ?_, i, by omega, b, hb, d1, d2, d3, d4, d5, d6, d7, d8, d9⟩
  · have := hp.2.2
    rw [allowed, hc] at this
    rw [d6, d7, d8, d9]
    simpa using this
  · have := hp.2.2
    rw [allowed, hc] at this
    rw [d6, d7, d8, d9]
    simpa using this

/-- **C127** (schedule): whatever the order in which the goroutines deliver, the collected split is one of those delivered (or none beats
`lowest`) and its gain is the largest -/
theorem collect_best (lowest : α) (arrived : List (Hist.Split α)) :
    (∀ s ∈ arrived, s.gain ≤ (collectBest lowest arrived).gain) ∧
    (collectBest lowest arrived ∈ arrived ∨ collectBest lowest arrived = Hist.noSplit 0 lowest) ∧
    ∀ other, arrived.Perm other → (collectBest lowest other).gain = (collectBest lowest arrived).gain := by
  have key : ∀ (l : List (Hist.Split α)) (b : Hist.Split α),
      let r := l.foldl (fun best s => if best.gain < s.gain then s else best) b
      b.gain ≤ r.gain ∧ (∀ s ∈ l, s.gain ≤ r.gain) ∧ (r ∈ l ∨ r = b) := by
    intro l
    induction l with
    | nil => intro b; simp
    | cons a l ih =>
      intro b
      simp only [List.foldl_cons]
      split_ifs with h
      · obtain ⟨h1, h2, h3⟩ := ih a
        refine ⟨h.le.trans h1, fun s hs => ?_, ?_⟩
        · rcases List.mem_cons.1 hs with rfl | hs
          · exact h1
          · exact h2 s hs
        · rcases h3 with h3 | h3
          · exact Or.inl (List.mem_cons_of_mem _ h3)
          · left; rw [h3]; exact List.mem_cons_self ..
      · obtain ⟨h1, h2, h3⟩ := ih b
        refine ⟨h1, fun s hs => ?_, ?_⟩
        · rcases List.mem_cons.1 hs with rfl | hs
          · exact (not_lt.1 h).trans h1
          · exact h2 s hs
        · rcases h3 with h3 | h3
          · exact Or.inl (List.mem_cons_of_mem _ h3)
          · exact Or.inr h3
  have k := fun l => key l (Hist.noSplit 0 lowest)
  refine ⟨(k arrived).2.1, (k arrived).2.2, fun other hp => ?_⟩
  have le : ∀ l l' : List (Hist.Split α), l.Perm l' → (collectBest lowest l).gain ≤ (collectBest lowest l').gain := by
    intro l l' h
    rcases (k l).2.2 with h' | h'
    · exact (k l').2.1 _ (h.mem_iff.1 h')
    · exact (le_of_eq (by rw [collectBest, h'])).trans (k l').1
  exact le_antisymm (le _ _ hp.symm) (le _ _ hp)

end

section field
variable [Field α] [LinearOrder α] [IsStrictOrderedRing α]

/-- the score of a node is the objective its leaf value gains over 0 -/
theorem score_eq (eps l1 l2 G H : α) (he : 0 < eps) (hpos : eps ≤ H + l2 + eps) :
    score eps (1 / 2) l1 l2 (fun _ => false) G H = -Hist.leafObjective (l2 + eps) (max l1 0) G H (leafValue eps l1 l2 G H) := by
  have hp : 0 < H + l2 + eps := he.trans_le hpos
  have e : H + (l2 + eps) = H + l2 + eps := by ring
  unfold score Hist.abs' leafValue Hist.leafObjective
  simp only
  rw [e]
  obtain ⟨D, hD⟩ : ∃ D, D = H + l2 + eps := ⟨_, rfl⟩
  rw [← hD] at hp hpos ⊢
  rw [if_neg (by simp), if_neg (by rw [if_neg (by linarith)]; linarith)]
  by_cases h1 : 0 < l1
  · rw [max_eq_left h1.le]
    by_cases h2 : l1 < G
    · simp only [h1, h2, not_true, false_and, and_false, if_false, if_true]
      have : -(G - l1) / D ≤ 0 := div_nonpos_of_nonpos_of_nonneg (by linarith) hp.le
      rw [abs_of_nonpos this]
      simp only [Bool.false_eq_true, if_false]
      field_simp
      ring
    · by_cases h3 : G < -l1
      · simp only [h1, h2, h3, not_true, not_false_iff, and_false, if_false, if_true]
        have : 0 ≤ -(G + l1) / D := div_nonneg (by linarith) hp.le
        rw [abs_of_nonneg this]
        simp only [Bool.false_eq_true, if_false]
        field_simp
        ring
      · simp [h1, h2, h3]
  · rw [max_eq_right (not_lt.1 h1)]
    simp only [h1, false_and, if_false]
    simp only [Bool.false_eq_true, if_false]
    field_simp
    ring

/-- **C127** (exact arithmetic): the gain of this search is the decrease of the objective — L1 and L2 terms included, unlike the gain of the
search that `Fit` uses — when the node is split and each leaf takes its best value -/
theorem split_gain_is_decrease (eps l1 l2 lg lh rg rh : α) (he : 0 < eps) (hl2 : 0 ≤ l2) (hl : 0 ≤ lh) (hr : 0 ≤ rh) (ml mr mt : α)
    (hml : Hist.IsOptimum (l2 + eps) (max l1 0) lg lh ml) (hmr : Hist.IsOptimum (l2 + eps) (max l1 0) rg rh mr)
    (hmt : Hist.IsOptimum (l2 + eps) (max l1 0) (lg + rg) (lh + rh) mt) :
    splitGain eps (1 / 2) l1 l2 (fun _ => false) lg lh rg rh (lg + rg) (lh + rh) = mt - (ml + mr) := by
  have key : ∀ G H m : α, 0 ≤ H → Hist.IsOptimum (l2 + eps) (max l1 0) G H m → score eps (1 / 2) l1 l2 (fun _ => false) G H = -m := by
    rintro G H m hH ⟨⟨w, rfl⟩, hm⟩
    rw [score_eq eps l1 l2 G H he (by linarith)]
    exact congrArg Neg.neg (le_antisymm (leaf_value_optimal eps l1 l2 G H (by linarith) w) (hm _))
  unfold splitGain
  rw [key lg lh ml hl hml, key rg rh mr hr hmr, key _ _ mt (by linarith) hmt]
  ring

end field

/-! ### Concrete cases -/

/-- three bins; with the constraint `1` the boundary of the highest gain is skipped -/
example :
    let bins : List (Hist.Bin Rat) := [⟨0, 1, 2, -4, 2⟩, ⟨1, 2, 2, 6, 2⟩, ⟨2, 3, 2, -9, 2⟩]
    let gain := fun lg lh rg rh => splitGain (1 / 100) (1 / 2) 0 (0 : Rat) (fun _ => false) lg lh rg rh (-7) 6
    (histSplit (-1000) gain (allowed (1 / 100) [0] 0) (-7) 6 6 1 0 bins).threshold = 2 ∧
    (histSplit (-1000) gain (allowed (1 / 100) [-1] 0) (-7) 6 6 1 0 bins).threshold = 1 ∧
    (histSplit (-1000) gain (allowed (1 / 100) [1] 0) (-7) 6 6 1 0 bins).threshold = 2 := by decide +kernel

/-- two results of equal gain: the order of arrival decides the feature, not the gain -/
example :
    let a : Hist.Split Rat := { Hist.noSplit 0 5 with threshold := 1 }
    let b : Hist.Split Rat := { Hist.noSplit 1 5 with threshold := 2 }
    (collectBest (-1000) [a, b]).feature = 0 ∧ (collectBest (-1000) [b, a]).feature = 1 ∧
    (collectBest (-1000) [a, b]).gain = (collectBest (-1000) [b, a]).gain := by decide +kernel

example : Hist.IsOptimum (0 + 1 : Rat) (max 1 0) 5 1 (-4) ∧ Hist.IsOptimum (0 + 1 : Rat) (max 1 0) (-3) 1 (-1) ∧
    Hist.IsOptimum (0 + 1 : Rat) (max 1 0) (5 + -3) (1 + 1) (-(1 / 6)) ∧
    splitGain (1 : Rat) (1 / 2) 1 0 (fun _ => false) 5 1 (-3) 1 (5 + -3) (1 + 1) = -(1 / 6) - (-4 + -1) := by
  have opt : ∀ G H m : Rat, 0 ≤ H → score (1 : Rat) (1 / 2) 1 0 (fun _ => false) G H = -m → Hist.IsOptimum (0 + 1 : Rat) (max 1 0) G H m := by
    intro G H m hH h
    rw [score_eq 1 1 0 G H (by norm_num) (by linarith), neg_inj] at h
    exact ⟨⟨_, h⟩, fun w => h ▸ leaf_value_optimal 1 1 0 G H (by linarith) w⟩
  exact ⟨opt _ _ _ (by norm_num) (by decide +kernel), opt _ _ _ (by norm_num) (by decide +kernel), opt _ _ _ (by norm_num) (by decide +kernel),
    by decide +kernel⟩

end Scigo.Trainer
