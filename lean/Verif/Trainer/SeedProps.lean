import Verif.Trainer.Seed
import Verif.Trainer.ServeProps

/-!
# Reproducible LightGBM training

C241: a seed other than 0, or the deterministic mode, makes training independent of the clock, of the global generator and of the order
of maps. C242: GOSS draws other rows for every tree.
-/

set_option linter.unusedSectionVars false

namespace Scigo.Trainer

variable {α : Type}

/-! ### The numbers drawn -/

section
variable [DecidableEq α] [LT α] [DecidableLT α] [LE α] [DecidableLE α] [Zero α] [One α] [Add α] [Sub α] [Neg α] [Mul α] [Div α]

/-- training that draws no number depending on the run: a seed other than 0 is given; or the boosting type is not `goss` and the mode is
deterministic or there is no bagging -/
def Fixed (C : Config α) (S : Seeding α) : Prop :=
  S.seed ≠ 0 ∨ C.boosting ≠ "goss" ∧
    (S.deterministic = true ∨ C.baggingFreq ≤ 0 ∨ 1 ≤ C.baggingFraction ∨ C.baggingFraction ≤ 0)

theorem start_fixed (S : Seeding α) (G : Rng α) (h : S.seed ≠ 0 ∨ S.deterministic = true) (u u' : Nat) : S.start G u = S.start G u' := by
  have hc : ¬ (S.seed = 0 ∧ S.deterministic = false) := by
    rintro ⟨a, b⟩
    rcases h with h | h
    · exact h a
    · rw [b] at h; cases h
  simp only [Seeding.start, if_neg hc]

theorem values_world (C : Config α) (S : Seeding α) (G : Rng α) (scale : Int → α → Int) (P : Problem α) (w w' : World α)
    (h : S.seed ≠ 0 ∨ C.boosting ≠ "goss") (n k s : Nat) : C.values S G scale P w n k s = C.values S G scale P w' n k s := by
  induction n generalizing k s with
  | zero => rfl
  | succ n ih =>
    simp only [Config.values]
    by_cases hb : C.boosting = "goss"
    · have hs : S.seed ≠ 0 := h.resolve_right (fun c => c hb)
      rw [if_pos hb, if_pos hb]
      simp only [Seeding.gossValues, if_neg hs, ih]
    · rw [if_neg hb, if_neg hb]
      simp only [ih]

theorem values_unused (C : Config α) (S : Seeding α) (G : Rng α) (scale : Int → α → Int) (P : Problem α) (w : World α)
    (hb : C.boosting ≠ "goss") (h : C.baggingFreq ≤ 0 ∨ 1 ≤ C.baggingFraction ∨ C.baggingFraction ≤ 0) (n k s : Nat) :
    C.values S G scale P w n k s = List.replicate n [] := by
  induction n generalizing k s with
  | zero => rfl
  | succ n ih =>
    have e : ∀ s1, S.instanceValues G scale C.baggingFraction C.baggingFreq P.rows k s1 = ([], s1) := by
      intro s1
      unfold Seeding.instanceValues
      by_cases h1 : C.baggingFreq ≤ 0 ∨ (k : Int) % C.baggingFreq ≠ 0
      · rw [if_pos h1]
      · rw [if_neg h1, if_pos (h.resolve_left fun c => h1 (Or.inl c))]
    simp only [Config.values, if_neg hb, e, ih, List.replicate_succ]

theorem values_fixed (C : Config α) (S : Seeding α) (G : Rng α) (scale : Int → α → Int) (P : Problem α) (w w' : World α) (h : Fixed C S) (n : Nat) :
    C.values S G scale P w n 0 (S.start G w.uint32) = C.values S G scale P w' n 0 (S.start G w'.uint32) := by
  rcases h with h | ⟨hb, h | h⟩
  · rw [start_fixed S G (Or.inl h) w.uint32 w'.uint32, values_world C S G scale P w w' (Or.inl h)]
  · rw [start_fixed S G (Or.inr h) w.uint32 w'.uint32, values_world C S G scale P w w' (Or.inr hb)]
  · rw [values_unused C S G scale P w hb h, values_unused C S G scale P w' hb h]

/-! ### The order of maps -/

/-- what is assumed of the library here: sorting by category sorts, sorting by ratio keeps the bins, and `int(0.0)` is 0 -/
structure CatLib (lib : Lib α) : Prop where
  byCategory : SortsAsc (fun c : Hist.Cat α => c.category) lib.byCategory
  byRatio : ∀ l, (lib.byRatio l).Perm l
  zero : lib.toInt 0 = 0

theorem byCategory_order (srt iter iter' : List (Hist.Cat α) → List (Hist.Cat α)) (hs : SortsAsc (fun c : Hist.Cat α => c.category) srt)
    (hi : ∀ l, (iter l).Perm l) (hi' : ∀ l, (iter' l).Perm l) (toInt : α → Int) (x g h : Nat → α) (indices : List Nat) :
    srt (iter (Hist.catStats toInt x g h indices)) = srt (iter' (Hist.catStats toInt x g h indices)) := by
  have n1 := (Hist.catStats_spec toInt x g h indices).1
  set m := Hist.catStats toInt x g h indices with hm
  have p : ∀ it : List (Hist.Cat α) → List (Hist.Cat α), (∀ l, (it l).Perm l) → (srt (it m)).Perm m := fun it hit => (hs _).1.trans (hit m)
  have q : ∀ it : List (Hist.Cat α) → List (Hist.Cat α), (∀ l, (it l).Perm l) → (srt (it m)).Pairwise (fun a b => a.category < b.category) := by
    intro it hit
    have hnod : ((srt (it m)).map (·.category)).Nodup := ((p it hit).map _).nodup_iff.2 n1
    have h2 : (srt (it m)).Pairwise (fun a b => a.category ≠ b.category) := by
      unfold List.Nodup at hnod
      rwa [List.pairwise_map] at hnod
    exact ((hs (it m)).2.and h2).imp fun ⟨a, b⟩ => lt_of_le_of_ne (not_lt.1 a) b
  exact List.Perm.eq_of_pairwise (fun a b _ _ g1 g2 => absurd g1 (lt_asymm g2)) (q iter hi) (q iter' hi') ((p iter hi).trans (p iter' hi').symm)

/-- a split on a categorical feature names its left categories, or its threshold is 0 -/
def Named (categorical : List Int) (s : Hist.Split α) : Prop :=
  categorical.contains s.feature = true → s.leftCategories ≠ [] ∨ s.threshold = 0

theorem scan_named (hb : Hist.Builder α) (L : Hist.Lits α) (special : α → Bool) (bins : List (Hist.Bin α)) (describe : Nat → Hist.Split α → Hist.Split α)
    (f : Int) (tg th : α) (minData : Int) (Q : Hist.Split α → Prop) (h0 : Q (Hist.noSplit f 0))
    (hd : ∀ i s, i < bins.length → s.feature = f → (describe i s).feature = f ∧ Q (describe i s)) :
    Q (hb.scan L special bins describe f tg th minData) ∧ (hb.scan L special bins describe f tg th minData).feature = f := by
  unfold Hist.Builder.scan
  suffices h : ∀ (l : List Nat) (s : Hist.Scan α), Q s.best → s.best.feature = f →
      Q (l.foldl (hb.scanStep L special bins describe tg th minData) s).best ∧
      (l.foldl (hb.scanStep L special bins describe tg th minData) s).best.feature = f from h _ _ h0 rfl
  intro l
  induction l with
  | nil => exact fun s a b => ⟨a, b⟩
  | cons i l ih =>
    intro s hq hf
    rw [List.foldl_cons]
    refine ih _ ?_ ?_ <;>
    · unfold Hist.Builder.scanStep
      split
      · assumption
      · rename_i b hb'
        dsimp only
        split
        · assumption
        · split
          · have := hd i (s.best.fill (hb.gain L special (s.lg + b.grad) (s.lh + b.hess) (tg - (s.lg + b.grad)) (th - (s.lh + b.hess)) tg th)
              (s.lc + b.count) (Hist.rightCount bins i) (s.lg + b.grad) (tg - (s.lg + b.grad)) (s.lh + b.hess) (th - (s.lh + b.hess)))
              (List.getElem?_eq_some_iff.1 hb').1 hf
            first | exact this.1 | exact this.2
          · assumption

theorem featureSplit_named (lib : Lib α) (hr : ∀ l, (lib.byRatio l).Perm l) (hb : Hist.Builder α) (categorical : List Int) (minData : Int) (D : Data α)
    (indices : List Nat) (j : Nat) : Named categorical (featureSplit lib hb categorical minData D indices j) := by
  unfold featureSplit
  by_cases hc : categorical.contains (j : Int) = true
  · rw [if_pos hc]
    unfold Hist.Builder.findCategorical
    split
    · exact fun _ => Or.inr rfl
    · refine (scan_named hb lib.lits lib.special _ _ _ _ _ minData (Named categorical) (fun _ => Or.inr rfl) ?_).1
      intro i s hi hf
      refine ⟨hf, fun _ => Or.inl ?_⟩
      intro he
      have := congrArg List.length he
      simp at this
      have h0 : 0 < (lib.byRatio (Hist.buildCategorical lib.toInt lib.ofInt lib.iter lib.byCategory j (fun i => D.x i j) D.g D.h indices).bins).length :=
        lt_of_le_of_lt (Nat.zero_le i) hi
      rw [this] at h0
      exact absurd h0 (lt_irrefl 0)
  · rw [if_neg hc]
    intro h
    exfalso
    apply hc
    unfold Hist.Builder.findSplit at h
    rw [(scan_named hb lib.lits lib.special _ _ _ _ _ minData (fun _ => True) trivial (fun i s _ hf => by
      refine ⟨?_, trivial⟩
      split
      · exact hf
      · exact hf)).2] at h
    exact h

theorem findBestSplit_named (lib : Lib α) (hr : ∀ l, (lib.byRatio l).Perm l) (hb : Hist.Builder α) (categorical : List Int) (minData : Int) (minGain : α)
    (D : Data α) (indices : List Nat) : Named categorical (findBestSplit lib hb categorical minData minGain D indices) := by
  unfold findBestSplit
  have h : ∀ (l : List (Hist.Split α)) (b : Hist.Split α), (∀ s ∈ l, Named categorical s) → Named categorical b →
      Named categorical (l.foldl (fun best s => if best.gain < s.gain then s else best) b) := by
    intro l
    induction l with
    | nil => exact fun b _ h => h
    | cons s l ih =>
      intro b hl hb
      rw [List.foldl_cons]
      refine ih _ (fun t ht => hl t (List.mem_cons_of_mem _ ht)) ?_
      split
      · exact hl s List.mem_cons_self
      · exact hb
  have := h ((List.range D.cols).map (featureSplit lib hb categorical minData D indices)) (Hist.noSplit (-1) (-1)) (by
    intro s hs
    obtain ⟨j, -, rfl⟩ := List.mem_map.1 hs
    exact featureSplit_named lib hr hb categorical minData D indices j) (fun _ => Or.inr rfl)
  unfold Hist.finish Hist.pickBest
  split
  · exact this
  · exact this

theorem buildNode_congr (G G' : Grower α) (h1 : G'.lim = G.lim) (h2 : G'.adjusted = G.adjusted) (h3 : G'.find = G.find) (h4 : G'.leaf = G.leaf)
    (h5 : G'.x = G.x) (h6 : G'.categorical = G.categorical) (h7 : G'.toInt = G.toInt)
    (h8 : ∀ I, G'.categories I (G.find I) = G.categories I (G.find I)) (fuel : Nat) :
    ∀ nodes I depth, G'.buildNode fuel nodes I depth = G.buildNode fuel nodes I depth := by
  have hc : ∀ f, G'.isCat f = G.isCat f := fun f => by unfold Grower.isCat; rw [h6]
  have hg : ∀ I i, G'.goesLeft I (G.find I) i = G.goesLeft I (G.find I) i := by
    intro I i
    unfold Grower.goesLeft
    rw [hc, h8, h5, h7]
  have hst : ∀ n I d, G'.stops n I d = G.stops n I d := fun n I d => by unfold Grower.stops; rw [h1, h2]
  have hrf : ∀ s, G'.refuses s = G.refuses s := fun s => by unfold Grower.refuses; rw [h1]
  have hsp : ∀ I, G'.splitNode I (G.find I) = G.splitNode I (G.find I) := fun I => by unfold Grower.splitNode; rw [hc, h8]
  have hl : ∀ I, G'.leftOf I (G.find I) = G.leftOf I (G.find I) := fun I => by unfold Grower.leftOf; simp only [hg]
  have hrt : ∀ I, G'.rightOf I (G.find I) = G.rightOf I (G.find I) := fun I => by unfold Grower.rightOf; simp only [hg]
  induction fuel with
  | zero => intros; rfl
  | succ n ih =>
    intro nodes I depth
    simp only [Grower.buildNode, h3, h4, hst, hrf, hsp, hl, hrt, ih]

theorem buildTree_order (lib : Lib α) (hl : CatLib lib) (iter iter' : List (Hist.Cat α) → List (Hist.Cat α)) (hi : ∀ l, (iter l).Perm l)
    (hi' : ∀ l, (iter' l).Perm l) (hb : Hist.Builder α) (lim : Limits α) (categorical : List Int) (D : Data α) (lr : α) (fuel : Nat) (I : List Nat) :
    (grower { lib with iter := iter' } hb lim categorical D).buildTree lr fuel I =
      (grower { lib with iter := iter } hb lim categorical D).buildTree lr fuel I := by
  have hf : ∀ I j, featureSplit { lib with iter := iter' } hb categorical lim.minData D I j =
      featureSplit { lib with iter := iter } hb categorical lim.minData D I j := by
    intro I j
    unfold featureSplit Hist.buildCategorical
    rw [show ({ lib with iter := iter' } : Lib α).byCategory (({ lib with iter := iter' } : Lib α).iter
        (Hist.catStats ({ lib with iter := iter' } : Lib α).toInt (fun i => D.x i j) D.g D.h I)) = _ from
      byCategory_order lib.byCategory iter' iter hl.byCategory hi' hi lib.toInt _ _ _ I]
  have hfind : findBestSplit { lib with iter := iter' } hb categorical lim.minData lim.minGain D =
      findBestSplit { lib with iter := iter } hb categorical lim.minData lim.minGain D := by
    funext I
    unfold findBestSplit
    rw [show featureSplit { lib with iter := iter' } hb categorical lim.minData D I = featureSplit { lib with iter := iter } hb categorical lim.minData D I from
      funext (hf I)]
  unfold Grower.buildTree
  rw [buildNode_congr (grower { lib with iter := iter } hb lim categorical D) (grower { lib with iter := iter' } hb lim categorical D) rfl rfl hfind rfl rfl rfl
    rfl]
  intro J
  have hn := findBestSplit_named { lib with iter := iter } hl.byRatio hb categorical lim.minData lim.minGain D J
  show (if categorical.contains (findBestSplit { lib with iter := iter } hb categorical lim.minData lim.minGain D J).feature then _ else []) =
    (if categorical.contains (findBestSplit { lib with iter := iter } hb categorical lim.minData lim.minGain D J).feature then _ else [])
  by_cases hc : categorical.contains (findBestSplit { lib with iter := iter } hb categorical lim.minData lim.minGain D J).feature = true
  · rw [if_pos hc, if_pos hc]
    show (if 0 < (findBestSplit { lib with iter := iter } hb categorical lim.minData lim.minGain D J).leftCategories.length then _ else
        getCategories { lib with iter := iter' } D J (findBestSplit { lib with iter := iter } hb categorical lim.minData lim.minGain D J)) =
      (if 0 < (findBestSplit { lib with iter := iter } hb categorical lim.minData lim.minGain D J).leftCategories.length then _ else
        getCategories { lib with iter := iter } D J (findBestSplit { lib with iter := iter } hb categorical lim.minData lim.minGain D J))
    split
    · rfl
    · rename_i h0
      have ht := (hn hc).resolve_left (fun c => h0 (List.length_pos_iff.2 c))
      unfold getCategories
      simp [ht, hl.zero]
  · rw [if_neg hc, if_neg hc]

theorem iterate_order (C : Config α) (lib : Lib α) (hl : CatLib lib) (iter iter' : List (Hist.Cat α) → List (Hist.Cat α)) (hi : ∀ l, (iter l).Perm l)
    (hi' : ∀ l, (iter' l).Perm l) (byGrad : (Nat → α) → List Nat → List Nat) (rand : Nat → Nat → Nat) (fuel : Nat) (P : Problem α) (k : Nat) (st : St α) :
    C.iterate { lib with iter := iter' } byGrad rand fuel P k st = C.iterate { lib with iter := iter } byGrad rand fuel P k st := by
  unfold Config.iterate
  simp only [Config.sample, buildTree_order lib hl iter iter' hi hi']

theorem fit_order (C : Config α) (lib : Lib α) (hl : CatLib lib) (iter iter' : List (Hist.Cat α) → List (Hist.Cat α)) (hi : ∀ l, (iter l).Perm l)
    (hi' : ∀ l, (iter' l).Perm l) (byGrad : (Nat → α) → List Nat → List Nat) (rand : Nat → Nat → Nat) (fuel : Nat) (P : Problem α)
    (before after : Nat → St α → CB) (st : St α) :
    C.fit { lib with iter := iter' } byGrad rand fuel P before after st = C.fit { lib with iter := iter } byGrad rand fuel P before after st := by
  unfold Config.fit
  suffices h : ∀ n k st, C.run { lib with iter := iter' } byGrad rand fuel P before after n k st =
      C.run { lib with iter := iter } byGrad rand fuel P before after n k st from h _ _ _
  intro n
  induction n with
  | zero => intros; rfl
  | succ n ih =>
    intro k st
    simp only [Config.run, iterate_order C lib hl iter iter' hi hi', ih]

/-! ### The properties -/

/-- **C241** (the part that holds) Training a new trainer on the same data with the same parameters and callbacks returns the same result and
leaves the same trees, cached scores and losses in every run, whatever the clock, the global generator and the order of maps, provided a
seed other than 0 is given, or the boosting type is not `goss` and training is deterministic or without bagging. What is missing:
`goss` with the default seed 0, see `train_clock`. -/
theorem train_reproducible_partial (C : Config α) (S : Seeding α) (G : Rng α) (lib : Lib α) (hl : CatLib lib) (w w' : World α)
    (hw : ∀ l, (w.iter l).Perm l) (hw' : ∀ l, (w'.iter l).Perm l) (h : Fixed C S) (byGrad : (Nat → α) → List Nat → List Nat) (fuel : Nat)
    (P : Problem α) (before after : Nat → St α → CB) :
    C.fitSeeded S G lib w byGrad fuel P before after = C.fitSeeded S G lib w' byGrad fuel P before after := by
  unfold Config.fitSeeded
  simp only [values_fixed C S G lib.scale P w w' h]
  exact fit_order C lib hl w'.iter w.iter hw' hw byGrad _ fuel P before after St.new

/-- the positions drawn by GOSS in iteration `k` -/
theorem goss_values (C : Config α) (S : Seeding α) (G : Rng α) (scale : Int → α → Int) (P : Problem α) (w : World α) (hb : C.boosting = "goss")
    (n k i s : Nat) (hi : i < n) :
    (C.values S G scale P w n k s)[i]? = some (S.gossValues G scale C.topRate C.otherRate P.rows (w.clock (k + i))) := by
  induction n generalizing k i s with
  | zero => exact absurd hi (Nat.not_lt_zero i)
  | succ n ih =>
    simp only [Config.values, if_pos hb]
    cases i with
    | zero => rfl
    | succ i =>
      rw [List.getElem?_cons_succ, ih (k + 1) i _ (Nat.lt_of_succ_lt_succ hi), Nat.add_right_comm, Nat.add_assoc]

theorem swapAt_map {β γ : Type} (f : β → γ) (l : List β) (i j : Nat) : swapAt (l.map f) i j = (swapAt l i j).map f := by
  unfold swapAt
  simp only [List.getElem?_map]
  cases l[i]? <;> cases l[j]? <;> simp [List.map_set]

theorem swapAt_length {β : Type} (l : List β) (i j : Nat) : (swapAt l i j).length = l.length := by
  unfold swapAt
  split <;> simp

theorem shuffleFrom_map {β γ : Type} (f : β → γ) (r : Nat → Nat) (m i : Nat) (l : List β) :
    shuffleFrom r m i (l.map f) = (shuffleFrom r m i l).map f := by
  induction m generalizing i l with
  | zero => rfl
  | succ m ih => simp only [shuffleFrom, List.length_map, swapAt_map, ih]

theorem draw_map {β γ : Type} (f : β → γ) (r : Nat → Nat) (m : Nat) (l : List β) : draw r m (l.map f) = (draw r m l).map f := by
  unfold draw
  rw [shuffleFrom_map, List.map_take]

theorem range_getD (l : List Nat) (n : Nat) (h : l.length = n) : (List.range n).map (fun i => l.getD i 0) = l := by
  refine List.ext_getElem (by simp [h]) (fun i h1 h2 => ?_)
  simp only [List.getElem_map, List.getElem_range]
  exact (List.getElem_eq_getD 0).symm

theorem foldl_amplify_selected (amp : α) (l : List Nat) (s : Goss α) : (l.foldl (amplify amp) s).selected = s.selected := by
  induction l generalizing s with
  | nil => rfl
  | cons k l ih => rw [List.foldl_cons, ih]; rfl

/-- the rows `goss` selects: the first `top` and some others drawn from the rest, in the order of the gradients -/
theorem goss_selected (scale : Int → α → Int) (byGrad : List Nat → List Nat) (r : Nat → Nat) (topRate otherRate : α) (rows : Nat) (g h : Nat → α) :
    (goss scale byGrad r topRate otherRate rows g h).selected =
      (if 0 < otherCount scale rows topRate otherRate ∧ topCount scale rows topRate < rows then
        (byGrad (List.range rows)).take (topCount scale rows topRate) ++
          draw r (min (otherCount scale rows topRate otherRate) (rows - topCount scale rows topRate)) ((byGrad (List.range rows)).drop (topCount scale rows topRate))
      else (byGrad (List.range rows)).take (topCount scale rows topRate)) := by
  unfold goss
  dsimp only
  split
  · split
    · rw [foldl_amplify_selected]
    · rfl
  · rfl

/-- **C242** (false) With a seed other than 0 GOSS does not sample anew for every tree: there is one list of ranks, fixed before training, and
every tree of every run is grown from the rows at these ranks in the order of decreasing gradients. A row whose rank is not among them in any
iteration is never used. -/
theorem goss_ranks_repeat (C : Config α) (S : Seeding α) (G : Rng α) (lib : Lib α) (byGrad : (Nat → α) → List Nat → List Nat)
    (hg : ∀ g l, (byGrad g l).Perm l) (P : Problem α) (hb : C.boosting = "goss") (hs : S.seed ≠ 0) :
    ∃ ranks : List Nat, ∀ (w : World α) (k : Nat), k < C.iterations → ∀ g h : Nat → α,
      (C.sample lib byGrad (fun i => ((C.values S G lib.scale P w C.iterations 0 (S.start G w.uint32)).getD k []).getD i 0) P k g h).1 =
        ranks.map fun i => (byGrad g (List.range P.rows)).getD i 0 := by
  set top := topCount lib.scale P.rows C.topRate with ht
  set other := otherCount lib.scale P.rows C.topRate C.otherRate with ho
  set vals := S.gossValues G lib.scale C.topRate C.otherRate P.rows 0 with hv
  refine ⟨if 0 < other ∧ top < P.rows then (List.range P.rows).take top ++
    draw (fun i => vals.getD i 0) (min other (P.rows - top)) ((List.range P.rows).drop top) else (List.range P.rows).take top, ?_⟩
  intro w k hk g h
  have hval : (C.values S G lib.scale P w C.iterations 0 (S.start G w.uint32)).getD k [] = vals := by
    rw [List.getD_eq_getElem?_getD, goss_values C S G lib.scale P w hb _ _ _ _ hk]
    simp only [hv, Seeding.gossValues, if_neg hs, Option.getD_some]
  rw [hval]
  simp only [Config.sample, if_pos hb]
  rw [goss_selected, ← ht, ← ho]
  have hr := range_getD (byGrad g (List.range P.rows)) P.rows (by rw [(hg g _).length_eq, List.length_range])
  split
  · rw [List.map_append, ← draw_map, List.map_drop, List.map_take, hr]
  · rw [List.map_take, hr]

/-- specification: the state of the generator before the `j`-th of the draws `IntN(n), IntN(n-1), …` -/
def stateBefore (G : Rng α) (n s : Nat) : Nat → Nat
  | 0 => s
  | j + 1 => (G.int (stateBefore G n s j) (n - j)).2

/-- **C241** (law-free): a sample without replacement makes one draw per element; the `j`-th is `IntN(n - j)`, among the elements not yet taken, from the state
that the draw before it left; the generator is left in the state after the last draw. -/
theorem draws_among_the_rest (G : Rng α) (m n s : Nat) :
    (drawValues G m n s).1 = (List.range m).map (fun j => (G.int (stateBefore G n s j) (n - j)).1) ∧
    (drawValues G m n s).2 = stateBefore G n s m := by
  have shift : ∀ (n s j : Nat), stateBefore G (n - 1) (G.int s n).2 j = stateBefore G n s (j + 1) := by
    intro n s j
    induction j with
    | zero => rfl
    | succ j ih =>
      rw [stateBefore, ih, show n - 1 - j = n - (j + 1) by omega]
      rfl
  induction m generalizing n s with
  | zero => exact ⟨rfl, rfl⟩
  | succ m ih =>
    obtain ⟨e1, e2⟩ := ih (n - 1) (G.int s n).2
    rw [drawValues]
    dsimp only
    rw [e1, e2, shift]
    refine ⟨?_, rfl⟩
    rw [List.range_succ_eq_map, List.map_cons, List.map_map]
    congr 1
    refine List.map_congr_left fun j _ => ?_
    simp only [Function.comp_apply, shift, Nat.succ_eq_add_one]
    rw [show n - 1 - j = n - (j + 1) by omega]

/-- **C241** What the deterministic mode changes in bagging. Without it the numbers drawn in an iteration follow from the state of the generator, whatever
the iteration. With it they follow from the iteration and the next number of the generator, whatever else its state is. -/
theorem bagging_mode (S : Seeding α) (G : Rng α) (scale : Int → α → Int) (fraction : α) (freq : Int) (rows : Nat) :
    (S.deterministic = false → ∀ i j s : Nat, (i : Int) % freq = 0 → (j : Int) % freq = 0 →
      S.instanceValues G scale fraction freq rows i s = S.instanceValues G scale fraction freq rows j s) ∧
    (S.deterministic = true → 0 < freq → ¬ 1 ≤ fraction → ¬ fraction ≤ 0 → ∀ i s s' : Nat, (i : Int) % freq = 0 → (G.u64 s).1 = (G.u64 s').1 →
      S.instanceValues G scale fraction freq rows i s = S.instanceValues G scale fraction freq rows i s') := by
  unfold Seeding.instanceValues Seeding.reseed
  refine ⟨fun hd i j s hi hj => ?_, fun hd hf h1 h0 i s s' hi hu => ?_⟩
  · simp only [hd, hi, hj, Bool.false_eq_true, if_false]
  · have c1 : ¬ (freq ≤ 0 ∨ (i : Int) % freq ≠ 0) := by rintro (h | h); exacts [absurd hf (not_lt.2 h), h hi]
    have c2 : ¬ (1 ≤ fraction ∨ fraction ≤ 0) := not_or.2 ⟨h1, h0⟩
    simp only [if_neg c1, if_neg c2, hd, if_true, hu]

/-- **C242** (the part that holds) With seed 0 the rows of each tree are drawn by a generator of its own, seeded with the clock read in its
iteration. What is missing: with a seed the generator starts from the same state for every tree, see `goss_ranks_repeat`. -/
theorem goss_fresh_partial (C : Config α) (S : Seeding α) (G : Rng α) (scale : Int → α → Int) (P : Problem α) (hb : C.boosting = "goss") (hs : S.seed = 0)
    (w : World α) (k : Nat) (hk : k < C.iterations) :
    (C.values S G scale P w C.iterations 0 (S.start G w.uint32))[k]? =
      some (drawValues G (min (otherCount scale P.rows C.topRate C.otherRate) (P.rows - topCount scale P.rows C.topRate))
        (P.rows - topCount scale P.rows C.topRate) (G.pcg (toU64 (w.clock k)) (toU64 (w.clock k)))).1 := by
  rw [goss_values C S G scale P w hb _ _ _ _ hk, Nat.zero_add]
  simp only [Seeding.gossValues, if_pos hs]

end

/-! ### Concrete runs -/

/-- a counter as generator -/
def countGen : Rng Rat where
  pcg := fun a _ => a
  u64 := fun s => (s, s + 1)
  int := fun s _ => (s, s + 1)
  norm := fun s => (s, s + 1)
  flt := fun s => (s, s + 1)

/-- GOSS on four rows: the row with the largest gradient and one of the other three -/
def exGoss (iterations : Nat) : Config Rat := { exConfig iterations (1 / 2) with boosting := "goss", topRate := 1 / 4, otherRate := 1 / 3 }

/-- a run that starts at time `t` -/
def exWorld (t : Int) : World Rat := ⟨0, fun k => t + k, id⟩

/-- sorting by decreasing absolute gradient -/
def exByGrad (g : Nat → Rat) : List Nat → List Nat := stableDesc fun i => |g i|

/-- **C241** is false for `goss` with the default seed: also in the deterministic mode two runs that differ in the time of day only end with
different scores. -/
theorem train_clock (deterministic : Bool) :
    ∃ (C : Config Rat) (G : Rng Rat) (P : Problem Rat) (w w' : World Rat), C.boosting = "goss" ∧ w.uint32 = w'.uint32 ∧ w.iter = w'.iter ∧
      ∃ a b, cached (C.fitSeeded ⟨0, deterministic, 1⟩ G exSlow w exByGrad 5 P go go) = some a ∧
        cached (C.fitSeeded ⟨0, deterministic, 1⟩ G exSlow w' exByGrad 5 P go go) = some b ∧ a ≠ b := by
  refine ⟨exGoss 1, countGen, exProblem [1, 2, 3, 4] [0, 1, 5, 30], exWorld 0, exWorld 1, rfl, rfl, rfl, ?_⟩
  have h : ∀ d, (cached ((exGoss 1).fitSeeded ⟨0, d, 1⟩ countGen exSlow (exWorld 0) exByGrad 5 (exProblem [1, 2, 3, 4] [0, 1, 5, 30]) go go)).isSome = true ∧
      (cached ((exGoss 1).fitSeeded ⟨0, d, 1⟩ countGen exSlow (exWorld 1) exByGrad 5 (exProblem [1, 2, 3, 4] [0, 1, 5, 30]) go go)).isSome = true ∧
      cached ((exGoss 1).fitSeeded ⟨0, d, 1⟩ countGen exSlow (exWorld 0) exByGrad 5 (exProblem [1, 2, 3, 4] [0, 1, 5, 30]) go go) ≠
      cached ((exGoss 1).fitSeeded ⟨0, d, 1⟩ countGen exSlow (exWorld 1) exByGrad 5 (exProblem [1, 2, 3, 4] [0, 1, 5, 30]) go go) := by
    decide +kernel
  obtain ⟨h1, h2, h3⟩ := h deterministic
  obtain ⟨a, ha⟩ := Option.isSome_iff_exists.1 h1
  obtain ⟨b, hb⟩ := Option.isSome_iff_exists.1 h2
  exact ⟨a, b, ha, hb, fun e => h3 (by rw [ha, hb, e])⟩

theorem exSlow_cat : CatLib exSlow := ⟨stableAsc_sorts _, fun l => (stableAsc_sorts _ l).1, by decide +kernel⟩

/-- bagging of half of the rows in every iteration, with a categorical feature -/
def exBag : Config Rat := { exConfig 2 (1 / 2) with baggingFraction := 1 / 2, baggingFreq := 1, categorical := [0] }

example (w w' : World Rat) (hw : ∀ l, (w.iter l).Perm l) (hw' : ∀ l, (w'.iter l).Perm l) :
    exBag.fitSeeded ⟨0, true, 1⟩ countGen exSlow w exByGrad 5 (exProblem [1, 2, 3, 4] [0, 1, 5, 30]) go go =
      exBag.fitSeeded ⟨0, true, 1⟩ countGen exSlow w' exByGrad 5 (exProblem [1, 2, 3, 4] [0, 1, 5, 30]) go go :=
  train_reproducible_partial exBag _ countGen exSlow exSlow_cat w w' hw hw' (Or.inr ⟨by decide, Or.inl rfl⟩) exByGrad 5 _ go go

/-- bagging with seed 0 and without the deterministic mode depends on the global generator -/
example : cached (exBag.fitSeeded ⟨0, false, 1⟩ countGen exSlow ⟨0, fun _ => 0, id⟩ exByGrad 5 (exProblem [1, 2, 3, 4] [0, 1, 5, 30]) go go) ≠
    cached (exBag.fitSeeded ⟨0, false, 1⟩ countGen exSlow ⟨1, fun _ => 0, id⟩ exByGrad 5 (exProblem [1, 2, 3, 4] [0, 1, 5, 30]) go go) := by
  decide +kernel

/-- the hypotheses of `goss_ranks_repeat` and of `goss_fresh_partial` -/
example : (exGoss 3).boosting = "goss" ∧ (∀ (g : Nat → Rat) l, (exByGrad g l).Perm l) ∧ 2 < (exGoss 3).iterations :=
  ⟨rfl, fun _ l => (stableDesc_sorts _ l).1, by decide⟩

end Scigo.Trainer

namespace Scigo.Trainer
variable {α : Type}
theorem toU64_small (a : Int) (h0 : 0 ≤ a) (h : a < 2 ^ 63) : toU64 a = a.toNat := by
  unfold toU64
  rw [Int.emod_eq_of_lt h0 (by omega)]

/-- **C241** (law-free): the seed decides about the generator of the sampler: whatever the mode and the global generator, it is the PCG generator of the seed; with the
seed 0 outside the deterministic mode it is that of a number drawn from the global generator. Two different seeds give different generators whenever PCG
tells the two seeds apart. -/
theorem seed_decides (S T : Seeding α) (G : Rng α) (u u' : Nat) (hS : 0 < S.seed ∧ S.seed < 2 ^ 63) (hT : 0 < T.seed ∧ T.seed < 2 ^ 63) :
    S.start G u = G.pcg S.seed.toNat S.seed.toNat ∧
    (∀ Z : Seeding α, Z.seed = 0 → Z.deterministic = false → u < 2 ^ 32 → Z.start G u = G.pcg u u) ∧
    ((∀ a b, G.pcg a a = G.pcg b b → a = b) → (S.start G u = T.start G u' ↔ S.seed = T.seed)) := by
  have key : ∀ (R : Seeding α) (v : Nat), 0 < R.seed ∧ R.seed < 2 ^ 63 → R.start G v = G.pcg R.seed.toNat R.seed.toNat := by
    intro R v h
    unfold Seeding.start
    dsimp only
    rw [if_neg (by omega), toU64_small _ h.1.le h.2]
  refine ⟨key S u hS, fun Z h0 hd hu => ?_, fun hi => ?_⟩
  · unfold Seeding.start
    dsimp only
    rw [if_pos ⟨h0, hd⟩, toU64_small _ (by omega) (by omega)]
    rfl
  · rw [key S u hS, key T u' hT]
    constructor
    · intro h
      have := hi _ _ h
      omega
    · intro h; rw [h]

/-- the seeds 42 and 7 with a generator whose state is the first seed -/
example (G : Rng ℚ) (hG : G.pcg = fun a _ => a) (u : Nat) : (⟨42, true, 1⟩ : Seeding ℚ).start G u = 42 ∧ (⟨42, false, 1⟩ : Seeding ℚ).start G u ≠ (⟨7, false, 1⟩ : Seeding ℚ).start G u := by
  have a := seed_decides (⟨42, true, 1⟩ : Seeding ℚ) ⟨7, false, 1⟩ G u u (by decide) (by decide)
  have b := seed_decides (⟨42, false, 1⟩ : Seeding ℚ) ⟨7, false, 1⟩ G u u (by decide) (by decide)
  refine ⟨by rw [a.1, hG]; rfl, fun c => ?_⟩
  have := (b.2.2 (by rw [hG]; exact fun _ _ h => h)).1 c
  exact absurd this (by decide)

end Scigo.Trainer
