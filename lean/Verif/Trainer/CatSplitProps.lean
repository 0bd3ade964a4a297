import Verif.Trainer.CatSplit
import Verif.Trainer.MonoProps
import Verif.Hist.OptimalProps

/-!
# C265: the split search for categorical features on the categories of the rows
-/

set_option linter.unusedSectionVars false

namespace Scigo.Trainer

open Hist (rowsOf groupRows)

variable {α : Type} [Field α] [LinearOrder α] [IsStrictOrderedRing α]

/-- the entry of category `c`: its rows and their sums -/
def entryOf (toInt : α → Int) (x g h : Nat → α) (indices : List Nat) (c : Int) : Hist.Cat α :=
  ⟨c, (rowsOf toInt x indices c).length, sumOver (rowsOf toInt x indices c) g, sumOver (rowsOf toInt x indices c) h⟩

theorem stats_perm (toInt : α → Int) (x g h : Nat → α) (indices : List Nat) (l : List (Hist.Cat α))
    (hperm : l.Perm (Hist.catStats toInt x g h indices)) :
    (l.map (·.category)).Nodup ∧ (∀ c, c ∈ l.map (·.category) ↔ ∃ i ∈ indices, toInt (x i) = c) ∧
      l = (l.map (·.category)).map (entryOf toInt x g h indices) := by
  obtain ⟨n1, n2⟩ := Hist.catStats_spec toInt x g h indices
  set m := Hist.catStats toInt x g h indices with hm
  have ent : ∀ e ∈ m, (∃ i ∈ indices, toInt (x i) = e.category) ∧ e = entryOf toInt x g h indices e.category := by
    intro e he
    have := (Hist.entry_mem m n1 e).1 he
    rw [n2] at this
    split_ifs at this with hr
    refine ⟨?_, (Option.some.inj this).symm⟩
    obtain ⟨i, hi⟩ := List.exists_mem_of_ne_nil _ hr
    obtain ⟨h1, h2⟩ := List.mem_filter.1 hi
    exact ⟨i, h1, by simpa using h2⟩
  refine ⟨(hperm.map _).nodup_iff.2 n1, fun c => ?_, ?_⟩
  · rw [(hperm.map _).mem_iff]
    constructor
    · intro hc
      obtain ⟨e, he, rfl⟩ := List.mem_map.1 hc
      exact (ent e he).1
    · rintro ⟨i, hi, e⟩
      have hin : i ∈ rowsOf toInt x indices c := List.mem_filter.2 ⟨hi, by simpa using e⟩
      have := n2 c
      rw [if_neg (List.ne_nil_of_mem hin)] at this
      exact List.mem_map.2 ⟨_, List.mem_of_find?_eq_some this, rfl⟩
  · rw [List.map_map]
    have : ∀ l' : List (Hist.Cat α), (∀ e ∈ l', e ∈ m) → l' = l'.map (entryOf toInt x g h indices ∘ fun c => c.category) := by
      intro l'
      induction l' with
      | nil => intro _; rfl
      | cons a l' ih =>
        intro hl
        rw [List.map_cons, ← ih fun e he => hl e (List.mem_cons_of_mem _ he), Function.comp_apply, ← (ent a (hl a List.mem_cons_self)).2]
    exact this l fun e he => hperm.mem_iff.1 he

/-- specification: membership in the first `k` categories -/
def firstCats (cs : List Int) (k : Nat) (c : Int) : Bool := decide (c ∈ cs.take k)

theorem filter_take (cs : List Int) (hn : cs.Nodup) (k : Nat) : cs.filter (firstCats cs k) = cs.take k := by
  conv_lhs => rw [← List.take_append_drop k cs]
  have hd : List.Disjoint (cs.take k) (cs.drop k) := List.disjoint_take_drop hn (le_refl k)
  rw [List.filter_append, List.filter_eq_self.2, List.filter_eq_nil_iff.2, List.append_nil]
  · intro a ha
    rw [List.take_append_drop]
    unfold firstCats
    simpa using fun h => hd h ha
  · intro a ha
    rw [List.take_append_drop]
    unfold firstCats
    simpa using ha

theorem sum_prefix (toInt : α → Int) (x f : Nat → α) (cs : List Int) (hn : cs.Nodup) (indices : List Nat) (hc : ∀ i ∈ indices, toInt (x i) ∈ cs) (k : Nat) :
    ((cs.take k).map fun c => sumOver (rowsOf toInt x indices c) f).sum = sumOver (groupRows toInt x indices (firstCats cs k)) f := by
  rw [sumOver_eq, ← Hist.sum_by_category toInt x f cs hn (firstCats cs k) indices hc, filter_take cs hn k]
  congr 1
  exact List.map_congr_left fun c _ => sumOver_eq _ _

theorem count_prefix (toInt : α → Int) (x : Nat → α) (cs : List Int) (hn : cs.Nodup) (indices : List Nat) (hc : ∀ i ∈ indices, toInt (x i) ∈ cs) (k : Nat) :
    ((cs.take k).map fun c => ((rowsOf toInt x indices c).length : Int)).sum = (groupRows toInt x indices (firstCats cs k)).length := by
  have key := sum_prefix (α := ℚ) (fun q => q.num) (fun i => (toInt (x i) : ℚ)) (fun _ => 1) cs hn indices (by simpa using hc) k
  have one : ∀ l : List Nat, sumOver l (fun _ => (1 : ℚ)) = ((l.length : Int) : ℚ) := by
    intro l
    rw [sumOver_eq]
    simp
  have er : ∀ c, rowsOf (fun q : ℚ => q.num) (fun i => (toInt (x i) : ℚ)) indices c = rowsOf toInt x indices c := by
    intro c
    unfold rowsOf
    exact List.filter_congr fun i _ => decide_eq_decide.2 (by dsimp only; rw [Rat.num_intCast])
  have eg : groupRows (fun q : ℚ => q.num) (fun i => (toInt (x i) : ℚ)) indices (firstCats cs k) = groupRows toInt x indices (firstCats cs k) := by
    unfold groupRows
    exact List.filter_congr fun i _ => by simp only [Rat.num_intCast]
  simp only [one, er, eg] at key
  have : ∀ l : List Int, (l.map fun c => (((rowsOf toInt x indices c).length : Int) : ℚ)).sum = (((l.map fun c => ((rowsOf toInt x indices c).length : Int)).sum : Int) : ℚ) := by
    intro l
    induction l with
    | nil => simp
    | cons a l ih => rw [List.map_cons, List.sum_cons, ih, List.map_cons, List.sum_cons, Int.cast_add]
  rw [this] at key
  exact_mod_cast key

theorem bins_take (ofNat : Nat → α) (cats : List (Hist.Cat α)) (F : Hist.Bin α → β) (G : Hist.Cat α → β)
    (hF : ∀ c : Hist.Cat α, ∀ v, F ⟨0, v, c.count, c.grad, c.hess⟩ = G c) (n : Nat) :
    ((catBins ofNat cats).take n).map F = (cats.take n).map G := by
  have gen : ∀ (l : List (Hist.Cat α)) (s : Nat),
      ((l.zipIdx s).map fun p => (⟨0, ofNat (p.2 + 1), p.1.count, p.1.grad, p.1.hess⟩ : Hist.Bin α)).map F = l.map G := by
    intro l
    induction l with
    | nil => intro s; rfl
    | cons a l ih =>
      intro s
      rw [List.zipIdx_cons, List.map_cons, List.map_cons, ih, List.map_cons, hF]
  rw [List.map_take, List.map_take]
  unfold catBins
  rw [gen]

theorem keeps_categories (gain : α → α → α → α → α) (ok : α → α → α → α → Bool) (tg th : α) (tc minData : Int) (bins : List (Hist.Bin α)) (s : Hist.Scan α) :
    (bins.foldl (histStep gain ok tg th tc minData) s).best.leftCategories = s.best.leftCategories := by
  induction bins generalizing s with
  | nil => rfl
  | cons b bins ih =>
    rw [List.foldl_cons, ih]
    unfold histStep
    dsimp only
    split_ifs <;> rfl

/-- **C265** (exact arithmetic): the split found for a categorical feature without histograms divides the rows by a group of categories, the first `k` in the order by
`grad / (hess + cat_smooth)`: the counts, sums and gain are those of the rows in the group and of the others, both sides have the rows asked for, and no other `k` with
enough rows gains more. Missing: that the node built from it sends these categories to the left (`categories_of_split_differ`). -/
theorem categorical_search_partial (toInt : α → Int) (ofNat : Nat → α) (iter iter' ratio : List (Hist.Cat α) → List (Hist.Cat α))
    (hiter : ∀ l, (iter l).Perm l) (hiter' : ∀ l, (iter' l).Perm l) (smooth lowest : α)
    (hratio : SortsAsc (fun c : Hist.Cat α => c.grad / (c.hess + smooth)) ratio)
    (gain : α → α → α → α → α → α → α) (minData : Int) (feature : Nat) (x g h : Nat → α) (indices : List Nat) :
    let s := findBestCategorical toInt ofNat iter iter' ratio lowest gain minData feature x g h indices
    let rows := fun S => groupRows toInt x indices S
    let gainOf := fun S : Int → Bool => gain (sumOver (rows S) g) (sumOver (rows S) h) (sumOver (rows fun c => !S c) g) (sumOver (rows fun c => !S c) h)
      (sumOver indices g) (sumOver indices h)
    ∃ cs : List Int, cs.Nodup ∧ (∀ c, c ∈ cs ↔ ∃ i ∈ indices, toInt (x i) = c) ∧
      cs.Pairwise (fun a b => sumOver (rowsOf toInt x indices a) g / (sumOver (rowsOf toInt x indices a) h + smooth) ≤
        sumOver (rowsOf toInt x indices b) g / (sumOver (rowsOf toInt x indices b) h + smooth)) ∧
      (s = Hist.noSplit feature lowest ∨ ∃ k, 0 < k ∧ k < cs.length ∧ lowest < s.gain ∧
        s = ⟨feature, ofNat k, gainOf (firstCats cs k), (rows (firstCats cs k)).length, (rows fun c => !firstCats cs k c).length,
          sumOver (rows (firstCats cs k)) g, sumOver (rows fun c => !firstCats cs k c) g,
          sumOver (rows (firstCats cs k)) h, sumOver (rows fun c => !firstCats cs k c) h, []⟩ ∧
        minData ≤ s.leftCount ∧ minData ≤ s.rightCount) ∧
      ∀ k, 0 < k → k < cs.length → minData ≤ ((rows (firstCats cs k)).length : Int) → minData ≤ ((rows fun c => !firstCats cs k c).length : Int) →
        gainOf (firstCats cs k) ≤ s.gain := by
  intro s rows gainOf
  obtain ⟨hp, hso⟩ := hratio (iter' (Hist.catStats toInt x g h indices))
  obtain ⟨m1, m2, m3⟩ := stats_perm toInt x g h indices _ (hp.trans (hiter' _))
  obtain ⟨i1, i2, i3⟩ := stats_perm toInt x g h indices _ (hiter (Hist.catStats toInt x g h indices))
  set stats := Hist.catStats toInt x g h indices with hstats
  set cats := ratio (iter' stats) with hcats
  set cs := cats.map (·.category) with hcs
  have hcov : ∀ i ∈ indices, toInt (x i) ∈ cs := fun i hi => (m2 _).2 ⟨i, hi, rfl⟩
  have hlen : cs.length = stats.length := by rw [hcs, List.length_map]; exact (hp.trans (hiter' _)).length_eq
  have total : ∀ (F : Hist.Cat α → α) (f : Nat → α), (∀ c, F (entryOf toInt x g h indices c) = sumOver (rowsOf toInt x indices c) f) →
      sumOver (iter stats) F = sumOver indices f := by
    intro F f hF
    rw [sumOver_eq, (((hiter stats).trans (hp.trans (hiter' _)).symm).map F).sum_eq, m3, List.map_map]
    have := sum_prefix toInt x f cs m1 indices hcov cs.length
    rw [List.take_length] at this
    have e : F ∘ entryOf toInt x g h indices = fun c => sumOver (rowsOf toInt x indices c) f := funext hF
    rw [e, this]
    congr 1
    unfold groupRows firstCats
    rw [List.take_length]
    exact List.filter_eq_self.2 fun i hi => by simpa using hcov i hi
  have hgt : sumOver (iter stats) (·.grad) = sumOver indices g := total _ g fun _ => rfl
  have hht : sumOver (iter stats) (·.hess) = sumOver indices h := total _ h fun _ => rfl
  have hct : (iter stats).foldl (fun n c => n + c.count) 0 = (indices.length : Int) := by
    have fold : ∀ (l : List (Hist.Cat α)) (n : Int), l.foldl (fun n c => n + c.count) n = n + (l.map (·.count)).sum := by
      intro l
      induction l with
      | nil => intro n; simp
      | cons a l ih => intro n; rw [List.foldl_cons, ih, List.map_cons, List.sum_cons, add_assoc]
    rw [fold, zero_add, (((hiter stats).trans (hp.trans (hiter' _)).symm).map _).sum_eq, m3, List.map_map]
    have := count_prefix toInt x cs m1 indices hcov cs.length
    rw [List.take_length] at this
    refine this.trans ?_
    congr 2
    unfold groupRows firstCats
    rw [List.take_length]
    exact List.filter_eq_self.2 fun i hi => by simpa using hcov i hi
  -- the sums left of a boundary
  have left : ∀ k, sumOver ((catBins ofNat cats).take k) (·.grad) = sumOver (rows (firstCats cs k)) g ∧
      sumOver ((catBins ofNat cats).take k) (·.hess) = sumOver (rows (firstCats cs k)) h ∧
      Hist.countOf ((catBins ofNat cats).take k) = ((rows (firstCats cs k)).length : Int) := by
    intro k
    refine ⟨?_, ?_, ?_⟩
    · rw [sumOver_eq, bins_take ofNat cats (·.grad) (·.grad) (fun _ _ => rfl), m3, ← List.map_take, List.map_map]
      exact sum_prefix toInt x g cs m1 indices hcov k
    · rw [sumOver_eq, bins_take ofNat cats (·.hess) (·.hess) (fun _ _ => rfl), m3, ← List.map_take, List.map_map]
      exact sum_prefix toInt x h cs m1 indices hcov k
    · unfold Hist.countOf
      rw [bins_take ofNat cats (·.count) (·.count) (fun _ _ => rfl), m3, ← List.map_take, List.map_map]
      exact count_prefix toInt x cs m1 indices hcov k
  have rest : ∀ (f : Nat → α) (S : Int → Bool), sumOver indices f - sumOver (rows S) f = sumOver (rows fun c => !S c) f := by
    intro f S
    rw [sumOver_eq, sumOver_eq, sumOver_eq]
    exact (Hist.sum_filter_not f (fun i => S (toInt (x i))) indices).symm
  have restc : ∀ S : Int → Bool, (indices.length : Int) - ((rows S).length : Int) = ((rows fun c => !S c).length : Int) := by
    intro S
    have : indices.length = (rows S).length + (rows fun c => !S c).length := List.length_eq_length_filter_add _
    omega
  have hlb : (catBins ofNat cats).length = cs.length := by unfold catBins; rw [List.length_map, List.length_zipIdx, hcs, List.length_map]
  refine ⟨cs, m1, m2, ?_, ?_⟩
  · have := hso
    rw [m3, List.pairwise_map] at this
    exact this.imp fun h => not_lt.1 h
  have hs : s = if stats.length < 2 then Hist.noSplit feature lowest else
      histSplit lowest (fun lg lh rg rh => gain lg lh rg rh (sumOver indices g) (sumOver indices h)) (fun _ _ _ _ => true) (sumOver indices g) (sumOver indices h)
        (indices.length : Int) minData feature (catBins ofNat cats) := by
    rw [← hgt, ← hht, ← hct]
    rfl
  by_cases hsmall : stats.length < 2
  · rw [if_pos hsmall] at hs
    exact ⟨Or.inl hs, fun k h0 hk => by omega⟩
  rw [if_neg hsmall] at hs
  unfold histSplit at hs
  obtain ⟨-, -, -, -, hall, hbest⟩ := histScan_inv lowest (fun lg lh rg rh => gain lg lh rg rh (sumOver indices g) (sumOver indices h)) (fun _ _ _ _ => true)
    (sumOver indices g) (sumOver indices h) (indices.length : Int) minData feature (catBins ofNat cats) ((catBins ofNat cats).length - 1) (by omega)
  rw [← hs] at hall hbest
  have bg : ∀ i, boundaryGain (fun lg lh rg rh => gain lg lh rg rh (sumOver indices g) (sumOver indices h)) (sumOver indices g) (sumOver indices h)
      (catBins ofNat cats) i = gainOf (firstCats cs (i + 1)) := by
    intro i
    obtain ⟨l1, l2, -⟩ := left (i + 1)
    unfold boundaryGain sumsAt
    simp only
    rw [l1, l2, rest, rest]
  refine ⟨?_, ?_⟩
  · rcases hbest with h1 | ⟨i, hi, ⟨p1, p2, -⟩, hlow, b, hb, d1, d2, d3, d4, d5, d6, d7, d8, d9⟩
    · exact Or.inl h1
    · obtain ⟨l1, l2, l3⟩ := left (i + 1)
      unfold sumsAt at p1 p2 d4 d5 d6 d7 d8 d9
      simp only [l1, l2, l3, rest, restc] at p1 p2 d4 d5 d6 d7 d8 d9
      rw [bg] at d3
      refine Or.inr ⟨i + 1, by omega, by omega, hlow, ?_, by rw [d4]; exact p1, by rw [d5]; exact p2⟩
      have hcat : s.leftCategories = [] := by rw [hs, keeps_categories]; rfl
      have hthr : b.hi = ofNat (i + 1) := by
        unfold catBins at hb
        rw [List.getElem?_map, List.getElem?_zipIdx] at hb
        cases hc : cats[i]? with
        | none => rw [hc] at hb; simp at hb
        | some c =>
          rw [hc] at hb
          simp only [Option.map_some, Option.some.injEq, Nat.zero_add] at hb
          rw [← hb]
      rw [hthr] at d2
      clear_value s
      cases s
      dsimp only at d1 d2 d3 d4 d5 d6 d7 d8 d9 hcat
      subst d1 d2 d3 d4 d5 d6 d7 d8 d9 hcat
      rfl
  · intro k h0 hk c1 c2
    obtain ⟨l1, l2, l3⟩ := left k
    have := hall (k - 1) (by omega) (by
      unfold Permitted sumsAt
      rw [show k - 1 + 1 = k by omega]
      simp only [l3, restc]
      exact ⟨c1, c2, trivial⟩)
    rw [bg, show k - 1 + 1 = k by omega] at this
    exact this

/-- the library of the witness: sorts, conversions; the categories are sorted by `grad / (hess + lambda)` with `lambda = 0` -/
def witnessLib : Lib ℚ where
  lits := ⟨1 / 10, 1 / 1000, 1 / 2⟩
  eps := 0
  special := fun _ => false
  srt := stableAsc id
  iter := id
  byCategory := stableAsc (·.category)
  byRatio := stableAsc fun b => b.grad / b.hess
  catByRatio := stableAsc fun c => c.grad / (c.hess + 0)
  toInt := fun q => q.num
  ofInt := fun i => i
  scale := fun n _ => n

/-- two rows of the categories 0 and 1, gradients -1 and -5, hessians 1 and 10 -/
def twoCats : Data ℚ := ⟨1, fun i _ => i, fun i => if i = 0 then -1 else -5, fun i => if i = 0 then 1 else 10⟩

/-- the split found for them, with `cat_smooth = 10` -/
def twoCatsSplit : Hist.Split ℚ :=
  findBestCategorical (fun q => q.num) (fun n => n) id id (stableAsc fun c : Hist.Cat ℚ => c.grad / (c.hess + 10)) (-10000000000)
    (splitGain 0 (1 / 2) 0 0 fun _ => false) 1 0 (fun i => twoCats.x i 0) twoCats.g twoCats.h [0, 1]

/-- **C265**: the split names a number of categories, counted in the order by `grad / (hess + cat_smooth)`; the categories of the node are looked up in the order by
`grad / (hess + lambda)`. With `cat_smooth = 10` and no regularisation the split describes the row of category 1 on the left (gradient -5), and the categories of
the node are those of the row of category 0. -/
theorem categories_of_split_differ :
    twoCatsSplit.leftCount = 1 ∧ twoCatsSplit.leftGrad = twoCats.g 1 ∧ twoCatsSplit.leftHess = twoCats.h 1 ∧
      getCategories witnessLib twoCats [0, 1] twoCatsSplit = [0] := by decide +kernel

/-- three rows of three categories are divided after the second one -/
example : findBestCategorical (α := ℚ) (fun q => q.num) (fun n => n) id List.reverse (stableAsc fun c : Hist.Cat ℚ => c.grad / (c.hess + 10)) (-10000000000)
    (splitGain 0 (1 / 2) 0 0 fun _ => false) 1 4 (fun i => i) (fun i => [3, -1, -1].getD i 0) (fun _ => 1) [0, 1, 2] =
    ⟨4, 2, splitGain (α := ℚ) 0 (1 / 2) 0 0 (fun _ => false) (-2) 2 3 1 1 3, 2, 1, -2, 3, 2, 1, []⟩ := by decide +kernel

end Scigo.Trainer
