import Verif.Trainer.GrowLemmas
import Verif.Hist.GreedyProps

/-!
# Lemmas about the split finder as the trainer uses it
-/

set_option linter.unusedSectionVars false

namespace Scigo.Trainer

variable {α : Type}

section order
variable [LinearOrder α] [Zero α] [One α] [Add α] [Sub α] [Neg α] [Mul α] [Div α]

theorem pickBest_mem (m : α) (l : List (Hist.Split α)) : Hist.pickBest m l = Hist.noSplit (-1) m ∨ Hist.pickBest m l ∈ l := by
  unfold Hist.pickBest
  induction l using List.reverseRecOn with
  | nil => exact Or.inl rfl
  | append_singleton l a ih =>
    rw [List.foldl_append, List.foldl_cons, List.foldl_nil]
    split_ifs
    · exact Or.inr (by simp)
    · rcases ih with h | h
      · exact Or.inl h
      · exact Or.inr (List.mem_append_left _ h)

theorem featureSplit_feature (lib : Lib α) (hperm : ∀ l, (lib.byRatio l).Perm l) (hb : Hist.Builder α) (categorical : List Int) (minData : Int) (D : Data α)
    (I : List Nat) (j : Nat) : (featureSplit lib hb categorical minData D I j).feature = j := by
  unfold featureSplit
  split_ifs
  · rcases Hist.categorical_split_is_best hb lib.lits lib.special lib.toInt (fun n => lib.ofInt n) lib.byRatio
      (Hist.buildCategorical lib.toInt lib.ofInt lib.iter lib.byCategory j (fun i => D.x i j) D.g D.h I) (hperm _).length_eq (sumOver I D.g) (sumOver I D.h) minData
      with ⟨e, -⟩ | ⟨i, -, -, -, e, -⟩ <;> rw [e] <;> rfl
  · rcases Hist.split_is_best hb lib.lits lib.special
      (Hist.buildContinuous lib.lits lib.srt hb.maxBin j (fun i => D.x i j) D.g D.h I) (sumOver I D.g) (sumOver I D.h) minData
      with ⟨e, -⟩ | ⟨i, -, -, -, e, -⟩ <;> rw [e] <;> rfl

theorem finish_feature (m : α) (s : Hist.Split α) : (Hist.finish m s).feature = s.feature := by
  unfold Hist.finish
  split_ifs <;> rfl

theorem findBestSplit_feature (lib : Lib α) (hperm : ∀ l, (lib.byRatio l).Perm l) (hb : Hist.Builder α) (categorical : List Int) (minData : Int)
    (minGain : α) (D : Data α) (I : List Nat) :
    (findBestSplit lib hb categorical minData minGain D I).feature = -1 ∨
      0 ≤ (findBestSplit lib hb categorical minData minGain D I).feature ∧ (findBestSplit lib hb categorical minData minGain D I).feature < D.cols := by
  unfold findBestSplit
  rw [finish_feature]
  rcases pickBest_mem (-1 : α) ((List.range D.cols).map (featureSplit lib hb categorical minData D I)) with h | h
  · left; rw [h]; rfl
  · right
    obtain ⟨j, hj, e⟩ := List.mem_map.1 h
    rw [← e, featureSplit_feature lib hperm]
    have := List.mem_range.1 hj
    omega

theorem findBestSplit_good (lib : Lib α) (hb : Hist.Builder α) (lim : Limits α) (categorical : List Int) (D : Data α) (hmg : 0 < lim.minGain)
    (I : List Nat) (hr : (grower lib hb lim categorical D).refuses ((grower lib hb lim categorical D).find I) = false) :
    ∃ j < D.cols, (grower lib hb lim categorical D).find I = featureSplit lib hb categorical lim.minData D I j ∧
      0 < ((grower lib hb lim categorical D).find I).gain := by
  unfold Grower.refuses at hr
  simp only [Bool.or_eq_false_iff, decide_eq_false_iff_not, not_lt] at hr
  obtain ⟨hf, hg⟩ := hr
  change (findBestSplit lib hb categorical lim.minData lim.minGain D I).feature ≠ -1 at hf
  change lim.minGain ≤ (findBestSplit lib hb categorical lim.minData lim.minGain D I).gain at hg
  change ∃ j < D.cols, findBestSplit lib hb categorical lim.minData lim.minGain D I = _ ∧
    0 < (findBestSplit lib hb categorical lim.minData lim.minGain D I).gain
  have key : ∃ j < D.cols, findBestSplit lib hb categorical lim.minData lim.minGain D I = featureSplit lib hb categorical lim.minData D I j := by
    unfold findBestSplit at hf hg ⊢
    have hfin : Hist.finish lim.minGain (Hist.pickBest (-1) ((List.range D.cols).map (featureSplit lib hb categorical lim.minData D I))) =
        Hist.pickBest (-1) ((List.range D.cols).map (featureSplit lib hb categorical lim.minData D I)) := by
      unfold Hist.finish at hg ⊢
      split_ifs at hg ⊢ with h
      · exact absurd (lt_of_lt_of_le hmg hg) (lt_irrefl _)
      · rfl
    rw [finish_feature] at hf
    rw [hfin]
    rcases pickBest_mem (-1 : α) ((List.range D.cols).map (featureSplit lib hb categorical lim.minData D I)) with h | h
    · rw [h] at hf; exact absurd rfl hf
    · obtain ⟨j, hj, e⟩ := List.mem_map.1 h
      exact ⟨j, List.mem_range.1 hj, e.symm⟩
  obtain ⟨j, hj, e⟩ := key
  exact ⟨j, hj, e, lt_of_lt_of_le hmg hg⟩

end order

section field
variable [Field α] [LinearOrder α] [IsStrictOrderedRing α]

theorem perm_map_lift {β γ : Type _} (f : β → γ) (cs : List β) (l : List γ) (h : l.Perm (cs.map f)) : ∃ ds : List β, ds.Perm cs ∧ l = ds.map f := by
  induction cs generalizing l with
  | nil => exact ⟨[], List.Perm.refl _, by simpa using h⟩
  | cons c cs ih =>
    have hm : f c ∈ l := h.mem_iff.2 (by simp)
    obtain ⟨l1, l2, rfl⟩ := List.append_of_mem hm
    have h' : (l1 ++ l2).Perm (cs.map f) := (List.perm_cons (f c)).1 (List.perm_middle.symm.trans h)
    obtain ⟨ds, hd, e⟩ := ih _ h'
    obtain ⟨d1, d2, rfl, e1, e2⟩ := List.map_eq_append_iff.1 e.symm
    exact ⟨d1 ++ c :: d2, List.perm_middle.trans (hd.cons c), by rw [List.map_append, List.map_cons, e1, e2]⟩

/-- rows with a category among `cs` -/
theorem count_categories (toInt : α → Int) (x : Nat → α) (I : List Nat) (cs : List Int) (hn : cs.Nodup) :
    (((I.filter fun i => cs.contains (toInt (x i))).length : Nat) : Int) = (cs.map fun c => ((Hist.rowsOf toInt x I c).length : Int)).sum := by
  induction cs with
  | nil => simp
  | cons c cs ih =>
    rw [List.nodup_cons] at hn
    rw [List.map_cons, List.sum_cons, ← ih hn.2]
    have : ∀ I : List Nat, (I.filter fun i => (c :: cs).contains (toInt (x i))).length =
        (Hist.rowsOf toInt x I c).length + (I.filter fun i => cs.contains (toInt (x i))).length := by
      intro I
      unfold Hist.rowsOf
      induction I with
      | nil => rfl
      | cons i I ihI =>
        simp only [List.filter_cons, List.contains_cons] at ihI ⊢
        by_cases hc : toInt (x i) = c
        · have hnc : cs.contains (toInt (x i)) = false := by
            simp [hc, hn.1]
          have hb1 : (toInt (x i) == c) = true := by simp [hc]
          have hd1 : decide (toInt (x i) = c) = true := by simp [hc]
          simp only [hb1, hnc, hd1, Bool.true_or, if_true, Bool.false_eq_true, if_false, List.length_cons, ihI]
          omega
        · have hb1 : (toInt (x i) == c) = false := by simp [hc]
          simp only [hb1, hc, Bool.false_or, decide_false, Bool.false_eq_true, if_false]
          split_ifs
          · simp only [List.length_cons, ihI]
            omega
          · exact ihI
    rw [this]
    push_cast
    rfl

/-- a split found on a categorical feature divides the rows as counted -/
theorem categorical_divides (lib : Lib α) (hperm : ∀ l, (lib.byRatio l).Perm l) (hiter : ∀ l, (lib.iter l).Perm l)
    (hcat : SortsAsc (fun c : Hist.Cat α => c.category) lib.byCategory) (hround : ∀ v, lib.toInt (lib.ofInt (lib.toInt v)) = lib.toInt v)
    (hb : Hist.Builder α) (categorical : List Int) (minData : Int) (D : Data α) (I : List Nat) (j : Nat)
    (hj : categorical.contains (j : Int) = true) (hpos : 0 < (featureSplit lib hb categorical minData D I j).gain) :
    (featureSplit lib hb categorical minData D I j).leftCategories ≠ [] ∧
    minData ≤ (I.filter fun i => (featureSplit lib hb categorical minData D I j).leftCategories.contains (lib.toInt (D.x i j))).length ∧
    minData ≤ (I.filter fun i => !(featureSplit lib hb categorical minData D I j).leftCategories.contains (lib.toInt (D.x i j))).length := by
  unfold featureSplit at hpos ⊢
  rw [if_pos hj] at hpos ⊢
  obtain ⟨cs, c1, c2, c3⟩ := Hist.categorical_histogram lib.toInt lib.ofInt lib.iter hiter lib.byCategory hcat j (fun i => D.x i j) D.g D.h I
  set H := Hist.buildCategorical lib.toInt lib.ofInt lib.iter lib.byCategory j (fun i => D.x i j) D.g D.h I with hH
  clear_value H
  have hlen : (lib.byRatio H.bins).length = H.bins.length := (hperm _).length_eq
  rcases Hist.categorical_split_is_best hb lib.lits lib.special lib.toInt (fun n => lib.ofInt n) lib.byRatio H hlen (sumOver I D.g) (sumOver I D.h) minData
    with ⟨e, -⟩ | ⟨i, hi, hadm, -, e, -⟩
  · rw [e] at hpos; exact absurd hpos (lt_irrefl _)
  · rw [e]
    -- the bins are those of the categories `ds`, a rearrangement of `cs`
    have hrep : ∀ l : List (Hist.Bin α), l.Perm H.bins → ∃ ds : List Int, ds.Perm cs ∧ l = ds.map fun c =>
        (⟨lib.ofInt c, lib.ofInt c + 1, (Hist.rowsOf lib.toInt (fun i => D.x i j) I c).length, sumOver (Hist.rowsOf lib.toInt (fun i => D.x i j) I c) D.g,
          sumOver (Hist.rowsOf lib.toInt (fun i => D.x i j) I c) D.h⟩ : Hist.Bin α) := by
      intro l hl
      rw [c3] at hl
      exact perm_map_lift _ cs l hl
    obtain ⟨ds, hds, el⟩ := hrep _ (hperm H.bins)
    have hnd : ds.Nodup := hds.nodup_iff.2 (c1.imp fun h => ne_of_lt h)
    have hto : ∀ c ∈ ds, lib.toInt (lib.ofInt c) = c := by
      intro c hc
      obtain ⟨r, -, hr⟩ := (c2 c).1 (hds.mem_iff.1 hc)
      rw [← hr]
      exact hround _
    have hleft : ((lib.byRatio H.bins).take (i + 1)).map (fun b => lib.toInt b.lo) = ds.take (i + 1) := by
      rw [el, ← List.map_take, List.map_map]
      conv_rhs => rw [← List.map_id (ds.take (i + 1))]
      refine List.map_congr_left fun c hc => ?_
      exact hto c (List.mem_of_mem_take hc)
    have hcount : ∀ l : List Int, Hist.countOf (l.map fun c =>
        (⟨lib.ofInt c, lib.ofInt c + 1, (Hist.rowsOf lib.toInt (fun i => D.x i j) I c).length, sumOver (Hist.rowsOf lib.toInt (fun i => D.x i j) I c) D.g,
          sumOver (Hist.rowsOf lib.toInt (fun i => D.x i j) I c) D.h⟩ : Hist.Bin α)) =
        (l.map fun c => ((Hist.rowsOf lib.toInt (fun i => D.x i j) I c).length : Int)).sum := by
      intro l
      unfold Hist.countOf
      rw [List.map_map]
      rfl
    obtain ⟨a1, a2⟩ := hadm
    rw [el, ← List.map_take, hcount, ← count_categories lib.toInt (fun i => D.x i j) I _ (hnd.sublist (List.take_sublist _ _))] at a1
    rw [el, ← List.map_drop, hcount, ← count_categories lib.toInt (fun i => D.x i j) I _ (hnd.sublist (List.drop_sublist _ _))] at a2
    show ((lib.byRatio H.bins).take (i + 1)).map (fun b => lib.toInt b.lo) ≠ [] ∧ _ ∧ _
    refine ⟨?_, ?_, ?_⟩
    · intro hnil
      have := congrArg List.length hnil
      simp [hlen] at this
      rw [this] at hi
      simp at hi
    · show minData ≤ (((I.filter fun r => (((lib.byRatio H.bins).take (i + 1)).map fun b => lib.toInt b.lo).contains (lib.toInt (D.x r j))).length : Nat) : Int)
      rw [hleft]
      exact a1
    · show minData ≤ (((I.filter fun r => !(((lib.byRatio H.bins).take (i + 1)).map fun b => lib.toInt b.lo).contains (lib.toInt (D.x r j))).length : Nat) : Int)
      rw [hleft]
      refine a2.trans (le_of_eq ?_)
      congr 2
      refine List.filter_congr fun r hr => ?_
      have hmem : lib.toInt (D.x r j) ∈ ds := hds.mem_iff.2 ((c2 _).2 ⟨r, hr, rfl⟩)
      rw [← List.take_append_drop (i + 1) ds] at hmem hnd
      rw [List.nodup_append'] at hnd
      rw [List.contains_eq_mem, List.contains_eq_mem]
      by_cases h1 : lib.toInt (D.x r j) ∈ ds.take (i + 1)
      · have h2 : lib.toInt (D.x r j) ∉ ds.drop (i + 1) := fun h => hnd.2.2 h1 h
        simp [h1, h2]
      · have h2 : lib.toInt (D.x r j) ∈ ds.drop (i + 1) := (List.mem_append.1 hmem).resolve_left h1
        simp [h1, h2]

theorem sumOver_eq_sum (I : List Nat) (f : Nat → α) : sumOver I f = (I.map f).sum := by
  rw [sumOver_eq]

/-- a split found on a numerical feature: at least the minimum goes left, and it counts at least the minimum at or above its threshold -/
theorem numerical_counts (lib : Lib α) (he : 0 < lib.lits.eps) (hsrt : SortsAsc id lib.srt) (hb : Hist.Builder α) (categorical : List Int) (minData : Int)
    (D : Data α) (I : List Nat) (j : Nat) (hj : categorical.contains (j : Int) = false)
    (hpos : 0 < (featureSplit lib hb categorical minData D I j).gain) :
    minData ≤ (I.filter fun i => D.x i j < (featureSplit lib hb categorical minData D I j).threshold).length ∧
    minData ≤ (I.filter fun i => (featureSplit lib hb categorical minData D I j).threshold ≤ D.x i j).length := by
  have e : featureSplit lib hb categorical minData D I j = hb.findSplit lib.lits lib.special
      (Hist.buildContinuous lib.lits lib.srt hb.maxBin j (fun i => D.x i j) D.g D.h I) (I.map D.g).sum (I.map D.h).sum minData := by
    unfold featureSplit
    rw [if_neg (by rw [hj]; simp), sumOver_eq_sum, sumOver_eq_sum]
  obtain ⟨e1, e2, -, -, -, -, m1, m2, -, -⟩ := Hist.split_divides_rows hb lib.lits lib.special (fun i => D.x i j) D.g D.h I _
    (Hist.continuous_histogram lib.lits he lib.srt hsrt hb.maxBin j (fun i => D.x i j) D.g D.h I) minData _ e hpos
  rw [e1] at m1
  rw [e2] at m2
  exact ⟨m1, m2⟩

end field

end Scigo.Trainer
