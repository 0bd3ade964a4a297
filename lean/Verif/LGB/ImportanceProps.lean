import Verif.LGB.Importance
import Mathlib.Algebra.Order.Field.Basic
import Mathlib.Algebra.Order.BigOperators.Group.List
import Mathlib.Algebra.BigOperators.Group.List.Basic
import Mathlib.Algebra.BigOperators.Ring.List
import Mathlib.Algebra.Order.Ring.Rat
import Mathlib.Tactic.Linarith
import Mathlib.Tactic.NormNum
import Mathlib.Tactic.Ring

/-!
# C220: what the feature importances of a LightGBM model are
-/

set_option linter.unusedSectionVars false

namespace Scigo.LGB

section

variable {α : Type _}

/-- the splits of a model: the nodes that are not leaves -/
def Model.splits (m : Model α) : List (Node α) := (m.trees.flatMap Tree.nodes).filter fun n => !n.isLeaf

/-- the splits on feature `f` -/
def Model.splitsOn (m : Model α) (f : Nat) : List (Node α) := m.splits.filter fun n => decide (n.feature = (f : Int))

/-- every split names a feature of the model -/
def Model.FeaturesOk (m : Model α) : Prop := ∀ n ∈ m.splits, 0 ≤ n.feature ∧ n.feature < m.numFeatures

end

section lemmas

theorem getD_lt {β : Type _} (l : List β) (i : Nat) (d : β) (h : i < l.length) : l.getD i d = l[i] := by
  rw [List.getD_eq_getElem?_getD, List.getElem?_eq_getElem h, Option.getD_some]

theorem getD_ge {β : Type _} (l : List β) (i : Nat) (d : β) (h : ¬ i < l.length) : l.getD i d = d := by
  rw [List.getD_eq_getElem?_getD, List.getElem?_eq_none (by omega), Option.getD_none]

variable {K : Type _} [Field K] [LinearOrder K] [IsStrictOrderedRing K]

/-- the credit feature `f` gets from the nodes `ns` -/
def creditOf (credit : Node K → K) (ns : List (Node K)) (f : Nat) : K :=
  ((ns.filter fun n => !n.isLeaf && decide (n.feature = (f : Int))).map credit).sum

theorem creditNodes_ok (kind : String) (credit : Node K → K) (hk : ∀ n : Node K, splitCredit kind n = some (credit n))
    (ns : List (Node K)) (imp : List K) (h : ∀ n ∈ ns, n.isLeaf = false → 0 ≤ n.feature ∧ n.feature < imp.length) :
    ∃ out, creditNodes kind ns imp = .ok out ∧ out.length = imp.length ∧
      ∀ f, out.getD f 0 = imp.getD f 0 + if f < imp.length then creditOf credit ns f else 0 := by
  induction ns generalizing imp with
  | nil => exact ⟨imp, rfl, rfl, fun f => by simp [creditOf]⟩
  | cons n ns ih =>
    unfold creditNodes creditNode
    by_cases hl : n.isLeaf = true
    · rw [if_pos hl]
      obtain ⟨out, e, hlen, hv⟩ := ih imp (fun n' hn' => h n' (List.mem_cons_of_mem _ hn'))
      refine ⟨out, e, hlen, fun f => ?_⟩
      rw [hv f]; congr 1; simp [creditOf, hl]
    · rw [if_neg hl, hk n]
      have hl' : n.isLeaf = false := by simpa using hl
      obtain ⟨h0, h1⟩ := h n List.mem_cons_self hl'
      have hlt : n.feature.toNat < imp.length := by omega
      dsimp only
      rw [if_neg (by omega), List.getElem?_eq_getElem hlt]
      dsimp only [Outcome.bind_ok]
      obtain ⟨out, e, hlen, hv⟩ := ih (imp.set n.feature.toNat (imp[n.feature.toNat] + credit n))
        (fun n' hn' hl' => by simpa using h n' (List.mem_cons_of_mem _ hn') hl')
      refine ⟨out, e, by simpa using hlen, fun f => ?_⟩
      rw [hv f, List.length_set]
      by_cases hf : f < imp.length
      · rw [if_pos hf, if_pos hf]
        by_cases hfe : n.feature.toNat = f
        · subst hfe
          have : n.feature = (n.feature.toNat : Int) := by omega
          simp only [creditOf, List.filter_cons, hl', ← this, Bool.not_false, decide_true, Bool.and_self, if_true,
            List.map_cons, List.sum_cons]
          rw [getD_lt _ _ _ (by simpa using hlt), List.getElem_set_self, getD_lt _ _ _ hlt]
          ring
        · have : n.feature ≠ (f : Int) := by omega
          simp only [creditOf, List.filter_cons, this, decide_false, Bool.and_false]
          rw [getD_lt _ _ _ (by simpa using hf), List.getElem_set_ne hfe, getD_lt _ _ _ hf]
          rfl
      · rw [if_neg hf, if_neg hf]
        rw [getD_ge _ _ _ (by simpa using hf), getD_ge _ _ _ (by simpa using hf)]

theorem creditNodes_unknown (kind : String) (hk : ∀ n : Node K, splitCredit kind n = none) (ns : List (Node K))
    (imp : List K) : creditNodes kind ns imp = .ok imp := by
  induction ns with
  | nil => rfl
  | cons n ns ih =>
    unfold creditNodes creditNode
    rw [hk n]
    by_cases hl : n.isLeaf = true
    · rw [if_pos hl]; exact ih
    · rw [if_neg hl]; exact ih

theorem creditNodes_panic (kind : String) (credit : Node K → K) (hk : ∀ n : Node K, splitCredit kind n = some (credit n))
    (ns : List (Node K)) (imp : List K) (h : ∃ n ∈ ns, n.isLeaf = false ∧ ¬ (0 ≤ n.feature ∧ n.feature < imp.length)) :
    creditNodes kind ns imp = .panic "index out of range" := by
  induction ns generalizing imp with
  | nil => obtain ⟨n, hn, _⟩ := h; cases hn
  | cons n ns ih =>
    unfold creditNodes creditNode
    by_cases hl : n.isLeaf = true
    · rw [if_pos hl]
      refine ih imp ?_
      obtain ⟨n', hn', hb⟩ := h
      rcases List.mem_cons.mp hn' with e | hn'
      · subst e; rw [hl] at hb; cases hb.1
      · exact ⟨n', hn', hb⟩
    · rw [if_neg hl, hk n]
      dsimp only
      by_cases h0 : n.feature < 0
      · rw [if_pos h0]; rfl
      · rw [if_neg h0]
        by_cases h1 : n.feature.toNat < imp.length
        · rw [List.getElem?_eq_getElem h1]
          refine ih _ ?_
          obtain ⟨n', hn', hb⟩ := h
          rcases List.mem_cons.mp hn' with e | hn'
          · subst e; exact absurd ⟨by omega, by omega⟩ hb.2
          · exact ⟨n', hn', hb.1, by simpa using hb.2⟩
        · rw [List.getElem?_eq_none (by omega)]; rfl

theorem sum_eq_range (l : List K) : l.sum = ((List.range l.length).map fun f => l.getD f 0).sum := by
  congr 1
  refine List.ext_getElem (by simp) fun i h1 h2 => ?_
  simp [List.getD_eq_getElem?_getD, h1]

theorem sum_map_add (l : List Nat) (f g : Nat → K) : (l.map fun i => f i + g i).sum = (l.map f).sum + (l.map g).sum := by
  induction l with
  | nil => simp
  | cons a l ih => simp only [List.map_cons, List.sum_cons, ih]; ring

theorem sum_indicator (k j : Nat) (c : K) (h : j < k) : ((List.range k).map fun f => if f = j then c else 0).sum = c := by
  induction k with
  | zero => omega
  | succ k ih =>
    rw [List.range_succ, List.map_append, List.sum_append]
    rcases Nat.lt_succ_iff_lt_or_eq.mp h with h | h
    · rw [ih h]; simp [show k ≠ j by omega]
    · subst h
      have : ((List.range j).map fun f => if f = j then c else 0).sum = 0 := by
        apply List.sum_eq_zero
        intro x hx
        obtain ⟨f, hf, rfl⟩ := List.mem_map.mp hx
        rw [if_neg (by have := List.mem_range.mp hf; omega)]
      simp [this]

/-- summed over the features, the credits are the credits of all splits -/
theorem sum_creditOf (credit : Node K → K) (k : Nat) (ns : List (Node K))
    (h : ∀ n ∈ ns, n.isLeaf = false → 0 ≤ n.feature ∧ n.feature < k) :
    ((List.range k).map fun f => creditOf credit ns f).sum = ((ns.filter fun n => !n.isLeaf).map credit).sum := by
  induction ns with
  | nil => apply List.sum_eq_zero; intro x hx; obtain ⟨f, _, rfl⟩ := List.mem_map.mp hx; simp [creditOf]
  | cons n ns ih =>
    have ih' := ih (fun n' hn' => h n' (List.mem_cons_of_mem _ hn'))
    by_cases hl : n.isLeaf = true
    · simpa [creditOf, hl] using ih'
    · have hl' : n.isLeaf = false := by simpa using hl
      obtain ⟨h0, h1⟩ := h n List.mem_cons_self hl'
      have step : ∀ f : Nat, creditOf credit (n :: ns) f = (if f = n.feature.toNat then credit n else 0) + creditOf credit ns f := by
        intro f
        by_cases hf : f = n.feature.toNat
        · have : n.feature = (f : Int) := by omega
          simp [creditOf, hl', this]
        · have : n.feature ≠ (f : Int) := by omega
          simp [creditOf, this, hf]
      rw [show (fun f => creditOf credit (n :: ns) f) = fun f => (if f = n.feature.toNat then credit n else 0) + creditOf credit ns f
        from funext step, sum_map_add, sum_indicator _ _ _ (by omega), ih']
      simp [hl']

theorem filter_on (m : Model K) (f : Nat) :
    (m.trees.flatMap Tree.nodes).filter (fun n => !n.isLeaf && decide (n.feature = (f : Int))) = m.splitsOn f := by
  unfold Model.splitsOn Model.splits
  rw [List.filter_filter]
  congr 1; funext n; exact Bool.and_comm _ _

/-- the importances for either kind of credit -/
theorem importance_of (m : Model K) (kind : String) (credit : Node K → K)
    (hk : ∀ n : Node K, splitCredit kind n = some (credit n)) (hN : 0 ≤ m.numFeatures) (hok : m.FeaturesOk) :
    ∃ imp, m.featureImportance kind = .ok imp ∧ imp.length = m.numFeatures.toNat ∧
      (0 < (m.splits.map credit).sum → (∀ f, f < m.numFeatures.toNat →
          imp.getD f 0 = ((m.splitsOn f).map credit).sum / (m.splits.map credit).sum) ∧ imp.sum = 1) ∧
      (¬ 0 < (m.splits.map credit).sum → ∀ f, f < m.numFeatures.toNat →
          imp.getD f 0 = ((m.splitsOn f).map credit).sum) := by
  have hb : ∀ n ∈ m.trees.flatMap Tree.nodes, n.isLeaf = false →
      0 ≤ n.feature ∧ n.feature < (List.replicate m.numFeatures.toNat (0 : K)).length := by
    intro n hn hl
    have := hok n (List.mem_filter.mpr ⟨hn, by simp [hl]⟩)
    rw [List.length_replicate]; omega
  obtain ⟨out, e, hlen, hv⟩ := creditNodes_ok kind credit hk _ _ hb
  rw [List.length_replicate] at hlen
  have hv' : ∀ f, f < m.numFeatures.toNat → out.getD f 0 = ((m.splitsOn f).map credit).sum := by
    intro f hf
    rw [hv f, List.length_replicate, if_pos hf, creditOf, filter_on]
    simp [List.getD_eq_getElem?_getD, hf]
  have hsum : out.sum = (m.splits.map credit).sum := by
    rw [sum_eq_range, hlen]
    rw [show (m.splits.map credit).sum = (((m.trees.flatMap Tree.nodes).filter fun n => !n.isLeaf).map credit).sum from rfl,
      ← sum_creditOf credit m.numFeatures.toNat _ (fun n hn hl => by have := hb n hn hl; rw [List.length_replicate] at this; exact this)]
    congr 1
    refine List.map_congr_left fun f hf => ?_
    rw [hv' f (List.mem_range.mp hf), creditOf, filter_on]
  have hs : sumOver out id = (m.splits.map credit).sum := by rw [sumOver_eq, List.map_id]; exact hsum
  refine ⟨normalise out, ?_, ?_, fun hpos => ⟨fun f hf => ?_, ?_⟩, fun hpos f hf => ?_⟩
  · unfold Model.featureImportance
    rw [if_neg (by omega), e]; rfl
  · unfold normalise; split <;> simp [hlen]
  · unfold normalise
    rw [hs, if_pos hpos, ← hv' f hf]
    simp [List.getD_eq_getElem?_getD, show f < out.length by omega]
  · unfold normalise
    rw [hs, if_pos hpos]
    have : (out.map fun v => v / (m.splits.map credit).sum).sum = out.sum / (m.splits.map credit).sum := by
      simp only [div_eq_mul_inv]
      rw [List.sum_map_mul_right]; simp
    rw [this, hsum, div_self hpos.ne']
  · unfold normalise
    rw [hs, if_neg hpos, hv' f hf]

theorem sum_ones (l : List (Node K)) : (l.map fun _ => (1 : K)).sum = l.length := by simp

end lemmas

section props

variable {K : Type _} [Field K] [LinearOrder K] [IsStrictOrderedRing K]

/-- **C220 (split importance).** For a model whose splits name its features, the importance of type "split" of a
feature is the number of splits on it divided by the number of all splits, so the importances sum to 1; a model
without splits gives zeros. -/
theorem split_importance (m : Model K) (hN : 0 ≤ m.numFeatures) (hok : m.FeaturesOk) :
    ∃ imp, m.featureImportance "split" = .ok imp ∧ imp.length = m.numFeatures.toNat ∧
      (∀ f, f < m.numFeatures.toNat → imp.getD f 0 = ((m.splitsOn f).length : K) / (m.splits.length : K)) ∧
      (m.splits ≠ [] → imp.sum = 1) := by
  obtain ⟨imp, e, hl, hp, hn⟩ := importance_of m "split" (fun _ => 1) (fun n => if_pos rfl) hN hok
  rw [sum_ones] at hp hn
  refine ⟨imp, e, hl, fun f hf => ?_, fun h => ?_⟩
  · by_cases h : m.splits = []
    · rw [hn (by simp [h]) f hf, sum_ones, h]
      simp [Model.splitsOn, h]
    · have hpos : 0 < (m.splits.length : K) := by
        have : 0 < m.splits.length := List.length_pos_iff.mpr h
        exact_mod_cast this
      rw [(hp hpos).1 f hf, sum_ones]
  · have hpos : 0 < (m.splits.length : K) := by
      have : 0 < m.splits.length := List.length_pos_iff.mpr h
      exact_mod_cast this
    exact (hp hpos).2

/-- **C220 (gain importance).** The importance of type "gain" of a feature is its share of the gain of all splits when
that is positive, and then the importances sum to 1 and, if no gain is negative, none is negative; otherwise it is the
plain sum of the gains on the feature. -/
theorem gain_importance (m : Model K) (hN : 0 ≤ m.numFeatures) (hok : m.FeaturesOk) :
    ∃ imp, m.featureImportance "gain" = .ok imp ∧ imp.length = m.numFeatures.toNat ∧
      (0 < (m.splits.map Node.gain).sum → (∀ f, f < m.numFeatures.toNat →
          imp.getD f 0 = ((m.splitsOn f).map Node.gain).sum / (m.splits.map Node.gain).sum) ∧ imp.sum = 1) ∧
      (¬ 0 < (m.splits.map Node.gain).sum → ∀ f, f < m.numFeatures.toNat →
          imp.getD f 0 = ((m.splitsOn f).map Node.gain).sum) ∧
      ((∀ n ∈ m.splits, 0 ≤ n.gain) → ∀ v ∈ imp, 0 ≤ v) := by
  obtain ⟨imp, e, hl, hp, hn⟩ := importance_of m "gain" Node.gain
    (fun n => by unfold splitCredit; rw [if_neg (by decide), if_pos rfl]) hN hok
  refine ⟨imp, e, hl, hp, hn, fun hg v hv => ?_⟩
  obtain ⟨i, hi, rfl⟩ := List.getElem_of_mem hv
  have hon : 0 ≤ ((m.splitsOn i).map Node.gain).sum :=
    List.sum_nonneg fun x hx => by
      obtain ⟨n, hn, rfl⟩ := List.mem_map.mp hx
      exact hg n (List.mem_filter.mp hn).1
  have hgd : imp[i] = imp.getD i 0 := by simp [List.getD_eq_getElem?_getD, hi]
  by_cases h : 0 < (m.splits.map Node.gain).sum
  · rw [hgd, (hp h).1 i (by omega)]; exact div_nonneg hon h.le
  · rw [hgd, hn h i (by omega)]; exact hon

/-- **C220 (other types).** Any other importance type gives zeros, whatever the model. -/
theorem unknown_importance (m : Model K) (kind : String) (h1 : kind ≠ "split") (h2 : kind ≠ "gain") (hN : 0 ≤ m.numFeatures) :
    m.featureImportance kind = .ok (List.replicate m.numFeatures.toNat 0) := by
  unfold Model.featureImportance
  rw [if_neg (by omega), creditNodes_unknown kind (fun n => by unfold splitCredit; rw [if_neg h1, if_neg h2])]
  rw [Outcome.map_ok]
  unfold normalise
  rw [if_neg]
  rw [sumOver_eq]; simp

/-- **C220 (bad features).** A split on a feature the model does not have makes both importances panic. -/
theorem bad_feature_importance_panics (m : Model K) (kind : String) (hk : kind = "split" ∨ kind = "gain")
    (hN : 0 ≤ m.numFeatures) (hbad : ¬ m.FeaturesOk) : m.featureImportance kind = .panic "index out of range" := by
  have hbad' : ∃ n ∈ m.trees.flatMap Tree.nodes, n.isLeaf = false ∧
      ¬ (0 ≤ n.feature ∧ n.feature < (List.replicate m.numFeatures.toNat (0 : K)).length) := by
    unfold Model.FeaturesOk at hbad
    push Not at hbad
    obtain ⟨n, hn, h⟩ := hbad
    obtain ⟨hn, hl⟩ := List.mem_filter.mp hn
    refine ⟨n, hn, by simpa using hl, fun hc => ?_⟩
    rw [List.length_replicate] at hc
    have := h hc.1
    omega
  unfold Model.featureImportance
  rw [if_neg (by omega)]
  rcases hk with rfl | rfl
  · rw [creditNodes_panic "split" (fun _ => 1) (fun n => if_pos rfl) _ _ hbad']; rfl
  · rw [creditNodes_panic "gain" Node.gain (fun n => by unfold splitCredit; rw [if_neg (by decide), if_pos rfl]) _ _ hbad']; rfl

/-- **C220 (tree order).** The order of the trees does not matter. -/
theorem importance_tree_order (m m' : Model K) (kind : String) (hk : kind = "split" ∨ kind = "gain") (hN : 0 ≤ m.numFeatures)
    (hok : m.FeaturesOk) (hp : m.trees.Perm m'.trees) (hf : m.numFeatures = m'.numFeatures) :
    m.featureImportance kind = m'.featureImportance kind := by
  have hs : m.splits.Perm m'.splits := (hp.flatMap_right _).filter _
  have hon : ∀ f, (m.splitsOn f).Perm (m'.splitsOn f) := fun f => hs.filter _
  have hok' : m'.FeaturesOk := fun n hn => hf ▸ hok n (hs.mem_iff.mpr hn)
  have key : ∀ (credit : Node K → K), (∀ n : Node K, splitCredit kind n = some (credit n)) →
      m.featureImportance kind = m'.featureImportance kind := by
    intro credit hc
    obtain ⟨a, ea, la, pa, na⟩ := importance_of m kind credit hc hN hok
    obtain ⟨b, eb, lb, pb, nb⟩ := importance_of m' kind credit hc (hf ▸ hN) hok'
    rw [ea, eb]
    congr 1
    refine List.ext_getElem (by rw [la, lb, hf]) fun i h1 h2 => ?_
    have ga : a[i] = a.getD i 0 := by simp [List.getD_eq_getElem?_getD, h1]
    have gb : b[i] = b.getD i 0 := by simp [List.getD_eq_getElem?_getD, h2]
    have es : (m.splits.map credit).sum = (m'.splits.map credit).sum := (hs.map _).sum_eq
    have eo : ((m.splitsOn i).map credit).sum = ((m'.splitsOn i).map credit).sum := ((hon i).map _).sum_eq
    by_cases h : 0 < (m.splits.map credit).sum
    · rw [ga, gb, (pa h).1 i (by omega), (pb (es ▸ h)).1 i (by omega), es, eo]
    · rw [ga, gb, na h i (by omega), nb (es ▸ h) i (by omega), eo]
  rcases hk with rfl | rfl
  · exact key (fun _ => 1) (fun n => if_pos rfl)
  · exact key Node.gain (fun n => by unfold splitCredit; rw [if_neg (by decide), if_pos rfl])

end props

/-! ### A model with three splits -/

/-- a split node with the given children, feature and gain -/
def impSplit (l r f : Int) (g : Rat) : Node Rat := ⟨l, r, .numerical, f, 0, [], false, g, 0, 0, 0, 0⟩

/-- a leaf -/
def impLeaf : Node Rat := ⟨-1, -1, .leaf, 0, 0, [], false, 0, 1, 0, 0, 0⟩

/-- two trees; features 0 and 2 are used -/
def exImp (k : Int) : Model Rat :=
  ⟨"regression", 1, 2, 1, [⟨[impSplit 1 2 2 3, impSplit 3 4 0 1, impLeaf, impLeaf, impLeaf], [], 3, 1, 0⟩,
    ⟨[impSplit 1 2 2 4, impLeaf, impLeaf], [], 2, 1, 0⟩], k, -1, 0, false⟩

example : (exImp 4).featureImportance "split" = .ok [1 / 3, 0, 2 / 3, 0] := by decide +kernel
example : (exImp 4).featureImportance "gain" = .ok [1 / 8, 0, 7 / 8, 0] := by decide +kernel
example : (exImp 4).featureImportance "cover" = .ok [0, 0, 0, 0] := by decide +kernel
example : (exImp 2).featureImportance "gain" = .panic "index out of range" := by decide +kernel
example : (exImp 4).FeaturesOk := by
  intro n hn
  have : ∀ n ∈ (exImp 4).splits, 0 ≤ n.feature ∧ n.feature < (exImp 4).numFeatures := by
    simp [exImp, Model.splits, impSplit, impLeaf, Node.isLeaf]
  exact this n hn

end Scigo.LGB
