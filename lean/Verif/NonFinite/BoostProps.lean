import Verif.NonFinite.KMeansProps
import Verif.NonFinite.NaiveBayesProps
import Verif.NonFinite.OnlineProps
import Verif.Wrapper.Train
import Verif.LGB.Ensemble

/-!
# C308: a missing target leaves an LGBMRegressor usable
-/

namespace Scigo.NonFinite

open Scigo.Wrapper Scigo.LGB F64

/-- the objectives whose initial score is the mean of the targets or its logarithm (`sklearn/lightgbm/objectives.go:52-62,168-182,305-323,681-737`); "regression" is the default of
`LGBMRegressor` (`sklearn/lightgbm/lgbm_regressor.go:77`) -/
def meanNames : List String := ["regression", "regression_l2", "l2", "mean_squared_error", "mse", "huber", "poisson"]

theorem sum_nan (l : List F64) (h : nan ∈ l) : l.foldl (· + ·) 0 = nan := by
  have := foldl_step_nan id l (0 : F64) (Or.inr ⟨nan, h, rfl⟩)
  exact this

theorem mean_nan (N : Online.Num F64) (l : List F64) (h : nan ∈ l) : Boost.meanOf N l = nan := by
  unfold Boost.meanOf
  rw [sum_nan l h, nan_div]

theorem init_nan (E : Env F64) (hlog : E.num.log nan = nan) (a b c d e : F64) (name : String) (hn : name ∈ meanNames) (obj : Boost.Objective F64)
    (h : @Boost.createObjective F64 _ _ _ _ _ _ _ _ _ _ _ (instBEqOfDecidableEq) E.num E.lits E.floor E.ceil a b c d e name = some obj) (l : List F64) (hl : nan ∈ l) : obj.init l = nan := by
  have h0 : l.length ≠ 0 := fun e => by rw [List.length_eq_zero_iff.1 e] at hl; cases hl
  have hm := mean_nan E.num l hl
  unfold meanNames at hn
  simp only [List.mem_cons, List.not_mem_nil, or_false] at hn
  rcases hn with rfl | rfl | rfl | rfl | rfl | rfl | rfl <;>
  · unfold Boost.createObjective at h
    simp at h
    subst h
    simp only [Boost.l2, Boost.huber, Boost.poisson, if_neg h0]
    first
    | exact hm
    | (rw [hm, if_neg (not_nan_le _)]; exact hlog)

theorem ensure_nan (P : PNum F64) : P.ensure nan = nan := rfl

theorem raw_nan (N : ENum F64) (m : LGB.Model F64) (hc : m.numClass = 1) (ts : List (LGB.Tree F64 × Nat)) (out : LGB.Tree F64 → Outcome F64) (p : List F64)
    (h : m.accumulate out (fun t s v => N.toPNum.ensure (s + v * m.rate t)) ts [nan] = .ok p) : p = [nan] := by
  induction ts with
  | nil => exact (Outcome.ok.inj h).symm
  | cons t ts ih =>
    unfold Model.accumulate at h
    split at h
    · apply ih
      rw [← h]
      have : m.slot t.2 = 0 := by unfold Model.slot; rw [if_neg (by omega)]
      rw [this]
      rfl
    · cases h
    · cases h

theorem forRows_const (X : Mat F64) (f : List F64 → Outcome (List F64)) (v : List F64) (hf : ∀ x p, f x = .ok p → p = v) (n : Nat) (rows : List (List F64))
    (h : forRows X f n = .ok rows) : rows = List.replicate n v := by
  induction n generalizing rows with
  | zero => exact (Outcome.ok.inj h).symm
  | succ n ih =>
    unfold forRows at h
    split at h
    · rename_i rs hr
      split at h
      · rename_i p hp
        rw [← Outcome.ok.inj h, ih rs hr, hf _ _ hp, List.replicate_succ']
      · cases h
      · cases h
    · cases h
    · cases h

/-- **C308**, negation: one NaN among the targets makes every prediction NaN, whatever trees are grown, for the default objective and all others that start from the mean. -/
theorem missing_target_spoils_boosting (N : ENum F64) (hexp : N.exp nan = nan) (E : Env F64) (hlog : E.num.log nan = nan) (c : F64) (m m' : Wrapper.Reg F64)
    (hn : m.objective ∈ meanNames) (X y : Mat F64) (i : Nat) (hi : i < y.r) (hy : y.at' i 0 = nan) (w : Option (List F64))
    (h : m.fit c (train E) X y = (m', .ok ()) ∨ m.fitWeighted c (train E) X y w = (m', .ok ()))
    (Q Z : Mat F64) (hp : m'.predict N Q = .ok Z) (k : Nat) (hk : k < Q.r) : Z.at' k 0 = nan := by
  have key : ∃ req : Request F64, ∃ M, req.objective = m.objective ∧ req.numClass ≤ 1 ∧ req.initScore = none ∧ train E req X y = .ok M ∧ m'.model = some M := by
    have body : ∀ req : Wrapper.Reg F64 → Request F64, ∀ s : String, (let p := m.fitBody (train E) req X y; (p.1, p.2.recovered s)) = (m', .ok ()) →
        ∃ M, train E (req { m with nFeatures := X.c, nSamples := X.r }) X y = .ok M ∧ m'.model = some M := by
      intro req s hb
      unfold Wrapper.Reg.fitBody at hb
      dsimp only at hb
      split at hb
      · rename_i M hM
        exact ⟨M, hM, by rw [← (Prod.mk.inj hb).1]⟩
      · exact absurd (Prod.mk.inj hb).2 (by simp [Outcome.recovered])
      · exact absurd (Prod.mk.inj hb).2 (by simp [Outcome.recovered])
    rcases h with h | h
    · unfold Wrapper.Reg.fit at h
      split at h
      · cases h
      · split at h
        · cases h
        · obtain ⟨M, h1, h2⟩ := body _ _ h
          exact ⟨_, M, rfl, by simp [Wrapper.Reg.request], rfl, h1, h2⟩
    · unfold Wrapper.Reg.fitWeighted at h
      split at h
      · cases h
      · split at h
        · cases h
        · split at h
          · cases h
          · obtain ⟨M, h1, h2⟩ := body _ _ h
            exact ⟨_, M, rfl, by simp [Wrapper.Reg.requestWeighted], rfl, h1, h2⟩
  obtain ⟨req, M, ho, hnc, hs, ht, hM⟩ := key
  have hinit : M.initScore = nan ∧ M.numClass = 1 ∧ M.objective = m.objective := by
    unfold train at ht
    split at ht
    · cases ht
    · rename_i obj hobj
      cases hf : (req.config E obj).fit E.lib E.byGrad (E.rand req.seed req.deterministic) E.fuel (problem X y) (fun _ _ => .go) (fun _ _ => .go) Trainer.St.new with
      | err e => rw [hf] at ht; cases ht
      | panic e => rw [hf] at ht; cases ht
      | ok st =>
        rw [hf] at ht
        have e := Outcome.ok.inj ht
        rw [← e]
        refine ⟨?_, ?_, ho⟩
        · show (req.config E obj).init (problem X y) = nan
          unfold Trainer.Config.init
          have : (req.config E obj).initScore = none := hs
          rw [this]
          show obj.init (problem X y).y = nan
          refine init_nan E hlog _ _ _ _ _ _ (ho ▸ hn) obj hobj _ ?_
          exact List.mem_map.2 ⟨i, List.mem_range.2 hi, hy⟩
        · show (if 0 < req.numClass then req.numClass else 1) = 1
          split <;> omega
  obtain ⟨h1, h2, h3⟩ := hinit
  unfold Wrapper.Reg.predict at hp
  split at hp
  · cases hp
  · split at hp
    · cases hp
    · rw [hM] at hp
      dsimp only at hp
      unfold Model.pPredict Model.batch at hp
      split at hp
      · cases hp
      · split at hp
        · cases hp
        · split at hp
          · rename_i rows hrows
            have hv := forRows_const Q _ [nan] (fun x p hx => ?_) _ _ hrows
            · rw [← Outcome.ok.inj hp]
              show (rows.getD k []).getD 0 0 = nan
              have e0 : (List.replicate Q.r ([nan] : List F64)).getD k [] = [nan] := by rw [List.getD_eq_getElem?_getD, List.getElem?_replicate, if_pos hk]; rfl
              rw [hv, e0]
              rfl
            · unfold Model.pSample Model.pRaw at hx
              have hst : M.start = [nan] := by unfold Model.start; rw [if_neg (by omega), h1]
              rw [hst] at hx
              cases ha : M.accumulate (fun t => t.pPredict N.toPNum (fillMissing x)) (fun t s v => N.toPNum.ensure (s + v * M.rate t))
                  (M.trees.take M.usedTrees).zipIdx [nan] with
              | err e => rw [ha] at hx; cases hx
              | panic e => rw [ha] at hx; cases hx
              | ok q =>
                rw [ha, raw_nan N M h2 _ _ q ha] at hx
                rw [← Outcome.ok.inj hx]
                unfold Model.pLink
                rw [h3]
                have hse : stableExp N nan = nan := by
                  unfold stableExp
                  rw [if_neg (not_lt_nan _), if_neg (not_nan_lt _), hexp, ensure_nan]
                unfold meanNames at hn
                simp only [List.mem_cons, List.not_mem_nil, or_false] at hn
                rcases hn with e | e | e | e | e | e | e <;> rw [e] <;> simp [hse]
          · cases hp
          · cases hp

theorem sum_within (k : Nat) (l : List F64) (hl : ∀ v ∈ l, Within k v) (n : Nat) (a : Overflow.B) (ha : |a.val| ≤ n * 2 ^ k) (hn : n + l.length < 2 ^ 53)
    (hb : ((n + l.length : Nat) : ℚ) * 2 ^ k ≤ 2 ^ 1023) : ∃ s : Overflow.B, |s.val| ≤ ((n + l.length : Nat) : ℚ) * 2 ^ k ∧ l.foldl (· + ·) (F64.lift a) = F64.lift s := by
  induction l generalizing n a with
  | nil => exact ⟨a, ha, rfl⟩
  | cons x l ih =>
    rw [List.length_cons] at hn hb
    obtain ⟨v, hv, rfl⟩ := hl x (List.mem_cons_self ..)
    have hp : (0 : ℚ) < 2 ^ k := pow_pos (by norm_num) k
    have hle : ∀ m : Nat, m ≤ n + (l.length + 1) → (m : ℚ) * 2 ^ k ≤ maxF64 := fun m hm =>
      ((mul_le_mul_of_nonneg_right (by exact_mod_cast hm) hp.le).trans hb).trans (pow_le_max (le_refl _))
    have h1 : |(a + v).val| ≤ ((n + 1 : Nat) : ℚ) * 2 ^ k :=
      add_bound ha hv (F64.rep_mul_pow (n + 1) k (by omega)) (by push_cast; rw [add_mul, one_mul])
    rw [List.foldl_cons, lift_add (ha.trans (hle n (by omega))) (hv.trans (by simpa using hle 1 (by omega)))]
    obtain ⟨s, h2, h3⟩ := ih (fun u hu => hl u (List.mem_cons_of_mem _ hu)) (n + 1) (a + v) h1 (by omega) (by rw [show n + 1 + l.length = n + (l.length + 1) by omega]; exact hb)
    refine ⟨s, ?_, h3⟩
    rw [List.length_cons, show n + (l.length + 1) = n + 1 + l.length by omega]
    exact h2

theorem mean_within (N : Online.Num F64) (hN : ∀ n, N.ofNat n = (n : F64)) (k : Nat) (l : List F64) (hl : ∀ v ∈ l, Within k v) (h0 : 0 < l.length) (hn : l.length < 2 ^ 53)
    (hb : (l.length : ℚ) * 2 ^ k ≤ 2 ^ 1023) : Within k (Boost.meanOf N l) := by
  obtain ⟨s, h1, h2⟩ := sum_within k l hl 0 0 (by rw [Fl.val_zero]; simp) (by omega) (by rw [Nat.zero_add]; exact hb)
  rw [Nat.zero_add] at h1
  have e : ((l.length : Nat) : Overflow.B).val = l.length := nat_val _ hn
  have hpos : (0 : ℚ) < l.length := by exact_mod_cast h0
  refine ⟨s / ((l.length : Nat) : Overflow.B), ?_, ?_⟩
  · rw [Fl.val_div, e]
    refine F64.rnd_abs_le (F64.rep_pow k) ?_
    rw [abs_div, abs_of_pos hpos, div_le_iff₀ hpos, mul_comm]
    exact h1
  · unfold Boost.meanOf
    have h2' : l.foldl (· + ·) (0 : F64) = F64.lift s := by rw [← lift_zero]; exact h2
    rw [h2', hN, ← lift_natCast, lift_div (h1.trans (hb.trans (pow_le_max (le_refl _)))) (nat_le_max _ hn) (by rw [e]; exact hpos.ne')]

/-- **C308** (partial): training on complete targets of magnitude up to `2 ^ k` with the default objective starts from a finite score of magnitude up to `2 ^ k`. Missing: data
with a missing target (`missing_target_spoils_boosting`), and the trees. -/
theorem complete_targets_partial (E : Env F64) (hN : ∀ n, E.num.ofNat n = (n : F64)) (req : Request F64) (ho : req.objective = "regression") (hs : req.initScore = none)
    (X y : Mat F64) (k : Nat) (hy : ∀ i < y.r, Within k (y.at' i 0)) (h0 : 0 < y.r) (hr : y.r < 2 ^ 53) (hb : (y.r : ℚ) * 2 ^ k ≤ 2 ^ 1023) (M : LGB.Model F64)
    (h : train E req X y = .ok M) : Within k M.initScore := by
  unfold train at h
  rw [ho] at h
  have hl : (problem X y).y.length = y.r := by simp [problem]
  have hm : Within k (Boost.meanOf E.num (problem X y).y) := by
    refine mean_within E.num hN k _ ?_ (by omega) (by omega) (by rw [hl]; exact hb)
    intro v hv
    obtain ⟨i, hi, rfl⟩ := List.mem_map.1 hv
    exact hy i (List.mem_range.1 hi)
  unfold Boost.createObjective at h
  rw [if_pos (by simp)] at h
  dsimp only at h
  cases hf : (req.config E (Boost.l2 E.num)).fit E.lib E.byGrad (E.rand req.seed req.deterministic) E.fuel (problem X y) (fun _ _ => .go) (fun _ _ => .go) Trainer.St.new with
  | err e => rw [hf] at h; cases h
  | panic e => rw [hf] at h; cases h
  | ok st =>
    rw [hf] at h
    rw [← Outcome.ok.inj h]
    show Within k ((req.config E (Boost.l2 E.num)).init (problem X y))
    unfold Trainer.Config.init
    have : (req.config E (Boost.l2 E.num)).initScore = none := hs
    rw [this]
    show Within k (if (problem X y).y.length = 0 then 0 else Boost.meanOf E.num (problem X y).y)
    rw [if_neg (by omega)]
    exact hm

/-- the surroundings of training (`sklearn/lightgbm/trainer.go:187-238`) -/
def boostEnv : Env F64 where
  num := num64
  lits := ⟨F64.round (1 / 10000000), F64.round (1 / 10 ^ 16), F64.round (1 / 10 ^ 15), F64.round 700⟩
  floor := fun _ => 0
  ceil := fun _ => 0
  fifth := F64.round (1 / 5)
  threeHalves := F64.round (3 / 2)
  lib := ⟨⟨F64.round (1 / 10 ^ 10), F64.round (1 / 1000), F64.round (1 / 2)⟩, 0, fun _ => false, fun l => l, id, id, id, id, fun _ => 0, fun n => F64.round n, fun n _ => n⟩
  byGrad := fun _ l => l
  rand := fun _ _ _ _ => 0
  fuel := 5

/-- one boosting round on one column (`sklearn/lightgbm/lgbm_regressor.go:62-90`) -/
def boostReg : Wrapper.Reg F64 :=
  ⟨⟨31, 2, F64.round (1 / 10), 1, 1, 1, 0, 1, 0, 0, 1, true, 0, []⟩, ⟨F64.round (1 / 2), 1, 1, F64.round (3 / 2), ""⟩, "regression", 0, 0, none, false⟩

/-- the column `1, 2, 3` as training data, targets `1, 2` and NaN or 3 (`sklearn/lightgbm/lgbm_regressor.go:160`) -/
def boostRun (t : F64) : Outcome Unit × Option (List F64) :=
  let X : Mat F64 := ⟨3, 1, fun i _ => F64.round (i + 1)⟩
  let N : ENum F64 := ⟨⟨fun _ => false, fun _ => 0, F64.round (1 / 10 ^ 15)⟩, id, fun n => n, F64.round (10 ^ 308), F64.round 700, F64.round 500, .inf false⟩
  let r := boostReg.fit (F64.round (1 / 10 ^ 7)) (train boostEnv) X ⟨3, 1, fun i _ => if i = 2 then t else F64.round (i + 1)⟩
  (r.2, match r.1.predict N X with
    | .ok Z => some ((List.range 3).map (fun i => Z.at' i 0))
    | _ => none)

example : boostRun nan = (.ok (), some [nan, nan, nan]) := by decide +kernel
example : (boostRun (F64.round 3)).1 = .ok () ∧ ∀ v ∈ (boostRun (F64.round 3)).2.getD [nan], v.IsFin := by decide +kernel

end Scigo.NonFinite
