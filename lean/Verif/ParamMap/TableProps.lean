import Verif.ParamMap.Props
import Verif.Boost.NamesProps
import Verif.LGB.JsonProps

/-!
# C260: objective names; C261: defaults and names of parameters
-/

set_option linter.unusedSectionVars false

namespace Scigo.ParamMap

/-! ## C260 -/

/-- specification: the objectives with all their names -/
def objectives : List (String × List String) :=
  [("regression", ["regression", "regression_l2", "l2", "mean_squared_error", "mse"]),
   ("regression_l1", ["regression_l1", "l1", "mean_absolute_error", "mae"]),
   ("huber", ["huber"]), ("fair", ["fair"]), ("poisson", ["poisson"]), ("quantile", ["quantile"]), ("mape", ["mape"]), ("gamma", ["gamma"]),
   ("tweedie", ["tweedie"]), ("binary", ["binary", "binary_logloss", "binary_crossentropy"]), ("multiclass", ["multiclass", "softmax"]),
   ("multiclassova", ["multiclassova", "multiclass_ova", "ova", "ovr"]), ("lambdarank", ["lambdarank"]),
   ("rank_xendcg", ["rank_xendcg", "xendcg", "xe_ndcg", "xe_ndcg_mart", "xendcg_mart"])]

theorem table_sound : ∀ e ∈ objectiveTable, ∃ g ∈ objectives, g.1 = e.2 ∧ e.1 ∈ g.2 := by decide +kernel

theorem table_complete : ∀ g ∈ objectives, ∀ n ∈ g.2, lookup objectiveTable n = some g.1 := by decide +kernel

/-- **C260**: `ValidateObjective` returns an objective exactly if the name, in lower case, is one of that objective's names. -/
theorem objective_validated (lower : String → String) (s o : String) :
    validateObjective lower s = some o ↔ ∃ names, (o, names) ∈ objectives ∧ lower s ∈ names := by
  constructor
  · intro h
    obtain ⟨g, hg, e1, e2⟩ := table_sound _ (lookup_some_mem h)
    obtain ⟨o', names⟩ := g
    simp only at e1 e2
    subst e1
    exact ⟨names, hg, e2⟩
  · rintro ⟨names, hg, hn⟩
    exact table_complete _ hg _ hn

/-- the objectives of the table that cannot be trained -/
def untrained : List String := ["mape"]

section
open Scigo.Boost
open Scigo.Online (Num)
variable {α : Type} [Field α] [LinearOrder α] [IsStrictOrderedRing α]

/-- **C260, as far as it holds**: a name `ValidateObjective` accepts, other than `mape`, is normalised to a name that training accepts, and to the same
objective wherever training knows the name itself. Missing: `mape` (`mape_not_trained`), and names that training knows
and `ValidateObjective` does not (`logistic_not_validated`). -/
theorem validated_is_trained_partial (N : Num α) (L : Lits α) (h2 : N.two = 2) (hh : 0 < N.half ∧ N.half < 1) (floor ceil : α → Nat)
    (delta c a v dv : α) (hd : 1 < dv ∧ dv < 2) (lower : String → String) (s o : String) (h : validateObjective lower s = some o)
    (hu : o ∉ untrained) :
    (createObjective N L floor ceil delta c a v dv o).isSome = true ∧
    ((createObjective N L floor ceil delta c a v dv (lower s)).isSome = true →
      createObjective N L floor ceil delta c a v dv (lower s) = createObjective N L floor ceil delta c a v dv o) := by
  obtain ⟨st, hst⟩ : ∃ st : Settled α, st.From delta c a v N.half dv := ⟨⟨_, _, _, _⟩, rfl, rfl, rfl, rfl⟩
  obtain ⟨m1, m2, m3, m4, m5, m6, m7, m8, m9, m10, m11⟩ := objective_by_name N L h2 hh floor ceil delta c a v dv hd st hst
  obtain ⟨names, hg, hn⟩ := (objective_validated lower s o).1 h
  simp only [List.forall_mem_cons, List.not_mem_nil, false_imp_iff, implies_true, and_true] at m1 m2 m9 m10
  simp only [objectives, List.mem_cons, Prod.mk.injEq, List.not_mem_nil, or_false] at hg
  simp only [untrained, List.mem_singleton] at hu
  have bad : ∀ n, createObjective N L floor ceil delta c a v dv n = none → (createObjective N L floor ceil delta c a v dv n).isSome = true → False := by
    intro n h1 h2; rw [h1] at h2; cases h2
  rcases hg with ⟨rfl, rfl⟩ | ⟨rfl, rfl⟩ | ⟨rfl, rfl⟩ | ⟨rfl, rfl⟩ | ⟨rfl, rfl⟩ | ⟨rfl, rfl⟩ | ⟨rfl, rfl⟩ | ⟨rfl, rfl⟩ | ⟨rfl, rfl⟩ | ⟨rfl, rfl⟩ | ⟨rfl, rfl⟩ |
    ⟨rfl, rfl⟩ | ⟨rfl, rfl⟩ | ⟨rfl, rfl⟩ <;>
  simp only [List.mem_cons, List.not_mem_nil, or_false] at hn <;>
  first
  | exact absurd rfl hu
  | (refine ⟨by simp only [m1, m2, m3, m4, m5, m6, m7, m8, m9, m10, Option.isSome_some], fun hs => ?_⟩
     try casesm* _ ∨ _
     all_goals (rename lower s = _ => hn; rw [hn] at hs ⊢)
     all_goals first
     | exact (bad _ (m11 _ (by decide)) hs).elim
     | simp only [m1, m2, m9, m10])

/-- **C260 is false of the code**: `ValidateObjective` accepts `mape`, which training refuses. -/
theorem mape_not_trained (N : Num α) (L : Lits α) (floor ceil : α → Nat) (delta c a v dv : α) (lower : String → String)
    (hl : lower "mape" = "mape") :
    validateObjective lower "mape" = some "mape" ∧ createObjective N L floor ceil delta c a v dv "mape" = none := by
  refine ⟨(objective_validated _ _ _).2 ⟨["mape"], by decide, by rw [hl]; decide⟩, ?_⟩
  unfold createObjective
  simp

/-- **C260 is false of the code**: training knows `logistic` and `multiclass_logloss`, `ValidateObjective` refuses them. -/
theorem logistic_not_validated (N : Num α) (L : Lits α) (floor ceil : α → Nat) (delta c a v dv : α) (lower : String → String)
    (hl : ∀ n ∈ ["logistic", "multiclass_logloss"], lower n = n) : ∀ n ∈ ["logistic", "multiclass_logloss"],
    validateObjective lower n = none ∧ (createObjective N L floor ceil delta c a v dv n).isSome = true := by
  intro n hn
  refine ⟨?_, ?_⟩
  · unfold validateObjective
    rw [hl n hn]
    have : ∀ n ∈ ["logistic", "multiclass_logloss"], lookup objectiveTable n = none := by decide +kernel
    exact this n hn
  · simp only [List.mem_cons, List.not_mem_nil, or_false] at hn
    rcases hn with rfl | rfl <;> simp [createObjective]

end

/-- specification: the names the JSON loader translates -/
def jsonNames : List (String × List String) :=
  [("binary", ["binary", "binary sigmoid", "binary_logloss"]), ("regression", ["regression", "regression_l2", "l2", "mean_squared_error"]),
   ("regression_l1", ["regression_l1", "l1", "mean_absolute_error"]), ("multiclass", ["multiclass", "softmax", "multiclassova"])]

/-- **C260**: the objective of a JSON model: the four objectives by their names, every other name as it stands. -/
theorem json_objective (s : String) :
    (∀ g ∈ jsonNames, s ∈ g.2 → LGB.readObjective s = g.1) ∧ ((∀ g ∈ jsonNames, s ∉ g.2) → LGB.readObjective s = s) := by
  constructor
  · intro g hg hs
    have : ∀ g ∈ jsonNames, ∀ s ∈ g.2, LGB.readObjective s = g.1 := by decide +kernel
    exact this g hg s hs
  · intro h
    have a := h ("binary", ["binary", "binary sigmoid", "binary_logloss"]) (by decide)
    have b := h ("regression", ["regression", "regression_l2", "l2", "mean_squared_error"]) (by decide)
    have c := h ("regression_l1", ["regression_l1", "l1", "mean_absolute_error"]) (by decide)
    have d := h ("multiclass", ["multiclass", "softmax", "multiclassova"]) (by decide)
    simp only [List.mem_cons, List.not_mem_nil, or_false, not_or] at a b c d
    simp [LGB.readObjective, a, b, c, d]

/-- **C260 is false of the code**: of the names `ValidateObjective` accepts in lower case, the JSON loader turns `multiclassova` into another objective and
leaves `mse`, `mae`, `binary_crossentropy` and `ova` unknown, so that the scores of such a model are not transformed. -/
theorem json_disagrees :
    lookup objectiveTable "multiclassova" = some "multiclassova" ∧ LGB.readObjective "multiclassova" = "multiclass" ∧
    (∀ n ∈ ["mse", "mae", "binary_crossentropy", "ova"], LGB.readObjective n = n ∧ (lookup objectiveTable n).isSome = true ∧
      lookup objectiveTable n ≠ some n) := by
  decide +kernel

example : validateObjective (fun s => if s = "MAE" then "mae" else s) "MAE" = some "regression_l1" :=
  (objective_validated _ _ _).2 ⟨["regression_l1", "l1", "mean_absolute_error", "mae"], by decide, by decide⟩

/-! ## C261 -/

/-- capital letters of the alphabet -/
def Capital (c : Char) : Prop := 'A' ≤ c ∧ c ≤ 'Z'

instance (c : Char) : Decidable (Capital c) := inferInstanceAs (Decidable (_ ∧ _))

theorem flatMap_plain (l : List Char) (h : ∀ c ∈ l, ¬ Capital c) (k : Nat) :
    (l.zipIdx k).flatMap (fun (r, i) => if 0 < i ∧ 'A' ≤ r ∧ r ≤ 'Z' then ['_', r] else [r]) = l := by
  induction l generalizing k with
  | nil => rfl
  | cons a l ih =>
    rw [List.zipIdx_cons, List.flatMap_cons, ih (fun c hc => h c (List.mem_cons_of_mem _ hc))]
    have := h a (List.mem_cons_self ..)
    simp only
    rw [if_neg (fun hh => this hh.2)]
    rfl

theorem flatMap_words (ws : List (Char × List Char)) (h : ∀ w ∈ ws, Capital w.1 ∧ ∀ c ∈ w.2, ¬ Capital c) (k : Nat) (hk : 0 < k) :
    ((ws.flatMap fun w => w.1 :: w.2).zipIdx k).flatMap (fun (r, i) => if 0 < i ∧ 'A' ≤ r ∧ r ≤ 'Z' then ['_', r] else [r]) =
      ws.flatMap fun w => '_' :: w.1 :: w.2 := by
  induction ws generalizing k with
  | nil => rfl
  | cons w ws ih =>
    obtain ⟨h1, h2⟩ := h w (List.mem_cons_self ..)
    rw [List.flatMap_cons, List.flatMap_cons, List.zipIdx_append, List.flatMap_append, ih (fun w hw => h w (List.mem_cons_of_mem _ hw)) _ (by omega),
      List.zipIdx_cons, List.flatMap_cons, flatMap_plain _ h2]
    simp only
    rw [if_pos ⟨hk, h1⟩]
    rfl

/-- **C261**: a Go name made of words, each a capital letter and characters that are none, is the words joined by underscores, in lower case. -/
theorem snake_case_words (lower : String → String) (c : Char) (cs : List Char) (ws : List (Char × List Char)) (hc : ∀ c ∈ cs, ¬ Capital c)
    (h : ∀ w ∈ ws, Capital w.1 ∧ ∀ c ∈ w.2, ¬ Capital c) :
    toSnakeCase lower (String.ofList ((c :: cs) ++ ws.flatMap fun w => w.1 :: w.2)) =
      lower (String.ofList (List.intercalate ['_'] ((c :: cs) :: ws.map fun w => w.1 :: w.2))) := by
  have inter : ∀ (ws : List (Char × List Char)) (a : List Char),
      List.intercalate ['_'] (a :: ws.map fun w => w.1 :: w.2) = a ++ ws.flatMap fun w => '_' :: w.1 :: w.2 := by
    intro ws
    induction ws with
    | nil => intro a; simp [List.intercalate]
    | cons w ws ih =>
      intro a
      have := ih (w.1 :: w.2)
      simp only [List.intercalate, List.map_cons, List.intersperse_cons_cons, List.flatten_cons] at this ⊢
      rw [this]
      simp
  unfold toSnakeCase
  rw [inter, String.toList_ofList, List.zipIdx_append, List.flatMap_append, List.zipIdx_cons, List.flatMap_cons, flatMap_plain cs hc,
    flatMap_words ws h _ (by simp)]
  simp

/-- a name of three words -/
example : Capital 'N' ∧ ¬ Capital 'u' ∧ (['N', 'u'] ++ ([('I', ['t']), ('X', [])] : List (Char × List Char)).flatMap fun w => w.1 :: w.2) = ['N', 'u', 'I', 't', 'X'] ∧
    List.intercalate ['_'] [['N', 'u'], ['I', 't'], ['X']] = ['N', 'u', '_', 'I', 't', '_', 'X'] := by
  decide +kernel

/-- specification: a parameter's own default, or that of the parameter it is listed for -/
def aliasOf : List (String × String) := mappings.flatMap fun e => e.2.2.map fun a => (a, e.1)

theorem aliases_listed : ∀ e ∈ newMapper.aliases, e ∈ aliasOf := by decide +kernel

theorem aliases_all : ∀ e ∈ aliasOf, lookup newMapper.aliases e.1 = some e.2 := by decide +kernel

/-- **C261**: the default of a canonical name that has one is that value; the default of an alias that has none of its own is the default of the parameter
it is listed for; every other name has no default. -/
theorem default_of_name {α : Type} (lit : String → α) (name : String) :
    (∀ v, lookup (defaults lit) name = some v → newMapper.getDefault lit name = some v) ∧
    (lookup (defaults lit) name = none → ∀ p, (name, p) ∈ aliasOf → newMapper.getDefault lit name = lookup (defaults lit) p) ∧
    (lookup (defaults lit) name = none → (∀ p, (name, p) ∉ aliasOf) → newMapper.getDefault lit name = none) := by
  refine ⟨fun v h => ?_, fun h p hp => ?_, fun h hn => ?_⟩
  · simp only [Mapper.getDefault, h]
  · simp only [Mapper.getDefault, h, aliases_all _ hp]
  · cases hl : lookup newMapper.aliases name with
    | none => simp only [Mapper.getDefault, h, hl]
    | some p => exact absurd (aliases_listed _ (lookup_some_mem hl)) (hn p)

example : ("eta", "learning_rate") ∈ aliasOf ∧ newMapper.getDefault (fun s => s) "eta" = some (.float "0.1") ∧
    newMapper.getDefault (fun s => s) "monotone_constraint" = none ∧ newMapper.getDefault (fun s => s) "nothing" = none := by
  decide +kernel

end Scigo.ParamMap

namespace Scigo.ParamMap

/-- **C261**: `ApplyDefaults` keeps every value given and adds the default of every parameter that is not given, nothing else; in whatever order the maps are visited. -/
theorem defaults_applied {α : Type} (params defs : List (String × Val α)) (hp : (params.map (·.1)).Nodup) (hd : (defs.map (·.1)).Nodup) (k : String) :
    (∀ v, (k, v) ∈ params → lookup (applyDefaults params defs) k = some v) ∧
    ((∀ v, (k, v) ∉ params) → ∀ v, (k, v) ∈ defs → lookup (applyDefaults params defs) k = some v) ∧
    ((∀ v, (k, v) ∉ params) → (∀ v, (k, v) ∉ defs) → lookup (applyDefaults params defs) k = none) := by
  have copy : ∀ (l : List (String × Val α)) (m : List (String × Val α)), (l.map (·.1)).Nodup →
      lookup (l.foldl (fun m e => insert m e.1 e.2) m) k = match lookup l k with | some v => some v | none => lookup m k := by
    intro l
    induction l with
    | nil => intro m _; rfl
    | cons a l ih =>
      intro m hn
      rw [List.map_cons, List.nodup_cons] at hn
      rw [List.foldl_cons, ih _ hn.2, lookup_cons, lookup_insert]
      by_cases h : a.1 = k
      · rw [if_pos h, lookup_none (m := l) (k := k) (fun e he c => hn.1 (by rw [h, ← c]; exact List.mem_map_of_mem (f := (·.1)) he))]
        simp [h]
      · rw [if_neg h, if_neg h]
  have fill : ∀ (l : List (String × Val α)) (m : List (String × Val α)),
      lookup (l.foldl (fun m e => match lookup m e.1 with | some _ => m | none => insert m e.1 e.2) m) k =
        match lookup m k with | some v => some v | none => lookup l k := by
    intro l
    induction l with
    | nil => intro m; rw [List.foldl_nil]; cases lookup m k <;> rfl
    | cons a l ih =>
      intro m
      rw [List.foldl_cons, ih, lookup_cons]
      by_cases h : a.1 = k
      · rw [if_pos h, h]
        cases hm : lookup m k with
        | some v => simp only [hm]
        | none => simp only [lookup_insert, if_pos]
      · rw [if_neg h]
        cases hm : lookup m a.1 with
        | some v => rfl
        | none => simp only [lookup_insert, if_neg h]
  have all : lookup (applyDefaults params defs) k = match lookup params k with | some v => some v | none => lookup defs k := by
    unfold applyDefaults
    refine (fill defs _).trans ?_
    rw [copy _ _ hp]
    cases lookup params k <;> rfl
  rw [all]
  refine ⟨fun v h => by rw [lookup_of_mem hp h], fun h v hv => ?_, fun h h' => ?_⟩
  · rw [lookup_none (m := params) (fun e he c => h e.2 (by rw [← c]; exact he))]
    exact lookup_of_mem hd hv
  · rw [lookup_none (m := params) (fun e he c => h e.2 (by rw [← c]; exact he))]
    exact lookup_none (m := defs) (fun e he c => h' e.2 (by rw [← c]; exact he))

example : applyDefaults [("eta", Val.float "0.3")] [("eta", .float "0.1"), ("max_depth", .int (-1))] = [("eta", .float "0.3"), ("max_depth", .int (-1))] := by
  decide +kernel

end Scigo.ParamMap

namespace Scigo.ParamMap

/-- **C261**: exactly the four boosting types are accepted, in any case; the name returned is accepted again and stays the same. -/
theorem boosting_names (lower : String → String) (hl : ∀ s, lower (lower s) = lower s) (s t : String) :
    (validateBoosting lower s = some t ↔ t = lower s ∧ (t = "gbdt" ∨ t = "dart" ∨ t = "goss" ∨ t = "rf")) ∧
    (validateBoosting lower s = some t → validateBoosting lower t = some t) := by
  have key : ∀ s t, validateBoosting lower s = some t ↔ t = lower s ∧ (t = "gbdt" ∨ t = "dart" ∨ t = "goss" ∨ t = "rf") := by
    intro s t
    unfold validateBoosting
    by_cases h : lower s ∈ ["gbdt", "dart", "goss", "rf"]
    · rw [if_pos h]
      constructor
      · intro e
        injection e with e
        subst e
        exact ⟨rfl, by simpa using h⟩
      · rintro ⟨e, -⟩
        rw [e]
    · rw [if_neg h]
      constructor
      · intro e
        cases e
      · rintro ⟨e, h'⟩
        subst e
        exact absurd (by simpa using h') h
  refine ⟨key s t, fun h => ?_⟩
  obtain ⟨e, h'⟩ := (key s t).1 h
  rw [key, e, hl]
  exact ⟨rfl, e ▸ h'⟩

example : validateBoosting String.toLower "GOSS" = some "goss" := by decide +kernel

end Scigo.ParamMap
