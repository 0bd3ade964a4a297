import Verif.Hist.Cache

/-!
# What the cache of sorted feature values returns (C252)
-/

namespace Scigo.Hist.Cache

variable {α : Type}

/-! ## Specification -/

/-- the answer a request should get: its own column, sorted; a panic if a row or the column is out of range -/
def answer (srt : List α → List α) (r : Req α) : Option (List α) := (column r).map srt

/-! ## Lemmas -/

/-- cached and returned values are answers of requests of the execution -/
def Inv (srt : List α → List α) (A : Req α → Prop) (s : S α) : Prop :=
  (∀ f v, s.cache f = some v → ∃ r, A r ∧ r.feature = f ∧ answer srt r = some v) ∧
  (∀ g r, s.th g = .missed r → A r) ∧
  ∀ g r, (∀ v, s.th g = .back r (.ok v) → A r ∧ ∃ r', A r' ∧ r'.feature = r.feature ∧ answer srt r' = some v) ∧
    (∀ e, s.th g ≠ .back r (.err e)) ∧ ∀ m, s.th g = .back r (.panic m) → A r ∧ answer srt r = none

theorem setTh_same (th : Nat → Th α) (g : Nat) (t : Th α) : setTh th g t g = t := if_pos rfl
theorem setTh_ne (th : Nat → Th α) (g : Nat) (t : Th α) (k : Nat) (h : k ≠ g) : setTh th g t k = th k := if_neg h

theorem inv_hit (srt : List α → List α) (A : Req α → Prop) (s : S α) (h : Inv srt A s) (g : Nat) (r : Req α) (hr : A r) (v : List α)
    (hv : ∃ r', A r' ∧ r'.feature = r.feature ∧ answer srt r' = some v) :
    Inv srt A { s with th := setTh s.th g (.back r (.ok v)) } := by
  obtain ⟨h1, h2, h3⟩ := h
  refine ⟨h1, fun k r' hk => ?_, fun k r' => ?_⟩
  · by_cases e : k = g
    · subst e; simp only [setTh_same] at hk; exact (nomatch hk)
    · simp only [setTh_ne _ _ _ _ e] at hk; exact h2 k r' hk
  · by_cases e : k = g
    · subst e
      simp only [setTh_same]
      refine ⟨fun w hw => ?_, fun w hw => (nomatch hw), fun w hw => (nomatch hw)⟩
      injection hw with hw1 hw2
      injection hw2 with hw2
      subst hw1; subst hw2
      exact ⟨hr, hv⟩
    · simp only [setTh_ne _ _ _ _ e]; exact h3 k r'

theorem inv_run (srt : List α → List α) (A : Req α → Prop) {s : S α} (h : Run srt A start s) : Inv srt A s := by
  induction h with
  | refl => exact ⟨fun f v h => (nomatch h), fun g r h => (nomatch h), fun g r => ⟨fun v h => (nomatch h), fun e h => (nomatch h), fun m h => (nomatch h)⟩⟩
  | @enter t g r hr hm hs ih =>
    unfold lookup
    split
    · next v hv => exact inv_hit srt A t ih g r hr v (ih.1 _ v hv)
    · next hv =>
      obtain ⟨h1, h2, h3⟩ := ih
      refine ⟨h1, fun k r' hk => ?_, fun k r' => ?_⟩
      · by_cases e : k = g
        · subst e
          simp only [setTh_same] at hk
          injection hk with hk
          exact hk ▸ hr
        · simp only [setTh_ne _ _ _ _ e] at hk; exact h2 k r' hk
      · by_cases e : k = g
        · subst e
          simp only [setTh_same]
          exact ⟨fun w hw => (nomatch hw), fun w hw => (nomatch hw), fun w hw => (nomatch hw)⟩
        · simp only [setTh_ne _ _ _ _ e]; exact h3 k r'
  | @finish t g r hm hs ih =>
    have hr : A r := ih.2.1 g r hm
    unfold fillIn
    split
    · next v hv => exact inv_hit srt A t ih g r hr v (ih.1 _ v hv)
    · next hv =>
      split
      · next hc =>
        obtain ⟨h1, h2, h3⟩ := ih
        refine ⟨h1, fun k r' hk => ?_, fun k r' => ?_⟩
        · by_cases e : k = g
          · subst e; simp only [setTh_same] at hk; exact (nomatch hk)
          · simp only [setTh_ne _ _ _ _ e] at hk; exact h2 k r' hk
        · by_cases e : k = g
          · subst e
            simp only [setTh_same]
            refine ⟨fun w hw => (nomatch hw), fun w hw => (nomatch hw), fun w hw => ?_⟩
            injection hw with hw1 _
            subst hw1
            exact ⟨hr, by unfold answer; rw [hc]; rfl⟩
          · simp only [setTh_ne _ _ _ _ e]; exact h3 k r'
      · next vs hc =>
        have ha : answer srt r = some (srt vs) := by unfold answer; rw [hc]; rfl
        have hcache : ∀ f v, setCache t.cache r.feature (srt vs) f = some v → ∃ r', A r' ∧ r'.feature = f ∧ answer srt r' = some v := by
          intro f v hf
          unfold setCache at hf
          split at hf
          · next e => exact ⟨r, hr, e.symm, by rw [ha, hf]⟩
          · exact ih.1 f v hf
        have := inv_hit srt A { t with cache := setCache t.cache r.feature (srt vs) } ⟨hcache, ih.2.1, ih.2.2⟩ g r hr (srt vs)
          ⟨r, hr, rfl, ha⟩
        exact this
  | clear hs ih => exact ⟨fun f v h => (nomatch h), ih.2.1, ih.2.2⟩

theorem run_mono (srt : List α → List α) (A B : Req α → Prop) (hAB : ∀ r, A r → B r) {s t : S α} (h : Run srt A s t) : Run srt B s t := by
  induction h with
  | refl => exact .refl _
  | enter g r hr hm hs ih => exact .enter g r (hAB r hr) hm ih
  | finish g r h hs ih => exact .finish g r h ih
  | clear hs ih => exact .clear ih

/-! ## Properties -/

/-- **C252**, the part that holds, for every interleaving of any number of goroutines: a call returns the sorted values of the column it asked for
as some call of the execution saw them, or panics because its own rows or column are out of range; so if all calls for a column are made with
the same data and rows, every one gets its own sorted column. Missing: `cache_is_stale`. -/
theorem cache_sound_partial (srt : List α → List α) (A : Req α → Prop) (s : S α) (h : Run srt A start s) (g : Nat) (r : Req α) (res : Outcome (List α))
    (hg : s.th g = .back r res) :
    (∃ v r', res = .ok v ∧ A r' ∧ r'.feature = r.feature ∧ answer srt r' = some v) ∨ ((∃ m, res = .panic m) ∧ answer srt r = none) := by
  obtain ⟨-, -, h3⟩ := inv_run srt A h
  obtain ⟨a, b, c⟩ := h3 g r
  cases res with
  | ok v => obtain ⟨-, r', h1, h2, h4⟩ := a v hg; exact .inl ⟨v, r', rfl, h1, h2, h4⟩
  | err e => exact absurd hg (b e)
  | panic m => exact .inr ⟨⟨m, rfl⟩, (c m hg).2⟩

/-- **C252** If the calls for a column agree on its answer, they all get it, whatever the schedule and whenever the cache is cleared. -/
theorem cache_exact_partial (srt : List α → List α) (D : Nat → Option (List α)) (s : S α)
    (h : Run srt (fun r => answer srt r = D r.feature) start s) (g : Nat) (r : Req α) (res : Outcome (List α)) (hg : s.th g = .back r res) :
    (∀ v, res = .ok v ↔ D r.feature = some v) ∧ ((∃ m, res = .panic m) ↔ D r.feature = none) := by
  have hA : answer srt r = D r.feature := by
    obtain ⟨-, -, h3⟩ := inv_run srt _ h
    obtain ⟨a, b, c⟩ := h3 g r
    cases res with
    | ok v => exact (a v hg).1
    | err e => exact absurd hg (b e)
    | panic m => exact (c m hg).1
  rcases cache_sound_partial srt _ s h g r res hg with ⟨v, r', rfl, h1, h2, h3⟩ | ⟨⟨m, rfl⟩, h2⟩
  · have : D r.feature = some v := by rw [← h2, ← h1, h3]
    rw [this]
    refine ⟨fun w => ⟨fun e => by injection e with e; rw [e], fun e => by injection e with e; rw [e]⟩, ⟨fun ⟨m, e⟩ => (nomatch e), fun e => (nomatch e)⟩⟩
  · rw [hA] at h2
    rw [h2]
    exact ⟨fun w => ⟨fun e => (nomatch e), fun e => (nomatch e)⟩, ⟨fun _ => rfl, fun _ => ⟨m, rfl⟩⟩⟩

/-- **C252** A call is never blocked for good and never computes a column that is cached: it returns at its first lookup if the column is there, and
otherwise after one more step of its own. -/
theorem cache_returns (srt : List α → List α) (s : S α) (g : Nat) (r : Req α) :
    (∀ v, s.cache r.feature = some v → (lookup s g r).th g = .back r (.ok v) ∧ (lookup s g r).cache = s.cache) ∧
    (s.cache r.feature = none → (lookup s g r).th g = .missed r) ∧
    ∃ res, (fillIn srt s g r).th g = .back r res := by
  refine ⟨fun v hv => ?_, fun hv => ?_, ?_⟩
  · unfold lookup; rw [hv]; exact ⟨setTh_same _ _ _, rfl⟩
  · unfold lookup; rw [hv]; exact setTh_same _ _ _
  · unfold fillIn
    split
    · exact ⟨_, setTh_same _ _ _⟩
    · split
      · exact ⟨_, setTh_same _ _ _⟩
      · exact ⟨_, setTh_same _ _ _⟩

/-- **C252 is false of the code**: the cache is keyed by the column alone, so a call for other rows or another matrix gets the values of the first
one; even a call that ought to panic gets an answer. -/
theorem cache_is_stale (srt : List α → List α) (r r' : Req α) (hf : r'.feature = r.feature) (v : List α) (hv : answer srt r = some v) :
    ∃ s, Run srt (fun q => q = r ∨ q = r') start s ∧ s.th 1 = .back r' (.ok v) := by
  have h1 : Run srt (fun q => q = r ∨ q = r') start (lookup start 0 r) := .enter 0 r (.inl rfl) (fun r' h => (nomatch h)) (.refl _)
  have e1 : (lookup (start : S α) 0 r).th 0 = .missed r := (cache_returns srt start 0 r).2.1 rfl
  have h2 := Run.finish 0 r e1 h1
  obtain ⟨vs, hvs, hsv⟩ : ∃ vs, column r = some vs ∧ srt vs = v := by
    unfold answer at hv
    cases hc : column r with
    | none => rw [hc] at hv; exact (nomatch hv)
    | some vs => rw [hc] at hv; exact ⟨vs, rfl, by injection hv⟩
  have e2 : fillIn srt (lookup start 0 r) 0 r =
      ⟨setCache (fun _ => none) r.feature v, setTh (setTh (fun _ => .idle) 0 (.missed r)) 0 (.back r (.ok v))⟩ := by
    show (match column r with | none => _ | some vs => _) = _
    rw [hvs]
    dsimp only
    rw [hsv]
    rfl
  rw [e2] at h2
  have h3 := Run.enter 1 r' (.inr rfl) (fun q h => by
    simp only [setTh_ne _ _ _ 1 (by decide : (1 : Nat) ≠ 0)] at h; exact (nomatch h)) h2
  exact ⟨_, h3, ((cache_returns srt _ 1 r').1 v (if_pos hf)).1⟩

/-- **C252** After `ClearCache` with nobody between the two halves of a call, the next call gets its own answer. -/
theorem clear_refreshes (srt : List α → List α) (s : S α) (g : Nat) (r : Req α) (v : List α) (hv : answer srt r = some v) :
    (fillIn srt (lookup (clear s) g r) g r).th g = .back r (.ok v) ∧ (fillIn srt (lookup (clear s) g r) g r).cache r.feature = some v := by
  obtain ⟨vs, hvs, hsv⟩ : ∃ vs, column r = some vs ∧ srt vs = v := by
    unfold answer at hv
    cases hc : column r with
    | none => rw [hc] at hv; exact (nomatch hv)
    | some vs => rw [hc] at hv; exact ⟨vs, rfl, by injection hv⟩
  have e : fillIn srt (lookup (clear s) g r) g r =
      ⟨setCache (fun _ => none) r.feature v, setTh (setTh s.th g (.missed r)) g (.back r (.ok v))⟩ := by
    show (match column r with | none => _ | some vs => _) = _
    rw [hvs]
    dsimp only
    rw [hsv]
    rfl
  rw [e]
  exact ⟨setTh_same _ _ _, if_pos rfl⟩

/-- **C252 is false of the code**: a call that has missed before a `ClearCache` and fills in after it puts its old data into the cleared cache, where
later calls find it. -/
theorem clear_is_overtaken (srt : List α → List α) (r r' : Req α) (hf : r'.feature = r.feature) (v : List α) (hv : answer srt r = some v) :
    (lookup (fillIn srt (clear (lookup start 0 r)) 0 r) 1 r').th 1 = .back r' (.ok v) := by
  obtain ⟨vs, hvs, hsv⟩ : ∃ vs, column r = some vs ∧ srt vs = v := by
    unfold answer at hv
    cases hc : column r with
    | none => rw [hc] at hv; exact (nomatch hv)
    | some vs => rw [hc] at hv; exact ⟨vs, rfl, by injection hv⟩
  have e2 : fillIn srt (clear (lookup start 0 r)) 0 r =
      ⟨setCache (fun _ => none) r.feature v, setTh (setTh (fun _ => .idle) 0 (.missed r)) 0 (.back r (.ok v))⟩ := by
    show (match column r with | none => _ | some vs => _) = _
    rw [hvs]
    dsimp only
    rw [hsv]
    rfl
  rw [e2]
  exact ((cache_returns srt _ 1 r').1 v (if_pos hf)).1

/-! ### A concrete case -/

/-- three rows of one column -/
def exAt : Nat → Nat → Option Int := fun i j => if j = 0 then [3, 1, 2][i]? else none

example : answer exchangeSort ⟨exAt, 0, [0, 1]⟩ = some [1, 3] ∧ answer exchangeSort ⟨exAt, 0, [1, 2]⟩ = some [1, 2] ∧
    answer exchangeSort ⟨exAt, 0, [7]⟩ = none := by decide +kernel

example : ∃ s, Run exchangeSort (fun q => q = ⟨exAt, 0, [0, 1]⟩ ∨ q = ⟨exAt, 0, [7]⟩) start s ∧ s.th 1 = .back ⟨exAt, 0, [7]⟩ (.ok [1, 3]) :=
  cache_is_stale exchangeSort ⟨exAt, 0, [0, 1]⟩ ⟨exAt, 0, [7]⟩ rfl [1, 3] (by decide +kernel)

end Scigo.Hist.Cache
