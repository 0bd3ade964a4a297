/-!
# Dense matrices

`mat.Matrix` of gonum as dimensions plus an entry function.  Only in-range entries are
meaningful; `Mat.Eqv` compares exactly those.
-/

namespace Scigo

/-- A `mat.Matrix`/`*mat.Dense` (gonum): `Dims()` and `At(i,j)`.
Simplified: entries outside `r × c` are junk; model code that may index outside checks
the range explicitly and panics. (gonum `mat`, as used in e.g. preprocessing/scaler.go:93-131) -/
structure Mat (α : Type _) where
  r : Nat
  c : Nat
  at' : Nat → Nat → α

namespace Mat

variable {α β : Type _}

/-- Same shape and same in-range entries: what a user can observe of two matrices. (gonum `mat`, as used in e.g. preprocessing/scaler.go:93-131) -/
def Eqv (A B : Mat α) : Prop :=
  A.r = B.r ∧ A.c = B.c ∧ ∀ i < A.r, ∀ j < A.c, A.at' i j = B.at' i j

theorem Eqv.refl (A : Mat α) : Eqv A A := ⟨rfl, rfl, fun _ _ _ _ => rfl⟩

theorem Eqv.symm {A B : Mat α} (h : Eqv A B) : Eqv B A :=
  ⟨h.1.symm, h.2.1.symm, fun i hi j hj => (h.2.2 i (h.1 ▸ hi) j (h.2.1 ▸ hj)).symm⟩

theorem Eqv.trans {A B C : Mat α} (h : Eqv A B) (k : Eqv B C) : Eqv A C :=
  ⟨h.1.trans k.1, h.2.1.trans k.2.1, fun i hi j hj =>
    (h.2.2 i hi j hj).trans (k.2.2 i (h.1 ▸ hi) j (h.2.1 ▸ hj))⟩

/-- Row `i` as a list (`mat.Row(nil, i, X)`). (gonum `mat`, as used in e.g. preprocessing/scaler.go:93-131) -/
def row (A : Mat α) (i : Nat) : List α := (List.range A.c).map (A.at' i)

/-- Column `j` as a list (`mat.Col(nil, j, X)`). (gonum `mat`, as used in e.g. preprocessing/scaler.go:93-131) -/
def col (A : Mat α) (j : Nat) : List α := (List.range A.r).map (fun i => A.at' i j)

@[simp] theorem row_length (A : Mat α) (i : Nat) : (A.row i).length = A.c := by simp [row]
@[simp] theorem col_length (A : Mat α) (j : Nat) : (A.col j).length = A.r := by simp [col]

/-- Build a matrix from rows (for examples); missing entries are `d`. (gonum `mat`, as used in e.g. preprocessing/scaler.go:93-131) -/
def ofRows (rows : List (List α)) (c : Nat) (d : α) : Mat α :=
  { r := rows.length, c := c, at' := fun i j => (rows.getD i []).getD j d }

end Mat

end Scigo
