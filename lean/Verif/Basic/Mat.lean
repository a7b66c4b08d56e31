import Mathlib.Data.List.Basic
/-
Two-dimensional arrays: a shape and an entry function. Entries outside the shape have no
meaning; every theorem restricts indices to the shape.
-/
namespace Geo

structure Mat (α : Type) where
  r : Nat
  c : Nat
  get : Nat → Nat → α

namespace Mat
variable {α β : Type}

/-- Row `i` as a list of length `c`. -/
def row (A : Mat α) (i : Nat) : List α := (List.range A.c).map (A.get i)

def col (A : Mat α) (j : Nat) : List α := (List.range A.r).map (fun i => A.get i j)

def map (f : α → β) (A : Mat α) : Mat β := ⟨A.r, A.c, fun i j => f (A.get i j)⟩

def transpose (A : Mat α) : Mat α := ⟨A.c, A.r, fun i j => A.get j i⟩

/-- All entries, row by row. -/
def toLists (A : Mat α) : List (List α) := (List.range A.r).map A.row

/-- Same shape and same entries inside the shape. -/
def Same (A B : Mat α) : Prop :=
  A.r = B.r ∧ A.c = B.c ∧ ∀ i < A.r, ∀ j < A.c, A.get i j = B.get i j

/-- A matrix from its rows (the number of columns is given). -/
def ofRows (d : α) (c : Nat) (rows : List (List α)) : Mat α :=
  ⟨rows.length, c, fun i j => (rows.getD i []).getD j d⟩

@[simp] theorem row_length (A : Mat α) (i : Nat) : (A.row i).length = A.c := by simp [row]

theorem mem_row {A : Mat α} {i : Nat} {x : α} :
    x ∈ A.row i ↔ ∃ j < A.c, A.get i j = x := by simp [row]

theorem row_congr {A B : Mat α} {i : Nat} (hc : A.c = B.c)
    (h : ∀ j < A.c, A.get i j = B.get i j) : A.row i = B.row i := by
  unfold row; rw [← hc]
  exact List.map_congr_left fun j hj => h j (by simpa using hj)

theorem Same.refl (A : Mat α) : Same A A := ⟨rfl, rfl, fun _ _ _ _ => rfl⟩

theorem Same.symm {A B : Mat α} (h : Same A B) : Same B A :=
  ⟨h.1.symm, h.2.1.symm, fun i hi j hj =>
    (h.2.2 i (h.1 ▸ hi) j (h.2.1 ▸ hj)).symm⟩

theorem Same.trans {A B C : Mat α} (h : Same A B) (h' : Same B C) : Same A C :=
  ⟨h.1.trans h'.1, h.2.1.trans h'.2.1, fun i hi j hj =>
    (h.2.2 i hi j hj).trans (h'.2.2 i (h.1 ▸ hi) j (h.2.1 ▸ hj))⟩

end Mat

/-- Three-dimensional arrays. -/
structure Arr3 (α : Type) where
  a : Nat
  b : Nat
  c : Nat
  get : Nat → Nat → Nat → α

end Geo
