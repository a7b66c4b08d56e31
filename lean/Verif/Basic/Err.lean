import Mathlib.Tactic.TypeStar
/-
Python exceptions as values, and the "scalar or list" parameters of the public API.
-/
namespace Geo

/-- The Python exception classes raised by the modelled code. `exception` is a bare
`raise Exception(..)`. The message text is not modelled. -/
inductive Err
  | exception | valueError | indexError | typeError | attributeError | nameError
  | zeroDivisionError | axisError | runtimeError | keyError | linAlgError
  deriving DecidableEq, Repr

/-- A parameter documented as `Union[X, list[X]]`
(`georegression/weight_matrix.py:17-22`, `georegression/distance_utils.py:42-43`). -/
inductive Param (α : Type)
  | scalar (a : α)
  | list (l : List α)
  deriving Repr

/-- `if not isinstance(p, list): p = [p] * dimension`
(`weight_matrix.py:160-170`, `distance_utils.py:42-43`). -/
def Param.expand {α : Type} (p : Param α) (dimension : Nat) : List α :=
  match p with
  | .scalar a => List.replicate dimension a
  | .list l => l

/-- `l[i]` for a Python list and a non-negative index: `IndexError` when out of range. -/
def pyGet {α : Type} (l : List α) (i : Nat) : Except Err α :=
  match l[i]? with
  | some a => .ok a
  | none => .error .indexError


/-- Decidable form of "succeeds with a value satisfying `p`", for executable examples. -/
def okAnd {α : Type} (x : Except Err α) (p : α → Bool) : Bool :=
  match x with
  | .ok a => p a
  | .error _ => false

theorem of_okAnd {α : Type} {x : Except Err α} {p : α → Bool} (h : okAnd x p = true) :
    ∃ a, x = .ok a ∧ p a = true := by
  cases x with
  | ok a => exact ⟨a, rfl, h⟩
  | error e => cases h

end Geo
