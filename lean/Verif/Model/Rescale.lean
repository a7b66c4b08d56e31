import Verif.Basic.Mat
import Verif.Basic.Num
import Verif.Basic.MapE
/-
Rescaling of local importance before plotting:
`georegression/simulation/simulation_for_importance.py:149-155` and
`georegression/simulation/simulation_data_fitting.py:138-140`.
The array comes from `importance_score_local` (`Model/ImportanceLocal`): one row per location, one column
per feature, `NaN` where the score of a location is undefined.
-/
namespace Geo
variable {K : Type} [Field K] [LinearOrder K]

/-- One comparison of `ndarray.min` (`simulation_for_importance.py:153`): NaN wins. -/
def npMin2 (a b : Num K) : Num K := if a = .nan ∨ b = .nan then .nan else if b.lt a then b else a

/-- One comparison of `ndarray.max` (`simulation_for_importance.py:154`): NaN wins. -/
def npMax2 (a b : Num K) : Num K := if a = .nan ∨ b = .nan then .nan else if a.lt b then b else a

/-- `ndarray.min` of the values in order (`simulation_data_fitting.py:139`); `ValueError` for none. -/
def npMin : List (Num K) → Except Err (Num K)
  | [] => .error .valueError
  | a :: l => .ok (l.foldl npMin2 a)

/-- `ndarray.max` of the values in order (`simulation_data_fitting.py:140`); `ValueError` for none. -/
def npMax : List (Num K) → Except Err (Num K)
  | [] => .error .valueError
  | a :: l => .ok (l.foldl npMax2 a)

/-- `op(A, v)` for a table and a vector, as numpy broadcasts them: the vector is a row
(`simulation_for_importance.py:153`). -/
def broadcastRow (op : Num K → Num K → Num K) (A : Mat (Num K)) (v : List (Num K)) : Except Err (Mat (Num K)) :=
  if v.length = A.c then .ok ⟨A.r, A.c, fun i j => op (A.get i j) (v.getD j .nan)⟩
  else if A.c = 1 then .ok ⟨A.r, v.length, fun i j => op (A.get i 0) (v.getD j .nan)⟩
  else if v.length = 1 then .ok ⟨A.r, A.c, fun i j => op (A.get i j) (v.getD 0 .nan)⟩
  else .error .valueError

/-- The rescaling of `simulation_for_importance.py:153-155`:
`(I - I.min(axis=1)) / (I.max(axis=1) - I.min(axis=1))`. The minimum over an axis of length zero is a
`ValueError` (also without rows). -/
def rescaleByRow (A : Mat (Num K)) : Except Err (Mat (Num K)) :=
  if A.c = 0 then .error .valueError
  else
    match mapE (fun i => npMin (A.row i)) (List.range A.r), mapE (fun i => npMax (A.row i)) (List.range A.r) with
    | .ok mins, .ok maxs =>
      match broadcastRow Num.sub A mins with
      | .error e => .error e
      | .ok B => broadcastRow Num.div B (List.zipWith Num.sub maxs mins)
    | .error e, _ => .error e
    | _, .error e => .error e

/-- The rescaling of `simulation_data_fitting.py:139-140`: `(I - I.min()) / (I.max() - I.min())`. -/
def rescaleAll (A : Mat (Num K)) : Except Err (Mat (Num K)) :=
  match npMin ((List.range A.r).flatMap A.row), npMax ((List.range A.r).flatMap A.row) with
  | .ok lo, .ok hi => .ok ⟨A.r, A.c, fun i j => Num.div (Num.sub (A.get i j) lo) (Num.sub hi lo)⟩
  | .error e, _ => .error e
  | _, .error e => .error e

end Geo
