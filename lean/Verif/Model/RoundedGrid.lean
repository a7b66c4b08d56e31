import Verif.Model.Ale
import Verif.Model.RoundedQuantile
/-
Model of the grid of an effect curve in floating point: the fractions from `np.linspace`, the quantiles and the
search for the number of quantiles, every operation rounded.
-/
namespace Geo
variable {K : Type} [Field K] [LinearOrder K] [IsStrictOrderedRing K] [FloorRing K]

/-- `np.linspace(0, 100, num)[k]` (`ale_utils.py:27`): a multiple of the rounded step, and the end exactly. -/
def percentileR (F : Fmt) (num k : Nat) : K :=
  if num ≤ 1 then 0
  else if k + 1 = num then 100
  else F.round ((k : K) * F.round (100 / ((num - 1 : Nat) : K)))

/-- `get_quantiles` (`ale_utils.py:11-29`); `np.percentile` divides by 100 and raises outside [0, 1]. -/
def getQuantilesR (F : Fmt) (values : List K) (num : ℤ) : Except Err (List K) :=
  if num < 0 then .error .valueError
  else mapE (fun k =>
    if F.round (percentileR F num.toNat k / 100 : K) < 0 ∨ 1 < F.round (percentileR F num.toNat k / 100 : K) then
      .error .valueError
    else if values = [] then .error .indexError
    else .ok (quantileR F F values (virtLinearR F values.length (F.round (percentileR F num.toNat k / 100)))))
    (List.range num.toNat)

/-- `minimum_satisfied` (`ale_utils.py:65-88`). -/
def minimumSatisfiedR (F : Fmt) (values : List K) (m n : ℤ) : Except Err ℤ :=
  match getQuantilesR F values n with
  | .error e => .error e
  | .ok qs =>
    .ok (if ((bincount (aleIdx (uniqueL qs) values)).drop 1).all (fun c => decide (m < c))
      then 1 else 0)

/-- `adaptive_grid` (`ale_utils.py:91-132`). -/
def adaptiveGridR (F : Fmt) (values : List K) (m : ℤ) : Except Err (List K × ℤ) :=
  match bisectFun (fun n => (minimumSatisfiedR F values m n).map fun b => ((1 - b : ℤ) : K)) (1 / 2) 0
      values.length with
  | .error e => .error e
  | .ok v =>
    match getQuantilesR F values (v - 1) with
    | .error e => .error e
    | .ok qs => .ok (uniqueL qs, v - 1)

end Geo
