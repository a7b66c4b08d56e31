import Verif.Model.LocalPd
import Verif.Model.RoundedAle
/-
Model of the weighted partial dependence in rounded arithmetic. The grid and the rows that are predicted are as in
`Verif.Model.LocalPd`; products, sums and quotients of the averages are rounded. The predictions are finite numbers.
-/
set_option linter.unusedSectionVars false
namespace Geo
variable {K : Type} [Field K] [LinearOrder K] [IsStrictOrderedRing K] [FloorRing K]

/-- `np.average(individual, axis=0, weights=weight)` in rounded arithmetic: `ValueError` for a wrong number of weights,
`ZeroDivisionError` if their rounded sum is zero (`weight_model.py:217`). -/
def averageColumnsR (a : Arith K) (shape : List (Num K) → SumTree K) (cols : List (List K)) (n : Nat) (ws : List K) :
    Except Err (List (Num K)) :=
  if ws.length ≠ n then .error .valueError
  else if sumR a shape (ws.map Num.fin) = .fin 0 then .error .zeroDivisionError
  else .ok (cols.map fun c => Num.rnd a.op (.div
    (sumR a shape (List.zipWith (fun x w => Num.rnd a.op (.mul (.fin x) (.fin w))) c ws))
    (sumR a shape (ws.map Num.fin))))

/-- One pass of the loops at `local_pd.py:34-53` and `weight_model.py:203-219`. -/
def pdFeatureR (a : Arith K) (shape : List (Num K) → SumTree K) (wide : List K → Except Err (List K))
    (pred : List K → K) (X : Mat K) (ws : List K) (feature : Nat) : Except Err (List K × List (Num K)) :=
  if X.c ≤ feature then .error .valueError
  else
    match pdGrid wide (X.col feature) with
    | .error e => .error e
    | .ok grid =>
      (averageColumnsR a shape (grid.map (icePoint X feature pred)) X.r ws).map fun pd => (grid, pd)

/-- `local_partial_dependence` of `weight_model.py:194-221`. -/
def localPdR (a : Arith K) (shape : List (Num K) → SumTree K) (wide : List K → Except Err (List K))
    (pred : List K → K) (X : Mat K) (ws : List K) (nFeatures : Nat) : Except Err (List (List K × List (Num K))) :=
  mapE (pdFeatureR a shape wide pred X ws) (List.range nFeatures)

/-- `local_partial_dependence` of `local_pd.py:5-55`: observations without weight are dropped first. -/
def localPdModuleR (a : Arith K) (shape : List (Num K) → SumTree K) (wide : List K → Except Err (List K))
    (pred : List K → K) (X : Mat K) (ws : List K) : Except Err (List (List K × List (Num K))) :=
  if ws.length ≠ X.r then .error .indexError
  else localPdR a shape wide pred (maskRows X (weightedIdx ws))
    ((weightedIdx ws).map fun i => ws.getD i 0) X.c

end Geo
