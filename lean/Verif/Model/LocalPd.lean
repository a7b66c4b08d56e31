import Verif.Model.Ale
/-
Model of the weighted partial dependence: `georegression/local_pd.py`, the function of the same
name in `georegression/weight_model.py:194-221` and `WeightModel.partial_dependence`.
`local_ICE` (`weight_model.py:662-685`) is in `Model/LocalIce`.
-/
set_option linter.unusedSectionVars false
namespace Geo
variable {K : Type} [Field K] [LinearOrder K] [IsStrictOrderedRing K] [FloorRing K] {F C : Type}

/-- The grid of scikit-learn's `partial_dependence` with its defaults (`percentiles=(0.05, 0.95)`,
`grid_resolution=100`): the distinct values if there are fewer than 100, otherwise evenly spaced
points between two percentiles, here a parameter (`wide`), see `wideGrid` in `Model/CurveGrids` (`weight_model.py:204-212`). -/
def pdGrid (wide : List K → Except Err (List K)) (vals : List K) : Except Err (List K) :=
  if (uniqueL vals).length < 100 then .ok (uniqueL vals) else wide vals

/-- Row `i` with the feature replaced by a grid value (`weight_model.py:204-212`). -/
def atValue (X : Mat K) (feature : Nat) (v : K) (i : Nat) : List K := (X.row i).set feature v

/-- Column `v` of `pdp['individual'][0]`: the prediction for every observation with the feature
set to `v`, by a predictor that works row by row (`weight_model.py:204-212`). -/
def icePoint (X : Mat K) (feature : Nat) (pred : List K → K) (v : K) : List K :=
  (List.range X.r).map fun i => pred (atValue X feature v i)

/-- `np.average(individual, axis=0, weights=weight)`: `ValueError` for a wrong number of weights,
`ZeroDivisionError` if they add up to zero, also without any column (`weight_model.py:217`). -/
def averageColumns (cols : List (List K)) (n : Nat) (ws : List K) : Except Err (List K) :=
  if ws.length ≠ n then .error .valueError
  else if ws.sum = 0 then .error .zeroDivisionError
  else .ok (cols.map fun c => (List.zipWith (· * ·) c ws).sum / ws.sum)

/-- One pass of the loops at `local_pd.py:34-53` and `weight_model.py:203-219`. -/
def pdFeature (wide : List K → Except Err (List K)) (pred : List K → K) (X : Mat K)
    (ws : List K) (feature : Nat) : Except Err (List K × List K) :=
  if X.c ≤ feature then .error .valueError
  else
    match pdGrid wide (X.col feature) with
    | .error e => .error e
    | .ok grid =>
      (averageColumns (grid.map (icePoint X feature pred)) X.r ws).map fun pd => (grid, pd)

/-- `local_partial_dependence` of `weight_model.py:194-221`. -/
def localPd (wide : List K → Except Err (List K)) (pred : List K → K) (X : Mat K)
    (ws : List K) (nFeatures : Nat) : Except Err (List (List K × List K)) :=
  mapE (pdFeature wide pred X ws) (List.range nFeatures)

/-- The positions with a non-zero weight (`local_pd.py:27`). -/
def weightedIdx (ws : List K) : List Nat :=
  (List.range ws.length).filter fun i => decide (ws.getD i 0 ≠ 0)

/-- `local_partial_dependence` of `local_pd.py:5-55`: observations without weight are dropped
first; a mask of the wrong length is an `IndexError`. -/
def localPdModule (wide : List K → Except Err (List K)) (pred : List K → K) (X : Mat K)
    (ws : List K) : Except Err (List (List K × List K)) :=
  if ws.length ≠ X.r then .error .indexError
  else localPd wide pred (maskRows X (weightedIdx ws))
    ((weightedIdx ws).map fun i => ws.getD i 0) X.c

/-- The job of location `i` (`weight_model.py:636-644`), for dense matrices: `TypeError` from
`check_is_fitted` if the estimator was not kept. -/
def pdLocation (wide : List K → Except Err (List K)) (L : Learner K F) (X W : Mat K)
    (B : Mat Bool) (es : List (Option F)) (nf i : Nat) : Except Err (List (List K × List K)) :=
  if B.r ≤ i ∨ W.r ≤ i ∨ B.c ≠ W.c ∨ B.c ≠ X.r ∨ es.length ≤ i then .error .indexError
  else
    match es.getD i none with
    | none => .error .typeError
    | some f => localPd wide (L.predict f) (maskRows X (trueIdx B i))
        ((trueIdx B i).map (W.get i)) nf

/-- All curves are equally long (`weight_model.py:647`). -/
def allSameLength (l : List (List (List K × List K))) : Bool :=
  match l.flatten with
  | [] => true
  | c :: cs => cs.all fun d => d.1.length == c.1.length

/-- What `partial_dependence` leaves on the object (`weight_model.py:647-660`). -/
structure PdOut (K : Type) where
  result : Except Err (List (List (List K × List K)))
  localPartial : Option (List (List (List K × List K)))
  featurePartial : Option (List (List (List K × List K)))

/-- The end of `partial_dependence` (`weight_model.py:646-660`): `np.array(.., dtype=object)` makes
an array with four axes when all curves are equally long, and `transpose((1, 0, 2))` then raises
`ValueError` after `local_partial_` has been set. -/
def pdFinish (old : PdOut K) (nf : Nat) (l : List (List (List K × List K))) : PdOut K :=
  if allSameLength l then ⟨.error .valueError, some l, old.featurePartial⟩
  else ⟨.ok l, some l,
    some ((List.range nf).map fun f => l.map fun r => r.getD f ([], []))⟩

/-- `WeightModel.partial_dependence` (`weight_model.py:626-660`) on an object whose attributes
`local_partial_` and `feature_partial_` are in `old`; `TypeError` if data, matrices or estimators
are `None`. A row of a CSR matrix is no mask: `IndexError` for the first location. -/
def partialDependence (wide : List K → Except Err (List K)) (L : Learner K F)
    (st : WMState K F C) (old : PdOut K) : PdOut K :=
  match st.N, st.nFeatures, st.estimators, st.X, st.weightMatrix, st.neighbourMatrix with
  | some N, some nf, some es, some X, some (.dense W), some (.dense B) =>
    match mapE (pdLocation wide L X W B es nf) (List.range N) with
    | .error e => ⟨.error e, old.localPartial, old.featurePartial⟩
    | .ok l => pdFinish old nf l
  | some N, some nf, some _, some _, some (.sparse _), some (.sparse _) =>
    if N = 0 then pdFinish old nf [] else ⟨.error .indexError, old.localPartial, old.featurePartial⟩
  | _, _, _, _, _, _ => ⟨.error .typeError, old.localPartial, old.featurePartial⟩

end Geo
