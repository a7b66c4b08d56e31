import Verif.Model.LocalPd
/-
Model of `WeightModel.local_ICE` (`georegression/weight_model.py:662-685`), for dense matrices. The
method calls scikit-learn's private `_grid_from_X` with three arguments. Version 1.2, which
`requirements.txt` asks for, wants a fourth (`is_categorical`, the third in order); earlier versions
want three. Both are modelled, by the parameter `fourArgs`.
-/
set_option linter.unusedSectionVars false
namespace Geo
variable {K : Type} [Field K] [LinearOrder K] [IsStrictOrderedRing K] [FloorRing K] {F C : Type}

/-- `_grid_from_X(X_local[:, [feature_index]], percentiles, grid_resolution)` and `values[0]`
(`weight_model.py:672-673`): the column is selected first, then the call lacks an argument
(`TypeError`) where four are wanted. The grid itself is the one of `partial_dependence`. -/
def iceGrid (fourArgs : Bool) (wide : List K → Except Err (List K)) (Xl : Mat K) (f : Nat) :
    Except Err (List K) :=
  if Xl.c ≤ f then .error .indexError
  else if fourArgs then .error .typeError
  else pdGrid wide (Xl.col f)

/-- `local_estimator.predict(X_individual)` (`weight_model.py:674-676`): the observation's own row,
once per grid value, with the feature set to it. `store` is what the array makes of an assigned
number (nothing for floats, truncation for integers). `AttributeError` if the estimator was not
kept, `ValueError` from the estimator for no rows at all. -/
def iceValues (L : Learner K F) (store : K → K) (row : List K) (f : Nat) (e : Option F)
    (grid : List K) : Except Err (List K) :=
  match e with
  | none => .error .attributeError
  | some m =>
    if grid.length = 0 then .error .valueError
    else .ok (grid.map fun v => L.predict m (row.set f (store v)))

/-- One pass of the inner loop (`weight_model.py:671-678`). -/
def iceFeature (fourArgs : Bool) (wide : List K → Except Err (List K)) (L : Learner K F)
    (store : K → K) (Xl : Mat K) (row : List K) (e : Option F) (f : Nat) :
    Except Err (List K × List K) :=
  match iceGrid fourArgs wide Xl f with
  | .error er => .error er
  | .ok grid => (iceValues L store row f e grid).map fun y => (grid, y)

/-- One pass of the outer loop (`weight_model.py:664-680`): the boolean row selects the neighbours,
`IndexError` if its length is not the number of observations or an index is out of range. -/
def iceLocation (fourArgs : Bool) (wide : List K → Except Err (List K)) (L : Learner K F)
    (store : K → K) (X : Mat K) (B : Mat Bool) (es : List (Option F)) (nf i : Nat) :
    Except Err (List (List K × List K)) :=
  if B.r ≤ i ∨ B.c ≠ X.r ∨ es.length ≤ i ∨ (X.r ≤ i ∧ 0 < nf) then .error .indexError
  else mapE (iceFeature fourArgs wide L store (maskRows X (trueIdx B i)) (X.row i)
    (es.getD i none)) (List.range nf)

/-- What `local_ICE` leaves on the object: its result, `local_ice_` and `feature_ice_`
(`weight_model.py:682-685`). -/
structure IceOut (K : Type) where
  result : Except Err (List (List (List K × List K)))
  localIce : Option (List (List (List K × List K)))
  featureIce : Option (List (List (List K × List K)))

/-- The end of `local_ICE` (`weight_model.py:682-685`): as at the end of `partial_dependence`,
curves that are all equally long make an array with four axes, and `transpose((1, 0, 2))` raises
`ValueError` after `local_ice_` has been set. -/
def iceFinish (old : IceOut K) (nf : Nat) (l : List (List (List K × List K))) : IceOut K :=
  if allSameLength l then ⟨.error .valueError, some l, old.featureIce⟩
  else ⟨.ok l, some l,
    some ((List.range nf).map fun f => l.map fun r => r.getD f ([], []))⟩

/-- `WeightModel.local_ICE` (`weight_model.py:662-685`) on an object whose attributes `local_ice_`
and `feature_ice_` are in `old`; `TypeError` if data, neighbours or estimators are `None`. A row of a
CSR matrix is no mask: `IndexError` for the first location. -/
def localICE (fourArgs : Bool) (wide : List K → Except Err (List K)) (L : Learner K F)
    (store : K → K) (st : WMState K F C) (old : IceOut K) : IceOut K :=
  match st.N, st.nFeatures, st.estimators, st.X, st.neighbourMatrix with
  | some N, some nf, some es, some X, some (.dense B) =>
    match mapE (iceLocation fourArgs wide L store X B es nf) (List.range N) with
    | .error e => ⟨.error e, old.localIce, old.featureIce⟩
    | .ok l => iceFinish old nf l
  | some N, some nf, some _, some _, some (.sparse _) =>
    if N = 0 then iceFinish old nf [] else ⟨.error .indexError, old.localIce, old.featureIce⟩
  | _, _, _, _, _ => ⟨.error .typeError, old.localIce, old.featureIce⟩

end Geo
