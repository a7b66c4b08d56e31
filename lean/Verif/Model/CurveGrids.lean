import Verif.Model.LocalPd
/-
The curves of `local_ALE`, `global_ALE`, `weighted_ale` and `partial_dependence` when the features
are stored in an integer array, and scikit-learn's grid for partial dependence with many values.

`check_X_y` keeps an integer array as it is. The grid values are floats; writing them into a copy of
the integer array drops what is behind the decimal point. The grid itself is returned unchanged.
-/
set_option linter.unusedSectionVars false
namespace Geo
variable {K : Type} [Field K] [LinearOrder K] [IsStrictOrderedRing K] [FloorRing K] {F C S : Type}

/-- Assignment of a float to an entry of an integer array (`local_ale.py:20-23`,
`weight_model.py:710-713`): truncation towards zero. Values beyond the range of the integer type are
not modelled. -/
def intStored (v : K) : K := ((truncInt v : ℤ) : K)

/-- `withFeature` for an integer array (`local_ale.py:20-23`). -/
def withFeatureInt (X : Mat K) (feature : Nat) (vals : List K) (i : Nat) : List K :=
  (X.row i).set feature (intStored (vals.getD i 0))

/-- `weighted_ale` for an integer array (`local_ale.py:11-60`). -/
def weightedAleInt (X : Mat K) (feature : Nat) (pred : List K → K) (weights : Option (List K))
    (normalize : Bool) (m : ℤ) : Except Err (List K × List K) :=
  if X.c ≤ feature then .error .indexError
  else
    match adaptiveGrid (X.col feature) m with
    | .error e => .error e
    | .ok (q, _) =>
      match mapE (fun i => pyGet q (i - 1)) (aleIdx q (X.col feature)) with
      | .error e => .error e
      | .ok lows =>
        match mapE (fun i => pyGet q i) (aleIdx q (X.col feature)) with
        | .error e => .error e
        | .ok highs =>
          aleWeighted q (aleIdx q (X.col feature))
            (fun i => pred (withFeatureInt X feature lows i))
            (fun i => pred (withFeatureInt X feature highs i)) weights normalize

/-- One step of `local_ALE` for an integer array (`weight_model.py:691-696`). -/
def localAleOneInt (L : Learner K F) (X : Mat K) (W : Mat K) (B : Mat Bool) (feature i : Nat)
    (e : Option F) : Except Err (List K × List K) :=
  if B.r ≤ i ∨ W.r ≤ i ∨ B.c ≠ W.c ∨ B.c ≠ X.r then .error .indexError
  else
    match e with
    | none => .error .attributeError
    | some f => weightedAleInt (maskRows X (trueIdx B i)) feature (L.predict f)
        (some ((trueIdx B i).map (W.get i))) false 5

/-- `local_ALE` for an integer array (`weight_model.py:687-698`). -/
def localAleInt (L : Learner K F) (st : WMState K F C) (feature : Nat) :
    Except Err (List (List K × List K)) :=
  match st.estimators, st.X, st.weightMatrix, st.neighbourMatrix with
  | some es, some X, some (.dense W), some (.dense B) =>
    mapE (fun i => localAleOneInt L X W B feature i (es.getD i none)) (List.range es.length)
  | some es, some _, some (.sparse _), some (.sparse _) =>
    if es = [] then .ok [] else .error .indexError
  | _, _, _, _ => .error .typeError

/-- The pair of predictions of `global_ALE` for an integer array (`weight_model.py:710-726`). -/
def globalPairInt (L : Learner K F) (X : Mat K) (feature : Nat) (lows highs : List K) (i : Nat)
    (e : Option F) : Except Err (K × K) :=
  if X.r ≤ i then .error .indexError
  else
    match e with
    | none => .error .attributeError
    | some f => .ok (L.predict f (withFeatureInt X feature lows i),
        L.predict f (withFeatureInt X feature highs i))

/-- `global_ALE` for an integer array (`weight_model.py:701-755`). -/
def globalAleInt (L : Learner K F) (st : WMState K F C) (feature : Nat) :
    Except Err (List K × List K) :=
  match st.X, st.estimators with
  | some X, some es =>
    if X.c ≤ feature then .error .indexError
    else
      match adaptiveGrid (X.col feature) 1 with
      | .error e => .error e
      | .ok (q, _) =>
        match mapE (fun i => pyGet q (i - 1)) (aleIdx q (X.col feature)) with
        | .error e => .error e
        | .ok lows =>
          match mapE (fun i => pyGet q i) (aleIdx q (X.col feature)) with
          | .error e => .error e
          | .ok highs =>
            match mapE (fun i => globalPairInt L X feature lows highs i (es.getD i none))
                (List.range es.length) with
            | .error e => .error e
            | .ok ps => globalFinish q (aleIdx q (X.col feature)) ps
  | _, _ => .error .typeError

/-! ### Partial dependence -/

/-- `icePoint` for an integer array: scikit-learn writes the grid value into a copy of the array it
was given (`weight_model.py:204-212`). -/
def icePointInt (X : Mat K) (feature : Nat) (pred : List K → K) (v : K) : List K :=
  (List.range X.r).map fun i => pred (atValue X feature (intStored v) i)

/-- `pdFeature` for an integer array (`local_pd.py:34-53`, `weight_model.py:203-219`). -/
def pdFeatureInt (wide : List K → Except Err (List K)) (pred : List K → K) (X : Mat K)
    (ws : List K) (feature : Nat) : Except Err (List K × List K) :=
  if X.c ≤ feature then .error .valueError
  else
    match pdGrid wide (X.col feature) with
    | .error e => .error e
    | .ok grid =>
      (averageColumns (grid.map (icePointInt X feature pred)) X.r ws).map fun pd => (grid, pd)

/-- `local_partial_dependence` for an integer array (`weight_model.py:194-221`). -/
def localPdInt (wide : List K → Except Err (List K)) (pred : List K → K) (X : Mat K)
    (ws : List K) (nFeatures : Nat) : Except Err (List (List K × List K)) :=
  mapE (pdFeatureInt wide pred X ws) (List.range nFeatures)

/-- Virtual index of scipy's `mquantiles` with its defaults `alphap = betap = 0.4`, which
scikit-learn's `_grid_from_X` calls (`weight_model.py:204-212`). -/
def virtMq (n : Nat) (q : K) : K := n * q + (2 / 5 + q * (1 - 2 / 5 - 2 / 5)) - 1

/-- `np.allclose(a, b)` with its default tolerances (`weight_model.py:204-212`, in `_grid_from_X`). -/
def allClose (a b : K) : Bool := decide (|a - b| ≤ 1 / 10 ^ 8 + 1 / 10 ^ 5 * |b|)

/-- `_grid_from_X` for a feature with at least 100 distinct values (`weight_model.py:204-212`): 100
evenly spaced points between the 5% and the 95% point, `ValueError` if these are too close. -/
def wideGrid (vals : List K) : Except Err (List K) :=
  if allClose (quantileVal virtMq vals (1 / 20)) (quantileVal virtMq vals (19 / 20)) then
    .error .valueError
  else .ok ((List.range 100).map fun k : Nat => quantileVal virtMq vals (1 / 20) +
    (quantileVal virtMq vals (19 / 20) - quantileVal virtMq vals (1 / 20)) * ((k : K) / 99))

end Geo
