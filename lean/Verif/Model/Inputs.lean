import Verif.Model.Stacking
/-
Model of what the caller may pass as features and targets: `check_X_y` of scikit-learn 1.2 as it is
called in `georegression/weight_model.py:329` and `georegression/stacking_model.py:247`, the logging
before it, and the points given to the prediction methods, which are not checked.
-/
set_option linter.unusedSectionVars false
namespace Geo
variable {K : Type} [Field K] [LinearOrder K] [IsStrictOrderedRing K] [FloorRing K]
variable {F G C S : Type}

/-- Numeric tables in the forms Python users have them (`weight_model.py:314`, `386`, `427`), with
entries of type `E`: a list of lists, a one-dimensional array, a two-dimensional array, a data frame
(`label0`: one of its columns has the label 0). -/
inductive Points (E : Type)
  | nested (rows : List (List E))
  | vector (v : List E)
  | array (X : Mat E)
  | frame (label0 : Bool) (X : Mat E)

/-- What may be passed as `X` to `fit` (`weight_model.py:314`): also arrays with more dimensions, and
SciPy sparse arrays. Tables with text or other objects as entries are not modelled. -/
inductive Features (K : Type)
  | points (t : Points (Num K))
  | deeper
  | sparse (A : Csr K)

/-- What may be passed as `y` (`weight_model.py:314`): nothing (`None`), a list, array or series; an
array or frame with one column; an array with another shape. -/
inductive Targets (K : Type)
  | missing
  | flat (v : List (Num K))
  | column (v : List (Num K))
  | wide

/-- The table a list of lists stands for (`np.asarray`, called by `check_X_y` at
`weight_model.py:329`). -/
def nestedMat {E : Type} [Inhabited E] (rows : List (List E)) : Mat E :=
  ⟨rows.length, (rows.headD []).length, fun i j => (rows.getD i []).getD j default⟩

instance : Inhabited (Num K) := ⟨.nan⟩

/-- The finiteness check of `check_array` (called at `weight_model.py:329`). -/
def finiteMat (X : Mat (Num K)) : Except Err (Mat K) :=
  if X.toLists.flatten.all fun w => decide (w = .fin w.toK) then .ok (X.map Num.toK)
  else .error .valueError

/-- `check_array(X)` (called by `check_X_y` at `weight_model.py:329`): two-dimensional, not ragged, not
sparse, no `nan` or infinity. The minimal numbers of rows and columns are checked in `checkXy`. -/
def checkFeatures : Features K → Except Err (Mat K)
  | .sparse _ => .error .typeError
  | .deeper => .error .valueError
  | .points (.vector _) => .error .valueError
  | .points (.array X) => finiteMat X
  | .points (.frame _ X) => finiteMat X
  | .points (.nested rows) =>
    if rows ≠ [] ∧ rows.all (fun r => r.length == (rows.headD []).length) then finiteMat (nestedMat rows)
    else .error .valueError

/-- `_check_y(y)` (called by `check_X_y` at `weight_model.py:329`): a column is flattened with a
warning. -/
def checkTargets : Targets K → Except Err (List K)
  | .missing => .error .valueError
  | .wide => .error .valueError
  | .flat v => if v.all fun w => decide (w = .fin w.toK) then .ok (v.map Num.toK) else .error .valueError
  | .column v => if v.all fun w => decide (w = .fin w.toK) then .ok (v.map Num.toK) else .error .valueError

/-- `check_X_y(X, y)` (`weight_model.py:329`, `stacking_model.py:247`): `y` may not be `None`, then `X`
is checked, then `y`, then the lengths. -/
def checkInputs (X : Features K) (y : Targets K) : Except Err (Mat K × List K) :=
  match y with
  | .missing => .error .valueError
  | y =>
    match checkFeatures X with
    | .error e => .error e
    | .ok X' =>
      match checkTargets y with
      | .error e => .error e
      | .ok y' => if checkXy X' y' then .ok (X', y') else .error .valueError

/-- `X.shape` can be read (`weight_model.py:764-765`). -/
def Features.hasShape : Features K → Bool
  | .points (.nested _) => false
  | _ => true

/-- `WeightModel.fit` with whatever is passed (`weight_model.py:314-384`): the log line reads `X.shape`
before anything is checked (`weight_model.py:327`, `764-765`). -/
def wmFitAny (L : Learner K F) (rng : Rng S) (p : WMParams K C) (st : WMState K F C) (s : S)
    (X : Features K) (y : Targets K) (coords : Option C) (W : Option (WMat K)) : FitOut K F C S :=
  if X.hasShape then
    match checkInputs X y with
    | .error e => ⟨.error e, st, W, s⟩
    | .ok (X', y') => wmFit L rng p st s X' y' coords W
  else ⟨.error .attributeError, st, W, s⟩

/-- `StackingWeightModel.fit` with whatever is passed (`stacking_model.py:231-692`): its log line does
not mention `X` (`stacking_model.py:245`, `1109-1124`). -/
def stackFitAny (L : Learner K F) (M Mn : Learner K G) (rng : Rng S) (p : SParams K C)
    (st : SState K F G C) (s : S) (X : Features K) (y : Targets K) (coords : Option C)
    (W : Option (WMat K)) : SOut Unit K F G C S :=
  match checkInputs X y with
  | .error e => ⟨.error e, st, W, s⟩
  | .ok (X', y') => stackFit L M Mn rng p st s X' y' coords W

/-- The points as `_fit` sees them in `predict_by_fit` (`weight_model.py:463`, `80-120`): `X.shape[0]`
needs an array or a frame; `X_predict[i]` is row `i` of an array, entry `i` of a vector (which
`reshape(1, -1)` turns into a point with one feature), and column `i` of a frame, which either does not
exist or has no `reshape`. `rows` is the number of rows of the weight matrix: without any, nothing is
indexed. -/
def fitPoints (rows : Nat) : Points K → Except Err (Mat K)
  | .nested _ => .error .attributeError
  | .vector v => .ok ⟨v.length, 1, fun i _ => v.getD i 0⟩
  | .array X => .ok X
  | .frame label0 X =>
    if rows = 0 then .ok X
    else if X.r = 0 then .error .indexError
    else .error (if label0 then .attributeError else .keyError)

/-- `WeightModel.predict_by_fit` with whatever is passed (`weight_model.py:427-467`). -/
def predictByFitAny (L : Learner K F) (p : WMParams K C) (st : WMState K F C) (X : Points K)
    (coords : Option C) (W : Option (Mat K)) : Except Err (List K) :=
  if !p.cacheData then .error .exception
  else
    match guard coords W with
    | .error e => .error e
    | .ok _ =>
      match predictFitWeights p coords st.coords W with
      | .error e => .error e
      | .ok W' =>
        match fitPoints W'.r X with
        | .error e => .error e
        | .ok X' => predictByFit L p st X' coords W

/-- `check_array` as every scikit-learn regressor applies it in `predict` (`weight_model.py:412`);
`nan` is left out, as regressors differ about it. -/
def predictPoints : Points K → Except Err (Mat K)
  | .nested rows =>
    if rows ≠ [] ∧ rows.all (fun r => r.length == (rows.headD []).length) ∧ (rows.headD []).length ≠ 0 then
      .ok ⟨rows.length, (rows.headD []).length, fun i j => (rows.getD i []).getD j 0⟩
    else .error .valueError
  | .vector _ => .error .valueError
  | .array X => if X.r = 0 ∨ X.c = 0 then .error .valueError else .ok X
  | .frame _ X => if X.r = 0 ∨ X.c = 0 then .error .valueError else .ok X

/-- `WeightModel.predict_by_weight` with whatever is passed (`weight_model.py:386-425`): the regressors
see `X` as it is, before the weights are made. -/
def predictByWeightAny (L : Learner K F) (p : WMParams K C) (st : WMState K F C) (X : Points K)
    (coords : Option C) (W : Option (Mat K)) : Except Err (List K) :=
  if !p.cacheData || !p.cacheEstimator then .error .exception
  else
    match guard coords W with
    | .error e => .error e
    | .ok _ =>
      match storedEstimators st with
      | .error e => .error e
      | .ok ests =>
        match unzipNonempty ests with
        | .error e => .error e
        | .ok _ =>
          match predictPoints X with
          | .error e => .error e
          | .ok X' => predictByWeight L p st X' coords W

end Geo
