import Verif.Model.HeldOut
import Verif.Model.Ale
/-
The scripts in `Examples/` up to what they print and draw. The samples they work on come from
`generate_sample` (`Model/Samples`); here they are arguments. The constructor arguments that decide
about the weights (`"euclidean"`, `"bisquare"`, `neighbour_count`) are the function `weights`.
Importing, printing labels, fonts and saving files are not modelled.
-/
set_option linter.unusedSectionVars false
namespace Geo
variable {K : Type} [Field K] [LinearOrder K] [IsStrictOrderedRing K] [FloorRing K]
variable {F G S : Type}

/-- The model of the two fitting scripts: only the regressor and the arguments about weights are
given (`Examples/GWR_fit.py:16-21`, `Examples/STRF_fit.py:16-21`). -/
def scriptParams (cpu : Nat) (weights : Mat K → Mat K → Except Err (Mat K)) : WMParams K (Mat K) :=
  { cpu := cpu, weights := weights }

/-- `GWR_fit.py` and `STRF_fit.py`: the two numbers printed (`Examples/GWR_fit.py:5-31`,
`Examples/STRF_fit.py:5-32`). -/
def fitScript (L : Learner K F) (rng : Rng S) (cpu : Nat)
    (weights : Mat K → Mat K → Except Err (Mat K)) (X : Mat K) (y : List K) (points : Mat K) (s : S) :
    Except Err (K × K) :=
  match besideCols X points with
  | .error e => .error e
  | .ok Z =>
    let o := wmFit L rng (scriptParams cpu weights) {} s Z y (some points) none
    match o.result, o.state.score, o.state.localPredict with
    | .error e, _, _ => .error e
    | .ok (), some v, some ps => (skR2 y ps).map fun w => (v, w)
    | .ok (), _, _ => .error .typeError

/-- `STST_fit.py`, which is also the first half of `predict.py`: the fitted object, the generator and
the two numbers printed, `none` for `nan` (`Examples/STST_fit.py:5-35`,
`Examples/predict.py:5-33`). -/
def stackScript (L : Learner K F) (M Mn : Learner K G) (rng : Rng S) (p : SParams K (Mat K))
    (X : Mat K) (y : List K) (points : Mat K) (s : S) :
    Except Err (SState K F G (Mat K) × S × Option K × Option K) :=
  match besideCols X points with
  | .error e => .error e
  | .ok Z =>
    let o := stackFit L M Mn rng p {} s Z y (some points) none
    match o.result, o.state.stackPredictions with
    | .error e, _ => .error e
    | .ok (), some ps => (r2Column y ps).map fun w => (o.state, o.rng, o.state.stackScore, w)
    | .ok (), none => .error .typeError

/-- `predict.py` (`Examples/predict.py:4-48`): the fit, then `predict_by_fit` on a second sample with
the training data handed over once more; the score against the second sample. -/
def predictScript (L : Learner K F) (M Mn : Learner K G) (rng : Rng S) (p : SParams K (Mat K))
    (X : Mat K) (y : List K) (points Xt : Mat K) (yt : List K) (pointst : Mat K) (s : S) :
    Except Err (Option K) :=
  match stackScript L M Mn rng p X y points s with
  | .error e => .error e
  | .ok (st, s, _, _) =>
    match besideCols X points, besideCols Xt pointst with
    | .ok Z, .ok Zt =>
      match (stackPredictByFit L M p st s Z y points Zt pointst).result with
      | .error e => .error e
      | .ok ps => r2Column yt ps
    | .error e, _ => .error e
    | _, .error e => .error e

/-- What one figure of `stale.py` shows: the curve, the neighbours with their weights, and the
location itself as a red point (`Examples/stale.py:60-80`). -/
structure StalePanel (K : Type) where
  curve : List K × List K
  xs : List K
  ys : List K
  ws : List K
  own : K × K

/-- One round of the loop (`Examples/stale.py:51-80`; the same lines are
`simulation_for_ale.py:131-150` and `simulation_data_fitting.py:53-69`): `feature_index` is 0, the
defaults of `weighted_ale` are those of `localAleOne`. -/
def stalePanel (L : Learner K F) (st : WMState K F (Mat K)) (X : Mat K) (y : List K) (i : Nat) :
    Except Err (StalePanel K) :=
  match st.estimators, st.neighbourMatrix, st.weightMatrix, st.X with
  | some es, some (.dense B), some (.dense W), some Xc =>
    if es.length ≤ i ∨ B.r ≤ i ∨ W.r ≤ i ∨ B.c ≠ W.c ∨ B.c ≠ Xc.r then .error .indexError
    else
      match es.getD i none with
      | none => .error .attributeError
      | some f =>
        match weightedAle (maskRows Xc (trueIdx B i)) 0 (L.predict f)
          (some ((trueIdx B i).map (W.get i))) false 5 with
        | .error e => .error e
        | .ok curve =>
          if B.c ≠ X.r ∨ X.c = 0 ∨ B.c ≠ y.length then .error .indexError
          else .ok ⟨curve, (trueIdx B i).map fun j => X.get j 0,
            (trueIdx B i).map fun j => y.getD j 0, (trueIdx B i).map (W.get i),
            (X.get i 0, y.getD i 0)⟩
  | _, _, _, _ => .error .typeError

/-- `draw_graph` of `stale.py` (`Examples/stale.py:32-95`): the fit with both caches on the features
alone, then one figure per location. -/
def staleScript (L : Learner K F) (rng : Rng S) (cpu : Nat)
    (weights : Mat K → Mat K → Except Err (Mat K)) (X : Mat K) (y : List K) (points : Mat K) (s : S) :
    Except Err (List (StalePanel K)) :=
  let o := wmFit L rng { scriptParams cpu weights with cacheData := true, cacheEstimator := true } {} s
    X y (some points) none
  match o.result, o.state.N with
  | .error e, _ => .error e
  | .ok (), some N => mapE (stalePanel L o.state X y) (List.range N)
  | .ok (), none => .error .typeError

end Geo
