import Verif.Model.Experiments
/-
The comparisons of `georegression/simulation` that look at data kept back: `fit_llocv_models`
(`simulation_for_fitting.py`, `simulation_for_robust.py`) leaves out one row at a time, and
`fit_models` of `simulation_for_robust.py` has a second sample for tests. Printed numbers are part of
the results here. Regressors do not draw from the global generator (see `Model/Randomised.lean`).
-/
namespace Geo
variable {K : Type} [Field K] [LinearOrder K] [FloorRing K] {F G C S : Type}

/-! ### Leaving out one row at a time -/

/-- The training rows of one split of `LeaveOneOut` (`simulation_for_fitting.py:141`). -/
def keptRows (n i : Nat) : List Nat := (List.range i) ++ (List.range n).drop (i + 1)

/-- The predictions of the loop (`simulation_for_fitting.py:140-144`): a new regressor per split,
fitted without weights. `ValueError` from the split for fewer than two rows, `IndexError` from
`y[train]` if there are fewer targets than rows. -/
def leaveOneOutPredicts (L : Learner K F) (X : Mat K) (y : List K) : Except Err (List K) :=
  if X.r ≤ 1 then .error .valueError
  else if y.length < X.r then .error .indexError
  else mapE (fun i => (L.fit 0 ((keptRows X.r i).map X.row) ((keptRows X.r i).map fun j => y.getD j 0)
    ((keptRows X.r i).map fun _ => 1)).map fun f => L.predict f (X.row i)) (List.range X.r)

/-- `fit_llocv_models` (`simulation_for_fitting.py:130-155`, `simulation_for_robust.py:199-224`).
`L` is the regressor with its 500 estimators. -/
def fitLlocvModels (L : Learner K F) (X points : Mat K) (y : List K) : Except Err (Record K) :=
  match besideCols X points with
  | .error e => .error e
  | .ok Z =>
    match leaveOneOutPredicts L Z y with
    | .error e => .error e
    | .ok ps =>
      (r2Column y ps).map fun v => Record.puts [] [("n_estimators", .num 500), ("score", scoreVal v)]

/-! ### A second sample -/

/-- What one model of `fit_models` in `simulation_for_robust.py` yields: the scores for the record,
the printed score of the predictions for the second sample, and the printed scores of a fit to the
second sample (`simulation_for_robust.py:53-74`). -/
structure HeldOut (K : Type) where
  recorded : List (Option K)
  prediction : Option K
  refit : List (Option K)

/-- The stacking models (`simulation_for_robust.py:53-74`, `76-97`): one object is fitted, predicts
and is fitted again. -/
def stackHeldOut (L : Learner K F) (M Mn : Learner K G) (rng : Rng S) (p : SParams K C) (X : Mat K)
    (y : List K) (pts : C) (Xt : Mat K) (yt : List K) (ptst : C) (s : S) :
    Except Err (HeldOut K) × S :=
  let a := stackFit L M Mn rng p {} s X y (some pts) none
  match a.result with
  | .error e => (.error e, a.rng)
  | .ok () =>
    let b := stackPredictByFit L M p a.state a.rng X y pts Xt ptst
    match b.result with
    | .error e => (.error e, b.rng)
    | .ok ps =>
      match r2Column yt ps with
      | .error e => (.error e, b.rng)
      | .ok v =>
        let c := stackFit L M Mn rng p b.state b.rng Xt yt (some ptst) none
        match c.result with
        | .error e => (.error e, c.rng)
        | .ok () => (.ok ⟨[a.state.wm.score, a.state.stackScore], v,
            [c.state.wm.score, c.state.stackScore]⟩, c.rng)

/-- The local models (`simulation_for_robust.py:99-119`, `121-141`). -/
def wmHeldOut (L : Learner K F) (rng : Rng S) (p : WMParams K C) (X : Mat K)
    (y : List K) (pts : C) (Xt : Mat K) (yt : List K) (ptst : C) (s : S) :
    Except Err (HeldOut K) × S :=
  let a := wmFit L rng p {} s X y (some pts) none
  match a.result with
  | .error e => (.error e, a.rng)
  | .ok () =>
    match predictByFit L p a.state Xt (some ptst) none with
    | .error e => (.error e, a.rng)
    | .ok ps =>
      match skR2 yt ps with
      | .error e => (.error e, a.rng)
      | .ok v =>
        let c := wmFit L rng p a.state a.rng Xt yt (some ptst) none
        match c.result with
        | .error e => (.error e, c.rng)
        | .ok () => (.ok ⟨[a.state.score], some v, [c.state.score]⟩, c.rng)

/-- A regressor fitted to all rows (`simulation_for_robust.py:147`, `171`, `178`). -/
def fitPlain (L : Learner K F) (X : Mat K) (y : List K) : Except Err F :=
  if checkXy X y then L.fit 0 ((List.range X.r).map X.row) y (List.replicate X.r 1)
  else .error .valueError

/-- The score of a fitted regressor on a sample (`simulation_for_robust.py:154-155`, `180-182`). -/
def plainScore (L : Learner K F) (f : F) (X : Mat K) (y : List K) : Except Err (Option K) :=
  r2Column y ((List.range X.r).map fun i => L.predict f (X.row i))

/-- The forest and the linear regression (`simulation_for_robust.py:143-159`, `176-190`). `own` is the
score the script asks the fitted regressor for: `oob_score_`, which belongs to the fitted object, or
`score` on the sample it was fitted to. -/
def plainHeldOut (L : Learner K F) (own : F → Mat K → List K → Except Err (Option K)) (X : Mat K)
    (y : List K) (Xt : Mat K) (yt : List K) : Except Err (HeldOut K) := do
  let f ← fitPlain L X y
  let r ← own f X y
  let v ← plainScore L f Xt yt
  let g ← fitPlain L Xt yt
  let q ← own g Xt yt
  .ok ⟨[r], v, [q]⟩

/-- The boosted trees, which only predict (`simulation_for_robust.py:170-174`). -/
def boostHeldOut (L : Learner K F) (X : Mat K) (y : List K) (Xt : Mat K) (yt : List K) :
    Except Err (Option K) := do
  let f ← fitPlain L X y
  plainScore L f Xt yt

/-- A model of the comparison: only the scores on the first sample are recorded
(`simulation_for_robust.py:65-67`, `88-90`, `111-112`, `133-134`, `151-152`, `182-183`). -/
def heldOutContest (names : List String × String) (run : S → Except Err (HeldOut K) × S) :
    Contest K S where
  names := names.1
  timeName := names.2
  fit := fun s =>
    match run s with
    | (.error e, s) => (.error e, s)
    | (.ok h, s) => (.ok h.recorded, s)

/-- The regressors of the comparison (`simulation_for_robust.py:54`, `77`, `100`, `122`, `143-145`,
`170`, `176`) and what the script asks the forest and the linear regression for. -/
structure Cast (K : Type) where
  F : Fin 7 → Type
  G : Type
  tree : Learner K (F 0)
  extra : Learner K (F 1)
  forest : Learner K (F 2)
  linear : Learner K (F 3)
  plainForest : Learner K (F 4)
  boost : Learner K (F 5)
  plainLinear : Learner K (F 6)
  ridge : Learner K G
  numba : Learner K G
  oob : F 4 → Option K

/-- The parameters of the four local models (`simulation_for_robust.py:53-59`, `76-82`, `99-105`,
`121-127`). -/
structure RobustParams (K : Type) where
  stack : SParams K (Mat K)
  grf : WMParams K (Mat K)
  gwr : WMParams K (Mat K)

/-- The models in order; the boosted trees come before the linear regression and record nothing
(`simulation_for_robust.py:53-190`). `Z` and `Zt` are the features beside the coordinates. -/
def robustRuns (A : Cast K) (rng : Rng S) (p : RobustParams K) (Z : Mat K) (y : List K)
    (points Zt : Mat K) (yt : List K) (pointst : Mat K) :
    List (S → Except Err (HeldOut K) × S) :=
  [stackHeldOut A.tree A.ridge A.numba rng p.stack Z y points Zt yt pointst,
   stackHeldOut A.extra A.ridge A.numba rng p.stack Z y points Zt yt pointst,
   wmHeldOut A.forest rng p.grf Z y points Zt yt pointst,
   wmHeldOut A.linear rng p.gwr Z y points Zt yt pointst,
   fun s => (plainHeldOut A.plainForest (fun f _ _ => .ok (A.oob f)) Z y Zt yt, s),
   fun s => ((boostHeldOut A.boost Z y Zt yt).bind fun _ =>
     plainHeldOut A.plainLinear (plainScore A.plainLinear) Z y Zt yt, s)]

/-- `fit_models` of `simulation_for_robust.py:26-196`. -/
def robustModels (A : Cast K) (rng : Rng S) (p : RobustParams K) (X : Mat K) (y : List K)
    (points Xt : Mat K) (yt : List K) (pointst : Mat K) (times : List K) (info : Record K) (s : S)
    (fs : Lines K) : Except Err (Record K) × S × Lines K :=
  match besideCols X points, besideCols Xt pointst with
  | .ok Z, .ok Zt =>
    fitModels (List.zipWith heldOutContest contestNames (robustRuns A rng p Z y points Zt yt pointst))
      times info "simulation_result.jsonl" s fs
  | .error e, _ => (.error e, s, fs)
  | .ok _, .error e => (.error e, s, fs)

end Geo
