import Verif.Model.Stacking
/-
Regressors that draw from numpy's global generator while they are fitted (a forest or a random
tree without `random_state`), in a process of their own: `n_patches = 1`, so that joblib runs the
only batch in the calling process and all draws come from the generator that `sample_neighbour`
seeds. The code is that of `Model/Stacking` and `Model/WeightModel`; here the state of the
generator also goes through the fits.
-/
namespace Geo
variable {K : Type} [Field K] [LinearOrder K] [FloorRing K] {F G C S : Type}

/-- A regressor whose `fit` draws from the global generator (`stacking_model.py:38`,
`weight_model.py:31`). -/
structure RandLearner (K F S : Type) where
  fit : S → Nat → List (List K) → List K → List K → Except Err F × S
  predict : F → List K → K

/-- A loop that carries the state of the generator (`stacking_model.py:82-99`, `weight_model.py:100-111`). -/
def drawLoop {α : Type} (task : S → Nat → Except Err α × S) : S → List Nat → Except Err (List α) × S
  | s, [] => (.ok [], s)
  | s, i :: is =>
    match task s i with
    | (.error e, s) => (.error e, s)
    | (.ok a, s) =>
      match drawLoop task s is with
      | (.error e, s) => (.error e, s)
      | (.ok l, s) => (.ok (a :: l), s)

/-- `_fit_local_estimator` (`stacking_model.py:26-45`). -/
def drawBase (L : RandLearner K F S) (X : Mat K) (y : Nat → K) (s : S) (e : Nat) (idx : List Nat)
    (ws : List K) (secondIdx : List Nat) (x : List K) : Except Err (BaseOut K F) × S :=
  match L.fit s e (idx.map X.row) (idx.map y) ws with
  | (.error e, s) => (.error e, s)
  | (.ok f, s) =>
    if secondIdx = [] then (.error .valueError, s)
    else (.ok ⟨L.predict f x, secondIdx.map fun k => L.predict f (X.row k), f⟩, s)

/-- One location of the dense branch of `_fit` (`stacking_model.py:82-99`). -/
def drawDense (L : RandLearner K F S) (X : Mat K) (y : Nat → K) (Wl : Mat K) (second : Mat Bool)
    (s : S) (i : Nat) : Except Err (BaseOut K F) × S :=
  drawBase L X y s i (nonzeroIdx Wl.c (Wl.get i)) ((nonzeroIdx Wl.c (Wl.get i)).map (Wl.get i))
    (trueIdx second i) (X.row i)

/-- One location of the sparse branch of `_fit` (`stacking_model.py:103-128`). -/
def drawSparse (L : RandLearner K F S) (X : Mat K) (y : Nat → K) (Wl : Csr K) (second : Csr Nat)
    (s : S) (i : Nat) : Except Err (BaseOut K F) × S :=
  drawBase L X y s i (Wl.ne0.rowIdx i) (Wl.rowData i) (second.rowIdx i) (X.row i)

/-- The dense branch of `fit` (`stacking_model.py:264-467`, `526-692`), as `stackDense`, with
`n_patches = 1`. -/
def drawStackDense (L : RandLearner K F S) (M : Learner K G) (rng : Rng S) (p : SParams K C)
    (cache : Bool) (st : SState K F G C) (s : S) (X : Mat K) (y : List K) (given : Bool) (rate : K)
    (W : Mat K) : SOut Unit K F G C S :=
  let caller := fun W => if given then some (WMat.dense W) else none
  if W.r ≠ X.r ∨ W.c ≠ X.r then ⟨.error .indexError, st, caller W, s⟩
  else match sampleNeighbourDense rng s W rate p.leaveOutShrink with
  | ⟨.error e, s, W⟩ => ⟨.error e, st, caller W, s⟩
  | ⟨.ok Sm, s, W⟩ =>
    match sampleLocations rng s p.sampleRate X.r with
    | (.error e, s) => ⟨.error e, st, caller W, s⟩
    | (.ok idx, s) =>
      let ys := idx.map fun i => y.getD i 0
      let st := { st with wm := { st.wm with localIndices := some idx, ySample := some ys } }
      match shrinkMetaDense p.metaShrink W with
      | .error e => ⟨.error e, st, caller W, s⟩
      | .ok W' =>
        let second := secondOrderDense (gt0 W') Sm.transpose
        let run := drawLoop (drawDense L X (fun i => y.getD i 0)
          (localDense p.leaveLocalOut W Sm.transpose) second) s (List.range X.r)
        stackFinish cache (stackShrunk given st (.dense W')) (caller W') run.2 ys run.1
          (metaStageDense M rng p X.r (fun i => y.getD i 0) W' Sm.transpose second run.2)

/-- The sparse branch of `fit` (`stacking_model.py:264-403`, `468-692`), as `stackSparse`, with
`n_patches = 1`. -/
def drawStackSparse (L : RandLearner K F S) (M Mn : Learner K G) (rng : Rng S) (p : SParams K C)
    (cache : Bool) (st : SState K F G C) (s : S) (X : Mat K) (y : List K) (rate : K) (A : Csr K) :
    SOut Unit K F G C S :=
  let caller := fun A => some (WMat.sparse A)
  if A.r ≠ X.r ∨ A.c ≠ X.r then ⟨.error .indexError, st, caller A, s⟩
  else match sampleNeighbourSparse rng s A rate p.leaveOutShrink with
  | ⟨.error e, s, A⟩ => ⟨.error e, st, caller A, s⟩
  | ⟨.ok Sm, s, A⟩ =>
    match sampleLocations rng s p.sampleRate X.r with
    | (.error e, s) => ⟨.error e, st, caller A, s⟩
    | (.ok idx, s) =>
      let ys := idx.map fun i => y.getD i 0
      let st := { st with wm := { st.wm with localIndices := some idx, ySample := some ys } }
      match shrinkMetaSparse p.metaShrink A with
      | .error e => ⟨.error e, st, caller A, s⟩
      | .ok A' =>
        match secondSparse A' Sm.transposePattern with
        | .error e => ⟨.error e, st, caller A', s⟩
        | .ok second =>
          let run := drawLoop (drawSparse L X (fun i => y.getD i 0)
            (localSparse p.leaveLocalOut A Sm.transposePattern) second) s (List.range X.r)
          stackFinish cache st (caller A') run.2 ys run.1
            fun res => (metaStageSparse M Mn p X.r (fun i => y.getD i 0) A' Sm second res, run.2)

/-- `fit` from the weight matrix on, as `stackWith` (`stacking_model.py:284-306`). -/
def drawStackWith (L : RandLearner K F S) (M Mn : Learner K G) (rng : Rng S) (p : SParams K C)
    (cache : Bool) (st : SState K F G C) (s : S) (X : Mat K) (y : List K) (given : Bool)
    (W : WMat K) : SOut Unit K F G C S :=
  match p.leaveOutRate with
  | none => ⟨.error .attributeError, st, if given then some W else none, s⟩
  | some rate =>
    match W with
    | .dense W => drawStackDense L M rng p cache st s X y given rate W
    | .sparse A => drawStackSparse L M Mn rng p cache st s X y rate A

/-- `StackingWeightModel.fit` (`stacking_model.py:231-692`) with `n_patches = 1`. -/
def drawStackFit (L : RandLearner K F S) (M Mn : Learner K G) (rng : Rng S) (p : SParams K C)
    (st : SState K F G C) (s : S) (X : Mat K) (y : List K) (coords : Option C)
    (W : Option (WMat K)) : SOut Unit K F G C S :=
  if checkXy X y then
    match chosenWeights p.toWMParams coords W with
    | .error e => ⟨.error e, stackBegin p st X y coords W, W, s⟩
    | .ok W0 => drawStackWith L M Mn rng p st.cacheEstimator
        (stackWeights W.isSome (stackBegin p st X y coords W) W0) s X y W.isSome W0
  else ⟨.error .valueError, st, W, s⟩

/-! ### `WeightModel.fit` -/

/-- `fit_local_estimator` (`weight_model.py:21-40`). -/
def drawLocal (L : RandLearner K F S) (X : Mat K) (y : Nat → K) (s : S) (e : Nat) (idx : List Nat)
    (ws : List K) (x : List K) : Except Err (K × F) × S :=
  match L.fit s e (idx.map X.row) (idx.map y) ws with
  | (.error e, s) => (.error e, s)
  | (.ok f, s) => (.ok (L.predict f x, f), s)

/-- The task of location `i` (`weight_model.py:100-109`, `153-166`), as `locTask`. -/
def drawTask (L : RandLearner K F S) (X : Mat K) (y : Nat → K) (W : WMat K) (s : S) (i : Nat) :
    Except Err (K × F) × S :=
  if i < X.r ∧ i < W.r then
    match W with
    | .dense W =>
      if W.c ≠ X.r then (.error .indexError, s)
      else drawLocal L X y s i (nonzeroIdx W.c (W.get i)) ((nonzeroIdx W.c (W.get i)).map (W.get i))
        (X.row i)
    | .sparse A =>
      if (A.ne0.rowIdx i).any fun k => decide (X.r ≤ k) then (.error .indexError, s)
      else drawLocal L X y s i (A.ne0.rowIdx i) (A.rowData i) (X.row i)
  else (.error .indexError, s)

/-- `WeightModel.fit` from the weight matrix on (`weight_model.py:347-384`), as `fitWith`, with
`n_patches = 1`. -/
def drawFitWith (L : RandLearner K F S) (rng : Rng S) (p : WMParams K C) (st : WMState K F C) (s : S)
    (X : Mat K) (y : List K) (given : Bool) (W0 : WMat K) : FitOut K F C S :=
  let W := leaveOut p W0
  let caller := if given then some W else none
  let st := { st with weightMatrix := some W, neighbourMatrix := some W.gt0 }
  match sampleLocations rng s p.sampleRate X.r with
  | (.error e, s) => ⟨.error e, st, caller, s⟩
  | (.ok idx, s) =>
    let ys := idx.map fun i => y.getD i 0
    let st := { st with localIndices := some idx, ySample := some ys }
    match drawLoop (drawTask L X (fun i => y.getD i 0) W) s idx with
    | (.error e, s) => ⟨.error e, st, caller, s⟩
    | (.ok res, s) => ⟨(stateEnd p st ys res).1, (stateEnd p st ys res).2, caller, s⟩

/-- `WeightModel.fit` (`weight_model.py:314-384`) with `n_patches = 1`. -/
def drawFit (L : RandLearner K F S) (rng : Rng S) (p : WMParams K C) (st : WMState K F C) (s : S)
    (X : Mat K) (y : List K) (coords : Option C) (W : Option (WMat K)) : FitOut K F C S :=
  if checkXy X y then
    match chosenWeights p coords W with
    | .error e => ⟨.error e, stateBegin p st X y coords W, W, s⟩
    | .ok W0 => drawFitWith L rng p (stateBegin p st X y coords W) s X y W.isSome W0
  else ⟨.error .valueError, st, W, s⟩

end Geo
