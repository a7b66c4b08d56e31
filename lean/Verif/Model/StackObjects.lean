import Verif.Model.Objects
import Verif.Model.Stacking
/-
`StackingWeightModel` with base regressors as objects (see `Model/Objects.lean`). The model's lists hold
references: `base_estimator_list` and the stacking estimators refer to the same base objects. The meta
regressors are made and fitted at one place each and referred to once (`stacking_model.py:444`,
`496`, `657-678`), so they stay values.
-/
namespace Geo
variable {K : Type} [Field K] [LinearOrder K] [FloorRing K] {C S O G : Type}

/-- The arguments of one call of `_fit_local_estimator` (`stacking_model.py:26-45`): the fitted object is
asked for the prediction at the location and at its second-order neighbours. scikit-learn refuses to
predict for an array without rows. -/
def baseJob (R : Regressor K O) (X : Mat K) (y : Nat → K) (est : Nat) (idx : List Nat) (ws : List K)
    (secondIdx : List Nat) (x : List K) : Except Err (Job K O (K × List K)) :=
  .ok ⟨est, idx.map X.row, idx.map y, ws, fun o =>
    if secondIdx = [] then .error .valueError
    else .ok (R.predict o x, secondIdx.map fun k => R.predict o (X.row k))⟩

/-- One location of the dense branch of `_fit` (`stacking_model.py:82-99`). -/
def baseDenseJob (R : Regressor K O) (X : Mat K) (y : Nat → K) (Wl : Mat K) (second : Mat Bool)
    (ests : List Nat) (i : Nat) : Except Err (Job K O (K × List K)) :=
  let idx := nonzeroIdx Wl.c (Wl.get i)
  baseJob R X y (ests.getD i 0) idx (idx.map (Wl.get i)) (trueIdx second i) (X.row i)

/-- One location of the sparse branch of `_fit` (`stacking_model.py:103-128`). -/
def baseSparseJob (R : Regressor K O) (X : Mat K) (y : Nat → K) (Wl : Csr K) (second : Csr Nat)
    (ests : List Nat) (i : Nat) : Except Err (Job K O (K × List K)) :=
  baseJob R X y (ests.getD i 0) (Wl.ne0.rowIdx i) (Wl.rowData i) (second.rowIdx i) (X.row i)

/-- The clones and the batches (`stacking_model.py:130-142`, `383`, `808`); `task` has the list of
clones. -/
def runBaseObj (R : Regressor K O) (backend : Backend) (reg : Nat)
    (task : List Nat → Nat → Except Err (Job K O (K × List K))) (N : Nat) (nPatches : Option ℤ)
    (h : Heap O) : Except Err (List (BaseOut K Nat)) × Heap O :=
  let c := cloneMany R reg N h
  match nPatches with
  | none => (.error .typeError, c.2)
  | some n =>
    let r := patchesObj R backend (task c.1) (List.range N) n c.2
    (r.1.map fun l => l.map fun a => ⟨a.1.1, a.1.2, a.2⟩, r.2)

/-- `fit` on an ndarray from the sampling on (`stacking_model.py:283-692`). -/
def stackDenseObj (R : Regressor K O) (backend : Backend) (reg : Nat) (M : Learner K G) (rng : Rng S)
    (p : SParams K C) (cache : Bool) (st : SState K Nat G C) (s : S) (X : Mat K) (y : List K)
    (given : Bool) (rate : K) (W : Mat K) (h : Heap O) : SOut Unit K Nat G C S × Heap O :=
  let caller := fun W => if given then some (WMat.dense W) else none
  if W.r ≠ X.r ∨ W.c ≠ X.r then (⟨.error .indexError, st, caller W, s⟩, h)
  else match sampleNeighbourDense rng s W rate p.leaveOutShrink with
  | ⟨.error e, s, W⟩ => (⟨.error e, st, caller W, s⟩, h)
  | ⟨.ok Sm, s, W⟩ =>
    match sampleLocations rng s p.sampleRate X.r with
    | (.error e, s) => (⟨.error e, st, caller W, s⟩, h)
    | (.ok idx, s) =>
      let ys := idx.map fun i => y.getD i 0
      let st := { st with wm := { st.wm with localIndices := some idx, ySample := some ys } }
      match shrinkMetaDense p.metaShrink W with
      | .error e => (⟨.error e, st, caller W, s⟩, h)
      | .ok W' =>
        let second := secondOrderDense (gt0 W') Sm.transpose
        let b := runBaseObj R backend reg (baseDenseJob R X (fun i => y.getD i 0)
          (localDense p.leaveLocalOut W Sm.transpose) second) X.r p.storedPatches h
        (stackFinish cache (stackShrunk given st (.dense W')) (caller W') s ys b.1
          (metaStageDense M rng p X.r (fun i => y.getD i 0) W' Sm.transpose second s), b.2)

/-- `fit` on a CSR array from the sampling on (`stacking_model.py:283-692`). -/
def stackSparseObj (R : Regressor K O) (backend : Backend) (reg : Nat) (M Mn : Learner K G) (rng : Rng S)
    (p : SParams K C) (cache : Bool) (st : SState K Nat G C) (s : S) (X : Mat K) (y : List K) (rate : K)
    (A : Csr K) (h : Heap O) : SOut Unit K Nat G C S × Heap O :=
  let caller := fun A => some (WMat.sparse A)
  if A.r ≠ X.r ∨ A.c ≠ X.r then (⟨.error .indexError, st, caller A, s⟩, h)
  else match sampleNeighbourSparse rng s A rate p.leaveOutShrink with
  | ⟨.error e, s, A⟩ => (⟨.error e, st, caller A, s⟩, h)
  | ⟨.ok Sm, s, A⟩ =>
    match sampleLocations rng s p.sampleRate X.r with
    | (.error e, s) => (⟨.error e, st, caller A, s⟩, h)
    | (.ok idx, s) =>
      let ys := idx.map fun i => y.getD i 0
      let st := { st with wm := { st.wm with localIndices := some idx, ySample := some ys } }
      match shrinkMetaSparse p.metaShrink A with
      | .error e => (⟨.error e, st, caller A, s⟩, h)
      | .ok A' =>
        match secondSparse A' Sm.transposePattern with
        | .error e => (⟨.error e, st, caller A', s⟩, h)
        | .ok second =>
          let b := runBaseObj R backend reg (baseSparseJob R X (fun i => y.getD i 0)
            (localSparse p.leaveLocalOut A Sm.transposePattern) second) X.r p.storedPatches h
          (stackFinish cache st (caller A') s ys b.1
            fun res => (metaStageSparse M Mn p X.r (fun i => y.getD i 0) A' Sm second res, s), b.2)

/-- `fit` from the weight matrix on (`stacking_model.py:284-692`). -/
def stackWithObj (R : Regressor K O) (backend : Backend) (reg : Nat) (M Mn : Learner K G) (rng : Rng S)
    (p : SParams K C) (cache : Bool) (st : SState K Nat G C) (s : S) (X : Mat K) (y : List K)
    (given : Bool) (W : WMat K) (h : Heap O) : SOut Unit K Nat G C S × Heap O :=
  match p.leaveOutRate with
  | none => (⟨.error .attributeError, st, if given then some W else none, s⟩, h)
  | some rate =>
    match W with
    | .dense W => stackDenseObj R backend reg M rng p cache st s X y given rate W h
    | .sparse A => stackSparseObj R backend reg M Mn rng p cache st s X y rate A h

/-- `StackingWeightModel.fit` (`stacking_model.py:231-692`). -/
def stackFitObj (R : Regressor K O) (backend : Backend) (reg : Nat) (M Mn : Learner K G) (rng : Rng S)
    (p : SParams K C) (st : SState K Nat G C) (s : S) (X : Mat K) (y : List K) (coords : Option C)
    (W : Option (WMat K)) (h : Heap O) : SOut Unit K Nat G C S × Heap O :=
  if checkXy X y then
    match chosenWeights p.toWMParams coords W with
    | .error e => (⟨.error e, stackBegin p st X y coords W, W, s⟩, h)
    | .ok W0 => stackWithObj R backend reg M Mn rng p st.cacheEstimator
        (stackWeights W.isSome (stackBegin p st X y coords W) W0) s X y W.isSome W0 h
  else (⟨.error .valueError, st, W, s⟩, h)

/-- `StackingWeightModel.predict_by_fit` (`stacking_model.py:695-1107`). -/
def stackPredictByFitObj (R : Regressor K O) (backend : Backend) (reg : Nat) (M : Learner K G)
    (p : SParams K C) (st : SState K Nat G C) (s : S) (X : Mat K) (y : List K) (train : C) (Xp : Mat K)
    (test : C) (h : Heap O) : SOut (List K) K Nat G C S × Heap O :=
  if checkXy X y then
    let cache := st.cacheEstimator
    let st := stackBegin p st X y (some train) none
    match p.weights train train with
    | .error e => (⟨.error e, st, none, s⟩, h)
    | .ok W =>
      let st := stackWeights false st (.dense W)
      match p.weights train test with
      | .error e => (⟨.error e, st, none, s⟩, h)
      | .ok T =>
        if W.r ≠ X.r ∨ W.c ≠ X.r ∨ T.r ≠ X.r ∨ T.c ≠ Xp.r then (⟨.error .indexError, st, none, s⟩, h)
        else
          let second := secondOrderDense (gt0 T).transpose (gt0 T)
          match runBaseObj R backend reg (baseDenseJob R X (fun i => y.getD i 0)
            (localDense p.leaveLocalOut W ⟨W.r, W.c, fun _ _ => false⟩) second) X.r
            p.storedPatches h with
          | (.error e, h) => (⟨.error e, st, none, s⟩, h)
          | (.ok res, h) =>
            let st := { st with wm := { st.wm with ySample := some y } }
            match stackBase cache st y res with
            | (.error e, st) => (⟨.error e, st, none, s⟩, h)
            | (.ok (), st) =>
              match testStage (R.reader h) M p X.r (fun i => y.getD i 0) Xp T second res with
              | .error e => (⟨.error e, st, none, s⟩, h)
              | .ok out => (⟨.ok (out.map Prod.fst), { st with wm := { st.wm with
                  estimators := some (out.map fun o => some o.2) } }, none, s⟩, h)
  else (⟨.error .valueError, st, none, s⟩, h)

end Geo
