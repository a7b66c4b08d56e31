import Verif.Model.Neighbour
import Verif.Model.Distance
import Verif.Basic.MapE
/-
Model of `georegression/weight_model.py`: local fitting, `WeightModel.fit`,
`predict_by_weight` and `predict_by_fit`.

Local estimators are abstract: fitting is an arbitrary function of the clone that is fitted, the
training rows, their targets and their weights; predicting is row-wise. A learner that draws from
a global generator while fitting is not modelled (learners with a fixed `random_state` are).
-/
namespace Geo
variable {K : Type} [Field K] [LinearOrder K] [FloorRing K] {F C S : Type}

/-- A scikit-learn regressor: `fit clone X y sample_weight` and `predict`
(`weight_model.py:31-35`). -/
structure Learner (K F : Type) where
  fit : Nat → List (List K) → List K → List K → Except Err F
  predict : F → List K → K

/-- A weight matrix: `np.ndarray` or `csr_array` (`weight_model.py:83`, `125`). -/
inductive WMat (K : Type)
  | dense (W : Mat K)
  | sparse (A : Csr K)

/-- `weight_matrix.shape[0]` (`weight_model.py:74`). -/
def WMat.r : WMat K → Nat
  | .dense W => W.r
  | .sparse A => A.r

/-- The matrix an array stands for (`weight_model.py:43-191`). -/
def WMat.toMat : WMat K → Mat K
  | .dense W => W
  | .sparse A => A.dense

/-- `fit_local_estimator` (`weight_model.py:21-40`) with the rows `idx` of the data and the
weights `ws`, on clone `e`, predicting at `x`. -/
def fitLocal (L : Learner K F) (X : Mat K) (y : Nat → K) (e : Nat) (idx : List Nat) (ws : List K)
    (x : List K) : Except Err (K × F) :=
  (L.fit e (idx.map X.row) (idx.map y) ws).map fun f => (L.predict f x, f)

/-- One location of the dense branches (`weight_model.py:86-90`, `101-109`): clone `e`, row `i`.
A mask whose length is not the number of rows of `X` raises `IndexError`. -/
def denseTask (L : Learner K F) (X : Mat K) (y : Nat → K) (Xp W : Mat K) (e i : Nat) :
    Except Err (K × F) :=
  if W.c ≠ X.r then .error .indexError
  else
    let idx := nonzeroIdx W.c (W.get i)
    fitLocal L X y e idx (idx.map (W.get i)) (Xp.row i)

/-- `weight_matrix != 0` for a CSR array in canonical format (`weight_model.py:71`). -/
def Csr.ne0 (A : Csr K) : Csr Bool := A.keep (fun _ _ x => decide (x ≠ 0)) fun _ => true

/-- One location of the sparse branches (`weight_model.py:133-145`, `154-166`): the rows come
from the stored positions of `weight_matrix != 0`, the weights from the stored values of
`weight_matrix`. -/
def sparseTask (L : Learner K F) (X : Mat K) (y : Nat → K) (Xp : Mat K) (A : Csr K) (e i : Nat) :
    Except Err (K × F) :=
  let idx := A.ne0.rowIdx i
  if idx.any fun k => decide (X.r ≤ k) then .error .indexError
  else fitLocal L X y e idx (A.rowData i) (Xp.row i)

/-- `estimator_list[i]`, `neighbour_matrix[i]`, `X_predict[i]`: `IndexError` when out of range
(`weight_model.py:101-104`, `133-140`). -/
def atIndex {α : Type} (nEst rows nPred i : Nat) (task : Except Err α) : Except Err α :=
  if i < nEst ∧ i < rows ∧ i < nPred then task else .error .indexError

/-- The task of location `i` (`weight_model.py:100-109`, `153-166`). -/
def locTask (L : Learner K F) (X : Mat K) (y : Nat → K) (Xp : Mat K) (W : WMat K) (nEst i : Nat) :
    Except Err (K × F) :=
  atIndex nEst W.r Xp.r i (match W with
    | .dense W => denseTask L X y Xp W i i
    | .sparse A => sparseTask L X y Xp A i i)

/-- `np.array_split(l, n)`: the first `len % n` parts have one element more
(`weight_model.py:115`, `173`). -/
def arraySplit {α : Type} : List α → Nat → List (List α)
  | _, 0 => []
  | l, n + 1 =>
    let k := l.length / (n + 1) + if l.length % (n + 1) = 0 then 0 else 1
    l.take k :: arraySplit (l.drop k) n

/-- The batches (`weight_model.py:115-124`, `173-182`): each batch is processed in order, the
results are concatenated in the order of the batches; `ValueError` for less than one section. If
several locations fail, the model raises the error of the first one in the order of tasks. -/
def runPatches {α : Type} (task : Nat → Except Err α) (idx : List Nat) (n : ℤ) :
    Except Err (List α) :=
  if n ≤ 0 then .error .valueError
  else (mapE (mapE task) (arraySplit idx n.toNat)).map List.flatten

/-- `list(zip(*parallel_result))` unpacked into two names: `ValueError` when there is no task
(`weight_model.py:95`, `148`). -/
def unzipNonempty {α : Type} (l : List α) : Except Err (List α) :=
  match l with
  | [] => .error .valueError
  | l => .ok l

/-- The number of tasks of the dense `n_jobs` branch: the shortest zipped sequence
(`weight_model.py:91-92`). -/
def zipCount (nIdx nEst rows nPred : Nat) : Nat := min nIdx (min nEst (min rows nPred))

/-- The `n_jobs` branches (`weight_model.py:84-95`, `130-148`). The dense one zips the list of
locations with the *first* estimators, rows and points. joblib returns results in task order. -/
def runJobs (L : Learner K F) (X : Mat K) (y : Nat → K) (Xp : Mat K) (W : WMat K) (nEst : Nat)
    (idx : List Nat) : Except Err (List (K × F)) :=
  match W with
  | .dense D => (mapE (fun k => denseTask L X y Xp D k k)
      (List.range (zipCount idx.length nEst D.r Xp.r))).bind unzipNonempty
  | .sparse _ => (mapE (locTask L X y Xp W nEst) idx).bind unzipNonempty

/-- `_fit` (`weight_model.py:43-191`): predictions and estimators of the locations. `nEst` is the
length of `estimator_list`, `cpu` the number of processors. joblib rejects `n_jobs = 0`; any other
number only changes how many workers there are. -/
def fitAll (L : Learner K F) (X : Mat K) (y : Nat → K) (Xp : Option (Mat K)) (W : WMat K)
    (nEst : Nat) (idx : Option (List Nat)) (nJobs nPatches : Option ℤ) (cpu : Nat) :
    Except Err (List (K × F)) :=
  let idx := idx.getD (List.range W.r)
  let Xp := Xp.getD X
  match nJobs, nPatches with
  | some _, some _ => .error .valueError
  | some j, none => if j = 0 then .error .valueError else runJobs L X y Xp W nEst idx
  | none, some n => runPatches (locTask L X y Xp W nEst) idx n
  | none, none => runPatches (locTask L X y Xp W nEst) idx cpu

/-! ### The model object -/

/-- The constructor arguments that matter here (`weight_model.py:244-277`). `weights` stands for
`weight_matrix_from_points` with the model's distance, kernel and bandwidth parameters. If
neither `n_jobs` nor `n_patches` is given the constructor stores `n_patches = cpu_count()`. -/
structure WMParams (K C : Type) where
  leaveLocalOut : Bool := true
  sampleRate : Option K := none
  cacheData : Bool := false
  cacheEstimator : Bool := false
  nJobs : Option ℤ := none
  nPatches : Option ℤ := none
  cpu : Nat := 1
  weights : C → C → Except Err (Mat K)

/-- `self.n_patches` after construction (`weight_model.py:274-277`). -/
def WMParams.storedPatches (p : WMParams K C) : Option ℤ :=
  match p.nJobs, p.nPatches with
  | none, none => some p.cpu
  | _, n => n

/-- A boolean matrix: `np.ndarray` or `csr_array` (`weight_model.py:358`). -/
inductive BMat
  | dense (M : Mat Bool)
  | sparse (M : Csr Bool)

/-- The attributes of a model object (`weight_model.py:279-308`). -/
structure WMState (K F C : Type) where
  isFitted : Bool := false
  nFeatures : Option Nat := none
  N : Option Nat := none
  X : Option (Mat K) := none
  y : Option (List K) := none
  coords : Option C := none
  weightMatrix : Option (WMat K) := none
  neighbourMatrix : Option BMat := none
  localIndices : Option (List Nat) := none
  ySample : Option (List K) := none
  estimators : Option (List (Option F)) := none
  localPredict : Option (List K) := none
  score : Option K := none
  residual : Option (List K) := none
  permDecrease : Option (List (List K)) := none
  interaction : Option (Arr3 K) := none

/-- `np.fill_diagonal(W, 0)`, or `setdiag(0)` and `eliminate_zeros()` (`weight_model.py:350-356`):
both work on the array itself. -/
def WMat.clearDiag : WMat K → WMat K
  | .dense W => .dense ⟨W.r, W.c, fun i j => if i = j then 0 else W.get i j⟩
  | .sparse A => .sparse (A.keep (fun i j x => decide (i ≠ j) && decide (x ≠ 0)) id)

/-- `weight_matrix_ > 0` (`weight_model.py:358`). -/
def WMat.gt0 : WMat K → BMat
  | .dense W => .dense (Geo.gt0 W)
  | .sparse A => .sparse A.gt0

/-- scikit-learn's `r2_score` on vectors of equal length: `1 - num/den`; for `den = 0` it is 1 if
`num = 0`, else 0. `ValueError` for different lengths or no sample; the squeezed prediction of a
single location is zero-dimensional and raises `TypeError` (`weight_model.py:381`). -/
def skR2 (ys ps : List K) : Except Err K :=
  if ps.length = 1 then .error .typeError
  else if ys.length ≠ ps.length ∨ ps.length = 0 then .error .valueError
  else
    let num := ((ys.zip ps).map fun e => (e.1 - e.2) ^ 2).sum
    let mean := ys.sum / (ys.length : K)
    let den := (ys.map fun y => (y - mean) ^ 2).sum
    .ok (if den ≠ 0 then 1 - num / den else if num = 0 then 1 else 0)

/-- `int(x)`: truncation towards zero (`weight_model.py:363`). -/
def truncInt (x : K) : ℤ := if 0 ≤ x then ⌊x⌋ else ⌈x⌉

/-- The locations (`weight_model.py:362-365`). -/
def sampleLocations (rng : Rng S) (s : S) (rate : Option K) (N : Nat) :
    Except Err (List Nat) × S :=
  match rate with
  | none => (.ok (List.range N), s)
  | some r =>
    match rng.choice s (List.range N) (truncInt (r * (N : K))) with
    | (.error e, s) => (.error e, s)
    | (.ok l, s) => (.ok (sortNat l), s)

/-- What a call of `fit` leaves behind: outcome, object, the caller's weight matrix, generator
(`weight_model.py:314-384`). -/
structure FitOut (K F C S : Type) where
  result : Except Err Unit
  state : WMState K F C
  caller : Option (WMat K)
  rng : S

/-- `check_X_y`: same number of rows, at least one row and one feature (`weight_model.py:329`). -/
def checkXy (X : Mat K) (y : List K) : Bool := decide (X.r = y.length ∧ 0 < X.r ∧ 0 < X.c)

/-- The weight matrix used (`weight_model.py:343-345`). -/
def chosenWeights (p : WMParams K C) (coords : Option C) (W : Option (WMat K)) :
    Except Err (WMat K) :=
  match W, coords with
  | some W, _ => .ok W
  | none, some c => (p.weights c c).map .dense
  | none, none => .error .exception

/-- The attributes set before the weight matrix is looked at (`weight_model.py:330-341`). -/
def stateBegin (p : WMParams K C) (st : WMState K F C) (X : Mat K) (y : List K)
    (coords : Option C) (W : Option (WMat K)) : WMState K F C :=
  let st := { st with isFitted := true, nFeatures := some X.c, N := some X.r }
  if coords.isNone && W.isNone then st
  else if p.cacheData then { st with X := some X, y := some y, coords := coords } else st

/-- The weight matrix after leaving out the locations themselves (`weight_model.py:350-356`). -/
def leaveOut (p : WMParams K C) (W : WMat K) : WMat K := if p.leaveLocalOut then W.clearDiag else W

/-- The attributes set from the results (`weight_model.py:374-382`); the score comes last and may
raise. -/
def stateEnd (p : WMParams K C) (st : WMState K F C) (ys : List K) (res : List (K × F)) :
    Except Err Unit × WMState K F C :=
  let ps := res.map Prod.fst
  let st := { st with
    localPredict := some ps
    estimators := some (res.map fun r => if p.cacheEstimator then some r.2 else none) }
  match skR2 ys ps with
  | .error e => (.error e, st)
  | .ok score => (.ok (), { st with
      score := some score, residual := some (List.zipWith (fun a b => a - b) ys ps) })

/-- `WeightModel.fit` from the weight matrix on (`weight_model.py:347-384`). `given` is the
caller's own array. -/
def fitWith (L : Learner K F) (rng : Rng S) (p : WMParams K C) (st : WMState K F C) (s : S)
    (X : Mat K) (y : List K) (given : Bool) (W0 : WMat K) : FitOut K F C S :=
  let W := leaveOut p W0
  let caller := if given then some W else none
  let st := { st with weightMatrix := some W, neighbourMatrix := some W.gt0 }
  match sampleLocations rng s p.sampleRate X.r with
  | (.error e, s) => ⟨.error e, st, caller, s⟩
  | (.ok idx, s) =>
    let ys := idx.map fun i => y.getD i 0
    let st := { st with localIndices := some idx, ySample := some ys }
    match fitAll L X (fun i => y.getD i 0) none W X.r (some idx) p.nJobs p.storedPatches p.cpu with
    | .error e => ⟨.error e, st, caller, s⟩
    | .ok res => ⟨(stateEnd p st ys res).1, (stateEnd p st ys res).2, caller, s⟩

/-- `WeightModel.fit` (`weight_model.py:314-384`). -/
def wmFit (L : Learner K F) (rng : Rng S) (p : WMParams K C) (st : WMState K F C) (s : S)
    (X : Mat K) (y : List K) (coords : Option C) (W : Option (WMat K)) : FitOut K F C S :=
  if checkXy X y then
    match chosenWeights p coords W with
    | .error e => ⟨.error e, stateBegin p st X y coords W, W, s⟩
    | .ok W0 => fitWith L rng p (stateBegin p st X y coords W) s X y W.isSome W0
  else ⟨.error .valueError, st, W, s⟩

/-! ### Prediction -/

/-- `coordinate_vector_list is None and weight_matrix` evaluated as a condition
(`weight_model.py:408`, `446`): the truth value of an array with other than one element raises
`ValueError`. -/
def guard (coords : Option C) (W : Option (Mat K)) : Except Err Unit :=
  match coords, W with
  | none, some W =>
    if W.r * W.c ≠ 1 then .error .valueError
    else if W.get 0 0 ≠ 0 then .error .exception else .ok ()
  | _, _ => .ok ()

/-- Length of a broadcast axis (`weight_model.py:425`). -/
def bcast (a b : Nat) : Except Err Nat :=
  if a = b then .ok a else if a = 1 then .ok b else if b = 1 then .ok a else .error .valueError

/-- `np.sum(weight_matrix * local_predict.T, axis=1)` (`weight_model.py:425`), with `P` the
predictions (estimators × points). -/
def weightedSum (W P : Mat K) : Except Err (List K) :=
  match bcast W.r P.c, bcast W.c P.r with
  | .ok n, .ok k => .ok ((List.range n).map fun i => ((List.range k).map fun j =>
      W.get (if W.r = 1 then 0 else i) (if W.c = 1 then 0 else j) *
        P.get (if P.r = 1 then 0 else j) (if P.c = 1 then 0 else i)).sum)
  | _, _ => .error .valueError

/-- The predictions of all stored estimators at all points (`weight_model.py:412`). -/
def estimatorTable (L : Learner K F) (ests : List F) (X : Mat K) : Mat K :=
  ⟨ests.length, X.r, fun j i => match ests[j]? with
    | some f => L.predict f (X.row i)
    | none => 0⟩

/-- The weights for prediction (`weight_model.py:421-423`): without coordinates, or without
cached training coordinates, `weight_matrix_from_points` fails on `None` (for missing training
coordinates on the one-dimensional result of `pdist`; the class of the exception is then not
tracked). -/
def predictWeights (p : WMParams K C) (coords train : Option C) (W : Option (Mat K)) :
    Except Err (Mat K) :=
  match W with
  | some W => .ok W
  | none =>
    match coords, train with
    | some c, some t => p.weights c t
    | _, _ => .error .typeError

/-- `local_estimator.predict` on a stored entry: `None` has no such attribute
(`weight_model.py:412`, `542`). -/
def cachedOne : Option F → Except Err F
  | some f => .ok f
  | none => .error .attributeError

/-- The stored estimators: `TypeError` when the model was never fitted; `AttributeError` from
`None.predict` when they were not cached (`weight_model.py:412`). -/
def storedEstimators (st : WMState K F C) : Except Err (List F) :=
  match st.estimators with
  | none => .error .typeError
  | some l => mapE cachedOne l

/-- `WeightModel.predict_by_weight` (`weight_model.py:386-425`). -/
def predictByWeight (L : Learner K F) (p : WMParams K C) (st : WMState K F C) (X : Mat K)
    (coords : Option C) (W : Option (Mat K)) : Except Err (List K) :=
  if !p.cacheData || !p.cacheEstimator then .error .exception
  else do
    guard coords W
    let ests ← storedEstimators st
    let ests ← unzipNonempty ests
    let W ← predictWeights p coords st.coords W
    weightedSum W (estimatorTable L ests X)

/-- The weights of `predict_by_fit` (`weight_model.py:449-456`): training points are the sources,
and the result is transposed. -/
def predictFitWeights (p : WMParams K C) (coords train : Option C) (W : Option (Mat K)) :
    Except Err (Mat K) :=
  match W with
  | some W => .ok W
  | none =>
    match coords, train with
    | some c, some t => (p.weights t c).map Mat.transpose
    | _, _ => .error .typeError

/-- The cached training data: `TypeError` when there is none (`weight_model.py:465`). -/
def cachedData (st : WMState K F C) : Except Err (Mat K × List K) :=
  match st.X, st.y with
  | some X, some y => .ok (X, y)
  | _, _ => .error .typeError

/-- `WeightModel.predict_by_fit` (`weight_model.py:427-467`). -/
def predictByFit (L : Learner K F) (p : WMParams K C) (st : WMState K F C) (X : Mat K)
    (coords : Option C) (W : Option (Mat K)) : Except Err (List K) :=
  if !p.cacheData then .error .exception
  else do
    guard coords W
    let W ← predictFitWeights p coords st.coords W
    let (Xt, yt) ← cachedData st
    let res ← fitAll L Xt (fun i => yt.getD i 0) (some X) (.dense W) X.r none none none p.cpu
    .ok (res.map Prod.fst)

/-- `weight_matrix_from_points` as a source of weights, for eager computation. Non-finite weights
are rejected: every scikit-learn regressor refuses them as sample weights
(`weight_model.py:344-345`, `422`, `453`). -/
def pointSource (lib : Lib K) (env : Env K) (fs : Disk K) (measure : Param (Option String))
    (p : WParams K) (src tgt : List (Mat K)) : Except Err (Mat K) :=
  match (weightMatrixFromPoints lib env fs src (some tgt) measure p none).1 with
  | .error e => .error e
  | .ok W =>
    if W.toLists.flatten.all fun w => decide (w = .fin w.toK) then .ok (W.map Num.toK)
    else .error .valueError

end Geo
