import Verif.Model.WeightModel
/-
Model of `georegression/stacking_model.py`: the base fit, `StackingWeightModel.fit`,
`StackingWeightModel.predict_by_fit` and `StackingEstimator`.

Base and meta learners are abstract (see `Verif/Model/WeightModel.lean`). The versions of the
libraries are those of `requirements.txt` (numpy 1.24, scipy 1.10, scikit-learn 1.2). Logging and
timing are left out.
-/
namespace Geo
variable {K : Type} [Field K] [LinearOrder K] [FloorRing K] {F G C S : Type}

/-! ### The base fit -/

/-- What the base fit returns for one location: the prediction at the location, the predictions at
its second-order neighbours and the estimator (`stacking_model.py:26-45`). -/
structure BaseOut (K F : Type) where
  pred : K
  second : List K
  est : F

/-- `_fit_local_estimator` (`stacking_model.py:26-45`). scikit-learn refuses to predict for an
array without rows. -/
def fitBase (L : Learner K F) (X : Mat K) (y : Nat → K) (e : Nat) (idx : List Nat) (ws : List K)
    (secondIdx : List Nat) (x : List K) : Except Err (BaseOut K F) :=
  (L.fit e (idx.map X.row) (idx.map y) ws).bind fun f =>
    if secondIdx = [] then .error .valueError
    else .ok ⟨L.predict f x, secondIdx.map fun k => L.predict f (X.row k), f⟩

/-- The positions set in row `i` of a boolean array (`stacking_model.py:82-99`). -/
def trueIdx (M : Mat Bool) (i : Nat) : List Nat := (List.range M.c).filter fun j => M.get i j

/-- One location of the dense branch of `_fit` (`stacking_model.py:82-99`). -/
def baseDense (L : Learner K F) (X : Mat K) (y : Nat → K) (Wl : Mat K) (second : Mat Bool)
    (i : Nat) : Except Err (BaseOut K F) :=
  let idx := nonzeroIdx Wl.c (Wl.get i)
  fitBase L X y i idx (idx.map (Wl.get i)) (trueIdx second i) (X.row i)

/-- One location of the sparse branch of `_fit` (`stacking_model.py:103-128`). -/
def baseSparse (L : Learner K F) (X : Mat K) (y : Nat → K) (Wl : Csr K) (second : Csr Nat)
    (i : Nat) : Except Err (BaseOut K F) :=
  fitBase L X y i (Wl.ne0.rowIdx i) (Wl.rowData i) (second.rowIdx i) (X.row i)

/-- The batches (`stacking_model.py:130-142`): `np.array_split(range(N), None)` raises
`TypeError`, which happens when only `n_jobs` was given to the constructor. -/
def runBase {α : Type} (task : Nat → Except Err α) (N : Nat) (nPatches : Option ℤ) :
    Except Err (List α) :=
  match nPatches with
  | none => .error .typeError
  | some n => runPatches task (List.range N) n

/-- `X_meta_T` of the dense branch (`stacking_model.py:144-149`): zeros, with the predictions of
base estimator `j` written at its second-order neighbours. -/
def metaDense (N : Nat) (second : Mat Bool) (res : List (BaseOut K F)) : Mat K :=
  ⟨N, N, fun j => match res[j]? with
    | none => fun _ => 0
    | some b => scatter (fun _ => 0) (trueIdx second j) b.second⟩

/-- `X_meta_T` of the sparse branch (`stacking_model.py:151-159`); its number of columns is again
inferred from the largest index. -/
def metaSparse (second : Csr Nat) (res : List (BaseOut K F)) : Csr K :=
  ⟨second.r, second.c, second.indptr, second.indices, (res.map BaseOut.second).flatten⟩

/-! ### The meta problems -/

/-- What the meta estimator of a location is fitted on: `rows` are the observations, columns the
base estimators `bases`; and the row it predicts from (`stacking_model.py:439-453`). -/
structure MetaProblem (K : Type) where
  bases : List Nat
  rows : List (List K)
  targets : List K
  weights : List K
  query : List K

/-- `StackingEstimator`, or a bare base estimator, which is what `local_estimator_list` holds for
a moment (`stacking_model.py:392`, `stacking_model.py:817`). -/
inductive StackedEst (F G : Type)
  | base (f : F)
  | stacked (g : G) (bases : List F)

/-- `StackingEstimator.predict` (`stacking_model.py:1132-1135`), for one row. -/
def stackPredict (L : Learner K F) (M : Learner K G) : StackedEst F G → List K → K
  | .base f, x => L.predict f x
  | .stacked g fs, x => M.predict g (fs.map fun f => L.predict f x)

/-- A stacking estimator as a regressor; `StackingEstimator.fit` has no `self` and raises
`TypeError` when it is called (`stacking_model.py:1144`). -/
def stackLearner (L : Learner K F) (M : Learner K G) : Learner K (StackedEst F G) where
  predict := stackPredict L M
  fit := fun _ _ _ _ => .error .typeError

/-- The result for one location: prediction, estimator, and (numba only) the score of the fit
(`stacking_model.py:444-467`). -/
structure MetaOut (K F G : Type) where
  pred : K
  est : StackedEst F G
  score : Option K

/-- Fitting and applying `Ridge` (`stacking_model.py:444-462`, `496-516`). scikit-learn rejects an
array without rows or without columns. -/
def solveMeta (M : Learner K G) (base : List F) (p : MetaProblem K) :
    Except Err (MetaOut K F G) :=
  if p.rows = [] ∨ p.bases = [] then .error .valueError
  else (M.fit 0 p.rows p.targets p.weights).map fun g =>
    ⟨M.predict g p.query, .stacked g (p.bases.filterMap fun j => base[j]?), none⟩

/-- The problem of location `i` in the dense branch (`stacking_model.py:439-453`): `nb` are its
neighbours without itself, `sample` the selected base estimators. -/
def problemDense (Xm : Mat K) (nm : Mat Bool) (W : Mat K) (y : Nat → K) (sample : List Nat)
    (i : Nat) : MetaProblem K :=
  let nb := trueIdx nm i
  ⟨sample, nb.map fun k => sample.map fun j => Xm.get j k, nb.map y, nb.map (W.get i),
    sample.map fun j => Xm.get j i⟩

/-- The base estimators used at `i` (`stacking_model.py:417-437`): the left-out ones. With
`estimator_sample_rate`, `np.nonzero(neighbour_sample[i])` is applied to the *entry* `i` of the
mask, so the candidates are `[0]` if the entry is set and `[]` if not. -/
def chooseBases (rng : Rng S) (rate : Option K) (leaveOut : Mat Bool) (s : S) (i : Nat) :
    Except Err (List Nat) × S :=
  let sample := trueIdx leaveOut.transpose i
  match rate with
  | none => (.ok sample, s)
  | some r =>
    let cand := if leaveOut.get i i then [0] else []
    match rng.choice s cand ⌈(cand.length : K) * r⌉ with
    | (.error e, s) => (.error e, s)
    | (.ok l, s) => (.ok ((List.range leaveOut.r).filter fun j => decide (j ∈ l)), s)

/-- The loop over the locations of the dense branch (`stacking_model.py:410-463`). -/
def metaLoop {α : Type} (choose : S → Nat → Except Err (List Nat) × S)
    (solve : List Nat → Nat → Except Err α) : S → List Nat → Except Err (List α) × S
  | s, [] => (.ok [], s)
  | s, i :: is =>
    match choose s i with
    | (.error e, s) => (.error e, s)
    | (.ok sample, s) =>
      match solve sample i with
      | .error e => (.error e, s)
      | .ok a =>
        match metaLoop choose solve s is with
        | (.error e, s) => (.error e, s)
        | (.ok l, s) => (.ok (a :: l), s)

/-- The problem of location `i` in the sparse branch (`stacking_model.py:470-506`). Indexing
`X_meta_T` and `X_meta` beyond the inferred shape raises `IndexError`; `X_meta` is the transpose of
`X_meta_T`. `Sm` is the selection, `nm` the neighbours. -/
def problemSparse (Xm : Csr K) (nm : Csr Bool) (A : Csr K) (Sm : Csr Nat) (y : Nat → K) (i : Nat) :
    Except Err (MetaProblem K) :=
  let nb := nm.rowIdx i
  let sample := Sm.rowIdx i
  if (nb.any fun k => decide (Xm.c ≤ k)) || decide (Xm.c ≤ i) then .error .indexError
  else .ok ⟨sample, nb.map fun k => sample.map fun j => Xm.entry j k, nb.map y,
    nb.map (A.entry i), sample.map fun j => Xm.entry j i⟩

/-- One row of `X_fit_T` in `stacking_numba` (`stacking_model.py:573-589`): the stored predictions
of base estimator `j` at indices occurring in `nb` are written one after the other, the rest stays
zero. -/
def numbaRow (Xm : Csr K) (nb : List Nat) (j : Nat) : List K :=
  let vals := (((Xm.rowIdx j).zip (Xm.rowData j)).filter fun e => decide (e.1 ∈ nb)).map Prod.snd
  (vals ++ List.replicate nb.length 0).take nb.length

/-- The prediction read for location `i` from row `j` (`stacking_model.py:612-628`): the first
position holding `i`; if there is none, the last position of the row. -/
def numbaQuery (Xm : Csr K) (i j : Nat) : K :=
  (Xm.rowData j).getD (min ((Xm.rowIdx j).idxOf i) ((Xm.rowIdx j).length - 1)) 0

/-- The problem of location `i` in `stacking_numba` (`stacking_model.py:551-630`). -/
def problemNumba (Xm : Csr K) (nm : Csr Bool) (A : Csr K) (Sm : Csr Nat) (y : Nat → K) (i : Nat) :
    MetaProblem K :=
  let nb := (nm.rowIdx i).filter fun k => k != i
  let sample := Sm.rowIdx i
  let cols := sample.map (numbaRow Xm nb)
  ⟨sample, (List.range nb.length).map fun t => cols.map fun col => col.getD t 0, nb.map y,
    (((A.rowIdx i).zip (A.rowData i)).filter fun e => e.1 != i).map Prod.snd,
    sample.map (numbaQuery Xm i)⟩

/-- `r2_score` of `numba_impl.py:46-57` on lists. -/
def numbaR2 (ys ps : List K) : K :=
  let mean := ys.sum / (ys.length : K)
  let den := (ys.map fun y => (y - mean) ^ 2).sum
  let num := ((ys.zip ps).map fun e => (e.1 - e.2) ^ 2).sum
  if den = 0 then 1 else 1 - num / den

/-- Fitting and applying `ridge_cholesky` (`stacking_model.py:605-636`, `657-678`): `M` stands for
it. Weights of another length than the rows fail in the arithmetic; without rows the results are
`nan` and `r2_score` raises `ValueError` after the loop (here: at once). -/
def solveNumba (M : Learner K G) (base : List F) (p : MetaProblem K) :
    Except Err (MetaOut K F G) :=
  if p.rows = [] ∨ p.weights.length ≠ p.rows.length then .error .valueError
  else (M.fit 0 p.rows p.targets p.weights).map fun g =>
    ⟨M.predict g p.query, .stacked g (p.bases.filterMap fun j => base[j]?),
      some (numbaR2 p.targets (p.rows.map (M.predict g)))⟩

/-! ### The model object -/

/-- The constructor arguments (`stacking_model.py:168-228`); `alpha` is part of the meta
learner. -/
structure SParams (K C : Type) extends WMParams K C where
  leaveOutRate : Option K := none
  leaveOutShrink : Option K := none
  metaShrink : Option K := none
  estimatorRate : Option K := none
  useNumba : Bool := false

/-- The attributes of the object. `wm` are the inherited ones; the inherited `local_residual_` is
`residuals` here, because it becomes a matrix. `cacheEstimator` is the attribute
`cache_estimator`, which `fit` overwrites (`stacking_model.py:168-228`). -/
structure SState (K F G C : Type) where
  wm : WMState K (StackedEst F G) C := {}
  cacheEstimator : Bool := false
  base : Option (List F) := none
  residuals : Option (Mat K) := none
  stackPredictions : Option (List K) := none
  stackScore : Option K := none
  fitScores : Option (List K) := none

/-- What a call leaves behind: outcome, object, the caller's weight matrix, generator
(`stacking_model.py:231-692`). -/
structure SOut (R K F G C S : Type) where
  result : Except Err R
  state : SState K F G C
  caller : Option (WMat K)
  rng : S

/-- `r2_score(y, p)` with `p` a column of predictions: `ValueError` for different lengths; `nan`
(here `none`) for a single sample (`stacking_model.py:394`, `466`). -/
def r2Column (ys ps : List K) : Except Err (Option K) :=
  if ys.length ≠ ps.length ∨ ps.length = 0 then .error .valueError
  else if ps.length = 1 then .ok none
  else (skR2 ys ps).map some

/-- The attributes set before the weights are computed (`stacking_model.py:247-263`). The
coordinates are not cached. -/
def stackBegin (p : SParams K C) (st : SState K F G C) (X : Mat K) (y : List K)
    (coords : Option C) (W : Option (WMat K)) : SState K F G C :=
  let wm := { st.wm with isFitted := true, nFeatures := some X.c, N := some X.r }
  if coords.isNone && W.isNone then { st with wm := wm }
  else
    { st with
      wm := if p.cacheData then { wm with X := some X, y := some y } else wm
      cacheEstimator := true }

/-- `self.weight_matrix_` and `self.neighbour_matrix_` are set only when the weights were computed
here (`stacking_model.py:265-279`). -/
def stackWeights (given : Bool) (st : SState K F G C) (W : WMat K) : SState K F G C :=
  if given then st
  else { st with wm := { st.wm with weightMatrix := some W, neighbourMatrix := some W.gt0 } }

/-- After the in-place shrinking: `self.weight_matrix_` is the same array object, so it shows the
shrunk weights; `self.neighbour_matrix_` is a separate array (`stacking_model.py:344-345`). -/
def stackShrunk (given : Bool) (st : SState K F G C) (W : WMat K) : SState K F G C :=
  if given then st else { st with wm := { st.wm with weightMatrix := some W } }

/-- `self.y_sample_ - self.local_predict_` (`stacking_model.py:395`): a vector of length `n` minus
a list of `m` arrays of length one, which numpy broadcasts to an `m × n` matrix. -/
def residualMatrix (ys ps : List K) : Mat K :=
  ⟨ps.length, ys.length, fun a b => ys.getD b 0 - ps.getD a 0⟩

/-- The attributes set from the base fit (`stacking_model.py:391-399`). `cache` is the value
`cache_estimator` had before the call. -/
def stackBase (cache : Bool) (st : SState K F G C) (ys : List K) (res : List (BaseOut K F)) :
    Except Err Unit × SState K F G C :=
  let ps := res.map BaseOut.pred
  let st := { st with wm := { st.wm with
    localPredict := some ps
    estimators := some (res.map fun b => some (.base b.est)) } }
  match r2Column ys ps with
  | .error e => (.error e, st)
  | .ok score => (.ok (), { st with
      wm := { st.wm with score := score, estimators := none }
      residuals := some (residualMatrix ys ps)
      cacheEstimator := cache
      base := some (res.map BaseOut.est) })

/-- The attributes set from the meta fit (`stacking_model.py:465-467`, `520-522`, `657-678`). -/
def stackEnd (st : SState K F G C) (ys : List K) (res : List (MetaOut K F G)) :
    Except Err Unit × SState K F G C :=
  let ps := res.map MetaOut.pred
  let st := { st with
    stackPredictions := some ps
    fitScores := if res.any (fun r => r.score.isSome) then some (res.filterMap MetaOut.score)
      else st.fitScores }
  match r2Column ys ps with
  | .error e => (.error e, st)
  | .ok score => (.ok (), { st with
      stackScore := score
      wm := { st.wm with estimators := some (res.map fun r => some r.est) } })

/-- From the base fit on (`stacking_model.py:380-692`), shared by all branches. -/
def stackFinish (cache : Bool) (st : SState K F G C) (caller : Option (WMat K)) (s : S)
    (ys : List K) (baseRes : Except Err (List (BaseOut K F)))
    (metaRun : List (BaseOut K F) → Except Err (List (MetaOut K F G)) × S) :
    SOut Unit K F G C S :=
  match baseRes with
  | .error e => ⟨.error e, st, caller, s⟩
  | .ok res =>
    match stackBase cache st ys res with
    | (.error e, st) => ⟨.error e, st, caller, s⟩
    | (.ok (), st) =>
      match metaRun res with
      | (.error e, s) => ⟨.error e, st, caller, s⟩
      | (.ok out, s) => ⟨(stackEnd st ys out).1, (stackEnd st ys out).2, caller, s⟩

/-- `weight_matrix_local` (`stacking_model.py:305-320`): zero where the transposed selection is
set, and on the diagonal if `leave_local_out`. -/
def localDense (leaveLocal : Bool) (W : Mat K) (leaveOut : Mat Bool) : Mat K :=
  ⟨W.r, W.c, fun j i => if leaveOut.get j i || (leaveLocal && i == j) then 0 else W.get j i⟩

/-- `meta_fitting_shrink_rate` on an ndarray (`stacking_model.py:344-345`); the array itself
changes. -/
def shrinkMetaDense (rate : Option K) (W : Mat K) : Except Err (Mat K) :=
  match rate with
  | none => .ok W
  | some q => shrinkDense W q

/-- `weight_matrix > 0` with the diagonal cleared (`stacking_model.py:354`, `365-366`). -/
def othersDense (W : Mat K) : Mat Bool :=
  ⟨W.r, W.c, fun i j => decide (0 < W.get i j) && i != j⟩

/-- The meta stage on ndarrays (`stacking_model.py:404-467`, `526-528`). -/
def metaStageDense (M : Learner K G) (rng : Rng S) (p : SParams K C) (N : Nat) (y : Nat → K)
    (W : Mat K) (leaveOut : Mat Bool) (second : Mat Bool) (s : S) (res : List (BaseOut K F)) :
    Except Err (List (MetaOut K F G)) × S :=
  if p.useNumba then (.error .exception, s)
  else metaLoop (chooseBases rng p.estimatorRate leaveOut)
    (fun sample i => solveMeta M (res.map BaseOut.est)
      (problemDense (metaDense N second res) (othersDense W) W y sample i)) s (List.range N)

/-- `fit` on an ndarray from the sampling on (`stacking_model.py:283-692`). A matrix that is not
`N × N` fails somewhere; which error and when is not modelled. -/
def stackDense (L : Learner K F) (M : Learner K G) (rng : Rng S) (p : SParams K C) (cache : Bool)
    (st : SState K F G C) (s : S) (X : Mat K) (y : List K) (given : Bool) (rate : K) (W : Mat K) :
    SOut Unit K F G C S :=
  let caller := fun W => if given then some (WMat.dense W) else none
  if W.r ≠ X.r ∨ W.c ≠ X.r then ⟨.error .indexError, st, caller W, s⟩
  else match sampleNeighbourDense rng s W rate p.leaveOutShrink with
  | ⟨.error e, s, W⟩ => ⟨.error e, st, caller W, s⟩
  | ⟨.ok Sm, s, W⟩ =>
    match sampleLocations rng s p.sampleRate X.r with
    | (.error e, s) => ⟨.error e, st, caller W, s⟩
    | (.ok idx, s) =>
      let ys := idx.map fun i => y.getD i 0
      let st := { st with wm := { st.wm with localIndices := some idx, ySample := some ys } }
      match shrinkMetaDense p.metaShrink W with
      | .error e => ⟨.error e, st, caller W, s⟩
      | .ok W' =>
        let second := secondOrderDense (gt0 W') Sm.transpose
        stackFinish cache (stackShrunk given st (.dense W')) (caller W') s ys
          (runBase (baseDense L X (fun i => y.getD i 0)
            (localDense p.leaveLocalOut W Sm.transpose) second) X.r p.storedPatches)
          (metaStageDense M rng p X.r (fun i => y.getD i 0) W' Sm.transpose second s)

/-- `csr_array(neighbour_leave_out.T)` (`stacking_model.py:298-300`): the transposed pattern in
canonical format. -/
def Csr.transposePattern (A : Csr Nat) : Csr Bool :=
  let rows := (List.range A.c).map fun j => (List.range A.r).filter fun i => decide (j ∈ A.rowIdx i)
  Csr.ofRows A.r rows (rows.flatten.map fun _ => true)

/-- `weight_matrix_local` for a CSR array (`stacking_model.py:305-320`). -/
def localSparse (leaveLocal : Bool) (A : Csr K) (leaveOut : Csr Bool) : Csr K :=
  A.keep (fun j i x => decide (x ≠ 0) && !decide (i ∈ leaveOut.rowIdx j) &&
    !(leaveLocal && i == j)) id

/-- `meta_fitting_shrink_rate` on a CSR array (`stacking_model.py:344-345`). -/
def shrinkMetaSparse (rate : Option K) (A : Csr K) : Except Err (Csr K) :=
  match rate with
  | none => .ok A
  | some q => shrinkSparse A q

/-- `weight_matrix > 0` with the diagonal removed (`stacking_model.py:354`, `367-371`). -/
def othersSparse (A : Csr K) : Csr Bool :=
  A.keep (fun i j x => decide (0 < x) && i != j) fun _ => true

/-- The meta stage on CSR arrays, without and with numba (`stacking_model.py:469-522`,
`530-678`); `Mn` is the meta learner of the numba path. -/
def metaStageSparse (M Mn : Learner K G) (p : SParams K C) (N : Nat) (y : Nat → K) (A : Csr K)
    (Sm : Csr Nat) (second : Csr Nat) (res : List (BaseOut K F)) :
    Except Err (List (MetaOut K F G)) :=
  let base := res.map BaseOut.est
  let Xm := metaSparse second res
  if p.useNumba then
    mapE (fun i => solveNumba Mn base (problemNumba Xm (othersSparse A) A Sm y i)) (List.range N)
  else
    mapE (fun i => (problemSparse Xm (othersSparse A) A Sm y i).bind (solveMeta M base))
      (List.range N)

/-- `second_order_neighbour` on CSR arrays (`stacking_model.py:359-361`). -/
def secondSparse (A : Csr K) (leaveOut : Csr Bool) : Except Err (Csr Nat) :=
  csrInferred (secondOrderRows A.gt0 leaveOut)

/-- `fit` on a CSR array from the sampling on (`stacking_model.py:283-692`). A matrix that is not
`N × N` fails somewhere; which error and when is not modelled. -/
def stackSparse (L : Learner K F) (M Mn : Learner K G) (rng : Rng S) (p : SParams K C)
    (cache : Bool) (st : SState K F G C) (s : S) (X : Mat K) (y : List K) (rate : K) (A : Csr K) :
    SOut Unit K F G C S :=
  let caller := fun A => some (WMat.sparse A)
  if A.r ≠ X.r ∨ A.c ≠ X.r then ⟨.error .indexError, st, caller A, s⟩
  else match sampleNeighbourSparse rng s A rate p.leaveOutShrink with
  | ⟨.error e, s, A⟩ => ⟨.error e, st, caller A, s⟩
  | ⟨.ok Sm, s, A⟩ =>
    match sampleLocations rng s p.sampleRate X.r with
    | (.error e, s) => ⟨.error e, st, caller A, s⟩
    | (.ok idx, s) =>
      let ys := idx.map fun i => y.getD i 0
      let st := { st with wm := { st.wm with localIndices := some idx, ySample := some ys } }
      match shrinkMetaSparse p.metaShrink A with
      | .error e => ⟨.error e, st, caller A, s⟩
      | .ok A' =>
        match secondSparse A' Sm.transposePattern with
        | .error e => ⟨.error e, st, caller A', s⟩
        | .ok second =>
          stackFinish cache st (caller A') s ys
            (runBase (baseSparse L X (fun i => y.getD i 0)
              (localSparse p.leaveLocalOut A Sm.transposePattern) second) X.r p.storedPatches)
            fun res => (metaStageSparse M Mn p X.r (fun i => y.getD i 0) A' Sm second res, s)

/-- `fit` from the weight matrix on. Without `neighbour_leave_out_rate`,
`neighbour_leave_out` is `None` and `None.nonzero()` raises `AttributeError`
(`stacking_model.py:284-306`). `weight_matrix_from_points` returns an ndarray, so a CSR array is
always the caller's. -/
def stackWith (L : Learner K F) (M Mn : Learner K G) (rng : Rng S) (p : SParams K C)
    (cache : Bool) (st : SState K F G C) (s : S) (X : Mat K) (y : List K) (given : Bool)
    (W : WMat K) : SOut Unit K F G C S :=
  match p.leaveOutRate with
  | none => ⟨.error .attributeError, st, if given then some W else none, s⟩
  | some rate =>
    match W with
    | .dense W => stackDense L M rng p cache st s X y given rate W
    | .sparse A => stackSparse L M Mn rng p cache st s X y rate A

/-- `StackingWeightModel.fit` (`stacking_model.py:231-692`). -/
def stackFit (L : Learner K F) (M Mn : Learner K G) (rng : Rng S) (p : SParams K C)
    (st : SState K F G C) (s : S) (X : Mat K) (y : List K) (coords : Option C)
    (W : Option (WMat K)) : SOut Unit K F G C S :=
  if checkXy X y then
    match chosenWeights p.toWMParams coords W with
    | .error e => ⟨.error e, stackBegin p st X y coords W, W, s⟩
    | .ok W0 => stackWith L M Mn rng p st.cacheEstimator
        (stackWeights W.isSome (stackBegin p st X y coords W) W0) s X y W.isSome W0
  else ⟨.error .valueError, st, W, s⟩

/-! ### Prediction by fitting -/

/-- The problem of test point `t` (`stacking_model.py:845-856`); `T` holds the weights of the
training points towards the test points. -/
def problemTest (Xm : Mat K) (T : Mat K) (y : Nat → K) (t : Nat) : MetaProblem K :=
  let nb := trueIdx (gt0 T).transpose t
  ⟨nb, nb.map fun k => nb.map fun j => Xm.get j k, nb.map y, nb.map fun k => T.get k t, []⟩

/-- The meta stage of `predict_by_fit` (`stacking_model.py:830-881`, `941-943`): the stacking
estimators of the test points and the predictions. -/
def testStage (L : Learner K F) (M : Learner K G) (p : SParams K C) (N : Nat) (y : Nat → K)
    (Xp T : Mat K) (second : Mat Bool) (res : List (BaseOut K F)) :
    Except Err (List (K × StackedEst F G)) :=
  if p.useNumba then .error .exception
  else mapE (fun t => (solveMeta M (res.map BaseOut.est)
    (problemTest (metaDense N second res) T y t)).map fun o =>
      (stackPredict L M o.est (Xp.row t), o.est)) (List.range Xp.r)

/-- `StackingWeightModel.predict_by_fit` (`stacking_model.py:695-1107`). The weight matrices are
ndarrays, so the other branches are unreachable. Weights of a wrong shape (coordinate lists that do
not fit the data) fail; which error and when is not modelled. -/
def stackPredictByFit (L : Learner K F) (M : Learner K G) (p : SParams K C) (st : SState K F G C)
    (s : S) (X : Mat K) (y : List K) (train : C) (Xp : Mat K) (test : C) :
    SOut (List K) K F G C S :=
  if checkXy X y then
    let cache := st.cacheEstimator
    let st := stackBegin p st X y (some train) none
    match p.weights train train with
    | .error e => ⟨.error e, st, none, s⟩
    | .ok W =>
      let st := stackWeights false st (.dense W)
      match p.weights train test with
      | .error e => ⟨.error e, st, none, s⟩
      | .ok T =>
        if W.r ≠ X.r ∨ W.c ≠ X.r ∨ T.r ≠ X.r ∨ T.c ≠ Xp.r then ⟨.error .indexError, st, none, s⟩
        else
          let second := secondOrderDense (gt0 T).transpose (gt0 T)
          match runBase (baseDense L X (fun i => y.getD i 0)
            (localDense p.leaveLocalOut W ⟨W.r, W.c, fun _ _ => false⟩) second) X.r
            p.storedPatches with
          | .error e => ⟨.error e, st, none, s⟩
          | .ok res =>
            let st := { st with wm := { st.wm with ySample := some y } }
            match stackBase cache st y res with
            | (.error e, st) => ⟨.error e, st, none, s⟩
            | (.ok (), st) =>
              match testStage L M p X.r (fun i => y.getD i 0) Xp T second res with
              | .error e => ⟨.error e, st, none, s⟩
              | .ok out => ⟨.ok (out.map Prod.fst), { st with wm := { st.wm with
                  estimators := some (out.map fun o => some o.2) } }, none, s⟩
  else ⟨.error .valueError, st, none, s⟩

end Geo
