import Verif.Model.Importance
import Verif.Model.Stacking
/-
Model of `georegression/ale_utils.py`, `georegression/local_ale.py` and the methods `local_ALE` and
`global_ALE` of `georegression/weight_model.py`. Arrays hold finite exact floats: an integer array,
into which numpy writes truncated grid values, is the subject of `Model/CurveGrids`.
-/
set_option linter.unusedSectionVars false
namespace Geo
variable {K : Type} [Field K] [LinearOrder K] [IsStrictOrderedRing K] [FloorRing K] {F C S : Type}

/-- `np.unique`: the sorted distinct values (`ale_utils.py:84`). -/
def uniqueL {α : Type} [LinearOrder α] (l : List α) : List α := (sortL l).dedup

/-- `np.linspace(0, 100, num)` (`ale_utils.py:27`), divided by 100 as `np.percentile` does:
`ValueError` for a negative number; a single point is 0. -/
def gridFractions (num : ℤ) : Except Err (List K) :=
  if num < 0 then .error .valueError
  else .ok ((List.range num.toNat).map fun (k : Nat) => (k : K) / ((num.toNat - 1 : Nat) : K))

/-- `get_quantiles` (`ale_utils.py:11-29`). -/
def getQuantiles (values : List K) (num : ℤ) : Except Err (List K) :=
  match gridFractions num with
  | .error e => .error e
  | .ok qs => mapE (npQuantile virtLinear values) qs

/-- The loop of `bisect_fun` (`ale_utils.py:56-62`), unrolled at most `fuel` times. -/
def bisectAux (f : ℤ → Except Err K) (target : K) : Nat → ℤ → ℤ → Except Err ℤ
  | 0, lo, _ => .ok lo
  | fuel + 1, lo, hi =>
    if lo < hi then
      match f ((lo + hi) / 2) with
      | .error e => .error e
      | .ok v => if v < target then bisectAux f target fuel ((lo + hi) / 2 + 1) hi
          else bisectAux f target fuel lo ((lo + hi) / 2)
    else .ok lo

/-- `bisect_fun` (`ale_utils.py:32-62`) for a function that may raise. The loop runs at most
`hi - lo` times, see `bisectFun_loop`. -/
def bisectFun (f : ℤ → Except Err K) (target : K) (lo hi : ℤ) : Except Err ℤ :=
  bisectAux f target (hi - lo).toNat lo hi

/-- `np.searchsorted(q, v, side='left')` for sorted `q` (`ale_utils.py:85`). -/
def searchLeft (q : List K) (v : K) : Nat := q.countP fun x => decide (x < v)

/-- The interval of every value: index 0 becomes 1 (`ale_utils.py:85-86`, `local_ale.py:15-16`). -/
def aleIdx (q vals : List K) : List Nat :=
  vals.map fun v => if searchLeft q v = 0 then 1 else searchLeft q v

/-- `np.bincount` (`ale_utils.py:87`). -/
def bincount (idx : List Nat) : List Nat :=
  if idx = [] then [] else (List.range (idx.foldr max 0 + 1)).map fun k => idx.count k

/-- `minimum_satisfied` (`ale_utils.py:65-88`). -/
def minimumSatisfied (values : List K) (m n : ℤ) : Except Err ℤ :=
  match getQuantiles values n with
  | .error e => .error e
  | .ok qs =>
    .ok (if ((bincount (aleIdx (uniqueL qs) values)).drop 1).all (fun c => decide (m < c))
      then 1 else 0)

/-- `minimum_not_satisfied` (`ale_utils.py:120-124`). -/
def minimumNotSatisfied (values : List K) (m n : ℤ) : Except Err K :=
  (minimumSatisfied values m n).map fun b => ((1 - b : ℤ) : K)

/-- `adaptive_grid` (`ale_utils.py:91-132`). -/
def adaptiveGrid (values : List K) (m : ℤ) : Except Err (List K × ℤ) :=
  match bisectFun (minimumNotSatisfied values m) (1 / 2) 0 values.length with
  | .error e => .error e
  | .ok v =>
    match getQuantiles values (v - 1) with
    | .error e => .error e
    | .ok qs => .ok (uniqueL qs, v - 1)

/-- `np.average(xs, weights=ws)`: `ZeroDivisionError` if the weights add up to zero
(`local_ale.py:31`, `38`). -/
def npAverage (xs ws : List K) : Except Err K :=
  if ws.sum = 0 then .error .zeroDivisionError
  else .ok ((List.zipWith (· * ·) xs ws).sum / ws.sum)

/-- The positions whose index is `k`: the mask `indices == k`, or one group of `groupby`
(`local_ale.py:31`, `38`). -/
def members (idx : List Nat) (k : Nat) : List Nat :=
  (List.range idx.length).filter fun i => idx.getD i 0 == k

/-- `df.groupby(1).apply(lambda x: np.average(x[0], weights=x[2])).values`
(`local_ale.py:34-38`): one average per group that occurs, in the order of the group index. -/
def groupAverages (idx : List Nat) (delta w : Nat → K) : Except Err (List K) :=
  mapE (fun k => npAverage ((members idx k).map delta) ((members idx k).map w)) (uniqueL idx)

/-- `np.cumsum`, started at `a` (`local_ale.py:41`). -/
def cumsumFrom (a : K) : List K → List K
  | [] => []
  | x :: l => (a + x) :: cumsumFrom (a + x) l

/-- `np.cumsum` with a zero put in front (`local_ale.py:41-45`). -/
def accumulate (avg : List K) : List K := 0 :: cumsumFrom 0 avg

/-- The mean effect subtracted in the normalised version (`local_ale.py:48-56`,
`weight_model.py:745-753`). Different lengths are a `ValueError` (numpy would broadcast a single
interval; `accumulate_length` shows that the lengths always agree). -/
def centre (accum : List K) (counts : List Nat) : Except Err (List K) :=
  if accum.length - 1 ≠ counts.length - 1 then .error .valueError
  else
    .ok (accum.map fun a => a -
      (List.zipWith (fun s (c : Nat) => s * (c : K))
        (List.zipWith (fun a b => 1 / 2 * (a + b)) accum.dropLast (accum.drop 1))
        (counts.drop 1)).sum / ((counts.sum : Nat) : K))

/-- Row `i` of `X` with the feature replaced (`z_low`, `z_high`: `local_ale.py:20-23`). -/
def withFeature (X : Mat K) (feature : Nat) (vals : List K) (i : Nat) : List K :=
  (X.row i).set feature (vals.getD i 0)

/-- The last part of `weighted_ale` (`local_ale.py:47-60`). -/
def aleFinish (q : List K) (normalize : Bool) (base : K) (counts : List Nat) (accum : List K) :
    Except Err (List K × List K) :=
  if normalize then (centre accum counts).map fun a => (q, a)
  else .ok (q, accum.map (· + base))

/-- The part of `weighted_ale` that needs the weights (`local_ale.py:29-60`): `TypeError` if there
are none, `IndexError` if their number is wrong. -/
def aleWeighted (q : List K) (idx : List Nat) (low high : Nat → K) (weights : Option (List K))
    (normalize : Bool) : Except Err (List K × List K) :=
  match weights with
  | none => .error .typeError
  | some w =>
    if w.length ≠ idx.length then .error .indexError
    else
      match npAverage ((members idx 1).map low) ((members idx 1).map fun i => w.getD i 0) with
      | .error e => .error e
      | .ok base =>
        match groupAverages idx (fun i => high i - low i) (fun i => w.getD i 0) with
        | .error e => .error e
        | .ok avg => aleFinish q normalize base (bincount idx) (accumulate avg)

/-- `weighted_ale` (`local_ale.py:11-60`) for a predictor that works row by row. -/
def weightedAle (X : Mat K) (feature : Nat) (pred : List K → K) (weights : Option (List K))
    (normalize : Bool) (m : ℤ) : Except Err (List K × List K) :=
  if X.c ≤ feature then .error .indexError
  else
    match adaptiveGrid (X.col feature) m with
    | .error e => .error e
    | .ok (q, _) =>
      match mapE (fun i => pyGet q (i - 1)) (aleIdx q (X.col feature)) with
      | .error e => .error e
      | .ok lows =>
        match mapE (fun i => pyGet q i) (aleIdx q (X.col feature)) with
        | .error e => .error e
        | .ok highs =>
          aleWeighted q (aleIdx q (X.col feature))
            (fun i => pred (withFeature X feature lows i))
            (fun i => pred (withFeature X feature highs i)) weights normalize

/-- The rows of a matrix selected by a boolean row: `X[mask]` (`weight_model.py:695`). -/
def maskRows (X : Mat K) (idx : List Nat) : Mat K :=
  ⟨idx.length, X.c, fun i j => X.get (idx.getD i 0) j⟩

/-- One step of `local_ALE` (`weight_model.py:691-696`) for dense matrices: the defaults of
`weighted_ale` are `normalize=False` and `min_bin_points=5`. -/
def localAleOne (L : Learner K F) (X : Mat K) (W : Mat K) (B : Mat Bool) (feature i : Nat)
    (e : Option F) : Except Err (List K × List K) :=
  if B.r ≤ i ∨ W.r ≤ i ∨ B.c ≠ W.c ∨ B.c ≠ X.r then .error .indexError
  else
    match e with
    | none => .error .attributeError
    | some f => weightedAle (maskRows X (trueIdx B i)) feature (L.predict f)
        (some ((trueIdx B i).map (W.get i))) false 5

/-- `local_ALE` (`weight_model.py:687-698`): `TypeError` if the attributes are `None`. A row of a
CSR matrix is no mask: `IndexError` for the first location. -/
def localAle (L : Learner K F) (st : WMState K F C) (feature : Nat) :
    Except Err (List (List K × List K)) :=
  match st.estimators, st.X, st.weightMatrix, st.neighbourMatrix with
  | some es, some X, some (.dense W), some (.dense B) =>
    mapE (fun i => localAleOne L X W B feature i (es.getD i none)) (List.range es.length)
  | some es, some _, some (.sparse _), some (.sparse _) =>
    if es = [] then .ok [] else .error .indexError
  | _, _, _, _ => .error .typeError

/-- The predictions of `global_ALE` at the lower and upper grid values
(`weight_model.py:715-726`): estimator `i` predicts for observation `i`. -/
def globalPair (L : Learner K F) (X : Mat K) (feature : Nat) (lows highs : List K) (i : Nat)
    (e : Option F) : Except Err (K × K) :=
  if X.r ≤ i then .error .indexError
  else
    match e with
    | none => .error .attributeError
    | some f => .ok (L.predict f (withFeature X feature lows i),
        L.predict f (withFeature X feature highs i))

/-- `df.groupby(1).apply(lambda x: np.average(x[0])).values` (`weight_model.py:736`). -/
def groupMeans (idx : List Nat) (delta : Nat → K) : List K :=
  (uniqueL idx).map fun k => meanL ((members idx k).map delta)

/-- The averaging part of `global_ALE` (`weight_model.py:728-755`): `ValueError` from
`np.column_stack` if the number of estimators differs from the number of observations. -/
def globalFinish (q : List K) (idx : List Nat) (ps : List (K × K)) :
    Except Err (List K × List K) :=
  if ps.length ≠ idx.length then .error .valueError
  else (centre (accumulate (groupMeans idx fun i => (ps.getD i (0, 0)).2 - (ps.getD i (0, 0)).1))
    (bincount idx)).map fun a => (q, a)

/-- `global_ALE` (`weight_model.py:701-755`): `TypeError` if data or estimators are not cached. -/
def globalAle (L : Learner K F) (st : WMState K F C) (feature : Nat) :
    Except Err (List K × List K) :=
  match st.X, st.estimators with
  | some X, some es =>
    if X.c ≤ feature then .error .indexError
    else
      match adaptiveGrid (X.col feature) 1 with
      | .error e => .error e
      | .ok (q, _) =>
        match mapE (fun i => pyGet q (i - 1)) (aleIdx q (X.col feature)) with
        | .error e => .error e
        | .ok lows =>
          match mapE (fun i => pyGet q i) (aleIdx q (X.col feature)) with
          | .error e => .error e
          | .ok highs =>
            match mapE (fun i => globalPair L X feature lows highs i (es.getD i none))
                (List.range es.length) with
            | .error e => .error e
            | .ok ps => globalFinish q (aleIdx q (X.col feature)) ps
  | _, _ => .error .typeError

end Geo
