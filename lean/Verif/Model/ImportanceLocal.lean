import Verif.Model.Importance
import Verif.Model.Ale
/-
Model of `WeightModel.importance_score_local` (`georegression/weight_model.py:224-236`, `469-500`)
with scikit-learn 1.2's `permutation_importance` as far as it is used there.

Each location is one joblib job. scikit-learn draws one seed per call and starts every feature with
a new generator of that seed; the seed of location `i` is arbitrary (`seeds i`), because the jobs
run in other processes.
-/
set_option linter.unusedSectionVars false
namespace Geo
variable {K : Type} [Field K] [LinearOrder K] [IsStrictOrderedRing K] [FloorRing K]
variable {F C S : Type}

/-- scikit-learn's weighted `r2_score` for `RegressorMixin.score` and `StackingEstimator.score`
(`stacking_model.py:1137-1142`): NaN (`none`) for fewer than two samples, `ZeroDivisionError` from
`np.average` for weights that add up to zero. -/
def weightedR2 (ys ps ws : List K) : Except Err (Option K) :=
  if ys.length ≠ ps.length ∨ ws.length ≠ ps.length then .error .valueError
  else if ps.length < 2 then .ok none
  else if ws.sum = 0 then .error .zeroDivisionError
  else
    let num := ((ws.zip (ys.zip ps)).map fun e => e.1 * (e.2.1 - e.2.2) ^ 2).sum
    let mean := ((ws.zip ys).map fun e => e.1 * e.2).sum / ws.sum
    let den := ((ws.zip ys).map fun e => e.1 * (e.2 - mean) ^ 2).sum
    .ok (some (if den ≠ 0 then 1 - num / den else if num = 0 then 1 else 0))

/-- `estimator.score(X, y, sample_weight)` (`weight_model.py:228-236`). -/
def scoreRows (L : Learner K F) (f : F) (rows : List (List K)) (ys ws : List K) :
    Except Err (Option K) :=
  weightedR2 ys (rows.map (L.predict f)) ws

/-- `X_permuted[:, col] = X_permuted[idx, col]` (`weight_model.py:228-236`). -/
def takeColumn (rows : List (List K)) (col : Nat) (idx : List Nat) : List (List K) :=
  (List.range rows.length).map fun i =>
    (rows.getD i []).set col ((rows.getD (idx.getD i 0) []).getD col 0)

/-- scikit-learn's `_calculate_permutation_scores`: the index array is shuffled again and again,
and the column of the already permuted data is rearranged by it (`weight_model.py:228-236`). -/
def shuffleScores (L : Learner K F) (g : PRng S) (f : F) (ys ws : List K) (col : Nat) :
    Nat → S → List Nat → List (List K) → Except Err (List (Option K))
  | 0, _, _, _ => .ok []
  | r + 1, s, idx, rows =>
    match scoreRows L f (takeColumn rows col (shuffleList g s idx).1) ys ws with
    | .error e => .error e
    | .ok v =>
      (shuffleScores L g f ys ws col r (shuffleList g s idx).2 (shuffleList g s idx).1
        (takeColumn rows col (shuffleList g s idx).1)).map (v :: ·)

/-- `baseline - score`; NaN if one of them is (`weight_model.py:228-236`). -/
def optSub (a b : Option K) : Option K :=
  match a, b with
  | some a, some b => some (a - b)
  | _, _ => none

/-- `np.mean` of a row of importances: NaN without entries or with a NaN among them
(`weight_model.py:228-236`). -/
def optMean (l : List (Option K)) : Option K :=
  if l = [] ∨ none ∈ l then none else some (meanL (l.map fun v => v.getD 0))

/-- The mean importance of feature `col` (`weight_model.py:228-236`). -/
def featureImportance (L : Learner K F) (g : PRng S) (f : F) (rows : List (List K))
    (ys ws : List K) (R : Nat) (s : S) (base : Option K) (col : Nat) : Except Err (Option K) :=
  (shuffleScores L g f ys ws col R s (List.range rows.length) rows).map fun l =>
    optMean (l.map (optSub base))

/-- `local_importance` (`weight_model.py:224-236`): `check_array` refuses an empty sample. -/
def localImportance (L : Learner K F) (g : PRng S) (s : S) (f : F) (rows : List (List K))
    (ys ws : List K) (nf R : Nat) : Except Err (List (Option K)) :=
  if rows = [] then .error .valueError
  else
    match scoreRows L f rows ys ws with
    | .error e => .error e
    | .ok base => mapE (featureImportance L g f rows ys ws R s base) (List.range nf)

/-- The arguments of the job of location `i` (`weight_model.py:485-495`), for dense matrices:
`IndexError` for a missing estimator or row and for a mask of the wrong length. -/
def importanceJob (X : Mat K) (y : List K) (W : Mat K) (B : Mat Bool) (es : List (Option F))
    (i : Nat) : Except Err (Option F × List (List K) × List K × List K) :=
  if es.length ≤ i ∨ W.r ≤ i ∨ B.r ≤ i ∨ B.c ≠ X.r ∨ B.c ≠ y.length ∨ B.c ≠ W.c then
    .error .indexError
  else .ok (es.getD i none, (trueIdx B i).map X.row, (trueIdx B i).map fun k => y.getD k 0,
    (trueIdx B i).map (W.get i))

/-- Running a job: an estimator that was not kept has no method `fit` (`TypeError`); the sample is
checked before (`weight_model.py:491-497`). -/
def runImportanceJob (L : Learner K F) (g : PRng S) (s : S) (nf R : Nat)
    (job : Option F × List (List K) × List K × List K) : Except Err (List (Option K)) :=
  match job.1 with
  | none => if job.2.1 = [] then .error .valueError else .error .typeError
  | some f => localImportance L g s f job.2.1 job.2.2.1 job.2.2.2 nf R

/-- `importance_score_local` (`weight_model.py:469-500`). All jobs are built before the first one
runs. Missing attributes are `None` (`TypeError`). A row of a CSR matrix is no mask: `IndexError`
for the first location. The object is not changed. -/
def importanceLocal (L : Learner K F) (g : PRng S) (seeds : Nat → S) (p : WMParams K C)
    (st : WMState K F C) (R : Nat) : Except Err (List (List (Option K))) :=
  if !p.cacheData || !p.cacheEstimator then .error .exception
  else
    match st.N, st.estimators, st.X, st.y, st.weightMatrix, st.neighbourMatrix with
    | some N, some es, some X, some y, some (.dense W), some (.dense B) =>
      match mapE (importanceJob X y W B es) (List.range N) with
      | .error e => .error e
      | .ok jobs => mapE (fun ij => runImportanceJob L g (seeds ij.1) X.c R ij.2)
          ((List.range N).zip jobs)
    | some N, some _, some _, some _, some (.sparse _), some (.sparse _) =>
      if N = 0 then .ok [] else .error .indexError
    | _, _, _, _, _, _ => .error .typeError

end Geo
