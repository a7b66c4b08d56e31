import Verif.Model.RoundedScore
import Verif.Model.RoundedAle
import Verif.Model.ImportanceLocal
/-
Model of `importance_score_global` and `importance_score_local` in rounded arithmetic. What is drawn and which rows
are predicted is as in `Verif.Model.Importance` and `Verif.Model.ImportanceLocal`; scores, differences and averages are
rounded. The predictions are finite numbers.
-/
namespace Geo
variable {K F S : Type} [Field K] [LinearOrder K]

/-- `np.average` or `np.mean` of a row of score decreases (`weight_model.py:236`, `558`). -/
def meanNumR (a : Arith K) (shape : List (Num K) → SumTree K) (l : List (Num K)) : Num K :=
  Num.rnd a.op (.div (sumR a shape l) (.fin (l.length : K)))

/-- `score_decrease[f, r]` (`weight_model.py:544-548`), refused as in `skR2`. -/
def permDecreaseR (a : Arith K) (shape : List (Num K) → SumTree K) (y : List K) (score : Num K) (R : Nat)
    (table : List (List K)) (f r : Nat) : Except Err (Num K) :=
  if table.length = 1 then .error .typeError
  else if y.length ≠ table.length ∨ table.length = 0 then .error .valueError
  else .ok (Num.rnd a.op (.sub score (skR2R a shape y (table.map fun row => row.getD (f * R + r) 0))))

/-- All score decreases of a call (`weight_model.py:527-548`). -/
def permDecreasesR [FloorRing K] (a : Arith K) (shape : List (Num K) → SumTree K) (L : Learner K F) (d : FittedParts K F)
    (score : Num K) (perms : List (List Nat)) (R : Nat) : Except Err (List (List (Num K))) :=
  match mapE (permPredict L d perms R) (List.range d.X.r) with
  | .error e => .error e
  | .ok table => mapE (fun f => mapE (permDecreaseR a shape d.y score R table f) (List.range R)) (List.range d.X.c)

/-- `importance_score_global` on a fitted object (`weight_model.py:519-559`): the stored `llocv_score_` is the float
`score` (`d.score` is not used), `old` are the decreases of earlier calls. Returns the scores and the decreases kept. -/
def importanceGlobalR [FloorRing K] (a : Arith K) (shape : List (Num K) → SumTree K) (L : Learner K F) (g : PRng S)
    (d : FittedParts K F) (score : Num K) (old : Option (List (List (Num K)))) (s : S) (R : Nat) :
    Except Err (List (Num K) × List (List (Num K))) :=
  if R = 0 then .error .valueError
  else
    match permDecreasesR a shape L d score (drawPerms g d.X.r (d.X.c * R) s).1 R with
    | .error e => .error e
    | .ok dec =>
      match old with
      | none => .ok (dec.map (meanNumR a shape), dec)
      | some old =>
        if old.length = dec.length then
          .ok ((List.zipWith (· ++ ·) old dec).map (meanNumR a shape), List.zipWith (· ++ ·) old dec)
        else .error .valueError

/-- scikit-learn's weighted `r2_score` (`weight_model.py:228-236`, `stacking_model.py:1137-1142`): the sums of
`weight * (y - ...) ** 2`, with the weighted mean from `np.average`; NaN for fewer than two samples. -/
def weightedR2R (a : Arith K) (shape : List (Num K) → SumTree K) (ys ps ws : List K) : Except Err (Num K) :=
  if ys.length ≠ ps.length ∨ ws.length ≠ ps.length then .error .valueError
  else if ps.length < 2 then .ok .nan
  else
    match npAverageR a shape (ys.map .fin) (ws.map .fin) with
    | .error e => .error e
    | .ok mean =>
      let num := sumR a shape (List.zipWith (fun w z => Num.rnd a.op (.mul (.fin w) z)) ws
        (List.zipWith (fun y p => sqDiffR a (.fin y) (.fin p)) ys ps))
      let den := sumR a shape (List.zipWith (fun w z => Num.rnd a.op (.mul (.fin w) z)) ws
        (ys.map fun y => sqDiffR a (.fin y) mean))
      .ok (if num = .fin 0 then .fin 1 else if den = .fin 0 then .fin 0
        else Num.rnd a.op (.sub (.fin 1) (Num.rnd a.op (.div num den))))

/-- `_calculate_permutation_scores` (`weight_model.py:228-236`), as in `shuffleScores`. -/
def shuffleScoresR [IsStrictOrderedRing K] [FloorRing K] (a : Arith K) (shape : List (Num K) → SumTree K) (L : Learner K F) (g : PRng S) (f : F)
    (ys ws : List K) (col : Nat) : Nat → S → List Nat → List (List K) → Except Err (List (Num K))
  | 0, _, _, _ => .ok []
  | r + 1, s, idx, rows =>
    match weightedR2R a shape ys ((takeColumn rows col (shuffleList g s idx).1).map (L.predict f)) ws with
    | .error e => .error e
    | .ok v =>
      (shuffleScoresR a shape L g f ys ws col r (shuffleList g s idx).2 (shuffleList g s idx).1
        (takeColumn rows col (shuffleList g s idx).1)).map (v :: ·)

/-- The mean importance of feature `col` (`weight_model.py:228-236`): `baseline - scores`, averaged; NaN without
repetitions. -/
def featureImportanceR [IsStrictOrderedRing K] [FloorRing K] (a : Arith K) (shape : List (Num K) → SumTree K) (L : Learner K F) (g : PRng S)
    (f : F) (rows : List (List K)) (ys ws : List K) (R : Nat) (s : S) (base : Num K) (col : Nat) :
    Except Err (Num K) :=
  (shuffleScoresR a shape L g f ys ws col R s (List.range rows.length) rows).map fun l =>
    if l = [] then .nan else meanNumR a shape (l.map fun v => Num.rnd a.op (.sub base v))

/-- `local_importance` (`weight_model.py:224-236`) with the rows, targets and weights of the neighbours of one
location, `nf` features and `R` repetitions. -/
def localImportanceR [IsStrictOrderedRing K] [FloorRing K] (a : Arith K) (shape : List (Num K) → SumTree K) (L : Learner K F) (g : PRng S)
    (s : S) (f : F) (rows : List (List K)) (ys ws : List K) (nf R : Nat) : Except Err (List (Num K)) :=
  if rows = [] then .error .valueError
  else
    match weightedR2R a shape ys (rows.map (L.predict f)) ws with
    | .error e => .error e
    | .ok base => mapE (featureImportanceR a shape L g f rows ys ws R s base) (List.range nf)

end Geo
