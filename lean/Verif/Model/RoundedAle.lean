import Verif.Model.RoundedGrid
import Verif.Model.Rounded
/-
Model of `weighted_ale` in floating point: the grid of `Verif.Model.RoundedGrid`, then differences, weighted
averages, running sums and centring with every operation rounded. The order of the sums is a parameter. The
predictor is a function from rows to finite numbers; what it rounds itself is part of that function.
-/
namespace Geo
variable {K : Type} [Field K] [LinearOrder K]

/-- A rounded sum; the empty sum is zero (`local_ale.py:31`, `38`, `53`). -/
def sumR (a : Arith K) (shape : List (Num K) → SumTree K) (ws : List (Num K)) : Num K :=
  if ws = [] then .fin 0 else (shape ws).value a

/-- `np.average(xs, weights=ws)` (`local_ale.py:31`, `38`): `ZeroDivisionError` if the rounded sum of the weights is
zero. -/
def npAverageR (a : Arith K) (shape : List (Num K) → SumTree K) (xs ws : List (Num K)) : Except Err (Num K) :=
  if sumR a shape ws = .fin 0 then .error .zeroDivisionError
  else .ok (Num.rnd a.op (.div (sumR a shape (List.zipWith (fun x w => Num.rnd a.op (.mul x w)) xs ws))
    (sumR a shape ws)))

/-- `np.cumsum` after a first value (`local_ale.py:41`): one addition after the other. -/
def cumsumFromR (a : Arith K) (s : Num K) : List (Num K) → List (Num K)
  | [] => []
  | x :: l => Num.rnd a.op (.add s x) :: cumsumFromR a (Num.rnd a.op (.add s x)) l

/-- `np.cumsum` with a zero put in front (`local_ale.py:41-45`). -/
def accumulateR (a : Arith K) : List (Num K) → List (Num K)
  | [] => [.fin 0]
  | x :: l => .fin 0 :: x :: cumsumFromR a x l

/-- `ale0` (`local_ale.py:48-54`). -/
def meanEffectR (a : Arith K) (shape : List (Num K) → SumTree K) (accum : List (Num K)) (counts : List Nat) :
    Num K :=
  Num.rnd a.op (.div
    (sumR a shape (List.zipWith (fun s (c : Nat) => Num.rnd a.op (.mul s (.fin (c : K))))
      (List.zipWith (fun x y => Num.rnd a.op (.mul (.fin (1 / 2)) (Num.rnd a.op (.add x y))))
        accum.dropLast (accum.drop 1))
      (counts.drop 1)))
    (.fin ((counts.sum : Nat) : K)))

/-- The last part of `weighted_ale` (`local_ale.py:47-60`). Different lengths are a `ValueError`, as in `centre`. -/
def aleFinishR (a : Arith K) (shape : List (Num K) → SumTree K) (normalize : Bool) (base : Num K)
    (counts : List Nat) (accum : List (Num K)) : Except Err (List (Num K)) :=
  if normalize then
    if accum.length - 1 ≠ counts.length - 1 then .error .valueError
    else .ok (accum.map fun x => Num.rnd a.op (.sub x (meanEffectR a shape accum counts)))
  else .ok (accum.map fun x => Num.rnd a.op (.add x base))

/-- The part of `weighted_ale` that needs the weights (`local_ale.py:25-60`). -/
def aleWeightedR (a : Arith K) (shape : List (Num K) → SumTree K) (idx : List Nat) (low high : Nat → K)
    (weights : Option (List K)) (normalize : Bool) : Except Err (List (Num K)) :=
  match weights with
  | none => .error .typeError
  | some w =>
    if w.length ≠ idx.length then .error .indexError
    else
      match npAverageR a shape ((members idx 1).map fun i => .fin (low i))
        ((members idx 1).map fun i => .fin (w.getD i 0)) with
      | .error e => .error e
      | .ok base =>
        match mapE (fun k => npAverageR a shape
            ((members idx k).map fun i => Num.rnd a.op (.sub (.fin (high i)) (.fin (low i))))
            ((members idx k).map fun i => .fin (w.getD i 0))) (uniqueL idx) with
        | .error e => .error e
        | .ok avg => aleFinishR a shape normalize base (bincount idx) (accumulateR a avg)

/-- `weighted_ale` (`local_ale.py:11-60`) with features, weights and arithmetic of the format `F`. -/
def weightedAleR [IsStrictOrderedRing K] [FloorRing K] (F : Fmt) (shape : List (Num K) → SumTree K) (X : Mat K)
    (feature : Nat) (pred : List K → K) (weights : Option (List K)) (normalize : Bool) (m : ℤ) :
    Except Err (List K × List (Num K)) :=
  if X.c ≤ feature then .error .indexError
  else
    match adaptiveGridR F (X.col feature) m with
    | .error e => .error e
    | .ok (q, _) =>
      match mapE (fun i => pyGet q (i - 1)) (aleIdx q (X.col feature)) with
      | .error e => .error e
      | .ok lows =>
        match mapE (fun i => pyGet q i) (aleIdx q (X.col feature)) with
        | .error e => .error e
        | .ok highs =>
          (aleWeightedR F.arith shape (aleIdx q (X.col feature))
            (fun i => pred (withFeature X feature lows i))
            (fun i => pred (withFeature X feature highs i)) weights normalize).map fun ale => (q, ale)

end Geo
