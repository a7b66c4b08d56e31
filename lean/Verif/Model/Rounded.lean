import Verif.Model.Kernel
import Verif.Basic.MapE
/-
Model of `georegression/kernel.py`, of the product and normalisation steps of
`georegression/weight_matrix.py` and of `predict_by_weight` in rounded arithmetic: every arithmetic operation is followed
by a rounding of its exact result. The roundings are parameters, so theorems about this model
hold for every float format and rounding mode that has the stated laws.
-/
namespace Geo
variable {K : Type} [Field K] [LinearOrder K]

/-- The roundings of a float arithmetic: `op` rounds the exact result of `+`, `-`, `*`, `/` and
`np.square`; `pow` that of `np.power` (`x ** 3`). A result may be an infinity (overflow)
(`kernel.py:42-76`). -/
structure Arith (K : Type) where
  op : K → Num K
  pow : K → Num K

/-- An operation of the special values is not rounded (`kernel.py:42-76`). -/
def Num.rnd (r : K → Num K) : Num K → Num K
  | .fin x => r x
  | z => z

/-- `distance / bandwidth` then `nan_to_num(nan=0.0, posinf=inf)` (`kernel.py:42-48`), one entry,
in rounded arithmetic. -/
def normalizeDistanceR (env : Env K) (a : Arith K) (d b : K) : Num K :=
  match Num.rnd a.op (Num.div (.fin d) (.fin b)) with
  | .nan => .fin 0
  | .ninf => .fin (-env.fmax)
  | x => x

/-- `kernel_function` (`kernel.py:50-84`) in rounded arithmetic, entrywise. `env.exp` is the
float exponential itself. `x ** 2` is numpy's `square`, one rounded multiplication; `x ** 3` is
`np.power`, one rounded operation. -/
def kernelElemR (env : Env K) (a : Arith K) (lazy : Bool) (name : String) :
    Except Err (K → K → Num K) :=
  if name = "uniform" then .ok fun _ _ => .fin 1
  else if name = "gaussian" then
    .ok fun d b => Num.exp env.exp (Num.rnd a.op (.mul (.fin (-(1 / 2)))
      (Num.rnd a.op (.sq (normalizeDistanceR env a d b)))))
  else if name = "exponential" then
    .ok fun d b => Num.exp env.exp (Num.rnd a.op (.mul (.fin (-(1 / 2)))
      (.abs (normalizeDistanceR env a d b))))
  else if name = "linear" then
    .ok fun d b => cutSupport d b (Num.rnd a.op (.sub (.fin 1) (normalizeDistanceR env a d b)))
  else if name = "boxcar" then
    .ok fun d b => cutSupport d b (.fin 1)
  else if name = "bisquare" then
    if lazy then
      .ok fun d b =>
        let x := normalizeDistanceR env a d b
        let x := if Num.lt (.fin 1) x then .fin 1 else x
        Num.rnd a.op (.sq (Num.rnd a.op (.sub (.fin 1) (Num.rnd a.op (.sq x)))))
    else
      .ok fun d b => cutSupport d b (Num.rnd a.op (.sq (Num.rnd a.op (.sub (.fin 1)
        (Num.rnd a.op (.sq (normalizeDistanceR env a d b)))))))
  else if name = "tricube" then
    .ok fun d b => cutSupport d b (Num.rnd a.pow (.cube (Num.rnd a.op (.sub (.fin 1)
      (Num.rnd a.pow (.cube (.abs (normalizeDistanceR env a d b))))))))
  else .error .exception

/-- `kernel_function` at one distance (`kernel.py:20-84`), in rounded arithmetic. -/
def kernelWeightR (env : Env K) (a : Arith K) (lazy : Bool) (name : String) (d b : K) :
    Except Err (Num K) :=
  match kernelElemR env a lazy name with
  | .error e => .error e
  | .ok w => .ok (w d b)

/-- An order in which a sum of floats is evaluated. `np.sum` adds pairwise in blocks, dask adds
the sums of the chunks; every such order is a binary tree over the summands
(`weight_matrix.py:196`). -/
inductive SumTree (K : Type)
  | leaf (x : Num K)
  | node (l r : SumTree K)

namespace SumTree

/-- The summands, from left to right (`weight_matrix.py:196`). -/
def leaves : SumTree K → List (Num K)
  | leaf x => [x]
  | node l r => l.leaves ++ r.leaves

/-- The largest number of additions a summand goes through (`weight_matrix.py:196`). -/
def depth : SumTree K → Nat
  | leaf _ => 0
  | node l r => max l.depth r.depth + 1

/-- The rounded sum (`np.sum(weight_matrix, axis=1)`, `weight_matrix.py:196`), one row. -/
def value (a : Arith K) : SumTree K → Num K
  | leaf x => x
  | node l r => Num.rnd a.op (.add (l.value a) (r.value a))

end SumTree

/-- One dimension of a row of the weight matrix: the kernel, the distances of the row, and the
bandwidth of the row (`weight_matrix.py:172-185`). -/
structure RowDim (K : Type) where
  kernel : String
  dist : Nat → K
  bw : K

/-- `np.prod(weights, axis=0)` (`weight_matrix.py:190`) at one entry: the kernel weights of the
dimensions (`weight_matrix.py:172-187`) multiplied from left to right. -/
def rawWeightR (env : Env K) (a : Arith K) (lazy : Bool) (dims : List (RowDim K)) (j : Nat) :
    Except Err (Num K) :=
  match mapE (fun t => kernelWeightR env a lazy t.kernel (t.dist j) t.bw) dims with
  | .error e => .error e
  | .ok ws => .ok (ws.foldl (fun x y => Num.rnd a.op (.mul x y)) (.fin 1))

/-- `row_sum[row_sum == 0] = 1` and the division (`weight_matrix.py:196-200`), one entry. -/
def normalizeEntryR (a : Arith K) (s w : Num K) : Num K :=
  Num.rnd a.op (.div w (if s = .fin 0 then .fin 1 else s))

/-- One row of `weight_matrix_from_distance` (`weight_matrix.py:172-200`) in rounded arithmetic,
for given bandwidths; `shape` is the order of summation numpy or dask chooses for the row.
Simplification: no merging of distances, one row at a time. -/
def weightRowR (env : Env K) (a : Arith K) (lazy : Bool) (dims : List (RowDim K)) (n : Nat)
    (shape : List (Num K) → SumTree K) : Except Err (List (Num K)) :=
  match mapE (rawWeightR env a lazy dims) (List.range n) with
  | .error e => .error e
  | .ok ws => .ok (ws.map (normalizeEntryR a ((shape ws).value a)))

/-- `np.sum(weight_matrix * local_predict.T, axis=1)` (`weight_model.py:425`), one location, in
rounded arithmetic: the products are rounded and added in the order of summation `shape`. -/
def predictEntryR (a : Arith K) (shape : List (Num K) → SumTree K) (ws ps : List (Num K)) : Num K :=
  (shape (List.zipWith (fun w p => Num.rnd a.op (.mul w p)) ws ps)).value a

end Geo
