import Verif.Model.RoundedScore
import Verif.Basic.Mat
/-
Model of `spatiotemporal_MI`, `STMI` and `spatiotemporal_LMI` of `georegression/spatial_temporal_moran.py` in rounded arithmetic. As
in `Verif.Model.Rounded` the roundings and the order of summation are parameters. Simplification: products in
`np.matmul` are rounded before they are added (no fused multiply-add), and all sums use the same rule for
their brackets.
-/
namespace Geo
variable {K : Type} [Field K] [LinearOrder K]

/-- `w / np.sum(w, axis=1)` (`spatial_temporal_moran.py:22`, `45`, `67`), one entry: the weight in column `j` divided by
the rounded sum of row `j`. -/
def stdWeightsR (a : Arith K) (shape : List (Num K) → SumTree K) (W : Mat K) (i j : Nat) : Num K :=
  Num.rnd a.op (.div (.fin (W.get i j)) ((shape ((W.row j).map .fin)).value a))

/-- `y - np.mean(y)` (`spatial_temporal_moran.py:26`, `48-50`, `70-71`). -/
def devR (a : Arith K) (shape : List (Num K) → SumTree K) (ys : List K) (i : Nat) : Num K :=
  Num.rnd a.op (.sub (.fin (ys.getD i 0)) (meanR a shape ys))

/-- A rounded sum of `f 0, .., f (n-1)` (`spatial_temporal_moran.py:27-28`, `51-53`, `72-73`). -/
def sumToR (a : Arith K) (shape : List (Num K) → SumTree K) (n : Nat) (f : Nat → Num K) : Num K :=
  (shape ((List.range n).map f)).value a

/-- `np.matmul(w, u)` (`spatial_temporal_moran.py:51`, `73`), one entry. -/
def lagR (a : Arith K) (shape : List (Num K) → SumTree K) (ys : List K) (W : Mat K) (i : Nat) : Num K :=
  sumToR a shape ys.length fun j => Num.rnd a.op (.mul (stdWeightsR a shape W i j) (devR a shape ys j))

/-- `np.sum(u ** 2)` (`spatial_temporal_moran.py:53`, `72`). -/
def devSqR (a : Arith K) (shape : List (Num K) → SumTree K) (ys : List K) : Num K :=
  sumToR a shape ys.length fun i => Num.rnd a.op (.sq (devR a shape ys i))

/-- `I` of `STMI` (`spatial_temporal_moran.py:47-54`). `np.sum(w)` adds the rows first. -/
def stIR (a : Arith K) (shape : List (Num K) → SumTree K) (ys : List K) (W : Mat K) : Num K :=
  Num.rnd a.op (.div
    (Num.rnd a.op (.mul (.fin (ys.length : K)) (sumToR a shape ys.length fun i =>
      Num.rnd a.op (.mul (devR a shape ys i) (lagR a shape ys W i)))))
    (Num.rnd a.op (.mul (sumToR a shape ys.length fun i => sumToR a shape ys.length fun j => stdWeightsR a shape W i j)
      (devSqR a shape ys))))

/-- `spatiotemporal_LMI` (`spatial_temporal_moran.py:66-73`), one entry. -/
def lmiR (a : Arith K) (shape : List (Num K) → SumTree K) (ys : List K) (W : Mat K) (i : Nat) : Num K :=
  Num.rnd a.op (.mul
    (Num.rnd a.op (.div (devR a shape ys i) (Num.rnd a.op (.div (devSqR a shape ys) (.fin (ys.length : K))))))
    (lagR a shape ys W i))

/-- `np.sqrt` of a float, with `sqrt` the exact root (`spatial_temporal_moran.py:26`): NaN below zero. -/
def sqrtR (a : Arith K) (sqrt : K → K) : Num K → Num K
  | .fin x => if x < 0 then .nan else a.op (sqrt x)
  | .pinf => .pinf
  | _ => .nan

/-- `z` (`spatial_temporal_moran.py:26`): the deviations divided by `np.std(y)`, which numpy computes from the same
deviations. -/
def zScoreR (a : Arith K) (sqrt : K → K) (shape : List (Num K) → SumTree K) (ys : List K) (i : Nat) : Num K :=
  Num.rnd a.op (.div (devR a shape ys i)
    (sqrtR a sqrt (Num.rnd a.op (.div (devSqR a shape ys) (.fin (ys.length : K))))))

/-- `I` of `spatiotemporal_MI` (`spatial_temporal_moran.py:22-28`). -/
def miIR (a : Arith K) (sqrt : K → K) (shape : List (Num K) → SumTree K) (ys : List K) (W : Mat K) : Num K :=
  Num.rnd a.op (.div
    (Num.rnd a.op (.mul
      (Num.rnd a.op (.div (.fin (ys.length : K))
        (sumToR a shape ys.length fun i => sumToR a shape ys.length fun j => stdWeightsR a shape W i j)))
      (sumToR a shape ys.length fun i => Num.rnd a.op (.mul
        (sumToR a shape ys.length fun j =>
          Num.rnd a.op (.mul (stdWeightsR a shape W i j) (zScoreR a sqrt shape ys j)))
        (zScoreR a sqrt shape ys i)))))
    (sumToR a shape ys.length fun i => Num.rnd a.op (.sq (zScoreR a sqrt shape ys i))))

end Geo
