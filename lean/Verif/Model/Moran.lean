import Verif.Basic.Num
import Verif.Basic.Mat
import Verif.Basic.Err
/-
Model of `georegression/spatial_temporal_moran.py`. Data and weights are finite; a division by
zero gives the IEEE special values, as in numpy. `plot_moran_diagram` is in
`Model/MoranDiagram`.
-/
set_option linter.unusedSectionVars false
namespace Geo
variable {K : Type} [Field K] [LinearOrder K] [IsStrictOrderedRing K]
open Num

/-- `np.sqrt` on finite non-negative numbers and `scipy.stats.norm.cdf`
(`spatial_temporal_moran.py:26`, `62`). -/
structure StatEnv (K : Type) where
  sqrt : K → K
  cdf : Num K → Num K

/-- `np.sqrt`: NaN for negative numbers (`spatial_temporal_moran.py:26`, `62`). -/
def StatEnv.sqrtN (env : StatEnv K) : Num K → Num K
  | fin x => if x < 0 then nan else fin (env.sqrt x)
  | pinf => pinf
  | ninf => nan
  | nan => nan

/-- `np.sum` of `f 0, .., f (n-1)` (`spatial_temporal_moran.py:27-32`). -/
def sumTo (n : Nat) (f : Nat → Num K) : Num K := Num.sum ((List.range n).map f)

/-- `w / np.sum(w, axis=1)` (`spatial_temporal_moran.py:22`, `45`, `67`): numpy divides along the
last axis, so the entry in column `j` is divided by the sum of *row* `j`. -/
def stdWeights (W : Mat K) (i j : Nat) : Num K := Num.div (fin (W.get i j)) (fin (W.row j).sum)

/-- `y - np.mean(y)` (`spatial_temporal_moran.py:26`, `48-50`). -/
def deviation (y : List K) (i : Nat) : K := y.getD i 0 - y.sum / (y.length : K)

/-- The sum of the squared deviations (`spatial_temporal_moran.py:26`, `53`). -/
def devSq (y : List K) : K := ((List.range y.length).map fun i => deviation y i ^ 2).sum

/-- The sum of the fourth powers of the deviations (`spatial_temporal_moran.py:32`, `58`). -/
def devFourth (y : List K) : K := ((List.range y.length).map fun i => deviation y i ^ 4).sum

/-- `z` (`spatial_temporal_moran.py:26`): deviations divided by `np.std(y)`. -/
def zScore (env : StatEnv K) (y : List K) (i : Nat) : Num K :=
  Num.div (fin (deviation y i)) (fin (env.sqrt (devSq y / (y.length : K))))

/-- `np.sum(w)` (`spatial_temporal_moran.py:27`, `52`). -/
def wS0 (n : Nat) (w : Nat → Nat → Num K) : Num K := sumTo n fun i => sumTo n fun j => w i j

/-- `(1 / 2) * np.sum((w + w.T) ** 2)` (`spatial_temporal_moran.py:30`, `56`). -/
def wS1 (n : Nat) (w : Nat → Nat → Num K) : Num K :=
  Num.mul (fin (1 / 2)) (sumTo n fun i => sumTo n fun j => sq (Num.add (w i j) (w j i)))

/-- `np.sum(np.sum(w + w.T, axis=1) ** 2)` (`spatial_temporal_moran.py:31`, `57`). -/
def wS2 (n : Nat) (w : Nat → Nat → Num K) : Num K :=
  sumTo n fun i => sq (sumTo n fun j => Num.add (w i j) (w j i))

/-- `(n ** 2 - 3 * n + 3) * S1 - n * S2 + 3 * S0 ** 2` (`spatial_temporal_moran.py:33`, `59`). -/
def partA (n : K) (s0 s1 s2 : Num K) : Num K :=
  Num.add (Num.sub (Num.mul (fin (n ^ 2 - 3 * n + 3)) s1) (Num.mul (fin n) s2))
    (Num.mul (fin 3) (sq s0))

/-- `(n ** 2 - n) * S1 - 2 * n * S2 + 6 * S0 ** 2` (`spatial_temporal_moran.py:34`, `60`). -/
def partB (n : K) (s0 s1 s2 : Num K) : Num K :=
  Num.add (Num.sub (Num.mul (fin (n ^ 2 - n)) s1) (Num.mul (fin (2 * n)) s2))
    (Num.mul (fin 6) (sq s0))

/-- `(n - 1) * (n - 2) * (n - 3) * S0 ** 2` (`spatial_temporal_moran.py:35`, `61`). -/
def partC (n : K) (s0 : Num K) : Num K :=
  Num.mul (fin ((n - 1) * (n - 2) * (n - 3))) (sq s0)

/-- `-1 / (n - 1)` (`spatial_temporal_moran.py:37`, `55`). -/
def moranEI (n : Nat) : K := -1 / ((n : K) - 1)

/-- The variance: `(n * A - b * B) / C - EI ** 2`. The two functions use it with different `b`
(`spatial_temporal_moran.py:33-39`, `59-61`). -/
def moranVar (n : Nat) (s0 s1 s2 b : Num K) : Num K :=
  Num.sub (Num.div (Num.sub (Num.mul (fin (n : K)) (partA n s0 s1 s2))
      (Num.mul b (partB n s0 s1 s2))) (partC (n : K) s0))
    (sq (fin (moranEI n)))

/-- The returned tuple; `p` only in `STMI` (`spatial_temporal_moran.py:41`, `63`). -/
structure MoranOut (K : Type) where
  I : Num K
  EI : Num K
  VI : Num K
  deriving DecidableEq

/-- `np.matmul(np.matmul(w, z), z)` (`spatial_temporal_moran.py:28`, `51`). -/
def quadForm (n : Nat) (w : Nat → Nat → Num K) (z : Nat → Num K) : Num K :=
  sumTo n fun i => Num.mul (sumTo n fun j => Num.mul (w i j) (z j)) (z i)

/-- The body of `spatiotemporal_MI` for given weights (`spatial_temporal_moran.py:24-41`). -/
def miOut (env : StatEnv K) (y : List K) (w : Nat → Nat → Num K) : MoranOut K :=
  let n := y.length
  let z := zScore env y
  let zz := sumTo n fun i => sq (z i)
  ⟨Num.div (Num.mul (Num.div (fin (n : K)) (wS0 n w)) (quadForm n w z)) zz,
   fin (moranEI n),
   moranVar n (wS0 n w) (wS1 n w) (wS2 n w)
    (Num.div (sumTo n fun i => sq (sq (z i))) (sq zz))⟩

/-- The shapes that fit together. A matrix that is not square fails in the broadcast or in
`np.matmul` (`spatiotemporal_LMI` accepts a matrix with one row, which is not modelled)
(`spatial_temporal_moran.py:22-28`, `45-51`, `67-73`). -/
def moranShape (y : List K) (W : Mat K) : Bool := W.r == y.length && W.c == y.length

/-- `spatiotemporal_MI` (`spatial_temporal_moran.py:10-41`): for one observation `-1 / (n - 1)`
raises `ZeroDivisionError`. -/
def moranMI (env : StatEnv K) (y : List K) (W : Mat K) : Except Err (MoranOut K) :=
  if !moranShape y W then .error .valueError
  else if y.length = 1 then .error .zeroDivisionError
  else .ok (miOut env y (stdWeights W))

/-- `I` of `STMI` (`spatial_temporal_moran.py:50-54`). -/
def stI (y : List K) (w : Nat → Nat → Num K) : Num K :=
  let n := y.length
  Num.div (Num.mul (fin (n : K)) (sumTo n fun i => Num.mul (fin (deviation y i))
      (sumTo n fun j => Num.mul (w i j) (fin (deviation y j)))))
    (Num.mul (wS0 n w) (fin (devSq y)))

/-- The body of `STMI` (`spatial_temporal_moran.py:47-61`). -/
def stOut (y : List K) (w : Nat → Nat → Num K) : MoranOut K :=
  let n := y.length
  ⟨stI y w, fin (moranEI n),
   moranVar n (wS0 n w) (wS1 n w) (wS2 n w)
    (Num.div (fin ((n : K)⁻¹ * devFourth y)) (sq (fin ((n : K)⁻¹ * devSq y))))⟩

/-- `STMI` (`spatial_temporal_moran.py:44-63`) and its fourth result `p`. Without observations
`N ** (-1)` raises, with one observation `-1 / (N - 1)` does. -/
def moranST (env : StatEnv K) (y : List K) (W : Mat K) : Except Err (MoranOut K × Num K) :=
  if !moranShape y W then .error .valueError
  else if y.length ≤ 1 then .error .zeroDivisionError
  else
    let o := stOut y (stdWeights W)
    .ok (o, env.cdf (Num.div (Num.sub o.I o.EI) (env.sqrtN o.VI)))

/-- The body of `spatiotemporal_LMI` (`spatial_temporal_moran.py:69-73`). -/
def lmiOut (y : List K) (w : Nat → Nat → Num K) : List (Num K) :=
  (List.range y.length).map fun i =>
    Num.mul (Num.div (fin (deviation y i)) (fin (devSq y / (y.length : K))))
      (sumTo y.length fun j => Num.mul (w i j) (fin (deviation y j)))

/-- `spatiotemporal_LMI` (`spatial_temporal_moran.py:66-73`). -/
def moranLMI (y : List K) (W : Mat K) : Except Err (List (Num K)) :=
  if !moranShape y W then .error .valueError else .ok (lmiOut y (stdWeights W))

end Geo
