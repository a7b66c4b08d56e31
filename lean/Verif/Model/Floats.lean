import Verif.Model.Distance
import Verif.Model.Rounded
import Mathlib.Data.Int.Log
import Mathlib.Algebra.Order.Floor.Ring
/-
IEEE-754 binary formats, and `_distance_matrix` with the casts to `np.float32` of its eager branch
(`distance_utils.py:99-115`), which `Verif.Model.Distance` leaves out.
-/
namespace Geo
variable {K : Type} [Field K] [LinearOrder K] [IsStrictOrderedRing K] [FloorRing K]

/-- A binary floating-point format: number of fraction bits, smallest and largest exponent of a
normal number (the dtypes in `distance_utils.py:105`, `108`, `111-115`). -/
structure Fmt where
  frac : Nat
  emin : ℤ
  emax : ℤ

/-- `np.float32` (`distance_utils.py:105`, `108`, `111-115`). -/
def single : Fmt := ⟨23, -126, 127⟩

/-- `np.float64`, the dtype of all other computations (`kernel.py:42-76`, `weight_matrix.py:172-200`). -/
def double : Fmt := ⟨52, -1022, 1023⟩

/-- The nearest integer, ties to even: the rounding of one significand (`distance_utils.py:105`). -/
def nearestEven (y : K) : ℤ :=
  if y - ⌊y⌋ < 1 / 2 then ⌊y⌋
  else if 1 / 2 < y - ⌊y⌋ then ⌊y⌋ + 1
  else if ⌊y⌋ % 2 = 0 then ⌊y⌋ else ⌊y⌋ + 1

/-- The distance between neighbouring floats around `x`, with gradual underflow
(`distance_utils.py:105`). -/
def Fmt.ulp (F : Fmt) (x : K) : K := 2 ^ (max (Int.log 2 |x|) F.emin - F.frac)

/-- Rounding to the format with unbounded largest exponent (`distance_utils.py:105`). -/
def Fmt.round (F : Fmt) (x : K) : K := nearestEven (x / F.ulp x) * F.ulp x

/-- Rounding to the format, with overflow to infinity (`kernel.py:42-76`). -/
def Fmt.toNum (F : Fmt) (x : K) : Num K :=
  if 2 ^ (F.emax + 1) ≤ F.round x then .pinf
  else if F.round x ≤ -2 ^ (F.emax + 1) then .ninf
  else .fin (F.round x)

/-- The arithmetic of a format: every operation, `np.power` included, is correctly rounded
(`kernel.py:42-76`). Simplification: numpy only promises less than one unit in the last place for
`np.power`. -/
def Fmt.arith (F : Fmt) : Arith K := ⟨F.toNum, F.toNum⟩

/-- `coord.astype(np.float32)` (`distance_utils.py:108`, `111-112`); `cast` is the rounding.
Overflow to infinity, above 3.4e38, is left out. -/
def castMat (cast : K → K) (M : Mat K) : Mat K := ⟨M.r, M.c, fun i j => cast (M.get i j)⟩

/-- `distances.astype(np.float32)` (`distance_utils.py:105`, `108`, `115`). -/
def castArr (cast : K → K) : DArr K → DArr K
  | .d1 l => .d1 (l.map cast)
  | .d2 m => .d2 (castMat cast m)

/-- The eager branch of `_distance_matrix` (`distance_utils.py:99-115`) with its casts. scipy
computes in double precision from the cast coordinates; `lib` stands for these computations. -/
def eagerDistanceCast (cast : K → K) (lib : Lib K) (src : Mat K) (tgt : Option (Mat K))
    (metric : Option String) (kw : Kwargs K) : Except Err (DistOut K) :=
  if metric = some "great-circle" then
    if src.c ≠ 2 then .error .exception
    else if src.r = 0 then .ok ⟨false, castArr cast (.d1 []), none⟩
    else
      match tgt with
      | none => .error .typeError
      | some tgt => .ok ⟨false, castArr cast (.d2 (cdistMat lib.great src tgt)), none⟩
  else
    match lib.scipy metric kw, tgt with
    | none, _ => .error .valueError
    | some f, none => .ok ⟨false, castArr cast (.d1 (pdistVec f (castMat cast src))), none⟩
    | some f, some tgt =>
      .ok ⟨false, castArr cast (.d2 (cdistMat f (castMat cast src) (castMat cast tgt))), none⟩

/-- `_distance_matrix` (`distance_utils.py:61-115`) with the casts; the dask branch has none. -/
def distanceMatrixCast (cast : K → K) (lib : Lib K) (fs : Disk K) (src : Mat K)
    (tgt : Option (Mat K)) (metric : Option String) (useDask cacheSort : Bool) (kw : Kwargs K) :
    Except Err (DistOut K) × Disk K :=
  if columnsDiffer src tgt then (.error .exception, fs)
  else if useDask then daskDistance lib fs src tgt metric cacheSort kw
  else (eagerDistanceCast cast lib src tgt metric kw, fs)

/-- The libraries as the eager branch sees them (`distance_utils.py:99-115`): cast before and after
scipy's metrics, after the great-circle distance. -/
def Lib.cast (cast : K → K) (lib : Lib K) : Lib K where
  scipy m kw := (lib.scipy m kw).map fun f a b => cast (f (a.map cast) (b.map cast))
  dask := lib.dask
  great a b := cast (lib.great a b)

end Geo
