import Verif.Basic.Quantile
import Verif.Model.Floats
/-
Model of `neighbour_shrink` in floating point: `np.quantile` as numba compiles it (the functions are decorated with
`@njit`), every operation rounded. Weights are at most one, so there is no overflow and the special values are left
out.
-/
namespace Geo
variable {K : Type} [Field K] [LinearOrder K] [IsStrictOrderedRing K] [FloorRing K]

/-- The rank numba computes for a fraction (`neighbour_utils.py:103`, `116`): the fraction times 100, divided by
100, times the number of values less one, plus one. -/
def rankF (F : Fmt) (n : Nat) (q : K) : K :=
  F.round (1 + F.round (((n - 1 : Nat) : K) * F.round (F.round (q * 100) / 100)))

/-- The interpolation between neighbouring order statistics, `lower * (1 - m) + upper * m`
(`neighbour_utils.py:103`, `116`). -/
def lerpF (F : Fmt) (lower upper m : K) : K :=
  F.round (F.round (lower * F.round (1 - m)) + F.round (upper * m))

/-- `np.quantile(positive_value, shrink_rate)` compiled by numba (`neighbour_utils.py:103`, `116`), for at least
one value: a single value is its own quantile, the fractions 0 and 1 give the smallest and largest value. -/
def quantileF (F : Fmt) (l : List K) (q : K) : K :=
  let s := sortL l
  let n := l.length
  if n = 1 then s.getD 0 0
  else if F.round (q * 100) = 100 then s.getD (n - 1) 0
  else if F.round (q * 100) = 0 then s.getD 0 0
  else
    let rank := rankF F n q
    let f := ⌊rank⌋
    lerpF F (s.getD (f.toNat - 1) 0) (s.getD f.toNat 0) (F.round (rank - f))

/-- `positive_value[positive_value < shrink_value] = 0` (`neighbour_utils.py:103-104`, `116-117`), the non-zero
weights of one row. -/
def shrinkF (F : Fmt) (l : List K) (q : K) : List K :=
  l.map fun w => if w < quantileF F l q then 0 else w

end Geo
