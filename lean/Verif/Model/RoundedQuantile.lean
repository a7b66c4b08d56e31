import Verif.Basic.Quantile
import Verif.Model.Floats
/-
Model of numpy's `np.quantile` in floating point, as used for bandwidths given by a fraction of the neighbours and
for the grid of effect curves. The values have the format `S` (single precision for distances computed without
dask), everything else the format `F` (double precision). Values are finite and far from overflow.
-/
namespace Geo
variable {K : Type} [Field K] [LinearOrder K] [IsStrictOrderedRing K] [FloorRing K]

/-- The virtual index of the default method, one product (`kernel.py:118-125`, `ale_utils.py:28`). -/
def virtLinearR (F : Fmt) (n : Nat) (q : K) : K := F.round (((n - 1 : Nat) : K) * q)

/-- The virtual index of `method='median_unbiased'` (`kernel.py:133`):
`n * q + (alpha + q * (1 - alpha - beta)) - 1` with `alpha = beta = 1 / 3`. -/
def virtMedianR (F : Fmt) (n : Nat) (q : K) : K :=
  let third := F.round (1 / 3)
  F.round (F.round (F.round (n * q) + F.round (third + F.round (q * F.round (F.round (1 - third) - third)))) - 1)

/-- numpy's `_lerp` (`kernel.py:118-125`, `133`, `ale_utils.py:28`): from below if the fraction is under one half,
else from above. The difference of two values is rounded in their own format. -/
def lerpR (S F : Fmt) (a b t : K) : K :=
  if 1 / 2 ≤ t then F.round (b - F.round (S.round (b - a) * F.round (1 - t)))
  else F.round (a + F.round (S.round (b - a) * t))

/-- The quantile at a virtual index `v` (`kernel.py:118-125`, `133`, `ale_utils.py:28`): the last value from
`n - 1` on, the first below zero, else between the values on either side. -/
def quantileR (S F : Fmt) (l : List K) (v : K) : K :=
  let s := fun i => (sortL l).getD i 0
  if ((l.length - 1 : Nat) : K) ≤ v then s (l.length - 1)
  else if v < 0 then s 0
  else lerpR S F (s ⌊v⌋₊) (s (⌊v⌋₊ + 1)) (F.round (v - ⌊v⌋₊))

end Geo
