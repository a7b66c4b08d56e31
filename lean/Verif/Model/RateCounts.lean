import Verif.Model.Floats
import Verif.Model.WeightModel
/-
The numbers computed from rates, as floats. Everywhere else in the model they are computed exactly from the rate;
here the rate is rounded when it is written down, and so is its product with the number of items.
-/
namespace Geo
variable {K : Type} [Field K] [LinearOrder K] [IsStrictOrderedRing K] [FloorRing K]

/-- `int(self.sample_local_rate * self.N)` (`weight_model.py:363`, `stacking_model.py:322`) and
`int(sample_size * N)` (`visualize/pd.py:55`): the rate as written is `r`, the float is the nearest to it. -/
def intCount (F : Fmt) (r : K) (n : Nat) : ℤ := truncInt (F.round (F.round r * n))

/-- `np.ceil(neighbour_count * sample_rate)` (`neighbour_utils.py:156`), `math.ceil(N * neighbour_count)`
(`kernel.py:108`) and `math.ceil(... * self.estimator_sample_rate)` (`stacking_model.py:430-432`). -/
def ceilCount (F : Fmt) (r : K) (n : Nat) : ℤ := ⌈F.round (F.round r * n)⌉

/-- The number of neighbours left out (`neighbour_utils.py:155-160`). -/
def leftOutCount (F : Fmt) (r : K) (n : Nat) : ℤ :=
  let k := if ceilCount F r n = 0 then 1 else ceilCount F r n
  if (n : ℤ) < k then n else k

end Geo
