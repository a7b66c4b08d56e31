import Verif.Model.GreatCircle
import Verif.Model.Floats
/-
Model of `great_circle_distance` in floating point: every operation rounded, and the functions of the mathematical
library as they are computed. The coordinates are finite.
-/
namespace Geo

/-- The functions numba calls, with the values they compute: `np.radians`, `np.sin`, `np.cos` and `np.arcsin`
(`distance_utils.py:124-133`). -/
structure Libm where
  rad : ℝ → ℝ
  sin : ℝ → ℝ
  cos : ℝ → ℝ
  asin : ℝ → ℝ

/-- The square, one rounding (`distance_utils.py:130-131`). -/
noncomputable def sqF (F : Fmt) (x : ℝ) : ℝ := F.round (x * x)

/-- The haversine argument (`distance_utils.py:124-132`). -/
noncomputable def haversineF (F : Fmt) (m : Libm) (one many : ℝ × ℝ) : ℝ :=
  let lonDiff := m.rad (F.round (many.1 - one.1))
  let latDiff := m.rad (F.round (many.2 - one.2))
  let latOne := m.rad one.2
  let latMany := m.rad many.2
  F.round (sqF F (m.sin (F.round (latDiff / 2))) +
    F.round (F.round (m.cos latMany * m.cos latOne) * sqF F (m.sin (F.round (lonDiff / 2)))))

/-- `great_circle_distance` for one target (`distance_utils.py:133-136`); `none` is NaN, for a negative number under
the root and for an arcsine beyond 1. -/
noncomputable def greatCircleF (F : Fmt) (m : Libm) (one many : ℝ × ℝ) : Option ℝ :=
  let a := haversineF F m one many
  if a < 0 then none
  else
    let r := F.round √a
    if 1 < r then none else some (F.round (6371 * F.round (2 * m.asin r)))

end Geo
