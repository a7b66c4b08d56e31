import Mathlib.Analysis.SpecialFunctions.Trigonometric.Inverse
/-
Model of `great_circle_distance` (`georegression/distance_utils.py:118-136`) over the reals.
-/
namespace Geo
open Real

/-- `np.radians` (`distance_utils.py:124-127`). -/
noncomputable def radians (x : ℝ) : ℝ := x * (π / 180)

/-- The haversine argument `a` (`distance_utils.py:124-132`). Points are (longitude, latitude)
in degrees. -/
noncomputable def haversineArg (one many : ℝ × ℝ) : ℝ :=
  let lonDiff := radians (many.1 - one.1)
  let latDiff := radians (many.2 - one.2)
  let latOne := radians one.2
  let latMany := radians many.2
  sin (latDiff / 2) ^ 2 + cos latMany * cos latOne * sin (lonDiff / 2) ^ 2

/-- `great_circle_distance` for one target (`distance_utils.py:118-136`). The square root of a
negative number and the arcsine of a number above 1, which would be NaN in numpy, do not occur
for valid latitudes: `C21_haversine_argument_valid`. -/
noncomputable def greatCircle (one many : ℝ × ℝ) : ℝ :=
  6371 * (2 * arcsin (√(haversineArg one many)))

end Geo
