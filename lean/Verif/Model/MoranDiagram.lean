import Verif.Model.Moran
import Verif.Model.Viz
/-
Model of `plot_moran_diagram` in `georegression/spatial_temporal_moran.py`: the points and the line
that are drawn, not their style. The data are finite.
-/
set_option linter.unusedSectionVars false
namespace Geo
variable {K : Type} [Field K] [LinearOrder K] [IsStrictOrderedRing K]

/-- What is drawn besides the two axes (`spatial_temporal_moran.py:79`, `91-92`). -/
structure MoranDiagram (K : Type) where
  points : List (K × K)
  line : List (K × K)

/-- `np.matmul(weight_matrix, y_center)` (`spatial_temporal_moran.py:78`). -/
def spatialLag (y : List K) (W : Mat K) (i : Nat) : K :=
  ((List.range y.length).map fun j => W.get i j * deviation y j).sum

/-- The coefficient of `LinearRegression(fit_intercept=False)` for one feature
(`spatial_temporal_moran.py:87-88`): `scipy.linalg.lstsq` gives 0 for a feature that is zero. -/
def slopeThroughOrigin (u v : List K) : K :=
  (List.zipWith (· * ·) u v).sum / (List.zipWith (· * ·) u u).sum

/-- `plot_moran_diagram` (`spatial_temporal_moran.py:76-95`): `np.matmul` refuses a matrix with
another number of columns, `plt.scatter` one with another number of rows, and `np.min` no
observations. -/
def moranDiagram (y : List K) (W : Mat K) : Except Err (MoranDiagram K) :=
  if !moranShape y W || y.isEmpty then .error .valueError
  else
    let u := (List.range y.length).map (deviation y)
    let v := (List.range y.length).map (spatialLag y W)
    .ok ⟨u.zip v, [minOf u, maxOf u].map fun x => (x, slopeThroughOrigin u v * x)⟩

end Geo
