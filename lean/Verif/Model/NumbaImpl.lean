import Verif.Basic.Err
import Mathlib.Analysis.Real.Sqrt
import Mathlib.LinearAlgebra.Matrix.NonsingularInverse
/-
Model of `georegression/numba_impl.py` over exact real numbers. Arrays are functions of their
indices; `m` observations, `n` features.
-/
namespace Geo
open Matrix

variable {m n : Nat}

/-- `mean` along axis 0, one column (`numba_impl.py:5-9`). Division by a zero sum of weights
(`nan`) is not modelled: the theorems assume a positive sum. -/
noncomputable def wmean (x w : Fin m → ℝ) : ℝ := (∑ i, x i * w i) / ∑ i, w i

/-- `np.linalg.solve`: `LinAlgError` for a singular matrix, otherwise the solution
(`numba_impl.py:40`). -/
noncomputable def linSolve (A : Matrix (Fin n) (Fin n) ℝ) (b : Fin n → ℝ) :
    Except Err (Fin n → ℝ) :=
  if A.det = 0 then .error .linAlgError else .ok (A⁻¹ *ᵥ b)

/-- The rescaled centred features (`numba_impl.py:17`, `22`, `27-29`). -/
noncomputable def ridgeX (X : Fin m → Fin n → ℝ) (w : Fin m → ℝ) (i : Fin m) (k : Fin n) : ℝ :=
  (X i k - wmean (fun i => X i k) w) * √(w i)

/-- The rescaled centred targets (`numba_impl.py:19`, `24`, `27-30`). -/
noncomputable def ridgeY (y w : Fin m → ℝ) (i : Fin m) : ℝ := (y i - wmean y w) * √(w i)

/-- The matrix of the linear system (`numba_impl.py:33`, `37`). -/
noncomputable def ridgeA (X : Fin m → Fin n → ℝ) (alpha : ℝ) (w : Fin m → ℝ) :
    Matrix (Fin n) (Fin n) ℝ :=
  fun k l => (∑ i, ridgeX X w i k * ridgeX X w i l) + alpha * if k = l then 1 else 0

/-- The right-hand side of the linear system (`numba_impl.py:35`). -/
noncomputable def ridgeB (X : Fin m → Fin n → ℝ) (y w : Fin m → ℝ) (k : Fin n) : ℝ :=
  ∑ i, ridgeX X w i k * ridgeY y w i

/-- `ridge_cholesky` (`numba_impl.py:11-44`): coefficients and intercept. -/
noncomputable def ridgeCholesky (X : Fin m → Fin n → ℝ) (y : Fin m → ℝ) (alpha : ℝ)
    (w : Fin m → ℝ) : Except Err ((Fin n → ℝ) × ℝ) :=
  (linSolve (ridgeA X alpha w) (ridgeB X y w)).map fun coef =>
    (coef, wmean y w - ∑ k, wmean (fun i => X i k) w * coef k)

section
variable {K : Type} [Field K] [LinearOrder K]

/-- Sum of squared deviations from the mean (`numba_impl.py:50-51`). -/
def totalSS (y : Fin m → K) : K := ∑ i, (y i - (∑ i, y i) / (m : K)) ^ 2

/-- Sum of squared residuals (`numba_impl.py:52`). -/
def residualSS (y p : Fin m → K) : K := ∑ i, (y i - p i) ^ 2

/-- `r2_score` (`numba_impl.py:46-57`). -/
def r2Score (y p : Fin m → K) : K :=
  if totalSS y = 0 then 1 else 1 - residualSS y p / totalSS y

end
end Geo
