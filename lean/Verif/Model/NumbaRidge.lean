import Verif.Model.NumbaImpl
import Verif.Model.WeightModel
/-
The meta learner of the numba path: `ridge_cholesky` applied to the table that `stacking_numba`
assembles, as a learner on lists.
-/
namespace Geo

/-- `ridge_cholesky(X_fit_T.T, y_fit, alpha, weight_fit)` (`numba_impl.py:11-44`, called at
`stacking_model.py:605`), on a table given as a list of rows: entry `i`, `k` of the list of rows is
`X_fit_T.T[i, k]`. The first argument (the generator state of other learners) is not used. -/
noncomputable def numbaRidgeFit (alpha : ℝ) (_ : Nat) (rows : List (List ℝ)) (ys ws : List ℝ) :
    Except Err (List ℝ × ℝ) :=
  (ridgeCholesky (m := rows.length) (n := (rows.headD []).length)
    (fun i k => (rows.getD i []).getD k 0) (fun i => ys.getD i 0) alpha
    (fun i => ws.getD i 0)).map fun r => (List.ofFn r.1, r.2)

/-- `np.dot(X_predict, coef) + intercept` (`stacking_model.py:607`, `630`). -/
noncomputable def linearPredict (g : List ℝ × ℝ) (x : List ℝ) : ℝ :=
  (List.zipWith (· * ·) x g.1).sum + g.2

/-- The meta learner of the numba path (`stacking_model.py:605-630`). -/
noncomputable def numbaRidge (alpha : ℝ) : Learner ℝ (List ℝ × ℝ) :=
  ⟨numbaRidgeFit alpha, linearPredict⟩

end Geo
