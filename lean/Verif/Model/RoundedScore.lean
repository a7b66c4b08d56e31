import Verif.Model.Rounded
/-
Model of the two R² scores in rounded arithmetic: `r2_score` of `georegression/numba_impl.py` and
scikit-learn's `r2_score`, which the models call for `llocv_score_` and `llocv_stacking_`. As in
`Verif.Model.Rounded` the roundings and the order of summation are parameters.
-/
namespace Geo
variable {K : Type} [Field K] [LinearOrder K]

/-- `np.mean(y_true)` (`numba_impl.py:50`), and `np.average(y_true)` in scikit-learn: the rounded sum divided
by the number of targets. Simplification: that number is not rounded (it is a float below 2^53). -/
def meanR (a : Arith K) (shape : List (Num K) → SumTree K) (ys : List K) : Num K :=
  Num.rnd a.op (.div ((shape (ys.map .fin)).value a) (.fin (ys.length : K)))

/-- `(u - v) ** 2`, entrywise (`numba_impl.py:51-52`): two rounded operations. -/
def sqDiffR (a : Arith K) (u v : Num K) : Num K :=
  Num.rnd a.op (.sq (Num.rnd a.op (.sub u v)))

/-- `np.sum((y_true - y_mean) ** 2)` (`numba_impl.py:51`; the denominator in scikit-learn). -/
def totalR (a : Arith K) (shape : List (Num K) → SumTree K) (ys : List K) : Num K :=
  (shape (ys.map fun y => sqDiffR a (.fin y) (meanR a shape ys))).value a

/-- `np.sum((y_true - y_pred) ** 2)` (`numba_impl.py:52`; the numerator in scikit-learn). -/
def residualR (a : Arith K) (shape : List (Num K) → SumTree K) (ys ps : List K) : Num K :=
  (shape (List.zipWith (fun y p => sqDiffR a (.fin y) (.fin p)) ys ps)).value a

/-- `r2_score` (`numba_impl.py:46-57`), called in `stacking_model.py:609`, in rounded arithmetic. -/
def numbaR2R (a : Arith K) (shape : List (Num K) → SumTree K) (ys ps : List K) : Num K :=
  if totalR a shape ys = .fin 0 then .fin 1
  else Num.rnd a.op (.sub (.fin 1) (Num.rnd a.op (.div (residualR a shape ys ps) (totalR a shape ys))))

/-- scikit-learn's `r2_score` (`weight_model.py:381`, `stacking_model.py:394`, `466`) in rounded arithmetic:
1 if the numerator is zero, 0 if only the denominator is, else `1 - numerator / denominator`. -/
def skR2R (a : Arith K) (shape : List (Num K) → SumTree K) (ys ps : List K) : Num K :=
  if residualR a shape ys ps = .fin 0 then .fin 1
  else if totalR a shape ys = .fin 0 then .fin 0
  else Num.rnd a.op (.sub (.fin 1) (Num.rnd a.op (.div (residualR a shape ys ps) (totalR a shape ys))))

end Geo
