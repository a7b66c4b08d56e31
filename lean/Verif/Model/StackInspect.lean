import Verif.Model.LocalPd
import Verif.Model.Stacking
/-
Model of `partial_dependence`, which `StackingWeightModel` inherits (`georegression/weight_model.py:626-660`),
for stacked estimators.
-/
set_option linter.unusedSectionVars false
namespace Geo
variable {K : Type} [Field K] [LinearOrder K] [IsStrictOrderedRing K] [FloorRing K] {F C : Type}

/-- The job of location `i` (`weight_model.py:636-644`) when the estimator is a `StackingEstimator`
(`stacking_model.py:1127-1148`): scikit-learn's `partial_dependence` asks for a fitted regressor or
classifier; the class is neither, and has no attribute that says it is fitted. Either is a
`ValueError`, for the first feature (`weight_model.py:203-209`). -/
def pdLocationStacked (X W : Mat K) (B : Mat Bool) (es : List (Option F)) (nf i : Nat) :
    Except Err (List (List K × List K)) :=
  if B.r ≤ i ∨ W.r ≤ i ∨ B.c ≠ W.c ∨ B.c ≠ X.r ∨ es.length ≤ i then .error .indexError
  else if nf = 0 then .ok []
  else
    match es.getD i none with
    | none => .error .typeError
    | some _ => .error .valueError

/-- `partial_dependence` of a `StackingWeightModel` (`weight_model.py:626-660`), as
`partialDependence` in `Model/LocalPd`. -/
def partialDependenceStacked (st : WMState K F C) (old : PdOut K) : PdOut K :=
  match st.N, st.nFeatures, st.estimators, st.X, st.weightMatrix, st.neighbourMatrix with
  | some N, some nf, some es, some X, some (.dense W), some (.dense B) =>
    match mapE (pdLocationStacked X W B es nf) (List.range N) with
    | .error e => ⟨.error e, old.localPartial, old.featurePartial⟩
    | .ok l => pdFinish old nf l
  | some N, some nf, some _, some _, some (.sparse _), some (.sparse _) =>
    if N = 0 then pdFinish old nf [] else ⟨.error .indexError, old.localPartial, old.featurePartial⟩
  | _, _, _, _, _, _ => ⟨.error .typeError, old.localPartial, old.featurePartial⟩

end Geo
