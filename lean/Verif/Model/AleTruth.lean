import Verif.Model.Ale
/-
The comparison of local ALE curves with the true effect in
`georegression/simulation/simulation_for_ale.py`; the same lines are in
`georegression/simulation/simulation_data_fitting.py`.
-/
set_option linter.unusedSectionVars false
namespace Geo
variable {K : Type} [Field K]

/-- The "true value" drawn for `f = beta * x1 * x2`, where `x2` is uniform within 2 of `mean`
(`simulation_for_ale.py:158-166`, `simulation_data_fitting.py:76-80`). -/
def trueEffect (beta mean x : K) : K :=
  beta * (1 / 2) * ((mean + 2) ^ 2 - (mean - 2) ^ 2) * (1 / 4) * x

/-- The curve shifted to start at the base value (`simulation_for_ale.py:175-176`,
`simulation_data_fitting.py:87-88`). -/
def anchored (base : K) (ale : List K) : List K := ale.map (· - (ale.getD 0 0 - base))

end Geo
