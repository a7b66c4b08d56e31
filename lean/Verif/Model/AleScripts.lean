import Verif.Model.ExampleScripts
import Verif.Model.AleTruth
import Verif.Model.AlePlot
import Verif.Model.ImportanceLocal
import Verif.Model.Constructor
/-
Model of the figures of `draw_graph` in `georegression/simulation/simulation_for_ale.py` and
`georegression/simulation/simulation_data_fitting.py`: one figure per location, which compares the
local ALE curve with the true effect and with the curve over all observations in the same range.
Colours, labels, legends and sizes are not modelled.
-/
set_option linter.unusedSectionVars false
namespace Geo
variable {K : Type} [Field K] [LinearOrder K] [IsStrictOrderedRing K] [FloorRing K]
variable {F S T V : Type}

/-- What one figure shows: the curve and the bars of `plot_ale`, the scatter of the neighbours with the
location itself, the line of the true effect and the curve over all observations
(`simulation_for_ale.py:178-230`, `simulation_data_fitting.py:90-121`). -/
structure AlePanel (K : Type) where
  figure : AleFigure K
  scatter : StalePanel K
  truth : List (K × K)
  plain : List (K × K)

/-- `estimator.predict(np.stack([x1_base, x2_base], axis=-1)).mean()`, where `x1_base` is constant
(`simulation_for_ale.py:168-173`, `220-225`, `simulation_data_fitting.py:82-85`, `113-116`). -/
def baseValue (pred : List K → K) (x1 : K) (x2s : List K) : K :=
  (x2s.map fun x2 => pred [x1, x2]).sum / x2s.length

/-- The rows of `X` whose first feature lies in the range of the neighbours
(`simulation_for_ale.py:208-211`, `simulation_data_fitting.py:108`). -/
def rowsInRange (X : Mat K) (lo hi : K) : List Nat :=
  (List.range X.r).filter fun j => decide (lo ≤ X.get j 0 ∧ X.get j 0 ≤ hi)

/-- The line of the true effect over `np.linspace(lo, hi, 1000)` (`simulation_for_ale.py:149-166`,
`simulation_data_fitting.py:69-80`). -/
def truthLine (beta mean lo hi : K) : List (K × K) :=
  (List.range 1000).map fun k =>
    (histEdge lo hi 999 k, trueEffect beta mean (histEdge lo hi 999 k))

/-- The curve of the neighbours without weights, which `simulation_data_fitting.py:98-101` computes
and does not draw; `simulation_for_ale.py` does not compute it. -/
def neighbourCurve (L : Learner K F) (st : WMState K F (Mat K)) (f : F) (i : Nat) : Except Err Unit :=
  match st.neighbourMatrix, st.X with
  | some (.dense B), some Xc =>
    (weightedAle (maskRows Xc (trueIdx B i)) 0 (L.predict f)
      (some (List.replicate (trueIdx B i).length 1)) false 5).map fun _ => ()
  | _, _ => .error .typeError

/-- One round of the loop (`simulation_for_ale.py:130-245`, with `nb := false`;
`simulation_data_fitting.py:50-129`, with `nb := true`). `beta` and `mean` are the coefficient and the
mean of the second feature at the location, `uni` and `cho` the 500 numbers of `np.random.uniform` and
of `np.random.choice` used for it. An estimator that was fitted to another number of features than
two refuses the rows of the base value (`ValueError`). -/
def alePanel (nb : Bool) (L : Learner K F) (st : WMState K F (Mat K)) (X : Mat K) (y : List K)
    (beta mean : K) (uni cho : List K) (i : Nat) : Except Err (AlePanel K) :=
  match stalePanel L st X y i with
  | .error e => .error e
  | .ok q =>
    match (st.estimators.getD []).getD i none with
    | none => .error .attributeError
    | some f =>
      if X.c ≠ 2 then .error .valueError
      else
        match plotAle q.curve.1
          (anchored (baseValue (L.predict f) (minOf q.xs) uni) q.curve.2) q.xs with
        | .error e => .error e
        | .ok fig =>
          match (if nb then neighbourCurve L st f i else .ok ()) with
          | .error e => .error e
          | .ok () =>
            match weightedAle (maskRows X (rowsInRange X (minOf q.xs) (maxOf q.xs))) 0 (L.predict f)
              (some (List.replicate (rowsInRange X (minOf q.xs) (maxOf q.xs)).length 1)) false 5 with
            | .error e => .error e
            | .ok c => .ok ⟨fig, q, truthLine beta mean (minOf q.xs) (maxOf q.xs),
                c.1.zip (anchored (baseValue (L.predict f) (minOf q.xs) cho) c.2)⟩

/-- A loop whose rounds finish one figure each: the figures finished before the first exception, and
how the loop ends (`simulation_for_ale.py:130-245`). -/
def figureLoop {α : Type} (f : Nat → Except Err α) : List Nat → List α × Except Err Unit
  | [] => ([], .ok ())
  | i :: l =>
    match f i with
    | .error e => ([], .error e)
    | .ok a => (a :: (figureLoop f l).1, (figureLoop f l).2)

/-- The generated sample and the random numbers of the figures (`simulation_for_ale.py:97`, `158-159`,
`170`, `222`, `simulation_data_fitting.py:16`): the coefficients and means by location, the draws by
location. -/
structure AleSample (K : Type) where
  X : Mat K
  y : List K
  points : Mat K
  beta : Nat → K
  mean : Nat → K
  uni : Nat → List K
  cho : Nat → List K

/-- The fit of both scripts (`simulation_for_ale.py:117-125`, `simulation_data_fitting.py:36-44`). -/
def aleScriptFit (L : Learner K F) (rng : Rng S) (cpu : Nat)
    (weights : Mat K → Mat K → Except Err (Mat K)) (D : AleSample K) (s : S) :
    FitOut K F (Mat K) S :=
  wmFit L rng { scriptParams cpu weights with cacheData := true, cacheEstimator := true } {} s
    D.X D.y (some D.points) none

/-- `draw_graph` of `simulation_for_ale.py` (`simulation_for_ale.py:96-245`): the saved files
`0.png`, `1.png`, … in order, and how the call ends. -/
def aleScript (L : Learner K F) (rng : Rng S) (cpu : Nat)
    (weights : Mat K → Mat K → Except Err (Mat K)) (D : AleSample K) (s : S) :
    List (AlePanel K) × Except Err Unit :=
  match (aleScriptFit L rng cpu weights D s).result, (aleScriptFit L rng cpu weights D s).state.N with
  | .error e, _ => ([], .error e)
  | .ok (), none => ([], .error .typeError)
  | .ok (), some N =>
    figureLoop (fun i => alePanel false L (aleScriptFit L rng cpu weights D s).state D.X D.y
      (D.beta i) (D.mean i) (D.uni i) (D.cho i) i) (List.range N)

/-- What `draw_graph` of `simulation_data_fitting.py` leaves behind: the figures shown, the files
saved, and how the call ends (`simulation_data_fitting.py:15-161`). -/
structure FittingRun (K : Type) where
  shown : List (AlePanel K)
  saved : List String
  result : Except Err Unit

/-- The lines after the loop over the locations (`simulation_data_fitting.py:132-161`): the two
importance scores, then the attribute `stacking_predict_`. The lines after it are only named (the files
they save), as no `WeightModel` gets there. -/
def fittingEnd (run : List (AlePanel K) × Except Err Unit) (global : Except Err (List K))
    (loc : Except Err (List (List (Option K)))) (attr : Option (PyVal V)) : FittingRun K :=
  match run.2, global, loc, attr with
  | .error e, _, _, _ => ⟨run.1, [], .error e⟩
  | .ok (), .error e, _, _ => ⟨run.1, [], .error e⟩
  | .ok (), .ok _, .error e, _ => ⟨run.1, [], .error e⟩
  | .ok (), .ok _, .ok _, none => ⟨run.1, [], .error .attributeError⟩
  | .ok (), .ok _, .ok _, some _ => ⟨run.1, ["residual.png", "ale_global.png"], .ok ()⟩

/-- `draw_graph` of `simulation_data_fitting.py` (`simulation_data_fitting.py:15-161`). `model` is the
object made by the constructor; `fit` and the importance methods assign no attribute that the
constructor did not. -/
def fittingScript (L : Learner K F) (rng : Rng S) (cpu : Nat)
    (weights : Mat K → Mat K → Except Err (Mat K)) (model : ModelObject V) (g : PRng T) (t : T)
    (seeds : Nat → T) (D : AleSample K) (s : S) : FittingRun K :=
  match (aleScriptFit L rng cpu weights D s).result, (aleScriptFit L rng cpu weights D s).state.N with
  | .error e, _ => ⟨[], [], .error e⟩
  | .ok (), none => ⟨[], [], .error .typeError⟩
  | .ok (), some N =>
    fittingEnd (figureLoop (fun i => alePanel true L (aleScriptFit L rng cpu weights D s).state
        D.X D.y (D.beta i) (D.mean i) (D.uni i) (D.cho i) i) (List.range N))
      (importanceGlobal L g { scriptParams cpu weights with cacheData := true, cacheEstimator := true }
        (aleScriptFit L rng cpu weights D s).state t 5).result
      (importanceLocal L g seeds
        { scriptParams cpu weights with cacheData := true, cacheEstimator := true }
        (aleScriptFit L rng cpu weights D s).state 5)
      (model.attrs "stacking_predict_")

end Geo
