import Verif.Model.Constructor
import Verif.Model.HeldOut
/-
The scenario functions of the experiment scripts: `square_strong_100` and its companions in
`georegression/simulation/simulation_for_fitting.py:264-831`, their copies in
`simulation_for_robust.py:333-908`, those of `simulation_for_data_size.py:183-289` and
`simulation_for_STST_variation.py:149-221`, and `test_llocv` (`simulation_for_fitting.py:834-847`).
Each makes a sample and hands it, with numbers and remarks, to the `fit_models` of its script. Making a
sample is any function of the generator (`Model/Samples.lean` has the actual ones); plots are left out.
-/
set_option linter.unusedSectionVars false
namespace Geo
variable {K : Type} [Field K] [LinearOrder K] [FloorRing K] {A S : Type}

/-- What is handed to `fit_models` besides numbers: arrays and the dictionary of remarks
(`simulation_for_fitting.py:279-290`). -/
inductive Payload (K A : Type)
  | array (a : A)
  | remarks (r : Record K)

/-- The parameters of `fit_models` that are numbers, with their defaults
(`simulation_for_fitting.py:25-30`). -/
def comparisonNumbers : List (String × PyVal (Payload K A)) :=
  [("stacking_neighbour_count", .float 0.03), ("stacking_neighbour_leave_out_rate", .float 0.15),
   ("grf_neighbour_count", .float 0.03), ("grf_n_estimators", .int 50),
   ("gwr_neighbour_count", .float 0.03), ("rf_n_estimators", .int 2000)]

/-- `fit_models` of `simulation_for_fitting.py:21-32` and `simulation_for_data_size.py:21-32`. -/
def comparisonSig : Signature (Payload K A) where
  params := [("X", none), ("y", none), ("points", none)] ++
    comparisonNumbers.map (fun e => (e.1, some e.2)) ++ [("info", some .none)]
  varArgs := false
  varKw := false

/-- `fit_models` of `simulation_for_robust.py:26-40`: three more parameters without a default. -/
def robustSig : Signature (Payload K A) where
  params := [("X", none), ("y", none), ("points", none), ("X_test", none), ("y_test", none),
      ("points_test", none)] ++
    comparisonNumbers.map (fun e => (e.1, some e.2)) ++ [("info", some .none)]
  varArgs := false
  varKw := false

/-- `fit_models` of `simulation_for_STST_variation.py:21-28`. -/
def variationSig : Signature (Payload K A) where
  params := [("X", none), ("y", none), ("points", none), ("stacking_neighbour_count", some (.float 0.03)),
    ("stacking_neighbour_leave_out_rate", some (.float 0.15)), ("info", some .none)]
  varArgs := false
  varKw := false

/-- The text of a scenario function (`simulation_for_fitting.py:264-290`): its name, the size of the
sample, the names of the response function and of the coefficient that make it, the numbers handed on,
and what the remarks say about response function and coefficient. The remarks about the size always
repeat `count`. -/
structure Scenario where
  name : String
  count : Nat
  f : String
  coef : String
  stackCount : ℚ
  stackRate : ℚ
  grfCount : ℚ
  gwrCount : ℚ
  saysF : String
  saysCoef : String
deriving DecidableEq

/-- The scenarios of `simulation_for_fitting.py:264-503`, `568-831`, and of
`simulation_for_robust.py:333-580`, `645-908`. (`coef_gau_strong2_weak` stands for the two coefficients
made in `simulation_for_fitting.py:700-703`.) -/
def comparisonScenarios : List Scenario :=
  [⟨"square_strong_100", 100, "f_square", "coef_strong", 0.3, 0.4, 0.3, 0.5, "f_square", "coef_strong"⟩,
   ⟨"square_strong_500", 500, "f_square", "coef_strong", 0.3, 0.1, 0.3, 0.2, "f_square", "coef_strong"⟩,
   ⟨"square_strong_1000", 1000, "f_square", "coef_strong", 0.02, 0.3, 0.02, 0.03, "f_square",
    "coef_strong"⟩,
   ⟨"square_strong_5000", 5000, "f_square", "coef_strong", 0.015, 0.4, 0.01, 0.015, "f_square",
    "coef_strong"⟩,
   ⟨"square_gau_strong_100", 100, "f_square", "coef_auto_gau_strong", 0.45, 0.2, 0.45, 0.5, "f_square",
    "coef_gau_strong"⟩,
   ⟨"square_gau_strong_500", 500, "f_square", "coef_auto_gau_strong", 0.08, 0.1, 0.1, 0.1, "f_square",
    "coef_gau_strong"⟩,
   ⟨"square_gau_strong_1000", 1000, "f_square", "coef_auto_gau_strong", 0.02, 0.05, 0.01, 0.04,
    "f_square", "coef_gau_strong"⟩,
   ⟨"square_gau_strong_5000", 5000, "f_square", "coef_auto_gau_strong", 0.008, 0.2, 0.01, 0.01,
    "f_square", "coef_gau_strong"⟩,
   ⟨"square_gau_weak_100", 100, "f_square", "coef_auto_gau_weak", 0.25, 0.25, 0.08, 0.3, "f_square",
    "coef_gau_weak"⟩,
   ⟨"square_gau_weak_500", 500, "f_square", "coef_auto_gau_weak", 0.08, 0.15, 0.05, 0.1, "f_square",
    "coef_gau_weak"⟩,
   ⟨"square_gau_weak_1000", 1000, "f_square", "coef_auto_gau_weak", 0.05, 0.25, 0.06, 0.06, "f_square",
    "coef_gau_weak"⟩,
   ⟨"square_gau_weak_5000", 5000, "f_square", "coef_auto_gau_weak", 0.02, 0.3, 0.01, 0.02, "f_square",
    "coef_gau_weak"⟩,
   ⟨"square_2_gau_strong_weak_5000", 5000, "f_square_2", "coef_gau_strong2_weak", 0.02, 0.2, 0.02, 0.02,
    "f_square_2", "coef_gau_strong2_weak"⟩,
   ⟨"interact_ale", 5000, "f_interact", "coef_auto_gau_strong", 0.03, 0.15, 0.03, 0.02, "f_square_2",
    "coef_gau_strong2_weak"⟩]

/-- The scenarios of `simulation_for_data_size.py:183-289`, whose first two numbers are those of
`simulation_for_STST_variation.py:149-221`. -/
def dataSizeScenarios : List Scenario :=
  [⟨"square_gau_strong_100", 100, "f_square", "coef_auto_gau_strong", 0.45, 0.2, 0.45, 0.5, "f_square",
    "coef_gau_strong"⟩,
   ⟨"square_gau_strong_500", 500, "f_square", "coef_auto_gau_strong", 0.08, 0.1, 0.1, 0.1, "f_square",
    "coef_gau_strong"⟩,
   ⟨"square_gau_strong_1000", 1000, "f_square", "coef_auto_gau_strong", 0.02, 0.05, 0.01, 0.04,
    "f_square", "coef_gau_strong"⟩,
   ⟨"square_gau_strong_5000", 5000, "f_square", "coef_auto_gau_strong", 0.008, 0.2, 0.01, 0.01,
    "f_square", "coef_gau_strong"⟩,
   ⟨"square_gau_strong_10000", 10000, "f_square", "coef_auto_gau_strong", 0.008, 0.2, 0.005, 0.008,
    "f_square", "coef_gau_strong"⟩]

/-- The seed of the second sample, where a scenario of `simulation_for_robust.py` makes one
(`simulation_for_robust.py:394-396`, `429-431`). -/
def secondSeed (sc : Scenario) : Option Nat :=
  if sc.name = "square_strong_1000" ∨ sc.name = "square_strong_5000" then some 2 else none

/-- The literal `info=...` (`simulation_for_fitting.py:289`, `simulation_for_data_size.py:201`). -/
def Scenario.remarks (sc : Scenario) (more : Record K) : Record K :=
  [("f", .text sc.saysF), ("coef", .text sc.saysCoef), ("count", .num (sc.count : K))] ++ more

/-- The keywords of the call (`simulation_for_fitting.py:283-289`). -/
def Scenario.keywords (sc : Scenario) (more : Record K) : List (String × PyVal (Payload K A)) :=
  [("stacking_neighbour_count", .float sc.stackCount),
   ("stacking_neighbour_leave_out_rate", .float sc.stackRate),
   ("grf_neighbour_count", .float sc.grfCount), ("grf_n_estimators", .int 50),
   ("gwr_neighbour_count", .float sc.gwrCount), ("rf_n_estimators", .int 2000),
   ("info", .obj (.remarks (sc.remarks more)))]

/-- The keywords of the call in `simulation_for_STST_variation.py:158-160`. -/
def Scenario.twoKeywords (sc : Scenario) : List (String × PyVal (Payload K A)) :=
  [("stacking_neighbour_count", .float sc.stackCount),
   ("stacking_neighbour_leave_out_rate", .float sc.stackRate),
   ("info", .obj (.remarks (sc.remarks [])))]

/-- `X, y, points` as positional arguments (`simulation_for_fitting.py:280-282`). -/
def asArgs (t : A × A × A) : List (PyVal (Payload K A)) :=
  [.obj (.array t.1), .obj (.array t.2.1), .obj (.array t.2.2)]

/-- A dictionary of remarks bound to `info`; `None` becomes an empty one
(`simulation_for_fitting.py:33-34`). -/
def infoOf (b : BoundArgs (Payload K A)) : Record K :=
  match b.vals.lookup "info" with
  | some (.obj (.remarks r)) => r
  | _ => []

/-- The body of `fit_models`: the models depend on the bound arguments
(`simulation_for_fitting.py:33-127`, `simulation_for_robust.py:41-196`,
`simulation_for_data_size.py:33-134`). -/
def comparisonBody (models : BoundArgs (Payload K A) → List (Contest K S)) (times : List K)
    (path : String) (b : BoundArgs (Payload K A)) (s : S) (fs : Lines K) :
    Except Err (Record K) × S × Lines K :=
  fitModels (models b) times (infoOf b) path s fs

/-- A call of a function (`simulation_for_fitting.py:279-290`): binding first, then the body. -/
def callBound (sig : Signature (Payload K A))
    (body : BoundArgs (Payload K A) → S → Lines K → Except Err (Record K) × S × Lines K)
    (pos : List (PyVal (Payload K A))) (kw : List (String × PyVal (Payload K A))) (s : S)
    (fs : Lines K) : Except Err (Record K) × S × Lines K :=
  match bindCall sig pos kw with
  | .error e => (.error e, s, fs)
  | .ok b => body b s fs

/-- A scenario of `simulation_for_fitting.py:264-831`: the sample is made with seed 1. -/
def fittingScenario (make : Scenario → Nat → S → Except Err (A × A × A) × S)
    (body : BoundArgs (Payload K A) → S → Lines K → Except Err (Record K) × S × Lines K)
    (sc : Scenario) (s : S) (fs : Lines K) : Except Err (Record K) × S × Lines K :=
  match make sc 1 s with
  | (.error e, s) => (.error e, s, fs)
  | (.ok t, s) => callBound comparisonSig body (asArgs t) (sc.keywords []) s fs

/-- A scenario of `simulation_for_robust.py:333-908`. -/
def robustScenario (make : Scenario → Nat → S → Except Err (A × A × A) × S)
    (body : BoundArgs (Payload K A) → S → Lines K → Except Err (Record K) × S × Lines K)
    (sc : Scenario) (s : S) (fs : Lines K) : Except Err (Record K) × S × Lines K :=
  match make sc 1 s with
  | (.error e, s) => (.error e, s, fs)
  | (.ok t, s) =>
    match secondSeed sc with
    | none => callBound robustSig body (asArgs t) (sc.keywords []) s fs
    | some k =>
      match make sc k s with
      | (.error e, s) => (.error e, s, fs)
      | (.ok t', s) => callBound robustSig body (asArgs t ++ asArgs t') (sc.keywords []) s fs

/-- A scenario of `simulation_for_STST_variation.py:149-221`. -/
def variationScenario (make : Scenario → Nat → S → Except Err (A × A × A) × S)
    (body : BoundArgs (Payload K A) → S → Lines K → Except Err (Record K) × S × Lines K)
    (sc : Scenario) (s : S) (fs : Lines K) : Except Err (Record K) × S × Lines K :=
  match make sc 1 s with
  | (.error e, s) => (.error e, s, fs)
  | (.ok t, s) => callBound variationSig body (asArgs t) sc.twoKeywords s fs

/-- A `for` loop whose body may fail (`simulation_for_data_size.py:188-202`,
`simulation_for_fitting.py:837-847`) or a sequence of statements
(`simulation_for_data_size.py:451-455`): what the bodies return is dropped. -/
def eachInTurn {B R : Type} (body : B → S → Lines K → Except Err R × S × Lines K) :
    List B → S → Lines K → Except Err Unit × S × Lines K
  | [], s, fs => (.ok (), s, fs)
  | a :: l, s, fs =>
    match body a s fs with
    | (.error e, s, fs) => (.error e, s, fs)
    | (.ok _, s, fs) => eachInTurn body l s fs

/-- One round of the loop in `simulation_for_data_size.py:188-202`: `widen X m` puts `m` columns of
normal draws beside `X`. -/
def dataSizeRound (widen : A → Nat → S → Except Err A × S)
    (body : BoundArgs (Payload K A) → S → Lines K → Except Err (Record K) × S × Lines K)
    (sc : Scenario) (t : A × A × A) (size : Nat) (s : S) (fs : Lines K) :
    Except Err (Record K) × S × Lines K :=
  match widen t.1 size s with
  | (.error e, s) => (.error e, s, fs)
  | (.ok X, s) =>
    callBound comparisonSig body (asArgs (X, t.2)) (sc.keywords [("feature_size", .num (size : K))]) s fs

/-- A scenario of `simulation_for_data_size.py:183-289`. -/
def dataSizeScenario (make : Scenario → Nat → S → Except Err (A × A × A) × S)
    (widen : A → Nat → S → Except Err A × S)
    (body : BoundArgs (Payload K A) → S → Lines K → Except Err (Record K) × S × Lines K)
    (sc : Scenario) (s : S) (fs : Lines K) : Except Err Unit × S × Lines K :=
  match make sc 1 s with
  | (.error e, s) => (.error e, s, fs)
  | (.ok t, s) => eachInTurn (dataSizeRound widen body sc t) [1, 5, 25, 50] s fs

/-- `python simulation_for_data_size.py` (`simulation_for_data_size.py:450-457`). -/
def dataSizeMain (make : Scenario → Nat → S → Except Err (A × A × A) × S)
    (widen : A → Nat → S → Except Err A × S)
    (body : BoundArgs (Payload K A) → S → Lines K → Except Err (Record K) × S × Lines K)
    (s : S) (fs : Lines K) : Except Err Unit × S × Lines K :=
  eachInTurn (dataSizeScenario make widen body) dataSizeScenarios s fs

/-- The rounds of `test_llocv` (`simulation_for_fitting.py:837-838`): the inner loop is over the
coefficients. -/
def llocvRounds : List (Nat × String) :=
  [100, 500, 1000, 5000].flatMap fun n =>
    ["coef_strong", "coef_auto_gau_strong", "coef_auto_gau_weak"].map fun c => (n, c)

/-- One round of `test_llocv` (`simulation_for_fitting.py:839-847`, `simulation_for_robust.py:916-924`):
the record is completed after the file is opened and then written. -/
def llocvRound (make : Nat → String → Nat → S → Except Err (A × A × A) × S)
    (fit : A × A × A → S → Except Err (Record K) × S) (r : Nat × String) (s : S) (fs : Lines K) :
    Except Err (Record K) × S × Lines K :=
  match make r.1 r.2 1 s with
  | (.error e, s) => (.error e, s, fs)
  | (.ok t, s) =>
    match fit t s with
    | (.error e, s) => (.error e, s, fs)
    | (.ok d, s) =>
      let d := ((d.put "count" (.num (r.1 : K))).put "func" (.text "f_square")).put "coef" (.text r.2)
      (.ok d, s, fs.append "simulation_result_llocv.jsonl" [d])

/-- `test_llocv` (`simulation_for_fitting.py:834-847`, `simulation_for_robust.py:911-924`). -/
def testLlocv (make : Nat → String → Nat → S → Except Err (A × A × A) × S)
    (fit : A × A × A → S → Except Err (Record K) × S) (s : S) (fs : Lines K) :
    Except Err Unit × S × Lines K :=
  eachInTurn (llocvRound make fit) llocvRounds s fs

end Geo
