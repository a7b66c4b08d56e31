import Verif.Model.Simulation
import Mathlib.LinearAlgebra.Matrix.Notation
/-
Model of the data generators of the experiments: `coef_strong`, `coef_manual_gau`,
`coef_auto_gau_weak`, `coef_auto_gau_strong`, the response functions and the three versions of
`generate_sample` in `georegression/simulation/simulation_for_fitting.py`, `simulation_for_importance.py`
and `simulation.py`. The copies in the other scripts of that directory are the same functions.
Values may be NaN, because the directional coefficient is undefined at the origin. Plots are left out.
-/
set_option linter.unusedSectionVars false
namespace Geo
open Real Matrix
variable {S : Type}

/-- A point in the plane (`simulation_for_fitting.py:249`). -/
abbrev Plane := Fin 2 → ℝ

/-- A coefficient: its value at a point (`simulation_for_fitting.py:208-220`). -/
abbrev Coef := Plane → Num ℝ

/-- `coefficient_wrapper(np.sum, ...)` of two or more coefficients (`simulation_utils.py:66-70`). -/
noncomputable def sumOf (cs : List Coef) : Coef := fun p => Num.sum (cs.map fun c => c p)

/-- `coef_radial` (`simulation_for_fitting.py:159`, `184`, `209`). -/
noncomputable def coefRadial : Coef := fun p => .fin (radialCoefficient 0 (1 / √200) p)

/-- `coef_dir` (`simulation_for_fitting.py:160`, `185`, `210`). -/
noncomputable def coefDir : Coef := directionalCoefficient ![1, 1] 1

/-- `gaussian_coefficient` with the value as a float (`simulation_for_fitting.py:214-215`). -/
noncomputable def bump (center : Plane) (cov : CovArg 2) (amplitude : ℝ) : Except Err Coef :=
  (gaussianCoefficient center cov amplitude).map fun f p => .fin (f p)

/-- `coef_sin` (`simulation_for_fitting.py:211-213`). -/
noncomputable def coefSin : Coef :=
  sumOf [fun p => .fin (sineCoefficient 1 ![-1, 1] 1 p), fun p => .fin (sineCoefficient 1 ![1, 1] 1 p)]

/-- `coef_strong` (`simulation_for_fitting.py:208-220`, `simulation.py:36-48`). -/
noncomputable def coefStrong : Except Err Coef := do
  let g₁ ← bump ![-5, 5] (.scalar 3) 1
  let g₂ ← bump ![-5, -5] (.scalar 3) 2
  pure (sumOf [coefRadial, coefDir, coefSin, sumOf [g₁, g₂]])

/-- `coef_manual_gau` (`simulation.py:51-72`): the sixth Gaussian is assigned three times, the last
one counts. -/
noncomputable def coefManual : Except Err Coef := do
  let g₁ ← bump ![-5, 5] (.full !![3, 4; 4, 8]) (-1)
  let g₂ ← bump ![-2, -5] (.scalar 5) 2
  let g₃ ← bump ![8, 3] (.scalar 10) (-(3 / 2))
  let g₄ ← bump ![2, 8] (.full !![3, 0; 0, 15]) (4 / 5)
  let g₅ ← bump ![5, -10] (.scalar 1) 1
  let _ ← bump ![-10, -10] (.scalar 15) (3 / 2)
  let _ ← bump ![-11, 0] (.scalar 5) 2
  let g₆ ← bump ![-11, 0] (.scalar 5) 2
  pure (sumOf [coefRadial, sumOf [g₁, g₂, g₃, g₄, g₅, g₆]])

/-- `np.random.uniform(lo, hi)` (`simulation_for_fitting.py:166-171`). -/
noncomputable def uniformOne (g : DrawRng S) (s : S) (lo hi : ℝ) : ℝ × S :=
  ((uniformBetween g s lo hi 1).1.getD 0 0, (uniformBetween g s lo hi 1).2)

/-- `np.random.choice([-1, 1])` (`simulation_for_fitting.py:167`). -/
def signOne (g : DrawRng S) (s : S) : ℝ × S :=
  (if (g.choice s 2 1).1.getD 0 0 = 0 then -1 else 1, (g.choice s 2 1).2)

/-- The parameters of one Gaussian (`simulation_for_fitting.py:164-172`). -/
structure BumpDraw where
  center : Plane
  amplitude : ℝ
  sigma1 : ℝ
  sigma2 : ℝ
  cov : ℝ

/-- One pass of the loop up to the covariance matrix (`simulation_for_fitting.py:164-172`): the
variances are drawn between `lo` and `hi`. -/
noncomputable def drawBump (g : DrawRng S) (lo hi : ℝ) (s : S) : BumpDraw × S :=
  let c := uniformBetween g s (-10) 10 2
  let a := uniformOne g c.2 1 2
  let k := signOne g a.2
  let v := uniformOne g k.2 lo hi
  let w := uniformOne g v.2 lo hi
  let r := uniformOne g w.2 (-√(v.1 * w.1)) √(v.1 * w.1)
  (⟨![c.1.getD 0 0, c.1.getD 1 0], a.1 * k.1, v.1, w.1, r.1⟩, r.2)

/-- The Gaussian with the drawn parameters (`simulation_for_fitting.py:172-174`). -/
noncomputable def BumpDraw.coef (b : BumpDraw) : Except Err Coef :=
  bump b.center (.full !![b.sigma1, b.cov; b.cov, b.sigma2]) b.amplitude

/-- The loop (`simulation_for_fitting.py:162-175`). -/
noncomputable def drawBumps (g : DrawRng S) (lo hi : ℝ) : Nat → S → Except Err (List Coef) × S
  | 0, s => (.ok [], s)
  | n + 1, s =>
    match (drawBump g lo hi s).1.coef with
    | .error e => (.error e, (drawBump g lo hi s).2)
    | .ok c =>
      match drawBumps g lo hi n (drawBump g lo hi s).2 with
      | (.error e, s) => (.error e, s)
      | (.ok cs, s) => (.ok (c :: cs), s)

/-- `coef_auto_gau_weak` with variances from 0.5 to 5 and `coef_auto_gau_strong` with variances from
0.2 to 1 (`simulation_for_fitting.py:158-205`). -/
noncomputable def coefAuto (g : DrawRng S) (lo hi : ℝ) (s : S) : Except Err Coef × S :=
  match drawBumps g lo hi 1000 s with
  | (.error e, s) => (.error e, s)
  | (.ok cs, s) => (.ok (sumOf [coefRadial, coefDir, sumOf cs]), s)

/-! ### Response functions: the columns of `X`, the coefficients and the points -/

/-- A response function (`simulation_for_fitting.py:223-244`). -/
abbrev Response := List (List (Num ℝ)) → List Coef → List Plane → Except Err (List (Num ℝ))

/-- `f_square` (`simulation_for_fitting.py:223-224`). -/
noncomputable def fSquare : Response := fun X C points => do
  let c ← pyGet C 0
  let x ← pyGet X 0
  pure (List.zipWith (fun x p => Num.mul (c p) (Num.sq x)) x points)

/-- `f_square_2` (`simulation_for_fitting.py:227-232`). -/
noncomputable def fSquare2 : Response := fun X C points => do
  let c ← pyGet C 0
  let x ← pyGet X 0
  let c' ← pyGet C 1
  let x' ← pyGet X 1
  pure (List.zipWith Num.add (List.zipWith (fun x p => Num.mul (c p) (Num.sq x)) x points)
    (List.zipWith (fun x p => Num.mul (c' p) (Num.sq x)) x' points))

/-- `f_square_const` (`simulation_for_fitting.py:235-236`). -/
noncomputable def fSquareConst : Response := fun X C points => do
  let c ← pyGet C 0
  let x ← pyGet X 0
  pure (List.zipWith (fun x p => Num.add (Num.mul (c p) (Num.sq x)) (Num.mul (c p) (.fin 10))) x points)

/-- `np.tanh` (`simulation_utils.py:99`). -/
noncomputable def tanhN : Num ℝ → Num ℝ
  | .fin x => .fin (tanh x)
  | .pinf => .fin 1
  | .ninf => .fin (-1)
  | .nan => .nan

/-- `f_sigmoid` (`simulation_for_fitting.py:239-240`). -/
noncomputable def fSigmoid : Response := fun X C points => do
  let c ← pyGet C 0
  let x ← pyGet X 0
  pure (List.zipWith (fun x p => Num.mul (c p) (tanhN x)) x points)

/-- `f_interact` (`simulation_for_fitting.py:243-244`). -/
noncomputable def fInteract : Response := fun X C points => do
  let c ← pyGet C 0
  let x ← pyGet X 0
  let x' ← pyGet X 1
  pure (List.zipWith (fun (q : Num ℝ × Num ℝ) p => Num.mul (Num.mul (c p) q.1) q.2) (x.zip x') points)

/-! ### Samples -/

/-- The result: the columns of `X`, `y` and the points (`simulation_for_fitting.py:261`). -/
structure Sample where
  X : List (List (Num ℝ))
  y : List (Num ℝ)
  points : List Plane

/-- The rows of the points (`simulation_utils.py:130`). -/
def planeRows (n : Nat) (cols : List (List ℝ)) : List Plane :=
  (List.range n).map fun i => ![(cols.getD 0 []).getD i 0, (cols.getD 1 []).getD i 0]

/-- `sample_x(count, bounds=(lo, hi))` (`simulation_for_fitting.py:250`): the tuple holds numbers. -/
def plainX (g : DrawRng S) (s : S) (n : Nat) (lo hi : ℝ) : Except Err (List (Num ℝ)) × S :=
  ((sampleX g s n (⟨false, .num lo, .num hi⟩ : XBounds Plane) { points := [] }).1.1.map fun r =>
    (r.getD []).map .fin,
   (sampleX g s n (⟨false, .num lo, .num hi⟩ : XBounds Plane) { points := [] }).2)

/-- `f(X, coefficients, points)` and the returned tuple (`simulation_for_fitting.py:253-261`). -/
noncomputable def finishSample (f : Response) (X : List (List (Num ℝ))) (C : List Coef)
    (points : List Plane) : Except Err Sample :=
  (f X C points).map fun y => ⟨X, y, points⟩

/-- `sample_points(count, bounds=(-10, 10))` (`simulation_for_fitting.py:249`). `simulation.py:133`
passes the same bounds once per dimension. -/
def squarePoints (g : DrawRng S) (s : S) (n : Nat) : Except Err (List Plane) × S :=
  ((samplePoints g s n 2 (.common [-10, 10]) (.common "continuous")).1.map (planeRows n),
   (samplePoints g s n 2 (.common [-10, 10]) (.common "continuous")).2)

/-- A function that makes a coefficient, possibly from random draws
(`simulation_for_fitting.py:251`). -/
abbrev CoefFunc (S : Type) := S → Except Err Coef × S

/-- `generate_sample` of `simulation_for_fitting.py:247-261`: one feature. `seed k` is the state
after `np.random.seed(k)`. -/
noncomputable def generateOne (g : DrawRng S) (seed : Nat → S) (n : Nat) (f : Response)
    (cf : CoefFunc S) (k : Nat) : Except Err Sample × S :=
  match squarePoints g (seed k) n with
  | (.error e, s) => (.error e, s)
  | (.ok points, s) =>
    match plainX g s n (-10) 10 with
    | (.error e, s) => (.error e, s)
    | (.ok x, s) =>
      match cf s with
      | (.error e, s) => (.error e, s)
      | (.ok c, s) => (finishSample f [x] [c] points, s)

/-- `[func() for func in coef_func]` (`simulation_for_importance.py:108-109`). -/
def callAll : List (CoefFunc S) → S → Except Err (List Coef) × S
  | [], s => (.ok [], s)
  | cf :: cfs, s =>
    match cf s with
    | (.error e, s) => (.error e, s)
    | (.ok c, s) =>
      match callAll cfs s with
      | (.error e, s) => (.error e, s)
      | (.ok cs, s) => (.ok (c :: cs), s)

/-- The argument `coef_func`: a function or a list of functions
(`simulation_for_importance.py:108-111`, `simulation.py:143-146`). -/
inductive CoefArg (S : Type)
  | one (cf : CoefFunc S)
  | many (cfs : List (CoefFunc S))

/-- The coefficients (`simulation_for_importance.py:108-111`). -/
def CoefArg.make : CoefArg S → S → Except Err (List Coef) × S
  | .one cf, s => callAll [cf] s
  | .many cfs, s => callAll cfs s

/-- `generate_sample` of `simulation_for_importance.py:102-119`: two features. -/
noncomputable def generateTwo (g : DrawRng S) (seed : Nat → S) (n : Nat) (f : Response)
    (cf : CoefArg S) (k : Nat) : Except Err Sample × S :=
  match squarePoints g (seed k) n with
  | (.error e, s) => (.error e, s)
  | (.ok points, s) =>
    match plainX g s n (-10) 10 with
    | (.error e, s) => (.error e, s)
    | (.ok x₁, s) =>
      match plainX g s n (-10) 10 with
      | (.error e, s) => (.error e, s)
      | (.ok x₂, s) =>
        match cf.make s with
        | (.error e, s) => (.error e, s)
        | (.ok cs, s) => (finishSample f [x₁, x₂] cs points, s)

/-- `sample_x(count, mean=c, bounds=(lo, hi), points=points)` (`simulation.py:136`, `141`):
`sampleX` with a mean that may be NaN. -/
noncomputable def meanX (g : DrawRng S) (s : S) (lo hi : ℝ) (c : Coef) (points : List Plane) :
    List (Num ℝ) × S :=
  (List.zipWith (fun u p => Num.add (.fin (u * (hi - lo) + lo)) (c p))
    (g.uniform s points.length).1 points, (g.uniform s points.length).2)

/-- `coef_func()`: a list is not callable (`simulation.py:136`, `140`). -/
def CoefArg.call : CoefArg S → S → Except Err Coef × S
  | .one cf, s => cf s
  | .many _, s => (.error .typeError, s)

/-- `generate_sample` of `simulation.py:130-151`, for a seed that is given: the features have means
that vary in space. The coefficient function is called three times. -/
noncomputable def generateSpatial (g : DrawRng S) (seed : Nat → S) (n : Nat) (f : Response)
    (cf : CoefArg S) (k : Nat) : Except Err Sample × S :=
  match squarePoints g (seed k) n with
  | (.error e, s) => (.error e, s)
  | (.ok points, s) =>
    match cf.call s with
    | (.error e, s) => (.error e, s)
    | (.ok c₁, s) =>
      match cf.call (meanX g s (-1) 1 c₁ points).2 with
      | (.error e, s') => (.error e, s')
      | (.ok c₂, s') =>
        match cf.make (meanX g s' (-2) 2 (fun p => Num.mul (.fin 3) (c₂ p)) points).2 with
        | (.error e, s'') => (.error e, s'')
        | (.ok cs, s'') =>
          (finishSample f [(meanX g s (-1) 1 c₁ points).1,
            (meanX g s' (-2) 2 (fun p => Num.mul (.fin 3) (c₂ p)) points).1] cs points, s'')

end Geo
