import Verif.Basic.Err
import Verif.Basic.Num
import Mathlib.LinearAlgebra.Matrix.PosDef
import Mathlib.LinearAlgebra.Matrix.NonsingularInverse
import Mathlib.Analysis.SpecialFunctions.Log.Basic
import Mathlib.Analysis.SpecialFunctions.Trigonometric.Basic
/-
Model of `georegression/simulation/simulation_utils.py` over the reals. A coefficient is a function
of one point; numpy applies it to all rows of an array of points. `scipy.stats.multivariate_normal`
is described by its formula.
-/
namespace Geo
open Real Matrix
variable {d : Nat} {S : Type}

/-! ### Coefficients -/

/-- `np.dot` (`simulation_utils.py:40`, `51`). -/
def dotR (p q : Fin d → ℝ) : ℝ := ∑ i, p i * q i

/-- `np.linalg.norm` along the last axis (`simulation_utils.py:26`, `37`, `40`). -/
noncomputable def normR (p : Fin d → ℝ) : ℝ := √(dotR p p)

/-- The covariance argument: a number stands for a multiple of the identity
(`simulation_utils.py:9-12`). -/
inductive CovArg (d : Nat)
  | scalar (v : ℝ)
  | full (A : Matrix (Fin d) (Fin d) ℝ)

/-- The matrix scipy works with: `scipy.linalg.eigh` reads the lower triangle only
(`simulation_utils.py:9-12`). -/
def CovArg.matrix : CovArg d → Matrix (Fin d) (Fin d) ℝ
  | .scalar v => Matrix.diagonal fun _ => v
  | .full A => Matrix.of fun i j => A (max i j) (min i j)

/-- The squared Mahalanobis distance (`simulation_utils.py:12`, `15`). -/
noncomputable def maha (mean : Fin d → ℝ) (V : Matrix (Fin d) (Fin d) ℝ) (p : Fin d → ℝ) : ℝ :=
  (p - mean) ⬝ᵥ (V⁻¹ *ᵥ (p - mean))

/-- `multivariate_normal.pdf` for a positive definite matrix (`simulation_utils.py:12`, `15`). -/
noncomputable def normalPdf (mean : Fin d → ℝ) (V : Matrix (Fin d) (Fin d) ℝ) (p : Fin d → ℝ) : ℝ :=
  exp (-(1 / 2) * (d * log (2 * π) + log V.det + maha mean V p))

open Classical in
/-- `gaussian_coefficient` (`simulation_utils.py:4-17`): scipy refuses a singular matrix with
`LinAlgError` and one that is not positive semidefinite with `ValueError`, when the coefficient is
built. Scipy treats eigenvalues below a tolerance as zero; here the tolerance is zero. -/
noncomputable def gaussianCoefficient (mean : Fin d → ℝ) (cov : CovArg d) (amplitude : ℝ) :
    Except Err ((Fin d → ℝ) → ℝ) :=
  if cov.matrix.PosDef then
    .ok fun p => normalPdf mean cov.matrix p * amplitude / normalPdf mean cov.matrix mean
  else if cov.matrix.PosSemidef then .error .linAlgError
  else .error .valueError

/-- `radial_coefficient` (`simulation_utils.py:20-28`). -/
noncomputable def radialCoefficient (origin : Fin d → ℝ) (amplitude : ℝ) (p : Fin d → ℝ) : ℝ :=
  normR (p - origin) * amplitude

/-- The sum of numbers that may be NaN (`simulation_utils.py:68`). -/
noncomputable def sumN (f : Fin d → Num ℝ) : Num ℝ := Num.sum (List.ofFn f)

/-- `directional_coefficient` (`simulation_utils.py:31-42`); divisions by zero follow IEEE. -/
noncomputable def directionalCoefficient (direction : Fin d → ℝ) (amplitude : ℝ)
    (p : Fin d → ℝ) : Num ℝ :=
  Num.mul (Num.div
    (sumN fun i => Num.mul (.fin (p i)) (Num.div (.fin (direction i)) (.fin (normR direction))))
    (.fin (normR p))) (.fin amplitude)

/-- `sine_coefficient` (`simulation_utils.py:45-53`). -/
noncomputable def sineCoefficient (frequency : ℝ) (direction : Fin d → ℝ) (amplitude : ℝ)
    (p : Fin d → ℝ) : ℝ :=
  sin (dotR p direction * frequency) * amplitude

/-- `coefficient_wrapper` (`simulation_utils.py:56-72`) applied to the rows of an array of points:
`whole` is the operator called on a vector without an axis, `rows` the operator called with
`axis=-1` on each row of the stacked values. A single coefficient uses the first, several the
second; without coefficients `np.column_stack` raises `ValueError`. -/
def coefficientWrapper {P : Type} (whole : List ℝ → List ℝ) (rows : List ℝ → ℝ)
    (cs : List (P → ℝ)) (points : List P) : Except Err (List ℝ) :=
  match cs with
  | [] => .error .valueError
  | [c] => .ok (whole (points.map c))
  | cs => .ok (points.map fun p => rows (cs.map fun c => c p))

/-! ### Response functions, for one observation -/

/-- `polynomial_function` (`simulation_utils.py:75-79`). -/
def polynomialFunction {P : Type} (c : P → ℝ) (degree : Nat) (x : ℝ) (p : P) : ℝ := c p * x ^ degree
/-- `square_function` (`simulation_utils.py:82-83`). -/
def squareFunction {P : Type} (c : P → ℝ) (x : ℝ) (p : P) : ℝ := polynomialFunction c 2 x p
/-- `linear_function` (`simulation_utils.py:86-87`). -/
def linearFunction {P : Type} (c : P → ℝ) (x : ℝ) (p : P) : ℝ := polynomialFunction c 1 x p
/-- `interaction_function` (`simulation_utils.py:90-94`). -/
def interactionFunction {P : Type} (c : P → ℝ) (x₁ x₂ : ℝ) (p : P) : ℝ := c p * x₁ * x₂
/-- `sigmoid_function` (`simulation_utils.py:97-101`). -/
noncomputable def sigmoidFunction {P : Type} (c : P → ℝ) (x : ℝ) (p : P) : ℝ := c p * tanh x
/-- `relu_function` (`simulation_utils.py:104-108`). -/
noncomputable def reluFunction {P : Type} (c : P → ℝ) (x : ℝ) (p : P) : ℝ := c p * max 0 x
/-- `exponential_function` (`simulation_utils.py:111-115`). -/
noncomputable def exponentialFunction {P : Type} (c : P → ℝ) (x : ℝ) (p : P) : ℝ := c p * exp x

/-! ### Sampling -/

/-- numpy's generator: `n` draws from the uniform distribution on [0, 1), the normal and the
exponential distribution, and `n` positions below `m` (`np.random.choice` with replacement; it
refuses an empty list) (`simulation_utils.py:140`, `142`, `170-176`). -/
structure DrawRng (S : Type) where
  uniform : S → Nat → List ℝ × S
  normal : S → Nat → List ℝ × S
  exponential : S → Nat → List ℝ × S
  choice : S → Nat → Nat → List Nat × S

/-- The bounds of one dimension: a sequence of numbers; for `"continuous"` its first two entries
are the limits, for `"discrete"` it lists the classes (`simulation_utils.py:124`, `132-133`). -/
abbrev DimBounds := List ℝ

/-- The bounds argument of `sample_points`: a list has one entry per dimension (a number if the
caller passed one pair as a list), anything else is used for all dimensions
(`simulation_utils.py:124`, `132-133`). -/
inductive BoundsArg
  | common (b : DimBounds)
  | perDim (l : List (ℝ ⊕ DimBounds))

/-- The type argument of `sample_points` (`simulation_utils.py:135-136`). -/
inductive TypeArg
  | common (t : String)
  | perDim (l : List String)

/-- `bounds[i]` (`simulation_utils.py:132-133`, `140`). -/
def BoundsArg.at : BoundsArg → Nat → Except Err (ℝ ⊕ DimBounds)
  | .common b, _ => .ok (.inr b)
  | .perDim l, i => pyGet l i

/-- `numeraical_type[i]` (`simulation_utils.py:135-136`, `139`). -/
def TypeArg.at : TypeArg → Nat → Except Err String
  | .common t, _ => .ok t
  | .perDim l, i => pyGet l i

/-- `np.random.uniform(lo, hi, n)` (`simulation_utils.py:140`). -/
def uniformBetween (g : DrawRng S) (s : S) (lo hi : ℝ) (n : Nat) : List ℝ × S :=
  ((g.uniform s n).1.map fun u => lo + (hi - lo) * u, (g.uniform s n).2)

/-- A continuous column (`simulation_utils.py:140`): `TypeError` for indexing a number. -/
def continuousColumn (g : DrawRng S) (s : S) (n : Nat) : ℝ ⊕ DimBounds → Except Err (List ℝ) × S
  | .inl _ => (.error .typeError, s)
  | .inr (lo :: hi :: _) => (.ok (uniformBetween g s lo hi n).1, (uniformBetween g s lo hi n).2)
  | .inr _ => (.error .indexError, s)

/-- A discrete column (`simulation_utils.py:142`): `np.random.choice` of a number `k` draws from
`0, .., k - 1` if it is a positive integer; numbers are not modelled further. -/
def discreteColumn (g : DrawRng S) (s : S) (n : Nat) : ℝ ⊕ DimBounds → Except Err (List ℝ) × S
  | .inl _ => (.error .valueError, s)
  | .inr [] => (.error .valueError, s)
  | .inr (c :: cs) => (.ok ((g.choice s (cs.length + 1) n).1.map fun k => (c :: cs).getD k 0),
      (g.choice s (cs.length + 1) n).2)

/-- One dimension (`simulation_utils.py:138-142`): for another type the column stays zero, and the
bounds are not looked at. -/
def pointsColumn (g : DrawRng S) (s : S) (n : Nat) (bounds : BoundsArg) (types : TypeArg) (i : Nat) :
    Except Err (List ℝ) × S :=
  match types.at i with
  | .error e => (.error e, s)
  | .ok t =>
    if t = "continuous" then
      match bounds.at i with
      | .error e => (.error e, s)
      | .ok b => continuousColumn g s n b
    else if t = "discrete" then
      match bounds.at i with
      | .error e => (.error e, s)
      | .ok b => discreteColumn g s n b
    else (.ok (List.replicate n 0), s)

/-- The loop over the dimensions (`simulation_utils.py:138-142`). -/
def pointsLoop (g : DrawRng S) (n : Nat) (bounds : BoundsArg) (types : TypeArg) :
    List Nat → S → Except Err (List (List ℝ)) × S
  | [], s => (.ok [], s)
  | i :: is, s =>
    match pointsColumn g s n bounds types i with
    | (.error e, s) => (.error e, s)
    | (.ok c, s) =>
      match pointsLoop g n bounds types is s with
      | (.error e, s) => (.error e, s)
      | (.ok cs, s) => (.ok (c :: cs), s)

/-- `sample_points` (`simulation_utils.py:124-144`): the columns of the result. -/
def samplePoints (g : DrawRng S) (s : S) (n dim : Nat) (bounds : BoundsArg) (types : TypeArg) :
    Except Err (List (List ℝ)) × S :=
  pointsLoop g n bounds types (List.range dim) s

/-- A parameter of `sample_x`: a number, a vector, or a function of the points
(`simulation_utils.py:159-166`). -/
inductive XParam (P : Type)
  | num (v : ℝ)
  | vec (l : List ℝ)
  | fn (c : List P → List ℝ)

/-- `p(points)` if `p` is callable (`simulation_utils.py:159-166`). -/
def XParam.eval {P : Type} (points : List P) : XParam P → XParam P
  | .fn c => .vec (c points)
  | p => p

/-- Is it callable? (`simulation_utils.py:159-166`). -/
def XParam.callable {P : Type} : XParam P → Bool
  | .fn _ => true
  | _ => false

/-- The bounds argument of `sample_x`; only a list can be assigned to
(`simulation_utils.py:153-157`). -/
structure XBounds (P : Type) where
  isList : Bool
  lo : XParam P
  hi : XParam P

/-- Entry `i` of an evaluated parameter broadcast to `n` entries: `ValueError` for another length.
A vector of length one, and `n = 1`, which numpy would also broadcast, count as errors
(`simulation_utils.py:171-177`). -/
def XParam.entries {P : Type} (n : Nat) : XParam P → Except Err (List ℝ)
  | .num v => .ok (List.replicate n v)
  | .vec l => if l.length = n then .ok l else .error .valueError
  | .fn _ => .error .typeError

/-- Evaluation of callable bounds (`simulation_utils.py:153-157`): the items of the caller's list
are replaced, a tuple refuses the assignment with `TypeError`. -/
def evalBounds {P : Type} (points : List P) (b : XBounds P) : Except Err Unit × XBounds P :=
  if !b.isList && (b.lo.callable || b.hi.callable) then (.error .typeError, b)
  else (.ok (), { b with lo := b.lo.eval points, hi := b.hi.eval points })

/-- `base * (bounds[1] - bounds[0]) + bounds[0] + mean` (`simulation_utils.py:171`). -/
def uniformX (base lo hi mean : List ℝ) : List ℝ :=
  (List.range base.length).map fun i =>
    base.getD i 0 * (hi.getD i 0 - lo.getD i 0) + lo.getD i 0 + mean.getD i 0

/-- `base * variance + mean` (`simulation_utils.py:174`). -/
def normalX (base variance mean : List ℝ) : List ℝ :=
  (List.range base.length).map fun i => base.getD i 0 * variance.getD i 0 + mean.getD i 0

/-- `base * scale` (`simulation_utils.py:177`). -/
def exponentialX (base scale : List ℝ) : List ℝ :=
  (List.range base.length).map fun i => base.getD i 0 * scale.getD i 0

/-- The arguments of `sample_x` besides the bounds (`simulation_utils.py:147`). -/
structure XArgs (P : Type) where
  type : String := "uniform"
  mean : XParam P := .num 0
  variance : XParam P := .num 1
  scale : XParam P := .num 1
  points : List P

/-- The values drawn by `sample_x` for evaluated bounds (`simulation_utils.py:159-177`); an unknown
type returns `None`. -/
def drawX {P : Type} (g : DrawRng S) (s : S) (n : Nat) (lo hi : XParam P) (a : XArgs P) :
    Except Err (Option (List ℝ)) × S :=
  if a.type = "uniform" then
    (match lo.entries n, hi.entries n, (a.mean.eval a.points).entries n with
      | .ok lo, .ok hi, .ok mean => .ok (some (uniformX (g.uniform s n).1 lo hi mean))
      | _, _, _ => .error .valueError, (g.uniform s n).2)
  else if a.type = "normal" then
    (match (a.variance.eval a.points).entries n, (a.mean.eval a.points).entries n with
      | .ok var, .ok mean => .ok (some (normalX (g.normal s n).1 var mean))
      | _, _ => .error .valueError, (g.normal s n).2)
  else if a.type = "exponential" then
    (match (a.scale.eval a.points).entries n with
      | .ok scale => .ok (some (exponentialX (g.exponential s n).1 scale))
      | _ => .error .valueError, (g.exponential s n).2)
  else (.ok none, s)

/-- `sample_x` (`simulation_utils.py:147-177`): the result, the caller's bounds afterwards and the
generator. -/
def sampleX {P : Type} (g : DrawRng S) (s : S) (n : Nat) (bounds : XBounds P) (a : XArgs P) :
    (Except Err (Option (List ℝ)) × XBounds P) × S :=
  match evalBounds a.points bounds with
  | (.error e, b) => ((.error e, b), s)
  | (.ok (), b) => (((drawX g s n b.lo b.hi a).1, b), (drawX g s n b.lo b.hi a).2)

end Geo
