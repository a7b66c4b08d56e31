import Verif.Model.WeightModel
/-
Model of what a fitted model shares with the caller: `check_X_y` (`georegression/weight_model.py:329`)
does not copy numeric arrays, the coordinates and the weights are not copied either
(`weight_model.py:337-341`, `357-359`), so the attributes are the caller's own arrays.
-/
set_option linter.unusedSectionVars false
namespace Geo
variable {K : Type} [Field K] [LinearOrder K] [IsStrictOrderedRing K] [FloorRing K]
variable {F C S : Type}

/-- The arrays the caller has, by address: feature tables, targets, coordinate lists, weight matrices
(`weight_model.py:314`). Arrays of different kinds do not overlap. -/
structure Store (K C : Type) where
  tables : Nat → Mat K
  vectors : Nat → List K
  places : Nat → C
  weights : Nat → WMat K

/-- An argument (`weight_model.py:314`): an array of the caller, or something `check_X_y` has to convert
into a new array, such as a list of targets. -/
inductive Passed (α : Type)
  | array (a : Nat)
  | other (v : α)

/-- The contents of an argument (`weight_model.py:329`). -/
def Passed.read {α : Type} (m : Nat → α) : Passed α → α
  | .array a => m a
  | .other v => v

/-- Where the argument lives (`weight_model.py:329`). -/
def Passed.addr {α : Type} : Passed α → Option Nat
  | .array a => some a
  | .other _ => none

/-- A model object (`weight_model.py:279-308`): the attributes, and for `X`, `y`,
`coordinate_vector_list` and `weight_matrix_` the address of the caller's array they are, if they are
one. -/
structure HeldState (K F C : Type) where
  core : WMState K F C := {}
  xAt : Option Nat := none
  yAt : Option Nat := none
  placesAt : Option Nat := none
  weightsAt : Option Nat := none

/-- The present value of an attribute (`weight_model.py:337-341`). -/
def present {α : Type} (m : Nat → α) (at_ : Option Nat) (v : Option α) : Option α :=
  match at_ with
  | some a => some (m a)
  | none => v

/-- What the methods of the object read (`weight_model.py:386-756`). -/
def HeldState.now (o : HeldState K F C) (h : Store K C) : WMState K F C :=
  { o.core with
    X := present h.tables o.xAt o.core.X
    y := present h.vectors o.yAt o.core.y
    coords := present h.places o.placesAt o.core.coords
    weightMatrix := present h.weights o.weightsAt o.core.weightMatrix }

/-- What a call of `fit` leaves behind (`weight_model.py:314-384`). -/
structure HeldResult (K F C S : Type) where
  result : Except Err Unit
  object : HeldState K F C
  store : Store K C
  rng : S

/-- The new address of `weight_matrix_` (`weight_model.py:343-359`). -/
def weightsAddr (p : WMParams K C) (o : HeldState K F C) (coords : Option C)
    (W : Option (Passed (WMat K))) : Option Nat :=
  match W with
  | some w => w.addr
  | none =>
    match chosenWeights p coords none with
    | .ok _ => none
    | .error _ => o.weightsAt

/-- The weight matrices of the caller after the call: the given one has been worked on in place
(`weight_model.py:350-356`). -/
def weightsAfter (h : Store K C) (W : Option (Passed (WMat K))) (caller : Option (WMat K)) : Store K C :=
  match W, caller with
  | some (.array a), some V => { h with weights := fun b => if b = a then V else h.weights b }
  | _, _ => h

/-- `WeightModel.fit` with arrays of the caller (`weight_model.py:314-384`). -/
def fitHeld (L : Learner K F) (rng : Rng S) (p : WMParams K C) (o : HeldState K F C) (s : S)
    (h : Store K C) (x : Passed (Mat K)) (y : Passed (List K)) (coords : Option (Passed C))
    (W : Option (Passed (WMat K))) : HeldResult K F C S :=
  let X := x.read h.tables
  let ys := y.read h.vectors
  let cs := coords.map (·.read h.places)
  let out := wmFit L rng p (o.now h) s X ys cs (W.map (·.read h.weights))
  let good := checkXy X ys
  let cached := good && p.cacheData && !(coords.isNone && W.isNone)
  ⟨out.result,
    { core := out.state
      xAt := if cached then x.addr else o.xAt
      yAt := if cached then y.addr else o.yAt
      placesAt := if cached then coords.bind (·.addr) else o.placesAt
      weightsAt := if good then weightsAddr p o cs W else o.weightsAt },
    weightsAfter h W out.caller, out.rng⟩

end Geo
