import Verif.Model.WeightModel
/-
Model of how the model objects are made and of what they inherit from scikit-learn: the binding of
Python arguments to the parameters of `WeightModel.__init__` (`georegression/weight_model.py:244-311`)
and `StackingWeightModel.__init__` (`georegression/stacking_model.py:168-228`), the call in
`georegression/simulation/parameter_tuning.py`, and `get_params`, `set_params`, `clone`, `repr` and
`score` of scikit-learn's base classes.
-/
set_option linter.unusedSectionVars false
namespace Geo

/-- Python objects as far as the constructors tell them apart (`weight_model.py:244-259`): `V` are all
the others (estimators, lists, arrays, strings). -/
inductive PyVal (V : Type)
  | none
  | bool (b : Bool)
  | int (n : ℤ)
  | float (q : ℚ)
  | obj (v : V)
deriving DecidableEq

/-- The parameters of a function after `self` with their defaults, whether it has `*args`, whether it
has `**kwargs` (`weight_model.py:244-259`). -/
structure Signature (V : Type) where
  params : List (String × Option (PyVal V))
  varArgs : Bool
  varKw : Bool

/-- The names of the parameters (`weight_model.py:244-259`). -/
def Signature.names {V : Type} (g : Signature V) : List String := g.params.map Prod.fst

/-- The arguments of a call after binding (`weight_model.py:244-259`). -/
structure BoundArgs (V : Type) where
  vals : List (String × PyVal V)
  args : List (PyVal V)
  kwargs : List (String × PyVal V)

variable {V : Type}

/-- Python's rule for the named parameters (`weight_model.py:244-259`): positional arguments come
first and may not be repeated by keyword, then keywords, then defaults. -/
def fillParams (kw : List (String × PyVal V)) :
    List (String × Option (PyVal V)) → List (PyVal V) → Except Err (List (String × PyVal V))
  | [], _ => .ok []
  | p :: ps, v :: pos =>
    if (kw.lookup p.1).isSome then .error .typeError
    else (fillParams kw ps pos).map ((p.1, v) :: ·)
  | p :: ps, [] =>
    match (kw.lookup p.1).or p.2 with
    | some v => (fillParams kw ps []).map ((p.1, v) :: ·)
    | none => .error .typeError

/-- The call of a method with positional and keyword arguments (`weight_model.py:244-259`): too many
positional arguments need `*args`, unknown keywords need `**kwargs`, no keyword may be repeated or be
`self`. -/
def bindCall (g : Signature V) (pos : List (PyVal V)) (kw : List (String × PyVal V)) :
    Except Err (BoundArgs V) :=
  if ¬ (kw.map Prod.fst).Nodup ∨ "self" ∈ kw.map Prod.fst then .error .typeError
  else if g.varArgs = false ∧ g.params.length < pos.length then .error .typeError
  else if g.varKw = false ∧ (kw.any fun e => decide (e.1 ∉ g.names)) = true then .error .typeError
  else (fillParams kw g.params pos).map fun vals =>
    ⟨vals, pos.drop g.params.length, kw.filter fun e => decide (e.1 ∉ g.names)⟩

/-- A model object before any fit: its attributes (missing: `none`), and the attributes `args` and
`kwargs` (`weight_model.py:262-311`). -/
structure ModelObject (V : Type) where
  attrs : String → Option (PyVal V)
  args : List (PyVal V)
  kwargs : List (String × PyVal V)

/-- The signature of `WeightModel.__init__` (`weight_model.py:244-259`). -/
def weightModelSig : Signature V where
  params := [("local_estimator", none), ("distance_measure", some .none),
    ("kernel_type", some .none), ("distance_ratio", some .none), ("bandwidth", some .none),
    ("neighbour_count", some .none), ("distance_args", some .none),
    ("leave_local_out", some (.bool true)), ("sample_local_rate", some .none),
    ("cache_data", some (.bool false)), ("cache_estimator", some (.bool false)),
    ("n_jobs", some .none), ("n_patches", some .none)]
  varArgs := true
  varKw := true

/-- The attributes that start as `None` (`weight_model.py:280-308`). -/
def weightModelBlank : List String :=
  ["is_fitted_", "n_features_in_", "X", "y", "N", "coordinate_vector_list",
   "coordinate_vector_dimension_", "weight_matrix_", "neighbour_matrix_", "local_indices_",
   "y_sample_", "local_estimator_list", "local_predict_", "llocv_score_", "local_residual_",
   "permutation_score_decrease_", "interaction_matrix_", "local_partial_", "feature_partial_",
   "local_ice_", "feature_ice_"]

/-- `self.n_patches` (`weight_model.py:274-277`). -/
def patchesAttr (cpu : Nat) (jobs patches : Option (PyVal V)) : Option (PyVal V) :=
  match jobs, patches with
  | some .none, some .none => some (.int cpu)
  | _, p => p

/-- The body of `WeightModel.__init__` (`weight_model.py:260-311`). -/
def weightModelBody (cpu : Nat) (b : BoundArgs V) : ModelObject V where
  attrs := fun name =>
    if name ∈ weightModelBlank then some .none
    else if name = "n_patches" then patchesAttr cpu (b.vals.lookup "n_jobs") (b.vals.lookup "n_patches")
    else b.vals.lookup name
  args := b.args
  kwargs := b.kwargs

/-- `WeightModel(*pos, **kw)` on a machine with `cpu` processors (`weight_model.py:244-311`). -/
def weightModelInit (cpu : Nat) (pos : List (PyVal V)) (kw : List (String × PyVal V)) :
    Except Err (ModelObject V) :=
  (bindCall weightModelSig pos kw).map (weightModelBody cpu)

/-- The signature of `StackingWeightModel.__init__` (`stacking_model.py:168-194`). -/
def stackingSig : Signature V where
  params := [("local_estimator", none), ("distance_measure", some .none),
    ("kernel_type", some .none), ("distance_ratio", some .none), ("bandwidth", some .none),
    ("neighbour_count", some .none), ("midpoint", some .none), ("distance_args", some .none),
    ("leave_local_out", some (.bool true)), ("sample_local_rate", some .none),
    ("cache_data", some (.bool false)), ("cache_estimator", some (.bool false)),
    ("n_jobs", some .none), ("n_patches", some .none), ("alpha", some (.float 10)),
    ("neighbour_leave_out_rate", some .none), ("neighbour_leave_out_shrink_rate", some .none),
    ("meta_fitting_shrink_rate", some .none), ("estimator_sample_rate", some .none),
    ("use_numba", some (.bool false))]
  varArgs := true
  varKw := true

/-- The parameters handed to `super().__init__` by keyword (`stacking_model.py:196-214`). -/
def handedOn : List String :=
  ["distance_measure", "kernel_type", "distance_ratio", "bandwidth", "neighbour_count", "midpoint",
   "distance_args", "leave_local_out", "sample_local_rate", "cache_data", "cache_estimator", "n_jobs",
   "n_patches"]

/-- The parameters `StackingWeightModel` keeps itself (`stacking_model.py:215-220`). -/
def keptHere : List String :=
  ["alpha", "neighbour_leave_out_rate", "neighbour_leave_out_shrink_rate",
   "meta_fitting_shrink_rate", "estimator_sample_rate", "use_numba"]

/-- The further attributes that start as `None` (`stacking_model.py:222-228`). -/
def stackingBlank : List String :=
  ["base_estimator_list", "meta_estimator_list", "stacking_predict_", "stacking_scores_",
   "llocv_stacking_"]

/-- The value of a bound parameter (`stacking_model.py:196-214`). -/
def boundVal (b : BoundArgs V) (name : String) : PyVal V := (b.vals.lookup name).getD .none

/-- The attributes set after `super().__init__` (`stacking_model.py:215-228`). -/
def stackingBody (b : BoundArgs V) (o : ModelObject V) : ModelObject V :=
  { o with attrs := fun name =>
      if name ∈ stackingBlank then some .none
      else if name ∈ keptHere then b.vals.lookup name
      else o.attrs name }

/-- `StackingWeightModel(*pos, **kw)` (`stacking_model.py:168-228`): the parent's constructor is called
with `local_estimator` and `*args` by position, the rest by keyword. -/
def stackingInit (cpu : Nat) (pos : List (PyVal V)) (kw : List (String × PyVal V)) :
    Except Err (ModelObject V) :=
  match bindCall stackingSig pos kw with
  | .error e => .error e
  | .ok b =>
    (weightModelInit cpu (boundVal b "local_estimator" :: b.args)
      (handedOn.map (fun n => (n, boundVal b n)) ++ b.kwargs)).map (stackingBody b)

/-- The model of `objective` in `parameter_tuning.py:13-15`: the model is made from the four tuned
values only; the rest of the line needs the model. -/
def tuningModel (cpu : Nat) (estimators depth features criterion : PyVal V) :
    Except Err (ModelObject V) :=
  stackingInit cpu [] [("n_estimators", estimators), ("max_depth", depth),
    ("max_features", features), ("criterion", criterion)]

/-- `BaseEstimator._get_param_names` of scikit-learn 1.2, inherited at `weight_model.py:239`:
`RuntimeError` for a constructor with `*args`. The names are not sorted here. -/
def skParamNames (g : Signature V) : Except Err (List String) :=
  if g.varArgs then .error .runtimeError else .ok g.names

/-- `BaseEstimator.get_params(deep=False)`, inherited at `weight_model.py:239`. -/
def skGetParams (g : Signature V) (o : ModelObject V) : Except Err (List (String × PyVal V)) :=
  (skParamNames g).bind fun names => mapE (fun n =>
    match o.attrs n with
    | some v => .ok (n, v)
    | none => .error .attributeError) names

/-- `BaseEstimator.set_params(**kw)`, inherited at `weight_model.py:239`; without nested names. -/
def skSetParams (g : Signature V) (o : ModelObject V) (kw : List (String × PyVal V)) :
    Except Err (ModelObject V) :=
  if kw.length = 0 then .ok o
  else (skGetParams g o).bind fun valid =>
    if (kw.any fun e => decide (e.1 ∉ valid.map Prod.fst)) = true then .error .valueError
    else .ok { o with attrs := fun n => (kw.lookup n).or (o.attrs n) }

/-- `sklearn.base.clone` of an object with `get_params`, as it is applied to model objects by
scikit-learn's model selection (documented use: `weight_model.py:240-242`). `one` clones a parameter.
The comparison at the end is by identity in scikit-learn, by value here. -/
def skClone [DecidableEq V] (g : Signature V)
    (init : List (PyVal V) → List (String × PyVal V) → Except Err (ModelObject V))
    (one : PyVal V → Except Err (PyVal V)) (o : ModelObject V) : Except Err (ModelObject V) :=
  (skGetParams g o).bind fun ps =>
    (mapE (fun p => (one p.2).map fun v => (p.1, v)) ps).bind fun qs =>
      (init [] qs).bind fun o' =>
        (skGetParams g o').bind fun rs =>
          if rs = qs then .ok o' else .error .runtimeError

/-- `repr` of an estimator, which lists the parameters (inherited at `weight_model.py:239`); `render`
is the layout. -/
def skRepr (g : Signature V) (render : List (String × PyVal V) → String) (o : ModelObject V) :
    Except Err String := (skGetParams g o).map render

/-- The public methods the two classes define or inherit (`weight_model.py:239-758`,
`stacking_model.py:167-1109`). -/
def modelMethods : List String :=
  ["fit", "predict_by_weight", "predict_by_fit", "importance_score_local",
   "importance_score_global", "interaction_score_global", "partial_dependence", "local_ICE",
   "local_ALE", "global_ALE", "log_before_fitting", "log_stacking_before_fitting", "get_params",
   "set_params", "score"]

/-- `RegressorMixin.score` (inherited at `weight_model.py:239`): asks for `self.predict` first. -/
def skScore {R : Type} (methods : List String) (score : Except Err R) : Except Err R :=
  if "predict" ∈ methods then score else .error .attributeError

/-- The signature of `StackingEstimator.fit`, which has no `self` (`stacking_model.py:1144`): called on
an object, `X` is the object. -/
def stackedFitSig : Signature V := ⟨[("X", none), ("y", none)], false, false⟩

/-- `estimator.fit(*pos, **kw)` on a `StackingEstimator` (`stacking_model.py:1144-1148`): returns
`None`. -/
def stackedFit (this : PyVal V) (pos : List (PyVal V)) (kw : List (String × PyVal V)) :
    Except Err (PyVal V) :=
  (bindCall stackedFitSig (this :: pos) kw).map fun _ => .none

end Geo
