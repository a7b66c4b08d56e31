import Verif.Model.Constructor
import Mathlib.Tactic.IntervalCases
/-
C134 and C135: what the model objects inherit from scikit-learn, and what becomes of the arguments of
the constructors.
-/
set_option linter.unusedSectionVars false
namespace Geo
variable {V : Type}

/-! ### What scikit-learn can do with a model -/

/-- C134: a model, however it was made, cannot be used where scikit-learn needs its parameters:
`get_params`, `clone` (with which every grid search and cross validation begins), `repr` and
`set_params` raise `RuntimeError`; only `set_params()` without arguments returns the object. -/
theorem C134_no_parameters [DecidableEq V] (cpu : Nat) (one : PyVal V → Except Err (PyVal V))
    (render : List (String × PyVal V) → String) (o : ModelObject V)
    (kw : List (String × PyVal V)) :
    skGetParams weightModelSig o = .error .runtimeError ∧
    skGetParams stackingSig o = .error .runtimeError ∧
    skClone weightModelSig (weightModelInit cpu) one o = .error .runtimeError ∧
    skClone stackingSig (stackingInit cpu) one o = .error .runtimeError ∧
    skRepr weightModelSig render o = .error .runtimeError ∧
    skRepr stackingSig render o = .error .runtimeError ∧
    (kw ≠ [] → skSetParams weightModelSig o kw = .error .runtimeError ∧
      skSetParams stackingSig o kw = .error .runtimeError) ∧
    skSetParams weightModelSig o [] = .ok o ∧ skSetParams stackingSig o [] = .ok o := by
  refine ⟨rfl, rfl, rfl, rfl, rfl, rfl, fun h => ?_, rfl, rfl⟩
  have h0 : kw.length ≠ 0 := by simpa using h
  simp only [skSetParams, if_neg h0]
  exact ⟨rfl, rfl⟩

/-- C134: `score` raises `AttributeError`: neither class has a method `predict`. -/
theorem C134_no_score {R : Type} (score : Except Err R) :
    skScore modelMethods score = .error .attributeError := by
  simp [skScore, modelMethods]

/-- C134: `fit` of a stacked local estimator raises `TypeError` if it is given data and targets, by
position or by name. -/
theorem C134_stacked_fit (this X y : PyVal V) :
    stackedFit this [X, y] [] = .error .typeError ∧
    stackedFit this [X] [("y", y)] = .error .typeError ∧
    stackedFit this [] [("X", X), ("y", y)] = .error .typeError := by
  refine ⟨rfl, ?_, ?_⟩
  · simp [stackedFit, bindCall, stackedFitSig, fillParams, Signature.names, List.lookup, Except.map]
  · simp [stackedFit, bindCall, stackedFitSig, fillParams, Signature.names, List.lookup, Except.map]

/-! ### Binding -/

/-- What a parameter gets: the positional argument, else the keyword, else the default. -/
def argOf (pos : List (PyVal V)) (kw : List (String × PyVal V)) (i : Nat)
    (p : String × Option (PyVal V)) : Option (PyVal V) :=
  (pos[i]?).or ((kw.lookup p.1).or p.2)

theorem fillParams_get {kw : List (String × PyVal V)} :
    ∀ {ps : List (String × Option (PyVal V))} {pos : List (PyVal V)} {vals : List (String × PyVal V)},
      fillParams kw ps pos = .ok vals → (ps.map Prod.fst).Nodup →
      (∀ n, n ∉ ps.map Prod.fst → vals.lookup n = none) ∧
      ∀ i p, ps[i]? = some p → (argOf pos kw i p).isSome ∧ vals.lookup p.1 = argOf pos kw i p := by
  intro ps
  induction ps with
  | nil =>
    intro pos vals h _
    cases h
    exact ⟨fun _ _ => rfl, fun i p h => by simp at h⟩
  | cons q qs ih =>
    intro pos vals h hn
    simp only [List.map_cons, List.nodup_cons] at hn
    have key : ∀ (v : PyVal V) (rest : List (PyVal V)) (tail : List (String × PyVal V)),
        fillParams kw qs rest = .ok tail → vals = (q.1, v) :: tail →
        (∀ i p, qs[i]? = some p → argOf pos kw (i + 1) p = argOf rest kw i p) →
        argOf pos kw 0 q = some v →
        (∀ n, n ∉ (q :: qs).map Prod.fst → vals.lookup n = none) ∧
        ∀ i p, (q :: qs)[i]? = some p →
          (argOf pos kw i p).isSome ∧ vals.lookup p.1 = argOf pos kw i p := by
      intro v rest tail ht hv hstep h0
      obtain ⟨i1, i2⟩ := ih ht hn.2
      subst hv
      refine ⟨fun n hnn => ?_, fun i p hp => ?_⟩
      · simp only [List.map_cons, List.mem_cons, not_or] at hnn
        rw [List.lookup_cons, beq_eq_false_iff_ne.mpr hnn.1]
        exact i1 n hnn.2
      · cases i with
        | zero =>
          simp only [List.getElem?_cons_zero, Option.some.injEq] at hp
          subst hp
          rw [h0]
          simp
        | succ i =>
          simp only [List.getElem?_cons_succ] at hp
          rw [hstep i p hp]
          have hne : p.1 ≠ q.1 := by
            intro he
            exact hn.1 (he ▸ List.mem_map_of_mem (List.mem_of_getElem? hp))
          rw [List.lookup_cons, beq_eq_false_iff_ne.mpr hne]
          exact i2 i p hp
    cases pos with
    | cons v rest =>
      simp only [fillParams] at h
      by_cases hk : (kw.lookup q.1).isSome
      · rw [if_pos hk] at h
        cases h
      · rw [if_neg hk] at h
        cases ht : fillParams kw qs rest with
        | error e => rw [ht] at h; cases h
        | ok tail =>
          rw [ht] at h
          cases h
          exact key v rest tail ht rfl (fun i p _ => by simp [argOf]) (by simp [argOf])
    | nil =>
      simp only [fillParams] at h
      cases hv : (kw.lookup q.1).or q.2 with
      | none => rw [hv] at h; cases h
      | some v =>
        rw [hv] at h
        simp only at h
        cases ht : fillParams kw qs [] with
        | error e => rw [ht] at h; cases h
        | ok tail =>
          rw [ht] at h
          cases h
          exact key v [] tail ht rfl (fun i p _ => by simp [argOf]) (by simp [argOf, hv])

theorem lookup_append_other {kw : List (String × PyVal V)} {n m : String} {v : PyVal V}
    (h : m ≠ n) : (kw ++ [(n, v)]).lookup m = kw.lookup m := by
  induction kw with
  | nil => simp [List.lookup_cons, beq_eq_false_iff_ne.mpr h]
  | cons a l ih =>
    rw [List.cons_append, List.lookup_cons, List.lookup_cons, ih]

theorem fillParams_congr {kw kw' : List (String × PyVal V)} :
    ∀ (ps : List (String × Option (PyVal V))) (pos : List (PyVal V)),
      (∀ n ∈ ps.map Prod.fst, kw'.lookup n = kw.lookup n) →
      fillParams kw' ps pos = fillParams kw ps pos := by
  intro ps
  induction ps with
  | nil => intro pos _; cases pos <;> rfl
  | cons q qs ih =>
    intro pos h
    have hq := h q.1 (by simp)
    have hqs : ∀ n ∈ qs.map Prod.fst, kw'.lookup n = kw.lookup n := fun n hn =>
      h n (List.mem_cons_of_mem _ hn)
    cases pos with
    | nil => simp only [fillParams, hq, ih [] hqs]
    | cons v rest => simp only [fillParams, hq, ih rest hqs]

/-- One more keyword that the function does not know goes to `**kwargs` and nowhere else. -/
theorem bindCall_unknown (g : Signature V) (hv : g.varKw = true) (pos : List (PyVal V))
    (kw : List (String × PyVal V)) (name : String) (v : PyVal V) (hn : name ∉ g.names)
    (hs : name ≠ "self") (hk : name ∉ kw.map Prod.fst) :
    bindCall g pos (kw ++ [(name, v)]) =
      (bindCall g pos kw).map fun b => { b with kwargs := b.kwargs ++ [(name, v)] } := by
  have h1 : (¬ ((kw ++ [(name, v)]).map Prod.fst).Nodup ∨
      "self" ∈ (kw ++ [(name, v)]).map Prod.fst) ↔
      (¬ (kw.map Prod.fst).Nodup ∨ "self" ∈ kw.map Prod.fst) := by
    have hs' : "self" ≠ name := fun h => hs h.symm
    rw [List.map_append, List.nodup_append]
    simp only [List.map_cons, List.map_nil, List.mem_append, List.mem_singleton, hs', or_false]
    constructor
    · rintro (h | h)
      · left
        intro hnd
        exact h ⟨hnd, by simp, fun a ha b hb => by rw [hb]; exact fun h => hk (h ▸ ha)⟩
      · exact .inr h
    · rintro (h | h)
      · exact .inl fun hnd => h hnd.1
      · exact .inr h
  have hfill : fillParams (kw ++ [(name, v)]) g.params pos = fillParams kw g.params pos :=
    fillParams_congr _ _ fun n hnn => lookup_append_other fun h => hn (h ▸ hnn)
  unfold bindCall
  simp only [h1, hv, hfill, Bool.true_eq_false, false_and, if_false]
  split
  · rfl
  · split
    · rfl
    · cases fillParams kw g.params pos with
      | error e => rfl
      | ok vals =>
        simp only [Except.map, List.filter_append]
        rw [List.filter_cons_of_pos (by simpa using hn)]
        rfl

theorem bindCall_ok {g : Signature V} {pos : List (PyVal V)} {kw : List (String × PyVal V)}
    {b : BoundArgs V} (h : bindCall g pos kw = .ok b) :
    (kw.map Prod.fst).Nodup ∧ "self" ∉ kw.map Prod.fst ∧ fillParams kw g.params pos = .ok b.vals ∧
      b.args = pos.drop g.params.length ∧
      b.kwargs = kw.filter fun e => decide (e.1 ∉ g.names) := by
  unfold bindCall at h
  split at h
  · cases h
  · next h1 =>
    rw [not_or, not_not] at h1
    split at h
    · cases h
    · split at h
      · cases h
      · cases hf : fillParams kw g.params pos with
        | error e => rw [hf] at h; cases h
        | ok vals =>
          rw [hf] at h
          cases h
          exact ⟨h1.1, h1.2, rfl, rfl, rfl⟩

/-! ### `WeightModel(...)` -/

theorem weightModelSig_nodup : (weightModelSig (V := V)).names.Nodup := by
  simp [Signature.names, weightModelSig]

theorem stackingSig_nodup : (stackingSig (V := V)).names.Nodup := by
  simp [Signature.names, stackingSig]

/-- C135: a keyword that `WeightModel` does not know, for example a misspelled parameter, is accepted
and has no effect but to be listed in `kwargs`: every parameter is what it would be without it. -/
theorem C135_unknown_keyword (cpu : Nat) (pos : List (PyVal V)) (kw : List (String × PyVal V))
    (name : String) (v : PyVal V) (hn : name ∉ (weightModelSig (V := V)).names)
    (hs : name ≠ "self") (hk : name ∉ kw.map Prod.fst) :
    weightModelInit cpu pos (kw ++ [(name, v)]) =
      (weightModelInit cpu pos kw).map fun o => { o with kwargs := o.kwargs ++ [(name, v)] } := by
  unfold weightModelInit
  rw [bindCall_unknown _ rfl pos kw name v hn hs hk]
  cases bindCall weightModelSig pos kw with
  | error e => rfl
  | ok b => rfl

/-- The attribute of a parameter of a weight model. -/
theorem weightModelInit_attr {cpu : Nat} {pos : List (PyVal V)} {kw : List (String × PyVal V)}
    {o : ModelObject V} (h : weightModelInit cpu pos kw = .ok o) :
    ∃ b, bindCall weightModelSig pos kw = .ok b ∧ o = weightModelBody cpu b ∧
      ∀ i p, (weightModelSig (V := V)).params[i]? = some p →
        (argOf pos kw i p).isSome ∧ b.vals.lookup p.1 = argOf pos kw i p := by
  unfold weightModelInit at h
  cases hb : bindCall weightModelSig pos kw with
  | error e => rw [hb] at h; cases h
  | ok b =>
    rw [hb] at h
    cases h
    obtain ⟨-, -, hf, -, -⟩ := bindCall_ok hb
    exact ⟨b, rfl, rfl, (fillParams_get hf weightModelSig_nodup).2⟩

/-- C135: every parameter of `WeightModel` but `n_patches` becomes the attribute of that name: the
positional argument if there is one, otherwise the keyword argument, otherwise the default.
`n_patches` is the number of processors if neither `n_jobs` nor `n_patches` is given, otherwise what
was given. Positional arguments beyond the last parameter are kept in `args` only. -/
theorem C135_weight_model_parameters (cpu : Nat) (pos : List (PyVal V))
    (kw : List (String × PyVal V)) (o : ModelObject V) (h : weightModelInit cpu pos kw = .ok o)
    (i : Nat) (name : String) (dflt : Option (PyVal V))
    (hp : (weightModelSig (V := V)).params[i]? = some (name, dflt)) :
    (name ≠ "n_patches" →
      (∀ v, pos[i]? = some v → o.attrs name = some v) ∧
      (pos.length ≤ i → ∀ v, kw.lookup name = some v → o.attrs name = some v) ∧
      (pos.length ≤ i → kw.lookup name = none → o.attrs name = dflt)) ∧
    (pos.length ≤ 11 → kw.lookup "n_jobs" = none → kw.lookup "n_patches" = none →
      o.attrs "n_patches" = some (.int cpu)) ∧
    (pos.length ≤ 12 → ∀ v, v ≠ .none → kw.lookup "n_patches" = some v →
      o.attrs "n_patches" = some v) ∧
    (pos.length ≤ 11 → ∀ v, v ≠ .none → kw.lookup "n_jobs" = some v →
      kw.lookup "n_patches" = none → o.attrs "n_patches" = some .none) ∧
    o.args = pos.drop (weightModelSig (V := V)).params.length := by
  obtain ⟨b, hb, rfl, hget⟩ := weightModelInit_attr h
  have hj := (hget 11 ("n_jobs", some .none) rfl).2
  have hq := (hget 12 ("n_patches", some .none) rfl).2
  have hpatch : (weightModelBody cpu b).attrs "n_patches" =
      patchesAttr cpu (b.vals.lookup "n_jobs") (b.vals.lookup "n_patches") := by
    simp [weightModelBody, weightModelBlank]
  refine ⟨fun hne => ?_, fun h1 h2 h3 => ?_, fun h1 v hv h2 => ?_, fun h1 v hv h2 h3 => ?_,
    (bindCall_ok hb).2.2.2.1⟩
  · have hattr : (weightModelBody cpu b).attrs name = argOf pos kw i (name, dflt) := by
      rw [← (hget i _ hp).2]
      have hmem : name ∈ (weightModelSig (V := V)).names :=
        List.mem_map_of_mem (f := Prod.fst) (List.mem_of_getElem? hp)
      have hbl : name ∉ weightModelBlank := by
        revert hmem
        have : ∀ n ∈ (weightModelSig (V := V)).names, n ∉ weightModelBlank := by
          simp [Signature.names, weightModelSig, weightModelBlank]
        exact this name
      simp only [weightModelBody, if_neg hbl, if_neg hne]
    rw [hattr]
    refine ⟨fun v hv => by simp [argOf, hv], fun hl v hv => ?_, fun hl hv => ?_⟩
    · simp [argOf, List.getElem?_eq_none hl, hv]
    · simp [argOf, List.getElem?_eq_none hl, hv]
  · have e1 : pos[11]? = none := List.getElem?_eq_none h1
    have e2 : pos[12]? = none := List.getElem?_eq_none (by omega)
    rw [hpatch, hj, hq]
    simp [argOf, e1, e2, h2, h3, patchesAttr]
  · have e2 : pos[12]? = none := List.getElem?_eq_none h1
    rw [hpatch, hq]
    simp only [argOf, e2, h2, Option.none_or, Option.some_or]
    cases v <;> first | exact absurd rfl hv | (simp [patchesAttr])
  · have e1 : pos[11]? = none := List.getElem?_eq_none h1
    have e2 : pos[12]? = none := List.getElem?_eq_none (by omega)
    rw [hpatch, hj, hq]
    simp only [argOf, e1, e2, h2, h3, Option.none_or, Option.some_or]
    cases v <;> first | exact absurd rfl hv | (simp [patchesAttr])

/-! ### `StackingWeightModel(...)` -/

theorem lookup_map_append {ns : List String} (f : String → PyVal V)
    {l : List (String × PyVal V)} {n : String} (h : n ∈ ns) :
    (ns.map (fun n => (n, f n)) ++ l).lookup n = some (f n) := by
  induction ns with
  | nil => cases h
  | cons a ns ih =>
    rw [List.map_cons, List.cons_append, List.lookup_cons]
    by_cases ha : n = a
    · subst ha
      simp
    · rw [beq_eq_false_iff_ne.mpr ha]
      exact ih (by simpa [ha] using h)

theorem lookup_none_of_not_mem {l : List (String × PyVal V)} {n : String}
    (h : n ∉ l.map Prod.fst) : l.lookup n = none := by
  induction l with
  | nil => rfl
  | cons a l ih =>
    simp only [List.map_cons, List.mem_cons, not_or] at h
    rw [List.lookup_cons, beq_eq_false_iff_ne.mpr h.1]
    exact ih h.2

theorem fillParams_all {kw : List (String × PyVal V)} (f : String → PyVal V) :
    ∀ (ps : List (String × Option (PyVal V))), (∀ p ∈ ps, kw.lookup p.1 = some (f p.1)) →
      fillParams kw ps [] = .ok (ps.map fun p => (p.1, f p.1)) := by
  intro ps
  induction ps with
  | nil => intro _; rfl
  | cons q qs ih =>
    intro h
    simp only [fillParams, h q (by simp), Option.some_or, ih fun p hp => h p (by simp [hp])]
    rfl

/-- The error of a binding is always `TypeError`. -/
theorem bindCall_error {g : Signature V} {pos : List (PyVal V)} {kw : List (String × PyVal V)}
    {e : Err} (h : bindCall g pos kw = .error e) : e = .typeError := by
  have hfill : ∀ (ps : List (String × Option (PyVal V))) (pos : List (PyVal V)) (e : Err),
      fillParams kw ps pos = .error e → e = .typeError := by
    intro ps
    induction ps with
    | nil => intro pos e h; cases pos <;> cases h
    | cons q qs ih =>
      intro pos e h
      cases pos with
      | nil =>
        simp only [fillParams] at h
        split at h
        · cases hf : fillParams kw qs [] with
          | error e' => rw [hf] at h; cases h; exact ih _ _ hf
          | ok t => rw [hf] at h; cases h
        · cases h; rfl
      | cons v rest =>
        simp only [fillParams] at h
        split at h
        · cases h; rfl
        · cases hf : fillParams kw qs rest with
          | error e' => rw [hf] at h; cases h; exact ih _ _ hf
          | ok t => rw [hf] at h; cases h
  unfold bindCall at h
  split at h
  · cases h; rfl
  · split at h
    · cases h; rfl
    · split at h
      · cases h; rfl
      · cases hf : fillParams kw g.params pos with
        | error e' => rw [hf] at h; cases h; exact hfill _ _ _ hf
        | ok t => rw [hf] at h; cases h

/-- The parent's constructor as it is called for a stacking model. -/
theorem superInit_eq {pos : List (PyVal V)} {kw : List (String × PyVal V)} {b : BoundArgs V}
    (cpu : Nat) (hb : bindCall stackingSig pos kw = .ok b) :
    weightModelInit cpu (boundVal b "local_estimator" :: b.args)
      (handedOn.map (fun n => (n, boundVal b n)) ++ b.kwargs) =
    if b.args = [] then
      .ok (weightModelBody cpu ⟨(weightModelSig (V := V)).names.map fun n => (n, boundVal b n), [],
        ("midpoint", boundVal b "midpoint") :: b.kwargs⟩)
    else .error .typeError := by
  obtain ⟨hnd, hself, -, -, hkw⟩ := bindCall_ok hb
  have hkeys : ∀ n ∈ b.kwargs.map Prod.fst, n ∉ (stackingSig (V := V)).names ∧ n ∈ kw.map Prod.fst := by
    intro n hn
    rw [hkw] at hn
    obtain ⟨e, he, rfl⟩ := List.mem_map.mp hn
    rw [List.mem_filter] at he
    exact ⟨by simpa using he.2, List.mem_map_of_mem he.1⟩
  have hsub : ∀ n ∈ handedOn, n ∈ (stackingSig (V := V)).names := by
    simp [handedOn, Signature.names, stackingSig]
  have hsub' : ∀ n ∈ (weightModelSig (V := V)).names, n ∈ (stackingSig (V := V)).names := by
    simp [Signature.names, stackingSig, weightModelSig]
  have hmap : (handedOn.map (fun n => (n, boundVal b n)) ++ b.kwargs).map Prod.fst =
      handedOn ++ b.kwargs.map Prod.fst := by
    rw [List.map_append, List.map_map]
    congr 1
  have hnodup : (handedOn ++ b.kwargs.map Prod.fst).Nodup := by
    rw [List.nodup_append]
    refine ⟨by simp [handedOn], ?_, fun x hx y hy => ?_⟩
    · rw [hkw]
      exact hnd.sublist (List.Sublist.map _ List.filter_sublist)
    · rintro rfl
      exact (hkeys x hy).1 (hsub x hx)
  have hns : "self" ∉ handedOn ++ b.kwargs.map Prod.fst := by
    rw [List.mem_append, not_or]
    exact ⟨by simp [handedOn], fun h => hself (hkeys _ h).2⟩
  have hle : (handedOn.map (fun n => (n, boundVal b n)) ++ b.kwargs).lookup "local_estimator" = none := by
    apply lookup_none_of_not_mem
    rw [hmap, List.mem_append, not_or]
    refine ⟨by simp [handedOn], fun h => (hkeys _ h).1 ?_⟩
    simp [Signature.names, stackingSig]
  unfold weightModelInit bindCall
  have hc : ¬ (¬ ((handedOn.map (fun n => (n, boundVal b n)) ++ b.kwargs).map Prod.fst).Nodup ∨
      "self" ∈ (handedOn.map (fun n => (n, boundVal b n)) ++ b.kwargs).map Prod.fst) := by
    rw [hmap, not_or, not_not]
    exact ⟨hnodup, hns⟩
  rw [if_neg hc, if_neg (by simp [weightModelSig]), if_neg (by simp [weightModelSig])]
  cases ha : b.args with
  | nil =>
    rw [if_pos rfl]
    have hf : fillParams (handedOn.map (fun n => (n, boundVal b n)) ++ b.kwargs)
        (weightModelSig (V := V)).params [boundVal b "local_estimator"] =
        .ok ((weightModelSig (V := V)).names.map fun n => (n, boundVal b n)) := by
      have hrest := fillParams_all (kw := handedOn.map (fun n => (n, boundVal b n)) ++ b.kwargs)
        (boundVal b) (weightModelSig (V := V)).params.tail fun p hp =>
          lookup_map_append (boundVal b) (by
            have : ∀ p ∈ (weightModelSig (V := V)).params.tail, p.1 ∈ handedOn := by
              simp [weightModelSig, handedOn]
            exact this p hp)
      have hcons : (weightModelSig (V := V)).params =
          ("local_estimator", none) :: (weightModelSig (V := V)).params.tail := rfl
      rw [hcons]
      simp only [fillParams, hle, Option.isSome_none, Bool.false_eq_true, if_false, hrest]
      rfl
    rw [hf]
    simp only [Except.map]
    congr 2
    simp only [BoundArgs.mk.injEq, true_and]
    refine ⟨by simp [weightModelSig], ?_⟩
    rw [List.filter_append]
    have h1 : (handedOn.map (fun n => (n, boundVal b n))).filter
        (fun e => decide (e.1 ∉ (weightModelSig (V := V)).names)) =
        [("midpoint", boundVal b "midpoint")] := by
      simp [handedOn, Signature.names, weightModelSig]
    have h2 : b.kwargs.filter (fun e => decide (e.1 ∉ (weightModelSig (V := V)).names)) = b.kwargs := by
      rw [List.filter_eq_self]
      intro e he
      have := (hkeys e.1 (List.mem_map_of_mem he)).1
      simpa using fun h => this (hsub' _ h)
    rw [h1, h2]
    rfl
  | cons a as =>
    rw [if_neg (by simp)]
    have hd : (handedOn.map (fun n => (n, boundVal b n)) ++ b.kwargs).lookup "distance_measure" =
        some (boundVal b "distance_measure") := lookup_map_append (boundVal b) (by simp [handedOn])
    have hcons : (weightModelSig (V := V)).params =
        ("local_estimator", none) :: ("distance_measure", some .none) ::
          (weightModelSig (V := V)).params.tail.tail := rfl
    rw [hcons]
    simp only [fillParams, hle, hd, Option.isSome_none, Option.isSome_some, Bool.false_eq_true,
      if_false, if_true]
    rfl

/-- A stacking model from its bound arguments. -/
theorem stackingInit_eq {pos : List (PyVal V)} {kw : List (String × PyVal V)} {b : BoundArgs V}
    (cpu : Nat) (hb : bindCall stackingSig pos kw = .ok b) :
    stackingInit cpu pos kw =
    if b.args = [] then
      .ok (stackingBody b (weightModelBody cpu ⟨(weightModelSig (V := V)).names.map fun n =>
        (n, boundVal b n), [], ("midpoint", boundVal b "midpoint") :: b.kwargs⟩))
    else .error .typeError := by
  unfold stackingInit
  rw [hb]
  simp only
  rw [superInit_eq cpu hb]
  split <;> rfl

/-- C135: more positional arguments than `StackingWeightModel` has parameters raise `TypeError`
(`WeightModel` accepts and ignores them), although the signature has `*args`. -/
theorem C135_stacking_extra_positional (cpu : Nat) (pos : List (PyVal V))
    (kw : List (String × PyVal V)) (h : (stackingSig (V := V)).params.length < pos.length) :
    stackingInit cpu pos kw = .error .typeError := by
  cases hb : bindCall stackingSig pos kw with
  | error e =>
    have := bindCall_error hb
    subst this
    simp [stackingInit, hb]
  | ok b =>
    rw [stackingInit_eq cpu hb, if_neg]
    rw [(bindCall_ok hb).2.2.2.1]
    intro h0
    have := congrArg List.length h0
    rw [List.length_drop, List.length_nil] at this
    omega

/-- C135: a keyword that `StackingWeightModel` does not know is accepted and has no effect but to be
listed in `kwargs`. -/
theorem C135_stacking_unknown_keyword (cpu : Nat) (pos : List (PyVal V))
    (kw : List (String × PyVal V)) (name : String) (v : PyVal V)
    (hn : name ∉ (stackingSig (V := V)).names) (hs : name ≠ "self")
    (hk : name ∉ kw.map Prod.fst) :
    stackingInit cpu pos (kw ++ [(name, v)]) =
      (stackingInit cpu pos kw).map fun o => { o with kwargs := o.kwargs ++ [(name, v)] } := by
  have hu := bindCall_unknown stackingSig rfl pos kw name v hn hs hk
  cases hb : bindCall stackingSig pos kw with
  | error e =>
    rw [hb] at hu
    have hu' : bindCall stackingSig pos (kw ++ [(name, v)]) = .error e := hu
    simp [stackingInit, hb, hu', Except.map]
  | ok b =>
    rw [hb] at hu
    have hu' : bindCall stackingSig pos (kw ++ [(name, v)]) =
        .ok { b with kwargs := b.kwargs ++ [(name, v)] } := hu
    rw [stackingInit_eq cpu hb, stackingInit_eq cpu hu']
    by_cases ha : b.args = []
    · simp only [ha, if_true]
      rfl
    · simp only [ha, if_false]
      rfl

/-- The attributes of a stacking model. -/
theorem stackingInit_attr {cpu : Nat} {pos : List (PyVal V)} {kw : List (String × PyVal V)}
    {o : ModelObject V} (h : stackingInit cpu pos kw = .ok o) :
    o.args = [] ∧ o.attrs "midpoint" = none ∧
    (∀ i p, (stackingSig (V := V)).params[i]? = some p → p.1 ≠ "midpoint" → p.1 ≠ "n_patches" →
      (argOf pos kw i p).isSome ∧ o.attrs p.1 = argOf pos kw i p) ∧
    o.attrs "n_patches" = patchesAttr cpu (argOf pos kw 12 ("n_jobs", some .none))
      (argOf pos kw 13 ("n_patches", some .none)) := by
  cases hb : bindCall stackingSig pos kw with
  | error e => simp [stackingInit, hb] at h
  | ok b =>
    rw [stackingInit_eq cpu hb] at h
    split at h
    · cases h
      obtain ⟨-, -, hf, -, -⟩ := bindCall_ok hb
      have hget := (fillParams_get hf stackingSig_nodup).2
      have hbv : ∀ i p, (stackingSig (V := V)).params[i]? = some p →
          some (boundVal b p.1) = argOf pos kw i p := by
        intro i p hp
        obtain ⟨h1, h2⟩ := hget i p hp
        rw [boundVal, h2]
        obtain ⟨v, hv⟩ := Option.isSome_iff_exists.mp h1
        rw [hv]
        rfl
      refine ⟨rfl, ?_, fun i p hp h1 h2 => ⟨(hget i p hp).1, ?_⟩, ?_⟩
      · simp [stackingBody, stackingBlank, keptHere, weightModelBody, weightModelBlank,
          Signature.names, weightModelSig, List.lookup_cons]
      · have hmem : p.1 ∈ (stackingSig (V := V)).names :=
          List.mem_map_of_mem (f := Prod.fst) (List.mem_of_getElem? hp)
        have hcase : p.1 ∉ stackingBlank ∧ p.1 ∉ weightModelBlank ∧
            (p.1 ∉ keptHere → p.1 ∈ (weightModelSig (V := V)).names) := by
          have : ∀ n ∈ (stackingSig (V := V)).names, n ≠ "midpoint" → n ∉ stackingBlank ∧
              n ∉ weightModelBlank ∧ (n ∉ keptHere → n ∈ (weightModelSig (V := V)).names) := by
            simp [Signature.names, stackingSig, weightModelSig, stackingBlank, weightModelBlank,
              keptHere]
          exact this _ hmem h1
        simp only [stackingBody, if_neg hcase.1]
        by_cases hk : p.1 ∈ keptHere
        · rw [if_pos hk, (hget i p hp).2]
        · rw [if_neg hk]
          simp only [weightModelBody, if_neg hcase.2.1, if_neg h2]
          rw [← hbv i p hp]
          have := lookup_map_append (boundVal b) (l := []) (hcase.2.2 hk)
          simpa using this
      · have e1 := hbv 12 ("n_jobs", some .none) rfl
        have e2 := hbv 13 ("n_patches", some .none) rfl
        rw [← e1, ← e2]
        simp [stackingBody, stackingBlank, keptHere, weightModelBody, weightModelBlank,
          Signature.names, weightModelSig, List.lookup_cons]
    · cases h

/-- C135: every parameter of `StackingWeightModel` but `midpoint` and `n_patches` becomes the
attribute of that name: the positional argument if there is one, otherwise the keyword argument,
otherwise the default. There is no attribute `midpoint`. -/
theorem C135_stacking_parameters (cpu : Nat) (pos : List (PyVal V))
    (kw : List (String × PyVal V)) (o : ModelObject V) (h : stackingInit cpu pos kw = .ok o)
    (i : Nat) (name : String) (dflt : Option (PyVal V))
    (hp : (stackingSig (V := V)).params[i]? = some (name, dflt)) (hm : name ≠ "midpoint")
    (hn : name ≠ "n_patches") :
    (∀ v, pos[i]? = some v → o.attrs name = some v) ∧
    (pos.length ≤ i → ∀ v, kw.lookup name = some v → o.attrs name = some v) ∧
    (pos.length ≤ i → kw.lookup name = none → o.attrs name = dflt) ∧
    o.attrs "midpoint" = none ∧ o.args = [] := by
  obtain ⟨ha, hmid, hget, -⟩ := stackingInit_attr h
  rw [(hget i _ hp hm hn).2]
  refine ⟨fun v hv => by simp [argOf, hv], fun hl v hv => ?_, fun hl hv => ?_, hmid, ha⟩
  · simp [argOf, List.getElem?_eq_none hl, hv]
  · simp [argOf, List.getElem?_eq_none hl, hv]

theorem fillParams_isOk {kw : List (String × PyVal V)} :
    ∀ (ps : List (String × Option (PyVal V))) (pos : List (PyVal V)),
      (∃ vals, fillParams kw ps pos = .ok vals) ↔
      ∀ i p, ps[i]? = some p → (argOf pos kw i p).isSome ∧
        (i < pos.length → kw.lookup p.1 = none) := by
  intro ps
  induction ps with
  | nil =>
    intro pos
    refine ⟨fun _ i p h => by simp at h, fun _ => ⟨[], ?_⟩⟩
    cases pos <;> rfl
  | cons q qs ih =>
    intro pos
    cases pos with
    | nil =>
      have hi := ih []
      constructor
      · rintro ⟨vals, h⟩
        simp only [fillParams] at h
        cases hv : (kw.lookup q.1).or q.2 with
        | none => rw [hv] at h; cases h
        | some v =>
          rw [hv] at h
          simp only at h
          cases ht : fillParams kw qs [] with
          | error e => rw [ht] at h; cases h
          | ok t =>
            intro i p hp
            cases i with
            | zero =>
              simp only [List.getElem?_cons_zero, Option.some.injEq] at hp
              subst hp
              exact ⟨by simp [argOf, hv], fun h => by simp at h⟩
            | succ i =>
              have := hi.mp ⟨t, ht⟩ i p (by simpa using hp)
              exact ⟨by simpa [argOf] using this.1, fun h => by simp at h⟩
      · intro h
        have h0 := (h 0 q rfl).1
        obtain ⟨v, hv⟩ := Option.isSome_iff_exists.mp h0
        have hv' : (kw.lookup q.1).or q.2 = some v := by simpa [argOf] using hv
        obtain ⟨t, ht⟩ := hi.mpr fun i p hp => by
          have := h (i + 1) p (by simpa using hp)
          exact ⟨by simpa [argOf] using this.1, fun h => by simp at h⟩
        exact ⟨(q.1, v) :: t, by simp only [fillParams, hv', ht]; rfl⟩
    | cons w rest =>
      have hi := ih rest
      constructor
      · rintro ⟨vals, h⟩
        simp only [fillParams] at h
        by_cases hk : (kw.lookup q.1).isSome
        · rw [if_pos hk] at h
          cases h
        · rw [if_neg hk] at h
          cases ht : fillParams kw qs rest with
          | error e => rw [ht] at h; cases h
          | ok t =>
            intro i p hp
            cases i with
            | zero =>
              simp only [List.getElem?_cons_zero, Option.some.injEq] at hp
              subst hp
              exact ⟨by simp [argOf], fun _ => by rwa [Option.not_isSome_iff_eq_none] at hk⟩
            | succ i =>
              have := hi.mp ⟨t, ht⟩ i p (by simpa using hp)
              exact ⟨by simpa [argOf] using this.1, fun h => this.2 (by simpa using h)⟩
      · intro h
        have h0 := (h 0 q rfl).2 (by simp)
        obtain ⟨t, ht⟩ := hi.mpr fun i p hp => by
          have := h (i + 1) p (by simpa using hp)
          exact ⟨by simpa [argOf] using this.1, fun h => this.2 (by simpa using h)⟩
        exact ⟨(q.1, w) :: t, by simp only [fillParams, h0, ht]; rfl⟩

/-- C135: `midpoint` has no effect: given by keyword it changes no attribute, and no exception. -/
theorem C135_midpoint (cpu : Nat) (pos : List (PyVal V)) (kw : List (String × PyVal V))
    (v : PyVal V) (hk : "midpoint" ∉ kw.map Prod.fst) (hl : pos.length ≤ 6) :
    (stackingInit cpu pos (kw ++ [("midpoint", v)])).map ModelObject.attrs =
      (stackingInit cpu pos kw).map ModelObject.attrs := by
  have h1 : (¬ ((kw ++ [("midpoint", v)]).map Prod.fst).Nodup ∨
      "self" ∈ (kw ++ [("midpoint", v)]).map Prod.fst) ↔
      (¬ (kw.map Prod.fst).Nodup ∨ "self" ∈ kw.map Prod.fst) := by
    rw [List.map_append, List.nodup_append]
    simp only [List.map_cons, List.map_nil, List.mem_append, List.mem_singleton]
    constructor
    · rintro (h | h | h)
      · left
        intro hnd
        exact h ⟨hnd, by simp, fun a ha b hb => by rw [hb]; exact fun h => hk (h ▸ ha)⟩
      · exact .inr h
      · exact absurd h (by decide)
    · rintro (h | h)
      · exact .inl fun hnd => h hnd.1
      · exact .inr (.inl h)
  have hfilter : (kw ++ [("midpoint", v)]).filter
      (fun e => decide (e.1 ∉ (stackingSig (V := V)).names)) =
      kw.filter fun e => decide (e.1 ∉ (stackingSig (V := V)).names) := by
    rw [List.filter_append]
    simp [Signature.names, stackingSig]
  have hmid : ∀ i p, (stackingSig (V := V)).params[i]? = some p → p.1 = "midpoint" →
      i = 6 ∧ p.2 = some .none := by
    intro i p hp hm
    have hi : i < 20 := by
      by_contra h
      rw [List.getElem?_eq_none (by simp [stackingSig]; omega)] at hp
      cases hp
    interval_cases i <;> (cases hp; first | exact ⟨rfl, rfl⟩ | simp at hm)
  have hok : (∃ t, fillParams (kw ++ [("midpoint", v)]) (stackingSig (V := V)).params pos = .ok t) ↔
      ∃ t, fillParams kw (stackingSig (V := V)).params pos = .ok t := by
    rw [fillParams_isOk, fillParams_isOk]
    refine forall_congr' fun i => forall_congr' fun p => imp_congr_right fun hp => ?_
    by_cases hm : p.1 = "midpoint"
    · obtain ⟨rfl, hd⟩ := hmid i p hp hm
      have hlen : ¬ 6 < pos.length := by omega
      simp only [hlen, false_imp_iff, and_true, argOf, List.getElem?_eq_none hl, hd,
        Option.none_or]
      cases (kw ++ [("midpoint", v)]).lookup p.1 <;> cases kw.lookup p.1 <;> simp
    · simp only [argOf, lookup_append_other hm]
  have herr : ∀ kw' : List (String × PyVal V), (¬ ∃ b, bindCall stackingSig pos kw' = .ok b) →
      (stackingInit cpu pos kw').map ModelObject.attrs = .error .typeError := by
    intro kw' h
    cases hb : bindCall stackingSig pos kw' with
    | error e => rw [stackingInit, hb, bindCall_error hb]; rfl
    | ok b => exact absurd ⟨b, hb⟩ h
  have hbind : ∀ kw' : List (String × PyVal V), (∃ b, bindCall stackingSig pos kw' = .ok b) ↔
      ¬ (¬ (kw'.map Prod.fst).Nodup ∨ "self" ∈ kw'.map Prod.fst) ∧
      ∃ t, fillParams kw' (stackingSig (V := V)).params pos = .ok t := by
    intro kw'
    constructor
    · rintro ⟨b, hb⟩
      obtain ⟨a1, a2, a3, -⟩ := bindCall_ok hb
      exact ⟨by simp [a1, a2], ⟨_, a3⟩⟩
    · rintro ⟨a1, t, ht⟩
      refine ⟨⟨t, pos.drop (stackingSig (V := V)).params.length,
        kw'.filter fun e => decide (e.1 ∉ (stackingSig (V := V)).names)⟩, ?_⟩
      unfold bindCall
      rw [if_neg a1, if_neg (by simp [stackingSig]), if_neg (by simp [stackingSig]), ht]
      rfl
  by_cases hex : ∃ b, bindCall stackingSig pos kw = .ok b
  swap
  · rw [herr _ hex, herr]
    rw [hbind, h1, hok, ← hbind]
    exact hex
  obtain ⟨c, hc'⟩ := hex
  have hex' : ∃ b, bindCall stackingSig pos (kw ++ [("midpoint", v)]) = .ok b := by
    rw [hbind, h1, hok, ← hbind]
    exact ⟨c, hc'⟩
  obtain ⟨d, hd'⟩ := hex'
  rw [stackingInit_eq cpu hc', stackingInit_eq cpu hd']
  obtain ⟨-, -, hc, hca, -⟩ := bindCall_ok hc'
  obtain ⟨-, -, hd, hda, -⟩ := bindCall_ok hd'
  rw [hca, hda]
  obtain ⟨c0, hc⟩ := fillParams_get hc stackingSig_nodup
  obtain ⟨d0, hd⟩ := fillParams_get hd stackingSig_nodup
  have key : ∀ n, n ≠ "midpoint" → d.vals.lookup n = c.vals.lookup n := by
    intro n hn
    by_cases hmem : n ∈ (stackingSig (V := V)).names
    · obtain ⟨p, hp, rfl⟩ := List.mem_map.mp hmem
      obtain ⟨i, hi⟩ := List.mem_iff_getElem?.mp hp
      rw [(hc i p hi).2, (hd i p hi).2]
      simp only [argOf]
      rw [lookup_append_other hn]
    · rw [c0 n hmem, d0 n hmem]
  have hvals : (weightModelSig (V := V)).names.map (fun n => (n, boundVal d n)) =
      (weightModelSig (V := V)).names.map fun n => (n, boundVal c n) := by
    apply List.map_congr_left
    intro n hn
    have hne : n ≠ "midpoint" := by
      rintro rfl
      revert hn
      simp [Signature.names, weightModelSig]
    rw [boundVal, boundVal, key n hne]
  split
  · simp only [Except.map]
    congr 1
    funext name
    simp only [stackingBody, weightModelBody, hvals]
    split
    · rfl
    · split
      · next h =>
        rw [key]
        rintro rfl
        revert h
        simp [keptHere]
      · rfl
  · rfl

/-- C135: the two constructors number their parameters differently from the seventh on. Positional
arguments that are right for `WeightModel` end up one parameter earlier in `StackingWeightModel`: the
seventh (`distance_args`) is dropped, the eighth (`leave_local_out`) becomes `distance_args`, and so
on. -/
theorem C135_positional_shift (cpu : Nat) (pos : List (PyVal V)) (kw kw' : List (String × PyVal V))
    (a b : ModelObject V) (ha : weightModelInit cpu pos kw = .ok a)
    (hb : stackingInit cpu pos kw' = .ok b) (i : Nat) (name : String)
    (hn : name ≠ "n_patches") (v w : PyVal V)
    (hname : (weightModelSig (V := V)).names[i]? = some name) (hv : pos[i]? = some v) :
    a.attrs name = some v ∧ (i < 6 → b.attrs name = some v) ∧
    (6 ≤ i → pos[i + 1]? = some w → b.attrs name = some w) := by
  have hi : i < 13 := by
    by_contra h
    rw [List.getElem?_eq_none (by simp [Signature.names, weightModelSig]; omega)] at hname
    cases hname
  have hpa : ∃ d, (weightModelSig (V := V)).params[i]? = some (name, d) := by
    simp only [Signature.names, List.getElem?_map, Option.map_eq_some_iff] at hname
    obtain ⟨p, hp, rfl⟩ := hname
    exact ⟨p.2, hp⟩
  obtain ⟨d, hd⟩ := hpa
  have hm : name ≠ "midpoint" := by
    rintro rfl
    have : "midpoint" ∈ (weightModelSig (V := V)).names := List.mem_of_getElem? hname
    revert this
    simp [Signature.names, weightModelSig]
  refine ⟨((C135_weight_model_parameters cpu pos kw a ha i name d hd).1 hn).1 v hv, fun h6 => ?_,
    fun h6 hw => ?_⟩
  · have : (stackingSig (V := V)).params[i]? = some (name, d) := by
      rw [← hd]
      interval_cases i <;> rfl
    exact (C135_stacking_parameters cpu pos kw' b hb i name d this hm hn).1 v hv
  · have : (stackingSig (V := V)).params[i + 1]? = some (name, d) := by
      rw [← hd]
      interval_cases i <;> rfl
    exact (C135_stacking_parameters cpu pos kw' b hb (i + 1) name d this hm hn).1 w hw

/-- C135: without a local estimator both constructors raise `TypeError`, whatever else is given; so
does every evaluation of the hyper-parameter search, which gives no local estimator. -/
theorem C135_local_estimator_required (cpu : Nat) (kw : List (String × PyVal V))
    (h : "local_estimator" ∉ kw.map Prod.fst) (n d f c : PyVal V) :
    weightModelInit cpu [] kw = .error .typeError ∧ stackingInit cpu [] kw = .error .typeError ∧
    tuningModel cpu n d f c = .error .typeError := by
  have key : ∀ (g : Signature V) (kw : List (String × PyVal V)),
      g.params.head? = some ("local_estimator", none) →
      "local_estimator" ∉ kw.map Prod.fst → bindCall g [] kw = .error .typeError := by
    intro g kw hg hk
    cases hb : bindCall g [] kw with
    | error e => rw [bindCall_error hb]
    | ok b =>
      obtain ⟨-, -, hf, -, -⟩ := bindCall_ok hb
      cases hps : g.params with
      | nil => rw [hps] at hg; cases hg
      | cons q qs =>
        rw [hps] at hg hf
        cases hg
        rw [fillParams, lookup_none_of_not_mem hk] at hf
        simp at hf
  refine ⟨?_, ?_, ?_⟩
  · rw [weightModelInit, key _ kw rfl h]
    rfl
  · rw [stackingInit, key _ kw rfl h]
  · rw [tuningModel, stackingInit, key _ _ rfl (by simp)]

/-- C135: the defaults of `WeightModel`, and what can be read from a new object before any fit: the
attributes for data and results exist and are `None`. -/
theorem C135_weight_model_defaults (cpu : Nat) (pos : List (PyVal V)) (kw : List (String × PyVal V))
    (o : ModelObject V) (h : weightModelInit cpu pos kw = .ok o) (hpos : pos.length ≤ 1) :
    (∀ name ∈ ["distance_measure", "kernel_type", "distance_ratio", "bandwidth", "neighbour_count",
      "distance_args", "sample_local_rate", "n_jobs"], kw.lookup name = none → o.attrs name = some .none) ∧
    (kw.lookup "leave_local_out" = none → o.attrs "leave_local_out" = some (.bool true)) ∧
    (kw.lookup "cache_data" = none → o.attrs "cache_data" = some (.bool false)) ∧
    (kw.lookup "cache_estimator" = none → o.attrs "cache_estimator" = some (.bool false)) ∧
    (∀ name ∈ ["is_fitted_", "n_features_in_", "X", "y", "N", "coordinate_vector_list",
      "coordinate_vector_dimension_", "weight_matrix_", "neighbour_matrix_", "local_indices_",
      "y_sample_", "local_estimator_list", "local_predict_", "llocv_score_", "local_residual_",
      "permutation_score_decrease_", "interaction_matrix_", "local_partial_", "feature_partial_",
      "local_ice_", "feature_ice_"], o.attrs name = some .none) := by
  have key : ∀ (i : Nat) (name : String) (v : PyVal V), 1 ≤ i →
      (weightModelSig (V := V)).params[i]? = some (name, some v) → name ≠ "n_patches" →
      kw.lookup name = none → o.attrs name = some v := fun i name v hi hp hn hk =>
    ((C135_weight_model_parameters cpu pos kw o h i name _ hp).1 hn).2.2 (hpos.trans hi) hk
  refine ⟨fun name hm => ?_, key 7 _ _ (by decide) rfl (by decide), key 9 _ _ (by decide) rfl (by decide),
    key 10 _ _ (by decide) rfl (by decide), fun name hm => ?_⟩
  · simp only [List.mem_cons, List.not_mem_nil, or_false] at hm
    rcases hm with rfl | rfl | rfl | rfl | rfl | rfl | rfl | rfl
    · exact key 1 _ _ (by decide) rfl (by decide)
    · exact key 2 _ _ (by decide) rfl (by decide)
    · exact key 3 _ _ (by decide) rfl (by decide)
    · exact key 4 _ _ (by decide) rfl (by decide)
    · exact key 5 _ _ (by decide) rfl (by decide)
    · exact key 6 _ _ (by decide) rfl (by decide)
    · exact key 8 _ _ (by decide) rfl (by decide)
    · exact key 11 _ _ (by decide) rfl (by decide)
  · obtain ⟨b, -, rfl, -⟩ := weightModelInit_attr h
    exact if_pos hm

/-- C135: the defaults of `StackingWeightModel`, and what can be read from a new object. -/
theorem C135_stacking_defaults (cpu : Nat) (pos : List (PyVal V)) (kw : List (String × PyVal V))
    (o : ModelObject V) (h : stackingInit cpu pos kw = .ok o) (hpos : pos.length ≤ 1) :
    (∀ name ∈ ["distance_measure", "kernel_type", "distance_ratio", "bandwidth", "neighbour_count",
      "distance_args", "sample_local_rate", "n_jobs", "neighbour_leave_out_rate",
      "neighbour_leave_out_shrink_rate", "meta_fitting_shrink_rate", "estimator_sample_rate"],
      kw.lookup name = none → o.attrs name = some .none) ∧
    (kw.lookup "leave_local_out" = none → o.attrs "leave_local_out" = some (.bool true)) ∧
    (kw.lookup "cache_data" = none → o.attrs "cache_data" = some (.bool false)) ∧
    (kw.lookup "cache_estimator" = none → o.attrs "cache_estimator" = some (.bool false)) ∧
    (kw.lookup "alpha" = none → o.attrs "alpha" = some (.float 10)) ∧
    (kw.lookup "use_numba" = none → o.attrs "use_numba" = some (.bool false)) ∧
    (∀ name ∈ ["is_fitted_", "n_features_in_", "X", "y", "N", "coordinate_vector_list",
      "coordinate_vector_dimension_", "weight_matrix_", "neighbour_matrix_", "local_indices_",
      "y_sample_", "local_estimator_list", "local_predict_", "llocv_score_", "local_residual_",
      "permutation_score_decrease_", "interaction_matrix_", "local_partial_", "feature_partial_",
      "local_ice_", "feature_ice_", "base_estimator_list", "meta_estimator_list", "stacking_predict_",
      "stacking_scores_", "llocv_stacking_"], o.attrs name = some .none) := by
  have key : ∀ (i : Nat) (name : String) (v : PyVal V), 1 ≤ i →
      (stackingSig (V := V)).params[i]? = some (name, some v) → name ≠ "midpoint" → name ≠ "n_patches" →
      kw.lookup name = none → o.attrs name = some v := fun i name v hi hp hm hn hk =>
    (C135_stacking_parameters cpu pos kw o h i name _ hp hm hn).2.2.1 (hpos.trans hi) hk
  refine ⟨fun name hm => ?_, key 8 _ _ (by decide) rfl (by decide) (by decide),
    key 10 _ _ (by decide) rfl (by decide) (by decide), key 11 _ _ (by decide) rfl (by decide) (by decide),
    key 14 _ _ (by decide) rfl (by decide) (by decide), key 19 _ _ (by decide) rfl (by decide) (by decide),
    fun name hm => ?_⟩
  · simp only [List.mem_cons, List.not_mem_nil, or_false] at hm
    rcases hm with rfl | rfl | rfl | rfl | rfl | rfl | rfl | rfl | rfl | rfl | rfl | rfl
    · exact key 1 _ _ (by decide) rfl (by decide) (by decide)
    · exact key 2 _ _ (by decide) rfl (by decide) (by decide)
    · exact key 3 _ _ (by decide) rfl (by decide) (by decide)
    · exact key 4 _ _ (by decide) rfl (by decide) (by decide)
    · exact key 5 _ _ (by decide) rfl (by decide) (by decide)
    · exact key 7 _ _ (by decide) rfl (by decide) (by decide)
    · exact key 9 _ _ (by decide) rfl (by decide) (by decide)
    · exact key 12 _ _ (by decide) rfl (by decide) (by decide)
    · exact key 15 _ _ (by decide) rfl (by decide) (by decide)
    · exact key 16 _ _ (by decide) rfl (by decide) (by decide)
    · exact key 17 _ _ (by decide) rfl (by decide) (by decide)
    · exact key 18 _ _ (by decide) rfl (by decide) (by decide)
  · unfold stackingInit at h
    cases hb : bindCall stackingSig pos kw with
    | error e => rw [hb] at h; cases h
    | ok b =>
      rw [hb] at h
      simp only at h
      cases hw : weightModelInit cpu (boundVal b "local_estimator" :: b.args)
        (handedOn.map (fun n => (n, boundVal b n)) ++ b.kwargs) with
      | error e => rw [hw] at h; cases h
      | ok o' =>
        rw [hw] at h
        cases h
        obtain ⟨b', -, rfl, -⟩ := weightModelInit_attr hw
        show (if name ∈ stackingBlank then some PyVal.none else if name ∈ keptHere then b.vals.lookup name
          else if name ∈ weightModelBlank then some .none else _) = _
        by_cases h1 : name ∈ stackingBlank
        · rw [if_pos h1]
        · have h2 : name ∈ weightModelBlank :=
            (List.mem_append.1 (show name ∈ weightModelBlank ++ stackingBlank from hm)).resolve_right h1
          have h3 : name ∉ keptHere := by
            have : ∀ n ∈ weightModelBlank, n ∉ keptHere := by decide
            exact this name h2
          rw [if_neg h1, if_neg h3, if_pos h2]

/-! ### Examples -/

/-- C135: a misspelled `leave_local_out` leaves the default in force; positional arguments for the
wrong class are accepted. -/
example :
    (weightModelInit (V := String) 4 [.obj "forest"] [("leave_local", .bool false)]).map
      (fun o => (o.attrs "leave_local_out", o.attrs "n_patches", o.kwargs)) =
      .ok (some (.bool true), some (.int 4), [("leave_local", .bool false)]) ∧
    (stackingInit (V := String) 4
      [.obj "forest", .none, .none, .none, .none, .none, .none, .bool false, .float (1 / 2)]
      [("alpha", .float 1)]).map
      (fun o => (o.attrs "leave_local_out", o.attrs "distance_args", o.attrs "alpha")) =
      .ok (some (.float (1 / 2)), some (.bool false), some (.float 1)) ∧
    (weightModelInit (V := String) 4
      [.obj "forest", .none, .none, .none, .none, .none, .none, .bool false, .float (1 / 2)] []).map
      (fun o => (o.attrs "leave_local_out", o.attrs "distance_args", o.attrs "n_jobs")) =
      .ok (some (.bool false), some .none, some .none) := by
  refine ⟨?_, ?_, ?_⟩ <;> decide +kernel

/-- C134: the constructors succeed for the objects the statement is about. -/
example : (weightModelInit (V := String) 4 [.obj "forest"] []).toBool = true ∧
    (stackingInit (V := String) 4 [.obj "forest"] [("midpoint", .int 3)]).toBool = true := by
  refine ⟨?_, ?_⟩ <;> decide +kernel

end Geo
