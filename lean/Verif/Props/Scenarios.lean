import Verif.Model.Scenarios
import Verif.Props.HeldOut
/-
C157: what the scenario functions of the experiment scripts do, for every way of making samples, every
regressor and every content of the files.
-/
set_option linter.unusedSectionVars false
namespace Geo
variable {K : Type} [Field K] [LinearOrder K] [IsStrictOrderedRing K] [FloorRing K] {A S : Type}

/-- The arguments that reach the body of `fit_models`, written out. -/
def scenarioArgs (t : A × A × A) (test : List (String × PyVal (Payload K A))) (sc : Scenario)
    (more : Record K) : BoundArgs (Payload K A) :=
  ⟨[("X", .obj (.array t.1)), ("y", .obj (.array t.2.1)), ("points", .obj (.array t.2.2))] ++ test ++
    [("stacking_neighbour_count", .float sc.stackCount),
     ("stacking_neighbour_leave_out_rate", .float sc.stackRate),
     ("grf_neighbour_count", .float sc.grfCount), ("grf_n_estimators", .int 50),
     ("gwr_neighbour_count", .float sc.gwrCount), ("rf_n_estimators", .int 2000),
     ("info", .obj (.remarks (sc.remarks more)))], [], []⟩

theorem bind_robust_short (t : A × A × A) (sc : Scenario) (more : Record K) :
    bindCall (robustSig (K := K)) (asArgs t) (sc.keywords more) = .error .typeError := by
  simp [bindCall, robustSig, asArgs, Scenario.keywords, comparisonNumbers, fillParams, List.lookup, Signature.names, Except.map]

theorem bind_comparison (t : A × A × A) (sc : Scenario) (more : Record K) :
    bindCall comparisonSig (asArgs t) (sc.keywords more) = .ok (scenarioArgs t [] sc more) := by
  simp [bindCall, comparisonSig, asArgs, Scenario.keywords, comparisonNumbers, fillParams, List.lookup, Signature.names, Except.map, scenarioArgs]

theorem bind_robust_full (t t' : A × A × A) (sc : Scenario) (more : Record K) :
    bindCall robustSig (asArgs t ++ asArgs t') (sc.keywords more) = .ok (scenarioArgs t
      [("X_test", .obj (.array t'.1)), ("y_test", .obj (.array t'.2.1)),
       ("points_test", .obj (.array t'.2.2))] sc more) := by
  simp [bindCall, robustSig, asArgs, Scenario.keywords, comparisonNumbers, fillParams, List.lookup, Signature.names, Except.map, scenarioArgs]

theorem bind_variation (t : A × A × A) (sc : Scenario) :
    bindCall (variationSig (K := K)) (asArgs t) sc.twoKeywords = .ok
      ⟨[("X", .obj (.array t.1)), ("y", .obj (.array t.2.1)), ("points", .obj (.array t.2.2)),
        ("stacking_neighbour_count", .float sc.stackCount),
        ("stacking_neighbour_leave_out_rate", .float sc.stackRate),
        ("info", .obj (.remarks (sc.remarks [])))], [], []⟩ := by
  simp [bindCall, variationSig, asArgs, Scenario.twoKeywords, fillParams, List.lookup, Signature.names, Except.map]

theorem infoOf_args (t : A × A × A) (sc : Scenario) (more : Record K) :
    infoOf (scenarioArgs t [] sc more) = sc.remarks more := by
  simp [infoOf, scenarioArgs, List.lookup]

/-! ### Which scenarios get as far as a fit -/

/-- C157: of the scenarios of `simulation_for_robust.py`, those that make no second sample fail with a
`TypeError` after the sample was made: nothing is fitted, nothing is written. -/
theorem C157_robust_unbound (make : Scenario → Nat → S → Except Err (A × A × A) × S)
    (body : BoundArgs (Payload K A) → S → Lines K → Except Err (Record K) × S × Lines K)
    (sc : Scenario)
    (hname : sc.name ∉ ["square_strong_1000", "square_strong_5000"]) (s : S) (fs : Lines K) :
    (∀ t s', make sc 1 s = (.ok t, s') → robustScenario make body sc s fs = (.error .typeError, s', fs)) ∧
    (∀ e s', make sc 1 s = (.error e, s') → robustScenario make body sc s fs = (.error e, s', fs)) := by
  have hn : secondSeed sc = none := by
    unfold secondSeed
    rw [if_neg]
    simpa using hname
  constructor
  · intro t s' hm
    unfold robustScenario callBound
    simp only [hm, hn, bind_robust_short]
  · intro e s' hm
    unfold robustScenario
    simp only [hm]

/-- C157: the other two hand both samples, all the numbers of the scenario and its remarks to the
comparison. -/
theorem C157_robust_bound (make : Scenario → Nat → S → Except Err (A × A × A) × S)
    (body : BoundArgs (Payload K A) → S → Lines K → Except Err (Record K) × S × Lines K)
    (sc : Scenario) (hname : sc.name ∈ ["square_strong_1000", "square_strong_5000"]) (s s1 s2 : S)
    (fs : Lines K) (t t' : A × A × A) (h1 : make sc 1 s = (.ok t, s1)) (h2 : make sc 2 s1 = (.ok t', s2)) :
    robustScenario make body sc s fs = body (scenarioArgs t
      [("X_test", .obj (.array t'.1)), ("y_test", .obj (.array t'.2.1)),
       ("points_test", .obj (.array t'.2.2))] sc []) s2 fs := by
  have hn : secondSeed sc = some 2 := by
    unfold secondSeed
    rw [if_pos]
    simpa using hname
  unfold robustScenario callBound
  simp only [h1, hn, h2, bind_robust_full]

/-- C157: every scenario of `simulation_for_fitting.py` hands its sample, all its numbers and its
remarks to the comparison; no default is used. -/
theorem C157_fitting_bound (make : Scenario → Nat → S → Except Err (A × A × A) × S)
    (body : BoundArgs (Payload K A) → S → Lines K → Except Err (Record K) × S × Lines K)
    (sc : Scenario) (s s1 : S) (fs : Lines K) (t : A × A × A) (h1 : make sc 1 s = (.ok t, s1)) :
    fittingScenario make body sc s fs = body (scenarioArgs t [] sc []) s1 fs := by
  unfold fittingScenario callBound
  simp only [h1, bind_comparison]

/-- C157: so does every scenario of `simulation_for_STST_variation.py`. -/
theorem C157_variation_bound (make : Scenario → Nat → S → Except Err (A × A × A) × S)
    (body : BoundArgs (Payload K A) → S → Lines K → Except Err (Record K) × S × Lines K)
    (sc : Scenario) (s s1 : S) (fs : Lines K) (t : A × A × A) (h1 : make sc 1 s = (.ok t, s1)) :
    variationScenario make body sc s fs = body
      ⟨[("X", .obj (.array t.1)), ("y", .obj (.array t.2.1)), ("points", .obj (.array t.2.2)),
        ("stacking_neighbour_count", .float sc.stackCount),
        ("stacking_neighbour_leave_out_rate", .float sc.stackRate),
        ("info", .obj (.remarks (sc.remarks [])))], [], []⟩ s1 fs := by
  unfold variationScenario callBound
  simp only [h1, bind_variation]

/-- C157: a comparison called with samples only runs with these numbers and without remarks. -/
theorem C157_defaults (t t' : A × A × A) :
    let numbers : List (String × PyVal (Payload K A)) :=
      [("stacking_neighbour_count", .float 0.03), ("stacking_neighbour_leave_out_rate", .float 0.15),
       ("grf_neighbour_count", .float 0.03), ("grf_n_estimators", .int 50), ("gwr_neighbour_count", .float 0.03),
       ("rf_n_estimators", .int 2000), ("info", .none)]
    let sample : List (String × PyVal (Payload K A)) :=
      [("X", .obj (.array t.1)), ("y", .obj (.array t.2.1)), ("points", .obj (.array t.2.2))]
    bindCall comparisonSig (asArgs t) [] = .ok ⟨sample ++ numbers, [], []⟩ ∧
    bindCall robustSig (asArgs t ++ asArgs t') [] = .ok ⟨sample ++
      [("X_test", .obj (.array t'.1)), ("y_test", .obj (.array t'.2.1)), ("points_test", .obj (.array t'.2.2))] ++
      numbers, [], []⟩ ∧
    bindCall variationSig (asArgs t) [] = .ok ⟨sample ++
      [("stacking_neighbour_count", .float 0.03), ("stacking_neighbour_leave_out_rate", .float 0.15), ("info", .none)],
      [], []⟩ := by
  refine ⟨?_, ?_, ?_⟩ <;>
    simp [bindCall, comparisonSig, robustSig, variationSig, asArgs, comparisonNumbers, fillParams, List.lookup,
      Signature.names, Except.map]

/-! ### What the records say -/

theorem remarks_nodup (sc : Scenario) : ((sc.remarks (K := K) []).map Prod.fst).Nodup := by
  simp [Scenario.remarks]

theorem remarks_nodup_size (sc : Scenario) (v : JVal K) :
    ((sc.remarks [("feature_size", v)]).map Prod.fst).Nodup := by
  simp [Scenario.remarks]

theorem comparisonBody_cases (models : BoundArgs (Payload K A) → List (Contest K S)) (times : List K)
    (path : String) (t : A × A × A) (sc : Scenario) (more : Record K) (s : S) (fs : Lines K) :
    (∃ d s', comparisonBody models times path (scenarioArgs t [] sc more) s fs =
      (.ok (Record.merge d (sc.remarks more)), s',
        fs.append path [Record.merge d (sc.remarks more)])) ∨
    ∃ e s', comparisonBody models times path (scenarioArgs t [] sc more) s fs = (.error e, s', fs) := by
  unfold comparisonBody fitModels
  rw [infoOf_args]
  rcases contests (models (scenarioArgs t [] sc more)) times [] s with ⟨e | d, s'⟩
  · exact .inr ⟨e, s', rfl⟩
  · exact .inl ⟨d, s', rfl⟩

/-- What the remarks of a record are about: response function, coefficient and size. -/
def SaysOf (d : Record K) (f coef : String) (count : Nat) : Prop :=
  d.find "f" = some (.text f) ∧ d.find "coef" = some (.text coef) ∧ d.find "count" = some (.num count)

/-- C157: a scenario of `simulation_for_fitting.py` either adds one record to `simulation_result.jsonl`,
whatever the models measured carrying the remarks of the scenario, or fails and writes nothing. -/
theorem C157_fitting_record (make : Scenario → Nat → S → Except Err (A × A × A) × S)
    (models : BoundArgs (Payload K A) → List (Contest K S)) (times : List K) (sc : Scenario) (s : S)
    (fs : Lines K) :
    let o := fittingScenario make (comparisonBody models times "simulation_result.jsonl") sc s fs
    (∃ d, o.1 = .ok d ∧ (∀ q, o.2.2 q = if q = "simulation_result.jsonl" then fs q ++ [d] else fs q) ∧
      SaysOf d sc.saysF sc.saysCoef sc.count) ∨
    (∃ e, o.1 = .error e ∧ o.2.2 = fs) := by
  intro o
  rcases hm : make sc 1 s with ⟨e | t, s1⟩
  · right
    refine ⟨e, ?_, ?_⟩ <;> · unfold o fittingScenario; simp only [hm]
  · have ho := C157_fitting_bound make (comparisonBody models times "simulation_result.jsonl") sc s s1 fs
      t hm
    rcases comparisonBody_cases models times "simulation_result.jsonl" t sc [] s1 fs with
      ⟨d, s', h⟩ | ⟨e, s', h⟩
    · left
      have ho' : o = _ := ho.trans h
      refine ⟨_, by rw [ho'], fun q => by rw [ho']; rfl, ?_⟩
      refine ⟨?_, ?_, ?_⟩ <;>
      · rw [C122_info_wins _ _ _ (remarks_nodup sc)]
        simp [Scenario.remarks, Record.find, List.lookup]
    · right
      have ho' : o = _ := ho.trans h
      exact ⟨e, by rw [ho'], by rw [ho']⟩

/-- The names under which coefficients appear in remarks. -/
def spokenCoef : List (String × String) :=
  [("coef_strong", "coef_strong"), ("coef_auto_gau_strong", "coef_gau_strong"),
   ("coef_auto_gau_weak", "coef_gau_weak"), ("coef_gau_strong2_weak", "coef_gau_strong2_weak")]

/-- C157: the remarks of a scenario name the response function and the coefficient that made its sample,
except those of `interact_ale`. -/
theorem C157_remarks_true (sc : Scenario) (h : sc ∈ comparisonScenarios ∨ sc ∈ dataSizeScenarios) :
    (sc.saysF = sc.f ∧ (sc.coef, sc.saysCoef) ∈ spokenCoef) ↔ sc.name ≠ "interact_ale" := by
  have : ∀ sc ∈ comparisonScenarios ++ dataSizeScenarios,
      ((sc.saysF = sc.f ∧ (sc.coef, sc.saysCoef) ∈ spokenCoef) ↔ sc.name ≠ "interact_ale") := by
    decide +kernel
  exact this sc (by simpa using h)

/-- C157: the records of two scenarios can be told apart by their remarks, except those of
`interact_ale` and `square_2_gau_strong_weak_5000`. -/
theorem C157_told_apart (make make' : Scenario → Nat → S → Except Err (A × A × A) × S)
    (models models' : BoundArgs (Payload K A) → List (Contest K S)) (times times' : List K)
    (a b : Scenario) (ha : a ∈ comparisonScenarios) (hb : b ∈ comparisonScenarios) (s s' : S)
    (fs fs' : Lines K) (d d' : Record K)
    (h : (fittingScenario make (comparisonBody models times "simulation_result.jsonl") a s fs).1 = .ok d)
    (h' : (fittingScenario make' (comparisonBody models' times' "simulation_result.jsonl") b s' fs').1 =
      .ok d') :
    (∀ k ∈ ["f", "coef", "count"], d.find k = d'.find k) ↔
      a = b ∨ (a.name ∈ ["interact_ale", "square_2_gau_strong_weak_5000"] ∧
        b.name ∈ ["interact_ale", "square_2_gau_strong_weak_5000"]) := by
  have key : ∀ a ∈ comparisonScenarios, ∀ b ∈ comparisonScenarios,
      ((a.saysF = b.saysF ∧ a.saysCoef = b.saysCoef ∧ a.count = b.count) ↔
        a = b ∨ (a.name ∈ ["interact_ale", "square_2_gau_strong_weak_5000"] ∧
          b.name ∈ ["interact_ale", "square_2_gau_strong_weak_5000"])) := by
    decide +kernel
  rw [← key a ha b hb]
  have g := C157_fitting_record make models times a s fs
  have g' := C157_fitting_record make' models' times' b s' fs'
  simp only [h, h'] at g g'
  rcases g with ⟨_, hd, -, g1, g2, g3⟩ | ⟨e, he, -⟩
  swap
  · cases he
  rcases g' with ⟨_, hd', -, g1', g2', g3'⟩ | ⟨e, he, -⟩
  swap
  · cases he
  cases hd
  cases hd'
  simp only [List.mem_cons, List.not_mem_nil, or_false, forall_eq_or_imp, forall_eq, g1, g2, g3, g1', g2',
    g3', Option.some.injEq, JVal.text.injEq, JVal.num.injEq, Nat.cast_inj]

/-! ### Loops that write as they go -/

/-- A run that was to write one record for each of `labels`, in order: it has written a record for each
of the first ones, each as it should be, and for all of them exactly if it did not fail. -/
def Wrote {B R : Type} (P : B → Record K → Prop) (path : String) (labels : List B) (fs : Lines K)
    (o : Except Err R × S × Lines K) : Prop :=
  ∃ ds : List (Record K), (∀ q, o.2.2 q = if q = path then fs q ++ ds else fs q) ∧
    ds.length ≤ labels.length ∧ (∀ (i : Nat) a d, labels[i]? = some a → ds[i]? = some d → P a d) ∧
    ((∃ r, o.1 = .ok r) ↔ ds.length = labels.length)

theorem eachInTurn_wrote {B C R : Type} {P : B → Record K → Prop} {path : String} {lab : C → List B}
    {body : C → S → Lines K → Except Err R × S × Lines K}
    {l : List C} (hb : ∀ c ∈ l, ∀ s fs, Wrote P path (lab c) fs (body c s fs)) (s : S) (fs : Lines K) :
    Wrote P path (l.flatMap lab) fs (eachInTurn body l s fs) := by
  induction l generalizing s fs with
  | nil => exact ⟨[], by simp [eachInTurn], by simp, by simp, by simp [eachInTurn]⟩
  | cons c l ih =>
    obtain ⟨ds, w1, w2, w3, w4⟩ := hb c (by simp) s fs
    rw [eachInTurn]
    rcases hq : body c s fs with ⟨e | r, s1, fs1⟩
    · rw [hq] at w1 w4
      simp only [reduceCtorEq, exists_false, false_iff] at w4
      refine ⟨ds, w1, by simp; omega, ?_, ?_⟩
      · intro i a d hi hd
        refine w3 i a d ?_ hd
        have := (List.getElem?_eq_some_iff.1 hd).1
        rw [List.flatMap_cons, List.getElem?_append_left (by omega)] at hi
        exact hi
      · simp only [reduceCtorEq, exists_false, false_iff, List.flatMap_cons, List.length_append]
        omega
    · rw [hq] at w1 w4
      simp only [Except.ok.injEq, exists_eq', true_iff] at w4
      obtain ⟨ds', v1, v2, v3, v4⟩ := ih (fun c hc => hb c (by simp [hc])) s1 fs1
      refine ⟨ds ++ ds', ?_, ?_, ?_, ?_⟩
      · intro q
        have w1 := w1 q
        simp only at w1
        rw [v1 q, w1]
        split <;> simp
      · simp only [List.flatMap_cons, List.length_append]; omega
      · intro i a d hi hd
        rw [List.flatMap_cons] at hi
        by_cases h : i < ds.length
        · rw [List.getElem?_append_left (by omega)] at hi
          rw [List.getElem?_append_left h] at hd
          exact w3 i a d hi hd
        · rw [List.getElem?_append_right (by omega)] at hi
          rw [List.getElem?_append_right (by omega)] at hd
          rw [w4] at hd
          exact v3 _ a d hi hd
      · rw [v4]
        simp only [List.flatMap_cons, List.length_append]; omega

/-- A round that fails has written nothing, one that does not has written one record. -/
theorem wrote_one {B R : Type} {P : B → Record K → Prop} {path : String} {a : B} {fs : Lines K}
    {o : Except Err R × S × Lines K}
    (h : (∃ d r, o.1 = .ok r ∧ o.2.2 = fs.append path [d] ∧ P a d) ∨ ∃ e, o.1 = .error e ∧ o.2.2 = fs) :
    Wrote P path [a] fs o := by
  rcases h with ⟨d, r, h1, h2, h3⟩ | ⟨e, h1, h2⟩
  · refine ⟨[d], fun q => by rw [h2]; rfl, by simp, ?_, by simp [h1]⟩
    intro i a' d' hi hd
    cases i with
    | zero => simp at hi hd; rw [← hi, ← hd]; exact h3
    | succ i => simp at hi
  · exact ⟨[], fun q => by rw [h2]; simp, by simp, by simp, by simp [h1]⟩

/-- What a record of `simulation_for_data_size.py` says. -/
def SaysSize (a : Scenario × Nat) (d : Record K) : Prop :=
  SaysOf d "f_square" "coef_gau_strong" a.1.count ∧ d.find "feature_size" = some (.num (a.2 : K))

/-- C157: `simulation_for_data_size.py` writes its records in order, five samples with four numbers of
further features each, and a failure leaves exactly those of the rounds before it. -/
theorem C157_data_size (make : Scenario → Nat → S → Except Err (A × A × A) × S)
    (widen : A → Nat → S → Except Err A × S) (models : BoundArgs (Payload K A) → List (Contest K S))
    (times : List K) (s : S) (fs : Lines K) :
    Wrote SaysSize "simulation_data_size.jsonl"
      (dataSizeScenarios.flatMap fun sc => [(sc, 1), (sc, 5), (sc, 25), (sc, 50)]) fs
      (dataSizeMain make widen (comparisonBody models times "simulation_data_size.jsonl") s fs) := by
  refine eachInTurn_wrote (lab := fun sc => [(sc, 1), (sc, 5), (sc, 25), (sc, 50)]) ?_ s fs
  intro sc hsc s fs
  have hsay : sc.saysF = "f_square" ∧ sc.saysCoef = "coef_gau_strong" := by
    have : ∀ sc ∈ dataSizeScenarios, sc.saysF = "f_square" ∧ sc.saysCoef = "coef_gau_strong" := by
      decide +kernel
    exact this sc hsc
  unfold dataSizeScenario
  rcases make sc 1 s with ⟨e | t, s1⟩
  · exact ⟨[], by simp, by simp, by simp, by simp⟩
  · refine eachInTurn_wrote (lab := fun m => [(sc, m)]) (l := [1, 5, 25, 50]) ?_ s1 fs
    intro m _ s fs
    apply wrote_one
    unfold dataSizeRound callBound
    rcases widen t.1 m s with ⟨e | X, s2⟩
    · exact .inr ⟨e, rfl, rfl⟩
    · simp only [bind_comparison]
      rcases comparisonBody_cases models times "simulation_data_size.jsonl" (X, t.2) sc
        [("feature_size", .num (m : K))] s2 fs with ⟨d, s', h⟩ | ⟨e, s', h⟩
      · refine .inl ⟨_, _, by rw [h], by rw [h], ⟨?_, ?_, ?_⟩, ?_⟩ <;>
        · rw [C122_info_wins _ _ _ (remarks_nodup_size sc _)]
          simp [Scenario.remarks, Record.find, List.lookup, hsay]
      · exact .inr ⟨e, by rw [h], by rw [h]⟩

/-- What a record of `test_llocv` says: the remarks, and for the rest what the fits returned for a sample
made with the given size and coefficient. -/
def SaysLlocv (make : Nat → String → Nat → S → Except Err (A × A × A) × S)
    (fit : A × A × A → S → Except Err (Record K) × S) (a : Nat × String) (d : Record K) : Prop :=
  d.find "func" = some (.text "f_square") ∧ d.find "coef" = some (.text a.2) ∧
  d.find "count" = some (.num (a.1 : K)) ∧
  ∃ s t s' d' s'', make a.1 a.2 1 s = (.ok t, s') ∧ fit t s' = (.ok d', s'') ∧
    ∀ k, k ∉ ["func", "coef", "count"] → d.find k = d'.find k

/-- C157: `test_llocv` writes twelve records, for every size those of the three coefficients; a failure
leaves exactly those of the rounds before it. -/
theorem C157_llocv (make : Nat → String → Nat → S → Except Err (A × A × A) × S)
    (fit : A × A × A → S → Except Err (Record K) × S) (s : S) (fs : Lines K) :
    Wrote (SaysLlocv make fit) "simulation_result_llocv.jsonl"
      [(100, "coef_strong"), (100, "coef_auto_gau_strong"), (100, "coef_auto_gau_weak"),
       (500, "coef_strong"), (500, "coef_auto_gau_strong"), (500, "coef_auto_gau_weak"),
       (1000, "coef_strong"), (1000, "coef_auto_gau_strong"), (1000, "coef_auto_gau_weak"),
       (5000, "coef_strong"), (5000, "coef_auto_gau_strong"), (5000, "coef_auto_gau_weak")] fs
      (testLlocv make fit s fs) := by
  refine eachInTurn_wrote (lab := fun a => [a]) (l := llocvRounds) ?_ s fs
  intro a _ s fs
  apply wrote_one
  unfold llocvRound
  rcases hm : make a.1 a.2 1 s with ⟨e | t, s1⟩
  · exact .inr ⟨e, rfl, rfl⟩
  · rcases hf : fit t s1 with ⟨e | d, s2⟩
    · right
      refine ⟨e, ?_⟩
      simp [hf]
    · simp only [hf]
      refine .inl ⟨_, _, rfl, rfl, ?_, ?_, ?_, s, t, s1, d, s2, hm, hf, ?_⟩
      · simp [Record.find_put]
      · simp [Record.find_put]
      · simp [Record.find_put]
      · intro k hk
        simp only [List.mem_cons, List.not_mem_nil, or_false, not_or] at hk
        simp [Record.find_put, hk.1, hk.2.1, hk.2.2]

/-! ### The hypotheses are met -/

/-- Samples that are numbers; the generator counts. -/
def numberSample (sc : Scenario) (k : Nat) (s : Nat) : Except Err (Nat × Nat × Nat) × Nat :=
  (.ok (sc.count, k, s), s + 1)

/-- One model whose score is the stacking neighbour count it was given. -/
def oneModel (b : BoundArgs (Payload ℚ Nat)) : List (Contest ℚ Nat) :=
  [⟨["S"], "T", fun s => match b.vals.lookup "stacking_neighbour_count" with
    | some (.float q) => (.ok [some q], s + 1)
    | _ => (.error .typeError, s)⟩]

/-- A scenario of the robustness script fails, its original writes a record, and the sixth round of the
data size script fails after five records if widening fails there. -/
example :
    (robustScenario numberSample (comparisonBody oneModel [7] "simulation_result.jsonl")
      (comparisonScenarios.getD 0 (comparisonScenarios[1])) 3 fun _ => []).1.isOk = false ∧
    (fittingScenario numberSample (comparisonBody oneModel [7] "simulation_result.jsonl")
      (comparisonScenarios.getD 0 (comparisonScenarios[1])) 3 fun _ => []).1.isOk = true ∧
    (robustScenario numberSample (comparisonBody oneModel [7] "simulation_result.jsonl")
      (comparisonScenarios[2]) 3 fun _ => []).1.isOk = true ∧
    ((dataSizeMain numberSample (fun X m s => (if 500 = X ∧ m = 5 then .error .valueError else .ok (X + m), s))
      (comparisonBody oneModel [7] "simulation_data_size.jsonl") 3 fun _ => []).2.2
        "simulation_data_size.jsonl").length = 5 := by
  refine ⟨?_, ?_, ?_, ?_⟩ <;> decide +kernel

/-- `test_llocv` with fits that fail for the largest samples leaves nine records. -/
example :
    ((testLlocv (K := ℚ) (fun n _ k s => (.ok (n, k, s), s + 1))
      (fun t s => if t.1 = 5000 then (.error .valueError, s) else (.ok [("RF", .num 1)], s + 1)) 0
        fun _ => []).2.2 "simulation_result_llocv.jsonl").length = 9 := by
  decide +kernel

end Geo
