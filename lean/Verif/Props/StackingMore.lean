import Verif.Props.StackingExamples
/-
Properties C53-C56 of the stacking model.
-/
set_option linter.unusedSectionVars false
namespace Geo
variable {K : Type} [Field K] [LinearOrder K] [IsStrictOrderedRing K] [FloorRing K]
variable {F G C S : Type}

/-! ### C53: the default `neighbour_leave_out_rate` -/

/-- C53: without `neighbour_leave_out_rate` (the default) no call of `fit` succeeds. With valid
data and weights it raises `AttributeError`; the object then counts as fitted, `cache_estimator`
is switched on, no estimators or predictions have been stored, and the caller's matrix is
unchanged. -/
theorem C53_default_always_fails (L : Learner K F) (M Mn : Learner K G) (rng : Rng S)
    (p : SParams K C) (st : SState K F G C) (s : S) (X : Mat K) (y : List K)
    (coords : Option C) (W : Option (WMat K)) (hp : p.leaveOutRate = none) :
    let o := stackFit L M Mn rng p st s X y coords W
    (∃ e, o.result = .error e) ∧ o.caller = W ∧ o.rng = s ∧
      ((X.r = y.length ∧ 0 < X.r ∧ 0 < X.c) → ∀ W0, chosenWeights p.toWMParams coords W = .ok W0 →
        o.result = .error .attributeError ∧ o.state.wm.isFitted = true ∧
        o.state.cacheEstimator = true ∧ o.state.base = st.base ∧
        o.state.wm.estimators = st.wm.estimators ∧
        o.state.stackPredictions = st.stackPredictions) := by
  unfold stackFit
  by_cases hc : checkXy X y = true
  · simp only [hc, if_true]
    cases hW0 : chosenWeights p.toWMParams coords W with
    | error e =>
      refine ⟨⟨e, rfl⟩, rfl, rfl, fun _ W0 h0 => by cases h0⟩
    | ok W0 =>
      have hcn : ¬ (coords.isNone && W.isNone) = true := by
        intro h
        simp only [Bool.and_eq_true, Option.isNone_iff_eq_none] at h
        rw [h.1, h.2] at hW0
        simp [chosenWeights] at hW0
      have hcal : (if W.isSome = true then some W0 else none) = W := by
        cases W with
        | none => rfl
        | some W => simp only [chosenWeights, Except.ok.injEq] at hW0; simp [hW0]
      simp only [stackWith, hp]
      refine ⟨⟨_, rfl⟩, hcal, trivial, fun _ W0' _ => ?_⟩
      simp only [stackWeights, stackBegin, hcn]
      cases W.isSome <;> cases p.cacheData <;> simp
  · simp only [hc, if_false, Bool.false_eq_true]
    refine ⟨⟨_, rfl⟩, trivial, trivial, fun h => ?_⟩
    simp only [checkXy, decide_eq_true_eq] at hc
    exact absurd h hc

/-- C53: with the default a model cannot be fitted, with a rate it can (the same data). -/
example :
    (seFit { seP with leaveOutRate := none } seY (.dense seW)).result = .error .attributeError ∧
    (seFit seP seY (.dense seW)).result = .ok () := by decide +kernel

/-! ### C54: the recorded matrices -/

/-- C54: what a successful fit records. If the weights were given, `weight_matrix_` and
`neighbour_matrix_` keep their old values (or stay unset), and the caller's matrix has been shrunk
with `meta_fitting_shrink_rate`. If the weights were computed from coordinates, `weight_matrix_` is
the shrunk matrix, but `neighbour_matrix_` describes the weights before shrinking. -/
theorem C54_recorded_matrices (L : Learner K F) (M Mn : Learner K G) (rng : Rng S)
    (p : SParams K C) (st : SState K F G C) (s : S) (X : Mat K) (y : List K)
    (coords : Option C) (W : Option (WMat K))
    (h : (stackFit L M Mn rng p st s X y coords W).result = .ok ()) :
    let o := stackFit L M Mn rng p st s X y coords W
    (∀ D, W = some (.dense D) → o.state.wm.weightMatrix = st.wm.weightMatrix ∧
      o.state.wm.neighbourMatrix = st.wm.neighbourMatrix ∧
      ∃ W1, shrinkMetaDense p.metaShrink D = .ok W1 ∧ o.caller = some (.dense W1)) ∧
    (∀ A, W = some (.sparse A) → o.state.wm.weightMatrix = st.wm.weightMatrix ∧
      o.state.wm.neighbourMatrix = st.wm.neighbourMatrix ∧
      ∃ A1, shrinkMetaSparse p.metaShrink A = .ok A1 ∧ o.caller = some (.sparse A1)) ∧
    (W = none → ∃ c D W1, coords = some c ∧ p.weights c c = .ok D ∧
      shrinkMetaDense p.metaShrink D = .ok W1 ∧ o.state.wm.weightMatrix = some (.dense W1) ∧
      o.state.wm.neighbourMatrix = some (.dense (gt0 D))) := by
  obtain ⟨W0, rate, _, hW0, hrate, he⟩ := stackFit_ok h
  intro o
  have ho : o = _ := he
  rw [he] at h
  unfold stackWith at h ho
  rw [hrate] at h ho
  have hbw : ∀ W, (stackBegin p st X y coords W).wm.weightMatrix = st.wm.weightMatrix ∧
      (stackBegin p st X y coords W).wm.neighbourMatrix = st.wm.neighbourMatrix := by
    intro W
    unfold stackBegin
    simp only
    split
    · exact ⟨rfl, rfl⟩
    · simp only
      split <;> exact ⟨rfl, rfl⟩
  cases W0 with
  | dense D =>
    simp only at h ho
    obtain ⟨Sm, W1, idx, res, out, sc, sc', s1, hr, hst, _, _⟩ := stackDense_ok h
    rw [hst] at ho
    rw [ho]
    cases W with
    | some W =>
      simp only [chosenWeights, Except.ok.injEq] at hW0
      subst hW0
      refine ⟨fun D' hD' => ?_, fun A hA => (by simp at hA), fun hn => (by simp at hn)⟩
      cases hD'
      exact ⟨(hbw _).1, (hbw _).2, W1, hr.shrunk, rfl⟩
    | none =>
      refine ⟨fun D' hD' => (by simp at hD'), fun A hA => (by simp at hA), fun _ => ?_⟩
      cases coords with
      | none => simp [chosenWeights] at hW0
      | some c =>
        simp only [chosenWeights, Except.map_ok_iff] at hW0
        obtain ⟨D', hD', hDD⟩ := hW0
        cases hDD
        exact ⟨c, D, W1, rfl, hD', hr.shrunk, rfl, rfl⟩
  | sparse A =>
    have hA := chosenWeights_sparse hW0
    subst hA
    simp only at h ho
    obtain ⟨Sm, A1, sec, idx, res, out, sc, sc', s1, hr, hst, _, _⟩ := stackSparse_ok h
    rw [hst] at ho
    rw [ho]
    refine ⟨fun D' hD' => (by simp at hD'), fun A' hA' => ?_, fun hn => (by simp at hn)⟩
    cases hA'
    exact ⟨(hbw _).1, (hbw _).2, A1, hr.shrunk, rfl⟩

/-- C54: when the weights were computed from coordinates and `meta_fitting_shrink_rate` is not
used, the recorded matrices agree, whatever was fitted before. -/
theorem C54_agree_without_shrinking (L : Learner K F) (M Mn : Learner K G) (rng : Rng S)
    (p : SParams K C) (st : SState K F G C) (s : S) (X : Mat K) (y : List K)
    (coords : Option C) (hp : p.metaShrink = none)
    (h : (stackFit L M Mn rng p st s X y coords none).result = .ok ()) :
    ∃ c D, coords = some c ∧ p.weights c c = .ok D ∧
      (stackFit L M Mn rng p st s X y coords none).state.wm.weightMatrix = some (.dense D) ∧
      ∃ B, (stackFit L M Mn rng p st s X y coords none).state.wm.neighbourMatrix =
        some (.dense B) ∧ B.r = D.r ∧ B.c = D.c ∧ ∀ i j, B.get i j = true ↔ 0 < D.get i j := by
  obtain ⟨c, D, W1, hc, hD, hW1, h1, h2⟩ :=
    (C54_recorded_matrices L M Mn rng p st s X y coords none h).2.2 rfl
  rw [hp] at hW1
  cases hW1
  exact ⟨c, D, hc, hD, h1, _, h2, rfl, rfl, fun i j => by simp [gt0, Mat.map]⟩

/-- C54: with `meta_fitting_shrink_rate` they disagree: location 3 is recorded as a neighbour of
location 0 with weight zero. Also, the hypotheses of the two theorems are met. -/
theorem C54_disagree_after_shrinking :
    let p : SParams ℚ Unit := { seP with weights := fun _ _ => .ok seW, metaShrink := some (1 / 2) }
    let o := stackFit meanLearner meanLearner meanLearner rotRng p {} 0 seX seY (some ()) none
    o.result = .ok () ∧
    (∃ W1 B, o.state.wm.weightMatrix = some (.dense W1) ∧
      o.state.wm.neighbourMatrix = some (.dense B) ∧ W1.get 0 3 = 0 ∧ B.get 0 3 = true) ∧
    (stackFit meanLearner meanLearner meanLearner rotRng { p with metaShrink := none } {} 0 seX seY
      (some ()) none).result = .ok () := by
  intro p o
  have hr : o.result = .ok () := by decide +kernel
  refine ⟨hr, ?_, by decide +kernel⟩
  obtain ⟨c, D, W1, hc, hD, hW1, h1, h2⟩ := (C54_recorded_matrices _ _ _ _ p {} _ _ _ _ _ hr).2.2 rfl
  have hD' : D = seW := by
    have : (Except.ok seW : Except Err (Mat ℚ)) = .ok D := hD
    injection this with this; exact this.symm
  subst hD'
  refine ⟨W1, _, h1, h2, ?_, by decide +kernel⟩
  have : okAnd (shrinkMetaDense (some (1 / 2)) seW) (fun W1 => decide (W1.get 0 3 = 0)) = true := by
    decide +kernel
  have hW1' : shrinkMetaDense (some (1 / 2)) seW = .ok W1 := hW1
  rw [hW1'] at this
  exact of_decide_eq_true this

/-! ### C55: `estimator_sample_rate` -/

/-- The candidates are `[0]` at every location: the mask entry of the location itself is set. -/
theorem chooseBases_zero {rng : Rng S} (hv : rng.Valid) {r : K} (h0 : 0 < r) (h1 : r ≤ 1)
    {lo : Mat Bool} {s s' : S} {i : Nat} {sample : List Nat} (hlo : lo.get i i = true)
    (hr : 0 < lo.r) (h : chooseBases rng (some r) lo s i = (.ok sample, s')) : sample = [0] := by
  unfold chooseBases at h
  simp only [hlo, if_true] at h
  have hceil : ⌈((([0] : List Nat).length : Nat) : K) * r⌉ = ((1 : Nat) : ℤ) := by
    simp only [List.length_singleton, Nat.cast_one, one_mul]
    rw [Int.ceil_eq_iff]
    constructor
    · simpa using h0
    · simpa using h1
  obtain ⟨c, hc1, hc2, hc3⟩ := hv s [0] 1 (by simp)
  rw [hceil] at h
  rcases hch : rng.choice s [0] ((1 : Nat) : ℤ) with ⟨e | l, s''⟩
  · rw [hch] at h; simp at h
  rw [hch] at h hc1
  simp only [Except.ok.injEq] at hc1
  subst hc1
  simp only [Prod.mk.injEq, Except.ok.injEq] at h
  rw [← h.1]
  have hl : ∀ j, j ∈ l ↔ j = 0 := by
    intro j
    have hsub : ∀ x ∈ l, x = 0 := fun x hx => by simpa using hc3.subset hx
    constructor
    · exact hsub j
    · rintro rfl
      obtain ⟨a, ha⟩ := List.length_eq_one_iff.1 hc2
      rw [ha]
      have := hsub a (by rw [ha]; simp)
      simp [this]
  apply sorted_ext (List.Pairwise.filter _ List.pairwise_lt_range) (by simp)
  intro x
  simp only [List.mem_filter, List.mem_range, decide_eq_true_eq, List.mem_singleton, hl]
  constructor
  · exact fun h => h.2
  · rintro rfl; exact ⟨hr, rfl⟩

/-- C55: with dense weights and `estimator_sample_rate` in `(0, 1]`, the stacking estimator of every
location consists of the single base estimator 0, whether or not it was left out for the
location. -/
theorem C55_dense_uses_only_base_zero (L : Learner K F) (M Mn : Learner K G) (rng : Rng S)
    (hv : rng.Valid) (p : SParams K C) (st : SState K F G C) (s : S) (X : Mat K) (y : List K)
    (coords : Option C) (W : Option (WMat K)) (D : Mat K)
    (hD : chosenWeights p.toWMParams coords W = .ok (.dense D)) (r : K)
    (hp : p.estimatorRate = some r) (h0 : 0 < r) (h1 : r ≤ 1)
    (h : (stackFit L M Mn rng p st s X y coords W).result = .ok ()) :
    ∃ bases b0 es, (stackFit L M Mn rng p st s X y coords W).state.base = some bases ∧
      bases[0]? = some b0 ∧ bases.length = X.r ∧
      (stackFit L M Mn rng p st s X y coords W).state.wm.estimators = some es ∧
      es.length = X.r ∧ ∀ i < X.r, ∃ g, es[i]? = some (some (.stacked g [b0])) := by
  obtain ⟨W0, rate, _, hW0, hrate, he⟩ := stackFit_ok h
  rw [hD] at hW0
  injection hW0 with hW0
  subst hW0
  rw [he] at h ⊢
  unfold stackWith at h ⊢
  rw [hrate] at h ⊢
  simp only at h ⊢
  obtain ⟨Sm, W1, idx, res, out, sc, sc', s1, hr, hst, hr2, _⟩ := stackDense_ok h
  rw [hst]
  obtain ⟨hlr, hb⟩ := mapE_range hr.base
  have hN : 0 < X.r := by
    have h3 := r2Column_ok hr2
    simp only [List.length_map] at h3
    omega
  obtain ⟨b, hb1, _⟩ := hb 0 hN
  obtain ⟨hSr, hSc, hdiag⟩ := sampleDense_ok hr.sample
  obtain ⟨_, _, hm⟩ := hr.meta_
  unfold metaStageDense at hm
  split at hm
  · simp at hm
  obtain ⟨hl, hm⟩ := metaLoop_ok hm
  simp only [List.length_range] at hl
  refine ⟨_, b.est, _, rfl, by simp [List.getElem?_map, hb1], by simp [hlr], rfl, by simp [hl],
    fun i hi => ?_⟩
  obtain ⟨s₁, s₂, sample, o, hc, hs, ho⟩ := hm i i (by simp [hi])
  rw [hp] at hc
  have hz := chooseBases_zero hv h0 h1 (lo := Sm.transpose) (hdiag i)
    (by show 0 < Sm.c; rw [hSc, hr.cols]; exact hN) hc
  subst hz
  obtain ⟨_, _, g, _, rfl⟩ := solveMeta_ok hs
  refine ⟨g, ?_⟩
  simp [List.getElem?_map, ho, problemDense, hb1]

/-- C55: with CSR weights `estimator_sample_rate` has no effect at all. -/
theorem C55_sparse_ignores_rate (L : Learner K F) (M Mn : Learner K G) (rng : Rng S)
    (p : SParams K C) (st : SState K F G C) (s : S) (X : Mat K) (y : List K)
    (coords : Option C) (A : Csr K) (r : Option K) :
    stackFit L M Mn rng { p with estimatorRate := r } st s X y coords (some (.sparse A)) =
      stackFit L M Mn rng p st s X y coords (some (.sparse A)) := rfl

/-- C55: because base estimator 0 need not be left out, the prediction of a location then does
depend on its own target (location 1: 5 replaced by 9). -/
theorem C55_own_target_leaks :
    let p := { seP with estimatorRate := some 1 }
    (seFit p seY (.dense seW)).result = .ok () ∧
    (seFit p (seY.set 1 9) (.dense seW)).result = .ok () ∧
    (seFit p seY (.dense seW)).state.stackPredictions =
      some [542 / 65, 696 / 95, 142 / 15, 1733 / 185] ∧
    (seFit p (seY.set 1 9) (.dense seW)).state.stackPredictions =
      some [818 / 65, 924 / 95, 66 / 5, 2417 / 185] := by decide +kernel

/-! ### C51, C52 without own weights -/

/-- Nobody has a weight for location 0. -/
def seW0 : Mat ℚ := ⟨4, 4, fun i j => if j = 0 then 0 else seW.get i j⟩
def seA0 : Csr ℚ := ⟨4, 4, [0, 3, 6, 9, 12], [1, 2, 3, 1, 2, 3, 1, 2, 3, 1, 2, 3],
  (List.range 4).flatMap fun i => [1, 2, 3].map (seW.get i)⟩

/-- C51, C52: a location without positive weight for itself. The prediction recorded for it is made
from zeros (and with numba from the predictions for another location), not from the predictions of
its base estimators, and is not what the stored estimator predicts. -/
theorem C51_own_weight_needed :
    let a := seFit seP seY (.dense seW0)
    let b := seFit seP seY (.sparse seA0)
    let c := seFit { seP with useNumba := true } seY (.sparse seA0)
    a.result = .ok () ∧ b.result = .ok () ∧ c.result = .ok () ∧
    a.state.stackPredictions = b.state.stackPredictions ∧
    a.state.stackPredictions.bind (·[0]?) ≠ c.state.stackPredictions.bind (·[0]?) ∧
    (a.state.wm.estimators.bind (·[0]?)).join.map
        (fun e => stackPredict meanLearner meanLearner e (seX.row 0)) ≠
      a.state.stackPredictions.bind (·[0]?) ∧
    (c.state.wm.estimators.bind (·[0]?)).join.map
        (fun e => stackPredict meanLearner meanLearner e (seX.row 0)) ≠
      c.state.stackPredictions.bind (·[0]?) := by decide +kernel

/-! ### C56: prediction by fitting -/

theorem predictByFit_ok {L : Learner K F} {M : Learner K G} {p : SParams K C}
    {st : SState K F G C} {s : S} {X : Mat K} {y : List K} {train : C} {Xp : Mat K} {test : C}
    {preds : List K}
    (h : (stackPredictByFit L M p st s X y train Xp test).result = .ok preds) :
    ∃ W T res out, p.weights train train = .ok W ∧ p.weights train test = .ok T ∧
      W.r = X.r ∧ W.c = X.r ∧ T.r = X.r ∧ T.c = Xp.r ∧
      mapE (baseDense L X (fun i => y.getD i 0)
        (localDense p.leaveLocalOut W ⟨W.r, W.c, fun _ _ => false⟩)
        (secondOrderDense (gt0 T).transpose (gt0 T))) (List.range X.r) = .ok res ∧
      testStage L M p X.r (fun i => y.getD i 0) Xp T
        (secondOrderDense (gt0 T).transpose (gt0 T)) res = .ok out ∧
      preds = out.map Prod.fst ∧
      (stackPredictByFit L M p st s X y train Xp test).state.base = some (res.map BaseOut.est) ∧
      (stackPredictByFit L M p st s X y train Xp test).state.wm.estimators =
        some (out.map fun o => some o.2) := by
  unfold stackPredictByFit at h ⊢
  split at h
  swap
  · cases h
  rename_i hc
  rw [if_pos hc]
  simp only at h ⊢
  cases hW : p.weights train train with
  | error e => rw [hW] at h; cases h
  | ok W =>
  rw [hW] at h
  simp only at h ⊢
  cases hT : p.weights train test with
  | error e => rw [hT] at h; cases h
  | ok T =>
  rw [hT] at h
  simp only at h ⊢
  by_cases hd : W.r ≠ X.r ∨ W.c ≠ X.r ∨ T.r ≠ X.r ∨ T.c ≠ Xp.r
  · rw [if_pos hd] at h; cases h
  rw [if_neg hd] at h ⊢
  push Not at hd
  generalize hrb : runBase _ _ _ = rb at h
  cases rb with
  | error e => cases h
  | ok res =>
  simp only [stackBase] at h ⊢
  cases hr : r2Column y (res.map BaseOut.pred) with
  | error e => rw [hr] at h; cases h
  | ok score =>
  rw [hr] at h
  simp only at h ⊢
  generalize hts : testStage L M p X.r _ Xp T _ res = ts at h
  cases ts with
  | error e => cases h
  | ok out =>
  simp only [Except.ok.injEq] at h
  refine ⟨W, T, res, out, rfl, rfl, hd.1, hd.2.1, hd.2.2.1, hd.2.2.2, runBase_ok hrb, hts, h.symm,
    ?_, ?_⟩ <;> rfl

/-- C56: what a successful `predict_by_fit` computes. The base estimators are fitted on all
training observations of non-zero weight (without themselves for `leave_local_out`); the meta
estimator of a test point is fitted on the predictions of the base estimators of its training
neighbours for all its training neighbours; the prediction of the test point is made from their
predictions at the test point. -/
theorem C56_predictions (L : Learner K F) (M : Learner K G) (p : SParams K C)
    (st : SState K F G C) (s : S) (X : Mat K) (y : List K) (train : C) (Xp : Mat K) (test : C)
    (preds : List K)
    (h : (stackPredictByFit L M p st s X y train Xp test).result = .ok preds) :
    ∃ W T bases es, p.weights train train = .ok W ∧ p.weights train test = .ok T ∧
      (stackPredictByFit L M p st s X y train Xp test).state.base = some bases ∧
      (stackPredictByFit L M p st s X y train Xp test).state.wm.estimators = some es ∧
      bases.length = X.r ∧ preds.length = Xp.r ∧ es.length = Xp.r ∧
      (∀ j < X.r, ∃ b, bases[j]? = some b ∧
        let Tr := (List.range X.r).filter fun k =>
          decide (W.get j k ≠ 0 ∧ ¬ (p.leaveLocalOut = true ∧ k = j))
        L.fit j (Tr.map X.row) (Tr.map (yfun y)) (Tr.map (W.get j)) = .ok b) ∧
      ∀ t < Xp.r, ∃ g fs,
        let nb := (List.range X.r).filter fun k => decide (0 < T.get k t)
        nb ≠ [] ∧ fs.map some = (nb.map fun j => bases[j]?) ∧
        M.fit 0 (nb.map fun k => nb.map fun j => basePred L X bases j k) (nb.map (yfun y))
          (nb.map fun k => T.get k t) = .ok g ∧
        es[t]? = some (some (.stacked g fs)) ∧
        preds[t]? = some (M.predict g (fs.map fun f => L.predict f (Xp.row t))) := by
  obtain ⟨W, T, res, out, hW, hT, hr1, hr2, hr3, hr4, hb, hm, hp, hs1, hs2⟩ := predictByFit_ok h
  obtain ⟨hlr, hb⟩ := mapE_range hb
  unfold testStage at hm
  split at hm
  · cases hm
  obtain ⟨hlo, hm⟩ := mapE_range hm
  refine ⟨W, T, _, _, hW, hT, hs1, hs2, by simp [hlr], by simp [hp, hlo], by simp [hlo],
    fun j hj => ?_, fun t ht => ?_⟩
  · obtain ⟨b, hb1, hb2⟩ := hb j hj
    refine ⟨b.est, by simp [List.getElem?_map, hb1], ?_⟩
    obtain ⟨hf, _⟩ := fitBase_ok hb2
    have hTr : nonzeroIdx (localDense p.leaveLocalOut W
          (Mat.transpose ⟨W.c, W.r, fun _ _ => false⟩)).c
        ((localDense p.leaveLocalOut W (Mat.transpose ⟨W.c, W.r, fun _ _ => false⟩)).get j) =
        (List.range X.r).filter fun k => decide (W.get j k ≠ 0 ∧
          ¬ (p.leaveLocalOut = true ∧ k = j)) := by
      show (List.range W.c).filter _ = _
      rw [hr2]
      apply List.filter_congr
      intro k hk
      apply decide_eq_decide.2
      rw [localDense_ne]
      simp
    have hw : ∀ k ∈ nonzeroIdx (localDense p.leaveLocalOut W
          (Mat.transpose ⟨W.c, W.r, fun _ _ => false⟩)).c
        ((localDense p.leaveLocalOut W (Mat.transpose ⟨W.c, W.r, fun _ _ => false⟩)).get j),
        (localDense p.leaveLocalOut W (Mat.transpose ⟨W.c, W.r, fun _ _ => false⟩)).get j k =
          W.get j k := by
      intro k hk
      have := (mem_nonzeroIdx.1 hk).2
      simp only [localDense] at this ⊢
      split
      · rename_i h; simp [h] at this
      · rfl
    rw [show (⟨W.r, W.c, fun _ _ => false⟩ : Mat Bool) =
      Mat.transpose ⟨W.c, W.r, fun _ _ => false⟩ from rfl] at hf
    rw [List.map_congr_left hw, hTr] at hf
    exact hf
  · obtain ⟨o, ho, hs⟩ := hm t ht
    obtain ⟨q, hq, hqo⟩ := Except.map_ok_iff.1 hs
    subst hqo
    obtain ⟨hne, _, g, hg, rfl⟩ := solveMeta_ok hq
    have hnb : trueIdx (gt0 T).transpose t =
        (List.range X.r).filter fun k => decide (0 < T.get k t) := by
      show (List.range T.r).filter _ = _
      rw [hr3]
      rfl
    have hmem : ∀ {k}, k ∈ (List.range X.r).filter (fun k => decide (0 < T.get k t)) ↔
        k < X.r ∧ 0 < T.get k t := by intro k; simp
    have hget : ∀ k ∈ (List.range X.r).filter (fun k => decide (0 < T.get k t)),
        ∀ j ∈ (List.range X.r).filter (fun k => decide (0 < T.get k t)),
        (metaDense X.r (secondOrderDense (gt0 T).transpose (gt0 T)) res).get j k =
          basePred L X (res.map BaseOut.est) j k := by
      intro k hk j hj
      obtain ⟨b, hb1, hb2⟩ := hb j (hmem.1 hj).1
      obtain ⟨_, _, _, hsd⟩ := fitBase_ok hb2
      rw [metaDense_get hb1 hsd, if_pos, basePred_of hb1]
      rw [mem_trueIdx]
      refine ⟨?_, (C23_second_order_dense _ _ j k).2 ⟨t, ?_, ?_, ?_⟩⟩
      · show k < T.r
        rw [hr3]; exact (hmem.1 hk).1
      · show t < T.c
        rw [hr4]; exact ht
      · simpa [gt0, Mat.map] using (hmem.1 hj).2
      · simpa [gt0, Mat.map, Mat.transpose] using (hmem.1 hk).2
    have hpr : problemTest (metaDense X.r (secondOrderDense (gt0 T).transpose (gt0 T)) res) T
        (yfun y) t =
        let nb := (List.range X.r).filter fun k => decide (0 < T.get k t)
        ⟨nb, nb.map fun k => nb.map fun j => basePred L X (res.map BaseOut.est) j k,
          nb.map (yfun y), nb.map fun k => T.get k t, []⟩ := by
      unfold problemTest
      simp only [hnb, MetaProblem.mk.injEq, true_and, and_true]
      exact List.map_congr_left fun k hk => List.map_congr_left fun j hj => hget k hk j hj
    have hpr' : problemTest (metaDense X.r (secondOrderDense (gt0 T).transpose (gt0 T)) res) T
        (fun i => y.getD i 0) t = _ := hpr
    simp only at hpr'
    rw [hpr'] at hg hne ho
    refine ⟨g, _, fun h0 => hne (by simp only [h0]; rfl), filterMap_bases ?_, hg, ?_, ?_⟩
    · intro j hj
      simp only [List.length_map, hlr]
      exact (hmem.1 hj).1
    · simp [List.getElem?_map, ho]
    · simp [hp, List.getElem?_map, ho, stackPredict]

/-- C56: `predict_by_fit` cannot succeed when some training point is a neighbour of no test
point. -/
theorem C56_uncovered_training_point (L : Learner K F) (M : Learner K G) (p : SParams K C)
    (st : SState K F G C) (s : S) (X : Mat K) (y : List K) (train : C) (Xp : Mat K) (test : C)
    (T : Mat K) (hT : p.weights train test = .ok T) (j : Nat) (hj : j < X.r)
    (hun : ∀ t < Xp.r, ¬ 0 < T.get j t) :
    ∃ e, (stackPredictByFit L M p st s X y train Xp test).result = .error e := by
  cases h : (stackPredictByFit L M p st s X y train Xp test).result with
  | error e => exact ⟨e, rfl⟩
  | ok preds =>
    exfalso
    obtain ⟨W, T', res, out, hW, hT', hr1, hr2, hr3, hr4, hb, hm, hp, hs1, hs2⟩ := predictByFit_ok h
    rw [hT] at hT'
    injection hT' with hT'
    subst hT'
    obtain ⟨b, hb1, hb2⟩ := (mapE_range hb).2 j hj
    obtain ⟨_, hne, _⟩ := fitBase_ok hb2
    apply hne
    rw [List.eq_nil_iff_forall_not_mem]
    intro k hk
    obtain ⟨t, ht, h1, _⟩ := (C23_second_order_dense _ _ j k).1 (mem_trueIdx.1 hk).2
    refine hun t ?_ (by simpa [gt0, Mat.map] using h1)
    have : t < T.c := ht
    rw [hr4] at this; exact this

/-- C56: with `use_numba` it never succeeds. -/
theorem C56_numba_fails (L : Learner K F) (M : Learner K G) (p : SParams K C)
    (st : SState K F G C) (s : S) (X : Mat K) (y : List K) (train : C) (Xp : Mat K) (test : C)
    (hn : p.useNumba = true) :
    ∃ e, (stackPredictByFit L M p st s X y train Xp test).result = .error e := by
  cases h : (stackPredictByFit L M p st s X y train Xp test).result with
  | error e => exact ⟨e, rfl⟩
  | ok preds =>
    exfalso
    obtain ⟨W, T', res, out, hW, hT', hr1, hr2, hr3, hr4, hb, hm, _⟩ := predictByFit_ok h
    simp [testStage, hn] at hm

/-- Weights for the example: coordinates `false` are the training points, `true` two test points. -/
def seTest (full : Bool) : SParams ℚ Bool :=
  { nPatches := some 2, cpu := 2, leaveOutRate := some (1 / 4), leaveLocalOut := true,
    weights := fun _ b => .ok (if b then ⟨4, 2, fun i j =>
      if full || decide (i ≠ 3) then 1 / (1 + i + j : ℚ) else 0⟩ else seW) }

/-- C56: a fitted model is changed by a prediction. The stored estimators afterwards belong to the
two test points, and the base estimators have been replaced. Also, the hypotheses of the theorems
are met; with an uncovered training point the call raises. -/
theorem C56_replaces_fitted_model :
    let a := stackFit meanLearner meanLearner meanLearner rotRng (seTest true) {} 0 seX seY
      (some false) none
    let b := stackPredictByFit meanLearner meanLearner (seTest true) a.state a.rng seX seY false
      ⟨2, 1, fun i _ => i + 5⟩ true
    a.result = .ok () ∧ b.result.toOption = some [24770582 / 685425, 85432027 / 2111109] ∧
    a.state.wm.estimators.map List.length = some 4 ∧
    b.state.wm.estimators.map List.length = some 2 ∧
    a.state.base ≠ b.state.base ∧ a.state.wm.localPredict ≠ b.state.wm.localPredict ∧
    (stackPredictByFit meanLearner meanLearner (seTest false) a.state a.rng seX seY false
      ⟨2, 1, fun i _ => i + 5⟩ true).result = .error .valueError := by decide +kernel

end Geo
