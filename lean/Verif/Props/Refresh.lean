import Verif.Props.StackingExamples
import Verif.Props.WeightModelState
/-
Property C116: what a fit keeps from the past of the object and of the random generator.
-/
set_option linter.unusedSectionVars false
namespace Geo
variable {K : Type} [Field K] [LinearOrder K] [IsStrictOrderedRing K] [FloorRing K]
variable {F G C S : Type}

/-! ### Weight models -/

/-- The outcome of a fit, what it does to the caller's matrix and the generator do not depend on the
object. -/
theorem wmFit_outcome (L : Learner K F) (rng : Rng S) (p : WMParams K C) (st st' : WMState K F C)
    (s : S) (X : Mat K) (y : List K) (coords : Option C) (W : Option (WMat K)) :
    (wmFit L rng p st s X y coords W).result = (wmFit L rng p st' s X y coords W).result ∧
    (wmFit L rng p st s X y coords W).caller = (wmFit L rng p st' s X y coords W).caller ∧
    (wmFit L rng p st s X y coords W).rng = (wmFit L rng p st' s X y coords W).rng := by
  unfold wmFit
  split
  swap
  · exact ⟨rfl, rfl, rfl⟩
  cases chosenWeights p coords W with
  | error e => exact ⟨rfl, rfl, rfl⟩
  | ok W0 =>
    simp only [fitWith]
    rcases sampleLocations rng s p.sampleRate X.r with ⟨_ | idx, s1⟩
    · exact ⟨rfl, rfl, rfl⟩
    · simp only
      cases fitAll L X (fun i => y.getD i 0) none (leaveOut p W0) X.r (some idx) p.nJobs
          p.storedPatches p.cpu with
      | error e => exact ⟨rfl, rfl, rfl⟩
      | ok res =>
        simp only [stateEnd]
        cases skR2 (idx.map fun i => y.getD i 0) (res.map Prod.fst) <;> exact ⟨by trivial, by trivial, by trivial⟩

/-- C116: fitting an object again is fitting a new one. Whatever was done with the object before, the
outcome is the same, and after success every attribute has the value it has in a new object fitted
with the same call, except the recorded score decreases and interactions, which are kept; the data
too, if `cache_data` is off. -/
theorem C116_refit (L : Learner K F) (rng : Rng S) (p : WMParams K C) (st : WMState K F C)
    (s : S) (X : Mat K) (y : List K) (coords : Option C) (W : Option (WMat K)) :
    (wmFit L rng p st s X y coords W).result = (wmFit L rng p {} s X y coords W).result ∧
    (wmFit L rng p st s X y coords W).caller = (wmFit L rng p {} s X y coords W).caller ∧
    (wmFit L rng p st s X y coords W).rng = (wmFit L rng p {} s X y coords W).rng ∧
    ((wmFit L rng p st s X y coords W).result = .ok () →
      (wmFit L rng p st s X y coords W).state =
        { (wmFit L rng p {} s X y coords W).state with
          permDecrease := st.permDecrease
          interaction := st.interaction
          X := if p.cacheData then some X else st.X
          y := if p.cacheData then some y else st.y
          coords := if p.cacheData then coords else st.coords }) := by
  obtain ⟨h1, h2, h3⟩ := wmFit_outcome L rng p st {} s X y coords W
  refine ⟨h1, h2, h3, fun hok => ?_⟩
  obtain ⟨W0, idx, s', res, score, -, hW0, hs, hf, -, -, hsc, hout⟩ := wmFit_ok hok
  obtain ⟨W0', idx', s'', res', score', -, hW0', hs', hf', -, -, hsc', hout'⟩ :=
    wmFit_ok (h1 ▸ hok)
  rw [hW0] at hW0'
  cases hW0'
  rw [hs] at hs'
  cases hs'
  rw [hf] at hf'
  cases hf'
  rw [hsc] at hsc'
  cases hsc'
  rw [hout, hout']
  have hn : (coords.isNone && W.isNone) = false := by
    cases coords <;> cases W <;> first | rfl | cases hW0
  simp only [stateBegin, hn, Bool.false_eq_true, if_false]
  split <;> rfl

/-! ### Stacking -/

/-- A selection that succeeds does not depend on the state of the generator, nor does the state it
leaves. -/
theorem sample_reset {rng : Rng S} {s : S} {W : Mat K} {rate : K} {shrink : Option K} (s' : S) :
    ((sampleNeighbourDense rng s W rate shrink).result =
      (sampleNeighbourDense rng s' W rate shrink).result ∧
     (sampleNeighbourDense rng s W rate shrink).caller =
      (sampleNeighbourDense rng s' W rate shrink).caller ∧
     (∃ e, (sampleNeighbourDense rng s W rate shrink).result = .error e)) ∨
    sampleNeighbourDense rng s W rate shrink = sampleNeighbourDense rng s' W rate shrink := by
  unfold sampleNeighbourDense
  rcases sampleMaskDense W shrink with ⟨e | N, W'⟩
  · exact .inl ⟨rfl, rfl, e, rfl⟩
  · exact .inr rfl

theorem sample_reset_sparse {rng : Rng S} {s : S} {A : Csr K} {rate : K} {shrink : Option K}
    (s' : S) :
    ((sampleNeighbourSparse rng s A rate shrink).result =
      (sampleNeighbourSparse rng s' A rate shrink).result ∧
     (sampleNeighbourSparse rng s A rate shrink).caller =
      (sampleNeighbourSparse rng s' A rate shrink).caller ∧
     (∃ e, (sampleNeighbourSparse rng s A rate shrink).result = .error e)) ∨
    sampleNeighbourSparse rng s A rate shrink = sampleNeighbourSparse rng s' A rate shrink := by
  unfold sampleNeighbourSparse
  rcases sampleMaskSparse A shrink with ⟨e | N, A'⟩
  · exact .inl ⟨rfl, rfl, e, rfl⟩
  · exact .inr rfl

/-- The two objects agree in everything a stacking fit computes; `given` says that the caller passed
the weights. -/
structure SameStack (given numba cached : Bool) (a b : SState K F G C) : Prop where
  fitted : a.wm.isFitted = b.wm.isFitted
  N : a.wm.N = b.wm.N
  nFeatures : a.wm.nFeatures = b.wm.nFeatures
  localIndices : a.wm.localIndices = b.wm.localIndices
  ySample : a.wm.ySample = b.wm.ySample
  localPredict : a.wm.localPredict = b.wm.localPredict
  score : a.wm.score = b.wm.score
  residuals : a.residuals = b.residuals
  base : a.base = b.base
  estimators : a.wm.estimators = b.wm.estimators
  stackPredictions : a.stackPredictions = b.stackPredictions
  stackScore : a.stackScore = b.stackScore
  fitScores : numba = true → a.fitScores = b.fitScores
  weights : given = false → a.wm.weightMatrix = b.wm.weightMatrix
  neighbours : given = false → a.wm.neighbourMatrix = b.wm.neighbourMatrix
  data : cached = true → a.wm.X = b.wm.X ∧ a.wm.y = b.wm.y

/-- What is the same before the base fit. -/
structure SameBegin (given cached : Bool) (a b : SState K F G C) : Prop where
  fitted : a.wm.isFitted = b.wm.isFitted
  N : a.wm.N = b.wm.N
  nFeatures : a.wm.nFeatures = b.wm.nFeatures
  localIndices : a.wm.localIndices = b.wm.localIndices
  ySample : a.wm.ySample = b.wm.ySample
  weights : given = false → a.wm.weightMatrix = b.wm.weightMatrix
  neighbours : given = false → a.wm.neighbourMatrix = b.wm.neighbourMatrix
  data : cached = true → a.wm.X = b.wm.X ∧ a.wm.y = b.wm.y

theorem stackFinish_same {given numba cached cache cache' : Bool} {a b : SState K F G C}
    (h : SameBegin given cached a b) (caller : Option (WMat K)) (s : S) (ys : List K)
    (baseRes : Except Err (List (BaseOut K F)))
    (metaRun : List (BaseOut K F) → Except Err (List (MetaOut K F G)) × S)
    (hn : numba = true → ∀ res out s', metaRun res = (.ok out, s') → ∀ o ∈ out, o.score.isSome) :
    (stackFinish cache a caller s ys baseRes metaRun).result =
      (stackFinish cache' b caller s ys baseRes metaRun).result ∧
    (stackFinish cache a caller s ys baseRes metaRun).caller =
      (stackFinish cache' b caller s ys baseRes metaRun).caller ∧
    (stackFinish cache a caller s ys baseRes metaRun).rng =
      (stackFinish cache' b caller s ys baseRes metaRun).rng ∧
    ((stackFinish cache a caller s ys baseRes metaRun).result = .ok () →
      (stackFinish cache a caller s ys baseRes metaRun).state.cacheEstimator = cache ∧
      SameStack given numba cached (stackFinish cache a caller s ys baseRes metaRun).state
        (stackFinish cache' b caller s ys baseRes metaRun).state) := by
  unfold stackFinish
  cases baseRes with
  | error e => exact ⟨rfl, rfl, rfl, fun h => by cases h⟩
  | ok res =>
    simp only [stackBase]
    cases r2Column ys (res.map BaseOut.pred) with
    | error e => exact ⟨rfl, rfl, rfl, fun h => by cases h⟩
    | ok sc =>
      simp only
      rcases hm : metaRun res with ⟨e | out, s1⟩
      · exact ⟨rfl, rfl, rfl, fun h => by cases h⟩
      · simp only [stackEnd]
        cases h2 : r2Column ys (out.map MetaOut.pred) with
        | error e => exact ⟨by trivial, by trivial, by trivial, fun h => by cases h⟩
        | ok sc2 =>
          refine ⟨by trivial, by trivial, by trivial, fun _ => ⟨rfl, ?_⟩⟩
          refine ⟨h.fitted, h.N, h.nFeatures, h.localIndices, h.ySample, rfl, rfl, rfl, rfl, rfl, rfl,
            rfl, fun hnb => ?_, h.weights, h.neighbours, h.data⟩
          have hs := hn hnb res out s1 hm
          have hne : out ≠ [] := by
            rintro rfl
            simp [r2Column] at h2
          have hany : (out.any fun r => r.score.isSome) = true := by
            obtain ⟨o, ho⟩ := List.exists_mem_of_ne_nil _ hne
            exact List.any_eq_true.2 ⟨o, ho, hs o ho⟩
          simp only [hany, if_true]

theorem solveNumba_scored {M : Learner K G} {base : List F} {q : MetaProblem K} {o : MetaOut K F G}
    (h : solveNumba M base q = .ok o) : o.score.isSome := by
  unfold solveNumba at h
  split at h
  · cases h
  obtain ⟨f, -, rfl⟩ := Except.map_ok_iff.1 h
  rfl

theorem stackDense_same (L : Learner K F) (M : Learner K G) (rng : Rng S) (p : SParams K C)
    {cache cache' : Bool} {a b : SState K F G C} (s s' : S) (X : Mat K) (y : List K)
    (given cached : Bool) (rate : K) (W : Mat K)
    (hab : ∀ idx ys, SameBegin given cached
      { a with wm := { a.wm with localIndices := some idx, ySample := some ys } }
      { b with wm := { b.wm with localIndices := some idx, ySample := some ys } }) :
    (stackDense L M rng p cache a s X y given rate W).result =
      (stackDense L M rng p cache' b s' X y given rate W).result ∧
    (stackDense L M rng p cache a s X y given rate W).caller =
      (stackDense L M rng p cache' b s' X y given rate W).caller ∧
    ((stackDense L M rng p cache a s X y given rate W).result = .ok () →
      (stackDense L M rng p cache a s X y given rate W).rng =
        (stackDense L M rng p cache' b s' X y given rate W).rng ∧
      (stackDense L M rng p cache a s X y given rate W).state.cacheEstimator = cache ∧
      SameStack given p.useNumba cached (stackDense L M rng p cache a s X y given rate W).state
        (stackDense L M rng p cache' b s' X y given rate W).state) := by
  unfold stackDense
  by_cases hd : W.r ≠ X.r ∨ W.c ≠ X.r
  · simp only [if_pos hd]
    exact ⟨by trivial, by trivial, fun h => by cases h⟩
  simp only [if_neg hd]
  rcases sample_reset (rng := rng) (s := s) (W := W) (rate := rate) (shrink := p.leaveOutShrink) s'
    with ⟨h1, h2, e, h3⟩ | heq
  · have h4 := h1.symm.trans h3
    rcases hA : sampleNeighbourDense rng s W rate p.leaveOutShrink with ⟨_ | _, sA, WA⟩ <;>
      rw [hA] at h2 h3 <;> cases h3
    rcases hB : sampleNeighbourDense rng s' W rate p.leaveOutShrink with ⟨_ | _, sB, WB⟩ <;>
      rw [hB] at h2 h4 <;> cases h4
    simp only at h2
    subst h2
    exact ⟨rfl, rfl, fun h => by cases h⟩
  rw [heq]
  rcases sampleNeighbourDense rng s' W rate p.leaveOutShrink with ⟨e | Sm, s1, W'⟩
  · exact ⟨rfl, rfl, fun h => by cases h⟩
  simp only
  rcases sampleLocations rng s1 p.sampleRate X.r with ⟨e | idx, s2⟩
  · exact ⟨rfl, rfl, fun h => by cases h⟩
  simp only
  cases shrinkMetaDense p.metaShrink W' with
  | error e => exact ⟨rfl, rfl, fun h => by cases h⟩
  | ok W1 =>
    simp only
    have hb : SameBegin given cached
        (stackShrunk given { a with wm := { a.wm with
          localIndices := some idx, ySample := some (idx.map fun i => y.getD i 0) } } (.dense W1))
        (stackShrunk given { b with wm := { b.wm with
          localIndices := some idx, ySample := some (idx.map fun i => y.getD i 0) } }
          (.dense W1)) := by
      have h := hab idx (idx.map fun i => y.getD i 0)
      unfold stackShrunk
      cases given with
      | true => exact h
      | false => exact ⟨h.fitted, h.N, h.nFeatures, h.localIndices, h.ySample, fun _ => rfl,
          h.neighbours, h.data⟩
    obtain ⟨g1, g2, g3, g4⟩ := stackFinish_same (numba := p.useNumba) (cache := cache)
      (cache' := cache') hb (if given then some (WMat.dense W1) else none) s2
      (idx.map fun i => y.getD i 0)
      (runBase (baseDense L X (fun i => y.getD i 0)
        (localDense p.leaveLocalOut W' Sm.transpose) (secondOrderDense (gt0 W1) Sm.transpose)) X.r
        p.storedPatches)
      (metaStageDense M rng p X.r (fun i => y.getD i 0) W1 Sm.transpose
        (secondOrderDense (gt0 W1) Sm.transpose) s2)
      (fun hnb res out s' hm => by simp [metaStageDense, hnb] at hm)
    exact ⟨g1, g2, fun h => ⟨g3, g4 h⟩⟩

theorem stackSparse_same (L : Learner K F) (M Mn : Learner K G) (rng : Rng S) (p : SParams K C)
    {cache cache' : Bool} {a b : SState K F G C} (s s' : S) (X : Mat K) (y : List K)
    (cached : Bool) (rate : K) (A : Csr K)
    (hab : ∀ idx ys, SameBegin true cached
      { a with wm := { a.wm with localIndices := some idx, ySample := some ys } }
      { b with wm := { b.wm with localIndices := some idx, ySample := some ys } }) :
    (stackSparse L M Mn rng p cache a s X y rate A).result =
      (stackSparse L M Mn rng p cache' b s' X y rate A).result ∧
    (stackSparse L M Mn rng p cache a s X y rate A).caller =
      (stackSparse L M Mn rng p cache' b s' X y rate A).caller ∧
    ((stackSparse L M Mn rng p cache a s X y rate A).result = .ok () →
      (stackSparse L M Mn rng p cache a s X y rate A).rng =
        (stackSparse L M Mn rng p cache' b s' X y rate A).rng ∧
      (stackSparse L M Mn rng p cache a s X y rate A).state.cacheEstimator = cache ∧
      SameStack true p.useNumba cached (stackSparse L M Mn rng p cache a s X y rate A).state
        (stackSparse L M Mn rng p cache' b s' X y rate A).state) := by
  unfold stackSparse
  by_cases hd : A.r ≠ X.r ∨ A.c ≠ X.r
  · simp only [if_pos hd]
    exact ⟨by trivial, by trivial, fun h => by cases h⟩
  simp only [if_neg hd]
  rcases sample_reset_sparse (rng := rng) (s := s) (A := A) (rate := rate)
    (shrink := p.leaveOutShrink) s' with ⟨h1, h2, e, h3⟩ | heq
  · have h4 := h1.symm.trans h3
    rcases hA : sampleNeighbourSparse rng s A rate p.leaveOutShrink with ⟨_ | _, sA, WA⟩ <;>
      rw [hA] at h2 h3 <;> cases h3
    rcases hB : sampleNeighbourSparse rng s' A rate p.leaveOutShrink with ⟨_ | _, sB, WB⟩ <;>
      rw [hB] at h2 h4 <;> cases h4
    simp only at h2
    subst h2
    exact ⟨rfl, rfl, fun h => by cases h⟩
  rw [heq]
  rcases sampleNeighbourSparse rng s' A rate p.leaveOutShrink with ⟨e | Sm, s1, A'⟩
  · exact ⟨rfl, rfl, fun h => by cases h⟩
  simp only
  rcases sampleLocations rng s1 p.sampleRate X.r with ⟨e | idx, s2⟩
  · exact ⟨rfl, rfl, fun h => by cases h⟩
  simp only
  cases shrinkMetaSparse p.metaShrink A' with
  | error e => exact ⟨rfl, rfl, fun h => by cases h⟩
  | ok A1 =>
    simp only
    cases secondSparse A1 Sm.transposePattern with
    | error e => exact ⟨rfl, rfl, fun h => by cases h⟩
    | ok second =>
      simp only
      obtain ⟨g1, g2, g3, g4⟩ := stackFinish_same (numba := p.useNumba) (cache := cache)
        (cache' := cache') (hab idx (idx.map fun i => y.getD i 0)) (some (WMat.sparse A1)) s2
        (idx.map fun i => y.getD i 0)
        (runBase (baseSparse L X (fun i => y.getD i 0)
          (localSparse p.leaveLocalOut A' Sm.transposePattern) second) X.r p.storedPatches)
        (fun res => (metaStageSparse M Mn p X.r (fun i => y.getD i 0) A1 Sm second res, s2))
        (fun hnb res out s' hm o ho => by
          simp only [metaStageSparse, hnb, if_true, Prod.mk.injEq] at hm
          obtain ⟨i, hi, rfl⟩ := List.getElem_of_mem ho
          have hl := mapE_length hm.1
          have := mapE_get hm.1 (i := i) (by rw [← hl]; exact hi)
          exact solveNumba_scored this)
      exact ⟨g1, g2, fun h => ⟨g3, g4 h⟩⟩

/-- C116: fitting a stacking model again, from whatever state of the object and of the random
generator: the outcome and the caller's matrix are those of any other object, and after success
everything the fit computes is the same, and so is the state of the generator. What is kept: with
weights given by the caller, the matrices of an earlier fit; `cache_estimator`; without numba the
scores of an earlier numba fit. -/
theorem C116_stacking (L : Learner K F) (M Mn : Learner K G) (rng : Rng S) (p : SParams K C)
    (st st' : SState K F G C) (s s' : S) (X : Mat K) (y : List K) (coords : Option C)
    (W : Option (WMat K)) :
    (stackFit L M Mn rng p st s X y coords W).result =
      (stackFit L M Mn rng p st' s' X y coords W).result ∧
    (stackFit L M Mn rng p st s X y coords W).caller =
      (stackFit L M Mn rng p st' s' X y coords W).caller ∧
    ((stackFit L M Mn rng p st s X y coords W).result = .ok () →
      (stackFit L M Mn rng p st s X y coords W).rng =
        (stackFit L M Mn rng p st' s' X y coords W).rng ∧
      (stackFit L M Mn rng p st s X y coords W).state.cacheEstimator = st.cacheEstimator ∧
      SameStack W.isSome p.useNumba p.cacheData
        (stackFit L M Mn rng p st s X y coords W).state
        (stackFit L M Mn rng p st' s' X y coords W).state) := by
  unfold stackFit
  split
  swap
  · exact ⟨rfl, rfl, fun h => by cases h⟩
  cases hW0 : chosenWeights p.toWMParams coords W with
  | error e => exact ⟨rfl, rfl, fun h => by cases h⟩
  | ok W0 =>
    have hn : (coords.isNone && W.isNone) = false := by
      cases coords <;> cases W <;> first | rfl | cases hW0
    simp only [stackWith]
    cases p.leaveOutRate with
    | none => exact ⟨rfl, rfl, fun h => by cases h⟩
    | some rate =>
      have hab : ∀ idx ys, SameBegin W.isSome p.cacheData
          { stackWeights W.isSome (stackBegin p st X y coords W) W0 with
            wm := { (stackWeights W.isSome (stackBegin p st X y coords W) W0).wm with
              localIndices := some idx, ySample := some ys } }
          { stackWeights W.isSome (stackBegin p st' X y coords W) W0 with
            wm := { (stackWeights W.isSome (stackBegin p st' X y coords W) W0).wm with
              localIndices := some idx, ySample := some ys } } := by
        intro idx ys
        simp only [stackBegin, hn, stackWeights]
        cases W.isSome <;> cases p.cacheData <;>
          exact ⟨rfl, rfl, rfl, rfl, rfl, by simp, by simp, by simp⟩
      cases W0 with
      | dense D => exact stackDense_same L M rng p s s' X y W.isSome p.cacheData rate D hab
      | sparse A =>
        have hW := chosenWeights_sparse hW0
        subst hW
        exact stackSparse_same L M Mn rng p s s' X y p.cacheData rate A hab

/-- C116: the case is real, and the exceptions are. A fit with weights given by the caller, without
numba, on an object that was fitted with numba before: all is new but the scores of the meta
estimators, which are those of the earlier fit. -/
example :
    let old := seFit { seP with useNumba := true } [3, 1, 4, 1] (.sparse seA)
    let new := stackFit meanLearner meanLearner meanLearner rotRng seP old.state 5 seX seY none
      (some (.dense seW))
    let fresh := seFit seP seY (.dense seW)
    old.result = .ok () ∧ new.result = .ok () ∧
    new.state.stackPredictions = fresh.state.stackPredictions ∧
    new.state.stackPredictions ≠ old.state.stackPredictions ∧
    new.rng = fresh.rng ∧
    fresh.state.fitScores = none ∧ old.state.fitScores ≠ none ∧
    new.state.fitScores = old.state.fitScores := by
  decide +kernel

/-- C116: an object with recorded importances that is fitted to other data keeps them. -/
example :
    let old : WMState ℚ ℚ Unit := { permDecrease := some [[1, 2]] }
    let W : WMat ℚ := .dense ⟨4, 4, fun i j => 1 / (1 + i + j : ℚ)⟩
    let new := wmFit meanLearner rotRng exP old 0 seX seY none (some W)
    new.result = .ok () ∧ new.state.permDecrease = some [[1, 2]] ∧
    (wmFit meanLearner rotRng exP {} 0 seX seY none (some W)).state.permDecrease = none := by
  decide +kernel

end Geo
