import Verif.Props.StackingMore
import Verif.Props.Refresh
set_option linter.unusedSectionVars false
/-
C120: a ready-made weight matrix in place of the coordinates, and the same matrix again.
-/
namespace Geo
variable {K : Type} [Field K] [LinearOrder K] [IsStrictOrderedRing K] [FloorRing K]
variable {F G C S : Type}

/-! ### `WeightModel.fit` -/

theorem fitWith_coords (L : Learner K F) (rng : Rng S) (p : WMParams K C) (st : WMState K F C)
    (s : S) (X : Mat K) (y : List K) (given given' : Bool) (W : WMat K) (c : Option C) :
    (fitWith L rng p st s X y given W).result =
      (fitWith L rng p { st with coords := c } s X y given' W).result ∧
    { (fitWith L rng p st s X y given W).state with coords := c } =
      (fitWith L rng p { st with coords := c } s X y given' W).state ∧
    (fitWith L rng p st s X y given W).rng =
      (fitWith L rng p { st with coords := c } s X y given' W).rng := by
  unfold fitWith
  rcases sampleLocations rng s p.sampleRate X.r with ⟨_ | idx, s'⟩
  · exact ⟨rfl, rfl, rfl⟩
  simp only
  cases fitAll L X (fun i => y.getD i 0) none (leaveOut p W) X.r (some idx) p.nJobs p.storedPatches
    p.cpu with
  | error e => exact ⟨rfl, rfl, rfl⟩
  | ok res =>
    simp only [stateEnd]
    cases skR2 (idx.map fun i => y.getD i 0) (res.map Prod.fst) with
    | error e => exact ⟨by trivial, by trivial, by trivial⟩
    | ok sc => exact ⟨by trivial, by trivial, by trivial⟩

/-- C120: `WeightModel.fit` on coordinates and on the weight matrix of those coordinates end alike,
with the same attributes and the same use of the random generator. Passing the coordinates beside
the matrix leaves no difference at all; without them only the cached coordinates differ. -/
theorem C120_fit (L : Learner K F) (rng : Rng S) (p : WMParams K C) (st : WMState K F C)
    (s : S) (X : Mat K) (y : List K) (c : C) (W : Mat K) (hW : p.weights c c = .ok W) :
    let byCoords := wmFit L rng p st s X y (some c) none
    let both := wmFit L rng p st s X y (some c) (some (.dense W))
    let byMatrix := wmFit L rng p st s X y none (some (.dense W))
    (both.result = byCoords.result ∧ both.state = byCoords.state ∧ both.rng = byCoords.rng) ∧
    (byMatrix.result = byCoords.result ∧ byMatrix.rng = byCoords.rng ∧
      { byMatrix.state with coords := byCoords.state.coords } = byCoords.state ∧
      (p.cacheData = true → checkXy X y = true →
        byCoords.state.coords = some c ∧ byMatrix.state.coords = none)) := by
  have hc : ∀ (st : WMState K F C) (g : Bool),
      (fitWith L rng p st s X y g (.dense W)).state.coords = st.coords := by
    intro st g
    have := (fitWith_coords L rng p st s X y g g (.dense W) st.coords).2.1
    exact (congrArg WMState.coords this).symm
  by_cases hxy : checkXy X y = true
  swap
  · simp only [wmFit, if_neg hxy]
    exact ⟨⟨by trivial, by trivial, by trivial⟩, by trivial, by trivial, by trivial,
      fun _ h => absurd h (by simpa using hxy)⟩
  have h1 : chosenWeights p (some c) none = .ok (.dense W) := by simp [chosenWeights, hW, Except.map]
  have h2 : ∀ c', chosenWeights p c' (some (.dense W)) = .ok (.dense W) := fun _ => rfl
  simp only [wmFit, if_pos hxy, h1, h2]
  have hb : stateBegin p st X y (some c) (some (.dense W)) = stateBegin p st X y (some c) none := rfl
  have hm : stateBegin p st X y (some c) none =
      { stateBegin p st X y none (some (.dense W)) with
        coords := (stateBegin p st X y (some c) none).coords } := by
    unfold stateBegin
    cases p.cacheData <;> rfl
  refine ⟨?_, ?_⟩
  · rw [hb]
    obtain ⟨a, b, d⟩ := fitWith_coords L rng p (stateBegin p st X y (some c) none) s X y true false
      (.dense W) (stateBegin p st X y (some c) none).coords
    refine ⟨a, Eq.trans ?_ b, d⟩
    rw [← hc (stateBegin p st X y (some c) none) true]
    rfl
  · obtain ⟨a, b, d⟩ := fitWith_coords L rng p (stateBegin p st X y none (some (.dense W))) s X y true
      false (.dense W) (stateBegin p st X y (some c) none).coords
    rw [← hm] at a b d
    refine ⟨a, d, ?_, ?_⟩
    · simp only [Option.isSome_some, Option.isSome_none]
      rw [hc (stateBegin p st X y (some c) none) false]
      exact b
    · intro hp _
      simp only [Option.isSome_some, Option.isSome_none]
      rw [hc, hc]
      unfold stateBegin
      simp [hp]

/-- Filtering the stored entries twice is filtering once. -/
theorem keep_again (A : Csr K) (q : Nat → Nat → K → Bool) :
    (A.keep q id).keep q id = A.keep q id := by
  have hrow : ∀ i < A.r, ((A.keep q id).rowIdx i).zip ((A.keep q id).rowData i) =
      (A.row i).filter fun e => q i e.1 e.2 := by
    intro i hi
    rw [Csr.keep_rowIdx A q id hi, Csr.keep_rowData A q id hi]
    generalize (A.row i).filter _ = l
    induction l with
    | nil => rfl
    | cons a l ih => simpa using ih
  have hrows : ((List.range (A.keep q id).r).map fun i =>
      (((A.keep q id).rowIdx i).zip ((A.keep q id).rowData i)).filter fun e => q i e.1 e.2) =
      (List.range A.r).map fun i => ((A.rowIdx i).zip (A.rowData i)).filter fun e => q i e.1 e.2 := by
    rw [Csr.keep_r]
    apply List.map_congr_left
    intro i hi
    rw [hrow i (List.mem_range.1 hi), List.filter_filter]
    simp only [Bool.and_self]
    rfl
  have hk : ∀ B : Csr K, B.keep q id = Csr.ofRows B.c
      (((List.range B.r).map fun i =>
        ((B.rowIdx i).zip (B.rowData i)).filter fun e => q i e.1 e.2).map (List.map Prod.fst))
      (((List.range B.r).map fun i =>
        ((B.rowIdx i).zip (B.rowData i)).filter fun e => q i e.1 e.2).flatten.map
          fun e => id e.2) := fun _ => rfl
  rw [hk (A.keep q id), hrows]
  rfl

theorem clearDiag_again (W : WMat K) : W.clearDiag.clearDiag = W.clearDiag := by
  cases W with
  | dense D =>
    simp only [WMat.clearDiag, WMat.dense.injEq, Mat.mk.injEq, true_and]
    funext i j
    split <;> rfl
  | sparse A =>
    simp only [WMat.clearDiag]
    rw [keep_again]

/-- C120: the matrix a fit of `WeightModel` has left behind can be passed again, to the same object
or to another one built with the same parameters: everything comes out the same, and the matrix
stays as it is from then on. -/
theorem C120_again (L : Learner K F) (rng : Rng S) (p : WMParams K C) (st st' : WMState K F C)
    (s s' : S) (X : Mat K) (y : List K) (coords : Option C) (W W' : WMat K)
    (h : (wmFit L rng p st s X y coords (some W)).caller = some W') :
    wmFit L rng p st' s' X y coords (some W') = wmFit L rng p st' s' X y coords (some W) ∧
    (wmFit L rng p st' s' X y coords (some W')).caller = some W' := by
  rw [wmFit_caller] at h
  by_cases hxy : checkXy X y = true
  · rw [if_pos hxy] at h
    injection h with h
    subst h
    have hl : leaveOut p (leaveOut p W) = leaveOut p W := by
      unfold leaveOut
      split
      · exact clearDiag_again W
      · rfl
    refine ⟨?_, by rw [wmFit_caller, if_pos hxy, hl]⟩
    unfold wmFit
    simp only [if_pos hxy, chosenWeights]
    unfold fitWith
    rw [hl]
    rfl
  · rw [if_neg hxy] at h
    injection h with h
    subst h
    exact ⟨rfl, by rw [wmFit_caller, if_neg hxy]⟩

/-! ### `StackingWeightModel.fit` -/

/-- The state with other weight and neighbour matrices. -/
def withMatrices (st : SState K F G C) (w : Option (WMat K)) (n : Option BMat) : SState K F G C :=
  { st with wm := { st.wm with weightMatrix := w, neighbourMatrix := n } }

theorem stackFinish_matrices (cache : Bool) (st : SState K F G C) (caller caller' : Option (WMat K))
    (s : S) (ys : List K) (baseRes : Except Err (List (BaseOut K F)))
    (metaRun : List (BaseOut K F) → Except Err (List (MetaOut K F G)) × S)
    (w : Option (WMat K)) (n : Option BMat) :
    stackFinish cache (withMatrices st w n) caller' s ys baseRes metaRun =
      ⟨(stackFinish cache st caller s ys baseRes metaRun).result,
        withMatrices (stackFinish cache st caller s ys baseRes metaRun).state w n, caller',
        (stackFinish cache st caller s ys baseRes metaRun).rng⟩ := by
  unfold stackFinish
  cases baseRes with
  | error e => rfl
  | ok res =>
    simp only [stackBase]
    cases r2Column ys (res.map BaseOut.pred) with
    | error e => rfl
    | ok sc =>
      simp only
      rcases metaRun res with ⟨_ | out, s'⟩
      · rfl
      · simp only [stackEnd]
        cases r2Column ys (out.map MetaOut.pred) with
        | error e => rfl
        | ok sc => rfl

theorem stackDense_matrices (L : Learner K F) (M : Learner K G) (rng : Rng S) (p : SParams K C)
    (cache : Bool) (st : SState K F G C) (s : S) (X : Mat K) (y : List K) (rate : K) (W : Mat K)
    (w : Option (WMat K)) (n : Option BMat) :
    (stackDense L M rng p cache (withMatrices st w n) s X y false rate W).result =
      (stackDense L M rng p cache st s X y true rate W).result ∧
    (stackDense L M rng p cache (withMatrices st w n) s X y false rate W).rng =
      (stackDense L M rng p cache st s X y true rate W).rng ∧
    withMatrices (stackDense L M rng p cache (withMatrices st w n) s X y false rate W).state
        none none =
      withMatrices (stackDense L M rng p cache st s X y true rate W).state none none := by
  unfold stackDense
  by_cases hd : W.r ≠ X.r ∨ W.c ≠ X.r
  · simp only [if_pos hd]
    exact ⟨trivial, trivial, rfl⟩
  simp only [if_neg hd]
  rcases sampleNeighbourDense rng s W rate p.leaveOutShrink with ⟨_ | Sm, s1, W1⟩
  · exact ⟨rfl, rfl, rfl⟩
  simp only
  rcases sampleLocations rng s1 p.sampleRate X.r with ⟨_ | idx, s2⟩
  · exact ⟨rfl, rfl, rfl⟩
  simp only
  cases shrinkMetaDense p.metaShrink W1 with
  | error e => exact ⟨rfl, rfl, rfl⟩
  | ok W2 =>
    simp only
    have := stackFinish_matrices cache
      ({ st with wm := { st.wm with localIndices := some idx, ySample := some (idx.map fun i => y.getD i 0) } } : SState K F G C)
      (some (WMat.dense W2)) none s2 (idx.map fun i => y.getD i 0)
      (runBase (baseDense L X (fun i => y.getD i 0)
            (localDense p.leaveLocalOut W1 Sm.transpose) (secondOrderDense (gt0 W2) Sm.transpose)) X.r p.storedPatches)
      (metaStageDense M rng p X.r (fun i => y.getD i 0) W2 Sm.transpose
        (secondOrderDense (gt0 W2) Sm.transpose) s2) (some (.dense W2)) n
    have h2 : stackShrunk false ({ (withMatrices st w n) with wm := { (withMatrices st w n).wm with localIndices := some idx, ySample := some (idx.map fun i => y.getD i 0) } } : SState K F G C) (.dense W2) =
        withMatrices ({ st with wm := { st.wm with localIndices := some idx, ySample := some (idx.map fun i => y.getD i 0) } } : SState K F G C) (some (.dense W2)) n := rfl
    rw [h2]
    simp only [Bool.false_eq_true, if_false, if_true]
    rw [this]
    exact ⟨rfl, rfl, rfl⟩

/-- C120: fitting `StackingWeightModel` on coordinates and on the weight matrix of those coordinates
(with or without the coordinates beside it) gives the same result, the same estimators,
predictions and scores and the same use of the random generator; only the two recorded matrices
may differ. -/
theorem C120_stacking (L : Learner K F) (M Mn : Learner K G) (rng : Rng S) (p : SParams K C)
    (st : SState K F G C) (s : S) (X : Mat K) (y : List K) (c : C) (c' : Option C) (W : Mat K)
    (hW : p.weights c c = .ok W) :
    let byCoords := stackFit L M Mn rng p st s X y (some c) none
    let byMatrix := stackFit L M Mn rng p st s X y c' (some (.dense W))
    byCoords.result = byMatrix.result ∧ byCoords.rng = byMatrix.rng ∧
    { byCoords.state.wm with weightMatrix := none, neighbourMatrix := none } =
      { byMatrix.state.wm with weightMatrix := none, neighbourMatrix := none } ∧
    ({ byCoords.state with wm := {} } : SState K F G C) = { byMatrix.state with wm := {} } := by
  have key : (stackFit L M Mn rng p st s X y (some c) none).result =
        (stackFit L M Mn rng p st s X y c' (some (.dense W))).result ∧
      (stackFit L M Mn rng p st s X y (some c) none).rng =
        (stackFit L M Mn rng p st s X y c' (some (.dense W))).rng ∧
      withMatrices (stackFit L M Mn rng p st s X y (some c) none).state none none =
        withMatrices (stackFit L M Mn rng p st s X y c' (some (.dense W))).state none none := by
    unfold stackFit
    split
    swap
    · exact ⟨rfl, rfl, rfl⟩
    have h1 : chosenWeights p.toWMParams (some c) none = .ok (.dense W) := by
      simp [chosenWeights, hW, Except.map]
    have hb : stackWeights false (stackBegin p st X y (some c) none) (.dense W) =
        withMatrices (stackBegin p st X y c' (some (.dense W))) (some (.dense W))
          (some (WMat.dense W).gt0) := by
      have : stackBegin p st X y (some c) none = stackBegin p st X y c' (some (.dense W)) := by
        unfold stackBegin
        simp
      rw [this]
      rfl
    rw [h1]
    simp only [chosenWeights, Option.isSome_none, Option.isSome_some]
    rw [hb]
    unfold stackWith
    cases p.leaveOutRate with
    | none => exact ⟨rfl, rfl, rfl⟩
    | some rate => exact stackDense_matrices L M rng p _ _ s X y rate W _ _
  obtain ⟨h1, h2, h3⟩ := key
  refine ⟨h1, h2, congrArg SState.wm h3, ?_⟩
  have h4 : ∀ t : SState K F G C, ({ t with wm := {} } : SState K F G C) =
      { withMatrices t none none with wm := {} } := fun _ => rfl
  exact ((h4 _).trans (by rw [h3])).trans (h4 _).symm

theorem stackDense_array (L : Learner K F) (M : Learner K G) (rng : Rng S) (p : SParams K C)
    (cache : Bool) (st : SState K F G C) (s : S) (X : Mat K) (y : List K) (rate : K) (W : Mat K)
    (h1 : p.leaveOutShrink = none) (h2 : p.metaShrink = none) :
    (stackDense L M rng p cache st s X y true rate W).caller = some (.dense W) := by
  unfold stackDense
  by_cases hd : W.r ≠ X.r ∨ W.c ≠ X.r
  · simp only [if_pos hd, if_true]
  simp only [if_neg hd]
  have hs : (sampleNeighbourDense rng s W rate p.leaveOutShrink).caller = W := by
    unfold sampleNeighbourDense
    rw [h1]
    simp only [sampleMaskDense]
    split <;> rfl
  rcases hA : sampleNeighbourDense rng s W rate p.leaveOutShrink with ⟨_ | Sm, s1, W1⟩
  all_goals rw [hA] at hs; simp only at hs; subst hs
  · rfl
  simp only
  rcases sampleLocations rng s1 p.sampleRate X.r with ⟨_ | idx, s2⟩
  · rfl
  simp only [h2, shrinkMetaDense]
  unfold stackFinish
  split
  · rfl
  · split
    · rfl
    · split <;> rfl

theorem stackSparse_array (L : Learner K F) (M Mn : Learner K G) (rng : Rng S) (p : SParams K C)
    (cache : Bool) (st : SState K F G C) (s : S) (X : Mat K) (y : List K) (rate : K) (A : Csr K)
    (h1 : p.leaveOutShrink = none) (h2 : p.metaShrink = none) :
    (stackSparse L M Mn rng p cache st s X y rate A).caller = some (.sparse A) := by
  unfold stackSparse
  by_cases hd : A.r ≠ X.r ∨ A.c ≠ X.r
  · simp only [if_pos hd]
  simp only [if_neg hd]
  have hs : (sampleNeighbourSparse rng s A rate p.leaveOutShrink).caller = A := by
    unfold sampleNeighbourSparse
    rw [h1]
    simp only [sampleMaskSparse]
    split <;> rfl
  rcases hA : sampleNeighbourSparse rng s A rate p.leaveOutShrink with ⟨_ | Sm, s1, A1⟩
  all_goals rw [hA] at hs; simp only at hs; subst hs
  · rfl
  simp only
  rcases sampleLocations rng s1 p.sampleRate X.r with ⟨_ | idx, s2⟩
  · rfl
  simp only [h2, shrinkMetaSparse]
  split
  · rfl
  unfold stackFinish
  split
  · rfl
  · split
    · rfl
    · split <;> rfl

/-- C120: without the two shrink rates a stacking fit leaves the matrix it was given as it was,
whatever the outcome, so that it can be passed again. -/
theorem C120_stacking_again (L : Learner K F) (M Mn : Learner K G) (rng : Rng S) (p : SParams K C)
    (st : SState K F G C) (s : S) (X : Mat K) (y : List K) (coords : Option C) (W : WMat K)
    (h1 : p.leaveOutShrink = none) (h2 : p.metaShrink = none) :
    (stackFit L M Mn rng p st s X y coords (some W)).caller = some W := by
  unfold stackFit
  split
  swap
  · rfl
  simp only [chosenWeights, Option.isSome_some]
  unfold stackWith
  cases p.leaveOutRate with
  | none => rfl
  | some rate =>
    cases W with
    | dense D => exact stackDense_array L M rng p _ _ s X y rate D h1 h2
    | sparse A => exact stackSparse_array L M Mn rng p _ _ s X y rate A h1 h2

/-! ### Prediction -/

/-- C120: a model fitted on a matrix alone can still predict, but neither from coordinates nor
from a matrix alone (of other than one entry): both must be passed. The coordinates are then
ignored, and the predictions are those of the model fitted on the coordinates, at the places
from which the matrix was computed. -/
theorem C120_predict (L : Learner K F) (rng : Rng S) (p : WMParams K C) (st : WMState K F C)
    (s : S) (X : Mat K) (y : List K) (train : C) (W : Mat K) (hW : p.weights train train = .ok W)
    (hp : p.cacheData = true) (hxy : checkXy X y = true)
    (Xp : Mat K) (test other : C) (V T : Mat K)
    (hV : p.weights test train = .ok V) (hT : p.weights train test = .ok T) :
    let byCoords := (wmFit L rng p st s X y (some train) none).state
    let byMatrix := (wmFit L rng p st s X y none (some (.dense W))).state
    predictByWeight L p byMatrix Xp (some other) (some V) =
      predictByWeight L p byCoords Xp (some test) none ∧
    predictByFit L p byMatrix Xp (some other) (some T.transpose) =
      predictByFit L p byCoords Xp (some test) none ∧
    (∃ e, predictByWeight L p byMatrix Xp (some test) none = .error e) ∧
    (∃ e, predictByFit L p byMatrix Xp (some test) none = .error e) ∧
    (V.r * V.c ≠ 1 → ∃ e, predictByWeight L p byMatrix Xp none (some V) = .error e) ∧
    (T.c * T.r ≠ 1 → ∃ e, predictByFit L p byMatrix Xp none (some T.transpose) = .error e) := by
  obtain ⟨-, -, -, hst, hco⟩ := C120_fit L rng p st s X y train W hW
  obtain ⟨hc1, hc2⟩ := hco hp hxy
  generalize hA : (wmFit L rng p st s X y (some train) none).state = A at *
  generalize hB : (wmFit L rng p st s X y none (some (.dense W))).state = B at *
  have he : B.estimators = A.estimators := by rw [← hst]
  have hd : cachedData B = cachedData A := by rw [← hst]; rfl
  have hs : storedEstimators B = storedEstimators A := by unfold storedEstimators; rw [he]
  have g : ∀ {α : Type} (a : Except Err α) (e : Err) (f : α → Except Err (List K)),
      a = .error e → (a >>= f) = .error e := by
    intro α a e f h; rw [h]; rfl
  refine ⟨?_, ?_, ?_, ?_, ?_, ?_⟩
  · unfold predictByWeight
    rw [hs, hc1, hc2]
    simp only [predictWeights, hV, guard]
  · unfold predictByFit
    rw [hd, hc1, hc2]
    simp only [predictFitWeights, hT, guard, Except.map]
  · unfold predictByWeight
    split
    · exact ⟨_, rfl⟩
    rw [hs, hc2]
    simp only [guard, predictWeights]
    cases hE : storedEstimators A with
    | error e => exact ⟨e, rfl⟩
    | ok ests =>
      cases hU : unzipNonempty ests with
      | error e => exact ⟨e, by simp [bind, Except.bind, hU]⟩
      | ok u => exact ⟨.typeError, by simp [bind, Except.bind, hU]⟩
  · unfold predictByFit
    split
    · exact ⟨_, rfl⟩
    rw [hc2]
    exact ⟨.typeError, rfl⟩
  · intro h
    unfold predictByWeight
    split
    · exact ⟨_, rfl⟩
    exact ⟨.valueError, g _ _ _ (by simp only [guard]; rw [if_pos h])⟩
  · intro h
    unfold predictByFit
    split
    · exact ⟨_, rfl⟩
    refine ⟨.valueError, g _ _ _ ?_⟩
    simp only [guard]
    rw [if_pos]
    exact h

/-! ### Examples -/

/-- The hypotheses are met: two fits of `WeightModel` that succeed. -/
example : (wmFit meanLearner countRng { exP with weights := fun _ _ => .ok exWd } {} 0 exX exY
    (some ()) none).result = .ok () ∧
    (wmFit meanLearner countRng { exP with weights := fun _ _ => .ok exWd } {} 0 exX exY
      (none : Option Unit) (some (.dense exWd))).result = .ok () ∧ checkXy exX exY = true ∧ exP.cacheData = true ∧
    exP.leaveLocalOut = true := by
  decide +kernel

/-- The hypotheses are met: two fits of the stacking model that succeed, without shrinking. -/
example : (stackFit meanLearner meanLearner meanLearner rotRng
      { seP with weights := fun _ _ => .ok seW } {} 0 seX seY (some ()) none).result = .ok () ∧
    (stackFit meanLearner meanLearner meanLearner rotRng seP {} 0 seX seY none
      (some (.dense seW))).result = .ok () ∧
    seP.leaveOutShrink = none ∧ seP.metaShrink = none := by
  decide +kernel

/-- C120: with `meta_fitting_shrink_rate` the matrix a stacking fit has left behind is no longer
the one it was given: the very same call, repeated with the same seed, first succeeds and then
fails. -/
theorem C120_stacking_not_again :
    let p : SParams ℚ Unit := { seP with metaShrink := some (1 / 2) }
    let fit := fun W => stackFit meanLearner meanLearner meanLearner rotRng p {} 0 seX seY none W
    (fit (some (.dense seW))).result = .ok () ∧
    (fit (fit (some (.dense seW))).caller).result ≠ .ok () := by
  decide +kernel

end Geo
