import Verif.Model.Randomised
import Verif.Props.Refresh
set_option linter.unusedSectionVars false
/-
C121: regressors that draw from numpy's global generator.
-/
namespace Geo
variable {K : Type} [Field K] [LinearOrder K] [IsStrictOrderedRing K] [FloorRing K]
variable {F G C S : Type}

/-! ### The model agrees with the one for regressors that do not draw -/

/-- A regressor that does not draw. -/
def Learner.still (L : Learner K F) : RandLearner K F S where
  fit s e rows ys ws := (L.fit e rows ys ws, s)
  predict := L.predict

theorem drawLoop_still {α : Type} {task : S → Nat → Except Err α × S} {f : Nat → Except Err α}
    (h : ∀ s i, task s i = (f i, s)) (s : S) (l : List Nat) :
    drawLoop task s l = (mapE f l, s) := by
  induction l with
  | nil => rfl
  | cons i is ih =>
    simp only [drawLoop, h, mapE]
    cases f i with
    | error e => rfl
    | ok a =>
      simp only
      rw [ih]
      cases mapE f is <;> rfl

theorem drawBase_still (L : Learner K F) (X : Mat K) (y : Nat → K) (s : S) (e : Nat)
    (idx : List Nat) (ws : List K) (second : List Nat) (x : List K) :
    drawBase L.still X y s e idx ws second x = (fitBase L X y e idx ws second x, s) := by
  unfold drawBase fitBase
  simp only [Learner.still]
  cases L.fit e (idx.map X.row) (idx.map y) ws with
  | error e => rfl
  | ok f =>
    simp only [Except.bind]
    split <;> rfl

theorem drawDense_still (L : Learner K F) (X : Mat K) (y : Nat → K) (Wl : Mat K)
    (second : Mat Bool) (s : S) (i : Nat) :
    drawDense L.still X y Wl second s i = (baseDense L X y Wl second i, s) :=
  drawBase_still L X y s i _ _ _ _

theorem drawSparse_still (L : Learner K F) (X : Mat K) (y : Nat → K) (Wl : Csr K)
    (second : Csr Nat) (s : S) (i : Nat) :
    drawSparse L.still X y Wl second s i = (baseSparse L X y Wl second i, s) :=
  drawBase_still L X y s i _ _ _ _

/-- C121: for a regressor that does not draw, the model with a generator is the model of the other
properties: `StackingWeightModel.fit`. -/
theorem C121_still_stacking (L : Learner K F) (M Mn : Learner K G) (rng : Rng S) (p : SParams K C)
    (st : SState K F G C) (s : S) (X : Mat K) (y : List K) (coords : Option C)
    (W : Option (WMat K)) (hp : p.storedPatches = some 1) :
    drawStackFit L.still M Mn rng p st s X y coords W = stackFit L M Mn rng p st s X y coords W := by
  have hrun : ∀ (f : Nat → Except Err (BaseOut K F)) (N : Nat),
      runBase f N p.storedPatches = mapE f (List.range N) := by
    intro f N
    rw [hp]
    exact runPatches_eq f (List.range N) (by norm_num)
  unfold drawStackFit stackFit
  split
  swap
  · rfl
  cases chosenWeights p.toWMParams coords W with
  | error e => rfl
  | ok W0 =>
    simp only [drawStackWith, stackWith]
    cases p.leaveOutRate with
    | none => rfl
    | some rate =>
      cases W0 with
      | dense D =>
        simp only [drawStackDense, stackDense, hrun]
        split
        · rfl
        rcases sampleNeighbourDense rng s D rate p.leaveOutShrink with ⟨e | Sm, s1, D1⟩
        · rfl
        simp only
        rcases sampleLocations rng s1 p.sampleRate X.r with ⟨e | idx, s2⟩
        · rfl
        simp only
        cases shrinkMetaDense p.metaShrink D1 with
        | error e => rfl
        | ok D2 =>
          simp only
          rw [drawLoop_still (drawDense_still L X _ _ _)]
      | sparse A =>
        simp only [drawStackSparse, stackSparse, hrun]
        split
        · rfl
        rcases sampleNeighbourSparse rng s A rate p.leaveOutShrink with ⟨e | Sm, s1, A1⟩
        · rfl
        simp only
        rcases sampleLocations rng s1 p.sampleRate X.r with ⟨e | idx, s2⟩
        · rfl
        simp only
        cases shrinkMetaSparse p.metaShrink A1 with
        | error e => rfl
        | ok A2 =>
          simp only
          cases secondSparse A2 Sm.transposePattern with
          | error e => rfl
          | ok second =>
            simp only
            rw [drawLoop_still (drawSparse_still L X _ _ _)]

/-- C121: the same for `WeightModel.fit`. -/
theorem C121_still_fit (L : Learner K F) (rng : Rng S) (p : WMParams K C)
    (st : WMState K F C) (s : S) (X : Mat K) (y : List K) (coords : Option C)
    (W : Option (WMat K)) (hj : p.nJobs = none) (hp : p.storedPatches = some 1) :
    drawFit L.still rng p st s X y coords W = wmFit L rng p st s X y coords W := by
  have htask : ∀ (W : WMat K) (s : S) (i : Nat),
      drawTask L.still X (fun i => y.getD i 0) W s i =
        (locTask L X (fun i => y.getD i 0) X W X.r i, s) := by
    intro W s i
    unfold drawTask locTask atIndex
    have hc : (i < X.r ∧ i < W.r) ↔ (i < X.r ∧ i < W.r ∧ i < X.r) := by tauto
    by_cases h : i < X.r ∧ i < W.r
    · rw [if_pos h, if_pos (hc.1 h)]
      have hl : ∀ (idx : List Nat) (ws : List K) (x : List K),
          drawLocal L.still X (fun i => y.getD i 0) s i idx ws x =
            (fitLocal L X (fun i => y.getD i 0) i idx ws x, s) := by
        intro idx ws x
        unfold drawLocal fitLocal
        simp only [Learner.still]
        cases L.fit i (idx.map X.row) (idx.map fun i => y.getD i 0) ws <;> rfl
      cases W with
      | dense D => simp only [denseTask, hl]; split <;> rfl
      | sparse A => simp only [sparseTask, hl]; split <;> rfl
    · rw [if_neg h, if_neg (fun h' => h (hc.2 h'))]
  unfold drawFit wmFit
  split
  swap
  · rfl
  cases chosenWeights p coords W with
  | error e => rfl
  | ok W0 =>
    simp only [drawFitWith, fitWith]
    rcases sampleLocations rng s p.sampleRate X.r with ⟨e | idx, s1⟩
    · rfl
    simp only [fitAll, hj, hp, Option.getD_some, Option.getD_none]
    rw [runPatches_eq _ _ (by norm_num : (0 : ℤ) < 1), drawLoop_still (htask (leaveOut p W0))]
    cases mapE (locTask L X (fun i => y.getD i 0) X (leaveOut p W0) X.r) idx <;> rfl

/-! ### A stacking fit does not depend on the generator -/

theorem drawDense_same (L : RandLearner K F S) (M : Learner K G) (rng : Rng S) (p : SParams K C)
    {cache cache' : Bool} {a b : SState K F G C} (s s' : S) (X : Mat K) (y : List K)
    (given cached : Bool) (rate : K) (W : Mat K)
    (hab : ∀ idx ys, SameBegin given cached
      { a with wm := { a.wm with localIndices := some idx, ySample := some ys } }
      { b with wm := { b.wm with localIndices := some idx, ySample := some ys } }) :
    (drawStackDense L M rng p cache a s X y given rate W).result =
      (drawStackDense L M rng p cache' b s' X y given rate W).result ∧
    (drawStackDense L M rng p cache a s X y given rate W).caller =
      (drawStackDense L M rng p cache' b s' X y given rate W).caller ∧
    ((drawStackDense L M rng p cache a s X y given rate W).result = .ok () →
      (drawStackDense L M rng p cache a s X y given rate W).rng =
        (drawStackDense L M rng p cache' b s' X y given rate W).rng ∧
      (drawStackDense L M rng p cache a s X y given rate W).state.cacheEstimator = cache ∧
      SameStack given p.useNumba cached (drawStackDense L M rng p cache a s X y given rate W).state
        (drawStackDense L M rng p cache' b s' X y given rate W).state) := by
  unfold drawStackDense
  by_cases hd : W.r ≠ X.r ∨ W.c ≠ X.r
  · simp only [if_pos hd]
    exact ⟨by trivial, by trivial, fun h => by cases h⟩
  simp only [if_neg hd]
  rcases sample_reset (rng := rng) (s := s) (W := W) (rate := rate) (shrink := p.leaveOutShrink) s'
    with ⟨h1, h2, e, h3⟩ | heq
  · have h4 := h1.symm.trans h3
    rcases hA : sampleNeighbourDense rng s W rate p.leaveOutShrink with ⟨_ | _, sA, WA⟩ <;>
      rw [hA] at h2 h3 <;> cases h3
    rcases hB : sampleNeighbourDense rng s' W rate p.leaveOutShrink with ⟨_ | _, sB, WB⟩ <;>
      rw [hB] at h2 h4 <;> cases h4
    simp only at h2
    subst h2
    exact ⟨rfl, rfl, fun h => by cases h⟩
  rw [heq]
  rcases sampleNeighbourDense rng s' W rate p.leaveOutShrink with ⟨e | Sm, s1, W'⟩
  · exact ⟨rfl, rfl, fun h => by cases h⟩
  simp only
  rcases sampleLocations rng s1 p.sampleRate X.r with ⟨e | idx, s2⟩
  · exact ⟨rfl, rfl, fun h => by cases h⟩
  simp only
  cases shrinkMetaDense p.metaShrink W' with
  | error e => exact ⟨rfl, rfl, fun h => by cases h⟩
  | ok W1 =>
    simp only
    have hb : SameBegin given cached
        (stackShrunk given { a with wm := { a.wm with
          localIndices := some idx, ySample := some (idx.map fun i => y.getD i 0) } } (.dense W1))
        (stackShrunk given { b with wm := { b.wm with
          localIndices := some idx, ySample := some (idx.map fun i => y.getD i 0) } }
          (.dense W1)) := by
      have h := hab idx (idx.map fun i => y.getD i 0)
      unfold stackShrunk
      cases given with
      | true => exact h
      | false => exact ⟨h.fitted, h.N, h.nFeatures, h.localIndices, h.ySample, fun _ => rfl,
          h.neighbours, h.data⟩
    generalize drawLoop (drawDense L X (fun i => y.getD i 0)
      (localDense p.leaveLocalOut W' Sm.transpose) (secondOrderDense (gt0 W1) Sm.transpose)) s2
      (List.range X.r) = run
    obtain ⟨g1, g2, g3, g4⟩ := stackFinish_same (numba := p.useNumba) (cache := cache)
      (cache' := cache') hb (if given then some (WMat.dense W1) else none) run.2
      (idx.map fun i => y.getD i 0) run.1
      (metaStageDense M rng p X.r (fun i => y.getD i 0) W1 Sm.transpose
        (secondOrderDense (gt0 W1) Sm.transpose) run.2)
      (fun hnb res out s' hm => by simp [metaStageDense, hnb] at hm)
    exact ⟨g1, g2, fun h => ⟨g3, g4 h⟩⟩

theorem drawSparse_same (L : RandLearner K F S) (M Mn : Learner K G) (rng : Rng S) (p : SParams K C)
    {cache cache' : Bool} {a b : SState K F G C} (s s' : S) (X : Mat K) (y : List K)
    (cached : Bool) (rate : K) (A : Csr K)
    (hab : ∀ idx ys, SameBegin true cached
      { a with wm := { a.wm with localIndices := some idx, ySample := some ys } }
      { b with wm := { b.wm with localIndices := some idx, ySample := some ys } }) :
    (drawStackSparse L M Mn rng p cache a s X y rate A).result =
      (drawStackSparse L M Mn rng p cache' b s' X y rate A).result ∧
    (drawStackSparse L M Mn rng p cache a s X y rate A).caller =
      (drawStackSparse L M Mn rng p cache' b s' X y rate A).caller ∧
    ((drawStackSparse L M Mn rng p cache a s X y rate A).result = .ok () →
      (drawStackSparse L M Mn rng p cache a s X y rate A).rng =
        (drawStackSparse L M Mn rng p cache' b s' X y rate A).rng ∧
      (drawStackSparse L M Mn rng p cache a s X y rate A).state.cacheEstimator = cache ∧
      SameStack true p.useNumba cached (drawStackSparse L M Mn rng p cache a s X y rate A).state
        (drawStackSparse L M Mn rng p cache' b s' X y rate A).state) := by
  unfold drawStackSparse
  by_cases hd : A.r ≠ X.r ∨ A.c ≠ X.r
  · simp only [if_pos hd]
    exact ⟨by trivial, by trivial, fun h => by cases h⟩
  simp only [if_neg hd]
  rcases sample_reset_sparse (rng := rng) (s := s) (A := A) (rate := rate)
    (shrink := p.leaveOutShrink) s' with ⟨h1, h2, e, h3⟩ | heq
  · have h4 := h1.symm.trans h3
    rcases hA : sampleNeighbourSparse rng s A rate p.leaveOutShrink with ⟨_ | _, sA, WA⟩ <;>
      rw [hA] at h2 h3 <;> cases h3
    rcases hB : sampleNeighbourSparse rng s' A rate p.leaveOutShrink with ⟨_ | _, sB, WB⟩ <;>
      rw [hB] at h2 h4 <;> cases h4
    simp only at h2
    subst h2
    exact ⟨rfl, rfl, fun h => by cases h⟩
  rw [heq]
  rcases sampleNeighbourSparse rng s' A rate p.leaveOutShrink with ⟨e | Sm, s1, A'⟩
  · exact ⟨rfl, rfl, fun h => by cases h⟩
  simp only
  rcases sampleLocations rng s1 p.sampleRate X.r with ⟨e | idx, s2⟩
  · exact ⟨rfl, rfl, fun h => by cases h⟩
  simp only
  cases shrinkMetaSparse p.metaShrink A' with
  | error e => exact ⟨rfl, rfl, fun h => by cases h⟩
  | ok A1 =>
    simp only
    cases secondSparse A1 Sm.transposePattern with
    | error e => exact ⟨rfl, rfl, fun h => by cases h⟩
    | ok second =>
      simp only
      generalize drawLoop (drawSparse L X (fun i => y.getD i 0)
        (localSparse p.leaveLocalOut A' Sm.transposePattern) second) s2 (List.range X.r) = run
      obtain ⟨g1, g2, g3, g4⟩ := stackFinish_same (numba := p.useNumba) (cache := cache)
        (cache' := cache') (hab idx (idx.map fun i => y.getD i 0)) (some (WMat.sparse A1)) run.2
        (idx.map fun i => y.getD i 0)
        run.1
        (fun res => (metaStageSparse M Mn p X.r (fun i => y.getD i 0) A1 Sm second res, run.2))
        (fun hnb res out s' hm o ho => by
          simp only [metaStageSparse, hnb, if_true, Prod.mk.injEq] at hm
          obtain ⟨i, hi, rfl⟩ := List.getElem_of_mem ho
          have hl := mapE_length hm.1
          have := mapE_get hm.1 (i := i) (by rw [← hl]; exact hi)
          exact solveNumba_scored this)
      exact ⟨g1, g2, fun h => ⟨g3, g4 h⟩⟩

/-- C121: fitting a stacking model with a regressor that draws from the global generator, in the
calling process. The fit seeds the generator before the first draw of the regressor, so that
neither the outcome nor anything that is computed depends on the generator before the call, and
the generator is left in the same state. (What is kept from an earlier fit is the same as in C116.) -/
theorem C121_stacking (L : RandLearner K F S) (M Mn : Learner K G) (rng : Rng S) (p : SParams K C)
    (st st' : SState K F G C) (s s' : S) (X : Mat K) (y : List K) (coords : Option C)
    (W : Option (WMat K)) :
    (drawStackFit L M Mn rng p st s X y coords W).result =
      (drawStackFit L M Mn rng p st' s' X y coords W).result ∧
    (drawStackFit L M Mn rng p st s X y coords W).caller =
      (drawStackFit L M Mn rng p st' s' X y coords W).caller ∧
    ((drawStackFit L M Mn rng p st s X y coords W).result = .ok () →
      (drawStackFit L M Mn rng p st s X y coords W).rng =
        (drawStackFit L M Mn rng p st' s' X y coords W).rng ∧
      (drawStackFit L M Mn rng p st s X y coords W).state.cacheEstimator = st.cacheEstimator ∧
      SameStack W.isSome p.useNumba p.cacheData
        (drawStackFit L M Mn rng p st s X y coords W).state
        (drawStackFit L M Mn rng p st' s' X y coords W).state) := by
  unfold drawStackFit
  split
  swap
  · exact ⟨rfl, rfl, fun h => by cases h⟩
  cases hW0 : chosenWeights p.toWMParams coords W with
  | error e => exact ⟨rfl, rfl, fun h => by cases h⟩
  | ok W0 =>
    have hn : (coords.isNone && W.isNone) = false := by
      cases coords <;> cases W <;> first | rfl | cases hW0
    simp only [drawStackWith]
    cases p.leaveOutRate with
    | none => exact ⟨rfl, rfl, fun h => by cases h⟩
    | some rate =>
      have hab : ∀ idx ys, SameBegin W.isSome p.cacheData
          { stackWeights W.isSome (stackBegin p st X y coords W) W0 with
            wm := { (stackWeights W.isSome (stackBegin p st X y coords W) W0).wm with
              localIndices := some idx, ySample := some ys } }
          { stackWeights W.isSome (stackBegin p st' X y coords W) W0 with
            wm := { (stackWeights W.isSome (stackBegin p st' X y coords W) W0).wm with
              localIndices := some idx, ySample := some ys } } := by
        intro idx ys
        simp only [stackBegin, hn, stackWeights]
        cases W.isSome <;> cases p.cacheData <;>
          exact ⟨rfl, rfl, rfl, rfl, rfl, by simp, by simp, by simp⟩
      cases W0 with
      | dense D => exact drawDense_same L M rng p s s' X y W.isSome p.cacheData rate D hab
      | sparse A =>
        have hW := chosenWeights_sparse hW0
        subst hW
        exact drawSparse_same L M Mn rng p s s' X y p.cacheData rate A hab

/-- C121: what runs after a stacking fit is repeatable too: a `WeightModel` whose regressor draws
gets the same generator, whatever happened before the stacking fit. -/
theorem C121_after_stacking {G' : Type} (L : RandLearner K F S) (M Mn : Learner K G)
    (L' : RandLearner K G' S) (rng : Rng S) (p : SParams K C) (q : WMParams K C)
    (st st' : SState K F G C) (t : WMState K G' C) (s s' : S) (X X' : Mat K) (y y' : List K)
    (coords coords' : Option C) (W W' : Option (WMat K))
    (h : (drawStackFit L M Mn rng p st s X y coords W).result = .ok ()) :
    drawFit L' rng q t (drawStackFit L M Mn rng p st s X y coords W).rng X' y' coords' W' =
      drawFit L' rng q t (drawStackFit L M Mn rng p st' s' X y coords W).rng X' y' coords' W' := by
  rw [((C121_stacking L M Mn rng p st st' s s' X y coords W).2.2 h).1]

/-! ### Examples -/

/-- A regressor that predicts a number drawn from the generator. -/
def drawnLearner : RandLearner ℚ ℚ ℕ where
  fit s _ rows _ _ := if rows = [] then (.error .valueError, s) else (.ok ((s * s + 1 : ℕ) : ℚ), s + 1)
  predict f _ := f

/-- C121: a `WeightModel` alone is not repeatable: the same call, twice on the same object, gives
different predictions. -/
theorem C121_weight_model :
    let p : WMParams ℚ Unit := { exP with nPatches := some 1 }
    let first := drawFit drawnLearner countRng p {} 0 exX exY none (some (.dense exWd))
    let second := drawFit drawnLearner countRng p first.state first.rng exX exY none
      (some (.dense exWd))
    first.result = .ok () ∧ second.result = .ok () ∧
    first.state.localPredict ≠ second.state.localPredict ∧ p.storedPatches = some 1 := by
  decide +kernel

/-- C121: the case of the stacking model is real: a fit that succeeds, with predictions that do come
from the generator. -/
example :
    let o := drawStackFit drawnLearner meanLearner meanLearner rotRng { seP with nPatches := some 1 } {} 0 seX seY
      none (some (.dense seW))
    let o' := drawStackFit drawnLearner meanLearner meanLearner rotRng { seP with nPatches := some 1 } o.state 17
      seX seY none (some (.dense seW))
    o.result = .ok () ∧ o'.result = .ok () ∧ o.state.wm.localPredict = o'.state.wm.localPredict ∧
    o.rng = o'.rng := by
  decide +kernel

end Geo
