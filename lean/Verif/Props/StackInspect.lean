import Verif.Model.StackInspect
import Verif.Model.ImportanceLocal
import Verif.Props.LocalIce
import Verif.Props.AleModel
import Verif.Props.Baseline
import Verif.Props.StackingMore
import Verif.Props.SampledInspect
/-
C136: what can be asked of a fitted stacking model.
-/
set_option linter.unusedSectionVars false
namespace Geo
variable {K : Type} [Field K] [LinearOrder K] [IsStrictOrderedRing K] [FloorRing K]
  {F G C S : Type}

/-- The sizes a successful stacking fit records. -/
theorem stack_sizes {L : Learner K F} {M Mn : Learner K G} {rng : Rng S} {p : SParams K C}
    {st : SState K F G C} {s : S} {X : Mat K} {y : List K} {coords : Option C}
    {W : Option (WMat K)} (hok : (stackFit L M Mn rng p st s X y coords W).result = .ok ()) :
    (stackFit L M Mn rng p st s X y coords W).state.wm.N = some X.r ∧
    (stackFit L M Mn rng p st s X y coords W).state.wm.nFeatures = some X.c ∧ 0 < X.r ∧ 0 < X.c := by
  obtain ⟨W0, rate, hc, hW0, hlr, heq⟩ := stackFit_ok hok
  simp only [checkXy, decide_eq_true_eq] at hc
  have h0 : (stackWeights W.isSome (stackBegin p st X y coords W) W0).wm.N = some X.r ∧
      (stackWeights W.isSome (stackBegin p st X y coords W) W0).wm.nFeatures = some X.c := by
    unfold stackWeights stackBegin
    cases W.isSome <;> cases (coords.isNone && W.isNone) <;> cases p.cacheData <;> exact ⟨rfl, rfl⟩
  refine ⟨?_, ?_, hc.2⟩
  all_goals
    rw [heq] at hok ⊢
    generalize stackWeights W.isSome (stackBegin p st X y coords W) W0 = st0 at *
    unfold stackWith at hok ⊢
    rw [hlr] at hok ⊢
    cases W0 with
    | dense W0 =>
      simp only at hok ⊢
      obtain ⟨Sm, W', idx, res, out, score, score', s', hr, he, h1, h2⟩ := stackDense_ok hok
      rw [he]
      first | exact h0.1 | exact h0.2
    | sparse A =>
      simp only at hok ⊢
      obtain ⟨Sm, A', sec, idx, res, out, score, score', s', hr, he, h1, h2⟩ := stackSparse_ok hok
      rw [he]
      first | exact h0.1 | exact h0.2

/-- C136: after every successful fit of a stacking model `partial_dependence` raises and leaves the
recorded curves alone. -/
theorem C136_partial_dependence_raises (L : Learner K F) (M Mn : Learner K G) (rng : Rng S)
    (p : SParams K C) (st : SState K F G C) (s : S) (X : Mat K) (y : List K) (coords : Option C)
    (W : Option (WMat K)) (hok : (stackFit L M Mn rng p st s X y coords W).result = .ok ())
    (old : PdOut K) :
    ∃ e, partialDependenceStacked (stackFit L M Mn rng p st s X y coords W).state.wm old =
      ⟨.error e, old.localPartial, old.featurePartial⟩ := by
  obtain ⟨hN, hF, h0, hc⟩ := stack_sizes hok
  unfold partialDependenceStacked
  rw [hN, hF]
  split
  · rename_i N nf es X' W' B e1 e2 _ _ _ _
    cases e1
    cases e2
    obtain ⟨e, he⟩ := mapE_error_of_mem (f := pdLocationStacked X' W' B es X.c)
      (l := List.range X.r) (a := 0) (by simpa using h0) (by
        unfold pdLocationStacked
        split
        · exact ⟨_, rfl⟩
        · rw [if_neg (by omega)]
          split <;> exact ⟨_, rfl⟩)
    rw [he]
    exact ⟨e, rfl⟩
  · rename_i N nf _ _ _ _ e1 e2 _ _ _ _
    cases e1
    rw [if_neg (by omega)]
    exact ⟨_, rfl⟩
  · exact ⟨_, rfl⟩

/-- C136: if the weights were given to `fit` and the object recorded none before, the methods that
look at neighbourhoods raise `TypeError`: `fit` did not record the weights. -/
theorem C136_given_weights_unrecorded (L : Learner K F) (M Mn : Learner K G) (rng : Rng S)
    (p : SParams K C) (st : SState K F G C) (s : S) (X : Mat K) (y : List K) (coords : Option C)
    (W : WMat K) (hok : (stackFit L M Mn rng p st s X y coords (some W)).result = .ok ())
    (hw : st.wm.weightMatrix = none) (hb : st.wm.neighbourMatrix = none) :
    let a := (stackFit L M Mn rng p st s X y coords (some W)).state.wm
    let E := stackLearner L (if p.useNumba then Mn else M)
    (∀ feature, localAle E a feature = .error .typeError) ∧
    (∀ old, partialDependenceStacked a old =
      ⟨.error .typeError, old.localPartial, old.featurePartial⟩) ∧
    (∀ fourArgs wide store old, localICE fourArgs wide E store a old =
      ⟨.error .typeError, old.localIce, old.featureIce⟩) ∧
    (∀ {S' : Type} (g : PRng S') seeds (q : WMParams K C) R, q.cacheData = true →
      q.cacheEstimator = true → importanceLocal E g seeds q a R = .error .typeError) := by
  intro a E
  have hrec := C54_recorded_matrices L M Mn rng p st s X y coords (some W) hok
  have h : a.weightMatrix = none ∧ a.neighbourMatrix = none := by
    cases W with
    | dense D =>
      obtain ⟨h1, h2, -⟩ := hrec.1 D rfl
      exact ⟨h1.trans hw, h2.trans hb⟩
    | sparse A =>
      obtain ⟨h1, h2, -⟩ := hrec.2.1 A rfl
      exact ⟨h1.trans hw, h2.trans hb⟩
  refine ⟨fun feature => ?_, fun old => ?_, fun fa wide store old => ?_,
    fun g seeds q R h1 h2 => ?_⟩
  · unfold localAle
    rw [h.1, h.2]
    cases a.estimators <;> cases a.X <;> rfl
  · unfold partialDependenceStacked
    rw [h.1, h.2]
    cases a.N <;> cases a.nFeatures <;> cases a.estimators <;> cases a.X <;> rfl
  · unfold localICE
    rw [h.2]
    cases a.N <;> cases a.nFeatures <;> cases a.estimators <;> cases a.X <;> rfl
  · unfold importanceLocal
    rw [h.1, h.2, h1, h2]
    cases a.N <;> cases a.estimators <;> cases a.X <;> cases a.y <;> rfl

/-- C136: the curves of `local_ALE` in terms of the recorded matrices. Curve `i` belongs to the
`i`-th stacked estimator; the observations and their weights are those of row `i` of the recorded
matrices. -/
theorem stacked_local_ale {L : Learner K F} {M Mn : Learner K G} {rng : Rng S} (hrng : rng.Valid)
    {p : SParams K C} {st : SState K F G C} {s : S} {X : Mat K} {y : List K} {coords : Option C}
    {W : Option (WMat K)} (hd : p.cacheData = true)
    (hrate : ∀ r, p.sampleRate = some r → 0 ≤ r ∧ r ≤ 1)
    (hok : (stackFit L M Mn rng p st s X y coords W).result = .ok ())
    {Wr : Mat K} {Br : Mat Bool}
    (hw : (stackFit L M Mn rng p st s X y coords W).state.wm.weightMatrix = some (.dense Wr))
    (hb : (stackFit L M Mn rng p st s X y coords W).state.wm.neighbourMatrix = some (.dense Br))
    {E : Learner K (StackedEst F G)} {feature : Nat} {curves : List (List K × List K)}
    (hcur : localAle E (stackFit L M Mn rng p st s X y coords W).state.wm feature = .ok curves) :
    curves.length = X.r ∧ ∃ es,
      (stackFit L M Mn rng p st s X y coords W).state.wm.estimators = some es ∧
      ∀ i < X.r, ∃ e c, es[i]? = some (some e) ∧ curves[i]? = some c ∧ Br.c = X.r ∧
        weightedAle (maskRows X (trueIdx Br i)) feature (E.predict e)
          (some ((trueIdx Br i).map (Wr.get i))) false 5 = .ok c := by
  have hrec := C87_attributes L M Mn rng hrng p st s X y coords W hrate hok
  obtain ⟨es, he, hel, hes⟩ := hrec.estimators
  obtain ⟨hX, -, -⟩ := stack_cached hd hok
  unfold localAle at hcur
  rw [he, hX, hw, hb] at hcur
  simp only at hcur
  have hl := mapE_length hcur
  rw [List.length_range] at hl
  refine ⟨by omega, es, he, fun i hi => ?_⟩
  have hi' : i < es.length := by omega
  have hc := mapE_get hcur (i := i) (by simpa using hi')
  simp only [List.getElem_range] at hc
  have hmem := hes es[i] (List.getElem_mem hi')
  obtain ⟨e, hee⟩ := Option.isSome_iff_exists.mp hmem
  unfold localAleOne at hc
  rw [List.getD_eq_getElem _ _ hi', hee] at hc
  split at hc
  · cases hc
  · rename_i hcond
    exact ⟨e, _, by rw [List.getElem?_eq_getElem hi', hee], List.getElem?_eq_getElem (by omega),
      by push Not at hcond; tauto, hc⟩

/-- C136: after a fit from coordinates, curve `i` of `local_ALE` is the effect in the `i`-th stacked
estimator over all observations with a positive weight for location `i`, itself included if its weight
is positive, although `leave_local_out` is on by default; the weights are those after
`meta_fitting_shrink_rate`, so observations that were shrunk away take part with weight zero. -/
theorem C136_local_ale_coordinates (L : Learner K F) (M Mn : Learner K G) (rng : Rng S)
    (hrng : rng.Valid) (p : SParams K C) (st : SState K F G C) (s : S) (X : Mat K) (y : List K)
    (coords : Option C) (hd : p.cacheData = true)
    (hrate : ∀ r, p.sampleRate = some r → 0 ≤ r ∧ r ≤ 1)
    (hok : (stackFit L M Mn rng p st s X y coords none).result = .ok ())
    (feature : Nat) (curves : List (List K × List K))
    (hcur : localAle (stackLearner L (if p.useNumba then Mn else M))
      (stackFit L M Mn rng p st s X y coords none).state.wm feature = .ok curves) :
    ∃ c D W1 es, coords = some c ∧ p.weights c c = .ok D ∧
      shrinkMetaDense p.metaShrink D = .ok W1 ∧
      (stackFit L M Mn rng p st s X y coords none).state.wm.estimators = some es ∧
      curves.length = X.r ∧ ∀ i < X.r, ∃ e k, es[i]? = some (some e) ∧ curves[i]? = some k ∧
        let near := (List.range X.r).filter fun j => decide (0 < D.get i j)
        weightedAle ⟨near.length, X.c, fun t j => X.get (near.getD t 0) j⟩ feature
          (stackPredict L (if p.useNumba then Mn else M) e) (some (near.map (W1.get i))) false 5 =
          .ok k := by
  obtain ⟨c, D, W1, hc, hD, hW1, h1, h2⟩ :=
    (C54_recorded_matrices L M Mn rng p st s X y coords none hok).2.2 rfl
  obtain ⟨hl, es, he, hall⟩ := stacked_local_ale hrng hd hrate hok h1 h2 hcur
  refine ⟨c, D, W1, es, hc, hD, hW1, he, hl, fun i hi => ?_⟩
  obtain ⟨e, k, g1, g2, g3, g4⟩ := hall i hi
  refine ⟨e, k, g1, g2, ?_⟩
  have ht : trueIdx (gt0 D) i = (List.range X.r).filter fun j => decide (0 < D.get i j) := by
    unfold trueIdx
    rw [g3]
    exact List.filter_congr fun j _ => by simp [gt0, Mat.map]
  rw [ht] at g4
  exact g4

/-- C136: after a fit with given weights, `local_ALE` uses the matrices recorded by an earlier fit:
if that fit recorded `D` (a weight model, or a stacking model without shrinking), the curves are made
with the weights `D`, whatever weights were given now. -/
theorem C136_local_ale_stale (L : Learner K F) (M Mn : Learner K G) (rng : Rng S)
    (hrng : rng.Valid) (p : SParams K C) (st : SState K F G C) (s : S) (X : Mat K) (y : List K)
    (coords : Option C) (W : WMat K) (D : Mat K) (hd : p.cacheData = true)
    (hrate : ∀ r, p.sampleRate = some r → 0 ≤ r ∧ r ≤ 1)
    (hw : st.wm.weightMatrix = some (.dense D)) (hb : st.wm.neighbourMatrix = some (.dense (gt0 D)))
    (hok : (stackFit L M Mn rng p st s X y coords (some W)).result = .ok ())
    (feature : Nat) (curves : List (List K × List K))
    (hcur : localAle (stackLearner L (if p.useNumba then Mn else M))
      (stackFit L M Mn rng p st s X y coords (some W)).state.wm feature = .ok curves) :
    ∃ es, (stackFit L M Mn rng p st s X y coords (some W)).state.wm.estimators = some es ∧
      curves.length = X.r ∧ ∀ i < X.r, ∃ e k, es[i]? = some (some e) ∧ curves[i]? = some k ∧
        let near := (List.range X.r).filter fun j => decide (0 < D.get i j)
        weightedAle ⟨near.length, X.c, fun t j => X.get (near.getD t 0) j⟩ feature
          (stackPredict L (if p.useNumba then Mn else M) e) (some (near.map (D.get i))) false 5 =
          .ok k := by
  have hrec := C54_recorded_matrices L M Mn rng p st s X y coords (some W) hok
  have h : (stackFit L M Mn rng p st s X y coords (some W)).state.wm.weightMatrix =
        some (.dense D) ∧
      (stackFit L M Mn rng p st s X y coords (some W)).state.wm.neighbourMatrix =
        some (.dense (gt0 D)) := by
    cases W with
    | dense D' =>
      obtain ⟨h1, h2, -⟩ := hrec.1 D' rfl
      exact ⟨h1.trans hw, h2.trans hb⟩
    | sparse A =>
      obtain ⟨h1, h2, -⟩ := hrec.2.1 A rfl
      exact ⟨h1.trans hw, h2.trans hb⟩
  obtain ⟨hl, es, he, hall⟩ := stacked_local_ale hrng hd hrate hok h.1 h.2 hcur
  refine ⟨es, he, hl, fun i hi => ?_⟩
  obtain ⟨e, k, g1, g2, g3, g4⟩ := hall i hi
  refine ⟨e, k, g1, g2, ?_⟩
  have ht : trueIdx (gt0 D) i = (List.range X.r).filter fun j => decide (0 < D.get i j) := by
    unfold trueIdx
    rw [g3]
    exact List.filter_congr fun j _ => by simp [gt0, Mat.map]
  rw [ht] at g4
  exact g4

/-- Twelve locations on a line, fitted from coordinates with shrinking and, without coordinates, with
given weights. -/
def skP : SParams ℚ Unit :=
  { seP with cacheData := true, weights := fun _ _ => .ok siW, metaShrink := some (1 / 2) }
def skY : List ℚ := (List.range 12).map fun (i : Nat) => (i * i : ℚ)
def skFit : SOut Unit ℚ ℚ ℚ Unit Nat :=
  stackFit siLearner meanLearner meanLearner rotRng skP {} 0 alX skY (some ()) none
def skGiven : SOut Unit ℚ ℚ ℚ Unit Nat :=
  stackFit siLearner meanLearner meanLearner rotRng { skP with metaShrink := none } {} 0 alX skY none
    (some (.dense siW))

/-- C136: the hypotheses are met. The first curve begins at the location itself. -/
example : skFit.result = .ok () ∧
    okAnd (localAle (stackLearner siLearner meanLearner) skFit.state.wm 0)
      (fun r => r.length == 12 && (r.getD 0 ([], [])).1.head? == some 0) = true ∧
    skGiven.result = .ok () ∧
    localAle (stackLearner siLearner meanLearner) skGiven.state.wm 0 = .error .typeError := by
  refine ⟨?_, ?_, ?_, ?_⟩ <;> decide +kernel

/-- C136: the same data fitted with given weights on an object that remembers other weights: the
curves follow the weights it remembers. -/
example :
    let st : SState ℚ ℚ ℚ Unit :=
      { wm := { weightMatrix := some (.dense siW), neighbourMatrix := some (.dense (gt0 siW)) } }
    let o := stackFit siLearner meanLearner meanLearner rotRng { skP with metaShrink := none } st 0
      alX skY none (some (.dense ⟨12, 12, fun _ _ => 1⟩))
    o.result = .ok () ∧
    okAnd (localAle (stackLearner siLearner meanLearner) o.state.wm 0)
      (fun r => r.length == 12 && (r.getD 0 ([], [])).1.getLast? == some 7) = true := by
  refine ⟨?_, ?_⟩ <;> decide +kernel

end Geo
