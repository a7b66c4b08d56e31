import Verif.Model.ExampleScripts
import Verif.Props.HeldOut
import Verif.Props.StackingAttrs
import Verif.Props.CurveOrder
/-
C151: what the scripts in `Examples/` print and draw. The score a fitted object holds is the one the
scripts compute again from its predictions; the prediction script does not depend on the fit that
precedes it; the figures of `stale.py` show the curves of `local_ALE` and the neighbours of each
location.
-/
set_option linter.unusedSectionVars false
namespace Geo
variable {K : Type} [Field K] [LinearOrder K] [IsStrictOrderedRing K] [FloorRing K]
variable {F G S : Type}

/-- The neighbours of location `i` in the scripts: positive weight, and not `i` itself. -/
def scriptNeighbours (D : Mat K) (n i : Nat) : List Nat :=
  (List.range n).filter fun j => decide (j ≠ i ∧ D.get i j ≠ 0)

theorem targets_all {n : Nat} {y : List K} (h : n = y.length) : (List.range n).map (yfun y) = y := by
  subst h
  apply List.ext_getElem (by simp)
  intro i h1 h2
  simp [yfun, h2]

/-- What a fit of a script (no sampling, weights from the points, default batches) leaves behind. -/
theorem scriptFit_ok {L : Learner K F} {rng : Rng S} {p : WMParams K (Mat K)}
    (hrate : p.sampleRate = none) (hlo : p.leaveLocalOut = true)
    {s : S} {X : Mat K} {y : List K} {points : Mat K}
    (hok : (wmFit L rng p {} s X y (some points) none).result = .ok ()) :
    ∃ D ps sc, p.weights points points = .ok D ∧ X.r = y.length ∧ 0 < X.c ∧
      (wmFit L rng p {} s X y (some points) none).state.localPredict = some ps ∧
      (wmFit L rng p {} s X y (some points) none).state.score = some sc ∧
      (wmFit L rng p {} s X y (some points) none).state.N = some X.r ∧
      (wmFit L rng p {} s X y (some points) none).state.localIndices = some (List.range X.r) ∧
      (wmFit L rng p {} s X y (some points) none).state.weightMatrix =
        some (.dense ⟨D.r, D.c, fun i j => if i = j then 0 else D.get i j⟩) ∧
      (wmFit L rng p {} s X y (some points) none).state.neighbourMatrix =
        some (.dense (gt0 ⟨D.r, D.c, fun i j => if i = j then 0 else D.get i j⟩)) ∧
      (∃ es, (wmFit L rng p {} s X y (some points) none).state.estimators = some es ∧
        es.length = X.r) ∧
      skR2 y ps = .ok sc ∧ D.c = X.r ∧ X.r ≤ D.r := by
  obtain ⟨W0, idx, s', res, sc, hck, hW0, hs, hf, hl, -, hsc, hout⟩ := wmFit_ok hok
  have hal := aligned_of hW0 hs (.inr (.inl hrate))
  rw [hrate] at hs
  have hidx := sampleLocations_all hs
  subst hidx
  have hm := fitAll_ok hf hal hl
  unfold checkXy at hck
  obtain ⟨h1, h0, h3⟩ := of_decide_eq_true hck
  simp only [chosenWeights] at hW0
  cases hD : p.weights points points with
  | error e => rw [hD] at hW0; cases hW0
  | ok D =>
  rw [hD] at hW0
  cases hW0
  have hlv : leaveOut p (.dense D) =
      .dense ⟨D.r, D.c, fun i j => if i = j then 0 else D.get i j⟩ := by
    simp [leaveOut, hlo, WMat.clearDiag]
  rw [targets_all h1] at hsc
  rw [hlv] at hout hm
  have hall : ∀ i < X.r, i < D.r ∧ D.c = X.r := by
    intro i hi
    have hg := mapE_get hm (i := i) (by rwa [List.length_range])
    simp only [List.getElem_range] at hg
    have hb := locTask_ok hg
    rw [locTask_eq (W := .dense _) hb] at hg
    simp only [denseTask] at hg
    split at hg
    · cases hg
    · rename_i hc
      exact ⟨hb.2.1, not_not.1 hc⟩
  have hN : (stateBegin p ({} : WMState K F (Mat K)) X y (some points) none).N = some X.r := by
    unfold stateBegin
    simp only [Option.isNone_some, Bool.false_and]
    cases p.cacheData <;> rfl
  refine ⟨D, res.map Prod.fst, sc, rfl, h1, h3, by rw [hout], by rw [hout], by rw [hout]; exact hN,
    by rw [hout], by rw [hout], by rw [hout]; rfl, ⟨_, by rw [hout], ?_⟩, hsc,
    (hall 0 h0).2, ?_⟩
  · simpa using hl
  · by_contra hlt
    exact absurd (hall D.r (by omega)).1 (by omega)

/-- C151: `GWR_fit.py` and `STRF_fit.py` run through exactly if the fit does, and then they print
the same number twice. It is the R² of the predictions of local models, each trained on the other
observations with non-zero weight for the location, with the coordinates as additional predictors. -/
theorem C151_scores (L : Learner K F) (rng : Rng S) (cpu : Nat)
    (weights : Mat K → Mat K → Except Err (Mat K)) (X : Mat K) (y : List K) (points : Mat K) (s : S)
    (a b : K) (h : fitScript L rng cpu weights X y points s = .ok (a, b)) :
    a = b ∧ ∃ (D : Mat K) (ps : List K), weights points points = .ok D ∧ ps.length = X.r ∧
      a = R2Of X.r (fun i => y.getD i 0) (fun i => ps.getD i 0) ∧
      (∀ i < X.r, ∃ f,
        L.fit i ((scriptNeighbours D X.r i).map fun j => X.row j ++ points.row j)
          ((scriptNeighbours D X.r i).map fun j => y.getD j 0)
          ((scriptNeighbours D X.r i).map fun j => D.get i j) = .ok f ∧
        ps[i]? = some (L.predict f (X.row i ++ points.row i))) := by
  unfold fitScript at h
  cases hb : besideCols X points with
  | error e => rw [hb] at h; cases h
  | ok Z =>
  obtain ⟨-, hZr, hZ⟩ := besideCols_row hb
  rw [hb] at h
  simp only at h
  cases hr : (wmFit L rng (scriptParams cpu weights) {} s Z y (some points) none).result with
  | error e => rw [hr] at h; cases h
  | ok u =>
  cases u
  obtain ⟨D, ps, sc, hD, hyl, -, h1, h2, -, h3, h4, -, -, h5, hDc, -⟩ :=
    scriptFit_ok (L := L) (rng := rng) (p := scriptParams cpu weights) rfl rfl hr
  rw [hr, h1, h2] at h
  simp only [h5, Except.map, Except.ok.injEq, Prod.mk.injEq] at h
  obtain ⟨rfl, rfl⟩ := h
  have hpl : ps.length = y.length := by
    unfold skR2 at h5
    split at h5
    · cases h5
    split at h5
    · cases h5
    · omega
  refine ⟨rfl, D, ps, hD, by omega, ?_, fun i hi => ?_⟩
  · rw [skR2_lists h5, ← hyl, hZr]
  · obtain ⟨f, hf, hp, -⟩ := C38_kth_location L rng (scriptParams cpu weights) {} s Z y (some points)
      none (by intro A hA; cases hA) (.inl rfl) hr h4 h3 (k := i) (i := i)
      (by rw [hZr]; simp [hi]) hDc
    rw [h1] at hp
    refine ⟨f, ?_, ?_⟩
    · rw [← hf]
      have hrows : ((List.range Z.r).filter fun j => ((WMat.dense ⟨D.r, D.c,
          fun i j => if i = j then 0 else D.get i j⟩ : WMat K).toMat.get i j) ≠ 0) =
          scriptNeighbours D X.r i := by
        unfold scriptNeighbours
        rw [hZr]
        apply List.filter_congr
        intro j _
        simp only [WMat.toMat]
        by_cases hij : i = j
        · simp [hij]
        · simp [hij, Ne.symm hij]
      rw [hrows]
      congr 1
      · apply List.map_congr_left
        intro j _
        exact (hZ j).symm
      · apply List.map_congr_left
        intro j hj
        unfold scriptNeighbours at hj
        have := (of_decide_eq_true (List.mem_filter.1 hj).2).1
        simp [WMat.toMat, Ne.symm this]
    · rw [← show featuresAndPlace X points i = X.row i ++ points.row i from rfl, ← hZ i]
      exact hp

/-- C151: the second computation of the score never fails. -/
theorem C151_runs (L : Learner K F) (rng : Rng S) (cpu : Nat)
    (weights : Mat K → Mat K → Except Err (Mat K)) (X : Mat K) (y : List K) (points Z : Mat K) (s : S)
    (hZ : besideCols X points = .ok Z) :
    (∃ v, fitScript L rng cpu weights X y points s = .ok (v, v)) ↔
      (wmFit L rng (scriptParams cpu weights) {} s Z y (some points) none).result = .ok () := by
  unfold fitScript
  rw [hZ]
  simp only
  constructor
  · rintro ⟨v, h⟩
    cases hr : (wmFit L rng (scriptParams cpu weights) {} s Z y (some points) none).result with
    | error e => rw [hr] at h; cases h
    | ok u => rfl
  · intro hr
    obtain ⟨D, ps, sc, -, -, -, h1, h2, -, -, -, -, -, h5, -⟩ :=
      scriptFit_ok (L := L) (rng := rng) (p := scriptParams cpu weights) rfl rfl hr
    refine ⟨sc, ?_⟩
    rw [hr, h1, h2]
    simp [h5, Except.map]

theorem r2Column_of {y qs : List K} (h1 : qs.length = y.length) (h0 : 0 < qs.length) :
    ∃ w, r2Column y qs = .ok w ∧ (2 ≤ y.length →
      w = some (R2Of y.length (fun k => y.getD k 0) fun k => qs.getD k 0)) ∧
      (y.length = 1 → w = none) := by
  by_cases h : qs.length = 1
  · refine ⟨none, ?_, fun h2 => by omega, fun _ => rfl⟩
    unfold r2Column
    rw [if_neg (by omega), if_pos h]
  · have hs : ∃ v, skR2 y qs = .ok v := by
      unfold skR2
      rw [if_neg h, if_neg (by omega)]
      exact ⟨_, rfl⟩
    obtain ⟨v, hv⟩ := hs
    refine ⟨some v, ?_, fun _ => ?_, fun h2 => by omega⟩
    · unfold r2Column
      rw [if_neg (by omega), if_neg h, hv]
      rfl
    · rw [skR2_lists hv]

/-- C151: `STST_fit.py` runs through exactly if the fit does, and then it prints the same number
twice (`nan` twice for a single observation). -/
theorem C151_stacking (L : Learner K F) (M Mn : Learner K G) (rng : Rng S) (hrng : rng.Valid)
    (p : SParams K (Mat K)) (hrate : p.sampleRate = none) (X : Mat K) (y : List K)
    (points Z : Mat K) (s : S) (hZ : besideCols X points = .ok Z) :
    ((∃ r, stackScript L M Mn rng p X y points s = .ok r) ↔
      (stackFit L M Mn rng p {} s Z y (some points) none).result = .ok ()) ∧
    ∀ st s' a b, stackScript L M Mn rng p X y points s = .ok (st, s', a, b) →
      st = (stackFit L M Mn rng p {} s Z y (some points) none).state ∧ a = b ∧
      a = st.stackScore ∧ ∃ qs, st.stackPredictions = some qs ∧ qs.length = X.r ∧
        (2 ≤ X.r → a = some (R2Of X.r (fun k => y.getD k 0) fun k => qs.getD k 0)) := by
  obtain ⟨-, hZr, -⟩ := besideCols_row hZ
  unfold stackScript
  rw [hZ]
  simp only
  cases hr : (stackFit L M Mn rng p {} s Z y (some points) none).result with
  | error e =>
    refine ⟨⟨fun ⟨r, h⟩ => by simp at h, fun h => by cases h⟩, fun st s' a b h => ?_⟩
    simp at h
  | ok u =>
  cases u
  have hrec := C87_attributes L M Mn rng hrng p {} s Z y (some points) none
    (fun r h => by rw [hrate] at h; cases h) hr
  obtain ⟨qs, hq, hql, hq2, hq1⟩ := hrec.stacked
  have hck : Z.r = y.length ∧ 0 < Z.r := by
    obtain ⟨W0, rate, hc, -⟩ := stackFit_ok hr
    simp only [checkXy, decide_eq_true_eq] at hc
    exact ⟨hc.1, hc.2.1⟩
  obtain ⟨w, hw, hw2, hw1⟩ := r2Column_of (y := y) (qs := qs) (by omega) (by omega)
  have heq : (stackFit L M Mn rng p {} s Z y (some points) none).state.stackScore = w := by
    by_cases h1 : Z.r = 1
    · rw [hq1 h1, hw1 (by omega)]
    · rw [hq2 (by omega), hw2 (by omega), hck.1]
  rw [hq]
  simp only [hw, Except.map]
  refine ⟨⟨fun _ => trivial, fun _ => ⟨_, rfl⟩⟩, fun st s' a b h => ?_⟩
  simp only [Except.ok.injEq, Prod.mk.injEq] at h
  obtain ⟨rfl, rfl, rfl, rfl⟩ := h
  refine ⟨rfl, heq, rfl, qs, hq, by omega, fun h2 => ?_⟩
  rw [hq2 (by omega), hZr]

/-- What `predict_by_fit` of a stacking model returns does not depend on the object it is called on:
neither on an earlier fit nor on the random state. -/
theorem C151_predict_fresh (L : Learner K F) (M : Learner K G) {C : Type} (p : SParams K C)
    (st st' : SState K F G C) (s s' : S) (X : Mat K) (y : List K) (train : C) (Xp : Mat K) (test : C) :
    (stackPredictByFit L M p st s X y train Xp test).result =
      (stackPredictByFit L M p st' s' X y train Xp test).result := by
  unfold stackPredictByFit
  split
  swap
  · rfl
  simp only
  cases p.weights train train with
  | error e => rfl
  | ok W =>
  simp only
  cases p.weights train test with
  | error e => rfl
  | ok T =>
  simp only
  split
  · rfl
  cases runBase (baseDense L X (fun i => y.getD i 0)
    (localDense p.leaveLocalOut W ⟨W.r, W.c, fun _ _ => false⟩)
    (secondOrderDense (gt0 T).transpose (gt0 T))) X.r p.storedPatches with
  | error e => rfl
  | ok res =>
  simp only [stackBase]
  cases r2Column y (res.map BaseOut.pred) with
  | error e => rfl
  | ok sc =>
  simp only
  cases testStage L M p X.r (fun i => y.getD i 0) Xp T
    (secondOrderDense (gt0 T).transpose (gt0 T)) res <;> rfl

/-- C151: the score `predict.py` computes on the second sample is the one a new object would give
that was never fitted: the fit before it only decides whether the script gets that far. -/
theorem C151_predict (L : Learner K F) (M Mn : Learner K G) (rng : Rng S) (p : SParams K (Mat K))
    (X : Mat K) (y : List K) (points Xt : Mat K) (yt : List K) (pointst Z Zt : Mat K) (s s' : S)
    (hZ : besideCols X points = .ok Z) (hZt : besideCols Xt pointst = .ok Zt)
    (st : SState K F G (Mat K)) :
    (∀ v, predictScript L M Mn rng p X y points Xt yt pointst s = .ok v →
      ∃ ps, (stackPredictByFit L M p st s' Z y points Zt pointst).result = .ok ps ∧
        ps.length = yt.length ∧ (2 ≤ yt.length →
          v = some (R2Of yt.length (fun k => yt.getD k 0) fun k => ps.getD k 0))) ∧
    ∀ r, stackScript L M Mn rng p X y points s = .ok r →
      ∀ ps, (stackPredictByFit L M p st s' Z y points Zt pointst).result = .ok ps →
        predictScript L M Mn rng p X y points Xt yt pointst s = r2Column yt ps := by
  unfold predictScript
  cases hs : stackScript L M Mn rng p X y points s with
  | error e => exact ⟨fun v h => (by cases h), fun r h => (by cases h)⟩
  | ok r =>
  obtain ⟨st0, s0, a, b⟩ := r
  simp only [hZ, hZt]
  rw [C151_predict_fresh L M p st0 st s0 s']
  cases hp : (stackPredictByFit L M p st s' Z y points Zt pointst).result with
  | error e => exact ⟨fun v h => (by cases h), fun r _ ps h => (by cases h)⟩
  | ok ps =>
  refine ⟨fun v h => ?_, fun r _ qs hq => by cases hq; rfl⟩
  obtain ⟨h1, -, h3⟩ := r2Column_spec h
  exact ⟨ps, rfl, h1.symm, fun h2 => h3 (by omega)⟩

/-- C151: the two alternatives the script mentions for a `WeightModel` need caches that its
constructor call does not switch on: both methods refuse, for any test sample. -/
theorem C151_alternatives (L : Learner K F) (cpu : Nat)
    (weights : Mat K → Mat K → Except Err (Mat K)) (st : WMState K F (Mat K)) (Zt pointst : Mat K) :
    predictByFit L (scriptParams cpu weights) st Zt (some pointst) none = .error .exception ∧
    predictByWeight L (scriptParams cpu weights) st Zt (some pointst) none = .error .exception :=
  ⟨(C45_caches_required L (scriptParams cpu weights) st Zt (some pointst) none).2 rfl,
    (C45_caches_required L (scriptParams cpu weights) st Zt (some pointst) none).1 (.inl rfl)⟩

/-- The model of `stale.py`. -/
abbrev staleParams (cpu : Nat) (weights : Mat K → Mat K → Except Err (Mat K)) :
    WMParams K (Mat K) :=
  { scriptParams cpu weights with cacheData := true, cacheEstimator := true }

/-- C151: the curves drawn by `stale.py`, one per location, are those of `local_ALE(0)`; if one
fails, so does the other, with the same error. -/
theorem C151_stale_curves (L : Learner K F) (rng : Rng S) (cpu : Nat)
    (weights : Mat K → Mat K → Except Err (Mat K)) (X : Mat K) (y : List K) (points : Mat K) (s : S)
    (hok : (wmFit L rng (staleParams cpu weights) {} s X y (some points) none).result = .ok ()) :
    (staleScript L rng cpu weights X y points s).map (List.map StalePanel.curve) =
      localAle L (wmFit L rng (staleParams cpu weights) {} s X y (some points) none).state 0 := by
  obtain ⟨D, ps, sc, hD, hyl, hXc, -, -, hN, -, hW, hB, ⟨es, hes, hel⟩, -⟩ :=
    scriptFit_ok (L := L) (rng := rng) (p := staleParams cpu weights) rfl rfl hok
  obtain ⟨hX, -, -⟩ := fit_cached (p := staleParams cpu weights) rfl hok
  unfold staleScript localAle
  simp only [hok, hN, hes, hX, hW, hB]
  rw [hel]
  have key : ∀ i ∈ List.range X.r,
      (stalePanel L (wmFit L rng (staleParams cpu weights) {} s X y (some points) none).state X y
        i).map StalePanel.curve =
      localAleOne L X ⟨D.r, D.c, fun i j => if i = j then 0 else D.get i j⟩
        (gt0 ⟨D.r, D.c, fun i j => if i = j then 0 else D.get i j⟩) 0 i (es.getD i none) := by
    intro i hi
    have hi := List.mem_range.1 hi
    unfold stalePanel localAleOne
    simp only [hes, hX, hW, hB]
    by_cases hbad : (gt0 (⟨D.r, D.c, fun i j => if i = j then 0 else D.get i j⟩ : Mat K)).r ≤ i ∨
        D.r ≤ i ∨ (gt0 (⟨D.r, D.c, fun i j => if i = j then 0 else D.get i j⟩ : Mat K)).c ≠ D.c ∨
        (gt0 (⟨D.r, D.c, fun i j => if i = j then 0 else D.get i j⟩ : Mat K)).c ≠ X.r
    · rw [if_pos (.inr hbad), if_pos hbad]
      rfl
    · rw [if_neg (by rintro (h | h); exact absurd h (by omega); exact hbad h), if_neg hbad]
      cases es.getD i none with
      | none => rfl
      | some f =>
        simp only
        cases weightedAle (maskRows X (trueIdx (gt0 (⟨D.r, D.c, fun i j => if i = j then 0 else
          D.get i j⟩ : Mat K)) i)) 0 (L.predict f) (some ((trueIdx (gt0 (⟨D.r, D.c, fun i j =>
          if i = j then 0 else D.get i j⟩ : Mat K)) i).map fun j => if i = j then 0 else
          D.get i j)) false 5 with
        | error e => rfl
        | ok c =>
          simp only
          rw [if_neg]
          · rfl
          · have := not_or.1 (not_or.1 (not_or.1 hbad).2).2
            have h2 := not_not.1 this.2
            rw [h2]
            omega
  clear hok hN hes hX hW hB
  generalize (wmFit L rng (staleParams cpu weights) {} s X y (some points) none).state = st at key ⊢
  revert key
  generalize List.range X.r = l
  intro key
  induction l with
  | nil => rfl
  | cons a l ih =>
    have ha := key a (by simp)
    have ih := ih fun i hi => key i (by simp [hi])
    simp only [mapE] at ih ⊢
    rw [← ha, ← ih]
    cases stalePanel L st X y a with
    | error e => rfl
    | ok q =>
      simp only [Except.map]
      cases mapE (stalePanel L st X y) l <;> rfl

/-- C151: each figure of `stale.py` shows, beside the curve, exactly the other observations with
positive weight for the location, in order, coloured by their weight, and the location itself. -/
theorem C151_stale_points (L : Learner K F) (rng : Rng S) (cpu : Nat)
    (weights : Mat K → Mat K → Except Err (Mat K)) (X : Mat K) (y : List K) (points : Mat K) (s : S)
    (panels : List (StalePanel K)) (h : staleScript L rng cpu weights X y points s = .ok panels) :
    panels.length = X.r ∧ ∃ D, weights points points = .ok D ∧ ∀ i < X.r, ∃ q, panels[i]? = some q ∧
      let nb := (List.range X.r).filter fun j => decide (j ≠ i ∧ 0 < D.get i j)
      q.xs = nb.map (fun j => X.get j 0) ∧ q.ys = nb.map (fun j => y.getD j 0) ∧
      q.ws = nb.map (D.get i) ∧ q.own = (X.get i 0, y.getD i 0) := by
  unfold staleScript at h
  simp only at h
  cases hr : (wmFit L rng (staleParams cpu weights) {} s X y (some points) none).result with
  | error e => rw [hr] at h; cases h
  | ok u =>
  cases u
  obtain ⟨D, ps, sc, hD, -, -, -, -, hN, -, hW, hB, ⟨es, hes, -⟩, -, hDc, -⟩ :=
    scriptFit_ok (L := L) (rng := rng) (p := staleParams cpu weights) rfl rfl hr
  obtain ⟨hX, -, -⟩ := fit_cached (p := staleParams cpu weights) rfl hr
  rw [hr, hN] at h
  have hl := mapE_length h
  rw [List.length_range] at hl
  refine ⟨hl, D, hD, fun i hi => ?_⟩
  have hg := mapE_get h (i := i) (by rwa [List.length_range])
  simp only [List.getElem_range] at hg
  refine ⟨panels[i], by rw [List.getElem?_eq_getElem (by omega)], ?_⟩
  generalize panels[i] = q at hg
  unfold stalePanel at hg
  simp only [hes, hX, hW, hB] at hg
  split at hg
  · cases hg
  split at hg
  · cases hg
  split at hg
  · cases hg
  split at hg
  · cases hg
  cases hg
  have hnb : trueIdx (gt0 (⟨D.r, D.c, fun i j => if i = j then 0 else D.get i j⟩ : Mat K)) i =
      (List.range X.r).filter fun j => decide (j ≠ i ∧ 0 < D.get i j) := by
    unfold trueIdx
    rw [show (gt0 (⟨D.r, D.c, fun i j => if i = j then 0 else D.get i j⟩ : Mat K)).c = X.r from hDc]
    apply List.filter_congr
    intro j _
    simp only [gt0, Mat.map]
    by_cases hij : i = j
    · subst hij
      simp
    · simp [hij, Ne.symm hij]
  simp only [hnb, true_and]
  refine ⟨?_, trivial⟩
  apply List.map_congr_left
  intro j hj
  have := (of_decide_eq_true (List.mem_filter.1 hj).2).1
  simp [Ne.symm this]

/-- The hypotheses are met: the scripts run through on four and three points; the fitting scripts
print one number twice. -/
example :
    okAnd (fitScript meanLearner rotRng 2 exHeldNear seX seY ⟨4, 1, fun i _ => i⟩ 0)
      (fun r => decide (r.1 = r.2 ∧ r.1 ≠ 1)) = true := by decide +kernel

example :
    okAnd (stackScript meanLearner meanLearner meanLearner rotRng exRobust.stack seX seY
      ⟨4, 1, fun i _ => i⟩ 0) (fun r => decide (r.2.2.1 = r.2.2.2 ∧ r.2.2.1 ≠ none)) = true ∧
    okAnd (predictScript meanLearner meanLearner meanLearner rotRng exRobust.stack seX seY
      ⟨4, 1, fun i _ => i⟩ ⟨3, 1, fun i _ => i + 5⟩ [1, 2, 4] ⟨3, 1, fun i _ => i⟩ 0)
      (fun v => v.isSome) = true := by decide +kernel

/-- Eight points: the first figure shows the seven others with their weights. -/
example :
    okAnd (staleScript meanLearner rotRng 2 exHeldNear ⟨8, 1, fun i _ => i⟩ [0, 1, 4, 9, 16, 25, 36, 49]
      ⟨8, 1, fun i _ => i⟩ 0) (fun l => decide (l.length = 8 ∧ (l.map StalePanel.ws).getD 0 [] =
        [1 / 2, 1 / 3, 1 / 4, 1 / 5, 1 / 6, 1 / 7, 1 / 8] ∧
        (l.map fun q => q.curve.1).getD 0 [] = [1, 7])) = true := by decide +kernel

end Geo
