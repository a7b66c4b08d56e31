import Verif.Props.WeightModelPredict
/-
C107: predicting again at the training points. `local_predict_` holds, for every training location,
the prediction of the local model fitted with that location's row of the weight matrix.
`predict_by_fit` on the training data repeats this with the *transposed* weights
(`weight_model.py:449-456`), and without leaving out the location itself.
-/
set_option linter.unusedSectionVars false
namespace Geo
variable {K : Type} [Field K] [LinearOrder K] [IsStrictOrderedRing K] [FloorRing K]
variable {F C S : Type}

/-- `predict_by_fit` with given weights, once the training data are cached. -/
theorem predictByFit_eq {L : Learner K F} {p : WMParams K C} {st : WMState K F C} {Xt : Mat K}
    {yt : List K} (hd : p.cacheData = true) (hcpu : 0 < p.cpu) (hX : st.X = some Xt)
    (hy : st.y = some yt) (X W : Mat K) (c : C) :
    predictByFit L p st X (some c) (some W) =
      (mapE (locTask L Xt (yfun yt) X (.dense W) X.r) (List.range W.r)).map (List.map Prod.fst) := by
  unfold predictByFit
  rw [if_neg (by simp [hd])]
  simp only [guard, bind, Except.bind, predictFitWeights, cachedData, hX, hy]
  have hf : fitAll L Xt (fun i => yt.getD i 0) (some X) (.dense W) X.r none none none p.cpu =
      mapE (locTask L Xt (yfun yt) X (.dense W) X.r) (List.range W.r) := by
    unfold fitAll
    simp only [Option.getD_none, Option.getD_some]
    exact runPatches_eq _ _ (by omega)
  rw [hf]
  cases mapE (locTask L Xt (yfun yt) X (.dense W) X.r) (List.range W.r) <;> rfl

theorem sampleLocations_all {rng : Rng S} {s s' : S} {N : Nat} {idx : List Nat}
    (h : sampleLocations rng s (none : Option K) N = (.ok idx, s')) : idx = List.range N := by
  simp only [sampleLocations, Prod.mk.injEq, Except.ok.injEq] at h
  exact h.1.symm

theorem stateBegin_cached {p : WMParams K C} {st : WMState K F C} {X : Mat K} {y : List K}
    {coords : Option C} {W : Option (WMat K)} {W0 : WMat K} (hd : p.cacheData = true)
    (h : chosenWeights p coords W = .ok W0) :
    (stateBegin p st X y coords W).X = some X ∧ (stateBegin p st X y coords W).y = some y ∧
      (stateBegin p st X y coords W).coords = coords := by
  have : (coords.isNone && W.isNone) = false := by
    cases coords <;> cases W <;> first | rfl | cases h
  unfold stateBegin
  simp [this, hd]

theorem fit_cached {L : Learner K F} {rng : Rng S} {p : WMParams K C} {st : WMState K F C} {s : S}
    {X : Mat K} {y : List K} {coords : Option C} {W : Option (WMat K)} (hd : p.cacheData = true)
    (hok : (wmFit L rng p st s X y coords W).result = .ok ()) :
    (wmFit L rng p st s X y coords W).state.X = some X ∧
    (wmFit L rng p st s X y coords W).state.y = some y ∧
    (wmFit L rng p st s X y coords W).state.coords = coords := by
  obtain ⟨W0, idx, s', res, score, -, hW0, -, -, -, -, -, hout⟩ := wmFit_ok hok
  obtain ⟨h1, h2, h3⟩ := stateBegin_cached (st := st) (X := X) (y := y) hd hW0
  rw [hout]
  exact ⟨h1, h2, h3⟩

/-- C107: the weights the model was fitted with, handed to `predict_by_fit` (together with any
coordinates, which are ignored), reproduce `local_predict_`. -/
theorem C107_fitted_weights_reproduce (L : Learner K F) (rng : Rng S) (p : WMParams K C)
    (st : WMState K F C) (s : S) (X : Mat K) (y : List K) (coords : Option C) (W : Option (WMat K))
    (hd : p.cacheData = true) (hcpu : 0 < p.cpu) (hs : p.sampleRate = none)
    (hok : (wmFit L rng p st s X y coords W).result = .ok ()) (D : Mat K)
    (hD : (wmFit L rng p st s X y coords W).state.weightMatrix = some (.dense D))
    (hDr : D.r = X.r) (c : C) :
    ∃ ps, (wmFit L rng p st s X y coords W).state.localPredict = some ps ∧
      predictByFit L p (wmFit L rng p st s X y coords W).state X (some c) (some D) = .ok ps := by
  obtain ⟨W0, idx, s', res, score, -, hW0, hsl, hf, hl, -, -, hout⟩ := wmFit_ok hok
  have hal := aligned_of hW0 hsl (.inr (.inl hs))
  rw [hs] at hsl
  have hidx := sampleLocations_all hsl
  subst hidx
  have hm := fitAll_ok hf hal hl
  obtain ⟨h1, h2, -⟩ := fit_cached hd hok
  refine ⟨res.map Prod.fst, by rw [hout], ?_⟩
  rw [predictByFit_eq hd hcpu h1 h2, hDr]
  rw [hout] at hD
  simp only [Option.some.injEq] at hD
  rw [hD] at hm
  rw [hm]
  rfl

/-- C107: `predict_by_fit` at the training points is the prediction of local models fitted with
the transposed weights: in the model of location `i`, training row `j` has the weight that
location `i` has in the normalised row of `j`, and row `i` itself takes part, whether or not
`leave_local_out` was set. -/
theorem C107_transposed (L : Learner K F) (rng : Rng S) (p : WMParams K C) (st : WMState K F C)
    (s : S) (X : Mat K) (y : List K) (c : C) (hd : p.cacheData = true) (hcpu : 0 < p.cpu)
    (hok : (wmFit L rng p st s X y (some c) none).result = .ok ()) (D : Mat K)
    (hD : p.weights c c = .ok D) (hDr : D.r = X.r) (hDc : D.c = X.r) (ps : List K)
    (h : predictByFit L p (wmFit L rng p st s X y (some c) none).state X (some c) none = .ok ps) :
    ps.length = X.r ∧ ∀ i < X.r, ∃ f,
      L.fit i (((List.range X.r).filter fun j => decide (D.get j i ≠ 0)).map X.row)
        (((List.range X.r).filter fun j => decide (D.get j i ≠ 0)).map fun j => y.getD j 0)
        (((List.range X.r).filter fun j => decide (D.get j i ≠ 0)).map fun j => D.get j i) = .ok f ∧
      ps[i]? = some (L.predict f (X.row i)) := by
  obtain ⟨h1, h2, h3⟩ := fit_cached hd hok
  have h0 : predictByFit L p (wmFit L rng p st s X y (some c) none).state X (some c) none =
      predictByFit L p (wmFit L rng p st s X y (some c) none).state X (some c)
        (some D.transpose) := by
    unfold predictByFit
    simp only [guard, predictFitWeights, h3, hD, Except.map]
  rw [h0, predictByFit_eq hd hcpu h1 h2] at h
  have hTr : D.transpose.r = X.r := hDc
  rw [hTr] at h
  cases hm : mapE (locTask L X (yfun y) X (.dense D.transpose) X.r) (List.range X.r) with
  | error e => rw [hm] at h; cases h
  | ok r =>
  rw [hm] at h
  cases h
  have hlen := mapE_length hm
  rw [List.length_range] at hlen
  refine ⟨by rw [List.length_map, hlen], fun i hi => ?_⟩
  have hg := mapE_get hm (i := i) (by rwa [List.length_range])
  simp only [List.getElem_range] at hg
  rw [locTask_eq (W := .dense D.transpose) ⟨hi, show i < D.transpose.r by omega, hi⟩] at hg
  simp only [denseTask] at hg
  rw [if_neg (by rw [show D.transpose.c = D.r from rfl, hDr]; simp)] at hg
  unfold fitLocal at hg
  have hnz : nonzeroIdx D.transpose.c (D.transpose.get i) =
      (List.range X.r).filter fun j => decide (D.get j i ≠ 0) := by
    rw [← hDr]
    rfl
  rw [hnz] at hg
  cases hfit : L.fit i (((List.range X.r).filter fun j => decide (D.get j i ≠ 0)).map X.row)
      (((List.range X.r).filter fun j => decide (D.get j i ≠ 0)).map (yfun y))
      (((List.range X.r).filter fun j => decide (D.get j i ≠ 0)).map (D.transpose.get i)) with
  | error e => rw [hfit] at hg; cases hg
  | ok f =>
  rw [hfit] at hg
  have hg := Except.ok.inj hg
  have hi' : i < r.length := by omega
  refine ⟨f, hfit, ?_⟩
  rw [List.getElem?_eq_getElem (by simpa using hi')]
  simp only [List.getElem_map]
  exact congrArg (fun v => some v.1) hg.symm

/-- C107: so `predict_by_fit` at the training points does reproduce `local_predict_` when the
locations are not left out and the normalised weights happen to be symmetric. -/
theorem C107_symmetric (L : Learner K F) (rng : Rng S) (p : WMParams K C) (st : WMState K F C)
    (s : S) (X : Mat K) (y : List K) (c : C) (hd : p.cacheData = true) (hcpu : 0 < p.cpu)
    (hs : p.sampleRate = none) (hlo : p.leaveLocalOut = false)
    (hok : (wmFit L rng p st s X y (some c) none).result = .ok ()) (D : Mat K)
    (hD : p.weights c c = .ok D) (hDr : D.r = X.r) (hDc : D.c = X.r)
    (hsym : ∀ i < X.r, ∀ j < X.r, D.get i j = D.get j i) :
    ∃ ps, (wmFit L rng p st s X y (some c) none).state.localPredict = some ps ∧
      predictByFit L p (wmFit L rng p st s X y (some c) none).state X (some c) none = .ok ps := by
  obtain ⟨W0, idx, s', res, score, -, hW0, hsl, hf, hl, -, -, hout⟩ := wmFit_ok hok
  have hW0' : W0 = .dense D := by
    simp only [chosenWeights, hD, Except.map, Except.ok.injEq] at hW0
    exact hW0.symm
  have hWm : (wmFit L rng p st s X y (some c) none).state.weightMatrix = some (.dense D) := by
    rw [hout]
    simp only [leaveOut, hlo, hW0']
    rfl
  obtain ⟨ps, hps, hp⟩ := C107_fitted_weights_reproduce L rng p st s X y (some c) none hd hcpu hs hok
    D hWm hDr c
  refine ⟨ps, hps, ?_⟩
  rw [← hp]
  obtain ⟨h1, h2, h3⟩ := fit_cached hd hok
  have h0 : predictByFit L p (wmFit L rng p st s X y (some c) none).state X (some c) none =
      predictByFit L p (wmFit L rng p st s X y (some c) none).state X (some c)
        (some D.transpose) := by
    unfold predictByFit
    simp only [guard, predictFitWeights, h3, hD, Except.map]
  rw [h0, predictByFit_eq hd hcpu h1 h2, predictByFit_eq hd hcpu h1 h2]
  refine congrArg (Except.map (List.map Prod.fst)) ?_
  rw [show D.transpose.r = D.r by rw [hDr]; exact hDc]
  apply mapE_congr
  intro i hi
  have hi : i < X.r := by rw [← hDr]; simpa using hi
  rw [locTask_eq (W := .dense D.transpose) ⟨hi, hi.trans_eq hDc.symm, hi⟩,
    locTask_eq (W := .dense D) ⟨hi, hi.trans_eq hDr.symm, hi⟩]
  simp only [denseTask]
  rw [if_neg (by rw [show D.transpose.c = D.r from rfl, hDr]; simp), if_neg (by rw [hDc]; simp)]
  have hcol : ∀ j < X.r, D.transpose.get i j = D.get i j := fun j hj => hsym j hj i hi
  have hidx : nonzeroIdx D.transpose.c (D.transpose.get i) = nonzeroIdx D.c (D.get i) := by
    rw [show D.transpose.c = D.c from hDr.trans hDc.symm]
    unfold nonzeroIdx
    apply List.filter_congr
    intro j hj
    rw [List.mem_range, hDc] at hj
    rw [hcol j hj]
  rw [hidx]
  have hws : (nonzeroIdx D.c (D.get i)).map (D.transpose.get i) =
      (nonzeroIdx D.c (D.get i)).map (D.get i) := by
    apply List.map_congr_left
    intro j hj
    exact hcol j ((mem_nonzeroIdx.1 hj).1.trans_eq hDc)
  rw [hws]

/-- Two places of equal standing: the weights are symmetric. -/
def exPair : List (Mat ℚ) := [⟨2, 1, fun i _ => i⟩]

/-- The hypotheses of `C107_symmetric` are met. -/
example :
    (wmFit meanLearner countRng { exPc with leaveLocalOut := false } {} 0 ⟨2, 1, fun i _ => i⟩ [1, 5]
      (some exPair) none).result = .ok () ∧
    okAnd (exSource exPair exPair) (fun M => M.r == 2 && M.c == 2 && decide (M.get 0 1 ≠ 0) &&
      decide (M.get 0 1 = M.get 1 0)) = true := ⟨by decide +kernel, by decide +kernel⟩

/-- C107: leaving out the locations is enough for the two to differ, even with symmetric weights:
`predict_by_fit` uses the observation of the point it predicts. -/
theorem C107_not_left_out_again :
    okAnd (predictByFit meanLearner exPc
      (wmFit meanLearner countRng exPc {} 0 ⟨2, 1, fun i _ => i⟩ [1, 5] (some exPair) none).state
      ⟨2, 1, fun i _ => i⟩ (some exPair) none) (fun ps => decide (some ps ≠
        (wmFit meanLearner countRng exPc {} 0 ⟨2, 1, fun i _ => i⟩ [1, 5]
          (some exPair) none).state.localPredict)) = true := by decide +kernel

/-- C107: and so is the transposition, without leaving anything out: on five places on a line with a
fixed bandwidth both calls succeed and the values differ, while the fitted weights given
explicitly reproduce them. -/
theorem C107_differs :
    let p := { exPc with leaveLocalOut := false }
    let st := (wmFit meanLearner countRng p {} 0 exX5 exY5 (some exTrain) none).state
    (wmFit meanLearner countRng p {} 0 exX5 exY5 (some exTrain) none).result = .ok () ∧
    okAnd (predictByFit meanLearner p st exX5 (some exTrain) none)
      (fun ps => decide (some ps ≠ st.localPredict) && ps.length == 5) = true ∧
    okAnd (exSource exTrain exTrain) (fun M =>
      okAnd (predictByFit meanLearner p st exX5 (some exTrain) (some M))
        fun ps => decide (some ps = st.localPredict)) = true := by
  refine ⟨by decide +kernel, by decide +kernel, by decide +kernel⟩

end Geo
