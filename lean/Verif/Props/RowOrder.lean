import Verif.Props.TargetUnits
import Verif.Props.DistancePoints
import Verif.Props.WeightModelPredict
set_option linter.unusedSectionVars false
/-
The order in which the observations are passed to `WeightModel.fit`.
-/
namespace Geo
variable {K : Type} [Field K] [LinearOrder K] [IsStrictOrderedRing K] [FloorRing K]
  {F C S : Type}

/-- A regressor that does not care about the order of its training rows, and whose clones are all
alike: any two clones fitted on the same rows (with their targets and weights) in two orders both
raise, or predict the same. -/
def OrderFree (L : Learner K F) : Prop :=
  ∀ e e' (t t' : List (List K × K × K)), t.Perm t' →
    ∀ f, L.fit e (t.map fun r => r.1) (t.map fun r => r.2.1) (t.map fun r => r.2.2) = .ok f →
    ∃ f', L.fit e' (t'.map fun r => r.1) (t'.map fun r => r.2.1) (t'.map fun r => r.2.2) = .ok f' ∧
      ∀ x, L.predict f' x = L.predict f x

/-- Rows and columns in a new order. -/
def relabel {α : Type} (σ : Nat → Nat) (A : Mat α) : Mat α :=
  ⟨A.r, A.c, fun i j => A.get (σ i) (σ j)⟩

theorem PermBelow.filter_perm {σ : Nat → Nat} {n : Nat} (h : PermBelow σ n) (q : Nat → Bool) :
    (((List.range n).filter fun j => q (σ j)).map σ).Perm ((List.range n).filter q) := by
  have : ((List.range n).filter fun j => q (σ j)).map σ = ((List.range n).map σ).filter q := by
    rw [List.filter_map]
    rfl
  rw [this]
  exact h.range_perm.filter q

/-- The task of a location after relabelling. -/
theorem denseTask_relabel {L : Learner K F} (hL : OrderFree L) {X : Mat K} {y : List K}
    {D D' : Mat K} {σ : Nat → Nat} (hσ : PermBelow σ X.r) (hc : D.c = X.r) (hc' : D'.c = X.r)
    (hy : y.length = X.r) {i : Nat} (hD : ∀ j < X.r, D'.get i j = D.get (σ i) (σ j))
    {v : K × F} (h : denseTask L X (yfun y) X D (σ i) (σ i) = .ok v) :
    ∃ v', denseTask L (selRows σ X.r X) (yfun ((List.range X.r).map fun k => y.getD (σ k) 0))
      (selRows σ X.r X) D' i i = .ok v' ∧ v'.1 = v.1 := by
  unfold denseTask at h ⊢
  rw [if_neg (not_not.2 hc)] at h
  rw [if_neg (not_not.2 (show D'.c = (selRows σ X.r X).r from hc'))]
  unfold fitLocal at h ⊢
  simp only at h ⊢
  set T := nonzeroIdx D.c (D.get (σ i)) with hT
  set T' := nonzeroIdx D'.c (D'.get i) with hT'
  have hlt : ∀ j ∈ T', j < X.r := fun j hj => by
    have := (mem_nonzeroIdx.1 hj).1
    omega
  have hperm : (T'.map σ).Perm T := by
    have h1 : T' = (List.range X.r).filter fun j => decide (D.get (σ i) (σ j) ≠ 0) := by
      rw [hT', hc']
      unfold nonzeroIdx
      apply List.filter_congr
      intro j hj
      rw [hD j (List.mem_range.1 hj)]
    rw [h1, hT, hc]
    exact hσ.filter_perm fun k => decide (D.get (σ i) k ≠ 0)
  have hperm2 := (hperm.map fun k => (X.row k, y.getD k 0, D.get (σ i) k)).symm
  have e1 : T'.map (selRows σ X.r X).row =
      ((T'.map σ).map fun k => (X.row k, y.getD k 0, D.get (σ i) k)).map fun r => r.1 := by
    simp only [List.map_map]
    rfl
  have e2 : (T'.map fun j => ((List.range X.r).map fun k => y.getD (σ k) 0).getD j 0) =
      ((T'.map σ).map fun k => (X.row k, y.getD k 0, D.get (σ i) k)).map fun r => r.2.1 := by
    simp only [List.map_map]
    refine List.map_congr_left fun j hj => ?_
    simp [List.getD_eq_getElem?_getD, hlt j hj]
  have e3 : T'.map (D'.get i) =
      ((T'.map σ).map fun k => (X.row k, y.getD k 0, D.get (σ i) k)).map fun r => r.2.2 := by
    simp only [List.map_map]
    exact List.map_congr_left fun j hj => hD j (hlt j hj)
  rw [e1, e2, e3]
  have e4 : T.map X.row = (T.map fun k => (X.row k, y.getD k 0, D.get (σ i) k)).map fun r => r.1 := by
    simp only [List.map_map]
    rfl
  have e5 : T.map (yfun y) =
      (T.map fun k => (X.row k, y.getD k 0, D.get (σ i) k)).map fun r => r.2.1 := by
    simp only [List.map_map]
    rfl
  have e6 : T.map (D.get (σ i)) =
      (T.map fun k => (X.row k, y.getD k 0, D.get (σ i) k)).map fun r => r.2.2 := by
    simp only [List.map_map]
    rfl
  rw [e4, e5, e6] at h
  cases hf : L.fit (σ i) ((T.map fun k => (X.row k, y.getD k 0, D.get (σ i) k)).map fun r => r.1)
      ((T.map fun k => (X.row k, y.getD k 0, D.get (σ i) k)).map fun r => r.2.1)
      ((T.map fun k => (X.row k, y.getD k 0, D.get (σ i) k)).map fun r => r.2.2) with
  | error e => rw [hf] at h; cases h
  | ok f =>
    rw [hf] at h
    cases h
    obtain ⟨f', h1, h2⟩ := hL (σ i) i _ _ hperm2 f hf
    rw [h1]
    exact ⟨_, rfl, h2 _⟩

/-- Success of all locations is success of `_fit` whenever another run with the same options
succeeded. -/
theorem fitAll_transfer {L L' : Learner K F} {X X' : Mat K} {y y' : Nat → K} {W W' : WMat K}
    {n : Nat} {idx : List Nat} {nJobs nPatches : Option ℤ} {cpu : Nat} {res res' : List (K × F)}
    (h : fitAll L X y (some X) W n (some idx) nJobs nPatches cpu = .ok res)
    (h' : mapE (locTask L' X' y' X' W' n) idx = .ok res') (hne : idx ≠ [])
    (hal : Aligned nJobs W' idx) :
    fitAll L' X' y' none W' n (some idx) nJobs nPatches cpu = .ok res' := by
  have hx : fitAll L' X' y' none W' n (some idx) nJobs nPatches cpu =
      fitAll L' X' y' (some X') W' n (some idx) nJobs nPatches cpu := rfl
  rw [hx]
  cases nJobs with
  | none =>
    unfold fitAll at h ⊢
    simp only [Option.getD_some] at h ⊢
    cases nPatches with
    | none =>
      simp only at h ⊢
      have hn : 0 < (cpu : ℤ) := by
        by_contra hn
        unfold runPatches at h
        rw [if_pos (by omega)] at h
        cases h
      rw [runPatches_eq _ _ hn, h']
    | some m =>
      simp only at h ⊢
      have hn : 0 < m := by
        by_contra hn
        unfold runPatches at h
        rw [if_pos (by omega)] at h
        cases h
      rw [runPatches_eq _ _ hn, h']
  | some j =>
    cases nPatches with
    | some m => cases h
    | none =>
      have hj : j ≠ 0 := by
        rintro rfl
        unfold fitAll at h
        simp at h
      exact fitAll_jobs hj h' hne hal

theorem skR2_perm {ys ps ys' ps' : List K} (hl : ys.length = ps.length)
    (hl' : ys'.length = ps'.length) (h : (ys'.zip ps').Perm (ys.zip ps)) :
    skR2 ys' ps' = skR2 ys ps := by
  have hps : ps'.Perm ps := by
    have := h.map Prod.snd
    rwa [List.map_snd_zip hl'.ge, List.map_snd_zip hl.ge] at this
  have hys : ys'.Perm ys := by
    have := h.map Prod.fst
    rwa [List.map_fst_zip hl'.le, List.map_fst_zip hl.le] at this
  unfold skR2
  simp only
  rw [hps.length_eq, hys.length_eq, (h.map fun e => (e.1 - e.2) ^ 2).sum_eq, hys.sum_eq,
    (hys.map fun y => (y - ys.sum / (ys.length : K)) ^ 2).sum_eq]

/-- C92: the order of the observations does not matter. Pass the observations in the order `σ`:
predictors, targets and both axes of the weight matrix (for weights computed from coordinates see
`C92_points`). With a regressor that does not care about the order of its training rows, the fit
succeeds if it succeeded before, the local predictions come out in the order `σ`, the residuals
too, and the R² is the same number. (All locations are fitted; `sample_local_rate` draws rows by
position.) -/
theorem C92_row_order (L : Learner K F) (hL : OrderFree L) (rng : Rng S) (p : WMParams K C)
    (hrate : p.sampleRate = none) (st : WMState K F C) (s : S) (X : Mat K) (y : List K)
    (coords coords' : Option C) (W W' : Option (WMat K)) (D : Mat K) (hr : D.r = X.r)
    (hc : D.c = X.r) (σ : Nat → Nat) (hσ : PermBelow σ X.r)
    (hW : chosenWeights p coords W = .ok (.dense D))
    (hW' : chosenWeights p coords' W' = .ok (.dense (relabel σ D)))
    (hok : (wmFit L rng p st s X y coords W).result = .ok ()) :
    let o := wmFit L rng p st s X y coords W
    let o' := wmFit L rng p st s (selRows σ X.r X) ((List.range X.r).map fun i => y.getD (σ i) 0)
      coords' W'
    o'.result = .ok () ∧ o'.rng = o.rng ∧ o'.state.score = o.state.score ∧
    ∃ ps rs, o.state.localPredict = some ps ∧ ps.length = X.r ∧
      o.state.residual = some rs ∧
      o'.state.localPredict = some ((List.range X.r).map fun i => ps.getD (σ i) 0) ∧
      o'.state.residual = some ((List.range X.r).map fun i => rs.getD (σ i) 0) := by
  intro o o'
  obtain ⟨W0, idx, s', res, sc, h1, h2, h3, h4, h5, h6, h7, h8⟩ := wmFit_ok hok
  rw [hW] at h2
  cases h2
  rw [hrate] at h3
  cases h3
  have hN : res.length = X.r := by simpa using h5
  have hck := of_decide_eq_true h1
  have hal : Aligned p.nJobs (leaveOut p (.dense D)) (List.range X.r) := .inr (.inr ⟨_, rfl⟩)
  have hm := fitAll_ok h4 hal h5
  obtain ⟨D1, hD1, hD1r, hD1c, hD1v⟩ : ∃ D1, leaveOut p (.dense D) = .dense D1 ∧ D1.r = X.r ∧
      D1.c = X.r ∧ ∀ D2, leaveOut p (.dense (relabel σ D)) = .dense D2 →
        D2.r = X.r ∧ D2.c = X.r ∧ ∀ i < X.r, ∀ j < X.r, D2.get i j = D1.get (σ i) (σ j) := by
    unfold leaveOut
    cases p.leaveLocalOut with
    | false =>
      refine ⟨D, rfl, hr, hc, fun D2 h => ?_⟩
      cases h
      exact ⟨hr, hc, fun _ _ _ _ => rfl⟩
    | true =>
      refine ⟨_, rfl, hr, hc, fun D2 h => ?_⟩
      cases h
      refine ⟨hr, hc, fun i hi j hj => ?_⟩
      simp only [relabel]
      by_cases hij : i = j
      · rw [if_pos hij, if_pos (by rw [hij])]
      · rw [if_neg hij, if_neg fun h => hij (hσ.2 i hi j hj h)]
  obtain ⟨D2, hD2⟩ : ∃ D2, leaveOut p (.dense (relabel σ D)) = .dense D2 := by
    unfold leaveOut
    split
    · exact ⟨_, rfl⟩
    · exact ⟨_, rfl⟩
  obtain ⟨hD2r, hD2c, hD2v⟩ := hD1v D2 hD2
  rw [hD1] at hm h4
  -- the tasks of the relabelled run
  have htask : ∀ i < X.r, ∃ v', locTask L (selRows σ X.r X)
      (yfun ((List.range X.r).map fun k => y.getD (σ k) 0)) (selRows σ X.r X) (.dense D2) X.r i =
        .ok v' ∧ v'.1 = (res.map Prod.fst).getD (σ i) 0 := by
    intro i hi
    have hs := hσ.1 i hi
    have ht := mapE_get hm (i := σ i) (by simpa using hs)
    simp only [List.getElem_range] at ht
    rw [locTask_eq (W := .dense D1) ⟨hs, show σ i < D1.r by omega, hs⟩] at ht
    obtain ⟨v', hv1, hv2⟩ := denseTask_relabel hL hσ hD1c hD2c hck.1.symm
      (fun j hj => hD2v i hi j hj) ht
    refine ⟨v', ?_, ?_⟩
    · rw [locTask_eq (W := .dense D2) (Xp := selRows σ X.r X) ⟨hi, show i < D2.r by omega, hi⟩]
      exact hv1
    · rw [hv2]
      simp [List.getD_eq_getElem?_getD, hN, hs]
  have hne0 : Nonempty (K × F) := by
    cases res with
    | nil => simp at hN; simp [← hN] at h6
    | cons a _ => exact ⟨a⟩
  choose! g hg1 hg2 using htask
  have hm' : mapE (locTask L (selRows σ X.r X)
      (yfun ((List.range X.r).map fun k => y.getD (σ k) 0)) (selRows σ X.r X) (.dense D2) X.r)
      (List.range X.r) = .ok ((List.range X.r).map g) :=
    mapE_of_forall fun i hi => hg1 i (List.mem_range.1 hi)
  have hne : List.range X.r ≠ [] := by
    intro h
    rw [h] at h6
    simp at h6
  have hfit := fitAll_transfer h4 hm' hne (.inr (.inr ⟨_, rfl⟩))
  have hps' : ((List.range X.r).map g).map Prod.fst =
      (List.range X.r).map fun i => (res.map Prod.fst).getD (σ i) 0 := by
    rw [List.map_map]
    exact List.map_congr_left fun i hi => hg2 i (List.mem_range.1 hi)
  have hys' : ((List.range X.r).map fun i =>
      ((List.range X.r).map fun k => y.getD (σ k) 0).getD i 0) =
      (List.range X.r).map fun i => y.getD (σ i) 0 := by
    refine List.map_congr_left fun i hi => ?_
    simp [List.getD_eq_getElem?_getD, List.mem_range.1 hi]
  have hsc : skR2 ((List.range X.r).map fun i => y.getD (σ i) 0)
      ((List.range X.r).map fun i => (res.map Prod.fst).getD (σ i) 0) = .ok sc := by
    rw [← h7]
    apply skR2_perm
    · simp [hN]
    · simp
    · have e1 : ((List.range X.r).map (yfun y)).zip (res.map Prod.fst) =
          (List.range X.r).map fun k => (y.getD k 0, (res.map Prod.fst).getD k 0) := by
        apply List.ext_getElem
        · simp [hN]
        · intro i a1 a2
          simp only [List.length_map, List.length_range] at a2
          simp [List.getD_eq_getElem?_getD, hN, a2]
      have e2 : ((List.range X.r).map fun i => y.getD (σ i) 0).zip
          ((List.range X.r).map fun i => (res.map Prod.fst).getD (σ i) 0) =
          ((List.range X.r).map σ).map fun k => (y.getD k 0, (res.map Prod.fst).getD k 0) := by
        rw [List.zip_map', List.map_map]
        rfl
      rw [e1, e2]
      exact hσ.range_perm.map _
  have hwm : o' = ⟨.ok (), { stateBegin p st (selRows σ X.r X)
          ((List.range X.r).map fun i => y.getD (σ i) 0) coords' W' with
        weightMatrix := some (.dense D2)
        neighbourMatrix := some (WMat.gt0 (.dense D2))
        localIndices := some (List.range X.r)
        ySample := some ((List.range X.r).map fun i => y.getD (σ i) 0)
        localPredict := some ((List.range X.r).map fun i => (res.map Prod.fst).getD (σ i) 0)
        estimators := some (((List.range X.r).map g).map fun r =>
          if p.cacheEstimator then some r.2 else none)
        score := some sc
        residual := some (List.zipWith (fun a b => a - b)
          ((List.range X.r).map fun i => y.getD (σ i) 0)
          ((List.range X.r).map fun i => (res.map Prod.fst).getD (σ i) 0)) },
      if W'.isSome then some (.dense D2) else none, s⟩ := by
    have hck' : checkXy (selRows σ X.r X) ((List.range X.r).map fun i => y.getD (σ i) 0) = true := by
      refine decide_eq_true ⟨?_, hck.2.1, hck.2.2⟩
      simp [selRows]
    simp only [o']
    unfold wmFit
    rw [if_pos hck', hW']
    simp only
    unfold fitWith
    rw [hrate, hD2]
    simp only [sampleLocations]
    rw [show (selRows σ X.r X).r = X.r from rfl, hys', hfit]
    simp only [stateEnd]
    rw [hps', hsc]
  have ho : o = _ := h8
  refine ⟨by rw [hwm], by rw [hwm, ho], by rw [hwm, ho], res.map Prod.fst, _,
    by rw [ho], by simp [hN], by rw [ho], by rw [hwm], ?_⟩
  rw [hwm]
  refine congrArg some ?_
  apply List.ext_getElem
  · simp
  · intro i a1 a2
    simp only [List.length_map, List.length_range] at a2
    have := hσ.1 i a2
    simp [List.getD_eq_getElem?_getD, hN, this]

/-- The weights computed from the points in a new order are the weights in that order. -/
theorem pointSource_relabel (lib : Lib K) (env : Env K) (fs : Disk K)
    (measure : Param (Option String)) (q : WParams K) (pts : List (Mat K)) (N : Nat) (hN : 0 < N)
    (hp : ∀ t ∈ pts, t.r = N) (σ : Nat → Nat) (hσ : PermBelow σ N) (D : Mat K)
    (hD : D.r = N ∧ D.c = N)
    (h : pointSource lib env fs measure q pts pts = .ok D) :
    ∃ D', pointSource lib env fs measure q (pts.map (selRows σ N)) (pts.map (selRows σ N)) =
      .ok D' ∧ D' = relabel σ D := by
  have hsel : pts.map (selRows σ N) = pts.map (permPoints σ) := by
    refine List.map_congr_left fun t ht => ?_
    unfold permPoints
    rw [hp t ht]
  have h1 := C18_source_points lib env fs pts (pts.map (selRows σ N)) measure q N N N hN hN hp
    (fun t ht => by obtain ⟨u, -, rfl⟩ := List.mem_map.1 ht; rfl) σ hσ.1
  have h2 := C17_target_points lib env fs pts pts measure q none σ
    (fun t ht => by rw [hp t ht]; exact hσ)
  rw [hsel] at h1 ⊢
  rw [h2] at h1
  unfold pointSource at h ⊢
  rw [h1]
  cases hw : (weightMatrixFromPoints lib env fs pts (some pts) measure q none).1 with
  | error e => rw [hw] at h; cases h
  | ok V =>
    rw [hw] at h
    simp only [Except.map] at h ⊢
    split at h
    swap
    · cases h
    rename_i hfin
    cases h
    obtain ⟨hr, hc⟩ := hD
    have hr : V.r = N := hr
    have hc : V.c = N := hc
    rw [if_pos]
    · refine ⟨_, rfl, ?_⟩
      simp only [relabel, selRows, permCols, Mat.map, hr]
    · rw [List.all_eq_true] at hfin ⊢
      intro w hw
      obtain ⟨row, hrow, hw⟩ := List.mem_flatten.1 hw
      simp only [Mat.toLists, Mat.row, selRows, permCols, List.mem_map, List.mem_range] at hrow
      obtain ⟨i, hi, rfl⟩ := hrow
      obtain ⟨j, hj, rfl⟩ := List.mem_map.1 hw
      apply hfin
      refine List.mem_flatten.2 ⟨V.row (σ i), ?_, ?_⟩
      · exact List.mem_map.2 ⟨σ i, List.mem_range.2 (hr ▸ hσ.1 i hi), rfl⟩
      · refine List.mem_map.2 ⟨σ j, List.mem_range.2 ?_, rfl⟩
        have := List.mem_range.1 hj
        rw [hc] at this ⊢
        exact hσ.1 j this

theorem pointSource_c (lib : Lib K) (env : Env K) (fs : Disk K) (ms : Param (Option String))
    (p : WParams K) (src tgt : List (Mat K)) (hm : src.length ≤ (ms.expand src.length).length)
    (hr : ∀ s ∈ src, 0 < s.r) (M : Mat K) (h : pointSource lib env fs ms p src tgt = .ok M)
    {c : Nat} (ht : ∀ t ∈ tgt, t.r = c) : M.c = c := by
  obtain ⟨h1, h2⟩ := pointSource_shape lib env fs ms p src tgt hm hr M h
  obtain ⟨D, hD⟩ := List.exists_mem_of_ne_nil _ h2
  have h3 := (h1 D hD).2
  obtain ⟨d, hd, rfl⟩ := List.mem_map.1 hD
  have hmem : ∀ (src tgt : List (Mat K)) (ms : List (Option String)), d ∈ dims src tgt ms →
      d.2.1 ∈ tgt := by
    intro src
    induction src with
    | nil => intro tgt ms h; simp [dims] at h
    | cons s src ih =>
      intro tgt ms h
      cases tgt with
      | nil => simp [dims] at h
      | cons t tgt =>
        cases ms with
        | nil => simp [dims] at h
        | cons a ms =>
          simp only [dims, List.mem_cons] at h
          rcases h with rfl | h
          · simp
          · exact List.mem_cons_of_mem _ (ih _ _ h)
  rw [← h3, ← ht _ (hmem _ _ _ hd)]
  rfl

/-- C92: end to end, from coordinates: pass the observations, their coordinates in every dimension
and their targets in the order `σ`. The weights are computed with any metric, kernel, bandwidth or
neighbour count. If the first fit succeeds, so does the second; it makes the same local predictions
in the order `σ`, and has the same R². -/
theorem C92_points (L : Learner K F) (hL : OrderFree L) (rng : Rng S) (lib : Lib K) (env : Env K)
    (fs : Disk K) (measure : Param (Option String)) (q : WParams K) (p : WMParams K (List (Mat K)))
    (hp : p.weights = pointSource lib env fs measure q) (hrate : p.sampleRate = none)
    (st : WMState K F (List (Mat K))) (s : S) (X : Mat K) (y : List K) (pts : List (Mat K))
    (hm : pts.length ≤ (measure.expand pts.length).length)
    (hpts : ∀ t ∈ pts, t.r = X.r) (σ : Nat → Nat) (hσ : PermBelow σ X.r)
    (hok : (wmFit L rng p st s X y (some pts) none).result = .ok ()) :
    let o := wmFit L rng p st s X y (some pts) none
    let o' := wmFit L rng p st s (selRows σ X.r X) ((List.range X.r).map fun i => y.getD (σ i) 0)
      (some (pts.map (selRows σ X.r))) none
    o'.result = .ok () ∧ o'.rng = o.rng ∧ o'.state.score = o.state.score ∧
    ∃ ps rs, o.state.localPredict = some ps ∧ ps.length = X.r ∧
      o.state.residual = some rs ∧
      o'.state.localPredict = some ((List.range X.r).map fun i => ps.getD (σ i) 0) ∧
      o'.state.residual = some ((List.range X.r).map fun i => rs.getD (σ i) 0) := by
  obtain ⟨W0, idx, s', res, sc, h1, h2, h3, h4, h5, h6, -, -⟩ := wmFit_ok hok
  rw [hrate] at h3
  cases h3
  have hck := of_decide_eq_true h1
  obtain ⟨D, hD, rfl⟩ : ∃ D, p.weights pts pts = .ok D ∧ W0 = .dense D := by
    simp only [chosenWeights] at h2
    cases hw : p.weights pts pts with
    | error e => rw [hw] at h2; cases h2
    | ok D => rw [hw] at h2; cases h2; exact ⟨D, rfl, rfl⟩
  have hshape : D.r = X.r ∧ D.c = X.r := by
    rw [hp] at hD
    have hpos : ∀ t ∈ pts, 0 < t.r := fun t ht => by rw [hpts t ht]; exact hck.2.1
    exact ⟨pointSource_r lib env fs measure q pts pts hm hpos D hD hpts,
      pointSource_c lib env fs measure q pts pts hm hpos D hD hpts⟩
  obtain ⟨D', hD', rfl⟩ := pointSource_relabel lib env fs measure q pts X.r hck.2.1 hpts σ hσ D hshape
    (hp ▸ hD)
  refine C92_row_order L hL rng p hrate st s X y (some pts) (some (pts.map (selRows σ X.r))) none
    none D hshape.1 hshape.2 σ hσ h2 ?_ hok
  simp only [chosenWeights, hp, hD']
  rfl

/-! ### The hypotheses are met -/

theorem meanLearner_orderFree : OrderFree meanLearner := by
  intro e e' t t' h f hf
  have e1 : ∀ l : List (List ℚ × ℚ × ℚ),
      (List.zipWith (· * ·) (l.map fun r => r.2.2) (l.map fun r => r.2.1)).sum =
        (l.map fun r => r.2.2 * r.2.1).sum := by
    intro l
    induction l with
    | nil => rfl
    | cons r l ih => simp only [List.map_cons, List.zipWith_cons_cons, List.sum_cons, ih]
  simp only [meanLearner, e1] at hf ⊢
  rw [(h.map fun r => r.2.2).sum_eq, (h.map fun r => r.2.2 * r.2.1).sum_eq] at hf
  exact ⟨f, hf, fun _ => rfl⟩

/-- Five points on a line in reverse order. -/
example : PermBelow (fun i => 4 - i) 5 ∧ exPc.weights =
      pointSource exLib ratEnv (fun _ => none) (.scalar (some "sqeuclidean")) exWp ∧
    (∀ t ∈ exTrain, t.r = 5) ∧
    (wmFit meanLearner countRng exPc {} 0 exX5 exY5 (some exTrain) none).result = .ok () ∧
    (wmFit meanLearner countRng exPc {} 0 exX5 exY5 (some exTrain) none).state.localPredict ≠
      (wmFit meanLearner countRng exPc {} 0 (selRows (fun i => 4 - i) 5 exX5)
        ((List.range 5).map fun i => exY5.getD (4 - i) 0)
        (some (exTrain.map (selRows (fun i => 4 - i) 5))) none).state.localPredict :=
  ⟨⟨fun j hj => by simp only; omega, fun j hj k hk h => by simp only at h; omega⟩, rfl,
    by decide, by decide +kernel, by decide +kernel⟩

end Geo
