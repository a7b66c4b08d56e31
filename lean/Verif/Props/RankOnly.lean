import Verif.Props.Dimensions
import Verif.Props.Bandwidth
/-
C150: with the kernel `boxcar` and an adaptive bandwidth only the order of the distances matters.
-/
set_option linter.unusedSectionVars false
namespace Geo
variable {K F C S : Type} [Field K] [LinearOrder K] [IsStrictOrderedRing K] [FloorRing K]

/-- Two matrices of distances rank the observations in the same way, seen from every location. -/
structure SameRanks (D D' : Mat K) : Prop where
  r : D'.r = D.r
  c : D'.c = D.c
  lt : ∀ i < D.r, ∀ j < D.c, ∀ l < D.c, D'.get i j < D'.get i l ↔ D.get i j < D.get i l

theorem sorted_rank {l : List K} {m : Nat} (hm : m < l.length) (x : K) :
    x ≤ (sortL l).getD m 0 ↔ l.countP (fun z => decide (z < x)) ≤ m := by
  have hs : m < (sortL l).length := by simpa using hm
  rw [List.getD_eq_getElem _ _ hs, ← (sortL_perm l).countP_eq]
  constructor
  · intro h
    refine le_trans (List.countP_mono_left fun z _ hz => ?_) (countP_lt_sorted (sortL_pairwise l) hs)
    simp only [decide_eq_true_eq] at hz ⊢
    exact lt_of_lt_of_le hz h
  · intro h
    by_contra hc
    have h1 := countP_le_sorted (sortL_pairwise l) hs
    have h2 : (sortL l).countP (fun z => decide (z ≤ (sortL l)[m])) ≤ (sortL l).countP (fun z => decide (z < x)) :=
      List.countP_mono_left fun z _ hz => by
        simp only [decide_eq_true_eq] at hz ⊢
        exact lt_of_le_of_lt hz (not_le.1 hc)
    omega

/-- Which entries of a list are at most a quantile of it depends on their ranks only. -/
theorem quantile_rank (virt : Nat → K → K) (n : Nat) (hn : 0 < n) (q : K) : ∃ m, ∀ l : List K, l.length = n →
    ∀ x ∈ l, x ≤ quantileVal virt l q ↔ l.countP (fun z => decide (z < x)) ≤ m := by
  by_cases h : (n : K) - 1 ≤ virt n q
  · refine ⟨n - 1, fun l hl x _ => ?_⟩
    have : quantileVal virt l q = (sortL l).getD (n - 1) 0 := by
      unfold quantileVal lerp
      rw [hl, if_pos h]
    rw [this]
    exact sorted_rank (by omega) x
  by_cases h0 : virt n q < 0
  · refine ⟨0, fun l hl x _ => ?_⟩
    have : quantileVal virt l q = (sortL l).getD 0 0 := by
      unfold quantileVal lerp
      rw [hl, if_neg h, if_pos h0]
    rw [this]
    exact sorted_rank (by omega) x
  have hlt := floor_lt_of_lt_pred (not_lt.1 h0) (not_le.1 h)
  refine ⟨⌊virt n q⌋₊, fun l hl x hx => ?_⟩
  rw [← sorted_rank (by omega) x]
  have hf := Nat.floor_le (not_lt.1 h0)
  have hf1 := Nat.lt_floor_add_one (virt n q)
  have hmono := sortL_monoTo l ⌊virt n q⌋₊ (⌊virt n q⌋₊ + 1) (by omega) (by omega)
  simp only at hmono
  have hq : quantileVal virt l q = (sortL l).getD ⌊virt n q⌋₊ 0 +
      ((sortL l).getD (⌊virt n q⌋₊ + 1) 0 - (sortL l).getD ⌊virt n q⌋₊ 0) * (virt n q - ⌊virt n q⌋₊) := by
    unfold quantileVal lerp
    rw [hl, if_neg h, if_neg h0]
  constructor
  · intro hle
    by_contra hc
    have hc := not_le.1 hc
    obtain ⟨t, ht, rfl⟩ := List.getElem_of_mem (mem_sortL.2 hx)
    have htm : ⌊virt n q⌋₊ + 1 ≤ t := by
      by_contra hcc
      have := sorted_getElem_le (sortL_pairwise l) (show t ≤ ⌊virt n q⌋₊ by omega) (by simp; omega)
      rw [List.getD_eq_getElem _ _ (by simp; omega)] at hc
      exact absurd this (not_le.2 hc)
    have hge : (sortL l).getD (⌊virt n q⌋₊ + 1) 0 ≤ (sortL l)[t] := by
      rw [List.getD_eq_getElem _ _ (by simp; omega)]
      exact sorted_getElem_le (sortL_pairwise l) htm ht
    rw [hq] at hle
    rcases hmono.eq_or_lt with he | hl'
    · rw [← he, sub_self, zero_mul, add_zero] at hle
      exact absurd hle (not_le.2 hc)
    · have : ((sortL l).getD (⌊virt n q⌋₊ + 1) 0 - (sortL l).getD ⌊virt n q⌋₊ 0) * (virt n q - ⌊virt n q⌋₊) <
          (sortL l).getD (⌊virt n q⌋₊ + 1) 0 - (sortL l).getD ⌊virt n q⌋₊ 0 :=
        mul_lt_of_lt_one_right (sub_pos.2 hl') (by linarith)
      linarith
  · intro hle
    refine hle.trans ?_
    rw [hq]
    have := mul_nonneg (sub_nonneg.2 hmono) (sub_nonneg.2 hf)
    linarith

theorem SameRanks.count {D D' : Mat K} (h : SameRanks D D') {i j : Nat} (hi : i < D.r) (hj : j < D.c) :
    (D'.row i).countP (fun z => decide (z < D'.get i j)) = (D.row i).countP (fun z => decide (z < D.get i j)) := by
  unfold Mat.row
  rw [List.countP_map, List.countP_map, h.c]
  refine List.countP_congr fun l hl => ?_
  simp only [Function.comp, decide_eq_true_eq]
  exact h.lt i hi l (List.mem_range.1 hl) j hj

/-- Whatever the neighbour count: which observations are within the adaptive bandwidth of a
location depends on the order of their distances only. -/
theorem bandwidth_rank {lazy : Bool} {D D' : Mat K} (hr : SameRanks D D') {n : Count K} {bw : Nat → K}
    (h : adaptiveBandwidth lazy D n none = .ok bw) :
    ∃ bw', adaptiveBandwidth lazy D' n none = .ok bw' ∧
      ∀ i < D.r, ∀ j < D.c, D'.get i j ≤ bw' i ↔ D.get i j ≤ bw i := by
  have fin : ∀ (m : Nat) (b b' : Nat → K),
      (∀ i < D.r, ∀ j < D.c, D.get i j ≤ b i ↔ (D.row i).countP (fun z => decide (z < D.get i j)) ≤ m) →
      (∀ i < D.r, ∀ j < D.c, D'.get i j ≤ b' i ↔ (D'.row i).countP (fun z => decide (z < D'.get i j)) ≤ m) →
      ∀ i < D.r, ∀ j < D.c, D'.get i j ≤ b' i ↔ D.get i j ≤ b i := by
    intro m b b' h1 h2 i hi j hj
    rw [h1 i hi j hj, h2 i hi j hj, hr.count hi hj]
  have quant : ∀ (virt : Nat → K → K) (q : K), 0 < D.c → ∀ i < D.r, ∀ j < D.c,
      D'.get i j ≤ quantileVal virt (D'.row i) q ↔ D.get i j ≤ quantileVal virt (D.row i) q := by
    intro virt q hc
    obtain ⟨m, hm⟩ := quantile_rank virt D.c hc q
    refine fin m (fun i => quantileVal virt (D.row i) q) (fun i => quantileVal virt (D'.row i) q) ?_ ?_
    · intro i hi j hj
      exact hm _ (by simp) _ (Mat.mem_row.2 ⟨j, hj, rfl⟩)
    · intro i hi j hj
      exact hm _ (by simp [hr.c]) _ (Mat.mem_row.2 ⟨j, by rw [hr.c]; exact hj, rfl⟩)
  cases lazy with
  | true =>
    simp only [adaptiveBandwidth, if_true, adaptiveBandwidthLazy, hr.c] at h ⊢
    by_cases h1 : n.toNumber < 0 ∨ 1 < n.toNumber
    · rw [if_pos h1] at h
      cases h
    rw [if_neg h1] at h ⊢
    by_cases h2 : D.c = 0
    · rw [if_pos h2] at h
      cases h
    rw [if_neg h2] at h ⊢
    cases h
    exact ⟨_, rfl, quant virtLinear _ (by omega)⟩
  | false =>
    cases n with
    | npInt k => cases h
    | float q =>
      simp only [adaptiveBandwidth, Bool.false_eq_true, if_false, adaptiveBandwidthEager, hr.c] at h ⊢
      by_cases h1 : q ≤ 0
      · rw [if_pos h1] at h
        cases h
      rw [if_neg h1] at h ⊢
      by_cases h2 : q < 0 ∨ 1 < q
      · rw [if_pos h2] at h
        cases h
      rw [if_neg h2] at h ⊢
      by_cases h3 : D.c = 0
      · rw [if_pos h3] at h
        cases h
      rw [if_neg h3] at h ⊢
      cases h
      exact ⟨_, rfl, quant virtMedian _ (by omega)⟩
    | int k =>
      simp only [adaptiveBandwidth, Bool.false_eq_true, if_false, adaptiveBandwidthEager, hr.c] at h ⊢
      by_cases h1 : k ≤ 0
      · rw [if_pos h1] at h
        cases h
      rw [if_neg h1] at h ⊢
      by_cases h2 : (k - 1).toNat < D.c
      · rw [if_pos h2] at h ⊢
        cases h
        refine ⟨_, rfl, fin (k - 1).toNat _ _ ?_ ?_⟩
        · intro i hi j hj
          exact sorted_rank (by simpa using h2) _
        · intro i hi j hj
          exact sorted_rank (by simpa [hr.c] using h2) _
      · rw [if_neg h2] at h
        cases h

/-- Two dimensions that differ in nothing but the distances, which rank the observations in the same
way, with a kernel `boxcar` and an adaptive bandwidth; or the same dimension. -/
def RankLike (d d' : DimSpec K) : Prop :=
  d' = d ∨ (d.kernel = "boxcar" ∧ d.bandwidth = none ∧ d.sorted = none ∧ (∃ n, d.count = some n) ∧
    ∃ D', SameRanks d.dist D' ∧ d' = { d with dist := D' })

theorem RankLike.weights {env : Env K} {lazy : Bool} {d d' : DimSpec K} (hd : d.Nonneg) (hd' : d'.Nonneg)
    (h : RankLike d d') {V : Mat (Num K)} (hV : d.weights env lazy = .ok V) :
    ∃ V', d'.weights env lazy = .ok V' ∧ ∀ i < d.dist.r, ∀ j < d.dist.c, V'.get i j = V.get i j := by
  rcases h with rfl | ⟨hk, hb, hs, ⟨n, hn⟩, D', hr, rfl⟩
  · exact ⟨V, hV, fun _ _ _ _ => rfl⟩
  unfold DimSpec.weights at hV ⊢
  simp only [hk, hb, hn, hs, ite_self, weightByDistance, adaptiveKernel] at hV ⊢
  cases hbw : adaptiveBandwidth lazy d.dist n none with
  | error e => rw [hbw] at hV; cases hV
  | ok bw =>
  obtain ⟨bw', hbw', hle⟩ := bandwidth_rank hr hbw
  rw [hbw] at hV
  rw [hbw']
  simp only [kernelFunction, kernelElem] at hV ⊢
  simp only [show ¬ "boxcar" = "uniform" by decide, show ¬ "boxcar" = "gaussian" by decide,
    show ¬ "boxcar" = "exponential" by decide, show ¬ "boxcar" = "linear" by decide, if_false, if_true] at hV ⊢
  cases hV
  refine ⟨_, rfl, fun i hi j hj => ?_⟩
  simp only [cutSupport, gt_iff_lt, ← not_le, hle i hi j hj]

theorem RankLike.shape {d d' : DimSpec K} (h : RankLike d d') : d'.dist.r = d.dist.r ∧ d'.dist.c = d.dist.c := by
  rcases h with rfl | ⟨-, -, -, -, D', hr, rfl⟩
  · exact ⟨rfl, rfl⟩
  · exact ⟨hr.r, hr.c⟩

theorem mapE_weights_rank {env : Env K} {lazy : Bool} {l l' : List (DimSpec K)} (hl : ∀ d ∈ l, d.Nonneg)
    (hl' : ∀ d ∈ l', d.Nonneg) (h : List.Forall₂ RankLike l l') {r c : Nat} (hs : AllShape (l.map (·.dist)) r c)
    {Ws : List (Mat (Num K))} (hWs : mapE (DimSpec.weights env lazy) l = .ok Ws) :
    ∃ Ws', mapE (DimSpec.weights env lazy) l' = .ok Ws' ∧ AllShape (l'.map (·.dist)) r c ∧
      List.Forall₂ (fun V V' => ∀ i < r, ∀ j < c, V'.get i j = V.get i j) Ws Ws' := by
  induction h generalizing Ws with
  | nil =>
    cases hWs
    exact ⟨[], rfl, by simp [AllShape], .nil⟩
  | @cons d d' l l' hdd hll ih =>
    simp only [mapE] at hWs
    cases hV : d.weights env lazy with
    | error e => rw [hV] at hWs; cases hWs
    | ok V =>
    rw [hV] at hWs
    cases hm : mapE (DimSpec.weights env lazy) l with
    | error e => rw [hm] at hWs; cases hWs
    | ok Us =>
    rw [hm] at hWs
    cases hWs
    have hsd := hs d.dist (by simp)
    obtain ⟨V', hV', hval⟩ := hdd.weights (hl d (by simp)) (hl' d' (by simp)) hV
    obtain ⟨Us', hUs', hsh, hfor⟩ := ih (fun e he => hl e (by simp [he])) (fun e he => hl' e (by simp [he]))
      (fun D hD => hs D (by rw [List.map_cons]; exact List.mem_cons_of_mem _ hD)) hm
    refine ⟨V' :: Us', by simp only [mapE, hV', hUs'], ?_, .cons ?_ hfor⟩
    · intro D hD
      rw [List.map_cons] at hD
      rcases List.mem_cons.1 hD with rfl | hD
      · exact ⟨hdd.shape.1.trans hsd.1, hdd.shape.2.trans hsd.2⟩
      · exact hsh D hD
    · rw [← hsd.1, ← hsd.2]
      exact hval

/-- C150: with the kernel `boxcar` and an adaptive bandwidth (a number of neighbours, or a share of
the observations) only the order of the distances in each row matters: distances that rank the
observations in the same way give the same weights. Other dimensions may be combined with it. -/
theorem C150_ranks (env : Env K) (he : env.Ok) (lazy : Bool) (l l' : List (DimSpec K)) (hl : ∀ d ∈ l, d.Nonneg)
    (hl' : ∀ d ∈ l', d.Nonneg) (hr : List.Forall₂ RankLike l l') (W : Mat (Num K))
    (h : weightsOf env lazy l = .ok W) : ∃ W', weightsOf env lazy l' = .ok W' ∧ SameMat W' W := by
  obtain ⟨Ws, hWs, hne, hsh, hu, -, -, hlog, hv⟩ := weightsOf_ok he hl h
  obtain ⟨Ws', hWs', hsh', hfor⟩ := mapE_weights_rank hl hl' hr hsh hWs
  refine weightsOf_transfer hlog hv ?_ hsh' hWs' ?_ ?_
  · rintro rfl
    cases hr
    exact hne rfl
  · intro U hU i hi j hj
    obtain ⟨k, hk, rfl⟩ := List.getElem_of_mem hU
    have hk' : k < Ws.length := by
      rw [hfor.length_eq]
      exact hk
    have hkk := (List.forall₂_iff_get.1 hfor).2 k hk' hk i hi j hj
    simp only [List.get_eq_getElem] at hkk
    rw [hkk]
    exact hu _ (List.getElem_mem hk') i hi j hj
  · intro i hi j hj
    unfold prodK
    congr 1
    clear hlog hv hu hWs' hWs
    induction hfor with
    | nil => rfl
    | cons h1 _ ih => simp only [List.map_cons, ih, h1 i hi j hj]

/-- The distance measure `m` replaced by `m'`. -/
def CoordDim.remeasure (m m' : Option String) (d : CoordDim K) : CoordDim K :=
  if d.measure = m then { d with measure := m' } else d

/-- C150: for coordinates: changing the distance measure of `boxcar` dimensions with adaptive
bandwidth to one that orders the observations in the same way, seen from every location, does not change the weights. -/
theorem C150_measure (lib : Lib K) (hlib : lib.Nonneg) (env : Env K) (he : env.Ok) (fs : Disk K)
    (l : List (CoordDim K)) (hr : ∀ d ∈ l, 0 < d.src.r) (hb : ∀ d ∈ l, ∀ b, d.bandwidth = some b → 0 ≤ b)
    (m m' : Option String)
    (hm : ∀ d ∈ l, d.measure = m → ∀ i < d.src.r, ∀ j < d.tgt.r, ∀ k < d.tgt.r,
      metricFun lib m' (d.src.row i) (d.tgt.row j) < metricFun lib m' (d.src.row i) (d.tgt.row k) ↔
        metricFun lib m (d.src.row i) (d.tgt.row j) < metricFun lib m (d.src.row i) (d.tgt.row k))
    (hg : ∀ d ∈ l, d.measure = m → GoodPair lib d.src d.tgt m')
    (hk : ∀ d ∈ l, d.measure = m → d.kernel = "boxcar" ∧ d.bandwidth = none ∧ ∃ n, d.count = some n)
    (M : Mat K) (h : coordWeights lib env fs l = .ok M) :
    ∃ M', coordWeights lib env fs (l.map (CoordDim.remeasure m m')) = .ok M' ∧
      SameMat M' M := by
  obtain ⟨hg0, W, hW, hf, rfl⟩ := (coordWeights_iff lib env fs l hr M).1 h
  obtain ⟨W', hW', hs⟩ := C150_ranks env he false _
    ((l.map (CoordDim.remeasure m m')).map (CoordDim.spec lib)) (by
      intro e he
      obtain ⟨d, hd, rfl⟩ := List.mem_map.1 he
      exact d.spec_nonneg hlib (hb d hd)) (by
      intro e he
      obtain ⟨d, hd, rfl⟩ := List.mem_map.1 he
      obtain ⟨d0, hd0, rfl⟩ := List.mem_map.1 hd
      refine CoordDim.spec_nonneg hlib ?_
      unfold CoordDim.remeasure
      split
      · exact hb d0 hd0
      · exact hb d0 hd0) (by
      rw [List.map_map, List.forall₂_map_left_iff, List.forall₂_map_right_iff, List.forall₂_same]
      intro d hd
      by_cases hdm : d.measure = m
      · refine Or.inr ⟨(hk d hd hdm).1, (hk d hd hdm).2.1, rfl, (hk d hd hdm).2.2,
          cdistMat (metricFun lib m') d.src d.tgt, ⟨rfl, rfl, fun i hi j hj k hk => ?_⟩, ?_⟩
        · show metricFun lib m' (d.src.row i) (d.tgt.row j) < metricFun lib m' (d.src.row i) (d.tgt.row k) ↔
            metricFun lib d.measure (d.src.row i) (d.tgt.row j) < metricFun lib d.measure (d.src.row i) (d.tgt.row k)
          rw [hdm]
          exact hm d hd hdm i hi j hj k hk
        · simp only [Function.comp, CoordDim.remeasure, hdm, if_true]
          rfl
      · refine Or.inl ?_
        simp only [Function.comp, CoordDim.remeasure, hdm, if_false]) W hW
  refine ⟨_, (coordWeights_iff lib env fs _ ?_ _).2 ⟨?_, W', hW', (hs.toK hf).1, rfl⟩, (hs.toK hf).2⟩
  · intro d hd
    obtain ⟨d0, hd0, rfl⟩ := List.mem_map.1 hd
    unfold CoordDim.remeasure
    split
    · exact hr d0 hd0
    · exact hr d0 hd0
  · intro d hd
    obtain ⟨d0, hd0, rfl⟩ := List.mem_map.1 hd
    unfold CoordDim.remeasure
    by_cases hdm : d0.measure = m
    · simp only [hdm, if_true]
      exact hg d0 hd0 hdm
    · simp only [hdm, if_false]
      exact hg0 d0 hd0

/-! ### The fitted model -/

theorem denseTask_same {L : Learner K F} {X : Mat K} {y : Nat → K} {Xp A B : Mat K} (h : SameMat A B) {e i : Nat}
    (hi : i < A.r) : denseTask L X y Xp B e i = denseTask L X y Xp A e i := by
  obtain ⟨h1, h2, h3⟩ := h
  unfold denseTask
  rw [← h2]
  have e1 : nonzeroIdx A.c (B.get i) = nonzeroIdx A.c (A.get i) := by
    unfold nonzeroIdx
    refine List.filter_congr fun j hj => ?_
    rw [h3 i hi j (List.mem_range.1 hj)]
  have e2 : (nonzeroIdx A.c (A.get i)).map (B.get i) = (nonzeroIdx A.c (A.get i)).map (A.get i) := by
    refine List.map_congr_left fun j hj => ?_
    exact (h3 i hi j (List.mem_range.1 (List.mem_filter.1 hj).1)).symm
  simp only [e1, e2]

theorem fitAll_same {L : Learner K F} {X : Mat K} {y : Nat → K} {Xp : Option (Mat K)} {A B : Mat K} (h : SameMat A B)
    {nEst : Nat} {idx : Option (List Nat)} {nJobs nPatches : Option ℤ} {cpu : Nat} :
    fitAll L X y Xp (.dense B) nEst idx nJobs nPatches cpu = fitAll L X y Xp (.dense A) nEst idx nJobs nPatches cpu := by
  have hloc : ∀ Xp : Mat K, locTask L X y Xp (.dense B) nEst = locTask L X y Xp (.dense A) nEst := by
    intro Xp
    funext i
    unfold locTask atIndex
    have e : (WMat.dense B).r = (WMat.dense A).r := h.1.symm
    rw [e]
    by_cases hc : i < nEst ∧ i < (WMat.dense A).r ∧ i < Xp.r
    · rw [if_pos hc, if_pos hc]
      exact denseTask_same h hc.2.1
    · rw [if_neg hc, if_neg hc]
  have hjobs : ∀ (Xp : Mat K) (idx : List Nat), runJobs L X y Xp (.dense B) nEst idx =
      runJobs L X y Xp (.dense A) nEst idx := by
    intro Xp idx
    unfold runJobs
    simp only [← h.1]
    congr 1
    refine mapE_congr fun k hk => denseTask_same h ?_
    have := List.mem_range.1 hk
    unfold zipCount at this
    omega
  have e : (WMat.dense B).r = (WMat.dense A).r := h.1.symm
  unfold fitAll
  simp only [hloc, hjobs, e]

/-- What a user sees of a fit: outcome, places, predictions, estimators, score and residuals. -/
def FitOut.seen (o : FitOut K F C S) :=
  (o.result, o.state.localIndices, o.state.localPredict, o.state.estimators, o.state.score, o.state.residual, o.rng)

/-- C150: models whose weights have the same entries are fitted to the same local estimators, with the
same predictions, scores, residuals and errors. -/
theorem C150_fit (L : Learner K F) (rng : Rng S) (p q : WMParams K C) (st : WMState K F C) (s : S) (X : Mat K)
    (y : List K) (coords : C) (hq : q = { p with weights := q.weights }) (A B : Mat K)
    (hA : p.weights coords coords = .ok A) (hB : q.weights coords coords = .ok B) (h : SameMat B A) :
    (wmFit L rng q st s X y (some coords) none).seen = (wmFit L rng p st s X y (some coords) none).seen := by
  unfold wmFit
  by_cases hxy : checkXy X y = true
  · rw [if_pos hxy, if_pos hxy]
    simp only [chosenWeights, hA, hB, Except.map]
    have hbeg : stateBegin q st X y (some coords) none = stateBegin p st X y (some coords) none := by
      rw [hq]
      rfl
    rw [hbeg]
    obtain ⟨A', hA', B', hB', hs⟩ : ∃ A', leaveOut p (.dense A) = .dense A' ∧ ∃ B', leaveOut q (.dense B) = .dense B' ∧
        SameMat A' B' := by
      obtain ⟨h1, h2, h3⟩ := h
      have : q.leaveLocalOut = p.leaveLocalOut := by rw [hq]
      unfold leaveOut
      rw [this]
      by_cases hl : p.leaveLocalOut = true
      · rw [if_pos hl, if_pos hl]
        refine ⟨_, rfl, _, rfl, h1.symm, h2.symm, fun i hi j hj => ?_⟩
        simp only
        rw [h3 i (h1 ▸ hi) j (h2 ▸ hj)]
      · rw [if_neg hl, if_neg hl]
        exact ⟨_, rfl, _, rfl, h1.symm, h2.symm, fun i hi j hj => (h3 i (h1 ▸ hi) j (h2 ▸ hj)).symm⟩
    unfold fitWith
    rw [hA', hB', show q.sampleRate = p.sampleRate by rw [hq], show q.nJobs = p.nJobs by rw [hq],
      show q.storedPatches = p.storedPatches by rw [hq]; rfl, show q.cpu = p.cpu by rw [hq]]
    simp only [fitAll_same hs]
    cases sampleLocations rng s p.sampleRate X.r with
    | mk o s' =>
    cases o with
    | error e => rfl
    | ok idx =>
    simp only
    cases fitAll L X (fun i => y.getD i 0) none (.dense A') X.r (some idx) p.nJobs p.storedPatches p.cpu with
    | error e => rfl
    | ok res =>
    simp only [stateEnd, show q.cacheEstimator = p.cacheEstimator by rw [hq], FitOut.seen]
    cases skR2 (idx.map fun i => y.getD i 0) (res.map Prod.fst) with
    | error e => rfl
    | ok v => rfl
  · rw [if_neg hxy, if_neg hxy]

/-! ### Concrete cases -/

/-- Distances on a line and their squares. -/
def rkD : Mat ℚ := ⟨4, 4, fun i j => |(i : ℚ) ^ 2 - (j : ℚ) ^ 2|⟩
def rkD2 : Mat ℚ := ⟨4, 4, fun i j => |(i : ℚ) ^ 2 - (j : ℚ) ^ 2| ^ 2⟩
def rkDim (D : Mat ℚ) (kernel : String) (n : Count ℚ) : DimSpec ℚ := { dist := D, kernel := kernel, count := some n }

theorem rk_ranks : SameRanks rkD rkD2 where
  r := rfl
  c := rfl
  lt i _ j _ l _ := by
    show |(i : ℚ) ^ 2 - (j : ℚ) ^ 2| ^ 2 < |(i : ℚ) ^ 2 - (l : ℚ) ^ 2| ^ 2 ↔ _
    rw [pow_lt_pow_iff_left₀ (abs_nonneg _) (abs_nonneg _) (by norm_num)]
    exact Iff.rfl

/-- The hypotheses are met, by a number of neighbours and by a share. -/
example : RankLike (rkDim rkD "boxcar" (.int 2)) (rkDim rkD2 "boxcar" (.int 2)) ∧
    RankLike (rkDim rkD "boxcar" (.float (1 / 2))) (rkDim rkD2 "boxcar" (.float (1 / 2))) :=
  ⟨Or.inr ⟨rfl, rfl, rfl, ⟨_, rfl⟩, rkD2, rk_ranks, rfl⟩, Or.inr ⟨rfl, rfl, rfl, ⟨_, rfl⟩, rkD2, rk_ranks, rfl⟩⟩

/-- The weights do not change, and are not all equal. -/
example : ∀ n ∈ ([.int 2, .float (1 / 2)] : List (Count ℚ)),
    (weightsOf ratEnv false [rkDim rkD "boxcar" n]).toOption.map Mat.toLists =
      (weightsOf ratEnv false [rkDim rkD2 "boxcar" n]).toOption.map Mat.toLists ∧
    (weightsOf ratEnv false [rkDim rkD "boxcar" n]).toOption.map (fun W => W.row 3) =
      some [.fin 0, .fin 0, .fin (1 / 2), .fin (1 / 2)] := by decide +kernel

/-- Other kernels, and fixed bandwidths, do depend on more than the order. -/
example : (weightsOf ratEnv false [rkDim rkD "bisquare" (.int 3)]).toOption.map Mat.toLists ≠
      (weightsOf ratEnv false [rkDim rkD2 "bisquare" (.int 3)]).toOption.map Mat.toLists ∧
    (weightsOf ratEnv false [{ dist := rkD, kernel := "boxcar", bandwidth := some 4 }]).toOption.map Mat.toLists ≠
      (weightsOf ratEnv false [{ dist := rkD2, kernel := "boxcar", bandwidth := some 4 }]).toOption.map Mat.toLists := by
  decide +kernel

/-- A library with two measures, and positions on a line. -/
def rkLib : Lib ℚ where
  scipy m _ := match m with
    | some "sqeuclidean" => some sqDist
    | some "cityblock" => some fun a b => (List.zipWith (fun x y => |x - y|) a b).sum
    | _ => none
  dask m := if m = some "sqeuclidean" then some sqDist else none
  great := sqDist

def rkPlaces : CoordDim ℚ where
  src := ⟨4, 1, fun i _ => (i : ℚ) ^ 2⟩
  tgt := ⟨4, 1, fun i _ => (i : ℚ) ^ 2⟩
  measure := some "cityblock"
  kernel := "boxcar"
  count := some (.int 2)

/-- The hypotheses of `C150_measure` are met, and its conclusion is not trivial. -/
example : (∀ i < 4, ∀ j < 4, ∀ k < 4,
      metricFun rkLib (some "sqeuclidean") (rkPlaces.src.row i) (rkPlaces.tgt.row j) <
          metricFun rkLib (some "sqeuclidean") (rkPlaces.src.row i) (rkPlaces.tgt.row k) ↔
        metricFun rkLib (some "cityblock") (rkPlaces.src.row i) (rkPlaces.tgt.row j) <
          metricFun rkLib (some "cityblock") (rkPlaces.src.row i) (rkPlaces.tgt.row k)) ∧
    (coordWeights rkLib ratEnv (fun _ => none) [rkPlaces]).toOption.map Mat.toLists =
      some [[1 / 2, 1 / 2, 0, 0], [1 / 2, 1 / 2, 0, 0], [0, 1 / 2, 1 / 2, 0], [0, 0, 1 / 2, 1 / 2]] ∧
    (coordWeights rkLib ratEnv (fun _ => none)
      ([rkPlaces].map (CoordDim.remeasure (some "cityblock") (some "sqeuclidean")))).toOption.map Mat.toLists =
      some [[1 / 2, 1 / 2, 0, 0], [1 / 2, 1 / 2, 0, 0], [0, 1 / 2, 1 / 2, 0], [0, 0, 1 / 2, 1 / 2]] := by
  decide +kernel

/-- Two measures, one model: the fits agree. -/
def rkP (m : String) : WMParams ℚ (Mat ℚ) :=
  { weights := fun a b => coordWeights rkLib ratEnv (fun _ => none) [{ rkPlaces with src := a, tgt := b, measure := some m }] }

example : (wmFit meanLearner countRng (rkP "cityblock") {} 0 ⟨4, 1, fun i _ => i⟩ [1, 2, 4, 8] (some rkPlaces.src) none).seen.2.2.1 =
      some [2, 2, 4, 7] ∧
    (wmFit meanLearner countRng (rkP "sqeuclidean") {} 0 ⟨4, 1, fun i _ => i⟩ [1, 2, 4, 8] (some rkPlaces.src) none).seen.2.2.1 =
      some [2, 2, 4, 7] := by decide +kernel

end Geo
