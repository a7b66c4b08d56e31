import Verif.Props.Exactness
import Verif.Props.Bandwidth
set_option linter.unusedSectionVars false
/-
Kernels that reach every point turn the local models into the global one.
-/
namespace Geo
variable {K : Type} [Field K] [LinearOrder K] [IsStrictOrderedRing K] [FloorRing K]
  {F C S : Type}

/-- The kernel, bandwidth and count of one dimension reach every target from every source: the kernel
is `uniform`; or it is `boxcar` and the bandwidth is fixed and no distance is larger, or it is adaptive
with all targets or the fraction one. -/
def ReachesAll (D : Mat K) (name : String) (b : Option K) (n : Option (Count K)) : Prop :=
  name = "uniform" ∨ name = "boxcar" ∧
    ((∃ x, b = some x ∧ ∀ i < D.r, ∀ j < D.c, D.get i j ≤ x) ∨
      b = none ∧ (n = some (.int D.c) ∨ n = some (.float 1)))

theorem kernelFunction_reaches (env : Env K) {D : Mat K} {bw : Nat → K} {W : Mat (Num K)}
    (h : kernelFunction env false D bw "boxcar" = .ok W) {i j : Nat} (hd : 0 ≤ D.get i j)
    (hle : D.get i j ≤ bw i) : W.get i j = .fin 1 := by
  have hb : 0 ≤ bw i := hd.trans hle
  have hk := kernelWeight_eq env false (name := "boxcar") (by decide) hd hb
  unfold kernelFunction at h
  split at h
  · cases h
  rename_i w hw
  injection h with h
  rw [← h]
  simp only [kernelWeight, hw] at hk
  injection hk with hk
  simp only [hk]
  simp [kval, not_lt.2 hle]

theorem weightByDistance_reaches (env : Env K) {D : Mat K} {name : String} {b : Option K}
    {n : Option (Count K)} {W : Mat (Num K)}
    (h : weightByDistance env false D name b n none = .ok W)
    (hD : ∀ i < D.r, ∀ j < D.c, 0 ≤ D.get i j) (hb : ∀ b', b = some b' → 0 ≤ b')
    (hr : ReachesAll D name b n) {i j : Nat} (hi : i < D.r) (hj : j < D.c) :
    W.get i j = .fin 1 := by
  rcases hr with rfl | ⟨rfl, hr⟩
  · obtain ⟨-, -, -, bw, hbw⟩ := weightByDistance_val env h hD hb (by simp)
    rw [(hbw i hi).2 j hj]
    simp [kval]
  · rcases hr with ⟨x, rfl, hx⟩ | ⟨rfl, hn⟩
    · cases n with
      | some n => cases h
      | none => exact kernelFunction_reaches env h (hD i hi j hj) (hx i hi j hj)
    · obtain ⟨m, rfl⟩ : ∃ m, n = some m := by rcases hn with hn | hn <;> exact ⟨_, hn⟩
      simp only [weightByDistance, adaptiveKernel] at h
      cases hbw : adaptiveBandwidth false D m none with
      | error e => rw [hbw] at h; cases h
      | ok bw =>
        rw [hbw] at h
        refine kernelFunction_reaches env h (hD i hi j hj) ?_
        rcases hn with hn | hn <;> cases hn
        · obtain ⟨-, -, -, h4, -⟩ := C08_kth_nearest D _ bw hbw i
          have h5 : D.c ≤ countRow D i fun x => decide (x ≤ bw i) := by exact_mod_cast h4
          unfold countRow at h5
          have h6 : ((List.range D.c).filter fun j => decide (D.get i j ≤ bw i)).length =
              (List.range D.c).length :=
            le_antisymm (List.length_filter_le _ _) (by simpa using h5)
          have := List.length_filter_eq_length_iff.1 h6 j (List.mem_range.2 hj)
          simpa using this
        · exact (C09_fraction_one_is_max D bw hbw i).2 j hj

/-- C97: when every dimension reaches every target, all weights of a row are equal, `1 / N`. -/
theorem C97_equal_weights (env : Env K) (he : env.Ok) (Ds : List (Mat K)) (p : WParams K)
    (W : Mat (Num K)) (h : weightMatrixFromDistance env false Ds p = .ok W) (hin : NonnegInput Ds p)
    (hr : ∀ (d : Nat) D name b n, Ds[d]? = some D → (p.kernel.expand Ds.length)[d]? = some name →
      (p.bandwidth.expand Ds.length)[d]? = some b → (p.count.expand Ds.length)[d]? = some n →
      ReachesAll D name b n) (i : Nat) (hi : i < W.r) (j : Nat) (hj : j < W.c) :
    W.get i j = .fin (1 / (W.c : K)) := by
  obtain ⟨Ws, hWs, hsh, hu, hW⟩ := weightMatrix_master env he h hin
  have hone : ∀ j < W.c, prodK Ws i j = 1 := by
    intro j hj
    apply List.prod_eq_one
    intro x hx
    obtain ⟨V, hV, rfl⟩ := List.mem_map.1 hx
    obtain ⟨d, hd, rfl⟩ := List.getElem_of_mem hV
    have hd' : d < Ds.length := dimWeights_length hWs ▸ hd
    obtain ⟨D, name, b, n, S, hD, hn, hb, hc, hS, hw⟩ := dimWeight_unfold (dimWeights_get hWs hd')
    rcases hS with ⟨hf, -⟩ | ⟨-, rfl⟩
    · cases hf
    have hm : D ∈ Ds := List.mem_of_getElem? hD
    obtain ⟨h1, h2⟩ := hsh D hm
    rw [weightByDistance_reaches env hw (hin.dist D hm)
      (fun b' hb' => hin.bandwidth b' (hb' ▸ List.mem_of_getElem? hb)) (hr d D name b n hD hn hb hc)
      (h1 ▸ hi) (h2 ▸ hj)]
    rfl
  have hs : ∑ j ∈ Finset.range W.c, prodK Ws i j = (W.c : K) := by
    rw [Finset.sum_congr rfl fun j hj => hone j (Finset.mem_range.1 hj)]
    simp
  rw [hW i hi j hj, hone j hj]
  unfold normK
  have hc : (W.c : K) ≠ 0 := by
    have : W.c ≠ 0 := by omega
    exact_mod_cast this
  rw [hs, if_neg hc]

/-- Multiplying all weights by a positive number does not change what the regressor does. -/
def ScaleFree (L : Learner K F) : Prop :=
  ∀ e rows ys ws, ∀ a > 0, L.fit e rows ys (ws.map (a * ·)) = L.fit e rows ys ws

theorem nonzeroIdx_all {c : Nat} {g : Nat → K} (h : ∀ j < c, g j ≠ 0) :
    nonzeroIdx c g = List.range c := by
  unfold nonzeroIdx
  rw [List.filter_eq_self]
  intro j hj
  simpa using h j (List.mem_range.1 hj)

/-- The rows other than `i`. -/
def othersOf (n i : Nat) : List Nat := (List.range n).filter fun j => j ≠ i

theorem nonzeroIdx_others {c i : Nat} {g : Nat → K} {w : K} (hw : w ≠ 0)
    (h : ∀ j < c, g j = if i = j then 0 else w) : nonzeroIdx c g = othersOf c i := by
  unfold nonzeroIdx othersOf
  apply List.filter_congr
  intro j hj
  rw [h j (List.mem_range.1 hj)]
  by_cases e : i = j
  · simp [e]
  · simp [e, hw, Ne.symm e]

/-- C97: with equal weights and the location itself kept, every local model is the global model. Every
location's regressor is fitted to all rows with one common weight (to unit weights, if the regressor
does not depend on the scale of the weights), and every local prediction is the prediction of that one
model. -/
theorem C97_global_model (L : Learner K F) (hclone : ∀ e e', L.fit e = L.fit e') (rng : Rng S)
    (hrng : rng.Valid) (p : WMParams K C) (hrate : ∀ r, p.sampleRate = some r → 0 ≤ r ∧ r ≤ 1)
    (hal : p.nJobs = none ∨ p.sampleRate = none) (st : WMState K F C) (s : S) (X : Mat K)
    (y : List K) (coords : Option C) (W : Option (WMat K))
    (hok : (wmFit L rng p st s X y coords W).result = .ok ())
    {D : Mat K} {idx : List Nat}
    (hD : (wmFit L rng p st s X y coords W).state.weightMatrix = some (.dense D))
    (hidx : (wmFit L rng p st s X y coords W).state.localIndices = some idx)
    (w : K) (hw0 : 0 < w) (hw : ∀ i < X.r, ∀ j < D.c, D.get i j = w) :
    ∃ f, L.fit 0 ((List.range X.r).map X.row) y (List.replicate X.r w) = .ok f ∧
      (ScaleFree L → L.fit 0 ((List.range X.r).map X.row) y (List.replicate X.r 1) = .ok f) ∧
      (wmFit L rng p st s X y coords W).state.localPredict =
        some (idx.map fun i => L.predict f (X.row i)) ∧
      (p.cacheEstimator = true → (wmFit L rng p st s X y coords W).state.estimators =
        some (idx.map fun _ => some f)) := by
  obtain ⟨W0, idx0, s', res, sc, hck, hW0, hs, hf, hl, hl2, hsc, hout⟩ := wmFit_ok hok
  rw [hout] at hD hidx ⊢
  have hD : leaveOut p W0 = .dense D := Option.some.inj hD
  have hidx : idx0 = idx := Option.some.inj hidx
  subst hidx
  have hm := fitAll_ok hf (aligned_of hW0 hs (hal.imp id .inl)) hl
  have hlt : ∀ i ∈ idx0, i < X.r := (sampleLocations_spec hrng hrate hs).2.1
  have hyl : X.r = y.length := (of_decide_eq_true hck).1
  have hyr : (List.range X.r).map (yfun y) = y := by
    apply List.ext_getElem (by simp [hyl])
    intro k h1 h2
    simp [h2]
  have htask : ∀ k (hk : k < idx0.length),
      (L.fit 0 ((List.range X.r).map X.row) y (List.replicate X.r w)).map
        (fun f => (L.predict f (X.row idx0[k]), f)) = .ok (res[k]'(by omega)) := by
    intro k hk
    have h1 := mapE_get hm hk
    rw [locTask_eq (locTask_ok h1)] at h1
    simp only [hD, denseTask] at h1
    split at h1
    · cases h1
    rename_i hc
    have hc : D.c = X.r := not_not.1 hc
    have hi := hlt _ (List.getElem_mem hk)
    rw [nonzeroIdx_all fun j hj => by rw [hw _ hi j hj]; exact hw0.ne'] at h1
    have e : (List.range D.c).map (D.get idx0[k]) = List.replicate X.r w := by
      rw [← hc]
      apply List.ext_getElem (by simp)
      intro j h1 h2
      have : j < D.c := by simpa using h1
      simp [hw _ hi j this]
    rw [e, hc] at h1
    unfold fitLocal at h1
    rw [hyr, hclone _ 0] at h1
    exact h1
  cases hg : L.fit 0 ((List.range X.r).map X.row) y (List.replicate X.r w) with
  | error e =>
    have := htask 0 (by omega)
    rw [hg] at this
    cases this
  | ok f =>
    have hres : res = idx0.map fun i => (L.predict f (X.row i), f) := by
      apply List.ext_getElem (by simp [hl])
      intro k h1 h2
      have := htask k (by omega)
      rw [hg] at this
      simpa using (Except.ok.inj this).symm
    refine ⟨f, rfl, fun hsf => ?_, ?_, fun hce => ?_⟩
    · rw [← hg]
      have := hsf 0 ((List.range X.r).map X.row) y (List.replicate X.r 1) w hw0
      rw [← this]
      simp
    · simp only [hres, List.map_map]
      rfl
    · simp only [hres, List.map_map, hce, if_true]
      rfl

/-- C97: with equal weights and the location itself left out, the local predictions are those of
leave-one-out cross-validation of the global model: the prediction at a location comes from the
regressor fitted to all other rows with one common weight. -/
theorem C97_leave_one_out (L : Learner K F) (hclone : ∀ e e', L.fit e = L.fit e') (rng : Rng S)
    (hrng : rng.Valid) (p : WMParams K C) (hrate : ∀ r, p.sampleRate = some r → 0 ≤ r ∧ r ≤ 1)
    (hal : p.nJobs = none ∨ p.sampleRate = none) (hlo : p.leaveLocalOut = true)
    (st : WMState K F C) (s : S) (X : Mat K) (y : List K) (coords : Option C) (W : Option (WMat K))
    (hok : (wmFit L rng p st s X y coords W).result = .ok ())
    {D : Mat K} (hD : chosenWeights p coords W = .ok (.dense D))
    {idx : List Nat} (hidx : (wmFit L rng p st s X y coords W).state.localIndices = some idx)
    (w : K) (hw0 : 0 < w) (hw : ∀ i < X.r, ∀ j < D.c, D.get i j = w) (k i : Nat)
    (hk : idx[k]? = some i) :
    ∃ f, L.fit 0 ((othersOf X.r i).map X.row) ((othersOf X.r i).map fun j => y.getD j 0)
        ((othersOf X.r i).map fun _ => w) = .ok f ∧
      (ScaleFree L → L.fit 0 ((othersOf X.r i).map X.row) ((othersOf X.r i).map fun j => y.getD j 0)
        ((othersOf X.r i).map fun _ => 1) = .ok f) ∧
      (wmFit L rng p st s X y coords W).state.localPredict.bind (·[k]?) =
        some (L.predict f (X.row i)) := by
  obtain ⟨W0, idx0, s', res, sc, hck, hW0, hs, hf, hl, hl2, hsc, hout⟩ := wmFit_ok hok
  rw [hout] at hidx ⊢
  have hidx : idx0 = idx := Option.some.inj hidx
  subst hidx
  have hm := fitAll_ok hf (aligned_of hW0 hs (hal.imp id .inl)) hl
  have hlt : ∀ i ∈ idx0, i < X.r := (sampleLocations_spec hrng hrate hs).2.1
  have hWD : W0 = .dense D := by
    rw [hW0] at hD
    exact Except.ok.inj hD
  subst hWD
  obtain ⟨hk', hki⟩ := List.getElem?_eq_some_iff.1 hk
  have h1 := mapE_get hm hk'
  rw [hki] at h1
  have hi : i < X.r := hki ▸ hlt _ (List.getElem_mem hk')
  rw [locTask_eq (locTask_ok h1)] at h1
  simp only [leaveOut, hlo, if_true, WMat.clearDiag, denseTask] at h1
  split at h1
  · cases h1
  rename_i hc
  have hc : D.c = X.r := not_not.1 hc
  have hg : ∀ j < D.c, (if i = j then 0 else D.get i j) = if i = j then 0 else w := by
    intro j hj
    rw [hw i hi j hj]
  rw [nonzeroIdx_others hw0.ne' hg, hc] at h1
  have e : (othersOf X.r i).map (fun j => if i = j then 0 else D.get i j) =
      (othersOf X.r i).map fun _ => w := by
    apply List.map_congr_left
    intro j hj
    obtain ⟨h2, h3⟩ := List.mem_filter.1 hj
    have h3 : j ≠ i := by simpa using h3
    rw [if_neg (Ne.symm h3), hw i hi j (hc ▸ List.mem_range.1 h2)]
  rw [e] at h1
  unfold fitLocal at h1
  rw [hclone _ 0] at h1
  have hy : (fun j => y.getD j 0) = yfun y := rfl
  rw [hy]
  have hsc : ScaleFree L → L.fit 0 ((othersOf X.r i).map X.row) ((othersOf X.r i).map (yfun y))
      ((othersOf X.r i).map fun _ => 1) =
      L.fit 0 ((othersOf X.r i).map X.row) ((othersOf X.r i).map (yfun y))
        ((othersOf X.r i).map fun _ => w) := by
    intro hsf
    rw [← hsf 0 _ _ ((othersOf X.r i).map fun _ => 1) w hw0, List.map_map]
    simp only [Function.comp_def, mul_one]
  cases hg' : L.fit 0 ((othersOf X.r i).map X.row) ((othersOf X.r i).map (yfun y))
      ((othersOf X.r i).map fun _ => w) with
  | error e => rw [hg'] at h1; cases h1
  | ok f =>
    rw [hg'] at h1
    have h1 := Except.ok.inj h1
    refine ⟨f, rfl, fun hsf => (hsc hsf).trans hg', ?_⟩
    have hkr : k < res.length := by omega
    simp [hkr, ← h1]

/-- C97, new points by fitting: when the new points get equal weights from all training rows,
`predict_by_fit` gives the prediction of the one model fitted to all training rows. -/
theorem C97_predict_by_fit (L : Learner K F) (hclone : ∀ e e', L.fit e = L.fit e')
    (p : WMParams K C) (st : WMState K F C)
    (Xn : Mat K) (cn ct : C) (ps : List K) (h : predictByFit L p st Xn (some cn) none = .ok ps)
    (X : Mat K) (y : List K) (hyl : y.length = X.r) (hX : st.X = some X) (hyc : st.y = some y)
    (hc : st.coords = some ct) (M : Mat K) (hM : p.weights ct cn = .ok M)
    (w : K) (hw0 : 0 < w) (hw : ∀ j < M.r, ∀ i < M.c, M.get j i = w) (hMc : 0 < M.c) :
    ∃ f, L.fit 0 ((List.range X.r).map X.row) y (List.replicate X.r w) = .ok f ∧
      (ScaleFree L → L.fit 0 ((List.range X.r).map X.row) y (List.replicate X.r 1) = .ok f) ∧
      ps = (List.range M.c).map fun i => L.predict f (Xn.row i) := by
  unfold predictByFit at h
  split at h
  · cases h
  simp only [guard, bind, Except.bind, predictFitWeights, hc, hM, cachedData, hX, hyc,
    Except.map] at h
  cases hf : fitAll L X (fun i => y.getD i 0) (some Xn) (.dense M.transpose) Xn.r none none none
      p.cpu with
  | error e => rw [hf] at h; cases h
  | ok res =>
    rw [hf] at h
    injection h with h
    subst h
    unfold fitAll at hf
    simp only [Option.getD_none, Option.getD_some] at hf
    have hm := runPatches_ok hf
    have hr : (WMat.dense M.transpose).r = M.c := rfl
    have hlen : res.length = M.c := by
      rw [mapE_length hm, List.length_range, hr]
    have hyr : (List.range X.r).map (fun i => y.getD i 0) = y := by
      apply List.ext_getElem (by simp [hyl])
      intro k h1 h2
      simp [h2]
    have htask : ∀ i (hi : i < M.c),
        (L.fit 0 ((List.range X.r).map X.row) y (List.replicate X.r w)).map
          (fun f => (L.predict f (Xn.row i), f)) = .ok (res[i]'(by omega)) := by
      intro i hi
      have h1 := mapE_get hm (i := i) (by simpa [hr] using hi)
      simp only [List.getElem_range] at h1
      rw [locTask_eq (locTask_ok h1)] at h1
      simp only [denseTask] at h1
      split at h1
      · cases h1
      rename_i hc
      have hc : M.r = X.r := not_not.1 hc
      have hc' : M.transpose.c = M.r := rfl
      have hg : ∀ j < M.r, M.transpose.get i j = w := fun j hj => hw j hj i hi
      rw [hc', nonzeroIdx_all fun j hj => by rw [hg j hj]; exact hw0.ne'] at h1
      have e : (List.range M.r).map (M.transpose.get i) = List.replicate X.r w := by
        rw [← hc]
        apply List.ext_getElem (by simp)
        intro j h1 h2
        have : j < M.r := by simpa using h1
        simp [hg j this]
      rw [e, hc] at h1
      unfold fitLocal at h1
      rw [hyr, hclone _ 0] at h1
      exact h1
    cases hg : L.fit 0 ((List.range X.r).map X.row) y (List.replicate X.r w) with
    | error e =>
      have := htask 0 hMc
      rw [hg] at this
      cases this
    | ok f =>
      refine ⟨f, rfl, fun hsf => ?_, ?_⟩
      · rw [← hg, ← hsf 0 ((List.range X.r).map X.row) y (List.replicate X.r 1) w hw0]
        simp
      · apply List.ext_getElem (by simp [hlen])
        intro k h1 h2
        have := htask k (by simpa using h2)
        rw [hg] at this
        have := Except.ok.inj this
        simp [← this]

/-- C97, new points by averaging: after a fit with equal weights and the locations kept,
`predict_by_weight` gives the prediction of the global model at every point that gets some weight. -/
theorem C97_predict_by_weight (L : Learner K F) (hclone : ∀ e e', L.fit e = L.fit e')
    (lib : Lib K) (hl : lib.Nonneg) (env : Env K)
    (he : env.Ok) (fs : Disk K) (ms : Param (Option String)) (wp : WParams K)
    (rng : Rng S) (hrng : rng.Valid) (p : WMParams K (List (Mat K)))
    (hp : p.weights = pointSource lib env fs ms wp) (hd : p.cacheData = true)
    (hce : p.cacheEstimator = true) (hrate : p.sampleRate = none)
    (st : WMState K F (List (Mat K))) (s : S) (X : Mat K) (y : List K)
    (t : List (Mat K)) (W : Option (WMat K))
    (hok : (wmFit L rng p st s X y (some t) W).result = .ok ())
    {D : Mat K}
    (hD : (wmFit L rng p st s X y (some t) W).state.weightMatrix = some (.dense D))
    (w : K) (hw0 : 0 < w) (hw : ∀ i < X.r, ∀ j < D.c, D.get i j = w)
    (Xn : Mat K) (cn : List (Mat K)) (hm : cn.length ≤ (ms.expand cn.length).length)
    (hr : ∀ s ∈ cn, 0 < s.r) (hb : ∀ b, some b ∈ wp.bandwidth.expand cn.length → 0 ≤ b)
    (M : Mat K) (hM : pointSource lib env fs ms wp cn t = .ok M) (hMr : M.r = Xn.r)
    (hMc : M.c = X.r) (i : Nat) (hi : i < Xn.r) (hin : ∃ j < M.c, M.get i j ≠ 0) :
    ∃ f ps, L.fit 0 ((List.range X.r).map X.row) y (List.replicate X.r w) = .ok f ∧
      (ScaleFree L → L.fit 0 ((List.range X.r).map X.row) y (List.replicate X.r 1) = .ok f) ∧
      predictByWeight L p (wmFit L rng p st s X y (some t) W).state Xn (some cn) none = .ok ps ∧
      ps[i]? = some (L.predict f (Xn.row i)) := by
  obtain ⟨W0, idx0, s', res, sc, hck, hW0, hs, hf, hlen, -, hsc, hout⟩ := wmFit_ok hok
  have hidx : idx0 = List.range X.r := by
    rw [hrate] at hs
    cases hs
    rfl
  obtain ⟨f, h1, h2, -, h4⟩ := C97_global_model L hclone rng hrng p (by simp [hrate]) (.inr hrate) st
    s X y (some t) W hok (D := D) (idx := List.range X.r) hD (by rw [hout, hidx]) w hw0 hw
  have hX0 : 0 < X.r := (of_decide_eq_true hck).2.1
  obtain ⟨ps, h5, h6⟩ := C43_common_value L lib hl env he fs ms wp p hp _ Xn cn t M
    ((List.range X.r).map fun _ => f) hd hce (by rw [h4 hce, List.map_map]; rfl)
    (by intro h; simp at h; omega) (by rw [hout]; simp [stateBegin, hd]) hm hr hb hM hMr
    (by simpa using hMc) hi hin (L.predict f (Xn.row i))
    (by
      intro g hg
      obtain ⟨-, -, rfl⟩ := List.mem_map.1 hg
      rfl)
  exact ⟨f, ps, h1, h2, h5, h6⟩

/-! ### Example: five training locations on a line, all within reach -/

theorem meanLearner_scaleFree : ScaleFree meanLearner := by
  intro e rows ys ws a ha
  have h1 : (ws.map (a * ·)).sum = a * ws.sum := by
    simpa using List.sum_map_mul_left ws id a
  have h2 : ∀ (ws ys : List ℚ), (List.zipWith (· * ·) (ws.map (a * ·)) ys).sum =
      a * (List.zipWith (· * ·) ws ys).sum := by
    intro ws
    induction ws with
    | nil => simp
    | cons w ws ih =>
      intro ys
      cases ys with
      | nil => simp
      | cons y ys =>
        simp only [List.map_cons, List.zipWith_cons_cons, List.sum_cons, ih]
        ring
  simp only [meanLearner, h1, h2]
  by_cases h : ws.sum = 0
  · simp [h]
  · rw [if_neg h, if_neg (mul_ne_zero ha.ne' h), mul_div_mul_left _ _ ha.ne']

/-- Boxcar kernel with bandwidth 20: the squared distances among the five locations are at most 16. -/
def boxSource : List (Mat ℚ) → List (Mat ℚ) → Except Err (Mat ℚ) :=
  pointSource exLib ratEnv (fun _ => none) (.scalar (some "sqeuclidean"))
    { kernel := .scalar "boxcar", bandwidth := .scalar (some 20) }
def boxP : WMParams ℚ (List (Mat ℚ)) :=
  { cacheData := true, cacheEstimator := true, leaveLocalOut := false, cpu := 2, weights := boxSource }

example : meanLearner.fit 0 = meanLearner.fit 3 ∧
    okAnd (boxSource exTrain exTrain) (fun M => (List.range 5).all fun i => (List.range 5).all fun j =>
      decide (M.get i j = 1 / 5)) = true ∧
    (wmFit meanLearner countRng boxP {} 0 exX5 exY5 (some exTrain) none).result = .ok () ∧
    (wmFit meanLearner countRng boxP {} 0 exX5 exY5 (some exTrain) none).state.localPredict =
      some [18 / 5, 18 / 5 + 1, 18 / 5 + 4, 18 / 5 + 9, 18 / 5 + 16] :=
  ⟨rfl, by decide +kernel, by decide +kernel, by decide +kernel⟩

/-- Left out: the mean of the other four rows. -/
example : (wmFit meanLearner countRng { boxP with leaveLocalOut := true } {} 0 exX5 exY5
      (some exTrain) none).result = .ok () ∧
    (wmFit meanLearner countRng { boxP with leaveLocalOut := true } {} 0 exX5 exY5
      (some exTrain) none).state.localPredict =
      some [17 / 4, 13 / 4 + 1, 16 / 4 + 4, 11 / 4 + 9, 15 / 4 + 16] ∧
    othersOf 5 1 = [0, 2, 3, 4] :=
  ⟨by decide +kernel, by decide +kernel, by decide⟩

/-- The adaptive boxcar kernel with the fraction one and with all five targets reaches all as well. -/
example : (∀ D : Mat ℚ, D.c = 5 → ReachesAll D "boxcar" none (some (.int 5)) ∧
      ReachesAll D "boxcar" none (some (.float 1))) ∧
    okAnd (pointSource exLib ratEnv (fun _ => none) (.scalar (some "sqeuclidean"))
      { kernel := .scalar "boxcar", count := .scalar (some (.int 5)) } exTrain exTrain)
      (fun M => decide (M.get 0 4 = 1 / 5)) = true := by
  refine ⟨fun D h => ⟨.inr ⟨rfl, .inr ⟨rfl, .inl (by rw [h]; rfl)⟩⟩, .inr ⟨rfl, .inr ⟨rfl, .inr rfl⟩⟩⟩, ?_⟩
  decide +kernel

end Geo
