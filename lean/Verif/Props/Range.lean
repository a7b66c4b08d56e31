import Verif.Props.Exactness
import Verif.Props.Refit
import Verif.Props.StackingRidge
import Verif.Props.TargetUnits
/-
Property C115: regressors that average stay within the range of the targets they see; what this means
for the predictions of the models.
-/
set_option linter.unusedSectionVars false
namespace Geo
variable {K : Type} [Field K] [LinearOrder K] [IsStrictOrderedRing K] [FloorRing K]
variable {F G C S : Type}

/-- A regressor whose predictions stay within the range of the targets it was fitted on, when the
sample weights are not negative: trees, forests, nearest neighbours, the mean. In particular it
refuses to be fitted on no observations at all. -/
def WithinTargets (L : Learner K F) : Prop :=
  ∀ e rows ys ws f, L.fit e rows ys ws = .ok f → (∀ w ∈ ws, 0 ≤ w) →
    ∀ lo hi, (∀ v ∈ ys, lo ≤ v ∧ v ≤ hi) → ∀ x, lo ≤ L.predict f x ∧ L.predict f x ≤ hi

theorem denseTask_within {L : Learner K F} (hL : WithinTargets L) {X : Mat K} {y : Nat → K}
    {Xp W : Mat K} {e i : Nat} {v : K × F} (h : denseTask L X y Xp W e i = .ok v)
    (hw : ∀ j < X.r, 0 ≤ W.get i j) {lo hi : K}
    (hy : ∀ j < X.r, W.get i j ≠ 0 → lo ≤ y j ∧ y j ≤ hi) :
    v.1 = L.predict v.2 (Xp.row i) ∧ ∀ x, lo ≤ L.predict v.2 x ∧ L.predict v.2 x ≤ hi := by
  unfold denseTask at h
  split at h
  · cases h
  rename_i hc
  push Not at hc
  unfold fitLocal at h
  obtain ⟨f, hf, rfl⟩ := Except.map_ok_iff.1 h
  refine ⟨rfl, hL _ _ _ _ _ hf ?_ lo hi ?_⟩
  · intro w hwm
    obtain ⟨j, hj, rfl⟩ := List.mem_map.1 hwm
    simp only [nonzeroIdx, List.mem_filter, List.mem_range, hc] at hj
    exact hw j hj.1
  · intro u hu
    obtain ⟨j, hj, rfl⟩ := List.mem_map.1 hu
    simp only [nonzeroIdx, List.mem_filter, List.mem_range, hc, decide_eq_true_eq] at hj
    exact hy j hj.1 hj.2

/-- C115: the local predictions of a fit, and all later predictions of the stored local models, lie
between any bounds of the targets of the location's neighbours. -/
theorem C115_local_predictions (L : Learner K F) (hL : WithinTargets L) (rng : Rng S)
    (p : WMParams K C) (hal : p.nJobs = none ∨ p.sampleRate = none) (st : WMState K F C) (s : S)
    (X : Mat K) (y : List K) (coords : Option C) (W : Option (WMat K))
    (hok : (wmFit L rng p st s X y coords W).result = .ok ()) {D : Mat K} {idx : List Nat}
    (hD : (wmFit L rng p st s X y coords W).state.weightMatrix = some (.dense D))
    (hidx : (wmFit L rng p st s X y coords W).state.localIndices = some idx)
    (hw : ∀ i ∈ idx, ∀ j < X.r, 0 ≤ D.get i j) :
    ∃ ps : List K, (wmFit L rng p st s X y coords W).state.localPredict = some ps ∧
      ps.length = idx.length ∧
      ∀ (k i : Nat), idx[k]? = some i → ∀ lo hi : K,
        (∀ j < X.r, D.get i j ≠ 0 → lo ≤ y.getD j 0 ∧ y.getD j 0 ≤ hi) →
        (∃ v, ps[k]? = some v ∧ lo ≤ v ∧ v ≤ hi) ∧
        (p.cacheEstimator = true → ∃ (es : List (Option F)) (f : F),
          (wmFit L rng p st s X y coords W).state.estimators = some es ∧ es[k]? = some (some f) ∧
          ∀ x, lo ≤ L.predict f x ∧ L.predict f x ≤ hi) := by
  obtain ⟨W0, idx0, s', res, sc, hck, hW0, hs, hf, hl, -, hsc, hout⟩ := wmFit_ok hok
  rw [hout] at hD hidx ⊢
  have hD : leaveOut p W0 = .dense D := Option.some.inj hD
  have hidx : idx0 = idx := Option.some.inj hidx
  subst hidx
  have hm := fitAll_ok hf (aligned_of hW0 hs (hal.imp id .inl)) hl
  refine ⟨_, rfl, by simpa using hl, fun k i hki lo hi hy => ?_⟩
  obtain ⟨hk, hi0⟩ := List.getElem?_eq_some_iff.1 hki
  have h1 := mapE_get hm hk
  rw [hi0, locTask_eq (locTask_ok h1)] at h1
  simp only [hD] at h1
  have hmem : i ∈ idx0 := hi0 ▸ List.getElem_mem hk
  obtain ⟨h2, h3⟩ := denseTask_within hL h1 (hw i hmem) hy
  have hk' : k < res.length := by omega
  refine ⟨⟨_, by rw [List.getElem?_map, List.getElem?_eq_getElem hk']; rfl, ?_⟩, fun hce => ?_⟩
  · rw [h2]; exact h3 _
  · exact ⟨_, _, rfl, by rw [List.getElem?_map, List.getElem?_eq_getElem hk']; simp [hce], h3⟩

/-- C115: so a residual is at most the spread of the targets among the location and its
neighbours. -/
theorem C115_residuals (L : Learner K F) (hL : WithinTargets L) (rng : Rng S)
    (p : WMParams K C) (hrate : p.sampleRate = none) (st : WMState K F C) (s : S)
    (X : Mat K) (y : List K) (coords : Option C) (W : Option (WMat K))
    (hok : (wmFit L rng p st s X y coords W).result = .ok ()) {D : Mat K}
    (hD : (wmFit L rng p st s X y coords W).state.weightMatrix = some (.dense D))
    (hw : ∀ i < X.r, ∀ j < X.r, 0 ≤ D.get i j) :
    ∃ rs : List K, (wmFit L rng p st s X y coords W).state.residual = some rs ∧
      rs.length = X.r ∧ ∀ i < X.r, ∀ lo hi,
        (∀ j < X.r, D.get i j ≠ 0 ∨ j = i → lo ≤ y.getD j 0 ∧ y.getD j 0 ≤ hi) →
        ∃ v, rs[i]? = some v ∧ |v| ≤ hi - lo := by
  obtain ⟨W0, idx0, s', res, sc, hck, hW0, hs, hf, hl, -, hsc, hout⟩ := wmFit_ok hok
  rw [hrate] at hs
  have hidx := sampleLocations_all hs
  subst hidx
  obtain ⟨ps, h1, h2, h3⟩ := C115_local_predictions L hL rng p (.inr hrate) st s X y coords W hok hD
    (idx := List.range X.r) (by rw [hout]) fun i hi => hw i (by simpa using hi)
  rw [hout] at h1
  have h1 : res.map Prod.fst = ps := Option.some.inj h1
  refine ⟨_, by rw [hout], by simp [hl], fun i hi lo hi' hy => ?_⟩
  obtain ⟨⟨v, hv, hv1, hv2⟩, -⟩ := h3 i i (by simp [hi]) lo hi' fun j hj hne => hy j hj (.inl hne)
  have ho := hy i hi (.inr rfl)
  refine ⟨y.getD i 0 - v, ?_, ?_⟩
  · rw [h1, List.getElem?_zipWith, hv]
    simp [hi]
  · rw [abs_le]; constructor <;> linarith [ho.1, ho.2]

theorem weighted_between' {n : Nat} {w v : Nat → K} {lo hi : K} (hw : ∀ j < n, 0 ≤ w j)
    (hs : ((List.range n).map w).sum = 1) (hv : ∀ j < n, w j ≠ 0 → lo ≤ v j ∧ v j ≤ hi) :
    lo ≤ ((List.range n).map fun j => w j * v j).sum ∧
      ((List.range n).map fun j => w j * v j).sum ≤ hi := by
  have e : ((List.range n).map fun j => w j * v j) =
      (List.range n).map fun j => w j * (if w j = 0 then lo else v j) := by
    apply List.map_congr_left
    intro j _
    split
    · rename_i h; rw [h, zero_mul, zero_mul]
    · rfl
  have hlh : lo ≤ hi := by
    by_contra hc
    have : ∀ j < n, w j = 0 := by
      intro j hj
      by_contra h0
      exact hc ((hv j hj h0).1.trans (hv j hj h0).2)
    rw [List.sum_eq_zero] at hs
    · exact zero_ne_one hs
    · intro x hx
      obtain ⟨j, hj, rfl⟩ := List.mem_map.1 hx
      exact this j (by simpa using hj)
  rw [e]
  apply weighted_between hw hs
  intro j hj
  split
  · exact ⟨le_rfl, hlh⟩
  · rename_i h; exact hv j hj h

/-- C115: `predict_by_weight` at a new point with coordinates lies between any bounds of the targets
of the neighbours of those training locations that are in range of the point; if none is in range the
prediction is 0, whatever the targets are. -/
theorem C115_predict_by_weight (L : Learner K F) (hL : WithinTargets L) (lib : Lib K)
    (hl : lib.Nonneg) (env : Env K)
    (he : env.Ok) (fs : Disk K) (ms : Param (Option String)) (wp : WParams K)
    (rng : Rng S) (p : WMParams K (List (Mat K)))
    (hp : p.weights = pointSource lib env fs ms wp) (hd : p.cacheData = true)
    (hce : p.cacheEstimator = true) (hrate : p.sampleRate = none)
    (st : WMState K F (List (Mat K))) (s : S) (X : Mat K) (y : List K)
    (t : List (Mat K)) (W : Option (WMat K))
    (hok : (wmFit L rng p st s X y (some t) W).result = .ok ()) {D : Mat K}
    (hD : (wmFit L rng p st s X y (some t) W).state.weightMatrix = some (.dense D))
    (hw : ∀ i < X.r, ∀ j < X.r, 0 ≤ D.get i j)
    (Xn : Mat K) (cn : List (Mat K)) (hm : cn.length ≤ (ms.expand cn.length).length)
    (hr : ∀ s ∈ cn, 0 < s.r) (hb : ∀ b, some b ∈ wp.bandwidth.expand cn.length → 0 ≤ b)
    (M : Mat K) (hM : pointSource lib env fs ms wp cn t = .ok M) (hMr : M.r = Xn.r)
    (hMc : M.c = X.r) :
    ∃ ps, predictByWeight L p (wmFit L rng p st s X y (some t) W).state Xn (some cn) none = .ok ps ∧
      ps.length = Xn.r ∧ ∀ i < Xn.r,
        ((∀ k < X.r, M.get i k = 0) → ps[i]? = some 0) ∧
        ((∃ k < X.r, M.get i k ≠ 0) → ∀ lo hi,
          (∀ k < X.r, M.get i k ≠ 0 → ∀ j < X.r, D.get k j ≠ 0 →
            lo ≤ y.getD j 0 ∧ y.getD j 0 ≤ hi) →
          ∃ v, ps[i]? = some v ∧ lo ≤ v ∧ v ≤ hi) := by
  obtain ⟨W0, idx0, s', res, sc, hck, hW0, hs, hf, hlen, -, hsc, hout⟩ := wmFit_ok hok
  rw [hrate] at hs
  have hidx := sampleLocations_all hs
  subst hidx
  have hlen' : res.length = X.r := by simpa using hlen
  have hX0 : 0 < X.r := (of_decide_eq_true hck).2.1
  obtain ⟨_, -, -, h3⟩ := C115_local_predictions L hL rng p (.inr hrate) st s X y (some t) W hok hD
    (idx := List.range X.r) (by rw [hout]) fun i hi => hw i (by simpa using hi)
  have hest : (wmFit L rng p st s X y (some t) W).state.estimators =
      some ((res.map Prod.snd).map some) := by
    rw [hout]; simp [hce]
  refine ⟨_, C43_weighted_sum L p _ Xn cn t M (res.map Prod.snd) hd hce hest ?_
    (fit_cached hd hok).2.2 (by rw [hp]; exact hM) hMr (by simp [hMc, hlen']), by simp, fun i hi => ?_⟩
  · intro h
    have := congrArg List.length h
    simp at this
    rw [this] at hlen'
    simp at hlen'
    omega
  have hz : (List.zipWith (fun w f => w * L.predict f (Xn.row i)) (M.row i) (res.map Prod.snd)).sum =
      ((List.range X.r).map fun k => M.get i k *
        ((res[k]?.map fun r => L.predict r.2 (Xn.row i)).getD 0)).sum := by
    congr 1
    apply List.ext_getElem
    · simp [hMc, hlen']
    · intro k h1 h2
      have hk : k < res.length := by simpa [hlen'] using h2
      simp [Mat.row, hk]
  obtain ⟨h0, hsum⟩ := pointSource_rows lib hl env he fs ms wp cn t hm hr hb M hM i (hMr ▸ hi)
  rw [hMc] at h0 hsum
  rw [List.getElem?_map, List.getElem?_range hi, Option.map_some, hz]
  refine ⟨fun hall => ?_, fun ⟨k, hk, hne⟩ lo hi' hy => ⟨_, rfl, ?_⟩⟩
  · congr 1
    apply List.sum_eq_zero
    intro x hx
    obtain ⟨j, hj, rfl⟩ := List.mem_map.1 hx
    rw [hall j (by simpa using hj), zero_mul]
  · refine weighted_between' h0 (hsum.resolve_right fun h => hne (h k hk)) fun k hk hne => ?_
    obtain ⟨es, f, he1, he2, he3⟩ :=
      (h3 k k (by simp [hk]) lo hi' fun j hj => hy k hk hne j hj).2 hce
    rw [hest] at he1
    injection he1 with he1
    subst he1
    rw [List.getElem?_map, List.getElem?_map] at he2
    have hk' : k < res.length := by omega
    rw [List.getElem?_eq_getElem hk'] at he2 ⊢
    simp only [Option.map_some, Option.some.injEq] at he2
    simp only [Option.map_some, Option.getD_some, he2]
    exact he3 _

/-- C115: `predict_by_fit` at a new point lies between any bounds of the targets of the training
points that have a weight for it. -/
theorem C115_predict_by_fit (L : Learner K F) (hL : WithinTargets L) (p : WMParams K C)
    (st : WMState K F C)
    (Xn : Mat K) (cn ct : C) (ps : List K) (h : predictByFit L p st Xn (some cn) none = .ok ps)
    (X : Mat K) (y : List K) (hX : st.X = some X) (hyc : st.y = some y)
    (hc : st.coords = some ct) (M : Mat K) (hM : p.weights ct cn = .ok M)
    (i : Nat) (hi : i < M.c) (hw : ∀ j < X.r, 0 ≤ M.get j i) (lo hi' : K)
    (hy : ∀ j < X.r, M.get j i ≠ 0 → lo ≤ y.getD j 0 ∧ y.getD j 0 ≤ hi') :
    ∃ v, ps[i]? = some v ∧ lo ≤ v ∧ v ≤ hi' := by
  unfold predictByFit at h
  split at h
  · cases h
  simp only [guard, bind, Except.bind, predictFitWeights, hc, hM, cachedData, hX, hyc,
    Except.map] at h
  cases hf : fitAll L X (fun i => y.getD i 0) (some Xn) (.dense M.transpose) Xn.r none none none
      p.cpu with
  | error e => rw [hf] at h; cases h
  | ok res =>
    rw [hf] at h
    injection h with h
    subst h
    unfold fitAll at hf
    simp only [Option.getD_none, Option.getD_some] at hf
    have hm := runPatches_ok hf
    have hr : (WMat.dense M.transpose).r = M.c := rfl
    have hi2 : i < (List.range (WMat.dense M.transpose).r).length := by simpa [hr] using hi
    have h1 := mapE_get hm hi2
    simp only [List.getElem_range] at h1
    rw [locTask_eq (locTask_ok h1)] at h1
    simp only at h1
    obtain ⟨h2, h3⟩ := denseTask_within hL h1 hw hy
    have hlen : i < res.length := by
      rw [mapE_length hm]
      exact hi2
    exact ⟨_, by rw [List.getElem?_map, List.getElem?_eq_getElem hlen]; rfl, by rw [h2]; exact h3 _⟩

/-- C115: a stacked prediction lies within the range of the targets of the other neighbours if the
*meta* estimator averages; the base estimators do not matter. -/
theorem C115_stacking (L : Learner K F) (M Mn : Learner K G) (rng : Rng S)
    (p : SParams K C) (hM : WithinTargets (if p.useNumba then Mn else M)) (st : SState K F G C) (s : S)
    (X : Mat K) (y : List K) (coords : Option C) (W : Option (WMat K)) (W0 : WMat K) (W1 : Mat K)
    (hW0 : chosenWeights p.toWMParams coords W = .ok W0)
    (hW1 : shrinkMetaDense p.metaShrink W0.toMat = .ok W1)
    (hest : p.estimatorRate = none ∨ ∃ A, W = some (.sparse A)) (hW : SparseFine rng p W)
    (h : (stackFit L M Mn rng p st s X y coords W).result = .ok ()) :
    ∃ ps : List K, (stackFit L M Mn rng p st s X y coords W).state.stackPredictions = some ps ∧
      ∀ i < X.r, 0 < W1.get i i → ∀ lo hi,
        (∀ j < X.r, j ≠ i → 0 < W1.get i j → lo ≤ y.getD j 0 ∧ y.getD j 0 ≤ hi) →
        ∃ v, ps[i]? = some v ∧ lo ≤ v ∧ v ≤ hi := by
  obtain ⟨V, rate, Sm, V1, bases, ps, es, e1, e2, e3, e4, -, e6, e7, e8⟩ :=
    C50_genuine_predictions L M Mn rng p st s X y coords W hest hW h
  rw [hW0] at e1
  injection e1 with e1
  subst e1
  rw [hW1] at e4
  injection e4 with e4
  subst e4
  refine ⟨ps, e6, fun i hi hii lo hi' hy => ?_⟩
  obtain ⟨g, ⟨_, hg⟩, _, hp⟩ := e8.fitted i hi
  refine ⟨_, hp hii, hM _ _ _ _ _ hg ?_ lo hi' ?_ _⟩
  · intro w hw
    obtain ⟨j, hj, rfl⟩ := List.mem_map.1 hw
    simp only [List.mem_filter, decide_eq_true_eq] at hj
    exact hj.2.1.le
  · intro v hv
    obtain ⟨j, hj, rfl⟩ := List.mem_map.1 hv
    simp only [List.mem_filter, List.mem_range, decide_eq_true_eq] at hj
    exact hy j hj.1 hj.2.2 hj.2.1

/-- C115: ridge regression, the meta estimator of the package, does not average, however strong the
penalty: fitted on targets 0 and 1 it predicts more than 1 somewhere. -/
theorem C115_ridge_extrapolates (alpha : ℝ) (ha : 0 < alpha) (M : Learner ℝ (List ℝ × ℝ))
    (hM : IsRidge alpha M) : ¬ WithinTargets M := by
  intro hin
  obtain ⟨c, b, hf, hc, hmin⟩ := hM.fit [[0], [1]] [0, 1] [1, 1] 1 (by simp) one_pos (by simp)
    (by simp) (by simp) (by simp)
  obtain ⟨c0, rfl⟩ := List.length_eq_one_iff.1 hc
  have hcost : ∀ u v : ℝ, ridgeCost alpha [[0], [1]] [0, 1] [1, 1] [u] v =
      v ^ 2 + (1 - u - v) ^ 2 + alpha * u ^ 2 := by
    intro u v
    simp [ridgeCost, List.range_succ]
  have hm := hmin [1 / (1 + 2 * alpha)] (alpha / (1 + 2 * alpha)) rfl
  rw [hcost, hcost] at hm
  have hpos : 0 < 1 + 2 * alpha := by linarith
  have hval : (alpha / (1 + 2 * alpha)) ^ 2 +
      (1 - 1 / (1 + 2 * alpha) - alpha / (1 + 2 * alpha)) ^ 2 +
      alpha * (1 / (1 + 2 * alpha)) ^ 2 = alpha / (1 + 2 * alpha) := by
    field_simp
    ring
  have hlt : alpha / (1 + 2 * alpha) < 1 / 2 := by
    rw [div_lt_div_iff₀ hpos two_pos]; linarith
  have hc0 : 0 < c0 := by
    by_contra hneg
    push Not at hneg
    rw [hval] at hm
    nlinarith [sq_nonneg (b - (1 - c0 - b)), sq_nonneg c0, mul_nonneg ha.le (sq_nonneg c0)]
  have := (hin 0 _ _ _ _ hf (by simp) 0 1 (by simp) [(1 - b) / c0 + 1]).2
  rw [hM.predict] at this
  simp only [List.zipWith_cons_cons, List.zipWith_nil_right, List.sum_cons, List.sum_nil,
    add_zero] at this
  rw [add_mul, div_mul_cancel₀ _ hc0.ne', one_mul] at this
  linarith

example : ∃ M : Learner ℝ (List ℝ × ℝ), IsRidge 10 M := ⟨_, numbaRidge_isRidge (by norm_num)⟩

/-! ### Examples -/

theorem localMean_within : WithinTargets localMean := by
  intro e rows ys ws f hf hw lo hi hy x
  simp only [localMean] at hf
  split at hf
  · cases hf
  rename_i hg
  push Not at hg
  injection hf with hf
  have key : ∀ (w y : List ℚ), y.length = w.length → (∀ u ∈ w, 0 ≤ u) →
      (∀ v ∈ y, lo ≤ v ∧ v ≤ hi) → lo * w.sum ≤ (List.zipWith (· * ·) w y).sum ∧
        (List.zipWith (· * ·) w y).sum ≤ hi * w.sum ∧ 0 ≤ w.sum := by
    intro w
    induction w with
    | nil => intro y _ _ _; simp
    | cons a w ih =>
      intro y hl hw hy
      cases y with
      | nil => simp at hl
      | cons b y =>
        obtain ⟨h1, h2, h3⟩ := ih y (by simpa using hl) (fun u hu => hw u (by simp [hu]))
          fun v hv => hy v (by simp [hv])
        have ha := hw a (by simp)
        have hb := hy b (by simp)
        simp only [List.zipWith_cons_cons, List.sum_cons]
        have e1 := mul_le_mul_of_nonneg_left hb.1 ha
        have e2 := mul_le_mul_of_nonneg_left hb.2 ha
        refine ⟨?_, ?_, ?_⟩ <;> nlinarith
  obtain ⟨h1, h2, h3⟩ := key ws ys hg.2 hw hy
  have hpos : 0 < ws.sum := lt_of_le_of_ne h3 (Ne.symm hg.1)
  show lo ≤ f ∧ f ≤ hi
  rw [← hf, le_div_iff₀ hpos, div_le_iff₀ hpos]
  exact ⟨h1, h2⟩

/-- C115: the hypotheses are met by local means of the targets 1, 5, 2, 7, 3: the local predictions
are within the range, the new point in range of some locations too; the points out of range get 0,
which is below all targets. -/
example :
    let o := wmFit localMean countRng exPc {} 0 exX5 exY5 (some exTrain) none
    o.result = .ok () ∧
    o.state.localPredict =
      some [32822 / 8609, 79878 / 27019, 8102 / 1873, 84646 / 27019, 42262 / 8609] ∧
    (o.state.weightMatrix.map fun W => (List.range 5).all fun i => (List.range 5).all fun j =>
      decide (0 ≤ W.toMat.get i j)) = some true ∧
    okAnd (exSource exNew exTrain) (fun M => M.r == 3 && M.c == 5 && decide (M.get 0 1 ≠ 0)) = true ∧
    okAnd (predictByWeight localMean exPc o.state exXnew (some exNew) none)
      (fun ps => decide (1 ≤ ps.getD 0 0 ∧ ps.getD 0 0 ≤ 7 ∧ ps.getD 1 1 = 0 ∧ ps.getD 2 1 = 0)) =
        true := by
  decide +kernel

/-- C115: a stacking fit whose meta estimator averages. -/
example :
    (stackFit meanLearner localMean localMean rotRng seP ({} : SState ℚ ℚ ℚ Unit) 0 seX seY none
      (some (.dense seW))).result = .ok () ∧ WithinTargets localMean ∧ ¬ WithinTargets meanLearner := by
  refine ⟨by decide +kernel, localMean_within, fun h => ?_⟩
  have := (h 0 [[1]] [0] [1] 0 (by decide +kernel) (by decide +kernel) 0 0 (by decide +kernel) [1]).2
  exact absurd this (by decide +kernel)

end Geo
