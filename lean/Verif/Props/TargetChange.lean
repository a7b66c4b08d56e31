import Verif.Props.Superposition
import Verif.Props.Range
/-
C160: how much the predictions change when the targets change.
-/
set_option linter.unusedSectionVars false
namespace Geo
variable {K : Type} [Field K] [LinearOrder K] [IsStrictOrderedRing K] [FloorRing K]
  {F C S : Type}

/-- A regressor that follows its targets: if, on the same rows with the same weights, every target moves
by at least `lo` and at most `hi`, so does every prediction. With `lo = 0` predictions never fall when
targets rise; with `-ε` and `ε` predictions move no further than targets. The mean, nearest neighbours
and trees of fixed shape do; least squares and ridge regression do not. -/
def FollowsTargets (L : Learner K F) : Prop :=
  ∀ e rows ys ys' ws f f', ys.length = rows.length → ys'.length = rows.length →
    L.fit e rows ys ws = .ok f → L.fit e rows ys' ws = .ok f' → (∀ w ∈ ws, 0 ≤ w) →
    ∀ lo hi, (∀ k < rows.length, lo ≤ ys'.getD k 0 - ys.getD k 0 ∧ ys'.getD k 0 - ys.getD k 0 ≤ hi) →
      ∀ x, lo ≤ L.predict f' x - L.predict f x ∧ L.predict f' x - L.predict f x ≤ hi

/-- The same, for targets and weights of selected observations. -/
theorem FollowsTargets.sel {L : Learner K F} (hL : FollowsTargets L) {e : Nat} {T : List Nat} {X : Mat K}
    {y y' w : Nat → K} {f f' : F} (hf : L.fit e (T.map X.row) (T.map y) (T.map w) = .ok f)
    (hf' : L.fit e (T.map X.row) (T.map y') (T.map w) = .ok f') (hw : ∀ j ∈ T, 0 ≤ w j) {lo hi : K}
    (h : ∀ j ∈ T, lo ≤ y' j - y j ∧ y' j - y j ≤ hi) (x : List K) :
    lo ≤ L.predict f' x - L.predict f x ∧ L.predict f' x - L.predict f x ≤ hi := by
  refine hL e _ _ _ _ f f' (by simp) (by simp) hf hf' ?_ lo hi ?_ x
  · intro u hu
    obtain ⟨j, hj, rfl⟩ := List.mem_map.1 hu
    exact hw j hj
  · intro k hk
    have hk : k < T.length := by simpa using hk
    have := h _ (List.getElem_mem hk)
    simpa [List.getD_eq_getElem?_getD, hk] using this

/-- C160: local predictions. Two fits on the same data but for the targets. At a fitted location the
change of the local prediction, and of anything its stored model predicts later, lies between any bounds
for the changes of the targets of the observations the location is trained on. -/
theorem C160_local_predictions (L : Learner K F) (hL : FollowsTargets L) (rng : Rng S) (p : WMParams K C)
    (hal : p.nJobs = none ∨ p.sampleRate = none) (st st' : WMState K F C) (s : S) (X : Mat K)
    (y y' : List K) (coords : Option C) (W : Option (WMat K)) (D : Mat K)
    (hD : chosenWeights p coords W = .ok (.dense D))
    (h : (wmFit L rng p st s X y coords W).result = .ok ())
    (h' : (wmFit L rng p st' s X y' coords W).result = .ok ()) :
    ∃ (idx : List Nat) (ps ps' : List K),
      (wmFit L rng p st s X y coords W).state.localIndices = some idx ∧
      (wmFit L rng p st' s X y' coords W).state.localIndices = some idx ∧
      (wmFit L rng p st s X y coords W).state.localPredict = some ps ∧
      (wmFit L rng p st' s X y' coords W).state.localPredict = some ps' ∧
      ps.length = idx.length ∧ ps'.length = idx.length ∧
      ∀ (k i : Nat), idx[k]? = some i → (∀ j < X.r, 0 ≤ D.get i j) → ∀ lo hi : K,
        (∀ j < X.r, D.get i j ≠ 0 → ¬ (p.leaveLocalOut = true ∧ j = i) →
          lo ≤ y'.getD j 0 - y.getD j 0 ∧ y'.getD j 0 - y.getD j 0 ≤ hi) →
        (lo ≤ ps'.getD k 0 - ps.getD k 0 ∧ ps'.getD k 0 - ps.getD k 0 ≤ hi) ∧
        (p.cacheEstimator = true → ∃ f f', 
          (wmFit L rng p st s X y coords W).state.estimators.bind (·[k]?) = some (some f) ∧
          (wmFit L rng p st' s X y' coords W).state.estimators.bind (·[k]?) = some (some f') ∧
          ∀ x, lo ≤ L.predict f' x - L.predict f x ∧ L.predict f' x - L.predict f x ≤ hi) := by
  obtain ⟨idx, s1, fs, hs, hy, hl, hix, hes, ⟨ps, hps, hpl, hrs, hpv⟩, hfit⟩ := fit_values hal hD h
  obtain ⟨idx', s1', fs', hs', hy', hl', hix', hes', ⟨ps', hps', hpl', hrs', hpv'⟩, hfit'⟩ :=
    fit_values hal hD h'
  rw [hs] at hs'
  cases hs'
  refine ⟨idx, ps, ps', hix, hix', hps, hps', hpl, hpl', fun k i hk hw lo hi hb => ?_⟩
  obtain ⟨hk', -⟩ := List.getElem?_eq_some_iff.1 hk
  have e1 := List.getElem?_eq_getElem (by omega : k < fs.length)
  have e2 := List.getElem?_eq_getElem (by omega : k < fs'.length)
  have hx := FollowsTargets.sel hL (hfit k i _ hk e1) (hfit' k i _ hk e2) (lo := lo) (hi := hi)
    (fun j hj => by
      simp only [trainingSet, List.mem_filter, List.mem_range] at hj
      exact hw j hj.1)
    (fun j hj => by
      simp only [trainingSet, List.mem_filter, List.mem_range, decide_eq_true_eq] at hj
      exact hb j hj.1 hj.2.1 hj.2.2)
  refine ⟨?_, fun hce => ?_⟩
  · rw [List.getD_eq_getElem?_getD, List.getD_eq_getElem?_getD, hpv k i _ hk e1, hpv' k i _ hk e2]
    exact hx _
  · simp only [hce, if_true] at hes hes'
    refine ⟨_, _, ?_, ?_, hx⟩
    · rw [hes, Option.bind_some, List.getElem?_map, e1, Option.map_some]
    · rw [hes', Option.bind_some, List.getElem?_map, e2, Option.map_some]

/-- C160: residuals. If no target moves by more than `ε`, no residual moves by more than `2 * ε`. -/
theorem C160_residuals (L : Learner K F) (hL : FollowsTargets L) (rng : Rng S) (hrng : rng.Valid)
    (p : WMParams K C) (hrate : ∀ r, p.sampleRate = some r → 0 ≤ r ∧ r ≤ 1)
    (hal : p.nJobs = none ∨ p.sampleRate = none) (st st' : WMState K F C) (s : S) (X : Mat K)
    (y y' : List K) (coords : Option C) (W : Option (WMat K)) (D : Mat K)
    (hD : chosenWeights p coords W = .ok (.dense D)) (hw : ∀ i < X.r, ∀ j < X.r, 0 ≤ D.get i j)
    (h : (wmFit L rng p st s X y coords W).result = .ok ())
    (h' : (wmFit L rng p st' s X y' coords W).result = .ok ()) (ε : K)
    (hε : ∀ j < X.r, |y'.getD j 0 - y.getD j 0| ≤ ε) :
    ∃ rs rs' : List K, (wmFit L rng p st s X y coords W).state.residual = some rs ∧
      (wmFit L rng p st' s X y' coords W).state.residual = some rs' ∧ rs.length = rs'.length ∧
      ∀ k < rs.length, |rs'.getD k 0 - rs.getD k 0| ≤ 2 * ε := by
  obtain ⟨idx, s1, fs, hs, hy, hl, hix, hes, ⟨ps, hps, hpl, hrs, hpv⟩, hfit⟩ := fit_values hal hD h
  obtain ⟨idx', s1', fs', hs', hy', hl', hix', hes', ⟨ps', hps', hpl', hrs', hpv'⟩, hfit'⟩ :=
    fit_values hal hD h'
  obtain ⟨idx0, q, q', h1, -, h3, h4, -, -, hall⟩ :=
    C160_local_predictions L hL rng p hal st st' s X y y' coords W D hD h h'
  rw [hix] at h1
  cases h1
  rw [hps] at h3
  cases h3
  rw [hps'] at h4
  cases h4
  rw [hs] at hs'
  cases hs'
  refine ⟨_, _, hrs, hrs', by simp [hpl, hpl'], fun k hk => ?_⟩
  have hk : k < idx.length := by simpa [hpl] using hk
  have hik : idx[k] < X.r := (sampleLocations_spec hrng hrate hs).2.1 _ (List.getElem_mem hk)
  have hb := (hall k idx[k] (List.getElem?_eq_getElem hk) (hw _ hik) (-ε) ε fun j hj _ _ =>
    abs_le.1 (hε j hj)).1
  have hy := abs_le.1 (hε _ hik)
  have e1 : ∀ (l : List K) (q : List K), q.length = idx.length →
      (List.zipWith (fun a b => a - b) (idx.map fun i => l.getD i 0) q).getD k 0 =
        l.getD idx[k] 0 - q.getD k 0 := by
    intro l q hq
    simp [List.getD_eq_getElem?_getD, hk, hq ▸ hk, List.getElem?_zipWith]
  rw [e1 y ps hpl, e1 y' ps' hpl', abs_le]
  constructor <;> linarith [hb.1, hb.2, hy.1, hy.2]

/-- What `predict_by_fit` returns, place by place. -/
theorem predictByFit_values {L : Learner K F} {p : WMParams K C} {st : WMState K F C} {Xn : Mat K} {cn ct : C}
    {ps : List K} {X : Mat K} {y : List K} (hX : st.X = some X) (hyc : st.y = some y)
    (hc : st.coords = some ct) {M : Mat K} (hM : p.weights ct cn = .ok M)
    (h : predictByFit L p st Xn (some cn) none = .ok ps) : ps.length = M.c ∧ ∀ i < M.c, ∃ f,
      let T := (List.range X.r).filter fun k => decide (M.get k i ≠ 0)
      L.fit i (T.map X.row) (T.map fun k => y.getD k 0) (T.map fun k => M.get k i) = .ok f ∧
      ps[i]? = some (L.predict f (Xn.row i)) := by
  unfold predictByFit at h
  split at h
  · cases h
  simp only [guard, bind, Except.bind, predictFitWeights, hc, hM, cachedData, hX, hyc,
    Except.map] at h
  cases hf : fitAll L X (fun i => y.getD i 0) (some Xn) (.dense M.transpose) Xn.r none none none
      p.cpu with
  | error e => rw [hf] at h; cases h
  | ok res =>
    rw [hf] at h
    injection h with h
    subst h
    unfold fitAll at hf
    simp only [Option.getD_none, Option.getD_some] at hf
    have hm := runPatches_ok hf
    have hr : (WMat.dense M.transpose).r = M.c := rfl
    have hlen : res.length = M.c := by
      rw [mapE_length hm]
      simp [hr]
    refine ⟨by simpa using hlen, fun i hi => ?_⟩
    have hi' : i < (List.range (WMat.dense M.transpose).r).length := by simpa [hr] using hi
    have h1 := mapE_get hm hi'
    simp only [List.getElem_range] at h1
    rw [locTask_eq (locTask_ok h1)] at h1
    simp only [denseTask] at h1
    split at h1
    · cases h1
    rename_i hcc
    have hcc : M.transpose.c = X.r := not_not.1 hcc
    have hT : nonzeroIdx M.transpose.c (M.transpose.get i) =
        (List.range X.r).filter fun k => decide (M.get k i ≠ 0) := by
      unfold nonzeroIdx
      rw [hcc]
      rfl
    rw [hT] at h1
    unfold fitLocal at h1
    obtain ⟨f, hff, h1⟩ := Except.map_ok_iff.1 h1
    refine ⟨f, hff, ?_⟩
    rw [List.getElem?_map, List.getElem?_eq_getElem (by omega), Option.map_some, ← h1]

/-- C160: `predict_by_fit`. Two models that remember the same observations but for the targets. -/
theorem C160_predict_by_fit (L : Learner K F) (hL : FollowsTargets L) (p : WMParams K C)
    (st st' : WMState K F C) (Xn : Mat K) (cn ct : C) (ps ps' : List K) (X : Mat K) (y y' : List K)
    (hX : st.X = some X ∧ st'.X = some X) (hy : st.y = some y ∧ st'.y = some y')
    (hc : st.coords = some ct ∧ st'.coords = some ct) (M : Mat K) (hM : p.weights ct cn = .ok M)
    (h : predictByFit L p st Xn (some cn) none = .ok ps)
    (h' : predictByFit L p st' Xn (some cn) none = .ok ps') :
    ps.length = ps'.length ∧ ∀ i < ps.length, (∀ j < X.r, 0 ≤ M.get j i) → ∀ lo hi,
      (∀ j < X.r, M.get j i ≠ 0 → lo ≤ y'.getD j 0 - y.getD j 0 ∧ y'.getD j 0 - y.getD j 0 ≤ hi) →
      lo ≤ ps'.getD i 0 - ps.getD i 0 ∧ ps'.getD i 0 - ps.getD i 0 ≤ hi := by
  obtain ⟨l1, k1⟩ := predictByFit_values hX.1 hy.1 hc.1 hM h
  obtain ⟨l2, k2⟩ := predictByFit_values hX.2 hy.2 hc.2 hM h'
  refine ⟨l1.trans l2.symm, fun i hi hw lo hi' hb => ?_⟩
  obtain ⟨f, e1, g1⟩ := k1 i (l1 ▸ hi)
  obtain ⟨f', e2, g2⟩ := k2 i (l1 ▸ hi)
  rw [List.getD_eq_getElem?_getD, List.getD_eq_getElem?_getD, g1, g2]
  refine FollowsTargets.sel hL e1 e2 (fun j hj => ?_) (fun j hj => ?_) _
  · simp only [List.mem_filter, List.mem_range] at hj
    exact hw j hj.1
  · simp only [List.mem_filter, List.mem_range, decide_eq_true_eq] at hj
    exact hb j hj.1 hj.2

/-- C160: `predict_by_weight`, with weights from coordinates: at a new place in reach of any fitted
location the change lies between any bounds for the changes of the targets; a place out of reach is
predicted as zero before and after. -/
theorem C160_predict_by_weight (L : Learner K F) (hL : FollowsTargets L) (lib : Lib K) (hl : lib.Nonneg)
    (env : Env K) (he : env.Ok) (fs : Disk K) (ms : Param (Option String)) (wp : WParams K)
    (rng : Rng S) (p : WMParams K (List (Mat K))) (hp : p.weights = pointSource lib env fs ms wp)
    (hd : p.cacheData = true) (hce : p.cacheEstimator = true) (hrate : p.sampleRate = none)
    (st st' : WMState K F (List (Mat K))) (s : S) (X : Mat K) (y y' : List K) (ct cn : List (Mat K))
    (D M : Mat K) (hD : p.weights ct ct = .ok D) (hw : ∀ i < X.r, ∀ j < X.r, 0 ≤ D.get i j)
    (Xn : Mat K) (hm : cn.length ≤ (ms.expand cn.length).length)
    (hr : ∀ s ∈ cn, 0 < s.r) (hb : ∀ b, some b ∈ wp.bandwidth.expand cn.length → 0 ≤ b)
    (hM : p.weights cn ct = .ok M) (hMr : M.r = Xn.r) (hMc : M.c = X.r)
    (h : (wmFit L rng p st s X y (some ct) none).result = .ok ())
    (h' : (wmFit L rng p st' s X y' (some ct) none).result = .ok ()) (lo hi : K)
    (hlo : ∀ j < X.r, lo ≤ y'.getD j 0 - y.getD j 0 ∧ y'.getD j 0 - y.getD j 0 ≤ hi) :
    ∃ ps ps', predictByWeight L p (wmFit L rng p st s X y (some ct) none).state Xn (some cn) none = .ok ps ∧
      predictByWeight L p (wmFit L rng p st' s X y' (some ct) none).state Xn (some cn) none = .ok ps' ∧
      ∀ m < Xn.r, ((∃ j < M.c, M.get m j ≠ 0) →
          lo ≤ ps'.getD m 0 - ps.getD m 0 ∧ ps'.getD m 0 - ps.getD m 0 ≤ hi) ∧
        ((∀ j < M.c, M.get m j = 0) → ps.getD m 0 = 0 ∧ ps'.getD m 0 = 0) := by
  have hcw : chosenWeights p (some ct) none = .ok (.dense D) := by
    simp [chosenWeights, hD, Except.map]
  have hco : ∀ (st : WMState K F (List (Mat K))) (y : List K),
      (wmFit L rng p st s X y (some ct) none).result = .ok () →
      (wmFit L rng p st s X y (some ct) none).state.coords = some ct ∧
      ∀ idx, (wmFit L rng p st s X y (some ct) none).state.localIndices = some idx → idx ≠ [] := by
    intro st y h
    obtain ⟨W0, idx, s', res, sc, hck, hW0, hs, hf, hl, h2, hsc, hout⟩ := wmFit_ok h
    rw [hout]
    refine ⟨by simp [stateBegin, hd], fun idx' hi => ?_⟩
    cases Option.some.inj hi
    intro h0
    rw [h0] at h2
    simp at h2
  obtain ⟨idx, s1, fs1, hs, hy, hl1, hix, hes, -, hfit⟩ := fit_values (.inr hrate) hcw h
  obtain ⟨idx', s1', fs2, hs', hy', hl2, hix', hes', -, hfit'⟩ := fit_values (.inr hrate) hcw h'
  rw [hs] at hs'
  cases hs'
  rw [hrate] at hs
  have hidx := sampleLocations_all hs
  subst hidx
  have hne := (hco st y h).2 _ hix
  have hn : (List.range X.r).length ≠ 0 := fun h0 => hne (List.length_eq_zero_iff.1 h0)
  simp only [hce, if_true] at hes hes'
  have hz : ∀ gs : List F, gs.length = (List.range X.r).length → gs ≠ [] := fun gs hg h0 => by
    rw [h0] at hg
    exact hn hg.symm
  rw [List.length_range] at hl1 hl2
  refine ⟨_, _,
    C43_weighted_sum L p _ Xn cn ct M fs1 hd hce hes (hz _ (by simpa using hl1)) (hco st y h).1 hM hMr (by omega),
    C43_weighted_sum L p _ Xn cn ct M fs2 hd hce hes' (hz _ (by simpa using hl2)) (hco st' y' h').1 hM hMr
      (by omega), fun m hm' => ?_⟩
  obtain ⟨h0, hsum⟩ := pointSource_rows lib hl env he fs ms wp cn ct hm hr hb M (hp ▸ hM) m (hMr ▸ hm')
  have hval : ∀ gs : List F, gs.length = X.r →
      ((List.range Xn.r).map fun i =>
        (List.zipWith (fun w f => w * L.predict f (Xn.row i)) (M.row i) gs).sum).getD m 0 =
      ((List.range X.r).map fun k => M.get m k * (gs[k]?.map fun f => L.predict f (Xn.row m)).getD 0).sum := by
    intro gs hg
    rw [List.getD_eq_getElem?_getD, List.getElem?_map, List.getElem?_range hm', Option.map_some,
      Option.getD_some]
    congr 1
    apply List.ext_getElem
    · simp [Mat.row, hg, hMc]
    intro k h1 h2
    have hk : k < gs.length := by simpa [hg] using h2
    simp [Mat.row, hk]
  rw [hval _ hl1, hval _ hl2]
  constructor
  · rintro ⟨j, hj, hne0⟩
    have h1 : ((List.range X.r).map (M.get m)).sum = 1 := by
      rw [← hMc]
      exact hsum.resolve_right fun h => hne0 (h j hj)
    have := weighted_between (n := X.r) (w := M.get m) (lo := lo) (hi := hi)
      (v := fun k => (fs2[k]?.map fun f => L.predict f (Xn.row m)).getD 0 -
        (fs1[k]?.map fun f => L.predict f (Xn.row m)).getD 0) (fun j hj => h0 j (hMc ▸ hj)) h1 (fun k hk => by
        have e0 : (List.range X.r)[k]? = some k := List.getElem?_range hk
        have e1 := List.getElem?_eq_getElem (by omega : k < fs1.length)
        have e2 := List.getElem?_eq_getElem (by omega : k < fs2.length)
        rw [e1, e2]
        exact FollowsTargets.sel hL (hfit k k _ e0 e1) (hfit' k k _ e0 e2)
          (fun j hj => by
            simp only [trainingSet, List.mem_filter, List.mem_range] at hj
            exact hw k hk j hj.1)
          (fun j hj => by
            simp only [trainingSet, List.mem_filter, List.mem_range] at hj
            exact hlo j hj.1) _)
    rw [list_sum_range] at this
    rw [list_sum_range, list_sum_range, ← Finset.sum_sub_distrib]
    simpa only [mul_sub] using this
  · intro hall
    constructor <;>
    · apply List.sum_eq_zero
      intro x hx
      obtain ⟨j, hj, rfl⟩ := List.mem_map.1 hx
      rw [hall j (by rw [hMc]; exact List.mem_range.1 hj), zero_mul]

/-- C160: a regressor that follows its targets, accepts constant targets and reproduces them never
predicts outside the range of its targets. -/
theorem C160_follows_within (L : Learner K F) (hL : FollowsTargets L)
    (hshape : ∀ e rows ys ws f, L.fit e rows ys ws = .ok f → ys.length = rows.length)
    (hconst : ∀ e rows ys ws f, L.fit e rows ys ws = .ok f →
      ∃ g, L.fit e rows (rows.map fun _ => 0) ws = .ok g ∧ ∀ x, L.predict g x = 0) : WithinTargets L := by
  intro e rows ys ws f hf hw lo hi hb x
  obtain ⟨g, hg, h0⟩ := hconst e rows ys ws f hf
  have hlen := hshape e rows ys ws f hf
  have := hL e rows (rows.map fun _ => 0) ys ws g f (by simp) hlen hg hf hw lo hi (fun k hk => by
    have hk' : k < ys.length := by omega
    have := hb _ (List.getElem_mem hk')
    simpa [List.getD_eq_getElem?_getD, hk, hk'] using this) x
  rwa [h0, sub_zero] at this

/-- C160: ridge regression, the meta estimator of the package, does not follow its targets, however
strong the penalty: raising one of two equal targets by one raises some predictions by more. -/
theorem C160_ridge_overshoots (alpha : ℝ) (ha : 0 < alpha) (M : Learner ℝ (List ℝ × ℝ))
    (hM : IsRidge alpha M) : ¬ FollowsTargets M := by
  intro hin
  obtain ⟨c, b, hf, hc, hmin⟩ := hM.fit [[0], [1]] [0, 1] [1, 1] 1 (by simp) one_pos (by simp)
    (by simp) (by simp) (by simp)
  obtain ⟨d, b', hf', hd, hmin'⟩ := hM.fit [[0], [1]] [0, 0] [1, 1] 1 (by simp) one_pos (by simp)
    (by simp) (by simp) (by simp)
  obtain ⟨c0, rfl⟩ := List.length_eq_one_iff.1 hc
  obtain ⟨d0, rfl⟩ := List.length_eq_one_iff.1 hd
  have hcost : ∀ t u v : ℝ, ridgeCost alpha [[0], [1]] [0, t] [1, 1] [u] v =
      v ^ 2 + (t - u - v) ^ 2 + alpha * u ^ 2 := by
    intro t u v
    simp [ridgeCost, List.range_succ]
  have hz := hmin' [0] 0 rfl
  rw [hcost, hcost] at hz
  have hd0 : d0 = 0 := by
    have : alpha * d0 ^ 2 ≤ 0 := by nlinarith [sq_nonneg b', sq_nonneg (0 - d0 - b')]
    have : d0 ^ 2 ≤ 0 := by
      by_contra hne
      push Not at hne
      nlinarith [mul_pos ha hne]
    exact pow_eq_zero_iff two_ne_zero |>.1 (le_antisymm this (sq_nonneg _))
  have hb0 : b' = 0 := by
    rw [hd0] at hz
    exact pow_eq_zero_iff two_ne_zero |>.1 (le_antisymm (by nlinarith [sq_nonneg b']) (sq_nonneg b'))
  have hm := hmin [1 / (1 + 2 * alpha)] (alpha / (1 + 2 * alpha)) rfl
  rw [hcost, hcost] at hm
  have hpos : 0 < 1 + 2 * alpha := by linarith
  have hval : (alpha / (1 + 2 * alpha)) ^ 2 +
      (1 - 1 / (1 + 2 * alpha) - alpha / (1 + 2 * alpha)) ^ 2 +
      alpha * (1 / (1 + 2 * alpha)) ^ 2 = alpha / (1 + 2 * alpha) := by
    field_simp
    ring
  have hlt : alpha / (1 + 2 * alpha) < 1 / 2 := by
    rw [div_lt_div_iff₀ hpos two_pos]; linarith
  have hc0 : 0 < c0 := by
    by_contra hneg
    push Not at hneg
    rw [hval] at hm
    nlinarith [sq_nonneg (b - (1 - c0 - b)), sq_nonneg c0, mul_nonneg ha.le (sq_nonneg c0)]
  have := (hin 0 _ _ _ _ _ _ (by simp) (by simp) hf' hf (by simp) 0 1 (by
    intro k hk
    have : k = 0 ∨ k = 1 := by simp at hk; omega
    rcases this with rfl | rfl <;> simp) [(1 - b) / c0 + 1]).2
  rw [hM.predict, hM.predict, hd0, hb0] at this
  simp only [List.zipWith_cons_cons, List.zipWith_nil_right, List.sum_cons, List.sum_nil,
    add_zero, mul_zero, sub_zero] at this
  rw [add_mul, div_mul_cancel₀ _ hc0.ne', one_mul] at this
  linarith

example : ∃ M : Learner ℝ (List ℝ × ℝ), IsRidge 10 M := ⟨_, numbaRidge_isRidge (by norm_num)⟩

/-! ### Examples -/

/-- The weighted mean follows its targets. -/
theorem localMean_follows : FollowsTargets localMean := by
  intro e rows ys ys' ws f f' h1 h2 hf hf' hw lo hi hb x
  simp only [localMean] at hf hf'
  split at hf
  · cases hf
  split at hf'
  · cases hf'
  rename_i hg hg'
  push Not at hg hg'
  have hd := localMean_within e rows (combine (-1) 1 ys ys') ws
    ((List.zipWith (· * ·) ws (combine (-1) 1 ys ys')).sum / ws.sum) (by
      simp only [localMean]
      rw [if_neg]
      push Not
      exact ⟨hg.1, by rw [combine_length (by omega)]; exact hg.2⟩) hw lo hi (by
      intro v hv
      obtain ⟨k, hk, rfl⟩ := List.getElem_of_mem hv
      have hk' : k < ys.length := by rwa [combine_length (by omega)] at hk
      have := combine_getD (a := (-1 : ℚ)) (b := 1) (h1.trans h2.symm) k
      rw [List.getD_eq_getElem?_getD, List.getElem?_eq_getElem hk, Option.getD_some] at this
      rw [this]
      have hk2 := hb k (by omega)
      constructor <;> linarith [hk2.1, hk2.2]) x
  injection hf with hf
  injection hf' with hf'
  rw [zipWith_combine _ _ _ _ _ hg.2 hg'.2] at hd
  simp only [localMean] at hd ⊢
  rw [← hf, ← hf', ← sub_div]
  have e : -1 * (List.zipWith (· * ·) ws ys).sum + 1 * (List.zipWith (· * ·) ws ys').sum =
      (List.zipWith (· * ·) ws ys').sum - (List.zipWith (· * ·) ws ys).sum := by ring
  rwa [e] at hd

/-- Five observations whose third target is raised from 2 to 4 and whose last is lowered by one: the
local predictions follow, by at most two upwards and one downwards. -/
example :
    let o := wmFit localMean countRng exPc {} 0 exX5 exY5 (some exTrain) none
    let o' := wmFit localMean countRng exPc {} 0 exX5 [1, 5, 4, 7, 2] (some exTrain) none
    o.result.isOk = true ∧ o'.result.isOk = true ∧
    o.state.localPredict = some [32822 / 8609, 79878 / 27019, 8102 / 1873, 84646 / 27019, 42262 / 8609] ∧
    o'.state.localPredict ≠ o.state.localPredict ∧
    (o'.state.localPredict.map List.length) = some 5 ∧
    (chosenWeights exPc (some exTrain) none).isOk = true := by decide +kernel

end Geo
