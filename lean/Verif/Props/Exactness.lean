import Verif.Props.WeightModelPredict
import Verif.Props.WeightModelState
import Verif.Props.StackingAttrs
import Mathlib.Tactic.FieldSimp
import Mathlib.Tactic.LinearCombination
import Mathlib.Algebra.Order.BigOperators.Ring.Finset
set_option linter.unusedSectionVars false
/-
Data that are exactly linear are fitted and predicted exactly by local least squares.
-/
namespace Geo
variable {K : Type} [Field K] [LinearOrder K] [IsStrictOrderedRing K] [FloorRing K]
  {F C S : Type}

/-- The value of the linear function with intercept `c` and slopes `β` at a row of `n` features. -/
def linVal (n : Nat) (c : K) (β : Nat → K) (x : List K) : K :=
  c + ∑ q ∈ Finset.range n, β q * x.getD q 0

/-- The weighted sum of squared residuals of a linear function. -/
def weightedSse (n : Nat) (rows : List (List K)) (ys ws : List K) (c : K) (β : Nat → K) : K :=
  ∑ k ∈ Finset.range rows.length,
    ws.getD k 0 * (ys.getD k 0 - linVal n c β (rows.getD k [])) ^ 2

/-- A regressor that fits by weighted least squares with an intercept (`LinearRegression`): what it
predicts is a linear function, and no linear function has a smaller weighted sum of squares. Nothing
is said about which minimiser is taken when there are several. -/
def LeastSquares (n : Nat) (L : Learner K F) : Prop :=
  ∀ e rows ys ws f, L.fit e rows ys ws = .ok f → ∃ c β, (∀ x, L.predict f x = linVal n c β x) ∧
    ∀ c' β', weightedSse n rows ys ws c β ≤ weightedSse n rows ys ws c' β'

/-- The features `x` are an affine combination of those rows of `X` that satisfy `P`. -/
def AffineOf (X : Mat K) (P : Nat → Prop) (x : List K) : Prop :=
  ∃ a : Nat → K, (∀ j < X.r, a j ≠ 0 → P j) ∧ ∑ j ∈ Finset.range X.r, a j = 1 ∧
    ∀ q < X.c, x.getD q 0 = ∑ j ∈ Finset.range X.r, a j * X.get j q

theorem AffineOf.self {X : Mat K} {P : Nat → Prop} {i : Nat} (hi : i < X.r) (hP : P i) :
    AffineOf X P (X.row i) := by
  refine ⟨fun j => if j = i then 1 else 0, fun j _ h => ?_, by simp [hi], fun q hq => ?_⟩
  · by_cases e : j = i
    · exact e ▸ hP
    · simp [e] at h
  · simp [Mat.row, hq, hi]

theorem AffineOf.linVal {X : Mat K} {P : Nat → Prop} {x : List K} (h : AffineOf X P x) {c d : K}
    {β γ : Nat → K} (hP : ∀ j < X.r, P j → linVal X.c c β (X.row j) = linVal X.c d γ (X.row j)) :
    linVal X.c c β x = linVal X.c d γ x := by
  obtain ⟨a, ha, hs, hx⟩ := h
  have key : ∀ (c : K) (β : Nat → K), Geo.linVal X.c c β x =
      ∑ j ∈ Finset.range X.r, a j * Geo.linVal X.c c β (X.row j) := by
    intro c β
    unfold Geo.linVal
    simp only [mul_add, Finset.sum_add_distrib, ← Finset.sum_mul, hs, one_mul]
    congr 1
    have h1 : ∀ j, a j * ∑ q ∈ Finset.range X.c, β q * (X.row j).getD q 0 =
        ∑ q ∈ Finset.range X.c, β q * (a j * X.get j q) := by
      intro j
      rw [Finset.mul_sum]
      apply Finset.sum_congr rfl
      intro q hq
      have hq := Finset.mem_range.1 hq
      have : (X.row j).getD q 0 = X.get j q := by simp [Mat.row, hq]
      rw [this]
      ring
    simp only [h1]
    rw [Finset.sum_comm]
    apply Finset.sum_congr rfl
    intro q hq
    rw [hx q (Finset.mem_range.1 hq), Finset.mul_sum]
  rw [key, key]
  apply Finset.sum_congr rfl
  intro j hj
  have hj := Finset.mem_range.1 hj
  by_cases h0 : a j = 0
  · simp [h0]
  · rw [hP j hj (ha j hj h0)]

/-- One location: least squares on exactly linear data agrees with the line wherever the neighbours
determine it. -/
theorem fitLocal_exact {L : Learner K F} {X : Mat K} (hL : LeastSquares X.c L) {y : Nat → K}
    {e : Nat} {idx : List Nat} {w : Nat → K} {x : List K} {v : K × F}
    (h : fitLocal L X y e idx (idx.map w) x = .ok v) {c : K} {β : Nat → K}
    (hy : ∀ j ∈ idx, y j = linVal X.c c β (X.row j)) (hw : ∀ j ∈ idx, 0 < w j) :
    v.1 = L.predict v.2 x ∧
      ∀ z, AffineOf X (· ∈ idx) z → L.predict v.2 z = linVal X.c c β z := by
  unfold fitLocal at h
  cases hf : L.fit e (idx.map X.row) (idx.map y) (idx.map w) with
  | error err => rw [hf] at h; cases h
  | ok f =>
    rw [hf] at h
    injection h with h
    subst h
    refine ⟨rfl, fun z hz => ?_⟩
    obtain ⟨c1, β1, hp, hmin⟩ := hL _ _ _ _ _ hf
    rw [hp]
    have h0 : weightedSse X.c (idx.map X.row) (idx.map y) (idx.map w) c β = 0 := by
      unfold weightedSse
      apply Finset.sum_eq_zero
      intro k hk
      have hk : k < idx.length := by simpa using Finset.mem_range.1 hk
      have := hy idx[k] (List.getElem_mem hk)
      simp [hk, this]
    have h1 := hmin c β
    rw [h0] at h1
    have hterm : ∀ k ∈ Finset.range (idx.map X.row).length, 0 ≤ (idx.map w).getD k 0 *
        ((idx.map y).getD k 0 - linVal X.c c1 β1 ((idx.map X.row).getD k [])) ^ 2 := by
      intro k hk
      have hk : k < idx.length := by simpa using Finset.mem_range.1 hk
      have := hw idx[k] (List.getElem_mem hk)
      refine mul_nonneg ?_ (sq_nonneg _)
      simpa [hk] using this.le
    have h2 := (Finset.sum_eq_zero_iff_of_nonneg hterm).1 (le_antisymm h1 (Finset.sum_nonneg hterm))
    refine hz.linVal fun j _ hj => ?_
    obtain ⟨k, hk, rfl⟩ := List.getElem_of_mem hj
    have h3 := h2 k (by simpa using hk)
    have hpos := hw idx[k] (List.getElem_mem hk)
    have hyk := hy idx[k] (List.getElem_mem hk)
    simp only [List.getD_eq_getElem?_getD, List.getElem?_map, List.getElem?_eq_getElem hk,
      Option.map_some, Option.getD_some, mul_eq_zero, hpos.ne', false_or,
      pow_eq_zero_iff two_ne_zero, sub_eq_zero] at h3
    rw [← h3, hyk]

theorem denseTask_exact {L : Learner K F} {X : Mat K} (hL : LeastSquares X.c L) {y : Nat → K}
    {Xp W : Mat K} {e i : Nat} {v : K × F} (h : denseTask L X y Xp W e i = .ok v)
    {c : K} {β : Nat → K} (hy : ∀ j < X.r, y j = linVal X.c c β (X.row j))
    (hw : ∀ j < W.c, 0 ≤ W.get i j) :
    v.1 = L.predict v.2 (Xp.row i) ∧
      ∀ z, AffineOf X (fun j => W.get i j ≠ 0) z → L.predict v.2 z = linVal X.c c β z := by
  unfold denseTask at h
  split at h
  · cases h
  rename_i hc
  have hc : W.c = X.r := not_not.1 hc
  obtain ⟨h1, h2⟩ := fitLocal_exact (c := c) (β := β) hL h
    (fun j hj => hy j (hc ▸ (mem_nonzeroIdx.1 hj).1))
    (fun j hj => lt_of_le_of_ne (hw j (mem_nonzeroIdx.1 hj).1) (Ne.symm (mem_nonzeroIdx.1 hj).2))
  refine ⟨h1, fun z hz => h2 z ?_⟩
  obtain ⟨a, ha, hz⟩ := hz
  exact ⟨a, fun j hj h0 => mem_nonzeroIdx.2 ⟨hc ▸ hj, ha j hj h0⟩, hz⟩

theorem skR2_self {ys : List K} {v : K} (h : skR2 ys ys = .ok v) : v = 1 := by
  unfold skR2 at h
  split at h
  · cases h
  split at h
  · cases h
  injection h with h
  have h0 : ((ys.zip ys).map fun e => (e.1 - e.2) ^ 2).sum = 0 := by
    apply List.sum_eq_zero
    intro x hx
    obtain ⟨⟨a, b⟩, he, rfl⟩ := List.mem_map.1 hx
    rw [List.zip_eq_zipWith, List.zipWith_self, List.mem_map] at he
    obtain ⟨u, -, hu⟩ := he
    cases hu
    simp
  rw [h0] at h
  rw [← h]
  simp

/-- C96: local least squares fits exactly linear data exactly. The target is a linear function of
the features at every observation, the weights used are non-negative (a dense matrix), and the
features of every fitted location are an affine combination of the features of its neighbours — which
is automatic when the location itself has a non-zero weight. Then every local prediction is the
observed value, every residual is zero and the score is one; and every stored estimator predicts the
linear function at all features its neighbours determine. -/
theorem C96_exact_fit (L : Learner K F) (rng : Rng S) (hrng : rng.Valid) (p : WMParams K C)
    (hrate : ∀ r, p.sampleRate = some r → 0 ≤ r ∧ r ≤ 1)
    (hal : p.nJobs = none ∨ p.sampleRate = none) (st : WMState K F C) (s : S)
    (X : Mat K) (hL : LeastSquares X.c L) (y : List K) (coords : Option C) (W : Option (WMat K))
    (hok : (wmFit L rng p st s X y coords W).result = .ok ())
    {D : Mat K} {idx : List Nat}
    (hD : (wmFit L rng p st s X y coords W).state.weightMatrix = some (.dense D))
    (hidx : (wmFit L rng p st s X y coords W).state.localIndices = some idx)
    (hw : ∀ i ∈ idx, ∀ j < D.c, 0 ≤ D.get i j)
    (c : K) (β : Nat → K) (hy : ∀ j < X.r, y[j]? = some (linVal X.c c β (X.row j)))
    (hspan : ∀ i ∈ idx, AffineOf X (fun j => D.get i j ≠ 0) (X.row i)) :
    (wmFit L rng p st s X y coords W).state.localPredict =
      some (idx.map fun i => linVal X.c c β (X.row i)) ∧
    (wmFit L rng p st s X y coords W).state.ySample =
      some (idx.map fun i => linVal X.c c β (X.row i)) ∧
    (wmFit L rng p st s X y coords W).state.residual = some (idx.map fun _ => 0) ∧
    (wmFit L rng p st s X y coords W).state.score = some 1 ∧
    (p.cacheEstimator = true → ∃ ests : List F, ests.length = idx.length ∧
      (wmFit L rng p st s X y coords W).state.estimators = some (ests.map some) ∧
      ∀ k (hk : k < ests.length) i, idx[k]? = some i →
        ∀ z, AffineOf X (fun j => D.get i j ≠ 0) z → L.predict ests[k] z = linVal X.c c β z) := by
  obtain ⟨W0, idx0, s', res, sc, hck, hW0, hs, hf, hl, -, hsc, hout⟩ := wmFit_ok hok
  rw [hout] at hD hidx ⊢
  have hD : leaveOut p W0 = .dense D := Option.some.inj hD
  have hidx : idx0 = idx := Option.some.inj hidx
  subst hidx
  have hm := fitAll_ok hf (aligned_of hW0 hs (hal.imp id .inl)) hl
  have hlt : ∀ i ∈ idx0, i < X.r := (sampleLocations_spec hrng hrate hs).2.1
  have hyf : ∀ j < X.r, yfun y j = linVal X.c c β (X.row j) := by
    intro j hj
    simp only [List.getD_eq_getElem?_getD, hy j hj, Option.getD_some]
  have hys : idx0.map (yfun y) = idx0.map fun i => linVal X.c c β (X.row i) :=
    List.map_congr_left fun i hi => hyf i (hlt i hi)
  have htask : ∀ k (hk : k < idx0.length),
      (res[k]'(by omega)).1 = linVal X.c c β (X.row idx0[k]) ∧
      ∀ z, AffineOf X (fun j => D.get idx0[k] j ≠ 0) z →
        L.predict (res[k]'(by omega)).2 z = linVal X.c c β z := by
    intro k hk
    have h1 := mapE_get hm hk
    rw [locTask_eq (locTask_ok h1)] at h1
    simp only [hD] at h1
    have hmem := List.getElem_mem hk
    obtain ⟨h2, h3⟩ := denseTask_exact hL h1 hyf (hw _ hmem)
    exact ⟨h2.trans (h3 _ (hspan _ hmem)), h3⟩
  have hps : res.map Prod.fst = idx0.map fun i => linVal X.c c β (X.row i) := by
    apply List.ext_getElem
    · simp [hl]
    · intro k h1 h2
      simpa using (htask k (by simpa using h2)).1
  refine ⟨by rw [hps], by rw [hys], ?_, ?_, fun hce => ?_⟩
  · simp only
    rw [hys, hps, List.zipWith_self]
    refine congrArg some ?_
    apply List.ext_getElem <;> simp
  · rw [hys, hps] at hsc
    rw [skR2_self hsc]
  · refine ⟨res.map Prod.snd, by simpa using hl, ?_, ?_⟩
    · simp [hce]
    · intro k hk i hi z hz
      have hk' : k < idx0.length := by simpa [hl] using hk
      rw [List.getElem?_eq_getElem hk'] at hi
      cases hi
      simpa using (htask k hk').2 z hz

/-- C96, own weight: without leaving out the location itself, a positive weight on the diagonal makes
the affine condition automatic, whatever the other neighbours are. -/
theorem C96_own_weight (L : Learner K F) (rng : Rng S) (hrng : rng.Valid) (p : WMParams K C)
    (hrate : ∀ r, p.sampleRate = some r → 0 ≤ r ∧ r ≤ 1)
    (hal : p.nJobs = none ∨ p.sampleRate = none) (hlo : p.leaveLocalOut = false)
    (st : WMState K F C) (s : S) (X : Mat K) (hL : LeastSquares X.c L) (y : List K)
    (coords : Option C) (D : Mat K)
    (hok : (wmFit L rng p st s X y coords (some (.dense D))).result = .ok ())
    (hw : ∀ i < X.r, ∀ j < D.c, 0 ≤ D.get i j) (hself : ∀ i < X.r, D.get i i ≠ 0)
    (c : K) (β : Nat → K) (hy : ∀ j < X.r, y[j]? = some (linVal X.c c β (X.row j))) :
    (wmFit L rng p st s X y coords (some (.dense D))).state.score = some 1 ∧
    (wmFit L rng p st s X y coords (some (.dense D))).state.localPredict =
      (wmFit L rng p st s X y coords (some (.dense D))).state.ySample := by
  obtain ⟨W0, idx0, s', res, sc, hck, hW0, hs, hf, hl, -, hsc, hout⟩ := wmFit_ok hok
  have hW : W0 = .dense D := by injection hW0 with h; exact h.symm
  have hlt : ∀ i ∈ idx0, i < X.r := (sampleLocations_spec hrng hrate hs).2.1
  have := C96_exact_fit L rng hrng p hrate hal st s X hL y coords (some (.dense D)) hok
    (D := D) (idx := idx0) (by rw [hout]; simp [leaveOut, hlo, hW]) (by rw [hout])
    (fun i hi => hw i (hlt i hi)) c β hy
    (fun i hi => AffineOf.self (hlt i hi) (hself i (hlt i hi)))
  exact ⟨this.2.2.2.1, this.1.trans this.2.1.symm⟩

/-- C96, new points by refitting: `predict_by_fit` returns the value of the linear function at every
point whose features are an affine combination of the features of the training points that get a
non-zero weight for it. -/
theorem C96_predict_by_fit (L : Learner K F) (p : WMParams K C) (st : WMState K F C)
    (Xn : Mat K) (cn ct : C) (ps : List K) (h : predictByFit L p st Xn (some cn) none = .ok ps)
    (X : Mat K) (hL : LeastSquares X.c L) (y : List K) (hX : st.X = some X) (hyc : st.y = some y)
    (hc : st.coords = some ct) (M : Mat K) (hM : p.weights ct cn = .ok M)
    (hw : ∀ j < M.r, ∀ i < M.c, 0 ≤ M.get j i)
    (c : K) (β : Nat → K) (hy : ∀ j < X.r, y[j]? = some (linVal X.c c β (X.row j)))
    (i : Nat) (hi : i < M.c) (hspan : AffineOf X (fun j => M.get j i ≠ 0) (Xn.row i)) :
    ps[i]? = some (linVal X.c c β (Xn.row i)) := by
  unfold predictByFit at h
  split at h
  · cases h
  simp only [guard, bind, Except.bind, predictFitWeights, hc, hM, cachedData, hX, hyc,
    Except.map] at h
  cases hf : fitAll L X (fun i => y.getD i 0) (some Xn) (.dense M.transpose) Xn.r none none none
      p.cpu with
  | error e => rw [hf] at h; cases h
  | ok res =>
    rw [hf] at h
    injection h with h
    subst h
    unfold fitAll at hf
    simp only [Option.getD_none, Option.getD_some] at hf
    have hm := runPatches_ok hf
    have hr : (WMat.dense M.transpose).r = M.c := rfl
    have hi' : i < (List.range (WMat.dense M.transpose).r).length := by simpa [hr] using hi
    have h1 := mapE_get hm hi'
    simp only [List.getElem_range] at h1
    rw [locTask_eq (locTask_ok h1)] at h1
    simp only at h1
    obtain ⟨h2, h3⟩ := denseTask_exact (c := c) (β := β) hL h1
      (fun j hj => by simp only [List.getD_eq_getElem?_getD, hy j hj, Option.getD_some])
      (fun j hj => hw j hj i hi)
    have hlen : i < res.length := by
      rw [mapE_length hm]
      exact hi'
    rw [List.getElem?_map, List.getElem?_eq_getElem hlen, Option.map_some, h2, h3 _ hspan]

/-- C96, new points by averaging: `predict_by_weight` after such a fit returns the value of the linear
function at every point that gets some weight and whose features are an affine combination of the
features of the neighbours of each fitted location. -/
theorem C96_predict_by_weight (L : Learner K F) (lib : Lib K) (hl : lib.Nonneg) (env : Env K)
    (he : env.Ok) (fs : Disk K) (ms : Param (Option String)) (wp : WParams K)
    (rng : Rng S) (hrng : rng.Valid) (p : WMParams K (List (Mat K)))
    (hp : p.weights = pointSource lib env fs ms wp) (hd : p.cacheData = true)
    (hce : p.cacheEstimator = true) (hrate : p.sampleRate = none)
    (st : WMState K F (List (Mat K))) (s : S) (X : Mat K) (hL : LeastSquares X.c L) (y : List K)
    (t : List (Mat K)) (W : Option (WMat K))
    (hok : (wmFit L rng p st s X y (some t) W).result = .ok ())
    {D : Mat K}
    (hD : (wmFit L rng p st s X y (some t) W).state.weightMatrix = some (.dense D))
    (hw : ∀ i < X.r, ∀ j < D.c, 0 ≤ D.get i j)
    (c : K) (β : Nat → K) (hy : ∀ j < X.r, y[j]? = some (linVal X.c c β (X.row j)))
    (hspan : ∀ i < X.r, AffineOf X (fun j => D.get i j ≠ 0) (X.row i))
    (Xn : Mat K) (cn : List (Mat K)) (hm : cn.length ≤ (ms.expand cn.length).length)
    (hr : ∀ s ∈ cn, 0 < s.r) (hb : ∀ b, some b ∈ wp.bandwidth.expand cn.length → 0 ≤ b)
    (M : Mat K) (hM : pointSource lib env fs ms wp cn t = .ok M) (hMr : M.r = Xn.r)
    (hMc : M.c = X.r) (i : Nat) (hi : i < Xn.r) (hin : ∃ j < M.c, M.get i j ≠ 0)
    (hspan' : ∀ k < X.r, AffineOf X (fun j => D.get k j ≠ 0) (Xn.row i)) :
    ∃ ps, predictByWeight L p (wmFit L rng p st s X y (some t) W).state Xn (some cn) none = .ok ps ∧
      ps[i]? = some (linVal X.c c β (Xn.row i)) := by
  obtain ⟨W0, idx0, s', res, sc, hck, hW0, hs, hf, hlen, -, hsc, hout⟩ := wmFit_ok hok
  have hidx : idx0 = List.range X.r := by
    rw [hrate] at hs
    cases hs
    rfl
  obtain ⟨-, -, -, -, h5⟩ := C96_exact_fit L rng hrng p (by simp [hrate]) (.inr hrate) st s X hL y
    (some t) W hok (D := D) (idx := List.range X.r) hD (by rw [hout, hidx])
    (fun i hi => hw i (List.mem_range.1 hi)) c β hy (fun i hi => hspan i (List.mem_range.1 hi))
  obtain ⟨ests, hel, hest, hex⟩ := h5 hce
  have hel : ests.length = X.r := by simpa using hel
  have hX0 : 0 < X.r := (of_decide_eq_true hck).2.1
  refine C43_common_value L lib hl env he fs ms wp p hp _ Xn cn t M ests hd hce hest ?_ ?_ hm hr hb hM
    hMr (hMc.trans hel.symm) hi hin _ ?_
  · intro h
    rw [h] at hel
    simp at hel
    omega
  · rw [hout]
    simp [stateBegin, hd]
  · intro f hf
    obtain ⟨k, hk, rfl⟩ := List.getElem_of_mem hf
    have hk' : k < X.r := hel ▸ hk
    exact hex k hk k (by simp [hk']) _ (hspan' k hk')

/-! ### A least-squares regressor -/

/-- Sum over the observations. -/
def obsSum (m : Nat) (g : Nat → ℚ) : ℚ := ∑ k ∈ Finset.range m, g k

/-- Weighted simple regression with an intercept; data with a single feature value are refused. -/
def simpleRegression : Learner ℚ (ℚ × ℚ) where
  fit _ rows ys ws :=
    let m := rows.length
    let w := fun k => ws.getD k 0
    let x := fun k => (rows.getD k []).getD 0 0
    let y := fun k => ys.getD k 0
    let s0 := obsSum m w
    let s1 := obsSum m fun k => w k * x k
    let s2 := obsSum m fun k => w k * x k ^ 2
    let t0 := obsSum m fun k => w k * y k
    let t1 := obsSum m fun k => w k * x k * y k
    if (∃ k < m, w k < 0) ∨ s0 = 0 ∨ s0 * s2 - s1 ^ 2 = 0 then .error .valueError
    else
      let b := (s0 * t1 - s1 * t0) / (s0 * s2 - s1 ^ 2)
      .ok ((t0 - b * s1) / s0, b)
  predict f x := f.1 + f.2 * x.getD 0 0

theorem sse_expand (m : Nat) (w x y : Nat → ℚ) (c b : ℚ) :
    (∑ k ∈ Finset.range m, w k * (y k - (c + b * x k)) ^ 2) =
      obsSum m (fun k => w k * y k ^ 2) - 2 * c * obsSum m (fun k => w k * y k) -
        2 * b * obsSum m (fun k => w k * x k * y k) + c ^ 2 * obsSum m w +
        2 * c * b * obsSum m (fun k => w k * x k) + b ^ 2 * obsSum m (fun k => w k * x k ^ 2) := by
  simp only [obsSum, Finset.mul_sum, ← Finset.sum_sub_distrib, ← Finset.sum_add_distrib]
  apply Finset.sum_congr rfl
  intro k _
  ring

theorem normal_minimal (m : Nat) (w x y : Nat → ℚ) (hw : ∀ k < m, 0 ≤ w k) {c b : ℚ}
    (h1 : obsSum m (fun k => w k * y k) = c * obsSum m w + b * obsSum m fun k => w k * x k)
    (h2 : obsSum m (fun k => w k * x k * y k) =
      c * obsSum m (fun k => w k * x k) + b * obsSum m fun k => w k * x k ^ 2) (c' b' : ℚ) :
    (∑ k ∈ Finset.range m, w k * (y k - (c + b * x k)) ^ 2) ≤
      ∑ k ∈ Finset.range m, w k * (y k - (c' + b' * x k)) ^ 2 := by
  have hpos : 0 ≤ ∑ k ∈ Finset.range m, w k * ((fun _ => 0) k - ((c' - c) + (b' - b) * x k)) ^ 2 :=
    Finset.sum_nonneg fun k hk => mul_nonneg (hw k (Finset.mem_range.1 hk)) (sq_nonneg _)
  rw [sse_expand] at hpos
  rw [sse_expand, sse_expand, h1, h2]
  have z : obsSum m (fun _ => 0) = 0 := by simp [obsSum]
  simp only [mul_zero, ne_eq, OfNat.ofNat_ne_zero, not_false_eq_true, zero_pow, z] at hpos
  linarith

theorem simpleRegression_leastSquares : LeastSquares 1 simpleRegression := by
  intro e rows ys ws f hf
  simp only [simpleRegression] at hf
  split at hf
  · cases hf
  rename_i hg
  push Not at hg
  obtain ⟨hw, h0, hdet⟩ := hg
  injection hf with hf
  refine ⟨f.1, fun _ => f.2, fun x => ?_, fun c' β' => ?_⟩
  · simp only [simpleRegression, linVal, Finset.sum_range_one]
  · unfold weightedSse
    simp only [linVal, Finset.sum_range_one]
    refine normal_minimal rows.length (fun k => ws.getD k 0) (fun k => (rows.getD k []).getD 0 0)
      (fun k => ys.getD k 0) hw ?_ ?_ c' (β' 0)
    · rw [← hf]
      field_simp
      ring
    · rw [← hf]
      field_simp
      ring

/-- Five points on a line, the target exactly linear in the feature; the location itself is left out.
The hypotheses of `C96_exact_fit` are met, and the result is what the theorem says. -/
def exLinY : List ℚ := [3, 5, 11, 21, 35]

example : exLinY = (List.range 5).map (fun j => linVal 1 3 (fun _ => 2) (exX5.row j)) ∧
    (wmFit simpleRegression countRng exPc {} 0 exX5 exLinY (some exTrain) none).result = .ok () ∧
    (wmFit simpleRegression countRng exPc {} 0 exX5 exLinY (some exTrain) none).state.score = some 1 ∧
    okAnd (exSource exTrain exTrain) (fun M => (List.range 5).all fun i =>
      ((List.range 5).filter fun j => decide (M.get i j > 0 ∧ i ≠ j)).length ≥ 2) = true := by
  decide +kernel

/-- Two neighbours with different features determine every value of one feature. -/
theorem AffineOf.two {X : Mat K} (hc : X.c = 1) {P : Nat → Prop} {a b : Nat} (ha : a < X.r)
    (hb : b < X.r) (hPa : P a) (hPb : P b) (hne : X.get a 0 ≠ X.get b 0) (x : List K) :
    AffineOf X P x := by
  have hd : X.get b 0 - X.get a 0 ≠ 0 := sub_ne_zero.2 hne.symm
  refine ⟨fun j => (if j = a then 1 - (x.getD 0 0 - X.get a 0) / (X.get b 0 - X.get a 0) else 0) +
    if j = b then (x.getD 0 0 - X.get a 0) / (X.get b 0 - X.get a 0) else 0,
    fun j _ h => ?_, ?_, fun q hq => ?_⟩
  · by_cases e : j = a
    · exact e ▸ hPa
    · by_cases e' : j = b
      · exact e' ▸ hPb
      · simp [e, e'] at h
  · simp [Finset.sum_add_distrib, ha, hb]
  · have hq : q = 0 := by omega
    subst hq
    simp only [add_mul, ite_mul, zero_mul, Finset.sum_add_distrib, Finset.sum_ite_eq',
      Finset.mem_range, ha, hb, if_true]
    field_simp
    ring

/-- All hypotheses of `C96_exact_fit` for this fit: weights, locations and affine combinations. -/
example :
    let o := wmFit simpleRegression countRng exPc {} 0 exX5 exLinY (some exTrain) none
    o.result = .ok () ∧ ∃ D, o.state.weightMatrix = some (.dense D) ∧
      o.state.localIndices = some (List.range 5) ∧
      (∀ i ∈ List.range 5, AffineOf exX5 (fun j => D.get i j ≠ 0) (exX5.row i)) := by
  intro o
  have hok : o.result = .ok () := by decide +kernel
  obtain ⟨D, hD⟩ : ∃ D, o.state.weightMatrix = some (.dense D) := by
    obtain ⟨W0, idx, s', res, sc, -, hW0, -, -, -, -, -, hout⟩ := wmFit_ok hok
    simp only [o, hout]
    simp only [chosenWeights] at hW0
    cases h : exPc.weights exTrain exTrain with
    | error e => rw [h] at hW0; cases hW0
    | ok M =>
      rw [h] at hW0
      cases hW0
      exact ⟨_, rfl⟩
  refine ⟨hok, D, hD, by decide +kernel, fun i hi => ?_⟩
  have key : ∀ i < 5, ∃ a < 5, ∃ b < 5, exX5.get a 0 ≠ exX5.get b 0 ∧
      (o.state.weightMatrix.map fun W =>
        decide (W.toMat.get i a ≠ 0) && decide (W.toMat.get i b ≠ 0)) = some true := by
    decide +kernel
  obtain ⟨a, ha, b, hb, hne, h⟩ := key i (List.mem_range.1 hi)
  rw [hD] at h
  simp only [Option.map_some, Option.some.injEq, Bool.and_eq_true, decide_eq_true_eq] at h
  exact AffineOf.two rfl ha hb h.1 h.2 hne _

end Geo
