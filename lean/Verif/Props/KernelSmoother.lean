import Verif.Props.TargetChange
import Verif.Props.Dimensions
import Verif.Props.Kernel
/-
C161: with a regressor that predicts the weighted mean of its targets, a weight model is a kernel
smoother (Nadaraya and Watson).
-/
set_option linter.unusedSectionVars false
namespace Geo
variable {K : Type} [Field K] [LinearOrder K] [IsStrictOrderedRing K] [FloorRing K]
  {F C S : Type}

/-- A regressor that predicts the weighted mean of its targets everywhere (`DummyRegressor`). -/
def IsWeightedMean (L : Learner K F) : Prop :=
  ∀ e rows ys ws f, L.fit e rows ys ws = .ok f →
    ∀ x, L.predict f x = (List.zipWith (· * ·) ws ys).sum / ws.sum

/-- The kernels of the literature, as functions of the distance in bandwidths. -/
def publishedKernel (exp : K → K) (name : String) (u : K) : K :=
  if name = "uniform" then 1
  else if name = "gaussian" then exp (-u ^ 2 / 2)
  else if name = "exponential" then exp (-u / 2)
  else if 1 < u then 0
  else if name = "linear" then 1 - u
  else if name = "boxcar" then 1
  else if name = "bisquare" then (1 - u ^ 2) ^ 2
  else (1 - u ^ 3) ^ 3

theorem kernelWeight_published (env : Env K) (lazy : Bool) (name : String) (hn : name ∈ kernelTypeEnum)
    (d b : K) (hd : 0 ≤ d) (hb : 0 < b) :
    kernelWeight env lazy name d b = .ok (.fin (publishedKernel env.exp name (d / b))) := by
  obtain ⟨h1, h2, h3, h4, h5⟩ := C73_kernel_formulas env lazy d b hd hb
  simp only [kernelTypeEnum, List.mem_cons, List.not_mem_nil, or_false] at hn
  rcases hn with rfl | rfl | rfl | rfl | rfl | rfl | rfl <;>
  first
  | (rw [h1]; simp [publishedKernel]; done)
  | (rw [h2]; simp [publishedKernel]; done)
  | (rw [h3]; simp [publishedKernel]; done)
  | (by_cases hle : d ≤ b
     · have hu : ¬ 1 < d / b := by rw [lt_div_iff₀ hb]; linarith
       obtain ⟨a1, a2, a3, a4⟩ := h4 hle
       first
       | (rw [a1]; simp [publishedKernel, hu]; done)
       | (rw [a2]; simp [publishedKernel, hu]; done)
       | (rw [a3]; simp [publishedKernel, hu]; done)
       | (rw [a4]; simp [publishedKernel, hu]; done)
     · have hu : 1 < d / b := by rw [lt_div_iff₀ hb]; linarith
       rw [h5 (by linarith) _ (by simp)]
       simp [publishedKernel, hu])

/-- C161: the weights. With fixed positive bandwidths every row of the weight matrix is, up to one
positive factor, the product over the dimensions of the published kernels of distance over bandwidth. -/
theorem C161_weights (env : Env K) (he : env.Ok) (lazy : Bool) (l : List (DimSpec K))
    (hl : ∀ d ∈ l, d.Nonneg) (hb : ∀ d ∈ l, d.count = none ∧ ∃ b, d.bandwidth = some b ∧ 0 < b)
    (W : Mat (Num K)) (h : weightsOf env lazy l = .ok W) (i : Nat) (hi : i < W.r) :
    ∃ z, 0 < z ∧ ∀ j < W.c, W.get i j = .fin
      ((l.map fun d => publishedKernel env.exp d.kernel (d.dist.get i j / d.bandwidth.getD 0)).prod / z) := by
  obtain ⟨Ws, hWs, hne, hsh, hu, hr, hc, hlog, hW⟩ := weightsOf_ok he hl h
  refine ⟨normK Ws W.c i, hu.normK_pos hi, fun j hj => ?_⟩
  rw [hW i hi j hj]
  congr 2
  unfold prodK
  congr 1
  apply List.ext_getElem
  · simp [mapE_length hWs]
  intro k h1 h2
  have hk : k < l.length := by simpa using h2
  simp only [List.getElem_map]
  have hm := List.getElem_mem hk
  have hw := mapE_get hWs hk
  obtain ⟨hcn, b, hbs, hbp⟩ := hb _ hm
  obtain ⟨s1, s2⟩ := hsh l[k].dist (List.mem_map.2 ⟨_, hm, rfl⟩)
  unfold DimSpec.weights at hw
  have hen := (weightByDistance_val env hw (hl _ hm).dist (hl _ hm).bandwidth (by
    intro S hS
    cases lazy with
    | true => exact (hl _ hm).sorted S hS
    | false => cases hS)).2.2.1
  rw [hcn, hbs] at hw
  have hd : 0 ≤ l[k].dist.get i j := (hl _ hm).dist i (s1 ▸ hi) j (s2 ▸ hj)
  have hp := kernelWeight_published env lazy l[k].kernel hen _ b hd hbp
  simp only [weightByDistance, kernelFunction] at hw
  unfold kernelWeight at hp
  cases hke : kernelElem env lazy l[k].kernel with
  | error e => rw [hke] at hp; cases hp
  | ok w =>
    rw [hke] at hp hw
    injection hp with hp
    have hw := (Except.ok.inj hw).symm
    rw [hw]
    simp only [hp, Num.toK, hbs, Option.getD_some]

/-- Sums over selected observations are sums over all if the others have weight zero; common factors
of the weights do not matter. -/
theorem mean_of_kernel {T : List Nat} {n : Nat} {sel : Nat → Prop} [DecidablePred sel]
    (hT : T = (List.range n).filter fun k => decide (sel k)) {w κ : Nat → K} {z : K} (hz : z ≠ 0)
    (hw : ∀ j < n, w j = κ j / z) {v : Nat → K} {out : Nat → Prop} [DecidablePred out]
    (hsel : ∀ j < n, sel j ↔ w j ≠ 0 ∧ ¬ out j) :
    (List.zipWith (· * ·) (T.map w) (T.map v)).sum / (T.map w).sum =
      (∑ j ∈ Finset.range n, if out j then 0 else κ j * v j) /
        ∑ j ∈ Finset.range n, if out j then 0 else κ j := by
  have hs : ∀ g : Nat → K, (∀ j < n, w j = 0 → g j = 0) →
      (T.map g).sum = ∑ j ∈ Finset.range n, if out j then 0 else g j := by
    intro g hg
    rw [hT, ← list_sum_range]
    have : ∀ m : List Nat, (∀ j ∈ m, j < n) → ((m.filter fun k => decide (sel k)).map g).sum =
        (m.map fun j => if out j then 0 else g j).sum := by
      intro m
      induction m with
      | nil => intro _; rfl
      | cons a m ih =>
        intro hm
        have ha := hm a (by simp)
        have ih := ih fun j hj => hm j (by simp [hj])
        rw [List.map_cons, List.sum_cons]
        by_cases hsa : sel a
        · rw [List.filter_cons_of_pos (by simpa using hsa), List.map_cons, List.sum_cons, ih,
            if_neg ((hsel a ha).1 hsa).2]
        · rw [List.filter_cons_of_neg (by simpa using hsa), ih]
          have : (if out a then 0 else g a) = 0 := by
            by_cases ho : out a
            · simp [ho]
            · rw [if_neg ho]
              apply hg a ha
              by_contra hne
              exact hsa ((hsel a ha).2 ⟨hne, ho⟩)
          rw [this, zero_add]
    exact this _ fun j hj => List.mem_range.1 hj
  rw [List.zipWith_map, List.zipWith_self, hs (fun j => w j * v j) fun j _ h0 => by rw [h0, zero_mul],
    hs w fun j _ h0 => h0]
  have e1 : (∑ j ∈ Finset.range n, if out j then 0 else w j * v j) =
      (∑ j ∈ Finset.range n, if out j then 0 else κ j * v j) / z := by
    rw [Finset.sum_div]
    refine Finset.sum_congr rfl fun j hj => ?_
    rw [hw j (Finset.mem_range.1 hj)]
    split
    · simp
    · ring
  have e2 : (∑ j ∈ Finset.range n, if out j then 0 else w j) =
      (∑ j ∈ Finset.range n, if out j then 0 else κ j) / z := by
    rw [Finset.sum_div]
    refine Finset.sum_congr rfl fun j hj => ?_
    rw [hw j (Finset.mem_range.1 hj)]
    split <;> simp
  rw [e1, e2, div_div_div_cancel_right₀ hz]

/-- C161: local predictions. If row `i` of the weights is `κ` up to a factor, the local prediction at `i`
is the `κ`-weighted mean of the targets of all observations, without the observation itself when
`leave_local_out` is set: the (leave-one-out) Nadaraya–Watson estimate. -/
theorem C161_local_predictions (L : Learner K F) (hL : IsWeightedMean L) (rng : Rng S) (p : WMParams K C)
    (hal : p.nJobs = none ∨ p.sampleRate = none) (st : WMState K F C) (s : S) (X : Mat K)
    (y : List K) (coords : Option C) (W : Option (WMat K)) (D : Mat K)
    (hD : chosenWeights p coords W = .ok (.dense D))
    (h : (wmFit L rng p st s X y coords W).result = .ok ()) :
    ∃ (idx : List Nat) (ps : List K),
      (wmFit L rng p st s X y coords W).state.localIndices = some idx ∧
      (wmFit L rng p st s X y coords W).state.localPredict = some ps ∧ ps.length = idx.length ∧
      ∀ (k i : Nat), idx[k]? = some i → ∀ (κ : Nat → K) (z : K), z ≠ 0 →
        (∀ j < X.r, D.get i j = κ j / z) →
        ps[k]? = some
          ((∑ j ∈ Finset.range X.r, if p.leaveLocalOut = true ∧ j = i then 0 else κ j * y.getD j 0) /
            ∑ j ∈ Finset.range X.r, if p.leaveLocalOut = true ∧ j = i then 0 else κ j) := by
  obtain ⟨idx, s1, fs, hs, hy, hl, hix, hes, ⟨ps, hps, hpl, hrs, hpv⟩, hfit⟩ := fit_values hal hD h
  refine ⟨idx, ps, hix, hps, hpl, fun k i hk κ z hz hκ => ?_⟩
  obtain ⟨hk', -⟩ := List.getElem?_eq_some_iff.1 hk
  have e1 := List.getElem?_eq_getElem (by omega : k < fs.length)
  rw [hpv k i _ hk e1, hL _ _ _ _ _ (hfit k i _ hk e1)]
  congr 1
  exact mean_of_kernel (n := X.r) (sel := fun k => D.get i k ≠ 0 ∧ ¬ (p.leaveLocalOut = true ∧ k = i)) rfl hz hκ
    (out := fun j => p.leaveLocalOut = true ∧ j = i) fun j _ => Iff.rfl

/-- What `predict_by_fit` returns when it is given a weight matrix. -/
theorem predictByFit_given {L : Learner K F} {p : WMParams K C} {st : WMState K F C} {Xn : Mat K} {cn : Option C}
    {ps : List K} {X : Mat K} {y : List K} (hX : st.X = some X) (hyc : st.y = some y) {V : Mat K}
    (h : predictByFit L p st Xn cn (some V) = .ok ps) : ps.length = V.r ∧ ∀ i < V.r, ∃ f,
      let T := (List.range X.r).filter fun k => decide (V.get i k ≠ 0)
      L.fit i (T.map X.row) (T.map fun k => y.getD k 0) (T.map (V.get i)) = .ok f ∧
      ps[i]? = some (L.predict f (Xn.row i)) := by
  unfold predictByFit at h
  split at h
  · cases h
  simp only [bind, Except.bind, predictFitWeights, cachedData, hX, hyc] at h
  cases hg : guard cn (some V) with
  | error e => rw [hg] at h; cases h
  | ok u =>
  rw [hg] at h
  simp only at h
  cases hf : fitAll L X (fun i => y.getD i 0) (some Xn) (.dense V) Xn.r none none none p.cpu with
  | error e => rw [hf] at h; cases h
  | ok res =>
    rw [hf] at h
    injection h with h
    subst h
    unfold fitAll at hf
    simp only [Option.getD_none, Option.getD_some] at hf
    have hm := runPatches_ok hf
    have hr : (WMat.dense V).r = V.r := rfl
    have hlen : res.length = V.r := by
      rw [mapE_length hm]
      simp [hr]
    refine ⟨by simpa using hlen, fun i hi => ?_⟩
    have hi' : i < (List.range (WMat.dense V).r).length := by simpa [hr] using hi
    have h1 := mapE_get hm hi'
    simp only [List.getElem_range] at h1
    rw [locTask_eq (locTask_ok h1)] at h1
    simp only [denseTask] at h1
    split at h1
    · cases h1
    rename_i hcc
    have hcc : V.c = X.r := not_not.1 hcc
    rw [show nonzeroIdx V.c (V.get i) = (List.range X.r).filter fun k => decide (V.get i k ≠ 0) by
      unfold nonzeroIdx; rw [hcc]] at h1
    unfold fitLocal at h1
    obtain ⟨f, hff, h1⟩ := Except.map_ok_iff.1 h1
    refine ⟨f, hff, ?_⟩
    rw [List.getElem?_map, List.getElem?_eq_getElem (by omega), Option.map_some, ← h1]

/-- C161: new places, with a weight matrix whose rows are the kernels of the new places up to a factor
(`weight_matrix_from_points(new, train)`): `predict_by_fit` is the Nadaraya–Watson estimate. -/
theorem C161_predict_by_fit_given (L : Learner K F) (hL : IsWeightedMean L) (p : WMParams K C)
    (st : WMState K F C) (Xn : Mat K) (cn : Option C) (ps : List K) (X : Mat K) (y : List K)
    (hX : st.X = some X) (hy : st.y = some y) (V : Mat K)
    (h : predictByFit L p st Xn cn (some V) = .ok ps) (m : Nat) (hm : m < V.r) (κ : Nat → K) (z : K)
    (hz : z ≠ 0) (hκ : ∀ j < X.r, V.get m j = κ j / z) :
    ps[m]? = some ((∑ j ∈ Finset.range X.r, κ j * y.getD j 0) / ∑ j ∈ Finset.range X.r, κ j) := by
  obtain ⟨f, e1, g1⟩ := (predictByFit_given hX hy h).2 m hm
  rw [g1, hL _ _ _ _ _ e1]
  have := mean_of_kernel (n := X.r) (sel := fun k => V.get m k ≠ 0) rfl hz hκ (v := fun k => y.getD k 0)
    (out := fun _ => False) fun j _ => by simp
  simpa using congrArg some this

/-- C161: new places, from coordinates alone: the weights are those of the training observations among
the *new* places, so in the mean each observation counts in proportion to its kernel divided by the sum
of its kernels over all the places asked about, which is not the Nadaraya–Watson estimate. -/
theorem C161_predict_by_fit_coordinates (L : Learner K F) (hL : IsWeightedMean L) (p : WMParams K C)
    (st : WMState K F C) (Xn : Mat K) (cn ct : C) (ps : List K) (X : Mat K) (y : List K)
    (hX : st.X = some X) (hy : st.y = some y) (hc : st.coords = some ct) (M : Mat K)
    (hM : p.weights ct cn = .ok M) (h : predictByFit L p st Xn (some cn) none = .ok ps)
    (κ : Nat → Nat → K) (z : Nat → K) (hκ : ∀ j < X.r, ∀ m < M.c, M.get j m = κ j m / z j)
    (m : Nat) (hm : m < M.c) :
    ps[m]? = some ((∑ j ∈ Finset.range X.r, κ j m / z j * y.getD j 0) /
      ∑ j ∈ Finset.range X.r, κ j m / z j) := by
  obtain ⟨f, e1, g1⟩ := (predictByFit_values hX hy hc hM h).2 m hm
  rw [g1, hL _ _ _ _ _ e1]
  have := mean_of_kernel (n := X.r) (sel := fun k => M.get k m ≠ 0) rfl (one_ne_zero (α := K))
    (w := fun k => M.get k m) (κ := fun j => κ j m / z j) (fun j hj => by rw [hκ j hj m hm, div_one])
    (v := fun k => y.getD k 0) (out := fun _ => False) fun j _ => by simp
  simpa using congrArg some this

/-- C161: new places, by averaging the local models: `predict_by_weight` smooths twice. With weights `λ`
for the fitted locations and kernels `κ` between the observations the prediction is the `λ`-weighted
mean of the estimates at the fitted locations, whatever the features. -/
theorem C161_predict_by_weight (L : Learner K F) (hL : IsWeightedMean L) (rng : Rng S) (p : WMParams K C)
    (hd : p.cacheData = true) (hce : p.cacheEstimator = true) (hrate : p.sampleRate = none)
    (st : WMState K F C) (s : S) (X : Mat K) (y : List K) (ct cn : C) (D M : Mat K) (Xn : Mat K)
    (hD : p.weights ct ct = .ok D) (hM : p.weights cn ct = .ok M) (hMr : M.r = Xn.r) (hMc : M.c = X.r)
    (h : (wmFit L rng p st s X y (some ct) none).result = .ok ())
    (κ : Nat → Nat → K) (z : Nat → K) (hz : ∀ i < X.r, z i ≠ 0)
    (hκ : ∀ i < X.r, ∀ j < X.r, D.get i j = κ i j / z i) :
    ∃ ps, predictByWeight L p (wmFit L rng p st s X y (some ct) none).state Xn (some cn) none = .ok ps ∧
      ∀ m < Xn.r, ps[m]? = some (∑ i ∈ Finset.range X.r, M.get m i *
        ((∑ j ∈ Finset.range X.r, if p.leaveLocalOut = true ∧ j = i then 0 else κ i j * y.getD j 0) /
          ∑ j ∈ Finset.range X.r, if p.leaveLocalOut = true ∧ j = i then 0 else κ i j)) := by
  have hcw : chosenWeights p (some ct) none = .ok (.dense D) := by
    simp [chosenWeights, hD, Except.map]
  have hco : (wmFit L rng p st s X y (some ct) none).state.coords = some ct ∧
      ∀ idx, (wmFit L rng p st s X y (some ct) none).state.localIndices = some idx → idx ≠ [] := by
    obtain ⟨W0, idx, s', res, sc, hck, hW0, hs, hf, hl, h2, hsc, hout⟩ := wmFit_ok h
    rw [hout]
    refine ⟨by simp [stateBegin, hd], fun idx' hi => ?_⟩
    cases Option.some.inj hi
    intro h0
    rw [h0] at h2
    simp at h2
  obtain ⟨idx, s1, fs1, hs, hy, hl1, hix, hes, -, hfit⟩ := fit_values (.inr hrate) hcw h
  rw [hrate] at hs
  have hidx := sampleLocations_all hs
  subst hidx
  have hn : (List.range X.r).length ≠ 0 := fun h0 => hco.2 _ hix (List.length_eq_zero_iff.1 h0)
  simp only [hce, if_true] at hes
  have hz' : fs1 ≠ [] := fun h0 => by
    rw [h0] at hl1
    exact hn hl1.symm
  rw [List.length_range] at hl1
  refine ⟨_, C43_weighted_sum L p _ Xn cn ct M fs1 hd hce hes hz' hco.1 hM hMr (by omega), fun m hm => ?_⟩
  rw [List.getElem?_map, List.getElem?_range hm, Option.map_some, ← list_sum_range]
  congr 2
  apply List.ext_getElem
  · simp [Mat.row, hl1, hMc]
  intro k h1 h2
  have hk : k < X.r := by simpa using h2
  have e0 : (List.range X.r)[k]? = some k := List.getElem?_range hk
  have e1 := List.getElem?_eq_getElem (by omega : k < fs1.length)
  simp only [List.getElem_zipWith, List.getElem_map, List.getElem_range, Mat.row]
  congr 1
  rw [hL _ _ _ _ _ (hfit k k _ e0 e1)]
  exact mean_of_kernel (n := X.r) (sel := fun j => D.get k j ≠ 0 ∧ ¬ (p.leaveLocalOut = true ∧ j = k)) rfl
    (hz k hk) (hκ k hk) (out := fun j => p.leaveLocalOut = true ∧ j = k) fun j _ => Iff.rfl

/-! ### Examples -/

theorem localMean_mean : IsWeightedMean localMean := by
  intro e rows ys ws f hf x
  simp only [localMean] at hf ⊢
  split at hf
  · cases hf
  · injection hf with hf
    exact hf.symm

/-- A fitted model of local means, two new places, and the kernels of the new places. -/
def meanFitted : WMState ℚ ℚ (List (Mat ℚ)) :=
  (wmFit localMean countRng exPc {} 0 exX5 exY5 (some exTrain) none).state

def nearNew : List (Mat ℚ) := [⟨2, 1, fun i _ => 2 * i + 1 / 2⟩]

/-- The bisquare kernel of squared distances with bandwidth ten. -/
def nearKernel (m j : Nat) : ℚ := publishedKernel id "bisquare" ((2 * m + 1 / 2 - j) ^ 2 / 10)

/-- The weights of the new places are the kernels up to a factor, `predict_by_fit` with these weights is
the kernel estimate, and neither `predict_by_fit` from coordinates alone nor `predict_by_weight` is. -/
example : okAnd (exSource nearNew exTrain) (fun M =>
      ((List.range 2).all fun m => (List.range 5).all fun j => decide (M.get m j =
        nearKernel m j / ∑ j ∈ Finset.range 5, nearKernel m j)) &&
      okAnd (predictByFit localMean exPc meanFitted ⟨2, 1, fun _ _ => 0⟩ (some nearNew) (some M)) fun ps =>
      okAnd (predictByFit localMean exPc meanFitted ⟨2, 1, fun _ _ => 0⟩ (some nearNew) none) fun qs =>
      okAnd (predictByWeight localMean exPc meanFitted ⟨2, 1, fun _ _ => 0⟩ (some nearNew) none) fun rs =>
        decide (ps = (List.range 2).map fun m => (∑ j ∈ Finset.range 5, nearKernel m j * exY5.getD j 0) /
          ∑ j ∈ Finset.range 5, nearKernel m j) && decide (ps.getD 0 0 ≠ qs.getD 0 0) &&
        decide (ps.getD 0 0 ≠ rs.getD 0 0) && decide (qs.getD 0 0 ≠ rs.getD 0 0)) = true := by
  decide +kernel

end Geo
