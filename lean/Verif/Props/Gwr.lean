import Verif.Props.KernelSmoother
import Verif.Props.Exactness
/-
C164: with least squares as regressor the model is geographically weighted regression.
-/
set_option linter.unusedSectionVars false
namespace Geo
variable {K : Type} [Field K] [LinearOrder K] [IsStrictOrderedRing K] [FloorRing K]
  {F C S : Type}

/-- The normal equations of the weighted regression of `y` on the features with an intercept: the
residuals are orthogonal, in the weights `v`, to the constant and to every feature. -/
def NormalEquations (X : Mat K) (v y : Nat → K) (c : K) (β : Nat → K) : Prop :=
  (∑ j ∈ Finset.range X.r, v j * (y j - linVal X.c c β (X.row j)) = 0) ∧
  ∀ q < X.c, ∑ j ∈ Finset.range X.r, v j * X.get j q * (y j - linVal X.c c β (X.row j)) = 0

theorem filtered_sum {T : List Nat} {n : Nat} {sel : Nat → Prop} [DecidablePred sel]
    (hT : T = (List.range n).filter fun k => decide (sel k)) {w : Nat → K}
    {out : Nat → Prop} [DecidablePred out] (hsel : ∀ j < n, sel j ↔ w j ≠ 0 ∧ ¬ out j)
    (g : Nat → K) (hg : ∀ j < n, w j = 0 → g j = 0) :
    (T.map g).sum = ∑ j ∈ Finset.range n, if out j then 0 else g j := by
  rw [hT, ← list_sum_range]
  have : ∀ m : List Nat, (∀ j ∈ m, j < n) → ((m.filter fun k => decide (sel k)).map g).sum =
      (m.map fun j => if out j then 0 else g j).sum := by
    intro m
    induction m with
    | nil => intro _; rfl
    | cons a m ih =>
      intro hm
      have ha := hm a (by simp)
      have ih := ih fun j hj => hm j (by simp [hj])
      rw [List.map_cons, List.sum_cons]
      by_cases hsa : sel a
      · rw [List.filter_cons_of_pos (by simpa using hsa), List.map_cons, List.sum_cons, ih,
          if_neg ((hsel a ha).1 hsa).2]
      · rw [List.filter_cons_of_neg (by simpa using hsa), ih]
        have : (if out a then 0 else g a) = 0 := by
          by_cases ho : out a
          · simp [ho]
          · rw [if_neg ho]
            apply hg a ha
            by_contra hne
            exact hsa ((hsel a ha).2 ⟨hne, ho⟩)
        rw [this, zero_add]
  exact this _ fun j hj => List.mem_range.1 hj

/-- The weighted sum of squares over all observations. -/
def kernelSse (X : Mat K) (v y : Nat → K) (c : K) (β : Nat → K) : K :=
  ∑ j ∈ Finset.range X.r, v j * (y j - linVal X.c c β (X.row j)) ^ 2

theorem linVal_sub (n : Nat) (c d : K) (β γ : Nat → K) (x : List K) :
    linVal n c β x - linVal n d γ x = linVal n (c - d) (fun q => β q - γ q) x := by
  unfold linVal
  rw [add_sub_add_comm, ← Finset.sum_sub_distrib]
  congr 1
  exact Finset.sum_congr rfl fun q _ => by ring

theorem linVal_step (n : Nat) (c d t : K) (β γ : Nat → K) (x : List K) :
    linVal n (c + t * d) (fun q => β q + t * γ q) x = linVal n c β x + t * linVal n d γ x := by
  unfold linVal
  rw [mul_add, Finset.mul_sum, add_add_add_comm, ← Finset.sum_add_distrib]
  congr 1
  exact Finset.sum_congr rfl fun q _ => by ring

/-- The normal equations say that the residuals are orthogonal to every linear function. -/
theorem NormalEquations.orthogonal {X : Mat K} {v y : Nat → K} {c : K} {β : Nat → K}
    (h : NormalEquations X v y c β) (d : K) (γ : Nat → K) :
    ∑ j ∈ Finset.range X.r, v j * (y j - linVal X.c c β (X.row j)) * linVal X.c d γ (X.row j) = 0 := by
  have h1 : ∀ j, v j * (y j - linVal X.c c β (X.row j)) * linVal X.c d γ (X.row j) =
      d * (v j * (y j - linVal X.c c β (X.row j))) + ∑ q ∈ Finset.range X.c,
        γ q * (v j * X.get j q * (y j - linVal X.c c β (X.row j))) := by
    intro j
    conv_lhs => rw [show linVal X.c d γ (X.row j) =
      d + ∑ q ∈ Finset.range X.c, γ q * (X.row j).getD q 0 from rfl]
    rw [mul_add, Finset.mul_sum]
    congr 1
    · ring
    · refine Finset.sum_congr rfl fun q hq => ?_
      have hq := Finset.mem_range.1 hq
      have : (X.row j).getD q 0 = X.get j q := by simp [Mat.row, hq]
      rw [this]
      ring
  simp only [h1]
  rw [Finset.sum_add_distrib, ← Finset.mul_sum, h.1, mul_zero, zero_add, Finset.sum_comm]
  refine Finset.sum_eq_zero fun q hq => ?_
  rw [← Finset.mul_sum, h.2 q (Finset.mem_range.1 hq), mul_zero]

theorem kernelSse_step (X : Mat K) (v y : Nat → K) (c d t : K) (β γ : Nat → K) :
    kernelSse X v y (c + t * d) (fun q => β q + t * γ q) = kernelSse X v y c β -
      2 * t * (∑ j ∈ Finset.range X.r,
        v j * (y j - linVal X.c c β (X.row j)) * linVal X.c d γ (X.row j)) +
      t ^ 2 * ∑ j ∈ Finset.range X.r, v j * linVal X.c d γ (X.row j) ^ 2 := by
  unfold kernelSse
  rw [Finset.mul_sum, Finset.mul_sum, ← Finset.sum_sub_distrib, ← Finset.sum_add_distrib]
  refine Finset.sum_congr rfl fun j _ => ?_
  rw [linVal_step]
  ring

/-- A minimiser of the weighted sum of squares solves the normal equations. -/
theorem normal_of_min {X : Mat K} {v y : Nat → K} (hv : ∀ j < X.r, 0 ≤ v j) {c : K} {β : Nat → K}
    (h : ∀ c' β', kernelSse X v y c β ≤ kernelSse X v y c' β') : NormalEquations X v y c β := by
  have key : ∀ d γ, ∑ j ∈ Finset.range X.r,
      v j * (y j - linVal X.c c β (X.row j)) * linVal X.c d γ (X.row j) = 0 := by
    intro d γ
    have hq : ∀ t : K, 0 ≤ t ^ 2 * (∑ j ∈ Finset.range X.r, v j * linVal X.c d γ (X.row j) ^ 2) -
        2 * t * ∑ j ∈ Finset.range X.r,
          v j * (y j - linVal X.c c β (X.row j)) * linVal X.c d γ (X.row j) := by
      intro t
      have := h (c + t * d) (fun q => β q + t * γ q)
      rw [kernelSse_step] at this
      linarith
    have hA : 0 ≤ ∑ j ∈ Finset.range X.r, v j * linVal X.c d γ (X.row j) ^ 2 :=
      Finset.sum_nonneg fun j hj => mul_nonneg (hv j (Finset.mem_range.1 hj)) (sq_nonneg _)
    revert hq hA
    generalize ∑ j ∈ Finset.range X.r, v j * linVal X.c d γ (X.row j) ^ 2 = A
    generalize ∑ j ∈ Finset.range X.r,
          v j * (y j - linVal X.c c β (X.row j)) * linVal X.c d γ (X.row j) = B
    intro hq hA
    by_contra hB
    have hB2 : 0 < B ^ 2 := by positivity
    rcases hA.eq_or_lt with h0 | h0
    · have := hq B
      rw [← h0] at this
      nlinarith
    · have := hq (B / A)
      have e : (B / A) ^ 2 * A - 2 * (B / A) * B = -(B ^ 2 / A) := by
        field_simp
        ring
      rw [e] at this
      have : 0 < B ^ 2 / A := by positivity
      linarith
  refine ⟨?_, fun q hq => ?_⟩
  · have := key 1 (fun _ => 0)
    simpa [linVal] using this
  · have := key 0 (fun r => if r = q then 1 else 0)
    rw [← this]
    refine Finset.sum_congr rfl fun j _ => ?_
    have e : linVal X.c 0 (fun r => if r = q then 1 else 0) (X.row j) = X.get j q := by
      simp [linVal, hq, Mat.row]
    rw [e]
    ring

/-- Two solutions of the normal equations have the same fitted values at all observations that count. -/
theorem NormalEquations.unique {X : Mat K} {v y : Nat → K} (hv : ∀ j < X.r, 0 ≤ v j) {c d : K}
    {β γ : Nat → K} (h : NormalEquations X v y c β) (h' : NormalEquations X v y d γ) (j : Nat)
    (hj : j < X.r) (hvj : v j ≠ 0) : linVal X.c c β (X.row j) = linVal X.c d γ (X.row j) := by
  have h1 := h.orthogonal (c - d) (fun q => β q - γ q)
  have h2 := h'.orthogonal (c - d) (fun q => β q - γ q)
  have h3 : ∑ j ∈ Finset.range X.r,
      v j * (linVal X.c c β (X.row j) - linVal X.c d γ (X.row j)) ^ 2 = 0 := by
    have : ∀ j, v j * (linVal X.c c β (X.row j) - linVal X.c d γ (X.row j)) ^ 2 =
        v j * (y j - linVal X.c d γ (X.row j)) * linVal X.c (c - d) (fun q => β q - γ q) (X.row j) -
        v j * (y j - linVal X.c c β (X.row j)) * linVal X.c (c - d) (fun q => β q - γ q) (X.row j) := by
      intro j
      rw [← linVal_sub]
      ring
    simp only [this]
    rw [Finset.sum_sub_distrib, h1, h2, sub_zero]
  have h4 := (Finset.sum_eq_zero_iff_of_nonneg fun j hj =>
    mul_nonneg (hv j (Finset.mem_range.1 hj)) (sq_nonneg _)).1 h3 j (Finset.mem_range.2 hj)
  rw [mul_eq_zero, or_iff_right hvj, pow_eq_zero_iff two_ne_zero, sub_eq_zero] at h4
  exact h4

/-- One local regression: the weights count up to a factor only. -/
theorem gwr_core {L : Learner K F} {X : Mat K} (hL : LeastSquares X.c L) {T : List Nat}
    {sel : Nat → Prop} [DecidablePred sel]
    (hT : T = (List.range X.r).filter fun k => decide (sel k)) {w κ y : Nat → K} {z : K} (hz : 0 < z)
    (hw : ∀ j < X.r, w j = κ j / z) (hκ : ∀ j < X.r, 0 ≤ κ j) {out : Nat → Prop} [DecidablePred out]
    (hsel : ∀ j < X.r, sel j ↔ w j ≠ 0 ∧ ¬ out j) {e : Nat} {f : F}
    (h : L.fit e (T.map X.row) (T.map y) (T.map w) = .ok f) :
    (∃ c β, (∀ x, L.predict f x = linVal X.c c β x) ∧
      NormalEquations X (fun j => if out j then 0 else κ j) y c β) ∧
    ∀ c β, NormalEquations X (fun j => if out j then 0 else κ j) y c β →
      ∀ x, AffineOf X (fun j => (if out j then 0 else κ j) ≠ 0) x →
        L.predict f x = linVal X.c c β x := by
  obtain ⟨c0, β0, hp, hmin⟩ := hL _ _ _ _ _ h
  have hv : ∀ j < X.r, 0 ≤ (fun j => if out j then 0 else κ j) j := by
    intro j hj
    simp only
    split
    · exact le_rfl
    · exact hκ j hj
  have hsse : ∀ c β, weightedSse X.c (T.map X.row) (T.map y) (T.map w) c β =
      kernelSse X (fun j => if out j then 0 else κ j) y c β / z := by
    intro c β
    have h1 : weightedSse X.c (T.map X.row) (T.map y) (T.map w) c β =
        (T.map fun j => w j * (y j - linVal X.c c β (X.row j)) ^ 2).sum := by
      unfold weightedSse
      rw [← list_sum_range, List.length_map]
      congr 1
      apply List.ext_getElem (by simp)
      intro k k1 k2
      have hk : k < T.length := by simpa using k2
      simp [hk]
    rw [h1, filtered_sum hT hsel _ fun j _ h0 => by rw [h0, zero_mul]]
    unfold kernelSse
    rw [Finset.sum_div]
    refine Finset.sum_congr rfl fun j hj => ?_
    rw [hw j (Finset.mem_range.1 hj)]
    by_cases ho : out j
    · simp [ho]
    · simp only [if_neg ho]
      ring
  have hn : NormalEquations X (fun j => if out j then 0 else κ j) y c0 β0 :=
    normal_of_min hv fun c' β' => by
      have := hmin c' β'
      rw [hsse, hsse] at this
      exact (div_le_div_iff_of_pos_right hz).1 this
  refine ⟨⟨c0, β0, hp, hn⟩, fun c β hne x hx => ?_⟩
  rw [hp]
  exact hx.linVal fun j hj hvj => hn.unique hv hne j hj hvj

/-- The bandwidth of a dimension at a location: fixed, the distance to the `k`-th nearest observation
(the location itself counts), or a quantile of the distances. -/
def DimSpec.radius (d : DimSpec K) (i : Nat) : K :=
  match d.bandwidth, d.count with
  | some b, _ => b
  | none, some (.int k) => (sortL (d.dist.row i)).getD (k - 1).toNat 0
  | none, some (.float q) => quantileVal virtMedian (d.dist.row i) q
  | none, _ => 0

theorem kernelFunction_published {env : Env K} {lazy : Bool} {D : Mat K} {bw : Nat → K} {name : String}
    {W : Mat (Num K)} (hn : name ∈ kernelTypeEnum) (h : kernelFunction env lazy D bw name = .ok W)
    {i j : Nat} (hd : 0 ≤ D.get i j) (hb : 0 < bw i) :
    W.get i j = .fin (publishedKernel env.exp name (D.get i j / bw i)) := by
  have hp := kernelWeight_published env lazy name hn _ _ hd hb
  simp only [kernelFunction] at h
  unfold kernelWeight at hp
  cases hke : kernelElem env lazy name with
  | error e => rw [hke] at hp; cases hp
  | ok w =>
    rw [hke] at hp h
    injection hp with hp
    rw [← Except.ok.inj h]
    exact hp

/-- C164: the weights. Every row of the weight matrix is, up to one positive factor, the product over
the dimensions of the published kernels of distance over bandwidth, where the bandwidth is the fixed
one, the distance of the `k`-th nearest observation or the quantile of the distances. -/
theorem C164_weights (env : Env K) (he : env.Ok) (l : List (DimSpec K)) (hl : ∀ d ∈ l, d.Nonneg)
    (W : Mat (Num K)) (h : weightsOf env false l = .ok W) (i : Nat) (hi : i < W.r)
    (hb : ∀ d ∈ l, 0 < d.radius i) :
    ∃ z, 0 < z ∧ ∀ j < W.c, W.get i j = .fin
      ((l.map fun d => publishedKernel env.exp d.kernel (d.dist.get i j / d.radius i)).prod / z) := by
  obtain ⟨Ws, hWs, hne, hsh, hu, hr, hc, hlog, hW⟩ := weightsOf_ok he hl h
  refine ⟨normK Ws W.c i, hu.normK_pos hi, fun j hj => ?_⟩
  rw [hW i hi j hj]
  congr 2
  unfold prodK
  congr 1
  apply List.ext_getElem
  · simp [mapE_length hWs]
  intro k h1 h2
  have hk : k < l.length := by simpa using h2
  have hkW : k < Ws.length := by simpa using h1
  simp only [List.getElem_map]
  have hm := List.getElem_mem hk
  have hw := mapE_get hWs hk
  have hbp := hb _ hm
  obtain ⟨s1, s2⟩ := hsh l[k].dist (List.mem_map.2 ⟨_, hm, rfl⟩)
  unfold DimSpec.weights at hw
  have hen := (weightByDistance_val env hw (hl _ hm).dist (hl _ hm).bandwidth (by
    intro S hS
    cases hS)).2.2.1
  have hd : 0 ≤ l[k].dist.get i j := (hl _ hm).dist i (s1 ▸ hi) j (s2 ▸ hj)
  suffices hs : ∃ bw, kernelFunction env false l[k].dist bw l[k].kernel = .ok Ws[k] ∧
      bw i = l[k].radius i by
    obtain ⟨bw, hf, hbw⟩ := hs
    have := kernelFunction_published hen hf hd (hbw ▸ hbp)
    rw [hbw] at this
    rw [this]
    rfl
  unfold weightByDistance at hw
  unfold DimSpec.radius
  cases hbw : l[k].bandwidth with
  | some b =>
    rw [hbw] at hw
    cases hcn : l[k].count with
    | some n => rw [hcn] at hw; cases hw
    | none => rw [hcn] at hw; exact ⟨_, hw, rfl⟩
  | none =>
    rw [hbw] at hw
    cases hcn : l[k].count with
    | none => rw [hcn] at hw; cases hw
    | some n =>
      rw [hcn] at hw
      simp only [adaptiveKernel, adaptiveBandwidth, Bool.false_eq_true, if_false] at hw
      cases n with
      | int m =>
        simp only [adaptiveBandwidthEager] at hw
        split at hw
        · cases hw
        · rename_i bw hbw'
          split at hbw'
          · cases hbw'
          split at hbw'
          · rw [← Except.ok.inj hbw'] at hw
            exact ⟨_, hw, rfl⟩
          · cases hbw'
      | float q =>
        simp only [adaptiveBandwidthEager] at hw
        split at hw
        · cases hw
        · rename_i bw hbw'
          split at hbw'
          · cases hbw'
          split at hbw'
          · cases hbw'
          split at hbw'
          · cases hbw'
          rw [← Except.ok.inj hbw'] at hw
          exact ⟨_, hw, rfl⟩
      | npInt m => cases hw

/-- C164: the local models. If row `i` of the weights is `κ` up to a positive factor, the model fitted at
`i` solves the normal equations of the regression with weights `κ` on all observations, without the
observation itself when `leave_local_out` is set; the stored estimator is this solution everywhere, and
the local prediction is the value of *any* solution if the observations that count determine it. -/
theorem C164_local_models (L : Learner K F) (rng : Rng S) (p : WMParams K C)
    (hal : p.nJobs = none ∨ p.sampleRate = none) (st : WMState K F C) (s : S) (X : Mat K)
    (hL : LeastSquares X.c L)
    (y : List K) (coords : Option C) (W : Option (WMat K)) (D : Mat K)
    (hD : chosenWeights p coords W = .ok (.dense D))
    (h : (wmFit L rng p st s X y coords W).result = .ok ()) :
    ∃ (idx : List Nat) (ps : List K) (es : List (Option F)),
      (wmFit L rng p st s X y coords W).state.localIndices = some idx ∧
      (wmFit L rng p st s X y coords W).state.localPredict = some ps ∧
      (wmFit L rng p st s X y coords W).state.estimators = some es ∧
      ∀ (k i : Nat), idx[k]? = some i → ∀ (κ : Nat → K) (z : K), 0 < z →
        (∀ j < X.r, 0 ≤ κ j ∧ D.get i j = κ j / z) →
        (∃ c β, NormalEquations X (fun j => if p.leaveLocalOut = true ∧ j = i then 0 else κ j)
            (fun j => y.getD j 0) c β ∧
          ps[k]? = some (linVal X.c c β (X.row i)) ∧
          (p.cacheEstimator = true → ∃ f, es[k]? = some (some f) ∧
            ∀ x, L.predict f x = linVal X.c c β x)) ∧
        ∀ c β, NormalEquations X (fun j => if p.leaveLocalOut = true ∧ j = i then 0 else κ j)
            (fun j => y.getD j 0) c β →
          (AffineOf X (fun j => κ j ≠ 0 ∧ ¬ (p.leaveLocalOut = true ∧ j = i)) (X.row i) →
            ps[k]? = some (linVal X.c c β (X.row i))) ∧
          (p.cacheEstimator = true → ∃ f, es[k]? = some (some f) ∧
            ∀ x, AffineOf X (fun j => κ j ≠ 0 ∧ ¬ (p.leaveLocalOut = true ∧ j = i)) x →
              L.predict f x = linVal X.c c β x) := by
  obtain ⟨idx, s1, fs, hs, hy, hl, hix, hes, ⟨ps, hps, hpl, hrs, hpv⟩, hfit⟩ := fit_values hal hD h
  refine ⟨idx, ps, _, hix, hps, hes, fun k i hk κ z hz hκ => ?_⟩
  obtain ⟨hk', -⟩ := List.getElem?_eq_some_iff.1 hk
  have e1 := List.getElem?_eq_getElem (by omega : k < fs.length)
  obtain ⟨⟨c, β, hp, hn⟩, hu⟩ := gwr_core hL (sel := fun k => D.get i k ≠ 0 ∧ ¬ (p.leaveLocalOut = true ∧ k = i))
    (T := trainingSet p X.r D i) rfl hz (fun j hj => (hκ j hj).2) (fun j hj => (hκ j hj).1)
    (out := fun j => p.leaveLocalOut = true ∧ j = i) (fun j _ => Iff.rfl) (hfit k i _ hk e1)
  have haff : ∀ x, AffineOf X (fun j => κ j ≠ 0 ∧ ¬ (p.leaveLocalOut = true ∧ j = i)) x →
      AffineOf X (fun j => (if p.leaveLocalOut = true ∧ j = i then 0 else κ j) ≠ 0) x := by
    rintro x ⟨a, ha, hr⟩
    refine ⟨a, fun j hj h0 => ?_, hr⟩
    obtain ⟨h1, h2⟩ := ha j hj h0
    simp only [if_neg h2]
    exact h1
  have hest : p.cacheEstimator = true →
      (fs.map fun f => if p.cacheEstimator then some f else none)[k]? = some (some fs[k]) := by
    intro hc
    rw [List.getElem?_map, e1]
    simp [hc]
  refine ⟨⟨c, β, hn, ?_, fun hc => ⟨_, hest hc, hp⟩⟩, fun c β hn => ⟨fun hx => ?_, fun hc =>
    ⟨_, hest hc, fun x hx => hu c β hn x (haff x hx)⟩⟩⟩
  · rw [hpv k i _ hk e1, hp]
  · rw [hpv k i _ hk e1, hu c β hn _ (haff _ hx)]

/-- C164: new places, with a weight matrix whose rows are the kernels of the new places up to a factor:
`predict_by_fit` is the geographically weighted regression at the new place. -/
theorem C164_predict_by_fit_given (L : Learner K F) (p : WMParams K C)
    (st : WMState K F C) (Xn : Mat K) (cn : Option C) (ps : List K) (X : Mat K)
    (hL : LeastSquares X.c L) (y : List K)
    (hX : st.X = some X) (hy : st.y = some y) (V : Mat K)
    (h : predictByFit L p st Xn cn (some V) = .ok ps) (m : Nat) (hm : m < V.r) (κ : Nat → K) (z : K)
    (hz : 0 < z) (hκ : ∀ j < X.r, 0 ≤ κ j ∧ V.get m j = κ j / z) :
    (∃ c β, NormalEquations X κ (fun j => y.getD j 0) c β ∧ ps[m]? = some (linVal X.c c β (Xn.row m))) ∧
    ∀ c β, NormalEquations X κ (fun j => y.getD j 0) c β → AffineOf X (fun j => κ j ≠ 0) (Xn.row m) →
      ps[m]? = some (linVal X.c c β (Xn.row m)) := by
  obtain ⟨f, e1, g1⟩ := (predictByFit_given hX hy h).2 m hm
  obtain ⟨⟨c, β, hp, hn⟩, hu⟩ := gwr_core hL (sel := fun k => V.get m k ≠ 0) rfl hz
    (fun j hj => (hκ j hj).2) (fun j hj => (hκ j hj).1) (out := fun _ => False) (fun j _ => by simp) e1
  simp only [if_false] at hn hu
  refine ⟨⟨c, β, hn, by rw [g1, hp]⟩, fun c β hn hx => ?_⟩
  rw [g1, hu c β hn _ hx]

/-- C164: new places, from coordinates alone: the weight of an observation is its kernel divided by the
sum of its kernels over all the places asked about. -/
theorem C164_predict_by_fit_coordinates (L : Learner K F) (p : WMParams K C)
    (st : WMState K F C) (Xn : Mat K) (cn ct : C) (ps : List K) (X : Mat K)
    (hL : LeastSquares X.c L) (y : List K)
    (hX : st.X = some X) (hy : st.y = some y) (hc : st.coords = some ct) (M : Mat K)
    (hM : p.weights ct cn = .ok M) (h : predictByFit L p st Xn (some cn) none = .ok ps)
    (κ : Nat → Nat → K) (z : Nat → K)
    (hκ : ∀ j < X.r, ∀ m < M.c, 0 ≤ κ j m / z j ∧ M.get j m = κ j m / z j)
    (m : Nat) (hm : m < M.c) :
    (∃ c β, NormalEquations X (fun j => κ j m / z j) (fun j => y.getD j 0) c β ∧
      ps[m]? = some (linVal X.c c β (Xn.row m))) ∧
    ∀ c β, NormalEquations X (fun j => κ j m / z j) (fun j => y.getD j 0) c β →
      AffineOf X (fun j => κ j m / z j ≠ 0) (Xn.row m) → ps[m]? = some (linVal X.c c β (Xn.row m)) := by
  obtain ⟨f, e1, g1⟩ := (predictByFit_values hX hy hc hM h).2 m hm
  obtain ⟨⟨c, β, hp, hn⟩, hu⟩ := gwr_core hL (sel := fun k => M.get k m ≠ 0) rfl (zero_lt_one (α := K))
    (w := fun k => M.get k m) (κ := fun j => κ j m / z j)
    (fun j hj => by rw [(hκ j hj m hm).2, div_one]) (fun j hj => (hκ j hj m hm).1)
    (out := fun _ => False) (fun j _ => by simp) e1
  simp only [if_false] at hn hu
  refine ⟨⟨c, β, hn, by rw [g1, hp]⟩, fun c β hn hx => ?_⟩
  rw [g1, hu c β hn _ hx]

/-- C164: new places, by averaging the local models: `predict_by_weight` averages the coefficients of the
regressions at the fitted locations with the weights of the new place. -/
theorem C164_predict_by_weight (L : Learner K F) (rng : Rng S) (p : WMParams K C)
    (hd : p.cacheData = true) (hce : p.cacheEstimator = true) (hrate : p.sampleRate = none)
    (st : WMState K F C) (s : S) (X : Mat K) (hL : LeastSquares X.c L) (y : List K) (ct cn : C)
    (D M : Mat K) (Xn : Mat K)
    (hD : p.weights ct ct = .ok D) (hM : p.weights cn ct = .ok M) (hMr : M.r = Xn.r) (hMc : M.c = X.r)
    (h : (wmFit L rng p st s X y (some ct) none).result = .ok ())
    (κ : Nat → Nat → K) (z : Nat → K) (hz : ∀ i < X.r, 0 < z i)
    (hκ : ∀ i < X.r, ∀ j < X.r, 0 ≤ κ i j ∧ D.get i j = κ i j / z i) :
    ∃ (c : Nat → K) (β : Nat → Nat → K) (ps : List K),
      (∀ i < X.r, NormalEquations X (fun j => if p.leaveLocalOut = true ∧ j = i then 0 else κ i j)
        (fun j => y.getD j 0) (c i) (β i)) ∧
      predictByWeight L p (wmFit L rng p st s X y (some ct) none).state Xn (some cn) none = .ok ps ∧
      ∀ m < Xn.r, ps[m]? = some (linVal X.c (∑ i ∈ Finset.range X.r, M.get m i * c i)
        (fun q => ∑ i ∈ Finset.range X.r, M.get m i * β i q) (Xn.row m)) := by
  have hcw : chosenWeights p (some ct) none = .ok (.dense D) := by
    simp [chosenWeights, hD, Except.map]
  have hco : (wmFit L rng p st s X y (some ct) none).state.coords = some ct ∧
      ∀ idx, (wmFit L rng p st s X y (some ct) none).state.localIndices = some idx → idx ≠ [] := by
    obtain ⟨W0, idx, s', res, sc, hck, hW0, hs, hf, hl, h2, hsc, hout⟩ := wmFit_ok h
    rw [hout]
    refine ⟨by simp [stateBegin, hd], fun idx' hi => ?_⟩
    cases Option.some.inj hi
    intro h0
    rw [h0] at h2
    simp at h2
  obtain ⟨idx, s1, fs1, hs, hy, hl1, hix, hes, -, hfit⟩ := fit_values (.inr hrate) hcw h
  rw [hrate] at hs
  have hidx := sampleLocations_all hs
  subst hidx
  have hn : (List.range X.r).length ≠ 0 := fun h0 => hco.2 _ hix (List.length_eq_zero_iff.1 h0)
  simp only [hce, if_true] at hes
  have hz' : fs1 ≠ [] := fun h0 => by
    rw [h0] at hl1
    exact hn hl1.symm
  rw [List.length_range] at hl1
  have hcoef : ∀ i, ∃ cb : K × (Nat → K), ∀ hi : i < fs1.length,
      (∀ x, L.predict fs1[i] x = linVal X.c cb.1 cb.2 x) ∧
      NormalEquations X (fun j => if p.leaveLocalOut = true ∧ j = i then 0 else κ i j)
        (fun j => y.getD j 0) cb.1 cb.2 := by
    intro i
    by_cases hi : i < fs1.length
    · have hi' : i < X.r := by omega
      obtain ⟨⟨c, β, h1⟩, -⟩ := gwr_core hL
        (sel := fun j => D.get i j ≠ 0 ∧ ¬ (p.leaveLocalOut = true ∧ j = i)) (T := trainingSet p X.r D i) rfl
        (hz i hi') (fun j hj => (hκ i hi' j hj).2) (fun j hj => (hκ i hi' j hj).1)
        (out := fun j => p.leaveLocalOut = true ∧ j = i) (fun j _ => Iff.rfl)
        (hfit i i _ (List.getElem?_range hi') (List.getElem?_eq_getElem hi))
      exact ⟨(c, β), fun _ => h1⟩
    · exact ⟨(0, fun _ => 0), fun h0 => absurd h0 hi⟩
  choose cb hcb using hcoef
  refine ⟨fun i => (cb i).1, fun i => (cb i).2, _, fun i hi => (hcb i (by omega)).2,
    C43_weighted_sum L p _ Xn cn ct M fs1 hd hce hes hz' hco.1 hM hMr (by omega), fun m hm => ?_⟩
  rw [List.getElem?_map, List.getElem?_range hm, Option.map_some]
  congr 1
  have e : linVal X.c (∑ i ∈ Finset.range X.r, M.get m i * (cb i).1)
      (fun q => ∑ i ∈ Finset.range X.r, M.get m i * (cb i).2 q) (Xn.row m) =
      ∑ i ∈ Finset.range X.r, M.get m i * linVal X.c (cb i).1 (cb i).2 (Xn.row m) := by
    unfold linVal
    simp only [mul_add, Finset.sum_add_distrib, Finset.sum_mul, Finset.mul_sum]
    congr 1
    rw [Finset.sum_comm]
    exact Finset.sum_congr rfl fun i _ => Finset.sum_congr rfl fun q _ => by ring
  rw [e, ← list_sum_range]
  congr 1
  apply List.ext_getElem
  · simp [Mat.row, hl1, hMc]
  intro k h1 h2
  have hk : k < X.r := by simpa using h2
  simp only [List.getElem_zipWith, List.getElem_map, List.getElem_range, Mat.row]
  congr 1
  exact (hcb k (by omega)).1 _

/-! ### Examples -/

/-- Distances on a line, with the kernel reaching to the third nearest observation or to a quantile. -/
def gwrDims : List (DimSpec ℚ) :=
  [{ dist := ⟨5, 5, fun i j => |(i : ℚ) - j|⟩, kernel := "bisquare", count := some (.int 3) },
   { dist := ⟨5, 5, fun i j => |(i : ℚ) - j|⟩, kernel := "linear", count := some (.float (9 / 10)) }]

/-- The weights exist, and the bandwidths are positive and differ between the locations. -/
example : okAnd (weightsOf ratEnv false gwrDims) (fun W => decide (W.r = 5)) = true ∧
    (∀ d ∈ gwrDims, d.Nonneg) ∧ (∀ i < 5, ∀ d ∈ gwrDims, 0 < d.radius i) ∧
    gwrDims.map (fun d => d.radius 0) ≠ gwrDims.map (fun d => d.radius 2) := by
  refine ⟨by decide +kernel, ?_, by decide +kernel, by decide +kernel⟩
  intro d hd
  simp only [gwrDims, List.mem_cons, List.not_mem_nil, or_false] at hd
  rcases hd with rfl | rfl
  · exact ⟨fun i _ j _ => abs_nonneg _, fun b hb => (by cases hb), fun S hS => (by cases hS)⟩
  · exact ⟨fun i _ j _ => abs_nonneg _, fun b hb => (by cases hb), fun S hS => (by cases hS)⟩

/-- The coefficients of the model stored for location `i`. -/
def gwrCoef (i : Nat) : ℚ × ℚ :=
  (((wmFit simpleRegression countRng exPc {} 0 exX5 exY5 (some exTrain) none).state.estimators.getD
    []).getD i none).getD (0, 0)

/-- The kernel of the example: bisquare of squared distances with bandwidth ten. -/
def gwrKernel (i j : Nat) : ℚ := publishedKernel id "bisquare" (((i : ℚ) - j) ^ 2 / 10)

/-- On data that are not linear the fit succeeds, its rows of weights are the kernels up to a factor, the
stored models differ between the locations, and each solves its normal equations without the observation
itself. -/
example : (wmFit simpleRegression countRng exPc {} 0 exX5 exY5 (some exTrain) none).result = .ok () ∧
    okAnd (exSource exTrain exTrain) (fun D => (List.range 5).all fun i => (List.range 5).all fun j =>
      decide (D.get i j = gwrKernel i j / ∑ j ∈ Finset.range 5, gwrKernel i j)) = true ∧
    (∀ i < 5, ∀ j < i, gwrCoef i ≠ gwrCoef j) ∧
    ∀ i < 5, NormalEquations exX5 (fun j => if exPc.leaveLocalOut = true ∧ j = i then 0 else gwrKernel i j)
      (fun j => exY5.getD j 0) (gwrCoef i).1 (fun _ => (gwrCoef i).2) := by
  refine ⟨by decide +kernel, by decide +kernel, by decide +kernel, ?_⟩
  unfold NormalEquations linVal
  decide +kernel

end Geo
