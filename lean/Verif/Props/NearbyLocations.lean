import Verif.Props.Stability
import Verif.Props.Neighbourhoods
import Verif.Props.WeightModelPredict
/-!
C152: places close to each other are treated alike. Within one call the rows of two locations are
compared; by the triangle inequality their distances to any target differ by no more than the
distance between the two.
-/
set_option linter.unusedSectionVars false
namespace Geo

section Bandwidth
variable {K : Type} [Field K] [LinearOrder K] [IsStrictOrderedRing K] [FloorRing K]

theorem rows_forall₂ {D : Mat K} {e : K} {a b : Nat}
    (h : ∀ j < D.c, D.get a j ≤ D.get b j + e) :
    List.Forall₂ (fun x y => x ≤ y + e) (D.row a) (D.row b) := by
  unfold Mat.row
  rw [List.forall₂_map_left_iff, List.forall₂_map_right_iff, List.forall₂_same]
  exact fun j hj => h j (List.mem_range.1 hj)

theorem adaptiveEager_rows {D : Mat K} {n : Count K} {bw : Nat → K}
    (h : adaptiveBandwidth false D n none = .ok bw) {e : K} {a b : Nat}
    (hd : ∀ j < D.c, D.get a j ≤ D.get b j + e) : bw a ≤ bw b + e := by
  have hrow := rows_forall₂ hd
  cases n with
  | npInt k => simp [adaptiveBandwidth, adaptiveBandwidthEager] at h
  | int k =>
    simp only [adaptiveBandwidth, adaptiveBandwidthEager, Bool.false_eq_true, if_false] at h
    split at h
    · cases h
    split at h
    swap
    · cases h
    rename_i hlt
    injection h with h
    rw [← h]
    exact sortL_shift hrow (by simpa using hlt)
  | float q =>
    obtain ⟨-, -, h0, hb⟩ := adaptiveBandwidth_float_ok h
    rw [hb, hb]
    unfold quantileVal
    simp only [Mat.row_length]
    exact lerp_shift (fun k hk => sortL_shift hrow (by simpa using hk)) h0 _

/-- C152: the adaptive bandwidths of two locations, given by a count or by a fraction, differ by no
more than the largest difference of their distances to a common target. -/
theorem C152_bandwidth (D : Mat K) (n : Count K) (bw : Nat → K)
    (h : adaptiveBandwidth false D n none = .ok bw) (a b : Nat) (δ : K)
    (hd : ∀ j < D.c, |D.get a j - D.get b j| ≤ δ) : |bw a - bw b| ≤ δ := by
  rw [abs_le]
  constructor
  · have := adaptiveEager_rows (a := b) (b := a) (e := δ) h fun j hj => by
      have := (abs_le.1 (hd j hj)).1
      linarith
    linarith
  · have := adaptiveEager_rows (a := a) (b := b) (e := δ) h fun j hj => by
      have := (abs_le.1 (hd j hj)).2
      linarith
    linarith

/-- C152: in particular, when the distances obey the triangle inequality, by no more than the
distance between the two locations. -/
theorem C152_bandwidth_metric {P : Type} (dist : P → P → K) (hsymm : ∀ p q, dist p q = dist q p)
    (htri : ∀ p q s, dist p s ≤ dist p q + dist q s) (src tgt : Nat → P) (r c : Nat) (n : Count K)
    (bw : Nat → K)
    (h : adaptiveBandwidth false ⟨r, c, fun i j => dist (src i) (tgt j)⟩ n none = .ok bw)
    (a b : Nat) : |bw a - bw b| ≤ dist (src a) (src b) := by
  refine C152_bandwidth _ n bw h a b _ fun j _ => ?_
  simp only
  have h1 := htri (src a) (src b) (tgt j)
  have h2 := htri (src b) (src a) (tgt j)
  rw [hsymm (src b) (src a)] at h2
  rw [abs_le]
  constructor <;> linarith

theorem zip_sum_sub {F : Type} (g : F → K) {η B : K} :
    ∀ (u v : List K) (ests : List F), List.Forall₂ (fun x y => |x - y| ≤ η) u v →
      (∀ f ∈ ests, |g f| ≤ B) → ests.length = u.length →
      |(List.zipWith (fun w f => w * g f) u ests).sum -
        (List.zipWith (fun w f => w * g f) v ests).sum| ≤ ests.length * (η * B) := by
  intro u v ests h
  induction h generalizing ests with
  | nil => intro _ hl; simp at hl; subst hl; simp
  | @cons x y u v hxy _ ih =>
    intro hB hl
    cases ests with
    | nil => simp at hl
    | cons f ests =>
      have ih := ih ests (fun f hf => hB f (by simp [hf])) (by simpa using hl)
      have hf := hB f (by simp)
      simp only [List.zipWith_cons_cons, List.sum_cons, List.length_cons, Nat.cast_add, Nat.cast_one]
      rw [show x * g f + (List.zipWith (fun w f => w * g f) u ests).sum -
          (y * g f + (List.zipWith (fun w f => w * g f) v ests).sum) =
        (x - y) * g f + ((List.zipWith (fun w f => w * g f) u ests).sum -
          (List.zipWith (fun w f => w * g f) v ests).sum) by ring]
      refine (abs_add_le _ _).trans ?_
      rw [abs_mul]
      have h1 : |x - y| * |g f| ≤ η * B :=
        mul_le_mul hxy hf (abs_nonneg _) ((abs_nonneg _).trans hxy)
      linarith

/-- C152: what this means for `predict_by_weight`: two places with the same predictors whose weights
differ by at most `η` get predictions that differ by at most `N · η · B`, where `N` is the number of
local models and `B` bounds their predictions there. -/
theorem C152_prediction {F C : Type} (L : Learner K F) (p : WMParams K C) (st : WMState K F C)
    (X : Mat K) (c t : C) (M : Mat K) (ests : List F) (hd : p.cacheData = true)
    (hce : p.cacheEstimator = true) (hest : st.estimators = some (ests.map some)) (hne : ests ≠ [])
    (ht : st.coords = some t) (hM : p.weights c t = .ok M) (hMr : M.r = X.r)
    (hMc : M.c = ests.length) (a b : Nat) (ha : a < X.r) (hb : b < X.r) (hrow : X.row a = X.row b)
    (η B : K) (hη : ∀ j < ests.length, |M.get a j - M.get b j| ≤ η)
    (hB : ∀ f ∈ ests, |L.predict f (X.row a)| ≤ B) :
    ∃ ps u v, predictByWeight L p st X (some c) none = .ok ps ∧ ps[a]? = some u ∧ ps[b]? = some v ∧
      |u - v| ≤ ests.length * (η * B) := by
  refine ⟨_, _, _, C43_weighted_sum L p st X c t M ests hd hce hest hne ht hM hMr hMc,
    by rw [List.getElem?_map, List.getElem?_range ha]; rfl,
    by rw [List.getElem?_map, List.getElem?_range hb]; rfl, ?_⟩
  simp only
  rw [← hrow]
  refine zip_sum_sub (fun f => L.predict f (X.row a)) _ _ ests ?_ hB
    (by simp [hMc])
  unfold Mat.row
  rw [List.forall₂_map_left_iff, List.forall₂_map_right_iff, List.forall₂_same]
  exact fun j hj => hη j (hMc ▸ List.mem_range.1 hj)

/-- The bandwidth that applies at row `i` in dimension `d`: the fixed one, or the one the neighbour
count gives. -/
def BandwidthAt (Ds : List (Mat K)) (p : WParams K) (d i : Nat) (x : K) : Prop :=
  (p.bandwidth.expand Ds.length)[d]? = some (some x) ∨
  ∃ D n bw, Ds[d]? = some D ∧ (p.count.expand Ds.length)[d]? = some (some n) ∧
    adaptiveBandwidth false D n none = .ok bw ∧ x = bw i

/-- The weights of one dimension: kernel, bandwidths and values. -/
theorem dim_rule {env : Env K} {Ds : List (Mat K)} {p : WParams K} {Ws : List (Mat (Num K))}
    (h : dimWeights env false Ds p = .ok Ws) {d : Nat} (hd : d < Ds.length) :
    ∃ name bw, (p.kernel.expand Ds.length)[d]? = some name ∧ name ∈ kernelTypeEnum ∧
      ((∃ x, (p.bandwidth.expand Ds.length)[d]? = some (some x) ∧
          (p.count.expand Ds.length)[d]? = some none ∧ bw = fun _ => x) ∨
        ∃ n, (p.bandwidth.expand Ds.length)[d]? = some none ∧
          (p.count.expand Ds.length)[d]? = some (some n) ∧
          adaptiveBandwidth false Ds[d] n none = .ok bw) ∧
      (∀ i, BandwidthAt Ds p d i (bw i)) ∧
      ∀ i j, 0 ≤ Ds[d].get i j → 0 ≤ bw i → ((Ws[d]'(dimWeights_length h ▸ hd)).get i j).toK =
        kval env name (Ds[d].get i j) (bw i) := by
  obtain ⟨D, name, bo, n, S, hD, hname, hbo, hn, hS, hw⟩ := dimWeight_unfold (dimWeights_get h hd)
  rw [List.getElem?_eq_getElem hd] at hD
  cases hD
  have hS' : S = none := by
    rcases hS with ⟨e, -⟩ | ⟨-, e⟩
    · cases e
    · exact e
  subst hS'
  obtain ⟨hnm, bw, hrule, hv⟩ := weightByDistance_rule hw
  refine ⟨name, bw, hname, hnm, ?_, ?_, ?_⟩
  · rcases hrule with ⟨x, rfl, rfl, rfl⟩ | ⟨m, rfl, rfl, hok⟩
    · exact Or.inl ⟨x, hbo, hn, rfl⟩
    · exact Or.inr ⟨m, hbo, hn, hok⟩
  · intro i
    rcases hrule with ⟨x, rfl, rfl, rfl⟩ | ⟨m, rfl, rfl, hok⟩
    · exact Or.inl hbo
    · exact Or.inr ⟨_, m, bw, List.getElem?_eq_getElem hd, hn, hok, rfl⟩
  · intro i j h0 hb
    rw [hv i j h0 hb]
    rfl

end Bandwidth

/-- Shrinking or stretching the bandwidth of a `gaussian` weight. -/
theorem gaussian_bandwidth {d b b' b0 ε : ℝ} (hb0 : 0 < b0) (hb : b0 ≤ b) (hb' : b0 ≤ b')
    (h : |b - b'| ≤ ε) :
    |Real.exp (-(1 / 2) * (d / b * (d / b))) - Real.exp (-(1 / 2) * (d / b' * (d / b')))| ≤
      ε / b0 := by
  wlog hle : b ≤ b' generalizing b b'
  · rw [abs_sub_comm]
    exact this hb' hb (by rwa [abs_sub_comm]) (le_of_not_ge hle)
  have pb : 0 < b := hb0.trans_le hb
  have pb' : 0 < b' := hb0.trans_le hb'
  have hx : ∀ z : ℝ, 0 ≤ z → 2 * z * Real.exp (-z) ≤ 1 := by
    intro z hz
    have h1 := Real.add_one_le_exp (z / 2)
    have h2 : Real.exp z = Real.exp (z / 2) * Real.exp (z / 2) := by
      rw [← Real.exp_add]; congr 1; ring
    have h3 : 2 * z ≤ Real.exp z := by
      rw [h2]
      nlinarith [sq_nonneg (1 - z / 2)]
    rw [Real.exp_neg, ← div_eq_mul_inv]
    exact (div_le_one (Real.exp_pos z)).2 h3
  have := slope_bound (f := fun t : ℝ => Real.exp (-(1 / 2) * (d * t * (d * t))))
    (f' := fun t : ℝ => Real.exp (-(1 / 2) * (d * t * (d * t))) *
      (-(1 / 2) * (d * (d * t) + d * t * d)))
    (convex_Ici (1 / b')) (C := b') (fun t _ => by
      have h := ((((hasDerivAt_id t).const_mul d).mul ((hasDerivAt_id t).const_mul d)).const_mul
        (-(1 / 2))).exp
      simpa using h) (fun t ht => by
      have ht : 1 / b' ≤ t := ht
      have pt : 0 < t := (by positivity : (0 : ℝ) < 1 / b').trans_le ht
      have h1 := hx (1 / 2 * (d * t * (d * t))) (by nlinarith [mul_self_nonneg (d * t)])
      rw [abs_mul, abs_of_pos (Real.exp_pos _)]
      have e1 : |(-(1 / 2) * (d * (d * t) + d * t * d))| = d * t * (d * t) / t := by
        rw [show -(1 / 2) * (d * (d * t) + d * t * d) = -(d * t * (d * t) / t) by field_simp; ring,
          abs_neg, abs_of_nonneg (div_nonneg (mul_self_nonneg _) pt.le)]
      rw [e1]
      have e2 : Real.exp (-(1 / 2) * (d * t * (d * t))) * (d * t * (d * t) / t) =
          (2 * (1 / 2 * (d * t * (d * t))) * Real.exp (-(1 / 2 * (d * t * (d * t))))) / t := by
        rw [show -(1 / 2) * (d * t * (d * t)) = -(1 / 2 * (d * t * (d * t))) by ring]
        ring
      rw [e2]
      refine (div_le_div_of_nonneg_right h1 pt.le).trans ?_
      rw [div_le_iff₀ pt]
      have := (div_le_iff₀ pb').1 ht
      linarith)
    (show (1 / b) ∈ Set.Ici (1 / b') from one_div_le_one_div_of_le pb hle)
    (Set.mem_Ici.2 le_rfl)
  have e : ∀ x : ℝ, d * (1 / x) = d / x := fun x => by ring
  simp only [e] at this
  refine this.trans ?_
  have e3 : b' * |1 / b - 1 / b'| = |b - b'| / b := by
    rw [div_sub_div _ _ pb.ne' pb'.ne', abs_div, abs_of_pos (mul_pos pb pb'), abs_sub_comm b b']
    field_simp
  rw [e3]
  exact div_le_div₀ ((abs_nonneg _).trans h) h hb0 hb

/-- The same for an `exponential` weight. -/
theorem exponential_bandwidth {d b b' b0 ε : ℝ} (hd : 0 ≤ d) (hb0 : 0 < b0) (hb : b0 ≤ b)
    (hb' : b0 ≤ b') (h : |b - b'| ≤ ε) :
    |Real.exp (-(1 / 2) * (d / b)) - Real.exp (-(1 / 2) * (d / b'))| ≤ ε / b0 := by
  wlog hle : b ≤ b' generalizing b b'
  · rw [abs_sub_comm]
    exact this hb' hb (by rwa [abs_sub_comm]) (le_of_not_ge hle)
  have pb : 0 < b := hb0.trans_le hb
  have pb' : 0 < b' := hb0.trans_le hb'
  have := slope_bound (f := fun t : ℝ => Real.exp (-(1 / 2) * (d * t)))
    (f' := fun t : ℝ => Real.exp (-(1 / 2) * (d * t)) * (-(1 / 2) * d))
    (convex_Ici (1 / b')) (C := b') (fun t _ => by
      have h := (((hasDerivAt_id t).const_mul d).const_mul (-(1 / 2))).exp
      simpa using h) (fun t ht => by
      have ht : 1 / b' ≤ t := ht
      have pt : 0 < t := (by positivity : (0 : ℝ) < 1 / b').trans_le ht
      have h1 : 1 / 2 * (d * t) ≤ Real.exp (1 / 2 * (d * t)) := by
        have := Real.add_one_le_exp (1 / 2 * (d * t))
        linarith
      rw [abs_mul, abs_of_pos (Real.exp_pos _), show -(1 / 2) * d = -(1 / 2 * d) by ring, abs_neg,
        abs_of_nonneg (by positivity), show -(1 / 2) * (d * t) = -(1 / 2 * (d * t)) by ring,
        Real.exp_neg, inv_mul_le_iff₀ (Real.exp_pos _)]
      have h2 : 1 ≤ t * b' := (div_le_iff₀ pb').1 ht
      have h3 : 1 / 2 * d * 1 ≤ 1 / 2 * d * (t * b') :=
        mul_le_mul_of_nonneg_left h2 (by positivity)
      have h4 := mul_le_mul_of_nonneg_right h1 pb'.le
      nlinarith)
    (show (1 / b) ∈ Set.Ici (1 / b') from one_div_le_one_div_of_le pb hle)
    (Set.mem_Ici.2 le_rfl)
  have e : ∀ x : ℝ, d * (1 / x) = d / x := fun x => by ring
  simp only [e] at this
  refine this.trans ?_
  have e3 : b' * |1 / b - 1 / b'| = |b - b'| / b := by
    rw [div_sub_div _ _ pb.ne' pb'.ne', abs_div, abs_of_pos (mul_pos pb pb'), abs_sub_comm b b']
    field_simp
  rw [e3]
  exact div_le_div₀ ((abs_nonneg _).trans h) h hb0 hb

/-- Every kernel but `boxcar`, when the distance and the bandwidth both move by at most `ε`. -/
theorem kshape_close (fmax : ℝ) {name : String} (hn : name ∈ kernelTypeEnum)
    (hbox : name ≠ "boxcar") {d d' b b' b0 ε : ℝ} (hd : 0 ≤ d) (hd' : 0 ≤ d') (hb0 : 0 < b0)
    (hb : b0 ≤ b) (hb' : b0 ≤ b') (h1 : |d - d'| ≤ ε) (h2 : |b - b'| ≤ ε) :
    |kshape (realEnv fmax) name (d / b) - kshape (realEnv fmax) name (d' / b')| ≤
      9 / 4 * (2 * ε / b0) := by
  have pb : 0 < b := hb0.trans_le hb
  have pb' : 0 < b' := hb0.trans_le hb'
  have hε : 0 ≤ ε := (abs_nonneg _).trans h1
  have hq : 0 ≤ ε / b0 := div_nonneg hε hb0.le
  have hcomp : name = "linear" ∨ name = "bisquare" ∨ name = "tricube" →
      |kshape (realEnv fmax) name (d / b) - kshape (realEnv fmax) name (d' / b')| ≤
      9 / 4 * (2 * ε / b0) := by
    intro hc
    refine (kshape_compact fmax hc (div_nonneg hd pb.le) (div_nonneg hd' pb'.le)).trans ?_
    exact mul_le_mul (kernelSlope_le _) ((clampOne_ratio hd hd' pb pb' h1 h2).trans
      (div_le_div_of_nonneg_left (by linarith) hb0 hb)) (abs_nonneg _) (by norm_num)
  -- moving the distance first, then the bandwidth
  have hstep : |kshape (realEnv fmax) name (d / b) - kshape (realEnv fmax) name (d' / b)| ≤
      kernelSlope name * (ε / b0) := by
    refine (kshape_lipschitz fmax hn hbox (div_nonneg hd pb.le) (div_nonneg hd' pb.le)).trans ?_
    refine mul_le_mul_of_nonneg_left ?_ (kernelSlope_nonneg _)
    rw [← sub_div, abs_div, abs_of_pos pb]
    exact div_le_div₀ hε h1 hb0 hb
  have htwo : |kshape (realEnv fmax) name (d' / b) - kshape (realEnv fmax) name (d' / b')| ≤
        ε / b0 → |kshape (realEnv fmax) name (d / b) - kshape (realEnv fmax) name (d' / b')| ≤
      9 / 4 * (2 * ε / b0) := by
    intro h3
    have h4 := mul_le_mul_of_nonneg_right (kernelSlope_le name) hq
    have h5 := abs_sub_le (kshape (realEnv fmax) name (d / b))
      (kshape (realEnv fmax) name (d' / b)) (kshape (realEnv fmax) name (d' / b'))
    rw [mul_div_assoc]
    linarith
  rcases mem_kernelTypeEnum.1 hn with rfl | rfl | rfl | rfl | rfl | rfl | rfl
  · exact hcomp (by simp)
  · simp only [kshape, if_true, sub_self, abs_zero]
    rw [mul_div_assoc]
    positivity
  · apply htwo
    simpa [kshape, realEnv] using gaussian_bandwidth (d := d') hb0 hb hb' h2
  · apply htwo
    simpa [kshape, realEnv] using exponential_bandwidth hd' hb0 hb hb' h2
  · exact absurd rfl hbox
  · exact hcomp (by simp)
  · exact hcomp (by simp)

/-- Rows of two lists of dimension weights that agree up to `e`, after the product and the
normalisation. -/
theorem rows_close {Ws Ws' : List (Mat (Num ℝ))} {r r' c : Nat} (hu : UnitWs Ws r c)
    (hu' : UnitWs Ws' r' c) (hl : Ws'.length = Ws.length) {a b : Nat} (ha : a < r) (hb : b < r')
    {e : ℝ} (hclose : ∀ d (hd : d < Ws.length), ∀ j < c,
      |(Ws[d].get a j).toK - ((Ws'[d]'(by omega)).get b j).toK| ≤ e)
    {t s : Nat} (ht : t < c) (hs : s < c)
    (hone : ∀ W ∈ Ws, (W.get a t).toK = 1) (hone' : ∀ W ∈ Ws', (W.get b s).toK = 1)
    {j : Nat} (hj : j < c) :
    |prodK Ws a j / normK Ws c a - prodK Ws' b j / normK Ws' c b| ≤ (1 + c) * (Ws.length * e) := by
  have hpr : ∀ (Vs : List (Mat (Num ℝ))) i j, prodK Vs i j = ((List.range Vs.length).map fun d =>
      (((Vs.getD d ⟨0, 0, fun _ _ => .nan⟩).get i j).toK)).prod := by
    intro Vs i j
    unfold prodK
    congr 1
    apply List.ext_getElem
    · simp
    · intro d h1 h2
      simp only [List.length_map] at h1
      simp [List.getD_eq_getElem?_getD, h1]
  have hunit : ∀ (Vs : List (Mat (Num ℝ))) (m : Nat), UnitWs Vs m c → ∀ i < m, ∀ j < c,
      ∀ d ∈ List.range Vs.length, 0 ≤ ((Vs.getD d ⟨0, 0, fun _ _ => .nan⟩).get i j).toK ∧
      ((Vs.getD d ⟨0, 0, fun _ _ => .nan⟩).get i j).toK ≤ 1 := by
    intro Vs m hV i hi j hj d hd
    have hd := List.mem_range.1 hd
    rw [List.getD_eq_getElem _ _ hd]
    obtain ⟨y, hy, hy0⟩ := hV _ (List.getElem_mem hd) i hi j hj
    rw [hy]
    exact hy0
  have hdiff : ∀ j < c, |prodK Ws a j - prodK Ws' b j| ≤ Ws.length * e := by
    intro j hj
    rw [hpr, hpr, hl]
    have := prod_sub_le (List.range Ws.length)
      (fun d => (((Ws.getD d ⟨0, 0, fun _ _ => .nan⟩).get a j).toK))
      (fun d => (((Ws'.getD d ⟨0, 0, fun _ _ => .nan⟩).get b j).toK)) e
      (hunit Ws r hu a ha j hj) (by rw [← hl]; exact hunit Ws' r' hu' b hb j hj) ?_
    · simpa using this
    · intro d hd
      have hd := List.mem_range.1 hd
      rw [List.getD_eq_getElem _ _ hd, List.getD_eq_getElem _ _ (by omega)]
      exact hclose d hd j hj
  have hge : ∀ (Vs : List (Mat (Num ℝ))) (m i t : Nat), UnitWs Vs m c → i < m → t < c →
      (∀ W ∈ Vs, (W.get i t).toK = 1) → 1 ≤ ∑ j ∈ Finset.range c, prodK Vs i j := by
    intro Vs m i t hV hi ht h1
    have hone : prodK Vs i t = 1 := by
      unfold prodK
      apply List.prod_eq_one
      intro x hx
      obtain ⟨W, hW, rfl⟩ := List.mem_map.1 hx
      exact h1 W hW
    rw [← hone]
    exact Finset.single_le_sum (f := prodK Vs i)
      (fun k hk => (hV.prodK_unit hi (Finset.mem_range.1 hk)).1) (Finset.mem_range.2 ht)
  have hga := hge Ws r a t hu ha ht hone
  have hgb := hge Ws' r' b s hu' hb hs hone'
  unfold normK
  rw [if_neg (by linarith), if_neg (by linarith)]
  exact normalise_sub_le _ _ _ (fun k hk => (hu'.prodK_unit hb hk).1) hdiff hga hgb hj

/-- C152: two locations whose distances to every target differ by at most `δ` in every dimension
weigh every target alike: with any kernels but `boxcar`, and fixed or adaptive bandwidths of at least
`b0` at the two locations, the normalised weights differ by at most
`(1 + N) · dims · 9/4 · 2δ / b0`. -/
theorem C152_weights (fmax : ℝ) (Ds : List (Mat ℝ)) (p : WParams ℝ) (W : Mat (Num ℝ))
    (h : weightMatrixFromDistance (realEnv fmax) false Ds p = .ok W) (hin : NonnegInput Ds p)
    (b0 δ : ℝ) (hb0 : 0 < b0) (a b : Nat) (ha : a < W.r) (hb : b < W.r)
    (hbox : "boxcar" ∉ p.kernel.expand Ds.length)
    (hbw : ∀ d < Ds.length, ∀ x, (BandwidthAt Ds p d a x ∨ BandwidthAt Ds p d b x) → b0 ≤ x)
    (hδ : ∀ D ∈ Ds, ∀ j < W.c, |D.get a j - D.get b j| ≤ δ)
    (t s : Nat) (ht : t < W.c) (hs : s < W.c) (hselfa : ∀ D ∈ Ds, D.get a t = 0)
    (hselfb : ∀ D ∈ Ds, D.get b s = 0) (j : Nat) (hj : j < W.c) :
    ∃ x y, W.get a j = .fin x ∧ W.get b j = .fin y ∧
      |x - y| ≤ (1 + W.c) * (Ds.length * (9 / 4 * (2 * δ / b0))) := by
  have he := (realEnv_pos fmax).toOk
  obtain ⟨Ws, hWs, hsh, hu, hW⟩ := weightMatrix_master _ he h hin
  have hl := dimWeights_length hWs
  have hone : ∀ i, (i = a ∨ i = b) → ∀ t, (∀ D ∈ Ds, D.get i t = 0) →
      ∀ V ∈ Ws, (V.get i t).toK = 1 := by
    intro i hi t h0 V hV
    obtain ⟨d, hd, rfl⟩ := List.getElem_of_mem hV
    obtain ⟨name, bw, hname, hnm, -, hat, hv⟩ := dim_rule hWs (d := d) (by omega)
    have hz := h0 _ (List.getElem_mem (by omega : d < Ds.length))
    have pb : 0 < bw i := hb0.trans_le (hbw d (by omega) _ (by
      rcases hi with rfl | rfl
      · exact Or.inl (hat _)
      · exact Or.inr (hat _)))
    rw [hv i t (le_of_eq hz.symm) pb.le, hz, kval_eq_kshape _ _ pb, zero_div]
    simp [kshape, realEnv]
  refine ⟨_, _, hW a ha j hj, hW b hb j hj, ?_⟩
  rw [← hl]
  refine rows_close hu hu rfl ha hb ?_ ht hs (hone a (Or.inl rfl) t hselfa)
    (hone b (Or.inr rfl) s hselfb) hj
  intro d hd j hj
  have hd' : d < Ds.length := by omega
  obtain ⟨name, bw, hname, hnm, hrule, hat, hv⟩ := dim_rule hWs hd'
  obtain ⟨hr, hc⟩ := hsh _ (List.getElem_mem hd')
  have hdist := hin.dist _ (List.getElem_mem hd')
  rw [hr, hc] at hdist
  have hδd := hδ _ (List.getElem_mem hd')
  have h1 : b0 ≤ bw a := hbw d hd' _ (Or.inl (hat a))
  have h2 : b0 ≤ bw b := hbw d hd' _ (Or.inr (hat b))
  have h3 : |bw a - bw b| ≤ δ := by
    rcases hrule with ⟨x, -, -, rfl⟩ | ⟨n, -, -, hok⟩
    · simpa using (abs_nonneg _).trans (hδd j hj)
    · exact C152_bandwidth _ n bw hok a b δ (by rw [hc]; exact hδd)
  rw [hv a j (hdist a ha j hj) (hb0.trans_le h1).le, hv b j (hdist b hb j hj) (hb0.trans_le h2).le,
    kval_eq_kshape _ _ (hb0.trans_le h1), kval_eq_kshape _ _ (hb0.trans_le h2)]
  exact kshape_close fmax hnm (fun e => hbox (e ▸ List.mem_of_getElem? hname)) (hdist a ha j hj)
    (hdist b hb j hj) hb0 h1 h2 (hδd j hj) h3

/-- C95: the weight matrix is continuous in the distances for adaptive bandwidths too. -/
theorem C95_adaptive_weight_matrix (fmax : ℝ) (Ds Ds' : List (Mat ℝ)) (p : WParams ℝ)
    (W W' : Mat (Num ℝ)) (h : weightMatrixFromDistance (realEnv fmax) false Ds p = .ok W)
    (h' : weightMatrixFromDistance (realEnv fmax) false Ds' p = .ok W')
    (hlen : Ds'.length = Ds.length) (hshape : AllShape Ds' W.r W.c)
    (hin : NonnegInput Ds p) (hin' : NonnegInput Ds' p)
    (b0 ε : ℝ) (hb0 : 0 < b0) (i : Nat) (hi : i < W.r)
    (hbox : "boxcar" ∉ p.kernel.expand Ds.length)
    (hbw : ∀ d < Ds.length, ∀ x, (BandwidthAt Ds p d i x ∨ BandwidthAt Ds' p d i x) → b0 ≤ x)
    (hε : ∀ d (hd : d < Ds.length), ∀ j < W.c,
      |(Ds[d]).get i j - (Ds'[d]'(hlen ▸ hd)).get i j| ≤ ε)
    (t : Nat) (ht : t < W.c) (hself : ∀ D ∈ Ds, D.get i t = 0) (hself' : ∀ D ∈ Ds', D.get i t = 0)
    (j : Nat) (hj : j < W.c) :
    ∃ x x', W.get i j = .fin x ∧ W'.get i j = .fin x' ∧
      |x - x'| ≤ (1 + W.c) * (Ds.length * (9 / 4 * (2 * ε / b0))) := by
  have he := (realEnv_pos fmax).toOk
  obtain ⟨Ws, hWs, hsh, hu, hW⟩ := weightMatrix_master _ he h hin
  obtain ⟨Ws', hWs', hsh', hu', hW'⟩ := weightMatrix_master _ he h' hin'
  have hl := dimWeights_length hWs
  have hl' := dimWeights_length hWs'
  have hne : Ds' ≠ [] := (weightMatrix_unfold h').2.2.choose_spec.2.1
  obtain ⟨D0, hD0⟩ := List.exists_mem_of_ne_nil _ hne
  have hr : W'.r = W.r := (hsh' D0 hD0).1.symm.trans (hshape D0 hD0).1
  have hc : W'.c = W.c := (hsh' D0 hD0).2.symm.trans (hshape D0 hD0).2
  rw [hr, hc] at hu' hW'
  have hone : ∀ (Es : List (Mat ℝ)) (Vs : List (Mat (Num ℝ))),
      dimWeights (realEnv fmax) false Es p = .ok Vs → Es.length = Ds.length →
      (∀ d < Es.length, ∀ x, BandwidthAt Es p d i x → b0 ≤ x) → (∀ D ∈ Es, D.get i t = 0) →
      ∀ V ∈ Vs, (V.get i t).toK = 1 := by
    intro Es Vs hVs hEl hbE h0 V hV
    obtain ⟨d, hd, rfl⟩ := List.getElem_of_mem hV
    have hd' : d < Es.length := by rw [← dimWeights_length hVs]; exact hd
    obtain ⟨name, bw, hname, hnm, -, hat, hv⟩ := dim_rule hVs hd'
    have hz := h0 _ (List.getElem_mem hd')
    have pb : 0 < bw i := hb0.trans_le (hbE d hd' _ (hat i))
    rw [hv i t (le_of_eq hz.symm) pb.le, hz, kval_eq_kshape _ _ pb, zero_div]
    simp [kshape, realEnv]
  refine ⟨_, _, hW i hi j hj, hW' i hi j hj, ?_⟩
  rw [← hl]
  refine rows_close hu hu' (by omega) hi hi ?_ ht ht
    (hone Ds Ws hWs rfl (fun d hd x hx => hbw d hd x (Or.inl hx)) hself)
    (hone Ds' Ws' hWs' hlen (fun d hd x hx => hbw d (by omega) x (Or.inr hx)) hself') hj
  intro d hd j hj
  have hd1 : d < Ds.length := by omega
  have hd2 : d < Ds'.length := by omega
  obtain ⟨name, bw, hname, hnm, hrule, hat, hv⟩ := dim_rule hWs hd1
  obtain ⟨name', bw', hname', -, hrule', hat', hv'⟩ := dim_rule hWs' hd2
  rw [hlen, hname] at hname'
  cases hname'
  obtain ⟨hr1, hc1⟩ := hsh _ (List.getElem_mem hd1)
  obtain ⟨hr2, hc2⟩ := hshape _ (List.getElem_mem hd2)
  have hdist := hin.dist _ (List.getElem_mem hd1)
  have hdist' := hin'.dist _ (List.getElem_mem hd2)
  rw [hr1, hc1] at hdist
  rw [hr2, hc2] at hdist'
  have h1 : b0 ≤ bw i := hbw d hd1 _ (Or.inl (hat i))
  have h2 : b0 ≤ bw' i := hbw d hd1 _ (Or.inr (hat' i))
  have hεd := hε d hd1
  have h3 : |bw i - bw' i| ≤ ε := by
    rcases hrule with ⟨x, hx, -, rfl⟩ | ⟨n, hx, hn, hok⟩
    · rcases hrule' with ⟨y, hy, -, rfl⟩ | ⟨n, hy, hn, hok⟩
      · rw [hlen, hx] at hy
        cases hy
        simpa using (abs_nonneg _).trans (hεd j hj)
      · rw [hlen, hx] at hy
        cases hy
    · rcases hrule' with ⟨y, hy, -, rfl⟩ | ⟨n', hy, hn', hok'⟩
      · rw [hlen, hx] at hy
        cases hy
      · rw [hlen, hn] at hn'
        cases hn'
        exact C95_adaptive_bandwidth _ _ (by rw [hc1, hc2]) n bw bw' hok hok' ε i
          (by rw [hc1]; exact hεd)
  rw [hv i j (hdist i hi j hj) (hb0.trans_le h1).le, hv' i j (hdist' i hi j hj) (hb0.trans_le h2).le,
    kval_eq_kshape _ _ (hb0.trans_le h1), kval_eq_kshape _ _ (hb0.trans_le h2)]
  exact kshape_close fmax hnm (fun e => hbox (e ▸ List.mem_of_getElem? hname)) (hdist i hi j hj)
    (hdist' i hi j hj) hb0 h1 h2 (hεd j hj) h3

/-- C152: for observations compared with themselves under a metric in every dimension the bound is
in terms of the distance between the two observations. -/
theorem C152_metric (fmax : ℝ) (Ds : List (Mat ℝ)) (p : WParams ℝ) (W : Mat (Num ℝ))
    (h : weightMatrixFromDistance (realEnv fmax) false Ds p = .ok W)
    (hbwn : ∀ x, some x ∈ p.bandwidth.expand Ds.length → 0 ≤ x)
    (hsorted : ∀ S, some S ∉ p.sorted.expand Ds.length)
    (hsq : ∀ D ∈ Ds, D.r = D.c) (hzero : ∀ D ∈ Ds, ∀ i, D.get i i = 0)
    (hsymm : ∀ D ∈ Ds, ∀ i j, D.get i j = D.get j i)
    (htri : ∀ D ∈ Ds, ∀ i j k, D.get i k ≤ D.get i j + D.get j k)
    (b0 δ : ℝ) (hb0 : 0 < b0) (a b : Nat) (ha : a < W.r) (hb : b < W.r)
    (hbox : "boxcar" ∉ p.kernel.expand Ds.length)
    (hbw : ∀ d < Ds.length, ∀ x, (BandwidthAt Ds p d a x ∨ BandwidthAt Ds p d b x) → b0 ≤ x)
    (hδ : ∀ D ∈ Ds, D.get a b ≤ δ)
    (j : Nat) (hj : j < W.c) :
    ∃ x y, W.get a j = .fin x ∧ W.get b j = .fin y ∧
      |x - y| ≤ (1 + W.c) * (Ds.length * (9 / 4 * (2 * δ / b0))) := by
  have hin : NonnegInput Ds p :=
    ⟨fun D hD i _ j _ => by
      have h1 := htri D hD i j i
      rw [hzero D hD, hsymm D hD j i] at h1
      linarith, hbwn, fun S hS => absurd hS (hsorted S)⟩
  obtain ⟨Ws, -, hsh, -, -⟩ := weightMatrix_master _ (realEnv_pos fmax).toOk h hin
  have hne : Ds ≠ [] := (weightMatrix_unfold h).2.2.choose_spec.2.1
  obtain ⟨D0, hD0⟩ := List.exists_mem_of_ne_nil _ hne
  have hrc : W.r = W.c := by
    rw [← (hsh D0 hD0).1, ← (hsh D0 hD0).2, hsq D0 hD0]
  refine C152_weights fmax Ds p W h hin b0 δ hb0 a b ha hb hbox hbw (fun D hD j _ => ?_) a b (hrc ▸ ha)
    (hrc ▸ hb) (fun D hD => hzero D hD a) (fun D hD => hzero D hD b) j hj
  have h1 := htri D hD a b j
  have h2 := htri D hD b a j
  have h3 := hδ D hD
  rw [hsymm D hD b a] at h2
  rw [abs_le]
  constructor <;> linarith

/-- Three places on a line: the first two are `e` apart, the third is at `1 + e / 2`. -/
noncomputable def closePair (e : ℝ) (i : Nat) : ℝ := if i = 0 then 0 else if i = 1 then e else 1 + e / 2

noncomputable def closeDist (e : ℝ) : Mat ℝ := ⟨3, 3, fun i j => |closePair e i - closePair e j|⟩

noncomputable def boxParams : WParams ℝ := { kernel := .scalar "boxcar", bandwidth := .scalar (some 1) }

theorem closeDist_input (e : ℝ) {p : WParams ℝ} (hb : ∀ x, some x ∈ p.bandwidth.expand 1 → 0 ≤ x)
    (hS : ∀ S, some S ∉ p.sorted.expand 1) : NonnegInput [closeDist e] p where
  dist := by
    intro D hD i _ j _
    simp only [List.mem_singleton] at hD
    subst hD
    exact abs_nonneg _
  bandwidth := hb
  sorted := fun S h => absurd h (hS S)

/-- C152: `boxcar` is the exception: however close two places are, a target just outside the bandwidth
of one and just inside that of the other gets no weight from the first and a third of the weight
of the second. -/
theorem C152_boxcar (fmax e : ℝ) (he : 0 < e) (he1 : e ≤ 1) :
    ∃ W, weightMatrixFromDistance (realEnv fmax) false [closeDist e] boxParams = .ok W ∧
      (closeDist e).get 0 1 = e ∧ W.get 0 2 = .fin 0 ∧ W.get 1 2 = .fin (1 / 3) := by
  refine ⟨_, rfl, by simp [closeDist, closePair, abs_of_pos he], ?_⟩
  set W := normalizeRows (K := ℝ) ⟨_, _, _⟩ with hWdef
  have hok : weightMatrixFromDistance (realEnv fmax) false [closeDist e] boxParams = .ok W := rfl
  obtain ⟨Ws, hWs, hsh, hu, hW⟩ := weightMatrix_master _ (realEnv_pos fmax).toOk hok
    (closeDist_input e (by
      intro x hx
      simp [boxParams, Param.expand] at hx
      rw [hx]; norm_num) (by intro S hS; simp [boxParams, Param.expand] at hS))
  have hl := dimWeights_length hWs
  obtain ⟨name, bw, hname, -, hrule, -, hv⟩ := dim_rule hWs (d := 0) (by simp)
  have hbw : bw = fun _ => 1 := by
    rcases hrule with ⟨x, hx, -, rfl⟩ | ⟨n, hx, -, -⟩
    · simp [boxParams, Param.expand] at hx
      rw [hx]
    · simp [boxParams, Param.expand] at hx
  simp [boxParams, Param.expand] at hname
  subst hname hbw
  have hp : ∀ i j, prodK Ws i j = if 1 < |closePair e i - closePair e j| then 0 else 1 := by
    intro i j
    have h1 := hv i j (abs_nonneg _) zero_le_one
    rw [kval_eq_kshape _ _ one_pos] at h1
    obtain ⟨V, rfl⟩ := List.length_eq_one_iff.1 (by simpa using hl)
    simp only [List.getElem_cons_zero] at h1
    simp only [prodK, List.map_cons, List.map_nil, List.prod_cons, List.prod_nil, mul_one, h1]
    simp [kshape, closeDist]
  have hr : W.r = 3 := rfl
  have hc : W.c = 3 := rfl
  have e01 : |(0 : ℝ) - e| = e := by rw [zero_sub, abs_neg, abs_of_pos he]
  have e10 : |e - 0| = e := by rw [sub_zero, abs_of_pos he]
  have e02 : |(0 : ℝ) - (1 + e / 2)| = 1 + e / 2 := by rw [zero_sub, abs_neg, abs_of_pos (by linarith)]
  have e12 : |e - (1 + e / 2)| = 1 - e / 2 := by
    rw [show e - (1 + e / 2) = -(1 - e / 2) by ring, abs_neg, abs_of_pos (by linarith)]
  have n1 : ¬ (1 < e) := not_lt.2 he1
  have n2 : ¬ (1 < 1 - e / 2) := by linarith
  have y1 : 1 < 1 + e / 2 := by linarith
  have p00 : prodK Ws 0 0 = 1 := by rw [hp]; simp
  have p11 : prodK Ws 1 1 = 1 := by rw [hp]; simp
  have p01 : prodK Ws 0 1 = 1 := by rw [hp]; simp only [closePair, if_true, one_ne_zero, if_false, e01, n1]
  have p10 : prodK Ws 1 0 = 1 := by rw [hp]; simp only [closePair, if_true, one_ne_zero, if_false, e10, n1]
  have p02 : prodK Ws 0 2 = 0 := by
    rw [hp]
    simp only [closePair, if_true, OfNat.ofNat_ne_zero, OfNat.ofNat_ne_one, if_false, e02, y1]
  have p12 : prodK Ws 1 2 = 1 := by
    rw [hp]
    simp only [closePair, if_true, one_ne_zero, OfNat.ofNat_ne_zero, OfNat.ofNat_ne_one, if_false, e12, n2]
  rw [hW 0 (by omega) 2 (by omega), hW 1 (by omega) 2 (by omega)]
  simp only [normK, hc, Finset.sum_range_succ, Finset.sum_range_zero, p00, p01, p02, p10, p11, p12]
  norm_num

/-- Parameters with a neighbour count. -/
noncomputable def closeParams : WParams ℝ :=
  { kernel := .scalar "gaussian", count := .scalar (some (.int 3)) }

/-- The hypotheses of `C152_metric` are met by the three places with the third nearest as bandwidth
and the Gaussian kernel: the first two, one hundredth apart, give the third nearly the same
weight. -/
example (fmax : ℝ) : ∃ W x y,
    weightMatrixFromDistance (realEnv fmax) false [closeDist (1 / 100)] closeParams = .ok W ∧
    W.get 0 2 = .fin x ∧ W.get 1 2 = .fin y ∧
    |x - y| ≤ (1 + 3) * (1 * (9 / 4 * (2 * (1 / 100) / (9 / 10)))) := by
  have hok : ∃ W, weightMatrixFromDistance (realEnv fmax) false [closeDist (1 / 100)] closeParams
    = .ok W ∧ W.r = 3 ∧ W.c = 3 := ⟨_, rfl, rfl, rfl⟩
  obtain ⟨W, hW, hr, hc⟩ := hok
  have hge : ∀ bw, adaptiveBandwidth false (closeDist (1 / 100)) (.int 3) none = .ok bw →
      ∀ i < 3, ∀ j < 3, (closeDist (1 / 100)).get i j ≤ bw i := by
    intro bw hb i hi j hj
    have h3 := (C08_kth_nearest _ _ bw hb i).2.2.2.1
    have hle : countRow (closeDist (1 / 100)) i (fun x => x ≤ bw i) ≤ 3 := by
      unfold countRow
      exact (List.length_filter_le _ _).trans (by simp [closeDist])
    have heq : countRow (closeDist (1 / 100)) i (fun x => x ≤ bw i) = 3 := by omega
    unfold countRow at heq
    have hall := List.length_filter_eq_length_iff.1 (heq.trans (by simp [closeDist]))
    simpa using hall j (List.mem_range.2 hj)
  obtain ⟨x, y, h1, h2, h3⟩ := C152_metric fmax _ closeParams W hW
    (by intro x hx; simp [closeParams, Param.expand] at hx)
    (by intro S hS; simp [closeParams, Param.expand] at hS)
    (by simp [closeDist]) (by simp [closeDist])
    (by
      intro D hD i j
      simp only [List.mem_singleton] at hD
      subst hD
      exact abs_sub_comm _ _)
    (by
      intro D hD i j k
      simp only [List.mem_singleton] at hD
      subst hD
      exact abs_sub_le _ _ _)
    (9 / 10) (1 / 100) (by norm_num) 0 1 (by omega) (by omega)
    (by simp [closeParams, Param.expand])
    (by
      intro d hd x hx
      have : d = 0 := by simpa using hd
      subst this
      have key : ∀ i, i = 0 ∨ i = 1 → BandwidthAt [closeDist (1 / 100)] closeParams 0 i x →
          9 / 10 ≤ x := by
        intro i hi h
        rcases h with h | ⟨D, n, bw, hD, hn, hb, rfl⟩
        · simp [closeParams, Param.expand] at h
        · simp only [List.getElem?_cons_zero, Option.some.injEq] at hD
          simp only [closeParams, Param.expand, List.length_cons, List.length_nil, zero_add,
            List.replicate_one, List.getElem?_cons_zero, Option.some.injEq] at hn
          subst hD hn
          have := hge bw hb i (by omega) 2 (by omega)
          refine le_trans ?_ this
          rcases hi with rfl | rfl <;> norm_num [closeDist, closePair, abs_le, le_abs]
      rcases hx with hx | hx
      · exact key 0 (Or.inl rfl) hx
      · exact key 1 (Or.inr rfl) hx)
    (by
      intro D hD
      simp only [List.mem_singleton] at hD
      subst hD
      norm_num [closeDist, closePair, abs_le])
    2 (by omega)
  refine ⟨W, x, y, hW, h1, h2, ?_⟩
  rw [hc] at h3
  simpa using h3

/-- The hypotheses of `C152_prediction` are met: two new points a tenth apart with the same
predictor. -/
def exTwin : List (Mat ℚ) := [⟨2, 1, fun i _ => 1 / 2 + i / 10⟩]
def exTwinX : Mat ℚ := ⟨2, 1, fun _ _ => 1⟩

example : exTwinX.row 0 = exTwinX.row 1 ∧
    okAnd (exSource exTwin exTrain) (fun M => M.r == 2 && M.c == 5 &&
      decide (M.get 0 1 ≠ M.get 1 1) &&
      (List.range 5).all fun j => decide (|M.get 0 j - M.get 1 j| ≤ 1 / 20)) = true ∧
    okAnd (predictByWeight meanLearner exPc exFitted exTwinX (some exTwin) none)
      (fun ps => ps.length == 2 && decide (ps[0]? ≠ ps[1]?)) = true := by
  refine ⟨rfl, by decide +kernel, by decide +kernel⟩

end Geo
