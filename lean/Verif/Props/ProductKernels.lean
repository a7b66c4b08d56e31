import Verif.Props.NearbyLocations
import Mathlib.Tactic.IntervalCases
/-!
C154: which product of kernels over several dimensions is a kernel of one combined distance.
-/
set_option linter.unusedSectionVars false
namespace Geo

/-- One combined distance with one fixed bandwidth. -/
def oneParams {K : Type} (name : String) (h : K) : WParams K :=
  { kernel := .scalar name, bandwidth := .scalar (some h) }

/-- When the kernel of a combined distance is the product of the kernels of the dimensions, the weight
matrices agree. -/
theorem combined_weights (fmax : ℝ) {Ds : List (Mat ℝ)} {p : WParams ℝ} {W : Mat (Num ℝ)}
    (h : weightMatrixFromDistance (realEnv fmax) false Ds p = .ok W) (hin : NonnegInput Ds p)
    {name : String} (hname : name ∈ kernelTypeEnum) {b : Nat → ℝ}
    (hk : ∀ d < Ds.length, (p.kernel.expand Ds.length)[d]? = some name)
    (hb : ∀ d < Ds.length, (p.bandwidth.expand Ds.length)[d]? = some (some (b d)) ∧ 0 < b d)
    {J : Nat → Nat → ℝ} {g : ℝ} (hg : 0 < g) (hJ : ∀ i j, 0 ≤ J i j)
    (hprod : ∀ i < W.r, ∀ j < W.c, ((List.range Ds.length).map fun d =>
      kshape (realEnv fmax) name ((Ds.getD d ⟨0, 0, fun _ _ => 0⟩).get i j / b d)).prod =
        kshape (realEnv fmax) name (J i j / g)) :
    ∃ W', weightMatrixFromDistance (realEnv fmax) false [⟨W.r, W.c, J⟩] (oneParams name g) = .ok W' ∧
      W'.r = W.r ∧ W'.c = W.c ∧ ∀ i < W.r, ∀ j < W.c, W'.get i j = W.get i j := by
  have he := (realEnv_pos fmax).toOk
  obtain ⟨W', h'⟩ : ∃ W', weightMatrixFromDistance (realEnv fmax) false [⟨W.r, W.c, J⟩] (oneParams name g) =
      .ok W' := by
    obtain ⟨-, -, -, -, -, -, hr0, hc0, -, -⟩ := weightMatrix_unfold h
    refine (C15_accepted_iff _ _ _).2 ⟨by simp, rfl, W.r, W.c, hr0, hc0, ?_, ?_⟩
    · intro D hD
      simp only [List.mem_singleton] at hD
      subst hD
      exact ⟨rfl, rfl⟩
    · intro d hd
      have : d = 0 := by simpa using hd
      subst this
      exact ⟨⟨name, hname, rfl⟩, Or.inl ⟨⟨g, rfl⟩, rfl⟩⟩
  have hin' : NonnegInput [(⟨W.r, W.c, J⟩ : Mat ℝ)] (oneParams name g) := by
    refine ⟨fun D hD i _ j _ => ?_, fun x hx => ?_, fun S hS => ?_⟩
    · simp only [List.mem_singleton] at hD
      subst hD
      exact hJ i j
    · simp [oneParams, Param.expand] at hx
      rw [hx]
      exact hg.le
    · simp [oneParams, Param.expand] at hS
  obtain ⟨Ws, hWs, hsh, hu, hW⟩ := weightMatrix_master _ he h hin
  obtain ⟨Ws', hWs', hsh', hu', hW'⟩ := weightMatrix_master _ he h' hin'
  have hl := dimWeights_length hWs
  have hl' := dimWeights_length hWs'
  have hr' : W'.r = W.r := (hsh' _ (List.mem_singleton.2 rfl)).1.symm
  have hc' : W'.c = W.c := (hsh' _ (List.mem_singleton.2 rfl)).2.symm
  refine ⟨W', h', hr', hc', ?_⟩
  have hp : ∀ i < W.r, ∀ j < W.c, prodK Ws i j = kshape (realEnv fmax) name (J i j / g) := by
    intro i hi j hj
    rw [← hprod i hi j hj]
    unfold prodK
    congr 1
    apply List.ext_getElem
    · simp [hl]
    · intro d h1 h2
      simp only [List.length_map] at h1
      have hd : d < Ds.length := by omega
      obtain ⟨nm, bw, hnm, -, hrule, -, hv⟩ := dim_rule hWs hd
      rw [hk d hd] at hnm
      cases hnm
      have hbd : bw = fun _ => b d := by
        rcases hrule with ⟨x, hx, -, rfl⟩ | ⟨n, hx, -, -⟩
        · rw [(hb d hd).1] at hx
          cases hx
          rfl
        · rw [(hb d hd).1] at hx
          cases hx
      subst hbd
      obtain ⟨hr, hc⟩ := hsh _ (List.getElem_mem hd)
      rw [List.getElem_map, List.getElem_map, List.getElem_range,
        hv i j (hin.dist _ (List.getElem_mem hd) i (by omega) j (by omega)) (hb d hd).2.le,
        kval_eq_kshape _ _ (hb d hd).2]
      simp [hd]
  have hp' : ∀ i < W.r, ∀ j < W.c, prodK Ws' i j = kshape (realEnv fmax) name (J i j / g) := by
    intro i hi j hj
    obtain ⟨nm, bw, hnm, -, hrule, -, hv⟩ := dim_rule hWs' (d := 0) (by simp)
    simp [oneParams, Param.expand] at hnm
    subst hnm
    have hbd : bw = fun _ => g := by
      rcases hrule with ⟨x, hx, -, rfl⟩ | ⟨n, hx, -, -⟩
      · simp [oneParams, Param.expand] at hx
        rw [hx]
      · simp [oneParams, Param.expand] at hx
    subst hbd
    have h1 := hv i j (hJ i j) hg.le
    rw [kval_eq_kshape _ _ hg] at h1
    obtain ⟨V, rfl⟩ := List.length_eq_one_iff.1 (by simpa using hl')
    simp only [List.getElem_cons_zero] at h1
    simp only [prodK, List.map_cons, List.map_nil, List.prod_cons, List.prod_nil, mul_one, h1]
  intro i hi j hj
  have hn : normK Ws' W'.c i = normK Ws W.c i := by
    have : ∑ j ∈ Finset.range W.c, prodK Ws' i j = ∑ j ∈ Finset.range W.c, prodK Ws i j :=
      Finset.sum_congr rfl fun j hj => by
        rw [hp i hi j (Finset.mem_range.1 hj), hp' i hi j (Finset.mem_range.1 hj)]
    unfold normK
    rw [hc', this]
  rw [hW i hi j hj, hW' i (by omega) j (by omega), hn, hp i hi j hj, hp' i hi j hj]

/-- C154: the Gaussian kernel in several dimensions with fixed bandwidths is the Gaussian kernel of one
combined distance: any distance whose square, in units of its bandwidth, is the sum of the squares of
the distances in units of theirs. With the same bandwidth for all coordinates this is the Euclidean
distance of the points. -/
theorem C154_gaussian (fmax : ℝ) (Ds : List (Mat ℝ)) (p : WParams ℝ) (W : Mat (Num ℝ))
    (h : weightMatrixFromDistance (realEnv fmax) false Ds p = .ok W) (hin : NonnegInput Ds p)
    (b : Nat → ℝ) (hk : ∀ d < Ds.length, (p.kernel.expand Ds.length)[d]? = some "gaussian")
    (hb : ∀ d < Ds.length, (p.bandwidth.expand Ds.length)[d]? = some (some (b d)) ∧ 0 < b d)
    (J : Nat → Nat → ℝ) (g : ℝ) (hg : 0 < g) (hJ : ∀ i j, 0 ≤ J i j)
    (hsum : ∀ i < W.r, ∀ j < W.c, (J i j / g) ^ 2 = ((List.range Ds.length).map fun d =>
      ((Ds.getD d ⟨0, 0, fun _ _ => 0⟩).get i j / b d) ^ 2).sum) :
    ∃ W', weightMatrixFromDistance (realEnv fmax) false [⟨W.r, W.c, J⟩] (oneParams "gaussian" g) = .ok W' ∧
      W'.r = W.r ∧ W'.c = W.c ∧ ∀ i < W.r, ∀ j < W.c, W'.get i j = W.get i j := by
  refine combined_weights fmax h hin (by decide) hk hb hg hJ fun i hi j hj => ?_
  have key : ∀ (l : List Nat) (u : Nat → ℝ), (l.map fun d => kshape (realEnv fmax) "gaussian" (u d)).prod =
      Real.exp (-(1 / 2) * (l.map fun d => u d ^ 2).sum) := by
    intro l u
    induction l with
    | nil => simp
    | cons a l ih =>
      rw [List.map_cons, List.prod_cons, ih, List.map_cons, List.sum_cons, mul_add, Real.exp_add]
      simp [kshape, realEnv, sq]
  rw [key _ fun d => (Ds.getD d ⟨0, 0, fun _ _ => 0⟩).get i j / b d, ← hsum i hi j hj]
  simp [kshape, realEnv, sq]

/-- C154: the exponential kernel in several dimensions is the exponential kernel of the sum of the
distances in units of their bandwidths (for coordinates with one bandwidth, the city-block distance). -/
theorem C154_exponential (fmax : ℝ) (Ds : List (Mat ℝ)) (p : WParams ℝ) (W : Mat (Num ℝ))
    (h : weightMatrixFromDistance (realEnv fmax) false Ds p = .ok W) (hin : NonnegInput Ds p)
    (b : Nat → ℝ) (hk : ∀ d < Ds.length, (p.kernel.expand Ds.length)[d]? = some "exponential")
    (hb : ∀ d < Ds.length, (p.bandwidth.expand Ds.length)[d]? = some (some (b d)) ∧ 0 < b d)
    (J : Nat → Nat → ℝ) (g : ℝ) (hg : 0 < g) (hJ : ∀ i j, 0 ≤ J i j)
    (hsum : ∀ i < W.r, ∀ j < W.c, J i j / g = ((List.range Ds.length).map fun d =>
      (Ds.getD d ⟨0, 0, fun _ _ => 0⟩).get i j / b d).sum) :
    ∃ W', weightMatrixFromDistance (realEnv fmax) false [⟨W.r, W.c, J⟩] (oneParams "exponential" g) = .ok W' ∧
      W'.r = W.r ∧ W'.c = W.c ∧ ∀ i < W.r, ∀ j < W.c, W'.get i j = W.get i j := by
  refine combined_weights fmax h hin (by decide) hk hb hg hJ fun i hi j hj => ?_
  have key : ∀ (l : List Nat) (u : Nat → ℝ),
      (l.map fun d => kshape (realEnv fmax) "exponential" (u d)).prod =
      Real.exp (-(1 / 2) * (l.map fun d => u d).sum) := by
    intro l u
    induction l with
    | nil => simp
    | cons a l ih =>
      rw [List.map_cons, List.prod_cons, ih, List.map_cons, List.sum_cons, mul_add, Real.exp_add]
      simp [kshape, realEnv]
  rw [key _ fun d => (Ds.getD d ⟨0, 0, fun _ _ => 0⟩).get i j / b d, ← hsum i hi j hj]
  simp [kshape, realEnv]

/-- C154: the boxcar kernel in several dimensions is the boxcar kernel of the largest distance in units
of the bandwidths. -/
theorem C154_boxcar (fmax : ℝ) (Ds : List (Mat ℝ)) (p : WParams ℝ) (W : Mat (Num ℝ))
    (h : weightMatrixFromDistance (realEnv fmax) false Ds p = .ok W) (hin : NonnegInput Ds p)
    (b : Nat → ℝ) (hk : ∀ d < Ds.length, (p.kernel.expand Ds.length)[d]? = some "boxcar")
    (hb : ∀ d < Ds.length, (p.bandwidth.expand Ds.length)[d]? = some (some (b d)) ∧ 0 < b d)
    (J : Nat → Nat → ℝ) (g : ℝ) (hg : 0 < g) (hJ : ∀ i j, 0 ≤ J i j)
    (hmax : ∀ i < W.r, ∀ j < W.c, J i j / g = ((List.range Ds.length).map fun d =>
      (Ds.getD d ⟨0, 0, fun _ _ => 0⟩).get i j / b d).foldr max 0) :
    ∃ W', weightMatrixFromDistance (realEnv fmax) false [⟨W.r, W.c, J⟩] (oneParams "boxcar" g) = .ok W' ∧
      W'.r = W.r ∧ W'.c = W.c ∧ ∀ i < W.r, ∀ j < W.c, W'.get i j = W.get i j := by
  refine combined_weights fmax h hin (by decide) hk hb hg hJ fun i hi j hj => ?_
  have key : ∀ (l : List Nat) (u : Nat → ℝ),
      (l.map fun d => kshape (realEnv fmax) "boxcar" (u d)).prod =
      kshape (realEnv fmax) "boxcar" ((l.map fun d => u d).foldr max 0) := by
    intro l u
    induction l with
    | nil => simp [kshape]
    | cons a l ih =>
      rw [List.map_cons, List.prod_cons, ih, List.map_cons, List.foldr_cons]
      simp only [kshape]
      by_cases h1 : 1 < u a
      · simp [h1]
      · by_cases h2 : 1 < (l.map fun d => u d).foldr max 0
        · simp [h2]
        · simp [h1, h2]
  rw [key _ fun d => (Ds.getD d ⟨0, 0, fun _ _ => 0⟩).get i j / b d, ← hmax i hi j hj]

/-- Two stations whose coordinates differ by 8/16 and 15/16, so that they are 17/16 apart. -/
def pythD (x : ℚ) : Mat ℚ := ⟨2, 2, fun i j => if i = j then 0 else x⟩

/-- C154: no kernel of bounded support has this property for the Euclidean distance: within the bandwidth
in each coordinate the two stations are neighbours, beyond it by Euclidean distance they are not. -/
theorem C154_bounded_support (name : String) (hn : name ∈ ["linear", "bisquare", "tricube", "boxcar"]) :
    (17 / 16 : ℚ) ^ 2 = (8 / 16) ^ 2 + (15 / 16) ^ 2 ∧
    okAnd (weightMatrixFromDistance ratEnv false [pythD (8 / 16), pythD (15 / 16)] (oneParams name 1))
      (fun W => decide (0 < (W.get 0 1).toK)) = true ∧
    okAnd (weightMatrixFromDistance ratEnv false [pythD (17 / 16)] (oneParams name 1))
      (fun W => decide ((W.get 0 1).toK = 0)) = true := by
  refine ⟨by norm_num, ?_, ?_⟩ <;>
  · simp only [List.mem_cons, List.not_mem_nil, or_false] at hn
    rcases hn with rfl | rfl | rfl | rfl <;> decide +kernel

/-- Points in the plane. -/
noncomputable def planeX (i : Nat) : ℝ := i
noncomputable def planeY (i : Nat) : ℝ := i * i
noncomputable def planeDs (n : Nat) : List (Mat ℝ) :=
  [⟨n, n, fun i j => |planeX i - planeX j|⟩, ⟨n, n, fun i j => |planeY i - planeY j|⟩]

/-- The hypotheses of `C154_gaussian` are met by any number of points of the plane, weighted by each
coordinate with bandwidth 2: the result is that of the Euclidean distance with bandwidth 2. -/
example (fmax : ℝ) (n : Nat) (hn : 0 < n) : ∃ W W',
    weightMatrixFromDistance (realEnv fmax) false (planeDs n) (oneParams "gaussian" 2) = .ok W ∧
    weightMatrixFromDistance (realEnv fmax) false
      [⟨n, n, fun i j => Real.sqrt ((planeX i - planeX j) ^ 2 + (planeY i - planeY j) ^ 2)⟩]
      (oneParams "gaussian" 2) = .ok W' ∧ ∀ i < n, ∀ j < n, W'.get i j = W.get i j := by
  have hok : ∃ W, weightMatrixFromDistance (realEnv fmax) false (planeDs n) (oneParams "gaussian" 2) = .ok W ∧
      W.r = n ∧ W.c = n := by
    have hshape : ∀ D ∈ planeDs n, D.r = n ∧ D.c = n := by
      intro D hD
      simp only [planeDs, List.mem_cons, List.not_mem_nil, or_false] at hD
      rcases hD with rfl | rfl <;> exact ⟨rfl, rfl⟩
    obtain ⟨W, hW⟩ := (C15_accepted_iff (realEnv fmax) (planeDs n) (oneParams "gaussian" 2)).2
      ⟨by simp [planeDs], rfl, n, n, hn, hn, hshape, fun d hd => by
        have : d < 2 := hd
        interval_cases d <;> exact ⟨⟨"gaussian", by decide, rfl⟩, Or.inl ⟨⟨2, rfl⟩, rfl⟩⟩⟩
    obtain ⟨-, -, _, -, -, hsh, -⟩ := weightMatrix_unfold hW
    have h0 := hsh _ (List.mem_cons_self ..)
    exact ⟨W, hW, h0.1.symm, h0.2.symm⟩
  obtain ⟨W, hW, hr, hc⟩ := hok
  obtain ⟨W', h1, -, -, h2⟩ := C154_gaussian fmax _ _ W hW
    ⟨by
      intro D hD i _ j _
      simp only [planeDs, List.mem_cons, List.not_mem_nil, or_false] at hD
      rcases hD with rfl | rfl <;> exact abs_nonneg _, by
      intro x hx
      simp [oneParams, Param.expand, planeDs] at hx
      rw [hx]; norm_num, by
      intro S hS
      simp [oneParams, Param.expand, planeDs] at hS⟩
    (fun _ => 2) (by
      intro d hd
      have : d < 2 := hd
      interval_cases d <;> rfl) (by
      intro d hd
      have : d < 2 := hd
      interval_cases d <;> exact ⟨rfl, by norm_num⟩)
    (fun i j => Real.sqrt ((planeX i - planeX j) ^ 2 + (planeY i - planeY j) ^ 2)) 2 (by norm_num)
    (fun i j => Real.sqrt_nonneg _) (by
      intro i _ j _
      simp only [planeDs, List.length_cons, List.length_nil, zero_add, List.range_succ, List.range_zero]
      simp [div_pow]
      rw [Real.sq_sqrt (by positivity)]
      ring)
  rw [hr, hc] at h1 h2
  exact ⟨W, W', hW, h1, h2⟩

end Geo
