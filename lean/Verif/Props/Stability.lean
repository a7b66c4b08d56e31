import Verif.Props.Kernel
import Verif.Props.WeightMatrix
import Verif.Props.Bandwidth
import Mathlib.Analysis.Calculus.MeanValue
import Mathlib.Analysis.Calculus.Deriv.Pow
import Mathlib.Analysis.SpecialFunctions.ExpDeriv
import Mathlib.Tactic.LinearCombination
set_option linter.unusedSectionVars false
/-
How much a weight can change when the distances change a little.
-/
namespace Geo
open Real

/-- A bound on the slope of each kernel, as a function of the normalised distance. -/
noncomputable def kernelSlope (name : String) : ℝ :=
  if name = "uniform" then 0
  else if name = "gaussian" then 1
  else if name = "exponential" then 1 / 2
  else if name = "linear" then 1
  else if name = "bisquare" then 8 / 5
  else 9 / 4

theorem kernelSlope_nonneg (name : String) : 0 ≤ kernelSlope name := by
  unfold kernelSlope
  repeat' split
  all_goals norm_num

theorem kernelSlope_le (name : String) : kernelSlope name ≤ 9 / 4 := by
  unfold kernelSlope
  repeat' split
  all_goals norm_num

/-- A function on an interval whose derivative is bounded does not change faster than that. -/
theorem slope_bound {f f' : ℝ → ℝ} {s : Set ℝ} (hs : Convex ℝ s) {C : ℝ}
    (hf : ∀ x ∈ s, HasDerivAt f (f' x) x) (hC : ∀ x ∈ s, |f' x| ≤ C) {u v : ℝ} (hu : u ∈ s)
    (hv : v ∈ s) : |f u - f v| ≤ C * |u - v| := by
  have := hs.norm_image_sub_le_of_norm_hasDerivWithin_le (f := f) (f' := f') (C := C)
    (fun x hx => (hf x hx).hasDerivWithinAt) (fun x hx => by simpa using hC x hx) hv hu
  simpa [Real.norm_eq_abs] using this

/-- The part of the normalised distance that counts for kernels with bounded support. -/
noncomputable def clampOne (u : ℝ) : ℝ := min u 1

theorem clampOne_sub (u v : ℝ) : |clampOne u - clampOne v| ≤ |u - v| := by
  unfold clampOne
  exact (abs_min_sub_min_le_max u 1 v 1).trans (by simp)

/-- Kernels with bounded support. -/
theorem kshape_compact (fmax : ℝ) {name : String}
    (hn : name = "linear" ∨ name = "bisquare" ∨ name = "tricube") {u v : ℝ} (hu : 0 ≤ u)
    (hv : 0 ≤ v) : |kshape (realEnv fmax) name u - kshape (realEnv fmax) name v| ≤
      kernelSlope name * |clampOne u - clampOne v| := by
  have hc : ∀ x, 0 ≤ x → clampOne x ∈ Set.Icc (0 : ℝ) 1 := fun x hx =>
    ⟨le_min hx zero_le_one, min_le_right _ _⟩
  rcases hn with rfl | rfl | rfl
  · have e : ∀ x, kshape (realEnv fmax) "linear" x = 1 - clampOne x := by
      intro x
      by_cases h : 1 < x
      · simp [kshape, h, clampOne, min_eq_right h.le]
      · simp [kshape, h, clampOne, min_eq_left (not_lt.1 h)]
    rw [e, e]
    simp only [kernelSlope]
    rw [show 1 - clampOne u - (1 - clampOne v) = -(clampOne u - clampOne v) by ring, abs_neg]
    simp
  · have e : ∀ x, kshape (realEnv fmax) "bisquare" x = (1 - clampOne x ^ 2) ^ 2 := by
      intro x
      by_cases h : 1 < x
      · simp [kshape, h, clampOne, min_eq_right h.le]
      · simp [kshape, h, clampOne, min_eq_left (not_lt.1 h)]; ring
    rw [e, e]
    have := slope_bound (f := fun x : ℝ => (1 - x ^ 2) ^ 2)
      (f' := fun x : ℝ => 2 * (1 - x ^ 2) * (-(2 * x))) (convex_Icc (0 : ℝ) 1) (C := 8 / 5)
      (fun x _ => by
        have h := ((hasDerivAt_pow 2 x).const_sub 1).fun_pow 2
        simpa using h) (fun x hx => by
        obtain ⟨h0, h1⟩ := hx
        have h2 : 0 ≤ 1 - x ^ 2 := by nlinarith
        rw [abs_le]
        refine ⟨?_, ?_⟩
        · nlinarith [mul_nonneg h0 (sq_nonneg (x - 29 / 50)), sq_nonneg (x - 29 / 50)]
        · nlinarith [mul_nonneg h0 h2]) (hc u hu) (hc v hv)
    simpa [kernelSlope] using this
  · have e : ∀ x, kshape (realEnv fmax) "tricube" x = (1 - clampOne x ^ 3) ^ 3 := by
      intro x
      by_cases h : 1 < x
      · simp [kshape, h, clampOne, min_eq_right h.le]
      · simp [kshape, h, clampOne, min_eq_left (not_lt.1 h)]; ring
    rw [e, e]
    have := slope_bound (f := fun x : ℝ => (1 - x ^ 3) ^ 3)
      (f' := fun x : ℝ => 3 * (1 - x ^ 3) ^ 2 * (-(3 * x ^ 2))) (convex_Icc (0 : ℝ) 1)
      (C := 9 / 4) (fun x _ => by
        have h := ((hasDerivAt_pow 3 x).const_sub 1).fun_pow 3
        simpa using h) (fun x hx => by
        obtain ⟨h0, h1⟩ := hx
        have h2 : x * (1 - x ^ 3) ≤ 1 / 2 := by nlinarith [sq_nonneg (x ^ 2 - 1 / 2), sq_nonneg (x - 1 / 2)]
        have h3 : 0 ≤ x * (1 - x ^ 3) := by
          refine mul_nonneg h0 ?_
          have := pow_le_one₀ (n := 3) h0 h1
          linarith
        have h4 : (x * (1 - x ^ 3)) ^ 2 ≤ (1 / 2) ^ 2 := pow_le_pow_left₀ h3 h2 2
        rw [abs_le]
        constructor
        · nlinarith
        · nlinarith [sq_nonneg (x * (1 - x ^ 3))]) (hc u hu) (hc v hv)
    simpa [kernelSlope] using this

theorem kshape_lipschitz (fmax : ℝ) {name : String} (hn : name ∈ kernelTypeEnum)
    (hb : name ≠ "boxcar") {u v : ℝ} (hu : 0 ≤ u) (hv : 0 ≤ v) :
    |kshape (realEnv fmax) name u - kshape (realEnv fmax) name v| ≤ kernelSlope name * |u - v| := by
  have hcomp : name = "linear" ∨ name = "bisquare" ∨ name = "tricube" →
      |kshape (realEnv fmax) name u - kshape (realEnv fmax) name v| ≤ kernelSlope name * |u - v| :=
    fun h => (kshape_compact fmax h hu hv).trans
      (mul_le_mul_of_nonneg_left (clampOne_sub u v) (kernelSlope_nonneg name))
  rcases mem_kernelTypeEnum.1 hn with rfl | rfl | rfl | rfl | rfl | rfl | rfl
  · exact hcomp (by simp)
  · simp [kshape, kernelSlope]
  · have := slope_bound (f := fun x : ℝ => Real.exp (-(1 / 2) * (x * x)))
      (f' := fun x : ℝ => Real.exp (-(1 / 2) * (x * x)) * (-(1 / 2) * (x + x)))
      (convex_univ) (C := 1) (fun x _ => by
        have h := (((hasDerivAt_id x).mul (hasDerivAt_id x)).const_mul (-(1 / 2))).exp
        simpa using h) (fun x _ => by
        rw [abs_mul, abs_of_pos (Real.exp_pos _)]
        have h1 : Real.exp (-(1 / 2) * (x * x)) * Real.exp (1 / 2 * (x * x)) = 1 := by
          rw [← Real.exp_add]; simp
        have h2 := Real.add_one_le_exp (1 / 2 * (x * x))
        have h3 : |-(1 / 2) * (x + x)| ≤ Real.exp (1 / 2 * (x * x)) := by
          refine le_trans ?_ h2
          rw [abs_le]
          constructor <;> nlinarith [sq_nonneg (x - 1), sq_nonneg (x + 1)]
        calc _ ≤ Real.exp (-(1 / 2) * (x * x)) * Real.exp (1 / 2 * (x * x)) :=
              mul_le_mul_of_nonneg_left h3 (Real.exp_pos _).le
          _ = 1 := h1) (Set.mem_univ u) (Set.mem_univ v)
    simpa [kshape, kernelSlope, realEnv] using this
  · have := slope_bound (f := fun x : ℝ => Real.exp (-(1 / 2) * x))
      (f' := fun x : ℝ => Real.exp (-(1 / 2) * x) * (-(1 / 2)))
      (convex_Ici (0 : ℝ)) (C := 1 / 2) (fun x _ => by
        have h := ((hasDerivAt_id x).const_mul (-(1 / 2))).exp
        simpa using h) (fun x hx => by
        rw [abs_mul, abs_of_pos (Real.exp_pos _), abs_neg, abs_of_pos (by norm_num : (0:ℝ) < 1 / 2)]
        have : Real.exp (-(1 / 2) * x) ≤ 1 := by
          rw [Real.exp_le_one_iff]
          have : 0 ≤ x := hx
          linarith
        linarith) (show u ∈ Set.Ici (0 : ℝ) from hu) (show v ∈ Set.Ici (0 : ℝ) from hv)
    simpa [kshape, kernelSlope, realEnv] using this
  · exact absurd rfl hb
  · exact hcomp (by simp)
  · exact hcomp (by simp)

/-- C95: every kernel but `boxcar` is continuous, with an explicit bound: two weights differ by at
most `kernelSlope` (at most 9/4) times the difference of the normalised distances. -/
theorem C95_kernel_continuous (fmax : ℝ) (lazy : Bool) (name : String) (hn : name ∈ kernelTypeEnum)
    (hb : name ≠ "boxcar") (d d' b b' : ℝ) (hd : 0 ≤ d) (hd' : 0 ≤ d') (hb0 : 0 < b) (hb0' : 0 < b') :
    ∃ w w', kernelWeight (realEnv fmax) lazy name d b = .ok (.fin w) ∧
      kernelWeight (realEnv fmax) lazy name d' b' = .ok (.fin w') ∧
      |w - w'| ≤ kernelSlope name * |d / b - d' / b'| := by
  refine ⟨_, _, kernelWeight_eq _ lazy hn hd hb0.le, kernelWeight_eq _ lazy hn hd' hb0'.le, ?_⟩
  rw [kval_eq_kshape _ _ hb0, kval_eq_kshape _ _ hb0']
  exact kshape_lipschitz fmax hn hb (div_nonneg hd hb0.le) (div_nonneg hd' hb0'.le)

/-- C95: `boxcar` is not: arbitrarily close to the bandwidth the weight jumps from one to zero. -/
theorem C95_boxcar_jumps (fmax : ℝ) (lazy : Bool) (b δ : ℝ) (hb : 0 < b) (hδ : 0 < δ) :
    kernelWeight (realEnv fmax) lazy "boxcar" b b = .ok (.fin 1) ∧
    kernelWeight (realEnv fmax) lazy "boxcar" (b + δ) b = .ok (.fin 0) := by
  rw [kernelWeight_eq _ lazy (by decide) hb.le hb.le,
    kernelWeight_eq _ lazy (by decide) (by linarith) hb.le]
  constructor
  · simp [kval]
  · simp [kval, hδ]

/-- Products of numbers in the unit interval. -/
theorem prod_sub_le {ι : Type} (l : List ι) (f g : ι → ℝ) (e : ℝ)
    (hf : ∀ x ∈ l, 0 ≤ f x ∧ f x ≤ 1) (hg : ∀ x ∈ l, 0 ≤ g x ∧ g x ≤ 1)
    (h : ∀ x ∈ l, |f x - g x| ≤ e) :
    |(l.map f).prod - (l.map g).prod| ≤ l.length * e := by
  induction l with
  | nil => simp
  | cons a l ih =>
    have ih := ih (fun x hx => hf x (by simp [hx])) (fun x hx => hg x (by simp [hx]))
      (fun x hx => h x (by simp [hx]))
    obtain ⟨f0, f1⟩ := hf a (by simp)
    have hg' : 0 ≤ (l.map g).prod ∧ (l.map g).prod ≤ 1 := List.prod_mem_unit fun y hy => by
      obtain ⟨x, hx, rfl⟩ := List.mem_map.1 hy
      exact hg x (by simp [hx])
    have ha := h a (by simp)
    simp only [List.map_cons, List.prod_cons, List.length_cons, Nat.cast_add, Nat.cast_one]
    rw [show f a * (l.map f).prod - g a * (l.map g).prod =
      f a * ((l.map f).prod - (l.map g).prod) + (f a - g a) * (l.map g).prod by ring]
    refine (abs_add_le _ _).trans ?_
    rw [abs_mul, abs_mul, abs_of_nonneg f0, abs_of_nonneg hg'.1]
    have h1 : f a * |(l.map f).prod - (l.map g).prod| ≤ 1 * (l.length * e) :=
      mul_le_mul f1 ih (abs_nonneg _) zero_le_one
    have h2 : |f a - g a| * (l.map g).prod ≤ e * 1 :=
      mul_le_mul ha hg'.2 hg'.1 ((abs_nonneg _).trans ha)
    linarith

/-- Normalising a row. -/
theorem normalise_sub_le {n : Nat} (f g : Nat → ℝ) (e : ℝ) (hg : ∀ j < n, 0 ≤ g j)
    (h : ∀ j < n, |f j - g j| ≤ e)
    (hf1 : 1 ≤ ∑ j ∈ Finset.range n, f j) (hg1 : 1 ≤ ∑ j ∈ Finset.range n, g j) {j : Nat}
    (hj : j < n) :
    |f j / ∑ j ∈ Finset.range n, f j - g j / ∑ j ∈ Finset.range n, g j| ≤ (1 + n) * e := by
  set s := ∑ j ∈ Finset.range n, f j
  set t := ∑ j ∈ Finset.range n, g j
  have hs : |s - t| ≤ n * e := by
    simp only [s, t]
    rw [← Finset.sum_sub_distrib]
    refine (Finset.abs_sum_le_sum_abs _ _).trans ?_
    refine (Finset.sum_le_sum fun k hk => h k (Finset.mem_range.1 hk)).trans ?_
    simp
  have hgt : g j ≤ t := Finset.single_le_sum (f := g) (fun k hk => hg k (Finset.mem_range.1 hk))
    (Finset.mem_range.2 hj)
  have s0 : 0 < s := by linarith
  have t0 : 0 < t := by linarith
  have e1 : f j / s - g j / t = ((f j - g j) + (g j / t) * (t - s)) / s := by
    field_simp
    ring
  have hq : 0 ≤ g j / t ∧ g j / t ≤ 1 := ⟨div_nonneg (hg j hj) t0.le, div_le_one_of_le₀ hgt t0.le⟩
  rw [e1, abs_div, abs_of_pos s0]
  refine (div_le_self (abs_nonneg _) hf1).trans ((abs_add_le _ _).trans ?_)
  rw [abs_mul, abs_of_nonneg hq.1, abs_sub_comm t s]
  have h2 : g j / t * |s - t| ≤ 1 * (n * e) := mul_le_mul hq.2 hs (abs_nonneg _) zero_le_one
  have := h j hj
  linarith

/-- The kernel values behind a weight matrix with fixed bandwidths. -/
theorem dimWeights_fixed (env : Env ℝ) {lazy : Bool} {Ds : List (Mat ℝ)} {p : WParams ℝ}
    {Ws : List (Mat (Num ℝ))} (h : dimWeights env lazy Ds p = .ok Ws)
    (hdist : ∀ D ∈ Ds, ∀ i < D.r, ∀ j < D.c, 0 ≤ D.get i j)
    {b0 : ℝ} (hb0 : 0 < b0) (hbw : ∀ b ∈ p.bandwidth.expand Ds.length, ∃ x, b = some x ∧ b0 ≤ x)
    {d : Nat} (hd : d < Ds.length) :
    ∃ name b, (p.kernel.expand Ds.length)[d]? = some name ∧ name ∈ kernelTypeEnum ∧
      (p.bandwidth.expand Ds.length)[d]? = some (some b) ∧ b0 ≤ b ∧
      ∀ i < Ds[d].r, ∀ j < Ds[d].c, (Ws[d]'(dimWeights_length h ▸ hd)).get i j =
        .fin (kshape env name (Ds[d].get i j / b)) := by
  obtain ⟨D, name, b, n, S, hD, hname, hb, hn, -, hw⟩ := dimWeight_unfold (dimWeights_get h hd)
  rw [List.getElem?_eq_getElem hd] at hD
  cases hD
  obtain ⟨x, rfl, hx⟩ := hbw b (List.mem_of_getElem? hb)
  have hx0 : 0 < x := hb0.trans_le hx
  have hk : kernelFunction env lazy Ds[d] (fun _ => x) name =
      .ok (Ws[d]'(dimWeights_length h ▸ hd)) := by
    cases n with
    | none => exact hw
    | some n => cases hw
  unfold kernelFunction at hk
  split at hk
  · cases hk
  rename_i w hwn
  have hnm : name ∈ kernelTypeEnum := by
    by_contra hn
    simp only [mem_kernelTypeEnum, not_or] at hn
    obtain ⟨h1, h2, h3, h4, h5, h6, h7⟩ := hn
    simp [kernelElem, h1, h2, h3, h4, h5, h6, h7] at hwn
  refine ⟨name, x, hname, hnm, hb, hx, fun i hi j hj => ?_⟩
  injection hk with hk
  rw [← hk]
  have := kernelWeight_eq env lazy hnm (hdist _ (List.getElem_mem hd) i hi j hj) hx0.le
  simp only [kernelWeight, hwn] at this
  injection this with this
  simp only [this, kval_eq_kshape env name hx0]

/-- C95: the weight matrix is continuous in the distances. Two sets of distance matrices of the same
shape differ by at most `ε` in every entry; the bandwidths are fixed and at least `b0`, and no kernel
is `boxcar`. In every row with a target at distance zero (the point itself) no weight changes by more
than `(1 + N) · dims · 9/4 · ε / b0`, where `N` is the number of targets. -/
theorem C95_weight_matrix (fmax : ℝ) (lazy : Bool) (Ds Ds' : List (Mat ℝ)) (p : WParams ℝ)
    (W W' : Mat (Num ℝ)) (h : weightMatrixFromDistance (realEnv fmax) lazy Ds p = .ok W)
    (h' : weightMatrixFromDistance (realEnv fmax) lazy Ds' p = .ok W')
    (hlen : Ds'.length = Ds.length) (hsh : AllShape Ds' W.r W.c)
    (hin : NonnegInput Ds p) (hin' : NonnegInput Ds' p)
    (b0 ε : ℝ) (hb0 : 0 < b0)
    (hbw : ∀ b ∈ p.bandwidth.expand Ds.length, ∃ x, b = some x ∧ b0 ≤ x)
    (hbox : "boxcar" ∉ p.kernel.expand Ds.length)
    (i : Nat) (hi : i < W.r)
    (hε : ∀ d (hd : d < Ds.length), ∀ j < W.c,
      |(Ds[d]).get i j - (Ds'[d]'(hlen ▸ hd)).get i j| ≤ ε)
    (t : Nat) (ht : t < W.c) (hself : ∀ D ∈ Ds, D.get i t = 0) (hself' : ∀ D ∈ Ds', D.get i t = 0)
    (j : Nat) (hj : j < W.c) :
    ∃ x x', W.get i j = .fin x ∧ W'.get i j = .fin x' ∧
      |x - x'| ≤ (1 + W.c) * (Ds.length * (9 / 4 * (ε / b0))) := by
  have he := (realEnv_pos fmax).toOk
  obtain ⟨Ws, hWs, hs, hu, hW⟩ := weightMatrix_master _ he h hin
  obtain ⟨Ws', hWs', hs', hu', hW'⟩ := weightMatrix_master _ he h' hin'
  have hl := dimWeights_length hWs
  have hl' := dimWeights_length hWs'
  -- both results have the same shape
  have hne : Ds ≠ [] := (weightMatrix_unfold h).2.2.choose_spec.2.1
  have hne' : Ds' ≠ [] := by
    intro e
    rw [e] at hlen
    exact hne (List.length_eq_zero_iff.1 hlen.symm)
  obtain ⟨D0, hD0⟩ := List.exists_mem_of_ne_nil _ hne'
  have hr : W'.r = W.r := (hs' D0 hD0).1.symm.trans (hsh D0 hD0).1
  have hc : W'.c = W.c := (hs' D0 hD0).2.symm.trans (hsh D0 hD0).2
  rw [hr, hc] at hu' hW'
  have hfix := fun d hd => dimWeights_fixed _ hWs hin.dist hb0 hbw (d := d) hd
  have hfix' := fun d hd => dimWeights_fixed _ hWs' hin'.dist hb0 (hlen.symm ▸ hbw) (d := d) hd
  have hε0 : 0 ≤ ε := by
    have : 0 < Ds.length := List.length_pos_iff.2 hne
    exact (abs_nonneg _).trans (hε 0 this t ht)
  -- the kernel values of one dimension
  have hval : ∀ d (hd : d < Ds.length), ∃ (name : String) (b : ℝ), name ∈ kernelTypeEnum ∧
      name ≠ "boxcar" ∧ b0 ≤ b ∧ (∀ j < W.c, ((Ws[d]'(by omega)).get i j).toK =
        kshape (realEnv fmax) name ((Ds[d]).get i j / b)) ∧
      (∀ j < W.c, ((Ws'[d]'(by omega)).get i j).toK =
        kshape (realEnv fmax) name ((Ds'[d]'(by omega)).get i j / b)) := by
    intro d hd
    obtain ⟨name, b, hn, hnm, hb, hbb, hv⟩ := hfix d hd
    obtain ⟨name', b', hn', -, hb', -, hv'⟩ := hfix' d (by omega)
    rw [hlen, hn] at hn'
    rw [hlen, hb] at hb'
    cases hn'
    cases hb'
    refine ⟨name, b, hnm, ?_, hbb, fun j hj => ?_, fun j hj => ?_⟩
    · rintro rfl
      exact hbox (List.mem_of_getElem? hn)
    · obtain ⟨h1, h2⟩ := hs _ (List.getElem_mem hd)
      rw [hv i (by omega) j (by omega)]
      rfl
    · obtain ⟨h1, h2⟩ := hsh _ (List.getElem_mem (by omega : d < Ds'.length))
      rw [hv' i (by omega) j (by omega)]
      rfl
  have hpr : ∀ j, prodK Ws i j = ((List.range Ds.length).map fun d =>
      (((Ws.getD d ⟨0, 0, fun _ _ => .nan⟩).get i j).toK)).prod := by
    intro j
    unfold prodK
    congr 1
    apply List.ext_getElem
    · simp [hl]
    · intro d h1 h2
      simp only [List.length_map] at h1
      simp [List.getD_eq_getElem?_getD, h1]
  have hpr' : ∀ j, prodK Ws' i j = ((List.range Ds.length).map fun d =>
      (((Ws'.getD d ⟨0, 0, fun _ _ => .nan⟩).get i j).toK)).prod := by
    intro j
    unfold prodK
    congr 1
    apply List.ext_getElem
    · simp [hl', hlen]
    · intro d h1 h2
      simp only [List.length_map] at h1
      simp [List.getD_eq_getElem?_getD, h1]
  have hdiff : ∀ j < W.c, |prodK Ws i j - prodK Ws' i j| ≤ Ds.length * (9 / 4 * (ε / b0)) := by
    intro j hj
    rw [hpr, hpr']
    have := prod_sub_le (List.range Ds.length)
      (fun d => (((Ws.getD d ⟨0, 0, fun _ _ => .nan⟩).get i j).toK))
      (fun d => (((Ws'.getD d ⟨0, 0, fun _ _ => .nan⟩).get i j).toK)) (9 / 4 * (ε / b0)) ?_ ?_ ?_
    · simpa using this
    · intro d hd
      have hd := List.mem_range.1 hd
      rw [List.getD_eq_getElem _ _ (by omega)]
      obtain ⟨y, hy, hy0⟩ := hu _ (List.getElem_mem (by omega : d < Ws.length)) i hi j hj
      rw [hy]
      exact hy0
    · intro d hd
      have hd := List.mem_range.1 hd
      rw [List.getD_eq_getElem _ _ (by omega)]
      obtain ⟨y, hy, hy0⟩ := hu' _ (List.getElem_mem (by omega : d < Ws'.length)) i hi j hj
      rw [hy]
      exact hy0
    · intro d hd
      have hd := List.mem_range.1 hd
      rw [List.getD_eq_getElem _ _ (by omega), List.getD_eq_getElem _ _ (by omega)]
      obtain ⟨name, b, hn, hnb, hbb, hv, hv'⟩ := hval d hd
      rw [hv j hj, hv' j hj]
      have hb : 0 < b := hb0.trans_le hbb
      obtain ⟨h1, h2⟩ := hs _ (List.getElem_mem hd)
      obtain ⟨h3, h4⟩ := hsh _ (List.getElem_mem (by omega : d < Ds'.length))
      refine (kshape_lipschitz fmax hn hnb
        (div_nonneg (hin.dist _ (List.getElem_mem hd) i (by omega) j (by omega)) hb.le)
        (div_nonneg (hin'.dist _ (List.getElem_mem (by omega : d < Ds'.length)) i (by omega) j
          (by omega)) hb.le)).trans ?_
      rw [← sub_div, abs_div, abs_of_pos hb]
      refine mul_le_mul (kernelSlope_le _) ?_ (by positivity) (by norm_num)
      exact div_le_div₀ hε0 (hε d hd j hj) hb0 hbb
  -- the point itself has weight one before normalisation
  have hone : prodK Ws i t = 1 := by
    rw [hpr]
    apply List.prod_eq_one
    intro x hx
    obtain ⟨d, hd, rfl⟩ := List.mem_map.1 hx
    have hd := List.mem_range.1 hd
    rw [List.getD_eq_getElem _ _ (by omega)]
    obtain ⟨name, b, hn, -, -, hv, -⟩ := hval d hd
    rw [hv t ht, hself _ (List.getElem_mem hd), zero_div]
    simp [kshape, realEnv]
  have hone' : prodK Ws' i t = 1 := by
    rw [hpr']
    apply List.prod_eq_one
    intro x hx
    obtain ⟨d, hd, rfl⟩ := List.mem_map.1 hx
    have hd := List.mem_range.1 hd
    rw [List.getD_eq_getElem _ _ (by omega)]
    obtain ⟨name, b, hn, -, -, -, hv⟩ := hval d hd
    rw [hv t ht, hself' _ (List.getElem_mem _), zero_div]
    simp [kshape, realEnv]
  have hge : 1 ≤ ∑ j ∈ Finset.range W.c, prodK Ws i j := by
    rw [← hone]
    exact Finset.single_le_sum (f := prodK Ws i)
      (fun k hk => (hu.prodK_unit hi (Finset.mem_range.1 hk)).1) (Finset.mem_range.2 ht)
  have hge' : 1 ≤ ∑ j ∈ Finset.range W.c, prodK Ws' i j := by
    rw [← hone']
    exact Finset.single_le_sum (f := prodK Ws' i)
      (fun k hk => (hu'.prodK_unit hi (Finset.mem_range.1 hk)).1) (Finset.mem_range.2 ht)
  refine ⟨_, _, hW i hi j hj, hW' i hi j hj, ?_⟩
  unfold normK
  rw [if_neg (by linarith), if_neg (by linarith)]
  exact normalise_sub_le _ _ _ (fun k hk => (hu'.prodK_unit hi hk).1) hdiff hge hge' hj

section Adaptive
variable {K : Type} [Field K] [LinearOrder K] [IsStrictOrderedRing K] [FloorRing K]

/-- Order statistics do not move further than the data. -/
theorem sortL_shift {l l' : List K} {e : K} (h : List.Forall₂ (fun x y => x ≤ y + e) l l') {k : Nat}
    (hk : k < l.length) : (sortL l).getD k 0 ≤ (sortL l').getD k 0 + e := by
  have hl := h.length_eq
  rw [List.getD_eq_getElem _ _ (by simpa using hk), List.getD_eq_getElem _ _ (by simpa [← hl] using hk)]
  by_contra hlt
  have hlt := not_le.1 hlt
  have h1 := countP_le_sorted (sortL_pairwise l') (k := k) (by simpa [← hl] using hk)
  have h2 := countP_lt_sorted (sortL_pairwise l) (k := k) (by simpa using hk)
  rw [(sortL_perm _).countP_eq] at h1 h2
  generalize (sortL l')[k]'(by simpa [← hl] using hk) = y at *
  generalize (sortL l)[k]'(by simpa using hk) = x at *
  have h3 : l'.countP (fun z => decide (z ≤ y)) ≤ l.countP (fun z => decide (z < x)) := by
    clear h1 h2 hk hl
    induction h with
    | nil => simp
    | @cons a b l l' hab _ ih =>
      simp only [List.countP_cons]
      by_cases hb : b ≤ y
      · have ha : a < x := by linarith
        simp [hb, ha, ih]
      · simp only [hb, decide_false, Bool.false_eq_true, if_false]
        exact ih.trans (Nat.le_add_right _ _)
  omega

/-- Interpolated quantiles do not move further than the data. -/
theorem lerp_shift {f g : Nat → K} {n : Nat} {e : K} (h : ∀ i < n, f i ≤ g i + e) (hn : 0 < n) (v : K) :
    lerp f n v ≤ lerp g n v + e := by
  unfold lerp
  split
  · exact h _ (by omega)
  · rename_i h1
    split
    · exact h _ hn
    · rename_i h2
      have hlt := floor_lt_of_lt_pred (not_lt.1 h2) (not_le.1 h1)
      have h3 := Nat.floor_le (not_lt.1 h2)
      have h4 := Nat.lt_floor_add_one v
      have a := mul_le_mul_of_nonneg_right (h _ hlt) (sub_nonneg.2 h3)
      have b := mul_le_mul_of_nonneg_right (h ⌊v⌋₊ (by omega))
        (show 0 ≤ 1 - (v - ⌊v⌋₊) by linarith)
      have e1 : f ⌊v⌋₊ + (f (⌊v⌋₊ + 1) - f ⌊v⌋₊) * (v - ⌊v⌋₊) =
        f ⌊v⌋₊ * (1 - (v - ⌊v⌋₊)) + f (⌊v⌋₊ + 1) * (v - ⌊v⌋₊) := by ring
      have e2 : g ⌊v⌋₊ + (g (⌊v⌋₊ + 1) - g ⌊v⌋₊) * (v - ⌊v⌋₊) + e =
        (g ⌊v⌋₊ + e) * (1 - (v - ⌊v⌋₊)) + (g (⌊v⌋₊ + 1) + e) * (v - ⌊v⌋₊) := by ring
      rw [e1, e2]
      linarith

theorem row_forall₂ {D D' : Mat K} (hc : D'.c = D.c) {e : K} {i : Nat}
    (h : ∀ j < D.c, D.get i j ≤ D'.get i j + e) :
    List.Forall₂ (fun x y => x ≤ y + e) (D.row i) (D'.row i) := by
  unfold Mat.row
  rw [hc, List.forall₂_map_left_iff, List.forall₂_map_right_iff, List.forall₂_same]
  exact fun j hj => h j (List.mem_range.1 hj)

theorem adaptiveEager_shift {D D' : Mat K} (hc : D'.c = D.c) {n : Count K} {bw bw' : Nat → K}
    (h : adaptiveBandwidth false D n none = .ok bw)
    (h' : adaptiveBandwidth false D' n none = .ok bw') {e : K} {i : Nat}
    (hd : ∀ j < D.c, D.get i j ≤ D'.get i j + e) : bw i ≤ bw' i + e := by
  have hrow := row_forall₂ hc hd
  cases n with
  | npInt k => simp [adaptiveBandwidth, adaptiveBandwidthEager] at h
  | int k =>
    simp only [adaptiveBandwidth, adaptiveBandwidthEager, Bool.false_eq_true, if_false] at h h'
    split at h
    · cases h
    rename_i hk
    rw [if_neg hk] at h'
    split at h
    swap
    · cases h
    rename_i hlt
    rw [if_pos (by omega)] at h'
    injection h with h
    injection h' with h'
    rw [← h, ← h']
    exact sortL_shift hrow (by simpa using hlt)
  | float q =>
    obtain ⟨-, -, h0, hb⟩ := adaptiveBandwidth_float_ok h
    obtain ⟨-, -, -, hb'⟩ := adaptiveBandwidth_float_ok h'
    rw [hb, hb']
    unfold quantileVal
    simp only [Mat.row_length, hc]
    exact lerp_shift (fun k hk => sortL_shift hrow (by simpa using hk)) h0 _

/-- C95: an adaptive bandwidth, given by a count or by a fraction, moves no further than the distances
of its row. -/
theorem C95_adaptive_bandwidth (D D' : Mat K) (hc : D'.c = D.c) (n : Count K) (bw bw' : Nat → K)
    (h : adaptiveBandwidth false D n none = .ok bw)
    (h' : adaptiveBandwidth false D' n none = .ok bw') (ε : K) (i : Nat)
    (hd : ∀ j < D.c, |D.get i j - D'.get i j| ≤ ε) : |bw i - bw' i| ≤ ε := by
  rw [abs_le]
  constructor
  · have := adaptiveEager_shift (i := i) (e := ε) hc.symm h' h fun j hj => by
      have := (abs_le.1 (hd j (hc ▸ hj))).1
      linarith
    linarith
  · have := adaptiveEager_shift (i := i) (e := ε) hc h h' fun j hj => by
      have := (abs_le.1 (hd j hj)).2
      linarith
    linarith
end Adaptive

/-- Normalised distances, cut at one, when the distance and the bandwidth both move by at most `ε`. -/
theorem clampOne_ratio {d d' b b' ε : ℝ} (hd : 0 ≤ d) (hd' : 0 ≤ d') (hb : 0 < b) (hb' : 0 < b')
    (h1 : |d - d'| ≤ ε) (h2 : |b - b'| ≤ ε) :
    |clampOne (d / b) - clampOne (d' / b')| ≤ 2 * ε / b := by
  obtain ⟨d1, d2⟩ := abs_le.1 h1
  obtain ⟨b1, b2⟩ := abs_le.1 h2
  have hε : 0 ≤ ε := (abs_nonneg _).trans h1
  have hu : d / b * b = d := div_mul_cancel₀ _ hb.ne'
  have hv : d' / b' * b' = d' := div_mul_cancel₀ _ hb'.ne'
  have hu0 : 0 ≤ d / b := div_nonneg hd hb.le
  have hv0 : 0 ≤ d' / b' := div_nonneg hd' hb'.le
  generalize d / b = u at *
  generalize d' / b' = v at *
  unfold clampOne
  have m1 : min u 1 ≤ u := min_le_left _ _
  have m2 : min u 1 ≤ 1 := min_le_right _ _
  have m3 : min v 1 ≤ v := min_le_left _ _
  have m4 : min v 1 ≤ 1 := min_le_right _ _
  have m5 : 0 ≤ min u 1 := le_min hu0 zero_le_one
  have m6 : 0 ≤ min v 1 := le_min hv0 zero_le_one
  rw [abs_le]
  have hr : 0 ≤ 2 * ε / b := div_nonneg (by linarith) hb.le
  constructor
  · rcases le_total 1 u with hu1 | hu1
    · rw [min_eq_right hu1]; linarith
    · rw [min_eq_left hu1, neg_le_sub_iff_le_add, ← sub_le_iff_le_add', le_div_iff₀ hb]
      have a := mul_le_mul_of_nonneg_right m3 hb'.le
      have c : min v 1 * (b - b') ≤ 1 * ε :=
        (mul_le_mul_of_nonneg_left b2 m6).trans (mul_le_mul_of_nonneg_right m4 hε)
      linarith
  · rcases le_total 1 v with hv1 | hv1
    · rw [min_eq_right hv1]; linarith
    · rw [min_eq_left hv1, le_div_iff₀ hb]
      have a := mul_le_mul_of_nonneg_right m1 hb.le
      have c : v * (b' - b) ≤ 1 * ε :=
        (mul_le_mul_of_nonneg_left (show b' - b ≤ ε by linarith) hv0).trans
          (mul_le_mul_of_nonneg_right hv1 hε)
      linarith

/-- C95: with an adaptive bandwidth and a kernel of bounded support (`linear`, `bisquare`, `tricube`)
moving all distances of a row by at most `ε` changes a kernel value by at most
`kernelSlope · 2 ε / bandwidth`. -/
theorem C95_adaptive_kernel (fmax : ℝ) (name : String)
    (hn : name = "linear" ∨ name = "bisquare" ∨ name = "tricube") (D D' : Mat ℝ) (hc : D'.c = D.c)
    (n : Count ℝ) (bw bw' : Nat → ℝ) (h : adaptiveBandwidth false D n none = .ok bw)
    (h' : adaptiveBandwidth false D' n none = .ok bw') (M M' : Mat (Num ℝ))
    (hM : adaptiveKernel (realEnv fmax) false D n name none = .ok M)
    (hM' : adaptiveKernel (realEnv fmax) false D' n name none = .ok M')
    (ε : ℝ) (i : Nat) (hb : 0 < bw i) (hb' : 0 < bw' i)
    (h0 : ∀ j < D.c, 0 ≤ D.get i j ∧ 0 ≤ D'.get i j)
    (hd : ∀ j < D.c, |D.get i j - D'.get i j| ≤ ε) (j : Nat) (hj : j < D.c) :
    ∃ w w', M.get i j = .fin w ∧ M'.get i j = .fin w' ∧
      |w - w'| ≤ kernelSlope name * (2 * ε / bw i) := by
  have hnm : name ∈ kernelTypeEnum := by rcases hn with rfl | rfl | rfl <;> decide
  have key : ∀ (D : Mat ℝ) (bw : Nat → ℝ) (M : Mat (Num ℝ)),
      kernelFunction (realEnv fmax) false D bw name = .ok M → 0 < bw i → 0 ≤ D.get i j →
      M.get i j = .fin (kshape (realEnv fmax) name (D.get i j / bw i)) := by
    intro D bw M hk hb hd
    unfold kernelFunction at hk
    split at hk
    · cases hk
    rename_i w hwn
    injection hk with hk
    rw [← hk]
    have := kernelWeight_eq (realEnv fmax) false hnm hd hb.le
    simp only [kernelWeight, hwn] at this
    injection this with this
    simp only [this, kval_eq_kshape _ name hb]
  unfold adaptiveKernel at hM hM'
  rw [h] at hM
  rw [h'] at hM'
  refine ⟨_, _, key _ _ _ hM hb (h0 j hj).1, key _ _ _ hM' hb' (h0 j hj).2, ?_⟩
  refine (kshape_compact fmax hn (div_nonneg (h0 j hj).1 hb.le)
    (div_nonneg (h0 j hj).2 hb'.le)).trans ?_
  exact mul_le_mul_of_nonneg_left (clampOne_ratio (h0 j hj).1 (h0 j hj).2 hb hb' (hd j hj)
    (C95_adaptive_bandwidth D D' hc n bw bw' h h' ε i hd)) (kernelSlope_nonneg name)

/-- Two points one unit apart, up to `e`. -/
noncomputable def twoPoints (e : ℝ) : Mat ℝ := ⟨2, 2, fun i j => if i = j then 0 else 1 + e⟩

noncomputable def twoParams : WParams ℝ := { kernel := .scalar "linear", bandwidth := .scalar (some 2) }

theorem twoPoints_input {e : ℝ} (he : 0 ≤ e) : NonnegInput [twoPoints e] twoParams where
  dist := by
    intro D hD i _ j _
    simp only [List.mem_singleton] at hD
    subst hD
    simp only [twoPoints]
    split <;> linarith
  bandwidth := by
    intro b hb
    simp [twoParams, Param.expand] at hb
    rw [hb]; norm_num
  sorted := by intro S hS; simp [twoParams, Param.expand] at hS

theorem twoPoints_ok (fmax e : ℝ) : ∃ W, weightMatrixFromDistance (realEnv fmax) false
    [twoPoints e] twoParams = .ok W ∧ W.r = 2 ∧ W.c = 2 := ⟨_, rfl, rfl, rfl⟩

/-- The hypotheses of `C95_weight_matrix` are met by two points one unit apart whose distance changes
by one hundredth. -/
example (fmax : ℝ) : ∃ W W' x x',
    weightMatrixFromDistance (realEnv fmax) false [twoPoints 0] twoParams = .ok W ∧
    weightMatrixFromDistance (realEnv fmax) false [twoPoints (1 / 100)] twoParams = .ok W' ∧
    W.get 0 1 = .fin x ∧ W'.get 0 1 = .fin x' ∧
    |x - x'| ≤ (1 + 2) * (1 * (9 / 4 * (1 / 100 / 2))) := by
  obtain ⟨W, hW, hr, hc⟩ := twoPoints_ok fmax 0
  obtain ⟨W', hW', -, -⟩ := twoPoints_ok fmax (1 / 100)
  obtain ⟨x, x', h1, h2, h3⟩ := C95_weight_matrix fmax false _ _ twoParams W W' hW hW' rfl
    (by intro D hD; simp at hD; subst hD; exact ⟨hr.symm, hc.symm⟩)
    (twoPoints_input le_rfl) (twoPoints_input (by norm_num)) 2 (1 / 100) (by norm_num)
    (by intro b hb; simp [twoParams, Param.expand] at hb; exact ⟨2, hb, le_rfl⟩)
    (by simp [twoParams, Param.expand]) 0 (by omega)
    (by
      intro d hd j hj
      have : d = 0 := by simpa using hd
      subst this
      simp only [twoPoints, List.getElem_cons_zero]
      split <;> norm_num [abs_le])
    0 (by omega) (by simp [twoPoints]) (by simp [twoPoints]) 1 (by omega)
  refine ⟨W, W', x, x', hW, hW', h1, h2, ?_⟩
  rw [hc] at h3
  simpa using h3

/-- A count meets the hypotheses of `C95_adaptive_bandwidth`. -/
example (e : ℝ) : ∃ bw, adaptiveBandwidth false (twoPoints e) (.int 2) none = .ok bw :=
  (C08_count_validated _ _).2 ⟨by norm_num, by simp [twoPoints]⟩

end Geo
