import Verif.Props.RoundedUnits
set_option linter.unusedSectionVars false
/-
C187: how far the weights of the continuous compact kernels change with the unit, in floating point.
-/
namespace Geo
section
variable {K : Type} [Field K] [LinearOrder K] [IsStrictOrderedRing K] {env : Env K} {a : Arith K}

theorem round_gap {r : K → Num K} {e : K} (hr : ∀ x, 0 ≤ x → x ≤ 1 → |(r x).toK - x| ≤ e) {x y : K}
    (hx : 0 ≤ x ∧ x ≤ 1) (hy : 0 ≤ y ∧ y ≤ 1) : |(r x).toK - (r y).toK| ≤ |x - y| + 2 * e := by
  have h1 := hr x hx.1 hx.2
  have h2 := hr y hy.1 hy.2
  rw [abs_le] at *
  have := abs_le.1 (le_refl |x - y|)
  constructor <;> linarith

theorem sq_gap {x y : K} (hx : 0 ≤ x ∧ x ≤ 1) (hy : 0 ≤ y ∧ y ≤ 1) : |x * x - y * y| ≤ 2 * |x - y| := by
  have : x * x - y * y = (x + y) * (x - y) := by ring
  rw [this, abs_mul, abs_of_nonneg (by linarith)]
  exact mul_le_mul_of_nonneg_right (by linarith) (abs_nonneg _)

theorem cube_gap {x y : K} (hx : 0 ≤ x ∧ x ≤ 1) (hy : 0 ≤ y ∧ y ≤ 1) : |x * x * x - y * y * y| ≤ 3 * |x - y| := by
  have : x * x * x - y * y * y = (x * x + x * y + y * y) * (x - y) := by ring
  have h1 := sq_unit hx.1 hx.2
  have h2 := sq_unit hy.1 hy.2
  have h3 : 0 ≤ x * y := mul_nonneg hx.1 hy.1
  have h4 : x * y ≤ 1 := mul_le_one₀ hx.2 hy.1 hy.2
  rw [this, abs_mul, abs_of_nonneg (by linarith)]
  exact mul_le_mul_of_nonneg_right (by linarith) (abs_nonneg _)

/-- the rounded shapes are Lipschitz up to their roundings -/
theorem shapeR_gap (ha : a.Ok) {name : String} (hn : name ∈ ["linear", "bisquare", "tricube"]) {e : K} (e0 : 0 ≤ e)
    (hop : ∀ x, 0 ≤ x → x ≤ 1 → |(a.op x).toK - x| ≤ e) (hpow : ∀ x, 0 ≤ x → x ≤ 1 → |(a.pow x).toK - x| ≤ e)
    {x y : K} (hx : 0 ≤ x ∧ x ≤ 1) (hy : 0 ≤ y ∧ y ≤ 1) :
    |shapeR a name x - shapeR a name y| ≤ 9 * |x - y| + 14 * e := by
  have n0 := abs_nonneg (x - y)
  have one : ∀ {u v : K}, 0 ≤ u ∧ u ≤ 1 → 0 ≤ v ∧ v ≤ 1 →
      |(a.op (1 - u)).toK - (a.op (1 - v)).toK| ≤ |u - v| + 2 * e := by
    intro u v hu hv
    have := round_gap hop (x := 1 - u) (y := 1 - v) ⟨by linarith [hu.2], by linarith [hu.1]⟩
      ⟨by linarith [hv.2], by linarith [hv.1]⟩
    rwa [show 1 - u - (1 - v) = v - u by ring, abs_sub_comm v u] at this
  have sub : ∀ {u : K}, 0 ≤ u ∧ u ≤ 1 → 0 ≤ (a.op (1 - u)).toK ∧ (a.op (1 - u)).toK ≤ 1 := fun hu =>
    (ha.op.fin_of_unit (by linarith [hu.2]) (by linarith [hu.1])).2
  rcases (by simpa using hn) with rfl | rfl | rfl
  · have := one hx hy
    simp only [shapeR, if_true]
    linarith
  · have sx := (ha.op.fin_of_unit (sq_unit hx.1 hx.2).1 (sq_unit hx.1 hx.2).2).2
    have sy := (ha.op.fin_of_unit (sq_unit hy.1 hy.2).1 (sq_unit hy.1 hy.2).2).2
    have g1 := round_gap hop (sq_unit hx.1 hx.2) (sq_unit hy.1 hy.2)
    have g2 := one sx sy
    have g3 := round_gap hop (sq_unit (sub sx).1 (sub sx).2) (sq_unit (sub sy).1 (sub sy).2)
    have g4 := sq_gap hx hy
    have g5 := sq_gap (sub sx) (sub sy)
    simp only [shapeR, if_true, show ("bisquare" : String) ≠ "linear" by decide, if_false]
    linarith
  · have sx := (ha.pow.fin_of_unit (cube_unit hx.1 hx.2).1 (cube_unit hx.1 hx.2).2).2
    have sy := (ha.pow.fin_of_unit (cube_unit hy.1 hy.2).1 (cube_unit hy.1 hy.2).2).2
    have g1 := round_gap hpow (cube_unit hx.1 hx.2) (cube_unit hy.1 hy.2)
    have g2 := one sx sy
    have g3 := round_gap hpow (cube_unit (sub sx).1 (sub sx).2) (cube_unit (sub sy).1 (sub sy).2)
    have g4 := cube_gap hx hy
    have g5 := cube_gap (sub sx) (sub sy)
    simp only [shapeR, if_true, show ("tricube" : String) ≠ "linear" by decide,
      show ("tricube" : String) ≠ "bisquare" by decide, if_false]
    linarith

/-- C187: in any other unit, the weight of the linear, bisquare and tricube kernels changes by a few roundings only, at
the edge of the support as well. `ε` bounds the relative error of the conversion, `e` the error of a rounding in [0, 1]. -/
theorem C187_bound (ha : a.Ok) (lazy : Bool) {name : String} (hn : name ∈ ["linear", "bisquare", "tricube"])
    {c d b d' b' e ε : K} (c0 : 0 < c) (d0 : 0 ≤ d) (b0 : 0 < b) (e0 : 0 ≤ e) (ε0 : 0 ≤ ε) (ε1 : ε ≤ 1 / 2)
    (h1 : a.op (c * d) = .fin d') (h2 : a.op (c * b) = .fin b')
    (hd : |d' - c * d| ≤ ε * (c * d)) (hb : |b' - c * b| ≤ ε * (c * b))
    (hop : ∀ x, 0 ≤ x → x ≤ 1 → |(a.op x).toK - x| ≤ e) (hpow : ∀ x, 0 ≤ x → x ≤ 1 → |(a.pow x).toK - x| ≤ e) :
    ∃ w w', kernelWeightR env a lazy name d b = .ok (.fin w) ∧ kernelWeightR env a lazy name d' b' = .ok (.fin w') ∧
      |w - w'| ≤ 36 * ε + 32 * e := by
  have hc : name ∈ compactKernels := by
    rcases (by simpa using hn) with rfl | rfl | rfl <;> decide
  have cb : 0 < c * b := mul_pos c0 b0
  have cd : 0 ≤ c * d := mul_nonneg c0.le d0
  obtain ⟨hb1, hb2⟩ := abs_le.1 hb
  obtain ⟨hd1, hd2⟩ := abs_le.1 hd
  have b0' : 0 < b' := by nlinarith
  have d0' : 0 ≤ d' := by nlinarith
  rcases lt_or_ge b d with hlt | hle
  · refine ⟨0, 0, kernelR_beyond ha lazy hc b0.le hlt, C187_beyond ha lazy hn c0.le hlt.le h1 h2 b0', ?_⟩
    rw [sub_self, abs_zero]
    linarith
  · have hle' : d' ≤ b' := by
      have := ha.op.mono _ _ (mul_le_mul_of_nonneg_left hle c0.le)
      rw [h1, h2] at this
      exact this
    obtain ⟨y, hy, y0, y1, hw⟩ := kernelR_inside (env := env) ha lazy hc d0 hle
    obtain ⟨y', hy', y0', y1', hw'⟩ := kernelR_inside (env := env) ha lazy hc d0' hle'
    refine ⟨_, _, hw, hw', (shapeR_gap ha hn e0 hop hpow ⟨y0, y1⟩ ⟨y0', y1'⟩).trans ?_⟩
    have val : ∀ {d b y : K}, 0 ≤ d → 0 < b → d ≤ b → normalizeDistanceR env a d b = .fin y → y = (a.op (d / b)).toK := by
      intro d b y d0 b0 hle hy
      simp only [normalizeDistanceR, Num.div, b0.ne', if_false, Num.rnd] at hy
      rw [(ha.op.fin_of_unit (div_nonneg d0 b0.le) ((div_le_one b0).2 hle)).1] at hy
      exact (Num.fin.inj hy).symm
    have u := (⟨div_nonneg d0 b0.le, (div_le_one b0).2 hle⟩ : 0 ≤ d / b ∧ d / b ≤ 1)
    have u' := (⟨div_nonneg d0' b0'.le, (div_le_one b0').2 hle'⟩ : 0 ≤ d' / b' ∧ d' / b' ≤ 1)
    have g := round_gap hop u u'
    rw [← val d0 b0 hle hy, ← val d0' b0' hle' hy'] at g
    have q : |d / b - d' / b'| ≤ 4 * ε := by
      have e1 : d / b - d' / b' = ((c * d) * b' - d' * (c * b)) / (c * b * b') := by
        field_simp
      rw [e1, abs_div, abs_of_pos (mul_pos cb b0'), div_le_iff₀ (mul_pos cb b0')]
      have e2 : (c * d) * b' - d' * (c * b) = (c * d) * (b' - c * b) - (d' - c * d) * (c * b) := by ring
      have hdb : c * d ≤ c * b := mul_le_mul_of_nonneg_left hle c0.le
      have t1 : |(c * d) * (b' - c * b)| ≤ (c * b) * (ε * (c * b)) := by
        rw [abs_mul, abs_of_nonneg cd]
        exact mul_le_mul hdb hb (abs_nonneg _) cb.le
      have t2 : |(d' - c * d) * (c * b)| ≤ ε * (c * b) * (c * b) := by
        rw [abs_mul, abs_of_pos cb]
        exact mul_le_mul_of_nonneg_right (hd.trans (mul_le_mul_of_nonneg_left hdb ε0)) cb.le
      have t3 := abs_sub ((c * d) * (b' - c * b)) ((d' - c * d) * (c * b))
      have hbb : c * b / 2 ≤ b' := by nlinarith
      have t4 : 4 * ε * (c * b * (c * b / 2)) ≤ 4 * ε * (c * b * b') :=
        mul_le_mul_of_nonneg_left (mul_le_mul_of_nonneg_left hbb cb.le) (by linarith)
      rw [e2]
      calc _ ≤ |(c * d) * (b' - c * b)| + |(d' - c * d) * (c * b)| := t3
        _ ≤ 4 * ε * (c * b * (c * b / 2)) := by linarith
        _ ≤ _ := t4
    linarith

end

section
variable {K : Type} [Field K] [LinearOrder K] [IsStrictOrderedRing K] [FloorRing K]

/-- C187: in double precision no weight of the linear, bisquare and tricube kernels changes by more than `2⁻⁴⁶` with the
unit, if the converted distances and bandwidths are normal numbers. -/
theorem C187_double (env : Env K) (lazy : Bool) {name : String} (hn : name ∈ ["linear", "bisquare", "tricube"])
    {c d b : K} (c0 : 0 < c) (d0 : 0 ≤ d) (b0 : 0 < b) (hd : d = 0 ∨ 2 ^ double.emin ≤ c * d)
    (hb : 2 ^ double.emin ≤ c * b) (hdM : c * d ≤ double.maxFinite K) (hbM : c * b ≤ double.maxFinite K) :
    ∃ w w', kernelWeightR env double.arith lazy name d b = .ok (.fin w) ∧
      kernelWeightR env double.arith lazy name (double.round (c * d)) (double.round (c * b)) = .ok (.fin w') ∧
      |w - w'| ≤ 1 / 2 ^ 46 := by
  have hA := Fmt.arith_accurate (K := K) double_ok
  have eε : (2 : K) ^ (-(double.frac + 1 : ℤ)) = 1 / 2 ^ 53 := by
    have : (-(double.frac + 1 : ℤ)) = -53 := rfl
    rw [this, zpow_neg, ← one_div]; norm_cast
  have eη : (2 : K) ^ (double.emin - double.frac - 1) = 1 / 2 ^ 1075 := by
    have : (double.emin - double.frac - 1 : ℤ) = -1075 := rfl
    rw [this, zpow_neg, ← one_div]; norm_cast
  rw [eε, eη] at hA
  have hη : (1 : K) / 2 ^ 1075 ≤ 1 / 2 ^ 53 :=
    one_div_le_one_div_of_le (by positivity) (pow_le_pow_right₀ (by norm_num) (by norm_num))
  have hop : ∀ x : K, 0 ≤ x → x ≤ 1 → |((double.arith : Arith K).op x).toK - x| ≤ 2 / 2 ^ 53 := by
    intro x x0 x1
    obtain ⟨z, h1, h2⟩ := hA.unit x x0 x1
    rw [h1]
    refine h2.trans ?_
    have : (1 : K) / 2 ^ 53 * x ≤ 1 / 2 ^ 53 := mul_le_of_le_one_right (by positivity) x1
    generalize (1 : K) / 2 ^ 1075 = η at hη
    have e2 : (2 : K) / 2 ^ 53 = 1 / 2 ^ 53 + 1 / 2 ^ 53 := by ring
    rw [e2]
    exact add_le_add this hη
  have cd : 0 ≤ c * d := mul_nonneg c0.le d0
  have cb : 0 < c * b := mul_pos c0 b0
  have rel : ∀ x : K, 0 ≤ x → 2 ^ double.emin ≤ x → |double.round x - x| ≤ 1 / 2 ^ 53 * x := by
    intro x x0 hx
    have := double.round_relative (x := x) (by rwa [abs_of_nonneg x0])
    rwa [abs_of_nonneg x0, eε] at this
  obtain ⟨w, w', h1, h2, h3⟩ := C187_bound (env := env) (Fmt.arith_ok double_ok) lazy hn c0 d0 b0
    (e := 2 / 2 ^ 53) (ε := 1 / 2 ^ 53) (by positivity) (by positivity) (by norm_num)
    (Fmt.toNum_fin double_ok (by rwa [abs_of_nonneg cd])) (Fmt.toNum_fin double_ok (by rwa [abs_of_pos cb]))
    (by
      rcases hd with rfl | hd
      · simp [Fmt.round_zero]
      · exact rel _ cd hd) (rel _ cb.le hb) hop hop
  exact ⟨w, w', h1, h2, h3.trans (by norm_num)⟩

end

/-- The hypotheses of `C187_double` hold at the edge of the support, from metres to kilometres. -/
example : ∃ w w' : ℚ, kernelWeightR stepEnv double.arith false "bisquare" (15699 / 1000) (157 / 10) = .ok (.fin w) ∧
    kernelWeightR stepEnv double.arith false "bisquare" (double.round (1 / 1000 * (15699 / 1000)))
      (double.round (1 / 1000 * (157 / 10))) = .ok (.fin w') ∧ |w - w'| ≤ 1 / 2 ^ 46 :=
  C187_double stepEnv false (by decide) (by norm_num) (by norm_num) (by norm_num) (.inr (by decide +kernel))
    (by decide +kernel) (by decide +kernel) (by decide +kernel)

end Geo
