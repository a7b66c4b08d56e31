import Verif.Model.RoundedGreatCircle
import Verif.Props.GreatCircle
import Verif.Props.Floats
import Mathlib.Analysis.Real.Pi.Bounds
import Mathlib.Analysis.SpecialFunctions.Trigonometric.Bounds
set_option linter.unusedSectionVars false
/-
C178: great-circle distances in floating point.
-/
namespace Geo
open Real

/-- What is used of the mathematical library: the functions have the symmetry and range of the true ones, and the
cosine of a latitude is not negative. -/
structure Libm.Ok (m : Libm) : Prop where
  rad_neg : ∀ x, m.rad (-x) = -m.rad x
  sin_neg : ∀ x, m.sin (-x) = -m.sin x
  sin_le : ∀ x, |m.sin x| ≤ 1
  cos_le : ∀ x, |m.cos x| ≤ 1
  cos_lat : ∀ x, |x| ≤ 90 → 0 ≤ m.cos (m.rad x)
  asin_zero : m.asin 0 = 0
  asin_mono : ∀ x y, 0 ≤ x → x ≤ y → y ≤ 1 → m.asin x ≤ m.asin y

theorem Libm.Ok.sin_zero {m : Libm} (h : m.Ok) : m.sin 0 = 0 := by
  have := h.sin_neg 0
  rw [neg_zero] at this
  linarith

theorem Libm.Ok.rad_zero {m : Libm} (h : m.Ok) : m.rad 0 = 0 := by
  have := h.rad_neg 0
  rw [neg_zero] at this
  linarith

/-- C178: the computed distance is symmetric, to the last bit. -/
theorem C178_symmetric (F : Fmt) (m : Libm) (h : m.Ok) (p q : ℝ × ℝ) :
    greatCircleF F m p q = greatCircleF F m q p := by
  have e (a b : ℝ) : sqF F (m.sin (F.round (m.rad (F.round (a - b)) / 2))) =
      sqF F (m.sin (F.round (m.rad (F.round (b - a)) / 2))) := by
    rw [← neg_sub b a, Fmt.round_neg, h.rad_neg, neg_div, Fmt.round_neg, h.sin_neg, sqF, sqF, neg_mul_neg]
  have e2 : haversineF F m p q = haversineF F m q p := by
    unfold haversineF
    dsimp only
    rw [e q.2 p.2, e q.1 p.1, mul_comm (m.cos (m.rad q.2))]
  unfold greatCircleF
  rw [e2]

/-- C178: a point is at distance zero from itself. -/
theorem C178_self (F : Fmt) (m : Libm) (h : m.Ok) (p : ℝ × ℝ) : greatCircleF F m p p = some 0 := by
  have e : haversineF F m p p = 0 := by
    unfold haversineF sqF
    simp only [sub_self, Fmt.round_zero, h.rad_zero, zero_div, h.sin_zero, mul_zero, add_zero]
  unfold greatCircleF
  dsimp only
  rw [e, sqrt_zero, Fmt.round_zero, h.asin_zero, mul_zero, Fmt.round_zero, mul_zero, Fmt.round_zero]
  norm_num

theorem rnd_nonneg (F : Fmt) {x : ℝ} (x0 : 0 ≤ x) : 0 ≤ F.round x := by
  have := F.round_mono x0
  rwa [Fmt.round_zero] at this

theorem rnd_one (F : Fmt) (hF : F.emin ≤ F.frac) : F.round (1 : ℝ) = 1 := by
  have := F.round_int (K := ℝ) hF 1 (by rw [abs_one]; exact one_le_pow₀ (by norm_num))
  simpa using this

theorem rnd_le_one (F : Fmt) (hF : F.emin ≤ F.frac) {x : ℝ} (h : x ≤ 1) : F.round x ≤ 1 := by
  have := F.round_mono h
  rwa [rnd_one F hF] at this

/-- The rounding error of a number in [0, 1]. -/
theorem rnd_le (F : Fmt) (hF : F.emin ≤ 0) {x : ℝ} (h0 : 0 ≤ x) (h1 : x ≤ 1) :
    F.round x ≤ x + 2 ^ (-(F.frac + 1 : ℤ)) := by
  have u0 : (0 : ℝ) < 2 ^ (-(F.frac + 1 : ℤ)) := Fmt.two_zpow_pos _
  have ux : x * 2 ^ (-(F.frac + 1 : ℤ)) ≤ 2 ^ (-(F.frac + 1 : ℤ)) := mul_le_of_le_one_left u0.le h1
  rcases le_or_gt ((2 : ℝ) ^ F.emin) |x| with h | h
  · have := (abs_le.1 (F.round_relative h)).2
    rw [abs_of_nonneg h0] at this
    linarith
  · have h2 : |x| < 2 ^ (F.emin + 1) := h.trans (zpow_lt_zpow_right₀ (by norm_num) (by omega))
    have := (abs_le.1 (F.round_subnormal h2)).2
    have e : (2 : ℝ) ^ (F.emin - F.frac - 1) ≤ 2 ^ (-(F.frac + 1 : ℤ)) :=
      zpow_le_zpow_right₀ (by norm_num) (by omega)
    linarith

theorem sq_sin_mem (F : Fmt) (hF : F.emin ≤ F.frac) (m : Libm) (h : m.Ok) (x : ℝ) :
    0 ≤ sqF F (m.sin x) ∧ sqF F (m.sin x) ≤ 1 := by
  have := abs_le.1 (h.sin_le x)
  exact ⟨rnd_nonneg F (mul_self_nonneg _), rnd_le_one F hF (by nlinarith)⟩

theorem haversineF_nonneg (F : Fmt) (hF : F.emin ≤ F.frac) (m : Libm) (h : m.Ok) (p q : ℝ × ℝ) (hp : |p.2| ≤ 90)
    (hq : |q.2| ≤ 90) : 0 ≤ haversineF F m p q :=
  rnd_nonneg F (add_nonneg (sq_sin_mem F hF m h _).1
    (rnd_nonneg F (mul_nonneg (rnd_nonneg F (mul_nonneg (h.cos_lat _ hq) (h.cos_lat _ hp)))
      (sq_sin_mem F hF m h _).1)))

/-- The root forgives one unit in the last place: a haversine argument of up to the float after 1 is as good as 1. -/
theorem root_le_one (F : Fmt) (hF : F.emin ≤ 0) {a : ℝ} (h : a ≤ 1 + 2 ^ (-(F.frac : ℤ))) : F.round √a ≤ 1 := by
  have u0 : (0 : ℝ) < 2 ^ (-(F.frac : ℤ)) := Fmt.two_zpow_pos _
  have eu : (2 : ℝ) ^ (-(F.frac : ℤ)) = 2 * 2 ^ (-(F.frac + 1 : ℤ)) := by
    rw [show (-(F.frac : ℤ)) = 1 + -(F.frac + 1 : ℤ) by omega, zpow_add₀ (by norm_num), zpow_one]
  have v0 : (0 : ℝ) < 2 ^ (-(F.frac + 1 : ℤ)) := Fmt.two_zpow_pos _
  rcases le_or_gt √a 1 with h1 | h1
  · exact rnd_le_one F (by omega) h1
  · have h2 : √a < 1 + 2 ^ (-(F.frac + 1 : ℤ)) := by
      rw [sqrt_lt' (by linarith)]
      nlinarith
    have hv : (2 : ℝ) ^ (-(F.frac + 1 : ℤ)) ≤ 1 := zpow_le_one_of_nonpos₀ (by norm_num) (by omega)
    have hu : F.ulp √a = 2 ^ (-(F.frac : ℤ)) := by
      have := F.ulp_binade (x := √a) (k := 0) hF (by rw [abs_of_pos (by linarith), zpow_zero]; exact h1.le)
        (by rw [abs_of_pos (by linarith), zero_add, zpow_one]; linarith)
      rw [this, zero_sub]
    have hn := F.round_nearest √a 1 ⟨1, 0, by
      rw [abs_one]; exact one_le_pow₀ (by norm_num), by omega, by simp⟩
    have h3 := (abs_le.1 hn).2
    rw [abs_sub_comm, abs_of_pos (by linarith)] at h3
    -- the rounded root is a multiple of the spacing, below the next float
    by_contra h4
    rw [not_le] at h4
    have e5 : F.round √a = nearestEven (√a / F.ulp √a) * F.ulp √a := rfl
    rw [hu] at e5
    set k := nearestEven (√a / 2 ^ (-(F.frac : ℤ))) with hk
    have one : (1 : ℝ) = (2 ^ F.frac : ℤ) * 2 ^ (-(F.frac : ℤ)) := by
      push_cast
      rw [← zpow_natCast, ← zpow_add₀ (by norm_num), add_neg_cancel, zpow_zero]
    rw [e5, one] at h4
    have h5 : ((2 ^ F.frac : ℤ) : ℝ) < k := lt_of_mul_lt_mul_right h4 u0.le
    have h6 : (2 ^ F.frac : ℤ) + 1 ≤ k := by exact_mod_cast h5
    have h7 : (((2 ^ F.frac : ℤ) + 1 : ℤ) : ℝ) ≤ k := by exact_mod_cast h6
    have h8 := mul_le_mul_of_nonneg_right h7 u0.le
    rw [Int.cast_add, add_mul, ← one, Int.cast_one, one_mul, ← e5] at h8
    linarith

/-- C178: when the distance is not NaN: if the haversine argument does not come out beyond the float after 1. It is
then between zero and the computed half circumference. -/
theorem C178_defined (F : Fmt) (hF : F.emin ≤ 0) (m : Libm) (h : m.Ok) (p q : ℝ × ℝ) (hp : |p.2| ≤ 90)
    (hq : |q.2| ≤ 90) (ha : haversineF F m p q ≤ 1 + 2 ^ (-(F.frac : ℤ))) :
    ∃ d, greatCircleF F m p q = some d ∧ 0 ≤ d ∧ d ≤ F.round (6371 * F.round (2 * m.asin 1)) := by
  have a0 := haversineF_nonneg F (by omega) m h p q hp hq
  have r1 := root_le_one F hF ha
  have r0 : 0 ≤ F.round √(haversineF F m p q) := rnd_nonneg F (sqrt_nonneg _)
  unfold greatCircleF
  dsimp only
  rw [if_neg (not_lt.2 a0), if_neg (not_lt.2 r1)]
  have s0 := h.asin_mono _ _ le_rfl r0 r1
  rw [h.asin_zero] at s0
  have s1 := h.asin_mono _ _ r0 r1 le_rfl
  refine ⟨_, rfl, rnd_nonneg F (mul_nonneg (by norm_num) (rnd_nonneg F (by linarith))), F.round_mono ?_⟩
  exact mul_le_mul_of_nonneg_left (F.round_mono (by linarith)) (by norm_num)

/-- C178: and if it comes out further beyond, at the second float after 1 or later, the distance is NaN. -/
theorem C178_nan (F : Fmt) (hF : F.emin ≤ 0) (m : Libm) (p q : ℝ × ℝ)
    (ha : 1 + 2 * 2 ^ (-(F.frac : ℤ)) ≤ haversineF F m p q) : greatCircleF F m p q = none := by
  have u0 : (0 : ℝ) < 2 ^ (-(F.frac : ℤ)) := Fmt.two_zpow_pos _
  have u1 : (2 : ℝ) ^ (-(F.frac : ℤ)) ≤ 1 := zpow_le_one_of_nonpos₀ (by norm_num) (by omega)
  unfold greatCircleF
  dsimp only
  rw [if_neg (by linarith), if_pos]
  set a := haversineF F m p q
  have hr : 1 + 2 ^ (-(F.frac : ℤ)) / 2 < √a := by
    rw [lt_sqrt (by linarith)]
    nlinarith
  by_contra h1
  rw [not_lt] at h1
  have hn := F.round_nearest √a (1 + 2 ^ (-(F.frac : ℤ))) ⟨2 ^ F.frac + 1, -(F.frac : ℤ), by
    rw [abs_of_nonneg (by positivity), pow_succ]
    have : (1 : ℤ) ≤ 2 ^ F.frac := one_le_pow₀ (by norm_num)
    linarith, by omega, by
    push_cast
    rw [add_mul, one_mul, ← zpow_natCast, ← zpow_add₀ (by norm_num), add_neg_cancel, zpow_zero]⟩
  have h2 := neg_abs_le (F.round √a - √a)
  rcases abs_cases (1 + 2 ^ (-(F.frac : ℤ)) - √a) with ⟨e, -⟩ | ⟨e, -⟩ <;> rw [e] at hn <;> linarith

/-- The computed sines and cosines of two points are within `d` of the true ones, rounded arguments included. -/
structure NearTrig (F : Fmt) (m : Libm) (d : ℝ) (p q : ℝ × ℝ) : Prop where
  lat : |m.sin (F.round (m.rad (F.round (q.2 - p.2)) / 2)) - Real.sin (radians (q.2 - p.2) / 2)| ≤ d
  lon : |m.sin (F.round (m.rad (F.round (q.1 - p.1)) / 2)) - Real.sin (radians (q.1 - p.1) / 2)| ≤ d
  one : |m.cos (m.rad p.2) - Real.cos (radians p.2)| ≤ d
  many : |m.cos (m.rad q.2) - Real.cos (radians q.2)| ≤ d

theorem sq_near {x y d : ℝ} (hx : |x| ≤ 1) (hy : |y| ≤ 1) (h : |x - y| ≤ d) : x * x ≤ y ^ 2 + 2 * d := by
  have e : x * x - y ^ 2 = (x - y) * (x + y) := by ring
  have h1 : |x + y| ≤ 2 := (abs_add_le x y).trans (by linarith)
  have h2 : |(x - y) * (x + y)| ≤ d * 2 := by
    rw [abs_mul]
    exact mul_le_mul h h1 (abs_nonneg _) ((abs_nonneg _).trans h)
  rw [← e] at h2
  linarith [(abs_le.1 h2).2]

/-- C178: the distance of two points that are not nearly antipodal is never NaN, nearly meaning the error of the
sines and cosines and two roundings. -/
theorem C178_away_from_antipode (F : Fmt) (hF : F.emin ≤ 0) (m : Libm) (h : m.Ok) (p q : ℝ × ℝ) (hp : |p.2| ≤ 90)
    (hq : |q.2| ≤ 90) (d : ℝ) (hd : NearTrig F m d p q)
    (ha : haversineArg p q + 6 * d + 2 * 2 ^ (-(F.frac + 1 : ℤ)) ≤ 1) :
    ∃ v, greatCircleF F m p q = some v ∧ 0 ≤ v ∧ v ≤ F.round (6371 * F.round (2 * m.asin 1)) := by
  refine C178_defined F hF m h p q hp hq ?_
  have eu : (2 : ℝ) ^ (-(F.frac : ℤ)) = 2 * 2 ^ (-(F.frac + 1 : ℤ)) := by
    rw [show (-(F.frac : ℤ)) = 1 + -(F.frac + 1 : ℤ) by omega, zpow_add₀ (by norm_num), zpow_one]
  have hv : (0 : ℝ) < 2 ^ (-(F.frac + 1 : ℤ)) := Fmt.two_zpow_pos _
  have key : haversineF F m p q ≤ F.round (1 + 2 ^ (-(F.frac : ℤ))) := by
    refine F.round_mono ?_
    rw [eu]
    have vp : ValidPoint p := abs_le.1 hp
    have vq : ValidPoint q := abs_le.1 hq
    have c1 := cos_lat_nonneg vp
    have c2 := cos_lat_nonneg vq
    have k1 := cos_le_one (radians p.2)
    have k2 := cos_le_one (radians q.2)
    have C1 := h.cos_lat _ hp
    have C2 := h.cos_lat _ hq
    have K1 := (abs_le.1 (h.cos_le (m.rad p.2))).2
    have K2 := (abs_le.1 (h.cos_le (m.rad q.2))).2
    have d1 := (abs_le.1 hd.one).2
    have d2 := (abs_le.1 hd.many).2
    have s1 := sq_near (h.sin_le _) (abs_sin_le_one _) hd.lat
    have s2 := sq_near (h.sin_le _) (abs_sin_le_one _) hd.lon
    have b1 := abs_le.1 (h.sin_le (F.round (m.rad (F.round (q.2 - p.2)) / 2)))
    have b2 := abs_le.1 (h.sin_le (F.round (m.rad (F.round (q.1 - p.1)) / 2)))
    have t2 := sin_sq_le_one (radians (q.1 - p.1) / 2)
    have t0 := sq_nonneg (sin (radians (q.1 - p.1) / 2))
    have d0 : 0 ≤ d := (abs_nonneg _).trans hd.one
    unfold haversineArg at ha
    dsimp only at ha ⊢
    generalize m.sin (F.round (m.rad (F.round (q.2 - p.2)) / 2)) = S1 at *
    generalize m.sin (F.round (m.rad (F.round (q.1 - p.1)) / 2)) = S2 at *
    generalize m.cos (m.rad p.2) = X at *
    generalize m.cos (m.rad q.2) = Y at *
    generalize cos (radians p.2) = x at *
    generalize cos (radians q.2) = y at *
    generalize sin (radians (q.1 - p.1) / 2) ^ 2 = t at *
    generalize sin (radians (q.2 - p.2) / 2) ^ 2 = s at *
    have A : sqF F S1 ≤ S1 * S1 + 2 ^ (-(F.frac + 1 : ℤ)) := rnd_le F hF (mul_self_nonneg _) (by nlinarith)
    have B : sqF F S2 ≤ S2 * S2 + 2 ^ (-(F.frac + 1 : ℤ)) := rnd_le F hF (mul_self_nonneg _) (by nlinarith)
    have B0 : 0 ≤ sqF F S2 := rnd_nonneg F (mul_self_nonneg _)
    have B1 : sqF F S2 ≤ 1 := rnd_le_one F (by omega) (by nlinarith)
    have YX1 : Y * X ≤ 1 := mul_le_one₀ K2 C1 K1
    have YX0 : 0 ≤ Y * X := mul_nonneg C2 C1
    have Cc : F.round (Y * X) ≤ Y * X + 2 ^ (-(F.frac + 1 : ℤ)) := rnd_le F hF YX0 YX1
    have C0 : 0 ≤ F.round (Y * X) := rnd_nonneg F YX0
    have Cm : F.round (Y * X) ≤ 1 := rnd_le_one F (by omega) YX1
    have P := rnd_le F hF (mul_nonneg C0 B0) (mul_le_one₀ Cm B0 B1)
    generalize (2 : ℝ) ^ (-(F.frac + 1 : ℤ)) = u at *
    generalize F.round (F.round (Y * X) * sqF F S2) = G at *
    generalize sqF F S1 = G1 at *
    generalize sqF F S2 = G2 at *
    generalize F.round (Y * X) = G3 at *
    -- the product of the two cosines
    have w1 : Y * X ≤ y * x + 2 * d := by
      have i1 : Y * X ≤ (y + d) * X := mul_le_mul_of_nonneg_right (by linarith) C1
      have i2 : y * X ≤ y * (x + d) := mul_le_mul_of_nonneg_left (by linarith) c2
      have i3 : d * X ≤ d := mul_le_of_le_one_right d0 K1
      have i4 : y * d ≤ d := mul_le_of_le_one_left d0 k2
      nlinarith
    have w2 : G3 * G2 ≤ Y * X * G2 + u := by
      have i1 : G3 * G2 ≤ (Y * X + u) * G2 := mul_le_mul_of_nonneg_right Cc B0
      have i2 : u * G2 ≤ u := mul_le_of_le_one_right hv.le B1
      nlinarith
    have w3 : Y * X * G2 ≤ Y * X * (S2 * S2) + u := by
      have i1 : Y * X * G2 ≤ Y * X * (S2 * S2 + u) := mul_le_mul_of_nonneg_left B YX0
      have i2 : Y * X * u ≤ u := mul_le_of_le_one_left hv.le YX1
      nlinarith
    have w4 : Y * X * (S2 * S2) ≤ Y * X * t + 2 * d := by
      have i1 : Y * X * (S2 * S2) ≤ Y * X * (t + 2 * d) := mul_le_mul_of_nonneg_left s2 YX0
      have i2 : Y * X * (2 * d) ≤ 2 * d := mul_le_of_le_one_left (by linarith) YX1
      nlinarith
    have w5 : Y * X * t ≤ y * x * t + 2 * d := by
      have i1 : Y * X * t ≤ (y * x + 2 * d) * t := mul_le_mul_of_nonneg_right w1 t0
      have i2 : 2 * d * t ≤ 2 * d := mul_le_of_le_one_right (by linarith) t2
      nlinarith
    linarith
  have hf : F.round (1 + 2 ^ (-(F.frac : ℤ)) : ℝ) = 1 + 2 ^ (-(F.frac : ℤ)) := by
    refine F.round_float _ ⟨2 ^ F.frac + 1, -(F.frac : ℤ), ?_, by omega, ?_⟩
    · rw [abs_of_nonneg (by positivity), pow_succ]
      have : (1 : ℤ) ≤ 2 ^ F.frac := one_le_pow₀ (by norm_num)
      linarith
    · push_cast
      rw [add_mul, one_mul, ← zpow_natCast, ← zpow_add₀ (by norm_num), add_neg_cancel, zpow_zero]
  rwa [hf] at key

/-- a library that computes the functions exactly -/
noncomputable def exactLibm : Libm := ⟨radians, Real.sin, Real.cos, arcsin⟩

theorem exactLibm_ok : exactLibm.Ok where
  rad_neg x := by show radians (-x) = -radians x; unfold radians; ring
  sin_neg := Real.sin_neg
  sin_le := abs_sin_le_one
  cos_le := abs_cos_le_one
  cos_lat x h := cos_lat_nonneg (p := (0, x)) (abs_le.1 h)
  asin_zero := arcsin_zero
  asin_mono _ _ _ h _ := monotone_arcsin h

/-- The hypotheses of `C178_away_from_antipode` hold in double precision of two points a quarter turn apart on the
equator. -/
example : NearTrig double exactLibm (2 ^ (-53 : ℤ)) (0, 0) (90, 0) ∧
    haversineArg (0, 0) (90, 0) + 6 * 2 ^ (-53 : ℤ) + 2 * 2 ^ (-(double.frac + 1 : ℤ)) ≤ 1 := by
  have r : radians (90 - 0) / 2 = π / 4 := by unfold radians; ring
  have f90 : double.round (90 - 0 : ℝ) = 90 - 0 := by
    have := double.round_int (K := ℝ) (by decide) 90 (by decide)
    norm_num at this ⊢
    exact this
  have z : exactLibm.sin (double.round (exactLibm.rad (double.round (0 - 0)) / 2)) = 0 := by
    rw [sub_zero, Fmt.round_zero, exactLibm_ok.rad_zero, zero_div, Fmt.round_zero, exactLibm_ok.sin_zero]
  have rz : radians (0 - 0) / 2 = 0 := by unfold radians; norm_num
  have pos : (0 : ℝ) < 2 ^ (-53 : ℤ) := by positivity
  refine ⟨⟨?_, ?_, ?_, ?_⟩, ?_⟩
  · show |exactLibm.sin (double.round (exactLibm.rad (double.round (0 - 0)) / 2)) - Real.sin (radians (0 - 0) / 2)| ≤ _
    rw [z, rz, Real.sin_zero, sub_zero, abs_zero]
    exact pos.le
  · show |Real.sin (double.round (radians (double.round (90 - 0)) / 2)) - Real.sin (radians (90 - 0) / 2)| ≤ _
    rw [f90, r]
    refine (Real.abs_sin_sub_sin_le _ _).trans ?_
    have hpi := pi_gt_three
    have hpi4 := pi_lt_four
    have hc := double.round_close (π / 4)
    have hu := double.ulp_binade (x := π / 4) (k := -1) (by decide)
      (by rw [abs_of_pos (by linarith)]; norm_num; linarith) (by rw [abs_of_pos (by linarith)]; norm_num; linarith)
    rw [hu] at hc
    refine hc.trans ?_
    norm_num [double]
  · show |Real.cos (radians 0) - Real.cos (radians 0)| ≤ _
    rw [sub_self, abs_zero]; exact pos.le
  · show |Real.cos (radians 0) - Real.cos (radians 0)| ≤ _
    rw [sub_self, abs_zero]; exact pos.le
  · have e : haversineArg (0, 0) (90, 0) = 1 / 2 := by
      unfold haversineArg
      dsimp only
      rw [r, rz, Real.sin_zero, sin_pi_div_four, show radians 0 = 0 by unfold radians; ring, Real.cos_zero, div_pow,
        sq_sqrt (by norm_num)]
      norm_num
    rw [e]
    norm_num [double]

end Geo
