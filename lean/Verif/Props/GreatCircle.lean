import Verif.Model.GreatCircle
import Mathlib.Geometry.Euclidean.Angle.Unoriented.TriangleInequality
import Mathlib.Analysis.InnerProductSpace.PiL2
/-
Property C21: the great-circle distance.
-/
namespace Geo
open Real

/-- A valid (longitude, latitude): any longitude, latitude in [-90, 90]. -/
def ValidPoint (p : ℝ × ℝ) : Prop := -90 ≤ p.2 ∧ p.2 ≤ 90

theorem cos_lat_nonneg {p : ℝ × ℝ} (h : ValidPoint p) : 0 ≤ cos (radians p.2) := by
  apply cos_nonneg_of_mem_Icc
  have := pi_pos
  constructor <;> simp only [radians] <;> nlinarith [h.1, h.2]

/-- The point on the unit sphere (specification of what the coordinates mean). -/
noncomputable def spherePoint (p : ℝ × ℝ) : EuclideanSpace ℝ (Fin 3) :=
  !₂[cos (radians p.2) * cos (radians p.1), cos (radians p.2) * sin (radians p.1), sin (radians p.2)]

theorem inner_spherePoint (p q : ℝ × ℝ) :
    inner ℝ (spherePoint p) (spherePoint q) = 1 - 2 * haversineArg p q := by
  have h : inner ℝ (spherePoint p) (spherePoint q) =
      cos (radians p.2) * cos (radians p.1) * (cos (radians q.2) * cos (radians q.1)) +
      cos (radians p.2) * sin (radians p.1) * (cos (radians q.2) * sin (radians q.1)) +
      sin (radians p.2) * sin (radians q.2) := by
    simp [spherePoint, PiLp.inner_apply, Fin.sum_univ_three]
    ring
  have h1 : ∀ x : ℝ, sin (x / 2) ^ 2 = (1 - cos x) / 2 := by
    intro x
    have := cos_two_mul (x / 2)
    have h2 := sin_sq_add_cos_sq (x / 2)
    rw [show 2 * (x / 2) = x by ring] at this
    linarith
  have h2 : ∀ a b : ℝ, radians (a - b) = radians a - radians b := by
    intro a b; simp only [radians]; ring
  rw [h, haversineArg]
  simp only [h1, h2, cos_sub]
  ring

theorem norm_spherePoint (p : ℝ × ℝ) : ‖spherePoint p‖ = 1 := by
  have h : inner ℝ (spherePoint p) (spherePoint p) = (1 : ℝ) := by
    rw [inner_spherePoint]; simp [haversineArg, radians]
  rw [real_inner_self_eq_norm_sq] at h
  nlinarith [norm_nonneg (spherePoint p)]

theorem haversineArg_mem (p q : ℝ × ℝ) : 0 ≤ haversineArg p q ∧ haversineArg p q ≤ 1 := by
  have h := abs_real_inner_le_norm (spherePoint p) (spherePoint q)
  rw [norm_spherePoint, norm_spherePoint, inner_spherePoint, abs_le] at h
  constructor <;> linarith [h.1, h.2]

/-- C21: the argument of the square root is in `[0,1]` for all coordinates (even for invalid
latitudes), so the square root and the arcsine are defined. -/
theorem C21_haversine_argument_valid (p q : ℝ × ℝ) :
    0 ≤ haversineArg p q ∧ haversineArg p q ≤ 1 := haversineArg_mem p q

/-- C21: the distance is the earth radius times the angle between the two points seen from
the centre of the sphere. -/
theorem C21_is_central_angle (p q : ℝ × ℝ) :
    greatCircle p q = 6371 * InnerProductGeometry.angle (spherePoint p) (spherePoint q) := by
  unfold greatCircle InnerProductGeometry.angle
  rw [norm_spherePoint, norm_spherePoint, inner_spherePoint]
  congr 1
  obtain ⟨h0, h1⟩ := haversineArg_mem p q
  have hs0 : 0 ≤ √(haversineArg p q) := sqrt_nonneg _
  have hs1 : √(haversineArg p q) ≤ 1 := sqrt_le_one.2 h1
  have hc : cos (2 * arcsin √(haversineArg p q)) = (1 - 2 * haversineArg p q) / (1 * 1) := by
    rw [cos_two_mul, cos_sq', sin_arcsin (by linarith) hs1, sq_sqrt h0]; ring
  rw [← hc, arccos_cos]
  · have := arcsin_nonneg.2 hs0; linarith
  · have := arcsin_le_pi_div_two (√(haversineArg p q)); linarith

/-- C21: bounds. -/
theorem C21_bounds (p q : ℝ × ℝ) : 0 ≤ greatCircle p q ∧ greatCircle p q ≤ π * 6371 := by
  rw [C21_is_central_angle]
  have h1 := InnerProductGeometry.angle_nonneg (spherePoint p) (spherePoint q)
  have h2 := InnerProductGeometry.angle_le_pi (spherePoint p) (spherePoint q)
  constructor <;> linarith

/-- C21: symmetry. -/
theorem C21_symmetric (p q : ℝ × ℝ) : greatCircle p q = greatCircle q p := by
  rw [C21_is_central_angle, C21_is_central_angle, InnerProductGeometry.angle_comm]

/-- C21: the distance is zero exactly when both coordinates are the same place on earth. -/
theorem C21_zero_iff (p q : ℝ × ℝ) : greatCircle p q = 0 ↔ spherePoint p = spherePoint q := by
  rw [C21_is_central_angle]
  have hp : spherePoint p ≠ 0 := by
    intro h; have := norm_spherePoint p; rw [h, norm_zero] at this; exact zero_ne_one this
  constructor
  · intro h
    have h0 : InnerProductGeometry.angle (spherePoint p) (spherePoint q) = 0 := by linarith
    obtain ⟨-, r, hr, hq⟩ := InnerProductGeometry.angle_eq_zero_iff.1 h0
    have hn := norm_spherePoint q
    rw [hq, norm_smul, norm_spherePoint, mul_one, norm_of_nonneg hr.le] at hn
    rw [hq, hn, one_smul]
  · intro h
    rw [← h, InnerProductGeometry.angle_self hp, mul_zero]

/-- C21: identical points are at distance zero. -/
theorem C21_self (p : ℝ × ℝ) : greatCircle p p = 0 := (C21_zero_iff p p).2 rfl

/-- C21: the triangle inequality. -/
theorem C21_triangle (p q s : ℝ × ℝ) : greatCircle p s ≤ greatCircle p q + greatCircle q s := by
  rw [C21_is_central_angle, C21_is_central_angle, C21_is_central_angle, ← mul_add]
  exact mul_le_mul_of_nonneg_left (InnerProductGeometry.angle_le_angle_add_angle _ _ _) (by norm_num)

/-- C21: a full turn of longitude changes nothing, in either argument. -/
theorem C21_full_turn (p q : ℝ × ℝ) (k : ℤ) :
    greatCircle (p.1 + k * 360, p.2) q = greatCircle p q ∧
      greatCircle p (q.1 + k * 360, q.2) = greatCircle p q := by
  have h : ∀ p : ℝ × ℝ, spherePoint (p.1 + k * 360, p.2) = spherePoint p := by
    intro p
    have : radians (p.1 + k * 360) = radians p.1 + k * (2 * π) := by
      simp only [radians]; ring
    simp only [spherePoint, this, cos_add_int_mul_two_pi, sin_add_int_mul_two_pi]
  simp only [C21_is_central_angle, h, and_self]

/-- C21: turning both points about the polar axis changes nothing. -/
theorem C21_rotation (p q : ℝ × ℝ) (a : ℝ) :
    greatCircle (p.1 + a, p.2) (q.1 + a, q.2) = greatCircle p q := by
  have : haversineArg (p.1 + a, p.2) (q.1 + a, q.2) = haversineArg p q := by
    simp only [haversineArg, add_sub_add_right_eq_sub]
  simp only [greatCircle, this]

/-- C21: antipodal points are half the circumference apart. -/
theorem C21_antipodal (p : ℝ × ℝ) : greatCircle p (p.1 + 180, -p.2) = π * 6371 := by
  have h : haversineArg p (p.1 + 180, -p.2) = 1 := by
    have h1 : radians (p.1 + 180 - p.1) / 2 = π / 2 := by simp only [radians]; ring
    have h2 : radians (-p.2 - p.2) / 2 = -(radians p.2) := by simp only [radians]; ring
    have h3 : radians (-p.2) = -(radians p.2) := by simp only [radians]; ring
    simp only [haversineArg, h1, h2, h3, sin_neg, cos_neg, sin_pi_div_two]
    nlinarith [sin_sq_add_cos_sq (radians p.2)]
  rw [greatCircle, h, sqrt_one, arcsin_one]
  ring

/-- C21: along a meridian the distance is proportional to the difference in latitude. -/
theorem C21_meridian (lon φ ψ : ℝ) (h : |ψ - φ| ≤ 180) :
    greatCircle (lon, φ) (lon, ψ) = 6371 * (|ψ - φ| * (π / 180)) := by
  have h1 : haversineArg (lon, φ) (lon, ψ) = sin (radians (ψ - φ) / 2) ^ 2 := by
    simp [haversineArg, radians]
  rw [greatCircle, h1, sqrt_sq_eq_abs]
  congr 1
  have hpi := pi_pos
  have habs : |sin (radians (ψ - φ) / 2)| = sin (|ψ - φ| * (π / 180) / 2) := by
    rcases abs_cases (ψ - φ) with ⟨ha, hn⟩ | ⟨ha, hn⟩
    · rw [ha, abs_of_nonneg]
      · rfl
      · apply sin_nonneg_of_nonneg_of_le_pi
        · simp only [radians]; positivity
        · simp only [radians]; rw [ha] at h; nlinarith
    · rw [ha, abs_of_nonpos]
      · rw [← sin_neg]; congr 1; simp only [radians]; ring
      · have : 0 ≤ sin (-(radians (ψ - φ) / 2)) := by
          apply sin_nonneg_of_nonneg_of_le_pi
          · simp only [radians]; nlinarith
          · simp only [radians]; rw [ha] at h; nlinarith
        rw [sin_neg] at this; linarith
  rw [habs, arcsin_sin]
  · ring
  · have := abs_nonneg (ψ - φ); nlinarith [mul_nonneg this hpi.le]
  · nlinarith

/-- Two different valid places. -/
example : ValidPoint (10, 45) ∧ ValidPoint (-170, -45) ∧
    greatCircle (10, 45) (190, -45) = π * 6371 := by
  refine ⟨by constructor <;> norm_num, by constructor <;> norm_num, ?_⟩
  have := C21_antipodal (10, 45)
  norm_num at this ⊢
  exact this

end Geo
