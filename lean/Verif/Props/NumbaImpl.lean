import Verif.Model.NumbaImpl
import Mathlib.LinearAlgebra.Matrix.ToLinearEquiv
import Mathlib.Algebra.Order.BigOperators.Ring.Finset
import Mathlib.Tactic.Linarith
import Mathlib.Tactic.Ring
import Mathlib.Tactic.FieldSimp
set_option linter.unusedSectionVars false
/-
Properties C33-C35: ridge regression and the R2 score.
-/
namespace Geo
open Matrix
variable {m n : Nat}

/-- The objective of weighted ridge regression with unpenalised intercept. -/
noncomputable def ridgeObjective (X : Fin m → Fin n → ℝ) (y : Fin m → ℝ) (alpha : ℝ)
    (w : Fin m → ℝ) (coef : Fin n → ℝ) (b : ℝ) : ℝ :=
  (∑ i, w i * (y i - (∑ k, X i k * coef k) - b) ^ 2) + alpha * ∑ k, coef k ^ 2

theorem sum_centred (x w : Fin m → ℝ) (hS : 0 < ∑ i, w i) :
    ∑ i, w i * (x i - wmean x w) = 0 := by
  have : ∑ i, w i * (x i - wmean x w) = (∑ i, x i * w i) - (∑ i, w i) * wmean x w := by
    rw [Finset.sum_mul, ← Finset.sum_sub_distrib]
    exact Finset.sum_congr rfl fun i _ => by ring
  rw [this, wmean, mul_div_cancel₀ _ hS.ne', sub_self]

/-- The quadratic form of the system. -/
theorem ridgeA_mulVec (X : Fin m → Fin n → ℝ) (alpha : ℝ) (w : Fin m → ℝ) (d : Fin n → ℝ)
    (k : Fin n) : (ridgeA X alpha w *ᵥ d) k =
      (∑ i, ridgeX X w i k * ∑ l, ridgeX X w i l * d l) + alpha * d k := by
  simp only [mulVec, dotProduct, ridgeA, add_mul, Finset.sum_add_distrib]
  congr 1
  · simp only [Finset.sum_mul, Finset.mul_sum]
    rw [Finset.sum_comm]
    exact Finset.sum_congr rfl fun i _ => Finset.sum_congr rfl fun l _ => by ring
  · simp

theorem ridge_quadratic (X : Fin m → Fin n → ℝ) (alpha : ℝ) (w : Fin m → ℝ) (d : Fin n → ℝ) :
    ∑ k, d k * (ridgeA X alpha w *ᵥ d) k =
      (∑ i, (∑ l, ridgeX X w i l * d l) ^ 2) + alpha * ∑ k, d k ^ 2 := by
  simp only [ridgeA_mulVec, mul_add, Finset.sum_add_distrib]
  congr 1
  · have : ∀ k, d k * ∑ i, ridgeX X w i k * ∑ l, ridgeX X w i l * d l =
        ∑ i, d k * (ridgeX X w i k * ∑ l, ridgeX X w i l * d l) := fun k => Finset.mul_sum _ _ _
    simp only [this]
    rw [Finset.sum_comm]
    apply Finset.sum_congr rfl
    intro i _
    rw [sq, Finset.sum_mul]
    exact Finset.sum_congr rfl fun l _ => by ring
  · rw [Finset.mul_sum]
    exact Finset.sum_congr rfl fun k _ => by ring

theorem ridgeA_det_ne_zero (X : Fin m → Fin n → ℝ) (alpha : ℝ) (ha : 0 < alpha) (w : Fin m → ℝ) :
    (ridgeA X alpha w).det ≠ 0 := by
  intro h
  obtain ⟨d, hd, h0⟩ := Matrix.exists_mulVec_eq_zero_iff.2 h
  apply hd
  have hq := ridge_quadratic X alpha w d
  rw [h0] at hq
  simp only [Pi.zero_apply, mul_zero, Finset.sum_const_zero] at hq
  have h1 : 0 ≤ ∑ i, (∑ l, ridgeX X w i l * d l) ^ 2 := Finset.sum_nonneg fun i _ => sq_nonneg _
  have h2 : 0 ≤ ∑ k, d k ^ 2 := Finset.sum_nonneg fun i _ => sq_nonneg _
  have h3 : ∑ k, d k ^ 2 = 0 := by
    by_contra hne
    have : 0 < ∑ k, d k ^ 2 := lt_of_le_of_ne h2 (Ne.symm hne)
    have := mul_pos ha this
    linarith
  funext k
  have := (Finset.sum_eq_zero_iff_of_nonneg fun i _ => sq_nonneg (d i)).1 h3 k (Finset.mem_univ k)
  exact pow_eq_zero_iff (two_ne_zero) |>.1 this

theorem linSolve_ok {A : Matrix (Fin n) (Fin n) ℝ} (h : A.det ≠ 0) (b : Fin n → ℝ) :
    ∃ c, linSolve A b = .ok c ∧ A *ᵥ c = b ∧ ∀ c', A *ᵥ c' = b → c' = c := by
  refine ⟨A⁻¹ *ᵥ b, by simp [linSolve, h], ?_, fun c' h' => ?_⟩
  · rw [mulVec_mulVec, mul_nonsing_inv _ (isUnit_iff_ne_zero.2 h), one_mulVec]
  · rw [← h', mulVec_mulVec, nonsing_inv_mul _ (isUnit_iff_ne_zero.2 h), one_mulVec]

/-- The objective splits into the intercept part and a centred problem. -/
theorem ridgeObjective_split (X : Fin m → Fin n → ℝ) (y : Fin m → ℝ) (alpha : ℝ)
    (w : Fin m → ℝ) (hw : ∀ i, 0 ≤ w i) (hS : 0 < ∑ i, w i) (c : Fin n → ℝ) (b : ℝ) :
    ridgeObjective X y alpha w c b =
      (∑ i, (ridgeY y w i - ∑ k, ridgeX X w i k * c k) ^ 2) + alpha * (∑ k, c k ^ 2) +
        (∑ i, w i) * (wmean y w - (∑ k, wmean (fun i => X i k) w * c k) - b) ^ 2 := by
  set e := wmean y w - (∑ k, wmean (fun i => X i k) w * c k) - b with he
  set u : Fin m → ℝ := fun i => (y i - wmean y w) - ∑ k, (X i k - wmean (fun i => X i k) w) * c k
    with hu
  have h1 : ∀ i, y i - (∑ k, X i k * c k) - b = u i + e := by
    intro i
    simp only [hu, he, sub_mul, Finset.sum_sub_distrib]
    ring
  have h2 : ∀ i, (ridgeY y w i - ∑ k, ridgeX X w i k * c k) ^ 2 = w i * u i ^ 2 := by
    intro i
    have : ridgeY y w i - ∑ k, ridgeX X w i k * c k = √(w i) * u i := by
      simp only [ridgeY, ridgeX, hu, mul_sub, Finset.mul_sum]
      rw [mul_comm (y i - _)]
      rw [mul_sub]
      congr 1
      exact Finset.sum_congr rfl fun k _ => by ring
    rw [this, mul_pow, Real.sq_sqrt (hw i)]
  have h3 : ∑ i, w i * u i = 0 := by
    simp only [hu, mul_sub (w _) (y _ - _), Finset.sum_sub_distrib]
    rw [sum_centred y w hS]
    simp only [Finset.mul_sum]
    rw [Finset.sum_comm]
    have : ∀ k, ∑ i, w i * ((X i k - wmean (fun i => X i k) w) * c k) = 0 := by
      intro k
      have := sum_centred (fun i => X i k) w hS
      simp only [← mul_assoc]
      rw [← Finset.sum_mul, this, zero_mul]
    simp [this]
  unfold ridgeObjective
  simp only [h1, h2]
  have h4 : ∑ i, w i * (u i + e) ^ 2 = (∑ i, w i * u i ^ 2) + (∑ i, w i) * e ^ 2 := by
    have : ∀ i, w i * (u i + e) ^ 2 = w i * u i ^ 2 + 2 * e * (w i * u i) + w i * e ^ 2 :=
      fun i => by ring
    simp only [this, Finset.sum_add_distrib, ← Finset.mul_sum, h3, ← Finset.sum_mul]
    ring
  rw [h4]
  ring

/-- The centred problem around a solution of the normal equations. -/
theorem ridge_centred (X : Fin m → Fin n → ℝ) (y : Fin m → ℝ) (alpha : ℝ) (w : Fin m → ℝ)
    (c : Fin n → ℝ) (hc : ridgeA X alpha w *ᵥ c = ridgeB X y w) (c' : Fin n → ℝ) :
    (∑ i, (ridgeY y w i - ∑ k, ridgeX X w i k * c' k) ^ 2) + alpha * (∑ k, c' k ^ 2) =
      (∑ i, (ridgeY y w i - ∑ k, ridgeX X w i k * c k) ^ 2) + alpha * (∑ k, c k ^ 2) +
        ((∑ i, (∑ k, ridgeX X w i k * (c' k - c k)) ^ 2) + alpha * ∑ k, (c' k - c k) ^ 2) := by
  set d : Fin n → ℝ := fun k => c' k - c k with hd
  have hc' : ∀ k, c' k = c k + d k := fun k => by simp [hd]
  have h1 : ∀ i, ∑ k, ridgeX X w i k * c' k =
      (∑ k, ridgeX X w i k * c k) + ∑ k, ridgeX X w i k * d k := by
    intro i
    simp only [hc', mul_add, Finset.sum_add_distrib]
  have hcross : ∑ i, (ridgeY y w i - ∑ k, ridgeX X w i k * c k) * (∑ k, ridgeX X w i k * d k) =
      alpha * ∑ k, c k * d k := by
    have hk : ∀ k, (∑ i, ridgeX X w i k * (ridgeY y w i - ∑ l, ridgeX X w i l * c l)) =
        alpha * c k := by
      intro k
      have := congrFun hc k
      rw [ridgeA_mulVec] at this
      simp only [ridgeB] at this
      simp only [mul_sub, Finset.sum_sub_distrib]
      linarith
    simp only [Finset.mul_sum]
    rw [Finset.sum_comm]
    apply Finset.sum_congr rfl
    intro k _
    rw [← mul_assoc, ← hk k, Finset.sum_mul]
    exact Finset.sum_congr rfl fun i _ => by ring
  have e1 : ∑ i, (ridgeY y w i - ∑ k, ridgeX X w i k * c' k) ^ 2 =
      (∑ i, (ridgeY y w i - ∑ k, ridgeX X w i k * c k) ^ 2) -
        2 * (alpha * ∑ k, c k * d k) + ∑ i, (∑ k, ridgeX X w i k * d k) ^ 2 := by
    rw [← hcross, Finset.mul_sum, ← Finset.sum_sub_distrib, ← Finset.sum_add_distrib]
    apply Finset.sum_congr rfl
    intro i _
    rw [h1]; ring
  have e2 : ∑ k, c' k ^ 2 = (∑ k, c k ^ 2) + 2 * (∑ k, c k * d k) + ∑ k, d k ^ 2 := by
    rw [Finset.mul_sum, ← Finset.sum_add_distrib, ← Finset.sum_add_distrib]
    exact Finset.sum_congr rfl fun k _ => by rw [hc']; ring
  rw [e1, e2]
  ring

/-- C33: for `alpha > 0` and non-negative weights with positive sum the fit succeeds; the linear
system has exactly one solution, and the returned coefficients and intercept are the unique
minimiser of the weighted, penalised sum of squares. -/
theorem C33_ridge_minimiser (X : Fin m → Fin n → ℝ) (y : Fin m → ℝ) (alpha : ℝ)
    (ha : 0 < alpha) (w : Fin m → ℝ) (hw : ∀ i, 0 ≤ w i) (hS : 0 < ∑ i, w i) :
    ∃ coef b, ridgeCholesky X y alpha w = .ok (coef, b) ∧
      (∃! c, ridgeA X alpha w *ᵥ c = ridgeB X y w) ∧
      ∀ coef' b', ridgeObjective X y alpha w coef b ≤ ridgeObjective X y alpha w coef' b' ∧
        (ridgeObjective X y alpha w coef' b' ≤ ridgeObjective X y alpha w coef b →
          coef' = coef ∧ b' = b) := by
  obtain ⟨c, h1, h2, h3⟩ := linSolve_ok (ridgeA_det_ne_zero X alpha ha w) (ridgeB X y w)
  refine ⟨c, wmean y w - ∑ k, wmean (fun i => X i k) w * c k, ?_, ⟨c, h2, h3⟩, ?_⟩
  · unfold ridgeCholesky; rw [h1]; rfl
  · intro c' b'
    rw [ridgeObjective_split X y alpha w hw hS, ridgeObjective_split X y alpha w hw hS,
      ridge_centred X y alpha w c h2 c', sub_self]
    have p1 : 0 ≤ ∑ i, (∑ k, ridgeX X w i k * (c' k - c k)) ^ 2 :=
      Finset.sum_nonneg fun i _ => sq_nonneg _
    have p2 : 0 ≤ ∑ k, (c' k - c k) ^ 2 := Finset.sum_nonneg fun i _ => sq_nonneg _
    have p2' : 0 ≤ alpha * ∑ k, (c' k - c k) ^ 2 := mul_nonneg ha.le p2
    have p3 : 0 ≤ (∑ i, w i) *
        (wmean y w - ∑ k, wmean (fun i => X i k) w * c' k - b') ^ 2 :=
      mul_nonneg hS.le (sq_nonneg _)
    constructor
    · simp only [ne_eq, OfNat.ofNat_ne_zero, not_false_eq_true, zero_pow, mul_zero, add_zero]
      linarith
    · intro hle
      simp only [ne_eq, OfNat.ofNat_ne_zero, not_false_eq_true, zero_pow, mul_zero, add_zero] at hle
      have z2 : ∑ k, (c' k - c k) ^ 2 = 0 := by
        by_contra hne
        have := mul_pos ha (lt_of_le_of_ne p2 (Ne.symm hne))
        linarith
      have hcc : c' = c := by
        funext k
        have := (Finset.sum_eq_zero_iff_of_nonneg fun i _ => sq_nonneg (c' i - c i)).1 z2 k
          (Finset.mem_univ k)
        exact sub_eq_zero.1 ((pow_eq_zero_iff two_ne_zero).1 this)
      refine ⟨hcc, ?_⟩
      have z3 : (wmean y w - ∑ k, wmean (fun i => X i k) w * c' k - b') ^ 2 = 0 := by
        by_contra hne
        have := mul_pos hS (lt_of_le_of_ne (sq_nonneg _) (Ne.symm hne))
        linarith
      have := (pow_eq_zero_iff two_ne_zero).1 z3
      rw [hcc] at this
      linarith

/-- Two observations, one feature, unequal weights, one of them zero. -/
example : (0 : ℝ) < 10 ∧ (∀ i : Fin 2, (0 : ℝ) ≤ ![0, 3] i) ∧ 0 < ∑ i, (![0, 3] : Fin 2 → ℝ) i := by
  refine ⟨by norm_num, ?_, by simp⟩
  intro i; fin_cases i <;> simp

/-- C33: `alpha = 0` is not covered for a reason: with a constant feature the system is
singular and the fit raises `LinAlgError`, whatever the targets. -/
theorem C33_unpenalised_constant_feature_raises (X : Fin m → Fin (n + 1) → ℝ) (y : Fin m → ℝ)
    (w : Fin m → ℝ) (hS : 0 < ∑ i, w i) (k : Fin (n + 1)) (v : ℝ) (hk : ∀ i, X i k = v) :
    ridgeCholesky X y 0 w = .error .linAlgError := by
  have hz : ∀ i, ridgeX X w i k = 0 := by
    intro i
    have : wmean (fun i => X i k) w = v := by
      simp only [wmean, hk, ← Finset.mul_sum]
      exact mul_div_cancel_right₀ _ hS.ne'
    rw [ridgeX, this, hk, sub_self, zero_mul]
  have : (ridgeA X 0 w).det = 0 := by
    apply Matrix.det_eq_zero_of_row_eq_zero k
    intro l
    simp [ridgeA, hz]
  simp [ridgeCholesky, linSolve, this, Except.map]

/-- C34: adding a constant to all targets changes only the intercept, by that constant. -/
theorem C34_shift_targets (X : Fin m → Fin n → ℝ) (y : Fin m → ℝ) (alpha : ℝ) (w : Fin m → ℝ)
    (hS : 0 < ∑ i, w i) (t : ℝ) :
    ridgeCholesky X (fun i => y i + t) alpha w =
      (ridgeCholesky X y alpha w).map fun r => (r.1, r.2 + t) := by
  have hm : wmean (fun i => y i + t) w = wmean y w + t := by
    simp only [wmean, add_mul, Finset.sum_add_distrib, ← Finset.mul_sum]
    rw [add_div, mul_div_cancel_right₀ _ hS.ne']
  have hY : ridgeY (fun i => y i + t) w = ridgeY y w := by
    funext i; simp only [ridgeY, hm]; ring
  have hB : ridgeB X (fun i => y i + t) w = ridgeB X y w := by
    funext k; simp only [ridgeB, hY]
  unfold ridgeCholesky
  rw [hB, hm]
  cases linSolve (ridgeA X alpha w) (ridgeB X y w) with
  | error e => rfl
  | ok c => simp only [Except.map, Except.ok.injEq, Prod.mk.injEq, true_and]; ring

/-- C34: shifting the features changes only the intercept: the fitted function is the same
function of the original features. -/
theorem C34_shift_features (X : Fin m → Fin n → ℝ) (y : Fin m → ℝ) (alpha : ℝ) (w : Fin m → ℝ)
    (hS : 0 < ∑ i, w i) (t : Fin n → ℝ) :
    ridgeCholesky (fun i k => X i k + t k) y alpha w =
      (ridgeCholesky X y alpha w).map fun r => (r.1, r.2 - ∑ k, t k * r.1 k) := by
  have hm : ∀ k, wmean (fun i => X i k + t k) w = wmean (fun i => X i k) w + t k := by
    intro k
    simp only [wmean, add_mul, Finset.sum_add_distrib, ← Finset.mul_sum]
    rw [add_div, mul_div_cancel_right₀ _ hS.ne']
  have hX : ridgeX (fun i k => X i k + t k) w = ridgeX X w := by
    funext i k; simp only [ridgeX, hm]; ring
  have hA : ridgeA (fun i k => X i k + t k) alpha w = ridgeA X alpha w := by
    funext k l; simp only [ridgeA, hX]
  have hB : ridgeB (fun i k => X i k + t k) y w = ridgeB X y w := by
    funext k; simp only [ridgeB, hX]
  unfold ridgeCholesky
  rw [hA, hB]
  simp only [hm]
  cases linSolve (ridgeA X alpha w) (ridgeB X y w) with
  | error e => rfl
  | ok c =>
    simp only [Except.map, Except.ok.injEq, Prod.mk.injEq, true_and, add_mul,
      Finset.sum_add_distrib]
    ring

/-- C34: scaling the targets scales coefficients and intercept. -/
theorem C34_scale_targets (X : Fin m → Fin n → ℝ) (y : Fin m → ℝ) (alpha : ℝ) (w : Fin m → ℝ)
    (t : ℝ) :
    ridgeCholesky X (fun i => t * y i) alpha w =
      (ridgeCholesky X y alpha w).map fun r => (fun k => t * r.1 k, t * r.2) := by
  have hm : wmean (fun i => t * y i) w = t * wmean y w := by
    simp only [wmean, mul_assoc, ← Finset.mul_sum]
    rw [mul_div_assoc]
  have hY : ridgeY (fun i => t * y i) w = fun i => t * ridgeY y w i := by
    funext i; simp only [ridgeY, hm]; ring
  have hB : ridgeB X (fun i => t * y i) w = t • ridgeB X y w := by
    funext k
    simp only [ridgeB, hY, Pi.smul_apply, smul_eq_mul, Finset.mul_sum]
    exact Finset.sum_congr rfl fun i _ => by ring
  unfold ridgeCholesky linSolve
  rw [hB, hm, mulVec_smul]
  split
  · rfl
  · simp only [Except.map, Except.ok.injEq, Prod.mk.injEq, Pi.smul_apply, smul_eq_mul]
    refine ⟨rfl, ?_⟩
    rw [mul_sub, Finset.mul_sum]
    congr 1
    exact Finset.sum_congr rfl fun k _ => by ring

/-- C34: multiplying all weights and `alpha` by the same positive number changes nothing. -/
theorem C34_scale_weights (X : Fin m → Fin n → ℝ) (y : Fin m → ℝ) (alpha : ℝ) (ha : 0 < alpha)
    (w : Fin m → ℝ) (hw : ∀ i, 0 ≤ w i) (hS : 0 < ∑ i, w i) (t : ℝ) (ht : 0 < t) :
    ridgeCholesky X y (t * alpha) (fun i => t * w i) = ridgeCholesky X y alpha w := by
  obtain ⟨c, b, h1, -, h3⟩ := C33_ridge_minimiser X y alpha ha w hw hS
  obtain ⟨c', b', h1', -, h3'⟩ := C33_ridge_minimiser X y (t * alpha) (mul_pos ht ha)
    (fun i => t * w i) (fun i => mul_nonneg ht.le (hw i)) (by rw [← Finset.mul_sum]; exact mul_pos ht hS)
  have hobj : ∀ c b, ridgeObjective X y (t * alpha) (fun i => t * w i) c b =
      t * ridgeObjective X y alpha w c b := by
    intro c b
    simp only [ridgeObjective, mul_add, Finset.mul_sum, mul_assoc]
  have := (h3' c b).1
  rw [hobj, hobj] at this
  have := (h3 c' b').2 (le_of_mul_le_mul_left this ht)
  rw [h1, h1', this.1, this.2]

/-- C34: observations of weight zero have no influence: targets and features may be changed at
will where the weight is zero. -/
theorem C34_zero_weight_irrelevant (X X' : Fin m → Fin n → ℝ) (y y' : Fin m → ℝ) (alpha : ℝ)
    (w : Fin m → ℝ) (hy : ∀ i, w i ≠ 0 → y i = y' i) (hX : ∀ i, w i ≠ 0 → X i = X' i) :
    ridgeCholesky X y alpha w = ridgeCholesky X' y' alpha w := by
  have hm : ∀ x x' : Fin m → ℝ, (∀ i, w i ≠ 0 → x i = x' i) → wmean x w = wmean x' w := by
    intro x x' h
    unfold wmean
    congr 1
    apply Finset.sum_congr rfl
    intro i _
    by_cases hi : w i = 0
    · simp [hi]
    · rw [h i hi]
  have hmx : ∀ k, wmean (fun i => X i k) w = wmean (fun i => X' i k) w :=
    fun k => hm _ _ fun i hi => by rw [hX i hi]
  have e1 : ridgeX X w = ridgeX X' w := by
    funext i k
    unfold ridgeX
    by_cases hi : w i = 0
    · simp [hi]
    · rw [hX i hi, hmx]
  have e2 : ridgeY y w = ridgeY y' w := by
    funext i
    unfold ridgeY
    by_cases hi : w i = 0
    · simp [hi]
    · rw [hy i hi, hm y y' hy]
  unfold ridgeCholesky
  have e3 : ridgeA X alpha w = ridgeA X' alpha w := by funext k l; simp only [ridgeA, e1]
  have e4 : ridgeB X y w = ridgeB X' y' w := by funext k; simp only [ridgeB, e1, e2]
  rw [e3, e4, hm y y' hy]
  simp only [hmx]

section
variable {K : Type} [Field K] [LinearOrder K] [IsStrictOrderedRing K]

theorem totalSS_nonneg (y : Fin m → K) : 0 ≤ totalSS y := Finset.sum_nonneg fun _ _ => sq_nonneg _

theorem totalSS_eq_zero_iff (y : Fin m → K) : totalSS y = 0 ↔ ∀ i j, y i = y j := by
  unfold totalSS
  rw [Finset.sum_eq_zero_iff_of_nonneg fun _ _ => sq_nonneg _]
  constructor
  · intro h i j
    have hi := (pow_eq_zero_iff two_ne_zero).1 (h i (Finset.mem_univ i))
    have hj := (pow_eq_zero_iff two_ne_zero).1 (h j (Finset.mem_univ j))
    rw [sub_eq_zero] at hi hj
    rw [hi, hj]
  · intro h i _
    have hm : (m : K) ≠ 0 := by
      have : m ≠ 0 := by rintro rfl; exact i.elim0
      exact_mod_cast this
    have : ∑ j, y j = (m : K) * y i := by
      rw [Finset.sum_congr rfl fun j _ => h j i]
      simp
    rw [this, mul_div_cancel_left₀ _ hm, sub_self]
    simp

/-- C35: the score is at most 1. -/
theorem C35_at_most_one (y p : Fin m → K) : r2Score y p ≤ 1 := by
  unfold r2Score
  split
  · exact le_rfl
  · have : 0 ≤ residualSS y p / totalSS y :=
      div_nonneg (Finset.sum_nonneg fun _ _ => sq_nonneg _) (totalSS_nonneg y)
    linarith

/-- C35: for targets that are not all equal the score is 1 exactly when all predictions are
exact. -/
theorem C35_one_iff_exact (y p : Fin m → K) (h : ∃ i j, y i ≠ y j) :
    r2Score y p = 1 ↔ ∀ i, p i = y i := by
  have ht : totalSS y ≠ 0 := by
    rw [Ne, totalSS_eq_zero_iff]
    push Not
    exact h
  unfold r2Score
  rw [if_neg ht]
  constructor
  · intro h1 i
    have h0 : residualSS y p / totalSS y = 0 := by linarith
    rw [div_eq_zero_iff] at h0
    have h0 := h0.resolve_right ht
    have := (Finset.sum_eq_zero_iff_of_nonneg fun _ _ => sq_nonneg _).1 h0 i (Finset.mem_univ i)
    exact (sub_eq_zero.1 ((pow_eq_zero_iff two_ne_zero).1 this)).symm
  · intro hp
    have : residualSS y p = 0 := by simp [residualSS, hp]
    rw [this]; simp

/-- C35: for constant targets the score is 1 whatever the predictions. -/
theorem C35_constant_targets (y p : Fin m → K) (h : ∀ i j, y i = y j) : r2Score y p = 1 := by
  unfold r2Score
  rw [if_pos ((totalSS_eq_zero_iff y).2 h)]

/-- scikit-learn's `r2_score` for a single output without weights and at least two samples:
`1 - num/den`; for `den = 0` it is 1 if `num = 0`, else 0. -/
def sklearnR2 (y p : Fin m → K) : K :=
  let num := ∑ i, (y i - p i) ^ 2
  let den := ∑ i, (y i - (∑ i, y i) / (m : K)) ^ 2
  if den ≠ 0 then 1 - num / den else if num = 0 then 1 else 0

/-- C35: it agrees with scikit-learn exactly unless the targets are constant and some
prediction is wrong. -/
theorem C35_agrees_with_sklearn_iff (y p : Fin m → K) :
    r2Score y p = sklearnR2 y p ↔ (∃ i j, y i ≠ y j) ∨ ∀ i, p i = y i := by
  have hres : residualSS y p = 0 ↔ ∀ i, p i = y i := by
    unfold residualSS
    rw [Finset.sum_eq_zero_iff_of_nonneg fun _ _ => sq_nonneg _]
    simp only [Finset.mem_univ, true_implies, pow_eq_zero_iff two_ne_zero, sub_eq_zero]
    exact forall_congr' fun i => eq_comm
  have htot := totalSS_eq_zero_iff y
  have e1 : sklearnR2 y p = if totalSS y ≠ 0 then 1 - residualSS y p / totalSS y else
    if residualSS y p = 0 then 1 else 0 := rfl
  rw [e1]
  unfold r2Score
  by_cases h : totalSS y = 0
  · have h' : ¬ ∃ i j, y i ≠ y j := by push Not; exact htot.1 h
    simp only [h, if_true, ne_eq, not_true, if_false, h', false_or, ← hres]
    by_cases hr : residualSS y p = 0 <;> simp [hr]
  · have h' : ∃ i j, y i ≠ y j := by
      by_contra hn; push Not at hn; exact h (htot.2 hn)
    simp [h, h']

/-- C35: the score of the mean is 0, so positive scores are better than predicting the mean. -/
theorem C35_mean_scores_zero (y : Fin m → K) (h : ∃ i j, y i ≠ y j) :
    r2Score y (fun _ => (∑ i, y i) / (m : K)) = 0 := by
  have ht : totalSS y ≠ 0 := by
    rw [Ne, totalSS_eq_zero_iff]; push Not; exact h
  unfold r2Score
  rw [if_neg ht]
  have : residualSS y (fun _ => (∑ i, y i) / (m : K)) = totalSS y := rfl
  rw [this, div_self ht, sub_self]

example : r2Score (![1, 2, 3] : Fin 3 → ℚ) ![1, 2, 4] = 1 / 2 := by decide +kernel
end
end Geo
