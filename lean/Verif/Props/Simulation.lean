import Verif.Model.Simulation
import Mathlib.Algebra.Order.BigOperators.Ring.Finset
import Mathlib.Algebra.Order.Star.Real
import Mathlib.Algebra.BigOperators.Field
import Mathlib.Analysis.SpecialFunctions.Trigonometric.DerivHyp
/-
Simulated coefficients, responses and samples: C72, C80-C83.
-/
namespace Geo
open Real Matrix
variable {d : Nat} {S : Type}

/-! ### Norm -/

theorem dotR_self_nonneg (p : Fin d → ℝ) : 0 ≤ dotR p p :=
  Finset.sum_nonneg fun _ _ => mul_self_nonneg _

theorem normR_nonneg (p : Fin d → ℝ) : 0 ≤ normR p := sqrt_nonneg _

theorem normR_eq_zero {p : Fin d → ℝ} : normR p = 0 ↔ p = 0 := by
  unfold normR
  rw [sqrt_eq_zero (dotR_self_nonneg p), dotR,
    Finset.sum_eq_zero_iff_of_nonneg fun i _ => mul_self_nonneg _]
  constructor
  · intro h
    funext i
    exact mul_self_eq_zero.1 (h i (Finset.mem_univ _))
  · rintro rfl i _
    simp

theorem dotR_le (p q : Fin d → ℝ) : |dotR p q| ≤ normR p * normR q := by
  have h : dotR p q ^ 2 ≤ dotR p p * dotR q q := by
    have := Finset.sum_mul_sq_le_sq_mul_sq Finset.univ p q
    unfold dotR
    simpa [sq] using this
  unfold normR
  rw [← sqrt_mul (dotR_self_nonneg p)]
  exact abs_le_sqrt h

theorem normR_smul (t : ℝ) (p : Fin d → ℝ) : normR (t • p) = |t| * normR p := by
  have : dotR (t • p) (t • p) = t ^ 2 * dotR p p := by
    unfold dotR
    rw [Finset.mul_sum]
    refine Finset.sum_congr rfl fun i _ => ?_
    simp only [Pi.smul_apply, smul_eq_mul]
    ring
  unfold normR
  rw [this, sqrt_mul (sq_nonneg t), sqrt_sq_eq_abs]

theorem normR_sub_le (p q : Fin d → ℝ) : normR (p + q) ≤ normR p + normR q := by
  have h : dotR (p + q) (p + q) = dotR p p + 2 * dotR p q + dotR q q := by
    unfold dotR
    rw [Finset.mul_sum, ← Finset.sum_add_distrib, ← Finset.sum_add_distrib]
    refine Finset.sum_congr rfl fun i _ => ?_
    simp only [Pi.add_apply]
    ring
  have h1 : normR p ^ 2 = dotR p p := sq_sqrt (dotR_self_nonneg p)
  have h2 : normR q ^ 2 = dotR q q := sq_sqrt (dotR_self_nonneg q)
  have h3 := (abs_le.1 (dotR_le p q)).2
  apply le_of_sq_le_sq _ (add_nonneg (normR_nonneg p) (normR_nonneg q))
  have h4 : normR (p + q) ^ 2 = dotR (p + q) (p + q) := sq_sqrt (dotR_self_nonneg _)
  rw [h4, h]
  nlinarith

/-! ### C72: coefficients -/

theorem gaussian_formula (mean : Fin d → ℝ) (V : Matrix (Fin d) (Fin d) ℝ) (a : ℝ)
    (p : Fin d → ℝ) :
    normalPdf mean V p * a / normalPdf mean V mean = a * exp (-(1 / 2) * maha mean V p) := by
  have h0 : maha mean V mean = 0 := by simp [maha]
  have : normalPdf mean V p = exp (-(1 / 2) * maha mean V p) * normalPdf mean V mean := by
    unfold normalPdf
    rw [h0, ← exp_add]
    congr 1
    ring
  rw [this]
  have hp : normalPdf mean V mean ≠ 0 := (exp_pos _).ne'
  field_simp

theorem maha_pos {V : Matrix (Fin d) (Fin d) ℝ} (hV : V.PosDef) (mean p : Fin d → ℝ) :
    0 ≤ maha mean V p ∧ (maha mean V p = 0 ↔ p = mean) := by
  have h := hV.inv
  by_cases hp : p = mean
  · subst hp; simp [maha]
  · have hne : p - mean ≠ 0 := sub_ne_zero.2 hp
    have := h.dotProduct_mulVec_pos hne
    rw [star_trivial] at this
    exact ⟨this.le, ⟨fun h0 => absurd h0 this.ne', fun h => absurd h hp⟩⟩

/-- C72: for a positive definite covariance the gaussian coefficient is the amplitude at the mean,
closer to zero everywhere else but never zero, of the sign of the amplitude, and symmetric about the
mean. -/
theorem C72_gaussian (mean : Fin d → ℝ) (cov : CovArg d) (amplitude : ℝ)
    (h : cov.matrix.PosDef) :
    ∃ f, gaussianCoefficient mean cov amplitude = .ok f ∧ f mean = amplitude ∧
      (∀ p, |f p| ≤ |amplitude|) ∧
      (amplitude ≠ 0 → ∀ p, 0 < f p * amplitude ∧ (|f p| = |amplitude| ↔ p = mean)) ∧
      ∀ v, f (mean + v) = f (mean - v) := by
  refine ⟨_, by unfold gaussianCoefficient; rw [if_pos h], ?_, ?_, ?_, ?_⟩
  · simp only [gaussian_formula, (maha_pos h mean mean).2.2 rfl]
    simp
  · intro p
    rw [gaussian_formula, abs_mul, abs_of_pos (exp_pos _)]
    refine mul_le_of_le_one_right (abs_nonneg _) (exp_le_one_iff.2 ?_)
    have := (maha_pos h mean p).1
    linarith
  · intro ha p
    rw [gaussian_formula]
    constructor
    · have e : amplitude * exp (-(1 / 2) * maha mean cov.matrix p) * amplitude =
          amplitude ^ 2 * exp (-(1 / 2) * maha mean cov.matrix p) := by ring
      rw [e]
      exact mul_pos (by positivity) (exp_pos _)
    · rw [abs_mul, abs_of_pos (exp_pos _), mul_eq_left₀ (abs_ne_zero.2 ha), exp_eq_one_iff,
        ← (maha_pos h mean p).2]
      constructor
      · intro h0; linarith
      · intro h0; rw [h0]; ring
  · intro v
    simp only [gaussian_formula]
    have : maha mean cov.matrix (mean + v) = maha mean cov.matrix (mean - v) := by
      unfold maha
      have e1 : mean + v - mean = v := by abel
      have e2 : mean - v - mean = -v := by abel
      rw [e1, e2, mulVec_neg, neg_dotProduct_neg]
    rw [this]

/-- C72: a positive number as covariance is a variance: the value depends on the distance to the
mean only and decreases with it. -/
theorem C72_gaussian_scalar (mean : Fin d → ℝ) (v amplitude : ℝ) (hv : 0 < v) :
    gaussianCoefficient mean (.scalar v) amplitude =
      .ok fun p => amplitude * exp (-(normR (p - mean) ^ 2 / (2 * v))) := by
  have h : (CovArg.scalar v : CovArg d).matrix.PosDef := by
    unfold CovArg.matrix
    exact Matrix.PosDef.diagonal fun _ => hv
  unfold gaussianCoefficient
  rw [if_pos h]
  congr 1
  funext p
  rw [gaussian_formula]
  congr 2
  unfold maha CovArg.matrix
  have hinv : (Matrix.diagonal fun _ : Fin d => v)⁻¹ = Matrix.diagonal fun _ => v⁻¹ := by
    apply Matrix.inv_eq_right_inv
    rw [Matrix.diagonal_mul_diagonal]
    simp [hv.ne']
  rw [hinv]
  have hn : normR (p - mean) ^ 2 = dotR (p - mean) (p - mean) := sq_sqrt (dotR_self_nonneg _)
  rw [hn]
  have hs : (p - mean) ⬝ᵥ ((Matrix.diagonal fun _ : Fin d => v⁻¹) *ᵥ (p - mean)) =
      v⁻¹ * dotR (p - mean) (p - mean) := by
    unfold dotR dotProduct
    rw [Finset.mul_sum]
    refine Finset.sum_congr rfl fun i _ => ?_
    rw [Matrix.mulVec_diagonal]
    ring
  rw [hs]
  field_simp

/-- C72: a covariance of zero is refused with `LinAlgError`, a negative one with `ValueError`, when
the coefficient is built. -/
theorem C72_gaussian_refused (mean : Fin (d + 1) → ℝ) (amplitude : ℝ) :
    gaussianCoefficient mean (.scalar 0) amplitude = .error .linAlgError ∧
    ∀ v < 0, gaussianCoefficient mean (.scalar v) amplitude = .error .valueError := by
  have hnd : ∀ v : ℝ, v ≤ 0 → ¬ (CovArg.scalar v : CovArg (d + 1)).matrix.PosDef := by
    intro v hv h
    have := h.diag_pos (i := 0)
    simp only [CovArg.matrix, Matrix.diagonal_apply_eq] at this
    linarith
  constructor
  · unfold gaussianCoefficient
    rw [if_neg (hnd 0 le_rfl), if_pos]
    unfold CovArg.matrix
    exact Matrix.PosSemidef.diagonal fun _ => le_rfl
  · intro v hv
    unfold gaussianCoefficient
    rw [if_neg (hnd v hv.le), if_neg]
    intro h
    have := h.diag_nonneg (i := 0)
    simp only [CovArg.matrix, Matrix.diagonal_apply_eq] at this
    linarith

/-- C72: a full covariance whose symmetric completion of the lower triangle has a direction of
negative variance is refused with `ValueError`; one without, but with a direction of variance zero,
with `LinAlgError`. -/
theorem C72_gaussian_refused_full (mean : Fin d → ℝ) (A : Matrix (Fin d) (Fin d) ℝ)
    (amplitude : ℝ) (V : (Fin d → ℝ) → ℝ)
    (hV : V = fun v => ∑ i, ∑ j, v i * A (max i j) (min i j) * v j) :
    ((∃ v, V v < 0) → gaussianCoefficient mean (.full A) amplitude = .error .valueError) ∧
    ((∀ v, 0 ≤ V v) → (∃ v, v ≠ 0 ∧ V v = 0) →
      gaussianCoefficient mean (.full A) amplitude = .error .linAlgError) ∧
    ((∀ v, v ≠ 0 → 0 < V v) → ∃ f, gaussianCoefficient mean (.full A) amplitude = .ok f) := by
  have hq : ∀ v : Fin d → ℝ, v ⬝ᵥ ((CovArg.full A).matrix *ᵥ v) = V v := by
    intro v
    subst hV
    simp only [dotProduct, Matrix.mulVec, CovArg.matrix, Matrix.of_apply, Finset.mul_sum, mul_assoc]
  have hh : (CovArg.full A).matrix.IsHermitian := by
    ext i j
    simp [CovArg.matrix, Matrix.conjTranspose, max_comm, min_comm]
  have hpd : (CovArg.full A).matrix.PosDef ↔ ∀ v, v ≠ 0 → 0 < V v := by
    constructor
    · intro h v hv
      rw [← hq]
      simpa using h.dotProduct_mulVec_pos hv
    · intro h
      refine Matrix.PosDef.of_dotProduct_mulVec_pos hh fun v hv => ?_
      have := h v hv
      rw [← hq] at this
      simpa using this
  have hps : (CovArg.full A).matrix.PosSemidef ↔ ∀ v, 0 ≤ V v := by
    constructor
    · intro h v
      rw [← hq]
      simpa using h.dotProduct_mulVec_nonneg v
    · intro h
      refine Matrix.PosSemidef.of_dotProduct_mulVec_nonneg hh fun v => ?_
      have := h v
      rw [← hq] at this
      simpa using this
  refine ⟨?_, ?_, ?_⟩
  · rintro ⟨v, hv⟩
    have h1 : ¬ (CovArg.full A).matrix.PosSemidef := fun h => absurd (hps.1 h v) (not_le.2 hv)
    unfold gaussianCoefficient
    rw [if_neg fun h => h1 h.posSemidef, if_neg h1]
  · rintro h ⟨v, hv, h0⟩
    unfold gaussianCoefficient
    rw [if_neg fun h' => (hpd.1 h' v hv).ne' h0, if_pos (hps.2 h)]
  · intro h
    unfold gaussianCoefficient
    exact ⟨_, if_pos (hpd.2 h)⟩

/-- Both exceptions occur: a covariance with a negative variance and one of rank one. -/
example :
    gaussianCoefficient (d := 2) 0 (.full !![1, 5; 0, -1]) 1 = .error .valueError ∧
    gaussianCoefficient (d := 2) 0 (.full !![1, 5; 1, 1]) 1 = .error .linAlgError := by
  refine ⟨(C72_gaussian_refused_full 0 _ 1 _ rfl).1 ⟨![0, 1], ?_⟩,
    (C72_gaussian_refused_full 0 _ 1 _ rfl).2.1 (fun v => ?_) ⟨![1, -1], ?_, ?_⟩⟩
  · simp [Fin.sum_univ_two]
  · have : 0 ≤ (v 0 + v 1) * (v 0 + v 1) := mul_self_nonneg _
    simp [Fin.sum_univ_two]
    nlinarith
  · intro h
    have := congrFun h 0
    simp at this
  · simp [Fin.sum_univ_two]

/-- C72: entries above the diagonal of a covariance matrix are ignored. -/
theorem C72_gaussian_lower (mean : Fin d → ℝ) (A B : Matrix (Fin d) (Fin d) ℝ) (amplitude : ℝ)
    (h : ∀ i j, j ≤ i → A i j = B i j) :
    gaussianCoefficient mean (.full A) amplitude = gaussianCoefficient mean (.full B) amplitude := by
  have : (CovArg.full A).matrix = (CovArg.full B).matrix := by
    ext i j
    exact h _ _ (min_le_max)
  unfold gaussianCoefficient
  rw [this]

/-- C72: the radial coefficient is amplitude times the Euclidean distance to the origin: zero at the
origin only, proportional along rays, and changing by at most the amplitude times the distance
moved. -/
theorem C72_radial (origin : Fin d → ℝ) (amplitude : ℝ) :
    (∀ p, radialCoefficient origin amplitude p = √(∑ i, (p i - origin i) ^ 2) * amplitude) ∧
    (amplitude ≠ 0 → ∀ p, radialCoefficient origin amplitude p = 0 ↔ p = origin) ∧
    (∀ (t : ℝ) v, radialCoefficient origin amplitude (origin + t • v) =
      |t| * radialCoefficient origin amplitude (origin + v)) ∧
    ∀ p q, |radialCoefficient origin amplitude p - radialCoefficient origin amplitude q| ≤
      |amplitude| * √(∑ i, (p i - q i) ^ 2) := by
  have hnorm : ∀ p q : Fin d → ℝ, normR (p - q) = √(∑ i, (p i - q i) ^ 2) := by
    intro p q
    unfold normR dotR
    simp [sq]
  unfold radialCoefficient
  refine ⟨fun p => by rw [hnorm], fun ha p => ?_, fun t v => ?_, fun p q => ?_⟩
  · rw [mul_eq_zero, or_iff_left ha, normR_eq_zero, sub_eq_zero]
  · rw [add_sub_cancel_left, add_sub_cancel_left, normR_smul, mul_assoc]
  · rw [← hnorm, ← sub_mul, abs_mul, mul_comm]
    refine mul_le_mul_of_nonneg_left ?_ (abs_nonneg _)
    have h1 := normR_sub_le (p - q) (q - origin)
    have h2 := normR_sub_le (q - p) (p - origin)
    have e1 : p - q + (q - origin) = p - origin := by abel
    have e2 : q - p + (p - origin) = q - origin := by abel
    have e3 : normR (q - p) = normR (p - q) := by
      have : q - p = (-1 : ℝ) • (p - q) := by
        rw [neg_one_smul]; abel
      rw [this, normR_smul]
      simp
    rw [e1] at h1
    rw [e2, e3] at h2
    rw [abs_le]
    constructor <;> linarith

theorem sumN_fin (f : Fin d → ℝ) : sumN (fun i => .fin (f i)) = .fin (∑ i, f i) := by
  have h : List.ofFn (fun i => (Num.fin (f i) : Num ℝ)) = (List.ofFn f).map Num.fin := by
    rw [List.map_ofFn]; rfl
  unfold sumN Num.sum
  rw [h, Num.foldl_add_fin, zero_add, List.sum_ofFn]

theorem foldl_sumN_nan (l : List (Num ℝ)) : l.foldl Num.add .nan = .nan := by
  induction l with
  | nil => rfl
  | cons a l ih => simpa [Num.add] using ih

theorem add_nan_right (a : Num ℝ) : Num.add a .nan = .nan := by cases a <;> rfl

theorem sumN_nan (f : Fin (d + 1) → Num ℝ) (h : ∀ i, f i = .nan) : sumN f = .nan := by
  unfold sumN Num.sum
  rw [List.ofFn_succ, List.foldl_cons, h 0, add_nan_right, foldl_sumN_nan]

theorem directional_formula (direction : Fin d → ℝ) (amplitude : ℝ) (hd : direction ≠ 0)
    (p : Fin d → ℝ) (hp : p ≠ 0) :
    directionalCoefficient direction amplitude p =
      .fin (dotR p direction / (normR p * normR direction) * amplitude) := by
  have h1 : normR direction ≠ 0 := fun h => hd (normR_eq_zero.1 h)
  have h2 : normR p ≠ 0 := fun h => hp (normR_eq_zero.1 h)
  unfold directionalCoefficient
  simp only [Num.div, h1, if_false, Num.mul, sumN_fin, h2]
  congr 2
  have hs : dotR p direction / normR direction = ∑ i, p i * (direction i / normR direction) := by
    rw [dotR, Finset.sum_div]
    exact Finset.sum_congr rfl fun i _ => mul_div_assoc _ _ _
  rw [div_mul_eq_div_div_swap, hs]

/-- C72: for a direction and a point other than zero the directional coefficient is the cosine of
the angle between them times the amplitude: at most the amplitude, reached by points in the
direction, and it depends only on the direction of the point. -/
theorem C72_directional (direction : Fin d → ℝ) (amplitude : ℝ) (hd : direction ≠ 0)
    (p : Fin d → ℝ) (hp : p ≠ 0) :
    directionalCoefficient direction amplitude p =
      .fin (dotR p direction / (normR p * normR direction) * amplitude) ∧
    |dotR p direction / (normR p * normR direction) * amplitude| ≤ |amplitude| ∧
    (∀ t : ℝ, 0 < t → directionalCoefficient direction amplitude (t • p) =
      directionalCoefficient direction amplitude p ∧
      directionalCoefficient direction amplitude (t • direction) = .fin amplitude ∧
      directionalCoefficient direction amplitude (-t • direction) = .fin (-amplitude)) := by
  have hdn : 0 < normR direction :=
    lt_of_le_of_ne (normR_nonneg _) fun h => hd (normR_eq_zero.1 h.symm)
  have hpn : 0 < normR p := lt_of_le_of_ne (normR_nonneg _) fun h => hp (normR_eq_zero.1 h.symm)
  have hdd : dotR direction direction = normR direction * normR direction :=
    (mul_self_sqrt (dotR_self_nonneg _)).symm
  have hdot : ∀ (t : ℝ) (q : Fin d → ℝ), dotR (t • q) direction = t * dotR q direction := by
    intro t q
    unfold dotR
    rw [Finset.mul_sum]
    exact Finset.sum_congr rfl fun i _ => by simp only [Pi.smul_apply, smul_eq_mul]; ring
  refine ⟨directional_formula direction amplitude hd p hp, ?_, fun t ht => ⟨?_, ?_, ?_⟩⟩
  · rw [abs_mul]
    refine mul_le_of_le_one_left (abs_nonneg _) ?_
    rw [abs_div, abs_of_pos (mul_pos hpn hdn), div_le_one (mul_pos hpn hdn)]
    exact dotR_le p direction
  · rw [directional_formula direction amplitude hd p hp,
      directional_formula direction amplitude hd _ (smul_ne_zero ht.ne' hp), hdot, normR_smul,
      abs_of_pos ht, mul_assoc t, mul_div_mul_left _ _ ht.ne']
  · rw [directional_formula direction amplitude hd _ (smul_ne_zero ht.ne' hd), hdot, normR_smul,
      abs_of_pos ht, hdd, mul_assoc t, div_self (mul_pos ht (mul_pos hdn hdn)).ne', one_mul]
  · rw [directional_formula direction amplitude hd _ (smul_ne_zero (neg_ne_zero.2 ht.ne') hd), hdot,
      normR_smul, abs_neg, abs_of_pos ht, hdd, mul_assoc t, neg_mul, neg_div,
      div_self (mul_pos ht (mul_pos hdn hdn)).ne', neg_one_mul]

/-- C72: at the origin, and everywhere for a direction of zero, the directional coefficient is
NaN. -/
theorem C72_directional_nan (direction : Fin (d + 1) → ℝ) (amplitude : ℝ) (p : Fin (d + 1) → ℝ)
    (h : direction = 0 ∨ p = 0) : directionalCoefficient direction amplitude p = .nan := by
  unfold directionalCoefficient
  rcases h with rfl | rfl
  · have h0 : normR (0 : Fin (d + 1) → ℝ) = 0 := normR_eq_zero.2 rfl
    rw [sumN_nan]
    · rfl
    · intro i
      simp [h0, Num.div, Num.infSign, Num.mul]
  · have h0 : normR (0 : Fin (d + 1) → ℝ) = 0 := normR_eq_zero.2 rfl
    by_cases hd : direction = 0
    · subst hd
      rw [sumN_nan]
      · rfl
      · intro i
        simp [h0, Num.div, Num.infSign, Num.mul]
    · have h1 : normR direction ≠ 0 := fun h => hd (normR_eq_zero.1 h)
      have : sumN (fun i => Num.mul (.fin ((0 : Fin (d + 1) → ℝ) i))
          (Num.div (.fin (direction i)) (.fin (normR direction)))) = .fin 0 := by
        simp only [Num.div, h1, if_false, Num.mul, sumN_fin, Pi.zero_apply, zero_mul,
          Finset.sum_const_zero]
      rw [this, h0]
      simp [Num.div, Num.infSign, Num.mul]

/-- C72: the sine coefficient is bounded by the amplitude, odd, and periodic. -/
theorem C72_sine (frequency : ℝ) (direction : Fin d → ℝ) (amplitude : ℝ) (p : Fin d → ℝ) :
    |sineCoefficient frequency direction amplitude p| ≤ |amplitude| ∧
    sineCoefficient frequency direction amplitude (-p) =
      -sineCoefficient frequency direction amplitude p ∧
    ∀ q : Fin d → ℝ, (∃ k : ℤ, dotR q direction * frequency = k * (2 * π)) →
      sineCoefficient frequency direction amplitude (p + q) =
        sineCoefficient frequency direction amplitude p := by
  unfold sineCoefficient
  refine ⟨?_, ?_, ?_⟩
  · rw [abs_mul]
    exact mul_le_of_le_one_left (abs_nonneg _) (abs_sin_le_one _)
  · have : dotR (-p) direction = -dotR p direction := by simp [dotR]
    rw [this, neg_mul, sin_neg, neg_mul]
  · rintro q ⟨k, hk⟩
    have : dotR (p + q) direction = dotR p direction + dotR q direction := by
      simp [dotR, add_mul, Finset.sum_add_distrib]
    rw [this, add_mul, hk, sin_add_int_mul_two_pi]

/-- The hypotheses of C72 hold for the covariances used in the simulations. -/
example : (CovArg.scalar 3 : CovArg 2).matrix.PosDef ∧
    (CovArg.full !![3, 4; 4, 8] : CovArg 2).matrix.PosDef ∧
    (![1, 2] : Fin 2 → ℝ) ≠ 0 := by
  refine ⟨Matrix.PosDef.diagonal fun _ => by norm_num, ?_, ?_⟩
  · refine Matrix.PosDef.of_dotProduct_mulVec_pos ?_ ?_
    · ext i j
      fin_cases i <;> fin_cases j <;> simp [CovArg.matrix]
    · intro x hx
      have e : star x ⬝ᵥ ((CovArg.full !![3, 4; 4, 8] : CovArg 2).matrix *ᵥ x) =
          (x 0 + 2 * x 1) ^ 2 + 2 * (x 0) ^ 2 + 4 * (x 0 * x 1) + 4 * (x 1) ^ 2 := by
        simp [CovArg.matrix, dotProduct, mulVec, Fin.sum_univ_two]
        ring
      rw [e]
      have hne : x 0 ≠ 0 ∨ x 1 ≠ 0 := by
        by_contra h
        push Not at h
        apply hx
        funext i
        fin_cases i
        · exact h.1
        · exact h.2
      rcases hne with h | h
      · have := sq_pos_of_ne_zero h
        nlinarith [sq_nonneg (x 0 + 2 * x 1), sq_nonneg (x 0 + x 1 * 2)]
      · have := sq_pos_of_ne_zero h
        nlinarith [sq_nonneg (x 0 + 2 * x 1), sq_nonneg (x 0 + x 1)]
  · intro h
    have := congrFun h 0
    simp at this

/-! ### C80: combined coefficients -/

/-- C80: with at least two coefficients the result has one value per point, the operator applied to
the values of the coefficients at that point. -/
theorem C80_several {P : Type} (whole : List ℝ → List ℝ) (rows : List ℝ → ℝ) (cs : List (P → ℝ))
    (h : 2 ≤ cs.length) (points : List P) :
    ∃ r, coefficientWrapper whole rows cs points = .ok r ∧ r.length = points.length ∧
      ∀ i (hi : i < points.length), r.getD i 0 = rows (cs.map fun c => c points[i]) := by
  match cs, h with
  | c₁ :: c₂ :: cs, _ =>
    refine ⟨_, rfl, by simp, fun i hi => ?_⟩
    simp [List.getElem?_eq_getElem hi]

/-- C80: with one coefficient the operator is called on the vector of all values without an axis. An
elementwise operator gives one value per point; a reduction such as `np.sum` gives one number for
all points together: not the coefficient that summing it with a zero coefficient gives. Without
coefficients the call fails. -/
theorem C80_single {P : Type} (c : P → ℝ) (points : List P) :
    (∀ g : ℝ → ℝ, coefficientWrapper (List.map g) List.sum [c] points =
      .ok (points.map fun p => g (c p))) ∧
    coefficientWrapper (fun l => [l.sum]) List.sum [c] points = .ok [(points.map c).sum] ∧
    coefficientWrapper (fun l => [l.sum]) List.sum [c, fun _ => 0] points = .ok (points.map c) ∧
    (∀ whole rows, coefficientWrapper whole rows ([] : List (P → ℝ)) points =
      .error .valueError) := by
  refine ⟨fun g => ?_, rfl, ?_, fun _ _ => rfl⟩
  · simp [coefficientWrapper]
  · simp [coefficientWrapper]

/-- The premise of C80 and the difference for two points. -/
example : coefficientWrapper (fun l => [l.sum]) List.sum [fun x : ℝ => x] [1, 2] = .ok [3] ∧
    coefficientWrapper (fun l => [l.sum]) List.sum [fun x : ℝ => x, fun _ => 10] [1, 2] =
      .ok [11, 12] := by
  constructor
  · simp [coefficientWrapper]; norm_num
  · simp [coefficientWrapper]; norm_num

/-! ### C81: responses -/

/-- C81: linear responses are linear in x, quadratic ones even and of degree two; interactions are
symmetric and linear in each argument. -/
theorem C81_polynomials {P : Type} (c : P → ℝ) (p : P) (x y t : ℝ) :
    linearFunction c (x + y) p = linearFunction c x p + linearFunction c y p ∧
    linearFunction c (t * x) p = t * linearFunction c x p ∧
    linearFunction c 1 p = c p ∧
    squareFunction c (-x) p = squareFunction c x p ∧
    squareFunction c (t * x) p = t ^ 2 * squareFunction c x p ∧
    squareFunction c 1 p = c p ∧
    interactionFunction c x y p = interactionFunction c y x p ∧
    interactionFunction c x y p = y * linearFunction c x p ∧
    interactionFunction c x x p = squareFunction c x p ∧
    (∀ k, polynomialFunction c k 1 p = c p ∧
      polynomialFunction c k (t * x) p = t ^ k * polynomialFunction c k x p) := by
  unfold squareFunction linearFunction polynomialFunction interactionFunction
  refine ⟨by ring, by ring, by ring, by ring, by ring, by ring, by ring, by ring, by ring,
    fun k => ⟨by ring, by ring⟩⟩

/-- C81: sigmoid responses are bounded by the coefficient, odd, and increasing for a positive
coefficient. -/
theorem C81_sigmoid {P : Type} (c : P → ℝ) (p : P) (x : ℝ) :
    |sigmoidFunction c x p| ≤ |c p| ∧ (c p ≠ 0 → |sigmoidFunction c x p| < |c p|) ∧
    sigmoidFunction c (-x) p = -sigmoidFunction c x p ∧
    (0 < c p → ∀ y, x < y → sigmoidFunction c x p < sigmoidFunction c y p) := by
  have hb : |tanh x| < 1 := abs_lt.2 ⟨neg_one_lt_tanh x, tanh_lt_one x⟩
  unfold sigmoidFunction
  refine ⟨?_, fun h => ?_, by rw [tanh_neg, mul_neg], fun h y hxy => ?_⟩
  · rw [abs_mul]
    exact mul_le_of_le_one_right (abs_nonneg _) hb.le
  · rw [abs_mul]
    exact mul_lt_of_lt_one_right (abs_pos.2 h) hb
  · refine mul_lt_mul_of_pos_left ?_ h
    rw [tanh_eq_sinh_div_cosh, tanh_eq_sinh_div_cosh, div_lt_div_iff₀ (cosh_pos x) (cosh_pos y)]
    have := sinh_pos_iff.2 (sub_pos.2 hxy)
    rw [sinh_sub] at this
    linarith

/-- C81: rectified responses are zero for negative x and linear for positive x; exponential ones
have the sign of the coefficient and multiply by `exp y` when x moves by y. -/
theorem C81_relu_exponential {P : Type} (c : P → ℝ) (p : P) (x : ℝ) :
    (x ≤ 0 → reluFunction c x p = 0) ∧ (0 ≤ x → reluFunction c x p = linearFunction c x p) ∧
    exponentialFunction c 0 p = c p ∧
    (∀ y, exponentialFunction c (x + y) p = exponentialFunction c x p * exp y) ∧
    (c p ≠ 0 → 0 < exponentialFunction c x p * c p) := by
  unfold reluFunction exponentialFunction linearFunction polynomialFunction
  refine ⟨fun h => by rw [max_eq_left h, mul_zero], fun h => by rw [max_eq_right h, pow_one],
    by simp, fun y => by rw [exp_add]; ring, fun h => ?_⟩
  have : c p * exp x * c p = c p ^ 2 * exp x := by ring
  rw [this]
  positivity

/-! ### C82: sampled points -/

/-- What is assumed of the generator: as many numbers as requested, uniform ones in [0, 1),
exponential ones not negative, positions in range. -/
structure DrawRng.Valid (g : DrawRng S) : Prop where
  uniform : ∀ s n, (g.uniform s n).1.length = n ∧ ∀ u ∈ (g.uniform s n).1, 0 ≤ u ∧ u < 1
  normal : ∀ s n, (g.normal s n).1.length = n
  exponential : ∀ s n, (g.exponential s n).1.length = n ∧ ∀ u ∈ (g.exponential s n).1, 0 ≤ u
  choice : ∀ s m n, 0 < m → (g.choice s m n).1.length = n ∧ ∀ k ∈ (g.choice s m n).1, k < m

/-- Acceptable arguments for dimension `i`, and what the column must satisfy. -/
def ColumnFor (bounds : BoundsArg) (types : TypeArg) (n i : Nat) (col : List ℝ) : Prop :=
  col.length = n ∧ ∀ t, types.at i = .ok t →
    (t = "continuous" → ∀ lo hi rest, bounds.at i = .ok (.inr (lo :: hi :: rest)) →
      ∀ v ∈ col, lo ≤ v ∧ v ≤ hi ∧ (lo < hi → v < hi)) ∧
    (t = "discrete" → ∀ b, bounds.at i = .ok (.inr b) → ∀ v ∈ col, v ∈ b) ∧
    (t ≠ "continuous" → t ≠ "discrete" → ∀ v ∈ col, v = 0)

/-- The arguments for dimension `i` are usable. -/
def DimOk (bounds : BoundsArg) (types : TypeArg) (i : Nat) : Prop :=
  ∃ t, types.at i = .ok t ∧
    (t = "continuous" → ∃ lo hi rest, bounds.at i = .ok (.inr (lo :: hi :: rest)) ∧ lo ≤ hi) ∧
    (t = "discrete" → ∃ b, bounds.at i = .ok (.inr b) ∧ b ≠ [])

theorem pointsColumn_spec (g : DrawRng S) (hg : g.Valid) (s : S) (n : Nat) (bounds : BoundsArg)
    (types : TypeArg) (i : Nat) (h : DimOk bounds types i) :
    ∃ col s', pointsColumn g s n bounds types i = (.ok col, s') ∧
      ColumnFor bounds types n i col := by
  obtain ⟨t, ht, hc, hd⟩ := h
  unfold pointsColumn ColumnFor
  rw [ht]
  simp only
  by_cases h1 : t = "continuous"
  · obtain ⟨lo, hi, rest, hb, hle⟩ := hc h1
    rw [if_pos h1, hb]
    refine ⟨_, _, rfl, ?_, ?_⟩
    · simp [uniformBetween, (hg.uniform s n).1]
    · intro t' ht'
      injection ht' with ht'
      subst ht'
      refine ⟨fun _ lo' hi' rest' hb' v hv => ?_, fun h => ?_, fun h => absurd h1 h⟩
      · injection hb' with hb'
        injection hb' with hb'
        injection hb' with e1 e2
        injection e2 with e2 e3
        subst e1 e2
        obtain ⟨u, hu, rfl⟩ := List.mem_map.1 hv
        obtain ⟨h0, h1⟩ := (hg.uniform s n).2 u hu
        have hn : 0 ≤ hi - lo := sub_nonneg.2 hle
        refine ⟨?_, ?_, fun hlt => ?_⟩
        · have := mul_nonneg hn h0
          linarith
        · have := mul_le_of_le_one_right hn h1.le
          linarith
        · have := mul_lt_of_lt_one_right (sub_pos.2 hlt) h1
          linarith
      · rw [h1] at h
        exact absurd h (by decide)
  · rw [if_neg h1]
    by_cases h2 : t = "discrete"
    · obtain ⟨b, hb, hne⟩ := hd h2
      rw [if_pos h2, hb]
      obtain ⟨c, cs, rfl⟩ := List.exists_cons_of_ne_nil hne
      have hch := hg.choice s (cs.length + 1) n (Nat.succ_pos _)
      refine ⟨_, _, rfl, by simp [hch.1], ?_⟩
      intro t' ht'
      injection ht' with ht'
      subst ht'
      refine ⟨fun h => absurd h h1, fun _ b' hb' v hv => ?_, fun _ h => absurd h2 h⟩
      injection hb' with hb'
      injection hb' with hb'
      subst hb'
      obtain ⟨k, hk, rfl⟩ := List.mem_map.1 hv
      have hk := hch.2 k hk
      have hk' : k < (c :: cs).length := by simpa using hk
      rw [List.getD_eq_getElem?_getD, List.getElem?_eq_getElem hk', Option.getD_some]
      exact List.getElem_mem _
    · rw [if_neg h2]
      refine ⟨_, _, rfl, by simp, ?_⟩
      intro t' ht'
      injection ht' with ht'
      subst ht'
      exact ⟨fun h => absurd h h1, fun h => absurd h h2, fun _ _ v hv => List.eq_of_mem_replicate hv⟩

/-- C82: usable arguments give one column per dimension with the requested number of entries:
continuous ones within the bounds of their dimension, discrete ones among its classes. A column of
any other type is zero: a misspelt type is not reported. -/
theorem C82_points (g : DrawRng S) (hg : g.Valid) (s : S) (n dim : Nat) (bounds : BoundsArg)
    (types : TypeArg) (h : ∀ i < dim, DimOk bounds types i) :
    ∃ cols s', samplePoints g s n dim bounds types = (.ok cols, s') ∧ cols.length = dim ∧
      ∀ i < dim, ColumnFor bounds types n i (cols.getD i []) := by
  have key : ∀ (is : List Nat) (s : S), (∀ i ∈ is, DimOk bounds types i) →
      ∃ cols s', pointsLoop g n bounds types is s = (.ok cols, s') ∧
        List.Forall₂ (fun i col => ColumnFor bounds types n i col) is cols := by
    intro is
    induction is with
    | nil => exact fun s _ => ⟨[], s, rfl, .nil⟩
    | cons i is ih =>
      intro s his
      obtain ⟨c, s1, h1, h2⟩ := pointsColumn_spec g hg s n bounds types i (his i (by simp))
      obtain ⟨cs, s2, h3, h4⟩ := ih s1 fun j hj => his j (by simp [hj])
      refine ⟨c :: cs, s2, ?_, .cons h2 h4⟩
      unfold pointsLoop
      rw [h1]
      simp only
      rw [h3]
  obtain ⟨cols, s', h1, h2⟩ := key (List.range dim) s fun i hi => h i (by simpa using hi)
  have hlen : cols.length = dim := by simpa using h2.length_eq.symm
  refine ⟨cols, s', h1, hlen, fun i hi => ?_⟩
  have := List.forall₂_iff_get.1 h2
  have hg := this.2 i (by simpa using hi) (by omega)
  simpa [List.getElem?_eq_getElem (show i < cols.length by omega)] using hg

/-- C82: one pair of bounds must not be passed as a list: it would be taken as one entry per
dimension, and the call fails. -/
theorem C82_pair_as_list (g : DrawRng S) (s : S) (n dim : Nat) (lo hi : ℝ) :
    (samplePoints g s n (dim + 1) (.perDim [.inl lo, .inl hi]) (.common "continuous")).1 =
      .error .typeError := by
  unfold samplePoints
  rw [List.range_succ_eq_map]
  rfl

/-- A generator that always draws the same numbers. -/
noncomputable def constRng : DrawRng Unit where
  uniform _ n := (List.replicate n (1 / 2), ())
  normal _ n := (List.replicate n (-2), ())
  exponential _ n := (List.replicate n 3, ())
  choice _ m n := (List.replicate n (m - 1), ())

theorem constRng_valid : constRng.Valid where
  uniform s n := by
    refine ⟨by simp [constRng], fun u hu => ?_⟩
    rw [List.eq_of_mem_replicate hu]
    norm_num
  normal s n := by simp [constRng]
  exponential s n := by
    refine ⟨by simp [constRng], fun u hu => ?_⟩
    rw [List.eq_of_mem_replicate hu]
    norm_num
  choice s m n hm := by
    refine ⟨by simp [constRng], fun u hu => ?_⟩
    rw [List.eq_of_mem_replicate hu]
    omega

/-- The hypotheses of C82 hold: a continuous, a discrete and a misspelt dimension. -/
example : ∀ i < 3, DimOk (.perDim [.inr [-1, 1], .inr [2, 3, 5], .inr [7, 8]])
    (.perDim ["continuous", "discrete", "continous"]) i := by
  intro i hi
  match i, hi with
  | 0, _ => exact ⟨"continuous", rfl, fun _ => ⟨-1, 1, [], rfl, by norm_num⟩,
      fun h => absurd h (by decide)⟩
  | 1, _ => exact ⟨"discrete", rfl, fun h => absurd h (by decide), fun _ => ⟨_, rfl, by simp⟩⟩
  | 2, _ => exact ⟨"continous", rfl, fun h => absurd h (by decide), fun h => absurd h (by decide)⟩

/-! ### C83: sampled features -/

/-- The entries a parameter has for `n` points. -/
def EntriesOf {P : Type} (points : List P) (n : Nat) (q : XParam P) (l : List ℝ) : Prop :=
  l.length = n ∧ ((∃ v, q = .num v ∧ ∀ i < n, l.getD i 0 = v) ∨ q = .vec l ∨
    ∃ c, q = .fn c ∧ c points = l)

theorem entries_eval {P : Type} {points : List P} {n : Nat} {q : XParam P} {l : List ℝ}
    (h : EntriesOf points n q l) : (q.eval points).entries n = .ok l := by
  obtain ⟨hl, h⟩ := h
  rcases h with ⟨v, rfl, hv⟩ | rfl | ⟨c, rfl, hc⟩
  · change Except.ok (List.replicate n v) = Except.ok l
    congr 1
    apply List.ext_getElem
    · simp [hl]
    · intro i h1 h2
      have := hv i (by omega)
      simp only [List.getD_eq_getElem?_getD, List.getElem?_eq_getElem h2, Option.getD_some] at this
      simp [this]
  · simp [XParam.eval, XParam.entries, hl]
  · simp [XParam.eval, XParam.entries, hc, hl]

/-- Bounds that can be evaluated: a list, or a tuple without functions. -/
def BoundsOk {P : Type} (b : XBounds P) : Prop :=
  b.isList = true ∨ (b.lo.callable = false ∧ b.hi.callable = false)

theorem evalBounds_ok {P : Type} (points : List P) {b : XBounds P} (h : BoundsOk b) :
    evalBounds points b = (.ok (), { b with lo := b.lo.eval points, hi := b.hi.eval points }) := by
  unfold evalBounds
  rw [if_neg]
  rcases h with h | ⟨h1, h2⟩
  · simp [h]
  · simp [h1, h2]

/-- C83: uniform features lie between the bounds moved by the mean, each at its own point. -/
theorem C83_uniform {P : Type} (g : DrawRng S) (hg : g.Valid) (s : S) (n : Nat) (b : XBounds P)
    (hb : BoundsOk b) (a : XArgs P) (ht : a.type = "uniform") (lo hi mean : List ℝ)
    (hlo : EntriesOf a.points n b.lo lo) (hhi : EntriesOf a.points n b.hi hi)
    (hm : EntriesOf a.points n a.mean mean) (hle : ∀ i < n, lo.getD i 0 ≤ hi.getD i 0) :
    ∃ r, (sampleX g s n b a).1.1 = .ok (some r) ∧ r.length = n ∧ ∀ i < n,
      lo.getD i 0 + mean.getD i 0 ≤ r.getD i 0 ∧ r.getD i 0 ≤ hi.getD i 0 + mean.getD i 0 := by
  have hu := hg.uniform s n
  refine ⟨uniformX (g.uniform s n).1 lo hi mean, ?_, by simp [uniformX, hu.1], fun i hin => ?_⟩
  · unfold sampleX
    rw [evalBounds_ok a.points hb]
    simp only [drawX, ht, if_true]
    rw [entries_eval hlo, entries_eval hhi, entries_eval hm]
  · have hi' : i < (g.uniform s n).1.length := by rw [hu.1]; exact hin
    have hv := hu.2 ((g.uniform s n).1.getD i 0) (by simp [List.getElem?_eq_getElem hi'])
    have hr : (uniformX (g.uniform s n).1 lo hi mean).getD i 0 = (g.uniform s n).1.getD i 0 *
        (hi.getD i 0 - lo.getD i 0) + lo.getD i 0 + mean.getD i 0 := by
      unfold uniformX
      rw [List.getD_eq_getElem?_getD, List.getElem?_map, List.getElem?_range hi']
      rfl
    rw [hr]
    have hn : 0 ≤ hi.getD i 0 - lo.getD i 0 := sub_nonneg.2 (hle i hin)
    have h1 := mul_nonneg hv.1 hn
    have h2 := mul_le_of_le_one_left hn hv.2.le
    constructor <;> linarith

/-- C83: in normal features the argument called variance multiplies the standard normal draw: it is
a standard deviation. Multiplying it by a factor multiplies the deviation from the mean by the
factor, not by its root. -/
theorem C83_variance_is_sd {P : Type} (g : DrawRng S) (hg : g.Valid) (s : S) (n : Nat)
    (b : XBounds P) (hb : BoundsOk b) (a : XArgs P) (ht : a.type = "normal") (var mean : List ℝ)
    (hv : EntriesOf a.points n a.variance var) (hm : EntriesOf a.points n a.mean mean) :
    ∃ r, (sampleX g s n b a).1.1 = .ok (some r) ∧ r.length = n ∧
      (∀ i < n, r.getD i 0 - mean.getD i 0 = (g.normal s n).1.getD i 0 * var.getD i 0) ∧
      ∀ k : ℝ, ∃ r', (sampleX g s n b { a with variance := .vec (var.map (k * ·)) }).1.1 =
          .ok (some r') ∧
        ∀ i < n, r'.getD i 0 - mean.getD i 0 = k * (r.getD i 0 - mean.getD i 0) := by
  have hu := hg.normal s n
  have hr : ∀ (var : List ℝ), ∀ i < n, (normalX (g.normal s n).1 var mean).getD i 0 =
      (g.normal s n).1.getD i 0 * var.getD i 0 + mean.getD i 0 := by
    intro var i hin
    unfold normalX
    rw [List.getD_eq_getElem?_getD, List.getElem?_map, List.getElem?_range (by rw [hu]; exact hin)]
    rfl
  have hrun : ∀ (a : XArgs P) (var : List ℝ), a.type = "normal" →
      EntriesOf a.points n a.variance var → EntriesOf a.points n a.mean mean →
      (sampleX g s n b a).1.1 = .ok (some (normalX (g.normal s n).1 var mean)) := by
    intro a var ht hv hm
    unfold sampleX
    rw [evalBounds_ok a.points hb]
    simp only [drawX, ht]
    rw [if_neg (by decide), if_pos trivial, entries_eval hv, entries_eval hm]
  refine ⟨_, hrun a var ht hv hm, by simp [normalX, hu], fun i hi => ?_, fun k => ?_⟩
  · rw [hr var i hi]; ring
  · refine ⟨_, hrun { a with variance := .vec (var.map (k * ·)) } (var.map (k * ·)) ht
      ⟨by simp [hv.1], .inr (.inl rfl)⟩ hm, fun i hi => ?_⟩
    have hi' : i < var.length := by rw [hv.1]; exact hi
    rw [hr _ i hi, hr _ i hi]
    have : (var.map (k * ·)).getD i 0 = k * var.getD i 0 := by simp [List.getElem?_eq_getElem hi']
    rw [this]
    ring

/-- C83: exponential features are not negative for a scale that is not; an unknown distribution
gives `None`, without an error. -/
theorem C83_exponential {P : Type} (g : DrawRng S) (hg : g.Valid) (s : S) (n : Nat)
    (b : XBounds P) (hb : BoundsOk b) (a : XArgs P) :
    (a.type = "exponential" → ∀ scale, EntriesOf a.points n a.scale scale →
      (∀ i < n, 0 ≤ scale.getD i 0) → ∃ r, (sampleX g s n b a).1.1 = .ok (some r) ∧
        r.length = n ∧ ∀ x ∈ r, 0 ≤ x) ∧
    (a.type ≠ "uniform" → a.type ≠ "normal" → a.type ≠ "exponential" →
      (sampleX g s n b a).1.1 = .ok none) := by
  constructor
  · intro ht scale hs hpos
    have hu := hg.exponential s n
    refine ⟨exponentialX (g.exponential s n).1 scale, ?_, by simp [exponentialX, hu.1], ?_⟩
    · unfold sampleX
      rw [evalBounds_ok a.points hb]
      simp only [drawX, ht]
      rw [if_neg (by decide), if_neg (by decide), if_pos trivial, entries_eval hs]
    · intro x hx
      obtain ⟨i, hi, rfl⟩ := List.mem_map.1 hx
      have hi : i < (g.exponential s n).1.length := by simpa using hi
      exact mul_nonneg (hu.2 _ (by simp [List.getElem?_eq_getElem hi])) (hpos i (by rw [← hu.1]; exact hi))
  · intro h1 h2 h3
    unfold sampleX
    rw [evalBounds_ok a.points hb]
    simp [drawX, h1, h2, h3]

/-- C83: functions given as bounds in a list are replaced in the caller's list by their values at
the points of this call. Every later call with that list uses these values whatever its points are,
and a uniform draw for another number of points fails (unless one of the numbers is one, where
numpy broadcasts). In a tuple functions are refused with
`TypeError`; bounds that are not functions stay as they are. -/
theorem C83_bounds_overwritten {P : Type} (g : DrawRng S) (s : S) (n : Nat)
    (clo chi : List P → List ℝ) (a : XArgs P) :
    (sampleX g s n ⟨true, .fn clo, .fn chi⟩ a).1.2 =
      ⟨true, .vec (clo a.points), .vec (chi a.points)⟩ ∧
    (∀ (s' : S) (n' : Nat) (a' : XArgs P),
      (sampleX g s' n' (sampleX g s n ⟨true, .fn clo, .fn chi⟩ a).1.2 a').1.2 =
        ⟨true, .vec (clo a.points), .vec (chi a.points)⟩ ∧
      (a'.type = "uniform" → (clo a.points).length ≠ n' → n' ≠ 1 → (clo a.points).length ≠ 1 →
        (sampleX g s' n' (sampleX g s n ⟨true, .fn clo, .fn chi⟩ a).1.2 a').1.1 =
          .error .valueError)) ∧
    (sampleX g s n ⟨false, .fn clo, .fn chi⟩ a).1.1 = .error .typeError ∧
    ∀ b : XBounds P, b.lo.callable = false → b.hi.callable = false →
      (sampleX g s n b a).1.2 = b := by
  have h1 : (sampleX g s n ⟨true, .fn clo, .fn chi⟩ a).1.2 =
      ⟨true, .vec (clo a.points), .vec (chi a.points)⟩ := rfl
  refine ⟨h1, fun s' n' a' => ?_, rfl, ?_⟩
  · rw [h1]
    refine ⟨rfl, fun ht hn _ _ => ?_⟩
    have he : (XParam.vec (clo a.points) : XParam P).entries n' = .error .valueError := by
      exact if_neg hn
    unfold sampleX
    rw [evalBounds_ok a'.points (.inl rfl)]
    simp only [drawX, ht, if_true, XParam.eval]
    rw [he]
  · rintro ⟨il, lo, hi⟩ hl hh
    unfold sampleX
    rw [evalBounds_ok a.points (.inr ⟨hl, hh⟩)]
    simp only
    cases lo <;> cases hi <;> simp_all [XParam.eval, XParam.callable]

/-- The hypotheses of C83 hold: bounds that depend on the points. -/
example : BoundsOk (⟨true, .fn fun ps => ps, .num 9⟩ : XBounds ℝ) ∧
    EntriesOf [1, (2 : ℝ)] 2 (.fn fun ps => ps) [1, 2] ∧
    EntriesOf [1, (2 : ℝ)] 2 (.num 9) [9, 9] ∧ constRng.Valid := by
  refine ⟨.inl rfl, ⟨rfl, .inr (.inr ⟨_, rfl, rfl⟩)⟩, ⟨rfl, .inl ⟨9, rfl, ?_⟩⟩, constRng_valid⟩
  intro i hi
  match i, hi with
  | 0, _ => rfl
  | 1, _ => rfl

/-- C82: a list gives the bounds of each dimension, in order, anything else the bounds of all; the
same for the types. -/
theorem C82_dimensions (g : DrawRng S) (hg : g.Valid) (s : S) (n : Nat) (bs : List (List ℝ))
    (t : String) (lo hi : ℝ) (dim : Nat) :
    (t = "continuous" → (∀ b ∈ bs, ∃ lo hi, b = [lo, hi] ∧ lo < hi) →
      ∃ cols s', samplePoints g s n bs.length (.perDim (bs.map .inr)) (.common t) = (.ok cols, s') ∧
        cols.length = bs.length ∧ ∀ i (h : i < bs.length), (cols.getD i []).length = n ∧
          ∀ v ∈ cols.getD i [], bs[i].getD 0 0 ≤ v ∧ v < bs[i].getD 1 0) ∧
    (t = "discrete" → (∀ b ∈ bs, b ≠ []) →
      ∃ cols s', samplePoints g s n bs.length (.perDim (bs.map .inr))
          (.perDim (bs.map fun _ => t)) = (.ok cols, s') ∧
        cols.length = bs.length ∧ ∀ i (h : i < bs.length), (cols.getD i []).length = n ∧
          ∀ v ∈ cols.getD i [], v ∈ bs[i]) ∧
    (lo < hi → ∃ cols s', samplePoints g s n dim (.common [lo, hi]) (.common "continuous") =
        (.ok cols, s') ∧ cols.length = dim ∧ ∀ i < dim, (cols.getD i []).length = n ∧
          ∀ v ∈ cols.getD i [], lo ≤ v ∧ v < hi) := by
  have hget : ∀ {α β : Type} (f : α → β) (l : List α) (i : Nat) (h : i < l.length),
      pyGet (l.map f) i = .ok (f l[i]) := by
    intro α β f l i h
    simp [pyGet, List.getElem?_eq_getElem h]
  refine ⟨?_, ?_, ?_⟩
  · rintro rfl hb
    obtain ⟨cols, s', h1, h2, h3⟩ := C82_points g hg s n bs.length (.perDim (bs.map .inr))
      (.common "continuous") fun i hi => ⟨_, rfl, fun _ => by
        obtain ⟨lo, hi', e, hlt⟩ := hb _ (List.getElem_mem hi)
        exact ⟨lo, hi', [], by rw [BoundsArg.at, hget _ _ _ hi, e], hlt.le⟩, fun h => by simp at h⟩
    refine ⟨cols, s', h1, h2, fun i hi => ⟨(h3 i hi).1, fun v hv => ?_⟩⟩
    obtain ⟨lo, hi', e, hlt⟩ := hb _ (List.getElem_mem hi)
    obtain ⟨a, -, b⟩ := ((h3 i hi).2 "continuous" rfl).1 rfl lo hi' []
      (by rw [BoundsArg.at, hget _ _ _ hi, e]) v hv
    rw [e]
    exact ⟨a, b hlt⟩
  · rintro rfl hb
    obtain ⟨cols, s', h1, h2, h3⟩ := C82_points g hg s n bs.length (.perDim (bs.map .inr))
      (.perDim (bs.map fun _ => "discrete")) fun i hi => ⟨"discrete", by
        rw [TypeArg.at, hget _ _ _ hi], fun h => by simp at h, fun _ =>
        ⟨bs[i], by rw [BoundsArg.at, hget _ _ _ hi], hb _ (List.getElem_mem hi)⟩⟩
    refine ⟨cols, s', h1, h2, fun i hi => ⟨(h3 i hi).1, fun v hv => ?_⟩⟩
    exact ((h3 i hi).2 "discrete" (by rw [TypeArg.at, hget _ _ _ hi])).2.1 rfl bs[i]
      (by rw [BoundsArg.at, hget _ _ _ hi]) v hv
  · intro hlt
    obtain ⟨cols, s', h1, h2, h3⟩ := C82_points g hg s n dim (.common [lo, hi])
      (.common "continuous") fun i _ => ⟨_, rfl, fun _ => ⟨lo, hi, [], rfl, hlt.le⟩,
        fun h => by simp at h⟩
    refine ⟨cols, s', h1, h2, fun i hi' => ⟨(h3 i hi').1, fun v hv => ?_⟩⟩
    obtain ⟨a, -, b⟩ := ((h3 i hi').2 "continuous" rfl).1 rfl lo hi [] rfl v hv
    exact ⟨a, b hlt⟩

/-- C82 is not vacuous: the second dimension has bounds of its own. -/
example : ∀ b ∈ ([[0, 1], [5, 6]] : List (List ℝ)), ∃ lo hi, b = [lo, hi] ∧ lo < hi := by
  intro b hb
  rcases List.mem_cons.1 hb with rfl | hb
  · exact ⟨0, 1, rfl, by norm_num⟩
  · rcases List.mem_cons.1 hb with rfl | hb
    · exact ⟨5, 6, rfl, by norm_num⟩
    · simp at hb

end Geo
