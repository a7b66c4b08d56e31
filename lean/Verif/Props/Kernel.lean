import Verif.Lemmas.Kernel
import Mathlib.Analysis.SpecialFunctions.Exp
import Mathlib.Tactic.NormNum
set_option linter.unusedSectionVars false
/-
Properties C01-C07 and C73: kernel weights. `kernelWeight env lazy name d b` is the model of
`kernel_function` at one distance `d` with bandwidth `b`.
-/
namespace Geo
variable {K : Type} [Field K] [LinearOrder K] [IsStrictOrderedRing K]

/-- The real exponential satisfies what the theorems ask of `exp`. -/
noncomputable def realEnv (fmax : ℝ) : Env ℝ := ⟨Real.exp, fmax⟩

theorem realEnv_pos (fmax : ℝ) : (realEnv fmax).Pos where
  exp_zero := Real.exp_zero
  exp_nonneg x := (Real.exp_pos x).le
  exp_mono _ _ h := Real.exp_le_exp.2 h
  exp_pos := Real.exp_pos

/-- C01. -/
theorem C01_kernel_weight_in_unit_interval (env : Env K) (he : env.Ok) (lazy : Bool)
    (name : String) (hn : name ∈ kernelTypeEnum) (d b : K) (hd : 0 ≤ d) (hb : 0 ≤ b) :
    ∃ w, kernelWeight env lazy name d b = .ok (.fin w) ∧ 0 ≤ w ∧ w ≤ 1 :=
  ⟨_, kernelWeight_eq env lazy hn hd hb, kval_unit env he name hd hb⟩

example : ∃ w : ℚ, kernelWeight ratEnv false "tricube" 1 2 = .ok (.fin w) ∧ 0 ≤ w ∧ w ≤ 1 :=
  C01_kernel_weight_in_unit_interval ratEnv ratEnv_pos.toOk false _ (by decide) 1 2
    (by norm_num) (by norm_num)
/-- bandwidth zero -/
example : kernelWeight ratEnv false "tricube" (1:ℚ) 0 = .ok (.fin 0) := by decide +kernel

/-- C02. -/
theorem C02_nearer_never_less_weight (env : Env K) (he : env.Ok) (lazy : Bool)
    (name : String) (hn : name ∈ kernelTypeEnum) (d₁ d₂ b : K) (hd : 0 ≤ d₁) (h : d₁ ≤ d₂)
    (hb : 0 ≤ b) :
    ∃ w₁ w₂, kernelWeight env lazy name d₁ b = .ok (.fin w₁) ∧
      kernelWeight env lazy name d₂ b = .ok (.fin w₂) ∧ w₂ ≤ w₁ :=
  ⟨_, _, kernelWeight_eq env lazy hn hd hb, kernelWeight_eq env lazy hn (hd.trans h) hb,
    kval_anti env he name hd h hb⟩

example : kernelWeight ratEnv true "bisquare" (1:ℚ) 2 = .ok (.fin (9/16)) ∧
    kernelWeight ratEnv true "bisquare" (3:ℚ) 2 = .ok (.fin 0) := by decide +kernel

/-- C03: weight 1 at distance 0, for every bandwidth; with bandwidth 0 everything else gets
weight 0 except with the uniform kernel. -/
theorem C03_zero_distance_weight_one (env : Env K) (he : env.Ok) (lazy : Bool)
    (name : String) (hn : name ∈ kernelTypeEnum) (b : K) (hb : 0 ≤ b) :
    kernelWeight env lazy name 0 b = .ok (.fin 1) ∧
    ∀ d, 0 < d → name ≠ "uniform" → kernelWeight env lazy name d 0 = .ok (.fin 0) := by
  refine ⟨?_, fun d hd hu => ?_⟩
  · rw [kernelWeight_eq env lazy hn le_rfl hb, kval_self env he name hb]
  · rw [kernelWeight_eq env lazy hn hd.le le_rfl, kval_bw_zero env he name hd.le]
    simp [hd.ne', hu]

example : kernelWeight ratEnv false "gaussian" (0:ℚ) 0 = .ok (.fin 1) ∧
    kernelWeight ratEnv false "gaussian" (5:ℚ) 0 = .ok (.fin 0) := by decide +kernel

/-- C04: which points have non-zero weight. -/
theorem C04_support (env : Env K) (he : env.Pos) (lazy : Bool) (name : String)
    (hn : name ∈ kernelTypeEnum) (d b : K) (hd : 0 ≤ d) (hb : 0 < b) :
    ∃ w, kernelWeight env lazy name d b = .ok (.fin w) ∧
      (name ∈ ["linear", "bisquare", "tricube"] → (w ≠ 0 ↔ d < b)) ∧
      (name = "boxcar" → (w ≠ 0 ↔ d ≤ b)) ∧
      (name ∈ ["uniform", "gaussian", "exponential"] → w ≠ 0) := by
  refine ⟨_, kernelWeight_eq env lazy hn hd hb.le, ?_, ?_, ?_⟩
  · intro h
    have hx := div_nonneg hd hb.le
    have h1 : d < b ↔ d / b < 1 := by rw [div_lt_one hb]
    rw [kval_eq_kshape env name hb, h1]
    generalize d / b = x at hx
    by_cases hlt : 1 < x
    · rcases (by simpa using h) with rfl | rfl | rfl <;> simp [kshape, hlt, hlt.le]
    · have hxx : x * x = 1 ↔ x = 1 := by
        constructor
        · intro h; nlinarith
        · rintro rfl; ring
      have hxxx : x * x * x = 1 ↔ x = 1 := by
        constructor
        · intro h
          have := sq_le_one hx (not_lt.1 hlt)
          apply le_antisymm (not_lt.1 hlt)
          nlinarith
        · rintro rfl; ring
      have hlt1 : x < 1 ↔ x ≠ 1 := ⟨fun h => h.ne, fun h => lt_of_le_of_ne (not_lt.1 hlt) h⟩
      rw [hlt1]
      rcases (by simpa using h) with rfl | rfl | rfl <;>
        simp [kshape, hlt, sub_eq_zero, eq_comm (a := (1:K)), hxx, hxxx]
  · rintro rfl
    by_cases h : b < d <;> simp [kval, h, not_lt.1]
  · intro h
    rw [kval_eq_kshape env name hb]
    rcases (by simpa using h) with rfl | rfl | rfl <;> simp [kshape, (he.exp_pos _).ne']

example : kernelWeight ratEnv false "bisquare" (2:ℚ) 2 = .ok (.fin 0) ∧
    kernelWeight ratEnv false "boxcar" (2:ℚ) 2 = .ok (.fin 1) := by decide +kernel

/-- C05, first half. -/
theorem C05_monotone_in_bandwidth (env : Env K) (he : env.Ok) (lazy : Bool)
    (name : String) (hn : name ∈ kernelTypeEnum) (d b₁ b₂ : K) (hd : 0 ≤ d) (hb : 0 ≤ b₁)
    (h : b₁ ≤ b₂) :
    ∃ w₁ w₂, kernelWeight env lazy name d b₁ = .ok (.fin w₁) ∧
      kernelWeight env lazy name d b₂ = .ok (.fin w₂) ∧ w₁ ≤ w₂ := by
  refine ⟨_, _, kernelWeight_eq env lazy hn hd hb, kernelWeight_eq env lazy hn hd (hb.trans h), ?_⟩
  rcases hb.eq_or_lt with rfl | hb
  · rw [kval_bw_zero env he name hd]
    split_ifs with hc
    · rcases hc with rfl | rfl
      · rw [kval_self env he name h]
      · simp [kval]
    · exact (kval_unit env he name hd h).1
  · have hb2 := hb.trans_le h
    rw [kval_eq_kshape env name hb, kval_eq_kshape env name hb2]
    exact kshape_anti env he name (div_nonneg hd hb2.le) (div_le_div_of_nonneg_left hd hb h)

/-- C05, second half: a change of units changes nothing. -/
theorem C05_unit_free (env : Env K) (lazy : Bool)
    (name : String) (hn : name ∈ kernelTypeEnum) (d b c : K) (hd : 0 ≤ d) (hb : 0 ≤ b)
    (hc : 0 < c) :
    kernelWeight env lazy name (c * d) (c * b) = kernelWeight env lazy name d b := by
  rw [kernelWeight_eq env lazy hn hd hb,
    kernelWeight_eq env lazy hn (mul_nonneg hc.le hd) (mul_nonneg hc.le hb)]
  have h1 : c * d / (c * b) = d / b := mul_div_mul_left d b hc.ne'
  have h2 : c * b < c * d ↔ b < d := mul_lt_mul_iff_right₀ hc
  simp [kval, h1, h2, hc.ne']

example : kernelWeight ratEnv false "linear" (3:ℚ) 4 = .ok (.fin (1/4)) ∧
    kernelWeight ratEnv false "linear" (30:ℚ) 40 = .ok (.fin (1/4)) := by decide +kernel

/-- C06. -/
theorem C06_lazy_eq_eager (env : Env K) (name : String) (d b : K) (hd : 0 ≤ d) (hb : 0 ≤ b) :
    kernelWeight env true name d b = kernelWeight env false name d b := by
  by_cases hn : name ∈ kernelTypeEnum
  · rw [kernelWeight_eq env true hn hd hb, kernelWeight_eq env false hn hd hb]
  · have : name ≠ "bisquare" := by rintro rfl; exact hn (by decide)
    simp [kernelWeight, kernelElem, this]

example : kernelWeight ratEnv true "bisquare" (1:ℚ) 0 = .ok (.fin 0) ∧
    kernelWeight ratEnv false "bisquare" (1:ℚ) 0 = .ok (.fin 0) := by decide +kernel

/-- C07. -/
theorem C07_unknown_kernel_rejected (env : Env K) (lazy : Bool) (name : String) (d b : K) :
    (∃ w, kernelWeight env lazy name d b = .ok w) ↔
      name ∈ ["linear", "uniform", "gaussian", "exponential", "boxcar", "bisquare", "tricube"] := by
  constructor
  · rintro ⟨w, h⟩
    by_contra hn
    simp only [List.mem_cons, List.not_mem_nil, or_false, not_or] at hn
    obtain ⟨h1, h2, h3, h4, h5, h6, h7⟩ := hn
    simp [kernelWeight, kernelElem, h1, h2, h3, h4, h5, h6, h7] at h
  · intro h
    rcases (by simpa using h) with rfl | rfl | rfl | rfl | rfl | rfl | rfl <;>
      cases lazy <;> simp [kernelWeight, kernelElem]

theorem C07_unknown_kernel_raises (env : Env K) (lazy : Bool) (name : String) (d b : K)
    (h : name ∉ kernelTypeEnum) : kernelWeight env lazy name d b = .error .exception := by
  simp only [mem_kernelTypeEnum, not_or] at h
  obtain ⟨h1, h2, h3, h4, h5, h6, h7⟩ := h
  simp [kernelWeight, kernelElem, h1, h2, h3, h4, h5, h6, h7]

example : kernelWeight ratEnv false "epanechnikov" (1:ℚ) 2 = .error .exception := by decide +kernel

/-- C73: the textbook formulas, with normalised distance `x = d / b`. -/
theorem C73_kernel_formulas (env : Env K) (lazy : Bool) (d b : K) (hd : 0 ≤ d) (hb : 0 < b) :
    kernelWeight env lazy "uniform" d b = .ok (.fin 1) ∧
    kernelWeight env lazy "gaussian" d b = .ok (.fin (env.exp (-(d / b) ^ 2 / 2))) ∧
    kernelWeight env lazy "exponential" d b = .ok (.fin (env.exp (-(d / b) / 2))) ∧
    (d ≤ b →
      kernelWeight env lazy "linear" d b = .ok (.fin (1 - d / b)) ∧
      kernelWeight env lazy "boxcar" d b = .ok (.fin 1) ∧
      kernelWeight env lazy "bisquare" d b = .ok (.fin ((1 - (d / b) ^ 2) ^ 2)) ∧
      kernelWeight env lazy "tricube" d b = .ok (.fin ((1 - (d / b) ^ 3) ^ 3))) ∧
    (b < d → ∀ name ∈ ["linear", "boxcar", "bisquare", "tricube"],
      kernelWeight env lazy name d b = .ok (.fin 0)) := by
  have e (name : String) (hn : name ∈ kernelTypeEnum) :
      kernelWeight env lazy name d b = .ok (.fin (kshape env name (d / b))) := by
    rw [kernelWeight_eq env lazy hn hd hb.le, kval_eq_kshape env name hb]
  refine ⟨?_, ?_, ?_, fun h => ⟨?_, ?_, ?_, ?_⟩, fun h => ?_⟩
  · rw [e _ (by decide)]; simp [kshape]
  · rw [e _ (by decide)]; simp only [kshape]; simp; congr 1; ring
  · rw [e _ (by decide)]; simp only [kshape]; simp; congr 1; ring
  all_goals try have h1 : ¬ 1 < d / b := not_lt.2 (div_le_one_of_le₀ h hb.le)
  · rw [e _ (by decide)]; simp [kshape, h1]
  · rw [e _ (by decide)]; simp [kshape, h1]
  · rw [e _ (by decide)]; simp [kshape, h1]; ring
  · rw [e _ (by decide)]; simp [kshape, h1]; ring
  · have h1 : 1 < d / b := by rw [lt_div_iff₀ hb]; linarith
    intro name hname
    rcases (by simpa using hname) with rfl | rfl | rfl | rfl <;>
      (rw [e _ (by decide)]; simp [kshape, h1])

example : kernelWeight ratEnv false "tricube" (1:ℚ) 2 = .ok (.fin (343/512)) := by decide +kernel

end Geo
