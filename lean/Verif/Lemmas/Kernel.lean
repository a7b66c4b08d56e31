import Verif.Model.Kernel
import Mathlib.Tactic.FieldSimp
import Mathlib.Tactic.Positivity
import Mathlib.Tactic.FinCases
set_option linter.unusedSectionVars false
namespace Geo
variable {K : Type} [Field K] [LinearOrder K] [IsStrictOrderedRing K]

/-- Closed form of the kernel weights for non-negative distance and bandwidth. Division by a
zero bandwidth is `0` in Lean, hence the explicit tests. -/
def kval (env : Env K) (name : String) (d b : K) : K :=
  if name = "uniform" then 1
  else if name = "gaussian" then
    if b = 0 ∧ d ≠ 0 then 0 else env.exp (-(1 / 2) * (d / b * (d / b)))
  else if name = "exponential" then
    if b = 0 ∧ d ≠ 0 then 0 else env.exp (-(1 / 2) * (d / b))
  else if b < d then 0
  else if name = "linear" then 1 - d / b
  else if name = "boxcar" then 1
  else if name = "bisquare" then (1 - d / b * (d / b)) * (1 - d / b * (d / b))
  else (1 - d / b * (d / b) * (d / b)) * (1 - d / b * (d / b) * (d / b))
    * (1 - d / b * (d / b) * (d / b))

theorem normalizeDistance_pos (env : Env K) {d b : K} (hd : 0 ≤ d) :
    normalizeDistance env d b = if b = 0 ∧ d ≠ 0 then .pinf else .fin (d / b) := by
  unfold normalizeDistance Num.div Num.infSign
  by_cases hb0 : b = 0
  · by_cases hd0 : d = 0
    · simp [hb0, hd0]
    · simp [hb0, hd0, lt_of_le_of_ne hd (Ne.symm hd0)]
  · simp [hb0]

theorem mem_kernelTypeEnum {name : String} : name ∈ kernelTypeEnum ↔
    name = "linear" ∨ name = "uniform" ∨ name = "gaussian" ∨ name = "exponential" ∨
    name = "boxcar" ∨ name = "bisquare" ∨ name = "tricube" := by
  simp [kernelTypeEnum]

theorem div_le_one_of {d b : K} (hb : 0 ≤ b) (h : ¬ b < d) : d / b ≤ 1 :=
  div_le_one_of_le₀ (not_lt.1 h) hb

theorem kernelWeight_eq (env : Env K) (lazy : Bool) {name : String} (hn : name ∈ kernelTypeEnum)
    {d b : K} (hd : 0 ≤ d) (hb : 0 ≤ b) :
    kernelWeight env lazy name d b = .ok (.fin (kval env name d b)) := by
  have hx := normalizeDistance_pos env (b := b) hd
  have habs : |d / b| = d / b := abs_of_nonneg (div_nonneg hd hb)
  have h20 : ¬ (2:K) < 0 := not_lt.2 zero_le_two
  by_cases hs : b = 0 ∧ d ≠ 0
  · rw [if_pos hs] at hx
    obtain ⟨rfl, hd0⟩ := hs
    have hlt : 0 < d := lt_of_le_of_ne hd (Ne.symm hd0)
    rcases mem_kernelTypeEnum.1 hn with rfl | rfl | rfl | rfl | rfl | rfl | rfl <;>
      cases lazy <;>
      simp [kernelWeight, kernelElem, kval, cutSupport, Num.exp, Num.sq, Num.mul, Num.abs,
        Num.infSign, Num.lt, Num.sub, Num.add, Num.neg, hx, hd0, hlt, h20]
  · rw [if_neg hs] at hx
    by_cases hlt : b < d
    · have hb0 : 0 < b := by
        rcases hb.lt_or_eq with h | h
        · exact h
        · exact absurd ⟨h.symm, by rw [← h] at hlt; exact ne_of_gt hlt⟩ hs
      have h1 : 1 < d / b := by rw [lt_div_iff₀ hb0]; linarith
      rcases mem_kernelTypeEnum.1 hn with rfl | rfl | rfl | rfl | rfl | rfl | rfl <;>
        cases lazy <;>
        simp [kernelWeight, kernelElem, kval, cutSupport, Num.exp, Num.sq, Num.mul, Num.abs,
          Num.lt, Num.sub, Num.add, Num.neg, hx, hlt, h1, habs, hb0.ne']
    · have h1 : ¬ 1 < d / b := not_lt.2 (div_le_one_of hb hlt)
      rcases mem_kernelTypeEnum.1 hn with rfl | rfl | rfl | rfl | rfl | rfl | rfl <;>
        cases lazy <;>
        simp [kernelWeight, kernelElem, kval, cutSupport, Num.exp, Num.sq, Num.mul, Num.abs,
          Num.infSign, Num.lt, Num.sub, Num.add, Num.neg, Num.cube, hx, hs, hlt, h1, habs,
          sub_eq_add_neg]


/-- The weight as a function of the normalised distance. -/
def kshape (env : Env K) (name : String) (x : K) : K :=
  if name = "uniform" then 1
  else if name = "gaussian" then env.exp (-(1 / 2) * (x * x))
  else if name = "exponential" then env.exp (-(1 / 2) * x)
  else if 1 < x then 0
  else if name = "linear" then 1 - x
  else if name = "boxcar" then 1
  else if name = "bisquare" then (1 - x * x) * (1 - x * x)
  else (1 - x * x * x) * (1 - x * x * x) * (1 - x * x * x)

theorem kval_eq_kshape (env : Env K) (name : String) {d b : K} (hb : 0 < b) :
    kval env name d b = kshape env name (d / b) := by
  have h : (1 < d / b) ↔ b < d := by rw [lt_div_iff₀ hb, one_mul]
  simp [kval, kshape, hb.ne', h]

theorem kval_bw_zero (env : Env K) (he : env.Ok) (name : String) {d : K} (hd : 0 ≤ d) :
    kval env name d 0 = if d = 0 ∨ name = "uniform" then 1 else 0 := by
  by_cases h0 : d = 0
  · simp [kval, h0, he.exp_zero]
  · have : 0 < d := lt_of_le_of_ne hd (Ne.symm h0)
    simp [kval, h0, this]

theorem sq_le_one {x : K} (h0 : 0 ≤ x) (h1 : x ≤ 1) : x * x ≤ 1 := by nlinarith
theorem cube_le_one {x : K} (h0 : 0 ≤ x) (h1 : x ≤ 1) : x * x * x ≤ 1 := by
  have := sq_le_one h0 h1
  nlinarith [mul_nonneg h0 h0]

theorem kshape_nonneg (env : Env K) (he : env.Ok) (name : String) {x : K} (hx : 0 ≤ x) :
    0 ≤ kshape env name x := by
  unfold kshape
  split_ifs with h1 h2 h3 h4 h5 h6 h7
  · exact zero_le_one
  · exact he.exp_nonneg _
  · exact he.exp_nonneg _
  · exact le_rfl
  · linarith
  · exact zero_le_one
  · exact mul_self_nonneg _
  · have := sub_nonneg.2 (cube_le_one hx (not_lt.1 h4))
    positivity

theorem kshape_anti (env : Env K) (he : env.Ok) (name : String) {x y : K} (hx : 0 ≤ x)
    (hxy : x ≤ y) : kshape env name y ≤ kshape env name x := by
  by_cases hy : 1 < y
  · have h0 := kshape_nonneg env he name hx
    have hxx : x * x ≤ y * y := mul_le_mul hxy hxy hx (hx.trans hxy)
    unfold kshape at h0 ⊢
    split_ifs at h0 ⊢ <;> first | exact le_rfl | exact h0 | skip
    · exact he.exp_mono _ _ (by linarith)
    · exact he.exp_mono _ _ (by linarith)
  · have hx1 : ¬ 1 < x := fun h => hy (h.trans_le hxy)
    have hy0 := hx.trans hxy
    have hxx : x * x ≤ y * y := mul_le_mul hxy hxy hx hy0
    have hxxx : x * x * x ≤ y * y * y := mul_le_mul hxx hxy hx (mul_nonneg hy0 hy0)
    have h2 := sub_nonneg.2 (sq_le_one hy0 (not_lt.1 hy))
    have h3 := sub_nonneg.2 (cube_le_one hy0 (not_lt.1 hy))
    unfold kshape
    split_ifs
    · exact le_rfl
    · exact he.exp_mono _ _ (by linarith)
    · exact he.exp_mono _ _ (by linarith)
    · linarith
    · exact le_rfl
    · exact mul_le_mul (by linarith) (by linarith) h2 (by linarith)
    · have ha : 1 - y * y * y ≤ 1 - x * x * x := by linarith
      exact mul_le_mul (mul_le_mul ha ha h3 (h3.trans ha)) ha h3
        (mul_nonneg (h3.trans ha) (h3.trans ha))

theorem kshape_zero (env : Env K) (he : env.Ok) (name : String) : kshape env name 0 = 1 := by
  simp [kshape, he.exp_zero]

theorem kval_unit (env : Env K) (he : env.Ok) (name : String) {d b : K} (hd : 0 ≤ d)
    (hb : 0 ≤ b) : 0 ≤ kval env name d b ∧ kval env name d b ≤ 1 := by
  rcases hb.eq_or_lt with rfl | hb
  · rw [kval_bw_zero env he name hd]; split <;> simp
  · rw [kval_eq_kshape env name hb]
    have hx := div_nonneg hd hb.le
    exact ⟨kshape_nonneg env he name hx,
      (kshape_anti env he name le_rfl hx).trans_eq (kshape_zero env he name)⟩

theorem kval_anti (env : Env K) (he : env.Ok) (name : String) {d d' b : K} (hd : 0 ≤ d)
    (hdd : d ≤ d') (hb : 0 ≤ b) : kval env name d' b ≤ kval env name d b := by
  rcases hb.eq_or_lt with rfl | hb
  · rw [kval_bw_zero env he name hd, kval_bw_zero env he name (hd.trans hdd)]
    by_cases h : d' = 0
    · have : d = 0 := le_antisymm (hdd.trans_eq h) hd
      simp [this, h]
    · simp only [h, false_or]
      split_ifs <;> simp_all
  · rw [kval_eq_kshape env name hb, kval_eq_kshape env name hb]
    exact kshape_anti env he name (div_nonneg hd hb.le) (div_le_div_of_nonneg_right hdd hb.le)

theorem kval_self (env : Env K) (he : env.Ok) (name : String) {b : K} (hb : 0 ≤ b) :
    kval env name 0 b = 1 := by
  rcases hb.eq_or_lt with rfl | hb
  · simp [kval_bw_zero env he name le_rfl]
  · rw [kval_eq_kshape env name hb, zero_div, kshape_zero env he]

end Geo
