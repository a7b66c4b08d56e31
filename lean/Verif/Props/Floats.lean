import Verif.Model.Floats
import Verif.Props.RoundedRow
import Mathlib.Algebra.Order.Floor.Ring
import Mathlib.Data.Int.Log
import Mathlib.Tactic.Ring
import Mathlib.Tactic.Linarith
import Mathlib.Tactic.FieldSimp
import Mathlib.Tactic.NormNum
import Mathlib.Algebra.Order.Ring.Pow
import Mathlib.Analysis.SpecialFunctions.Exp
set_option linter.unusedSectionVars false
/-
Rounding to an IEEE-754 format: the nearest float is chosen. With it the hypotheses of C85 and C86
are met by double precision.
-/
namespace Geo
variable {K : Type} [Field K] [LinearOrder K] [IsStrictOrderedRing K] [FloorRing K]

/-! ### Rounding to integers -/

theorem nearestEven_close (y : K) : |(nearestEven y : K) - y| ≤ 1 / 2 := by
  have h0 := Int.floor_le y
  have h1 := Int.lt_floor_add_one y
  unfold nearestEven
  split_ifs with a b c
  · rw [abs_le]; constructor <;> linarith
  · rw [abs_le]; push_cast; constructor <;> linarith
  · rw [abs_le]; constructor <;> linarith
  · rw [abs_le]; push_cast; constructor <;> linarith

theorem nearestEven_int (m : ℤ) : nearestEven (m : K) = m := by
  unfold nearestEven
  simp

/-- no integer is nearer -/
theorem nearestEven_nearest (y : K) (m : ℤ) : |(nearestEven y : K) - y| ≤ |(m : K) - y| := by
  have hc := nearestEven_close y
  rcases eq_or_ne m (nearestEven y) with h | h
  · rw [h]
  · have h1 : (1 : K) ≤ |(m : K) - nearestEven y| := by
      have : (1 : ℤ) ≤ |m - nearestEven y| := Int.one_le_abs (sub_ne_zero.2 h)
      calc (1 : K) = ((1 : ℤ) : K) := by simp
        _ ≤ ((|m - nearestEven y| : ℤ) : K) := Int.cast_le.2 this
        _ = _ := by push_cast; rfl
    have h2 : |(m : K) - nearestEven y| ≤ |(m : K) - y| + |(nearestEven y : K) - y| := by
      have := abs_sub_le (m : K) y (nearestEven y)
      rwa [abs_sub_comm y] at this
    linarith

theorem nearestEven_neg (y : K) : nearestEven (-y) = -nearestEven y := by
  have h0 := Int.floor_le y
  have h1 := Int.lt_floor_add_one y
  rcases eq_or_ne y ⌊y⌋ with h | h
  · rw [h, ← Int.cast_neg, nearestEven_int, nearestEven_int]
  · have hlt : (⌊y⌋ : K) < y := lt_of_le_of_ne h0 (Ne.symm h)
    have hf : ⌊-y⌋ = -⌊y⌋ - 1 := by
      rw [Int.floor_eq_iff]; push_cast; constructor <;> linarith
    unfold nearestEven
    rw [hf]
    push_cast
    split_ifs with a b c d e f g <;> first | (exfalso; linarith) | omega

/-! ### The format -/

namespace Fmt
variable (F : Fmt)

/-- The numbers of the format with unbounded largest exponent: an integer of at most
`frac + 1` bits times a power of two that is not below the smallest one. -/
def IsFloat (v : K) : Prop :=
  ∃ m e : ℤ, |m| ≤ 2 ^ (F.frac + 1) ∧ F.emin - F.frac ≤ e ∧ v = m * (2 : K) ^ e

theorem two_zpow_pos (e : ℤ) : (0 : K) < 2 ^ e := zpow_pos (by norm_num) e

theorem ulp_pos (x : K) : 0 < F.ulp x := two_zpow_pos _

/-- the binade of `x`: `2^E ≤ |x|` unless `x` is below the smallest normal number -/
theorem abs_lt_ulp (x : K) : |x| < 2 ^ (F.frac + 1) * F.ulp x := by
  have h := Int.lt_zpow_succ_log_self (b := 2) (by norm_num) |x|
  have e : (2 : K) ^ (F.frac + 1) * F.ulp x = 2 ^ (max (Int.log 2 |x|) F.emin + 1) := by
    rw [ulp, ← zpow_natCast, ← zpow_add₀ (by norm_num)]
    congr 1
    push_cast
    ring
  rw [e]
  refine lt_of_lt_of_le (by exact_mod_cast h) (zpow_le_zpow_right₀ (by norm_num) ?_)
  have := le_max_left (Int.log 2 |x|) F.emin
  omega

theorem round_close (x : K) : |F.round x - x| ≤ F.ulp x / 2 := by
  have h := nearestEven_close (x / F.ulp x)
  have hu := F.ulp_pos x
  have e : F.round x - x = ((nearestEven (x / F.ulp x) : K) - x / F.ulp x) * F.ulp x := by
    unfold round
    field_simp
  rw [e, abs_mul, abs_of_pos hu]
  calc _ ≤ 1 / 2 * F.ulp x := mul_le_mul_of_nonneg_right h hu.le
    _ = _ := by ring

theorem abs_nearest_le (x : K) : |nearestEven (x / F.ulp x)| ≤ 2 ^ (F.frac + 1) := by
  have hu := F.ulp_pos x
  have h1 : |x / F.ulp x| < 2 ^ (F.frac + 1) := by
    rw [abs_div, abs_of_pos hu, div_lt_iff₀ hu]
    exact F.abs_lt_ulp x
  have h2 := nearestEven_nearest (x / F.ulp x)
  have hb := abs_lt.1 h1
  rw [abs_le]
  constructor
  · by_contra hc
    push Not at hc
    have := h2 (-2 ^ (F.frac + 1))
    have hc' : (nearestEven (x / F.ulp x) : K) < ((-2 ^ (F.frac + 1) : ℤ) : K) := Int.cast_lt.2 hc
    push_cast at hc' this
    rw [abs_of_nonpos (by linarith), abs_of_nonpos (by linarith)] at this
    linarith
  · by_contra hc
    push Not at hc
    have := h2 (2 ^ (F.frac + 1))
    have hc' : ((2 ^ (F.frac + 1) : ℤ) : K) < (nearestEven (x / F.ulp x) : K) := Int.cast_lt.2 hc
    push_cast at hc' this
    rw [abs_of_nonneg (by linarith), abs_of_nonneg (by linarith)] at this
    linarith

theorem round_isFloat (x : K) : F.IsFloat (F.round x) :=
  ⟨_, _, F.abs_nearest_le x, by have := le_max_right (Int.log 2 |x|) F.emin; omega, rfl⟩

/-- a float above the spacing around `x` is a multiple of it -/
theorem multiple_of_le {x : K} {m e : ℤ} (h : max (Int.log 2 |x|) F.emin - F.frac ≤ e) :
    ∃ n : ℤ, (m : K) * 2 ^ e = n * F.ulp x := by
  obtain ⟨k, hk⟩ := Int.eq_ofNat_of_zero_le (sub_nonneg.2 h)
  refine ⟨m * 2 ^ k, ?_⟩
  have e1 : e = (k : ℤ) + (max (Int.log 2 |x|) F.emin - F.frac) := by omega
  rw [ulp, e1, zpow_add₀ (by norm_num : (2 : K) ≠ 0), zpow_natCast]
  push_cast
  ring

theorem round_nearest_mul (x : K) (n : ℤ) : |F.round x - x| ≤ |n * F.ulp x - x| := by
  have hu := F.ulp_pos x
  have h := nearestEven_nearest (x / F.ulp x) n
  have e : ∀ m : ℤ, (m : K) * F.ulp x - x = ((m : K) - x / F.ulp x) * F.ulp x := fun m => by
    field_simp
  unfold round
  rw [e, e, abs_mul, abs_mul]
  exact mul_le_mul_of_nonneg_right h (abs_nonneg _)

theorem round_zero : F.round (0 : K) = 0 := by
  unfold round
  rw [zero_div, ← Int.cast_zero, nearestEven_int]
  simp

/-- **No float is nearer**: rounding chooses a nearest number of the format. -/
theorem round_nearest (x v : K) (hv : F.IsFloat v) : |F.round x - x| ≤ |v - x| := by
  obtain ⟨m, e, hm, he, rfl⟩ := hv
  rcases eq_or_ne x 0 with rfl | hx0
  · rw [round_zero, sub_self, abs_zero]; exact abs_nonneg _
  by_cases h : max (Int.log 2 |x|) F.emin - F.frac ≤ e
  · obtain ⟨n, hn⟩ := F.multiple_of_le (m := m) h
    rw [hn]
    exact F.round_nearest_mul x n
  · -- the float lies below the binade of `x`
    push Not at h
    have hx : 0 < |x| := abs_pos.2 hx0
    have hmax : max (Int.log 2 |x|) F.emin = Int.log 2 |x| := by
      rcases max_choice (Int.log 2 |x|) F.emin with h' | h'
      · exact h'
      · rw [h'] at h; omega
    have hu : F.ulp x = 2 ^ (Int.log 2 |x| - F.frac) := by rw [ulp, hmax]
    rw [hmax] at h
    have hLx : (2 : K) ^ Int.log 2 |x| ≤ |x| := by
      have := Int.zpow_log_le_self (b := 2) (by norm_num) hx
      exact_mod_cast this
    have hv : |(m : K) * 2 ^ e| ≤ 2 ^ Int.log 2 |x| := by
      rw [abs_mul, abs_of_pos (two_zpow_pos e : (0 : K) < 2 ^ e)]
      have h1 : |(m : K)| ≤ 2 ^ (F.frac + 1) := by exact_mod_cast hm
      calc _ ≤ (2 : K) ^ (F.frac + 1) * 2 ^ e :=
            mul_le_mul_of_nonneg_right h1 (two_zpow_pos e).le
        _ = 2 ^ (((F.frac + 1 : ℕ) : ℤ) + e) := by
            rw [zpow_add₀ (by norm_num : (2 : K) ≠ 0), zpow_natCast]
        _ ≤ _ := zpow_le_zpow_right₀ (by norm_num) (by push_cast; omega)
    have hL : ((2 ^ F.frac : ℤ) : K) * F.ulp x = 2 ^ Int.log 2 |x| := by
      rw [hu]
      push_cast
      rw [← zpow_natCast, ← zpow_add₀ (by norm_num : (2 : K) ≠ 0)]
      congr 1
      ring
    obtain ⟨hv1, hv2⟩ := abs_le.1 hv
    have q1 := F.round_nearest_mul x (2 ^ F.frac)
    have q2 := F.round_nearest_mul x (-2 ^ F.frac)
    have e1 : ((-2 ^ F.frac : ℤ) : K) * F.ulp x = -2 ^ Int.log 2 |x| := by
      rw [← hL]; push_cast; ring
    rw [hL] at q1
    rw [e1] at q2
    generalize (2 : K) ^ Int.log 2 |x| = T at *
    rcases lt_or_gt_of_ne hx0 with hneg | hpos
    · rw [abs_of_neg hneg] at hLx
      refine q2.trans ?_
      rw [abs_of_nonneg (by linarith), abs_of_nonneg (by linarith)]
      linarith
    · rw [abs_of_pos hpos] at hLx
      refine q1.trans ?_
      rw [abs_of_nonpos (by linarith), abs_of_nonpos (by linarith)]
      linarith

/-- A float is not changed. -/
theorem round_float (v : K) (hv : F.IsFloat v) : F.round v = v := by
  have := F.round_nearest v v hv
  rw [sub_self, abs_zero] at this
  exact sub_eq_zero.1 (abs_nonpos_iff.1 this)

theorem round_round (x : K) : F.round (F.round x) = F.round x :=
  F.round_float _ (F.round_isFloat x)

/-- Rounding is monotone. -/
theorem round_mono {x y : K} (h : x ≤ y) : F.round x ≤ F.round y := by
  by_contra hc
  push Not at hc
  have h1 := F.round_nearest x _ (F.round_isFloat y)
  have h2 := F.round_nearest y _ (F.round_isFloat x)
  set a := F.round x
  set b := F.round y
  have h3 : a + b ≤ 2 * x := by
    by_contra hx
    push Not at hx
    have := sq_le_sq.2 h1
    nlinarith
  have h4 : 2 * y ≤ a + b := by
    by_contra hy
    push Not at hy
    have := sq_le_sq.2 h2
    nlinarith
  have : x = y := le_antisymm h (by linarith)
  subst this
  exact lt_irrefl _ hc

theorem ulp_neg (x : K) : F.ulp (-x) = F.ulp x := by unfold ulp; rw [abs_neg]

theorem round_neg (x : K) : F.round (-x) = -F.round x := by
  unfold round
  rw [ulp_neg, neg_div, nearestEven_neg]
  push_cast
  ring

/-- Integers of at most `frac + 1` bits, times a power of two in range, are floats. -/
theorem isFloat_mul (m e : ℤ) (hm : |m| ≤ 2 ^ (F.frac + 1)) (he : F.emin - F.frac ≤ e) :
    F.IsFloat ((m : K) * 2 ^ e) := ⟨m, e, hm, he, rfl⟩

theorem isFloat_int (hF : F.emin ≤ F.frac) (m : ℤ) (hm : |m| ≤ 2 ^ (F.frac + 1)) :
    F.IsFloat (m : K) := ⟨m, 0, hm, by omega, by simp⟩

theorem round_int (hF : F.emin ≤ F.frac) (m : ℤ) (hm : |m| ≤ 2 ^ (F.frac + 1)) :
    F.round (m : K) = m := F.round_float _ (F.isFloat_int hF m hm)

/-- The spacing in the binade of `x`. -/
theorem ulp_binade {x : K} {k : ℤ} (hk : F.emin ≤ k) (h1 : 2 ^ k ≤ |x|) (h2 : |x| < 2 ^ (k + 1)) :
    F.ulp x = 2 ^ (k - F.frac) := by
  have hx : 0 < |x| := lt_of_lt_of_le (two_zpow_pos k) h1
  have a : k ≤ Int.log 2 |x| :=
    (Int.zpow_le_iff_le_log (b := 2) (by norm_num) hx).1 (by exact_mod_cast h1)
  have b : Int.log 2 |x| < k + 1 :=
    (Int.lt_zpow_iff_log_lt (b := 2) (by norm_num) hx).1 (by exact_mod_cast h2)
  have c : Int.log 2 |x| = k := by omega
  rw [ulp, c, max_eq_left hk]

/-- The spacing below the smallest normal number. -/
theorem ulp_subnormal {x : K} (hx : x ≠ 0) (h : |x| < 2 ^ (F.emin + 1)) :
    F.ulp x = 2 ^ (F.emin - F.frac) := by
  have b : Int.log 2 |x| < F.emin + 1 :=
    (Int.lt_zpow_iff_log_lt (b := 2) (by norm_num) (abs_pos.2 hx)).1 (by exact_mod_cast h)
  rw [ulp, max_eq_right (by omega)]

/-- Normal numbers are rounded with relative error `2^-(frac+1)`. -/
theorem round_relative {x : K} (h : 2 ^ F.emin ≤ |x|) :
    |F.round x - x| ≤ 2 ^ (-(F.frac + 1 : ℤ)) * |x| := by
  have hx : 0 < |x| := lt_of_lt_of_le (two_zpow_pos _) h
  have a : F.emin ≤ Int.log 2 |x| :=
    (Int.zpow_le_iff_le_log (b := 2) (by norm_num) hx).1 (by exact_mod_cast h)
  have hL : (2 : K) ^ Int.log 2 |x| ≤ |x| := by
    have := Int.zpow_log_le_self (b := 2) (by norm_num) hx
    exact_mod_cast this
  refine (F.round_close x).trans ?_
  have e : F.ulp x / 2 = 2 ^ (-(F.frac + 1 : ℤ)) * (2 : K) ^ Int.log 2 |x| := by
    rw [ulp, max_eq_left a, ← zpow_add₀ (by norm_num : (2 : K) ≠ 0), div_eq_mul_inv,
      ← zpow_neg_one, ← zpow_add₀ (by norm_num : (2 : K) ≠ 0)]
    congr 1
    ring
  rw [e]
  exact mul_le_mul_of_nonneg_left hL (two_zpow_pos _).le

/-- Below the smallest normal number the error is at most half the smallest spacing. -/
theorem round_subnormal {x : K} (h : |x| < 2 ^ (F.emin + 1)) :
    |F.round x - x| ≤ 2 ^ (F.emin - F.frac - 1) := by
  rcases eq_or_ne x 0 with rfl | hx
  · rw [round_zero, sub_self, abs_zero]; exact (two_zpow_pos _).le
  · refine (F.round_close x).trans (le_of_eq ?_)
    rw [F.ulp_subnormal hx h, zpow_sub₀ (by norm_num : (2 : K) ≠ 0) (F.emin - F.frac) 1, zpow_one]

/-- A multiple of the smallest float below the smallest normal number is a float. -/
theorem round_subnormal_exact {x : K} (h : |x| < 2 ^ (F.emin + 1)) (m : ℤ)
    (hm : x = m * 2 ^ (F.emin - F.frac)) : F.round x = x := by
  rcases eq_or_ne x 0 with rfl | hx
  · exact F.round_zero
  · unfold round
    rw [F.ulp_subnormal hx h]
    conv_lhs => rw [hm, mul_div_assoc, div_self (two_zpow_pos _).ne', mul_one, nearestEven_int]
    exact hm.symm

/-- A float is a multiple of the smallest one. -/
theorem IsFloat.multiple {v : K} (hv : F.IsFloat v) : ∃ m : ℤ, v = m * 2 ^ (F.emin - F.frac) := by
  obtain ⟨m, e, -, he, rfl⟩ := hv
  obtain ⟨k, hk⟩ := Int.eq_ofNat_of_zero_le (sub_nonneg.2 he)
  refine ⟨m * 2 ^ k, ?_⟩
  have e1 : e = (k : ℤ) + (F.emin - F.frac) := by omega
  rw [e1, zpow_add₀ (by norm_num : (2 : K) ≠ 0), zpow_natCast]
  push_cast
  ring

/-! ### The arithmetic of the format -/

/-- What is asked of a format: 1 is a normal number. -/
structure Ok : Prop where
  emin : F.emin ≤ 0
  emax : 0 ≤ F.emax

/-- The largest finite number, `(2 - 2^-frac) 2^emax`. -/
def maxFinite (K : Type) [Field K] : K := (2 ^ (F.frac + 1) - 1) * 2 ^ (F.emax - F.frac)

variable {F}

theorem maxFinite_lt : F.maxFinite K < 2 ^ (F.emax + 1) := by
  have e : (2 : K) ^ (F.emax + 1) = 2 ^ (F.frac + 1) * 2 ^ (F.emax - F.frac) := by
    rw [← zpow_natCast, ← zpow_add₀ (by norm_num : (2 : K) ≠ 0)]
    congr 1
    push_cast
    ring
  have := two_zpow_pos (K := K) (F.emax - F.frac)
  rw [e, maxFinite]
  nlinarith

theorem maxFinite_float (hF : F.Ok) : F.IsFloat (F.maxFinite K) := by
  refine ⟨2 ^ (F.frac + 1) - 1, F.emax - F.frac, ?_, ?_, ?_⟩
  · have : (0 : ℤ) < 2 ^ (F.frac + 1) := by positivity
    rw [abs_of_nonneg (by omega)]
    omega
  · have := hF.emin; have := hF.emax; omega
  · rw [maxFinite]; push_cast; ring

theorem one_le_maxFinite (hF : F.Ok) : (1 : K) ≤ F.maxFinite K := by
  have h1 : (1 : K) ≤ 2 ^ F.emax := one_le_zpow₀ (by norm_num) hF.emax
  refine h1.trans ?_
  have e : (2 : K) ^ F.emax = 2 ^ F.frac * 2 ^ (F.emax - F.frac) := by
    rw [← zpow_natCast, ← zpow_add₀ (by norm_num : (2 : K) ≠ 0)]
    congr 1
    ring
  rw [e, maxFinite]
  refine mul_le_mul_of_nonneg_right ?_ (two_zpow_pos _).le
  have : (1 : K) ≤ 2 ^ F.frac := one_le_pow₀ (by norm_num)
  rw [pow_succ]
  linarith

theorem toNum_fin {x : K} (hF : F.Ok) (h : |x| ≤ F.maxFinite K) : F.toNum x = .fin (F.round x) := by
  obtain ⟨h1, h2⟩ := abs_le.1 h
  have a := F.round_mono h2
  have b := F.round_mono h1
  rw [round_neg, F.round_float _ (maxFinite_float hF)] at b
  rw [F.round_float _ (maxFinite_float hF)] at a
  have := maxFinite_lt (K := K) (F := F)
  unfold toNum
  rw [if_neg (by linarith), if_neg (by linarith)]

theorem toNum_eq_fin {x y : K} (h : F.toNum x = .fin y) :
    y = F.round x ∧ F.round x < 2 ^ (F.emax + 1) ∧ -2 ^ (F.emax + 1) < F.round x := by
  unfold toNum at h
  split_ifs at h with a b
  exact ⟨(Num.fin.inj h).symm, not_le.1 a, not_le.1 b⟩

theorem toNum_rounds (hF : F.Ok) : Rounds (F.toNum : K → Num K) where
  mono x y h := by
    have := F.round_mono h
    have hp := two_zpow_pos (K := K) (F.emax + 1)
    unfold toNum
    split_ifs <;> first | trivial | (exfalso; linarith)
  zero := by
    rw [toNum_fin hF (by rw [abs_zero]; linarith [one_le_maxFinite (K := K) hF]), round_zero]
  one := by
    have h := toNum_fin (x := (1 : K)) hF (by rw [abs_one]; exact one_le_maxFinite hF)
    have := F.round_int (K := K) (by have := hF.emin; omega) 1
      (by rw [abs_one]; exact one_le_pow₀ (by norm_num))
    rw [h]
    congr 1
    exact_mod_cast this

theorem toNum_float (x y : K) (h : F.toNum x = .fin y) : F.toNum y = .fin y := by
  obtain ⟨rfl, h1, h2⟩ := toNum_eq_fin h
  unfold toNum
  rw [F.round_round, if_neg (by linarith), if_neg (by linarith)]

/-- **IEEE arithmetic has the laws** that C85 and C86 ask for. -/
theorem arith_ok (hF : F.Ok) : (F.arith : Arith K).Ok where
  op := toNum_rounds hF
  pow := toNum_rounds hF
  op_float := toNum_float
  pow_float := toNum_float

theorem float_isFloat {x : K} (h : (F.arith : Arith K).Float x) : F.IsFloat x := by
  obtain ⟨e, -, -⟩ := toNum_eq_fin h
  rw [e]
  exact F.round_isFloat x

/-- **Its accuracy**: relative error `2^-(frac+1)`, underflow error half the smallest float. -/
theorem arith_accurate (hF : F.Ok) : (F.arith : Arith K).Accurate (2 ^ (-(F.frac + 1 : ℤ)))
    (2 ^ (F.emin - F.frac - 1)) (F.maxFinite K) where
  eps_nonneg := (two_zpow_pos _).le
  eps_lt := zpow_lt_one_of_neg₀ (by norm_num) (by omega)
  add x y hx hy x0 y0 hM := by
    refine ⟨F.round (x + y), toNum_fin hF (by rw [abs_of_nonneg (by linarith)]; exact hM), ?_⟩
    rcases le_or_gt ((2 : K) ^ F.emin) |x + y| with h | h
    · have := F.round_relative h
      rwa [abs_of_nonneg (by linarith : 0 ≤ x + y)] at this
    · obtain ⟨m, hm⟩ := IsFloat.multiple F (float_isFloat hx)
      obtain ⟨n, hn⟩ := IsFloat.multiple F (float_isFloat hy)
      have h2 : |x + y| < 2 ^ (F.emin + 1) := h.trans (zpow_lt_zpow_right₀ (by norm_num) (by omega))
      rw [F.round_subnormal_exact h2 (m + n) (by push_cast; rw [add_mul, ← hm, ← hn]), sub_self,
        abs_zero]
      exact mul_nonneg (two_zpow_pos _).le (by linarith)
  unit x x0 x1 := by
    refine ⟨F.round x, toNum_fin hF
      (by rw [abs_of_nonneg x0]; exact x1.trans (one_le_maxFinite hF)), ?_⟩
    rcases le_or_gt ((2 : K) ^ F.emin) |x| with h | h
    · have := F.round_relative h
      rw [abs_of_nonneg x0] at this
      have := two_zpow_pos (K := K) (F.emin - F.frac - 1)
      linarith
    · have h2 : |x| < 2 ^ (F.emin + 1) := h.trans (zpow_lt_zpow_right₀ (by norm_num) (by omega))
      have := F.round_subnormal h2
      have h3 : (0 : K) ≤ 2 ^ (-(F.frac + 1 : ℤ)) * x := mul_nonneg (two_zpow_pos _).le x0
      linarith

end Fmt

theorem single_ok : single.Ok := ⟨by decide, by decide⟩
theorem double_ok : double.Ok := ⟨by decide, by decide⟩

/-- C85 and C86 speak about IEEE arithmetic: both numpy formats have the laws they ask for, and
double precision has relative error `2⁻⁵³` and underflow error `2⁻¹⁰⁷⁵`. -/
theorem C85_ieee : (double.arith : Arith K).Ok ∧ (single.arith : Arith K).Ok ∧
    (double.arith : Arith K).Accurate (2 ^ (-53 : ℤ)) (2 ^ (-1075 : ℤ)) (double.maxFinite K) ∧
    (single.arith : Arith K).Accurate (2 ^ (-24 : ℤ)) (2 ^ (-150 : ℤ)) (single.maxFinite K) :=
  ⟨Fmt.arith_ok double_ok, Fmt.arith_ok single_ok, Fmt.arith_accurate double_ok,
    Fmt.arith_accurate single_ok⟩

theorem pow_bounds {ε : K} (h0 : 0 ≤ ε) (h : Nat) (hh : h * ε ≤ 1 / 2) (h1 : ε ≤ 1) :
    (1 + ε) ^ h ≤ 2 ∧ 1 - h * ε ≤ (1 - ε) / (1 + ε) ^ h + ε ∧
      (1 + ε) / (1 - ε) ^ h ≤ (1 + ε) * (1 + 2 * (h * ε)) := by
  have ht : 0 ≤ (h : K) * ε := mul_nonneg (Nat.cast_nonneg h) h0
  have b : 1 - h * ε ≤ (1 - ε) ^ h := by
    have := one_add_mul_le_pow (a := -ε) (by linarith) h
    rw [mul_neg, ← sub_eq_add_neg, ← sub_eq_add_neg] at this
    exact this
  have hp : 0 < (1 - ε) ^ h := by linarith
  have hq : (0 : K) < (1 + ε) ^ h := pow_pos (by linarith) h
  have c : (1 + ε) ^ h * (1 - ε) ^ h ≤ 1 := by
    rw [← mul_pow]
    exact pow_le_one₀ (by nlinarith) (by nlinarith)
  have hinv : 1 / (1 - ε) ^ h ≤ 1 + 2 * (h * ε) := by
    rw [div_le_iff₀ hp]
    calc (1 : K) ≤ (1 + 2 * (h * ε)) * (1 - h * ε) := by nlinarith
      _ ≤ _ := mul_le_mul_of_nonneg_left b (by linarith)
  refine ⟨?_, ?_, ?_⟩
  · calc (1 + ε) ^ h ≤ 1 / (1 - ε) ^ h := by rw [le_div_iff₀ hp]; exact c
      _ ≤ 1 + 2 * (h * ε) := hinv
      _ ≤ 2 := by linarith
  · have d : 1 - h * ε ≤ 1 / (1 + ε) ^ h := by
      rw [le_div_iff₀ hq]
      calc (1 - h * ε) * (1 + ε) ^ h ≤ (1 - ε) ^ h * (1 + ε) ^ h :=
            mul_le_mul_of_nonneg_right b hq.le
        _ ≤ 1 := by rw [mul_comm]; exact c
    have e : (1 - ε) / (1 + ε) ^ h = (1 - ε) * (1 / (1 + ε) ^ h) := by ring
    rw [e]
    have := mul_le_mul_of_nonneg_left d (by linarith : 0 ≤ 1 - ε)
    nlinarith
  · have e : (1 + ε) / (1 - ε) ^ h = (1 + ε) * (1 / (1 - ε) ^ h) := by ring
    rw [e]
    exact mul_le_mul_of_nonneg_left hinv (by linarith)

/-- **The weights of a row add up to one in double precision**, up to `(2h + 3) 2⁻⁵³` for a
summation of depth `h`: at most the number of points, about its logarithm for numpy's pairwise
summation. -/
theorem C86_double_sum (env : Env K) (he : env.Ok)
    (hf : ∀ x ≤ 0, (double.arith : Arith K).Float (env.exp x)) (lazy : Bool)
    (dims : List (RowDim K)) (hd : ∀ t ∈ dims, t.Ok) (n : Nat) (hn : n ≤ 2 ^ 200)
    (shape : List (Num K) → SumTree K) (hs : ∀ ws, ws ≠ [] → ((shape ws).leaves).Perm ws)
    (h : Nat) (hh : ∀ ws, ws.length = n → (shape ws).depth ≤ h) (h52 : h ≤ 2 ^ 52) :
    ∃ row : List K, weightRowR env double.arith lazy dims n shape = .ok (row.map Num.fin) ∧
      row.length = n ∧
      ((∃ j < n, ∀ t ∈ dims, t.dist j = 0) ∨ (∃ w ∈ row, w ≠ 0) →
        |row.sum - 1| ≤ (2 * h + 3) / 2 ^ 53) := by
  have hε : (2 : K) ^ (-53 : ℤ) = 1 / 2 ^ 53 := by
    rw [zpow_neg, ← one_div]; norm_cast
  have hη : (2 : K) ^ (-1075 : ℤ) ≤ 1 / 2 ^ 253 := by
    have e : (1 : K) / 2 ^ 253 = 2 ^ (-253 : ℤ) := by
      rw [zpow_neg, ← one_div]; norm_cast
    rw [e]
    exact zpow_le_zpow_right₀ (by norm_num) (by norm_num)
  have hA := (C85_ieee (K := K)).2.2.1
  rw [hε] at hA
  have h52' : (h : K) ≤ 2 ^ 52 := by exact_mod_cast h52
  have hn' : (n : K) ≤ 2 ^ 200 := by exact_mod_cast hn
  have hhalf : (h : K) * (1 / 2 ^ 53) ≤ 1 / 2 := by
    calc (h : K) * (1 / 2 ^ 53) ≤ 2 ^ 52 * (1 / 2 ^ 53) :=
          mul_le_mul_of_nonneg_right h52' (by positivity)
      _ = 1 / 2 := by norm_num
  obtain ⟨p1, p2, p3⟩ := pow_bounds (K := K) (ε := 1 / 2 ^ 53) (by positivity) h hhalf
    (by norm_num)
  have hM : (n : K) * (1 + 1 / 2 ^ 53) ^ h ≤ double.maxFinite K := by
    have h1 : (2 : K) ^ 201 ≤ double.maxFinite K := by
      have e : (2 : K) ^ (201 : ℕ) ≤ 2 ^ (double.emax - double.frac) := by
        rw [← zpow_natCast]
        exact zpow_le_zpow_right₀ (by norm_num) (by decide)
      have e2 : double.frac + 1 = 53 := rfl
      rw [Fmt.maxFinite, e2]
      refine e.trans ?_
      have := Fmt.two_zpow_pos (K := K) (double.emax - double.frac)
      have h2 : (1 : K) ≤ 2 ^ 53 - 1 := by norm_num
      calc _ = 1 * (2 : K) ^ (double.emax - double.frac) := (one_mul _).symm
        _ ≤ _ := mul_le_mul_of_nonneg_right h2 this.le
    calc (n : K) * (1 + 1 / 2 ^ 53) ^ h ≤ 2 ^ 200 * 2 :=
          mul_le_mul hn' p1 (by positivity) (by positivity)
      _ = 2 ^ 201 := by rw [← pow_succ]
      _ ≤ _ := h1
  obtain ⟨row, hrow, hlen, hsum⟩ := C86_row_sum he (Fmt.arith_ok double_ok) hf lazy dims hd n shape
    hs hA h hh hM
  refine ⟨row, hrow, hlen, fun hpos => ?_⟩
  obtain ⟨lo, hi⟩ := hsum hpos
  have hnη : (n : K) * 2 ^ (-1075 : ℤ) ≤ 1 / 2 ^ 53 := by
    calc (n : K) * 2 ^ (-1075 : ℤ) ≤ 2 ^ 200 * (1 / 2 ^ 253) :=
          mul_le_mul hn' hη (Fmt.two_zpow_pos _).le (by positivity)
      _ = 1 / 2 ^ 53 := by norm_num
  have e3 : (2 * (h : K) + 3) / 2 ^ 53 = 2 * (h * (1 / 2 ^ 53)) + 3 * (1 / 2 ^ 53) := by ring
  rw [e3]
  generalize ht : (h : K) * (1 / 2 ^ 53) = t at *
  have hε1 : (1 : K) / 2 ^ 53 ≤ 1 := by norm_num
  have hε0 : (0 : K) ≤ 1 / 2 ^ 53 := by positivity
  have ht0 : 0 ≤ t := ht ▸ by positivity
  generalize (1 : K) / 2 ^ 53 = ε at *
  have : (1 + ε) * (1 + 2 * t) ≤ 1 + 2 * t + 2 * ε := by nlinarith
  rw [abs_le]
  constructor <;> linarith

/-- a float exponential: the correctly rounded one -/
noncomputable def doubleEnv : Env ℝ := ⟨fun x => double.round (Real.exp x), double.maxFinite ℝ⟩

theorem doubleEnv_ok : doubleEnv.Ok where
  exp_zero := by
    have h := double.round_int (K := ℝ) (by decide) 1 (by rw [abs_one]; exact one_le_pow₀ (by norm_num))
    simp only [doubleEnv, Real.exp_zero]
    exact_mod_cast h
  exp_nonneg x := by
    have := double.round_mono (Real.exp_pos x).le
    rwa [Fmt.round_zero] at this
  exp_mono x y h := double.round_mono (Real.exp_le_exp.2 h)

theorem doubleEnv_float (x : ℝ) (hx : x ≤ 0) : (double.arith : Arith ℝ).Float (doubleEnv.exp x) := by
  have h1 : Real.exp x ≤ 1 := Real.exp_le_one_iff.2 hx
  exact Fmt.toNum_float (Real.exp x) _ (Fmt.toNum_fin double_ok
    (by rw [abs_of_pos (Real.exp_pos x)]; exact h1.trans (Fmt.one_le_maxFinite double_ok)))

/-- A Gaussian kernel on 1000 points in double precision with the rounded exponential: the weights
add up to one up to `2003 · 2⁻⁵³`. -/
example (dist : Nat → ℝ) (hd : ∀ j, 0 ≤ dist j) (h0 : dist 0 = 0) :
    ∃ row : List ℝ, weightRowR doubleEnv double.arith false [⟨"gaussian", dist, 3⟩] 1000 leftTree =
      .ok (row.map Num.fin) ∧ row.length = 1000 ∧ |row.sum - 1| ≤ 2003 / 2 ^ 53 := by
  obtain ⟨row, h1, h2, h3⟩ := C86_double_sum doubleEnv doubleEnv_ok doubleEnv_float false
    [⟨"gaussian", dist, 3⟩] (fun t ht => by
      rw [List.mem_singleton] at ht
      subst ht
      exact ⟨by simp [kernelTypeEnum], by norm_num, hd⟩) 1000 (by norm_num) leftTree leftTree_leaves 1000
    (fun ws h => h ▸ leftTree_depth ws) (by norm_num)
  refine ⟨row, h1, h2, ?_⟩
  have := h3 (.inl ⟨0, by norm_num, fun t ht => by
    rw [List.mem_singleton] at ht
    subst ht
    exact h0⟩)
  refine this.trans (le_of_eq ?_)
  norm_num

end Geo
