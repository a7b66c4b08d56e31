import Verif.Model.RateCounts
import Verif.Props.Floats
set_option linter.unusedSectionVars false
/-
C176: numbers computed from rates in floating point.
-/
namespace Geo
variable {K : Type} [Field K] [LinearOrder K] [IsStrictOrderedRing K] [FloorRing K]

theorem ulp_le_of_lt {F : Fmt} {x : K} {k : ℤ} (hk0 : 0 ≤ k) (hk : F.emin ≤ k) (h : |x| ≤ 2 ^ k) :
    F.ulp x ≤ 2 ^ (k - F.frac) := by
  unfold Fmt.ulp
  refine zpow_le_zpow_right₀ (by norm_num) ?_
  have : Int.log 2 |x| ≤ k := by
    rcases eq_or_ne x 0 with rfl | hx
    · rw [abs_zero, Int.log_of_right_le_zero _ le_rfl]
      exact hk0
    · have h1 := Int.zpow_log_le_self (b := 2) (by norm_num) (abs_pos.2 hx)
      have h2 : (2 : K) ^ Int.log 2 |x| ≤ 2 ^ k := le_trans (by exact_mod_cast h1) h
      exact (zpow_le_zpow_iff_right₀ (by norm_num)).1 h2
  have := max_le this hk
  omega

/-- the product as a float is within one half of the exact one -/
theorem rate_close (F : Fmt) (hF : F.emin ≤ 0) (h1 : 1 ≤ F.frac) (r : K) (r0 : 0 ≤ r) (r1 : r ≤ 1) (n : Nat)
    (hn : (n : K) ≤ 2 ^ (F.frac - 1)) : |F.round (F.round r * n) - r * n| ≤ 1 / 2 := by
  have n0 : (0 : K) ≤ n := Nat.cast_nonneg n
  have one : F.round (1 : K) = 1 := by
    have := F.round_int (K := K) (by omega) 1 (by rw [abs_one]; exact one_le_pow₀ (by norm_num))
    simpa using this
  have q0 : 0 ≤ F.round r := by
    have := F.round_mono r0
    rwa [Fmt.round_zero] at this
  have q1 : F.round r ≤ 1 := by
    have := F.round_mono r1
    rwa [one] at this
  have e1 : |F.round r - r| ≤ 2 ^ (-(F.frac : ℤ)) / 2 := by
    refine (F.round_close r).trans (div_le_div_of_nonneg_right ?_ (by norm_num))
    have := ulp_le_of_lt (F := F) (x := r) (k := 0) le_rfl hF (by rw [abs_of_nonneg r0]; simpa using r1)
    simpa using this
  have x0 : 0 ≤ F.round r * n := mul_nonneg q0 n0
  have x1 : F.round r * n ≤ 2 ^ (F.frac - 1) := (mul_le_of_le_one_left n0 q1).trans hn
  have e2 : |F.round (F.round r * n) - F.round r * n| ≤ 1 / 4 := by
    refine (F.round_close _).trans ?_
    have := ulp_le_of_lt (F := F) (x := F.round r * n) (k := ((F.frac - 1 : ℕ) : ℤ)) (by omega) (by omega) (by
      rw [abs_of_nonneg x0, zpow_natCast]
      exact x1)
    have h2 : ((F.frac - 1 : ℕ) : ℤ) - F.frac = -1 := by omega
    rw [h2] at this
    norm_num at this
    linarith
  have e3 : |F.round r * n - r * n| ≤ 1 / 4 := by
    rw [← sub_mul, abs_mul, abs_of_nonneg n0]
    have h2 : (2 : K) ^ (-(F.frac : ℤ)) * 2 ^ (F.frac - 1) = 1 / 2 := by
      rw [← zpow_natCast, ← zpow_add₀ (by norm_num : (2 : K) ≠ 0)]
      have : -(F.frac : ℤ) + ((F.frac - 1 : ℕ) : ℤ) = -1 := by omega
      rw [this]
      norm_num
    calc |F.round r - r| * n ≤ 2 ^ (-(F.frac : ℤ)) / 2 * 2 ^ (F.frac - 1) :=
          mul_le_mul e1 hn n0 (by positivity)
      _ = 1 / 4 := by rw [div_mul_eq_mul_div, h2]; norm_num
  calc |F.round (F.round r * n) - r * n| = |(F.round (F.round r * n) - F.round r * n) + (F.round r * n - r * n)| := by
        congr 1; ring
    _ ≤ _ := abs_add_le _ _
    _ ≤ 1 / 2 := by linarith

variable (F : Fmt)

theorem product_unit (hF : F.emin ≤ 0) (r : K) (r0 : 0 ≤ r) (r1 : r ≤ 1) (n : Nat) (hn : n ≤ 2 ^ (F.frac + 1)) :
    0 ≤ F.round (F.round r * n) ∧ F.round (F.round r * n) ≤ n := by
  have n0 : (0 : K) ≤ n := Nat.cast_nonneg n
  have one : F.round (1 : K) = 1 := by
    have := F.round_int (K := K) (by omega) 1 (by rw [abs_one]; exact one_le_pow₀ (by norm_num))
    simpa using this
  have q0 : 0 ≤ F.round r := by
    have := F.round_mono r0
    rwa [Fmt.round_zero] at this
  have q1 : F.round r ≤ 1 := by
    have := F.round_mono r1
    rwa [one] at this
  have en : F.round (n : K) = n := by
    have := F.round_int (K := K) (by omega) n (by rw [abs_of_nonneg (by positivity)]; exact_mod_cast hn)
    simpa using this
  constructor
  · have := F.round_mono (mul_nonneg q0 n0)
    rwa [Fmt.round_zero] at this
  · have := F.round_mono (mul_le_of_le_one_left n0 q1)
    rwa [en] at this

theorem intCount_eq (hF : F.emin ≤ 0) (r : K) (r0 : 0 ≤ r) (r1 : r ≤ 1) (n : Nat) (hn : n ≤ 2 ^ (F.frac + 1)) :
    intCount F r n = ⌊F.round (F.round r * n)⌋ := by
  rw [intCount, truncInt, if_pos (product_unit F hF r r0 r1 n hn).1]

/-- C176: the range. A rate from 0 to 1 never asks for more items than there are, whatever is rounded; rate 1
asks for all and rate 0 for none; a rate that is positive as a float asks, rounded up, for at least one. -/
theorem C176_range (hF : F.emin ≤ 0) (r : K) (r0 : 0 ≤ r) (r1 : r ≤ 1) (n : Nat) (hn : n ≤ 2 ^ (F.frac + 1)) :
    0 ≤ intCount F r n ∧ intCount F r n ≤ n ∧ 0 ≤ ceilCount F r n ∧ ceilCount F r n ≤ n ∧
    intCount F (1 : K) n = n ∧ ceilCount F (1 : K) n = n ∧ intCount F (0 : K) n = 0 ∧ ceilCount F (0 : K) n = 0 ∧
    (0 < F.round r → 0 < n → 1 ≤ ceilCount F r n) := by
  obtain ⟨h0, h1⟩ := product_unit F hF r r0 r1 n hn
  have en : F.round (n : K) = n := by
    have := F.round_int (K := K) (by omega) n (by rw [abs_of_nonneg (by positivity)]; exact_mod_cast hn)
    simpa using this
  have one : F.round (1 : K) = 1 := by
    have := F.round_int (K := K) (by omega) 1 (by rw [abs_one]; exact one_le_pow₀ (by norm_num))
    simpa using this
  rw [intCount_eq F hF r r0 r1 n hn]
  refine ⟨Int.floor_nonneg.2 h0, ?_, Int.ceil_nonneg h0, ?_, ?_, ?_, ?_, ?_, ?_⟩
  · have := Int.floor_mono h1
    simpa using this
  · exact Int.ceil_le.2 (by simpa using h1)
  · rw [intCount_eq F hF 1 zero_le_one le_rfl n hn, one, one_mul, en]
    simp
  · rw [ceilCount, one, one_mul, en]
    simp
  · rw [intCount_eq F hF 0 le_rfl zero_le_one n hn, Fmt.round_zero, zero_mul, Fmt.round_zero]
    simp
  · rw [ceilCount, Fmt.round_zero, zero_mul, Fmt.round_zero]
    simp
  · intro hr hn0
    have n1 : (1 : K) ≤ n := by exact_mod_cast hn0
    have h2 : F.round r ≤ F.round (F.round r * n) := by
      have := F.round_mono (le_mul_of_one_le_right hr.le n1)
      rwa [Fmt.round_round] at this
    exact Int.one_le_ceil_iff.2 (lt_of_lt_of_le hr h2)

/-- C176: a larger rate never asks for fewer items. -/
theorem C176_monotone (hF : F.emin ≤ 0) (r r' : K) (r0 : 0 ≤ r) (hr : r ≤ r') (r1 : r' ≤ 1) (n : Nat)
    (hn : n ≤ 2 ^ (F.frac + 1)) :
    intCount F r n ≤ intCount F r' n ∧ ceilCount F r n ≤ ceilCount F r' n := by
  have n0 : (0 : K) ≤ n := Nat.cast_nonneg n
  have h : F.round (F.round r * n) ≤ F.round (F.round r' * n) :=
    F.round_mono (mul_le_mul_of_nonneg_right (F.round_mono hr) n0)
  rw [intCount_eq F hF r r0 (hr.trans r1) n hn, intCount_eq F hF r' (r0.trans hr) r1 n hn]
  exact ⟨Int.floor_mono h, Int.ceil_mono h⟩

/-- C176: at most one off. The number computed in floating point differs by at most one from the exact number;
where the exact product is an integer the rounded-down number is that or one less, and the rounded-up number
that or one more. -/
theorem C176_off_by_one (hF : F.emin ≤ 0) (h1 : 1 ≤ F.frac) (r : K) (r0 : 0 ≤ r) (r1 : r ≤ 1) (n : Nat)
    (hn : n ≤ 2 ^ (F.frac - 1)) :
    |intCount F r n - ⌊r * n⌋| ≤ 1 ∧ |ceilCount F r n - ⌈r * n⌉| ≤ 1 ∧
    ∀ m : ℤ, r * n = m → (intCount F r n = m ∨ intCount F r n = m - 1) ∧
      (ceilCount F r n = m ∨ ceilCount F r n = m + 1) := by
  have hn' : n ≤ 2 ^ (F.frac + 1) := hn.trans (Nat.pow_le_pow_right (by norm_num) (by omega))
  have hc := abs_le.1 (rate_close F hF h1 r r0 r1 n (by exact_mod_cast hn))
  rw [intCount_eq F hF r r0 r1 n hn', ceilCount]
  set c := F.round (F.round r * n)
  have f1 := Int.floor_le c
  have f2 := Int.lt_floor_add_one c
  have g1 := Int.floor_le (r * n)
  have g2 := Int.lt_floor_add_one (r * n)
  have f3 := Int.le_ceil c
  have f4 := Int.ceil_lt_add_one c
  have g3 := Int.le_ceil (r * n)
  have g4 := Int.ceil_lt_add_one (r * n)
  have key : ∀ a b : ℤ, (a : K) < b + 1 → a ≤ b := by
    intro a b h
    have : a < b + 1 := by exact_mod_cast h
    omega
  refine ⟨abs_le.2 ⟨?_, ?_⟩, abs_le.2 ⟨?_, ?_⟩, fun m hm => ⟨?_, ?_⟩⟩
  · have := key ⌊r * n⌋ (⌊c⌋ + 1) (by push_cast; linarith)
    omega
  · have := key ⌊c⌋ (⌊r * n⌋ + 1) (by push_cast; linarith)
    omega
  · have := key ⌈r * n⌉ (⌈c⌉ + 1) (by push_cast; linarith)
    omega
  · have := key ⌈c⌉ (⌈r * n⌉ + 1) (by push_cast; linarith)
    omega
  · rw [hm] at hc
    have a1 := key ⌊c⌋ m (by linarith)
    have a2 := key (m - 1) ⌊c⌋ (by push_cast; linarith)
    omega
  · rw [hm] at hc
    have a1 := key m ⌈c⌉ (by linarith)
    have a2 := key ⌈c⌉ (m + 1) (by push_cast; linarith)
    omega

/-- C176: rates that are floats themselves (halves, quarters, eighths) and products that are integers give the
exact number. -/
theorem C176_exact (hF : F.emin ≤ 0) (r : K) (r0 : 0 ≤ r) (r1 : r ≤ 1) (hr : F.IsFloat r) (n : Nat)
    (hn : n ≤ 2 ^ (F.frac + 1)) (m : ℤ) (hm : r * n = m) : intCount F r n = m ∧ ceilCount F r n = m := by
  have hmn : |m| ≤ 2 ^ (F.frac + 1) := by
    have n0 : (0 : K) ≤ n := Nat.cast_nonneg n
    have m0 : (0 : K) ≤ m := hm ▸ mul_nonneg r0 n0
    have m1 : (m : K) ≤ n := hm ▸ mul_le_of_le_one_left n0 r1
    have a0 : 0 ≤ m := by exact_mod_cast m0
    have a1 : m ≤ n := by exact_mod_cast m1
    rw [abs_of_nonneg a0]
    exact a1.trans (by exact_mod_cast hn)
  have e : F.round (F.round r * n) = m := by
    rw [F.round_float r hr, hm, F.round_int (by omega) m hmn]
  rw [intCount_eq F hF r r0 r1 n hn, ceilCount, e]
  simp

/-- C176: the neighbours left out are at least one and at most all, and differ by at most one from the number
for exact rates. -/
theorem C176_left_out (hF : F.emin ≤ 0) (h1 : 1 ≤ F.frac) (r : K) (r0 : 0 ≤ r) (r1 : r ≤ 1) (n : Nat) (hn0 : 0 < n)
    (hn : n ≤ 2 ^ (F.frac - 1)) :
    1 ≤ leftOutCount F r n ∧ leftOutCount F r n ≤ n ∧
    |leftOutCount F r n - min (n : ℤ) (max 1 ⌈r * n⌉)| ≤ 1 := by
  have hn' : n ≤ 2 ^ (F.frac + 1) := hn.trans (Nat.pow_le_pow_right (by norm_num) (by omega))
  obtain ⟨-, -, c0, c1, -⟩ := C176_range F hF r r0 r1 n hn'
  obtain ⟨-, hc, -⟩ := C176_off_by_one F hF h1 r r0 r1 n hn
  have hc := abs_le.1 hc
  have g0 : 0 ≤ ⌈r * n⌉ := Int.ceil_nonneg (mul_nonneg r0 (Nat.cast_nonneg n))
  have g1 : ⌈r * (n : K)⌉ ≤ n := Int.ceil_le.2 (by
    simpa using mul_le_of_le_one_left (Nat.cast_nonneg (α := K) n) r1)
  rw [abs_le]
  unfold leftOutCount
  dsimp only
  split_ifs <;> omega

/-- C176: the numbers are off. 0.29 of 100 observations are 28 locations; a leave-out rate of 0.07 leaves out 8
of 100 neighbours (and 0.55 leaves out 56), all in double precision. -/
theorem C176_decimal_rates : intCount double (29 / 100 : ℚ) 100 = 28 ∧ ceilCount double (7 / 100 : ℚ) 100 = 8 ∧
    leftOutCount double (7 / 100 : ℚ) 100 = 8 ∧ leftOutCount double (55 / 100 : ℚ) 100 = 56 := by
  decide +kernel

/-- `C176_range`, `C176_monotone` and `C176_off_by_one` apply to double precision and any number of items up to 2^51. -/
example (r : ℚ) (r0 : 0 ≤ r) (r1 : r ≤ 1) (n : Nat) (hn : n ≤ 2 ^ 51) :
    |intCount double r n - ⌊r * n⌋| ≤ 1 :=
  (C176_off_by_one double (by decide) (by decide) r r0 r1 n hn).1

end Geo
