import Verif.Model.RoundedShrink
import Verif.Props.Floats
set_option linter.unusedSectionVars false
/-
C177: shrinking a neighbourhood in floating point can lose all neighbours.
-/
namespace Geo
variable {K : Type} [Field K] [LinearOrder K] [IsStrictOrderedRing K] [FloorRing K]

/-- The strongest weight of a row of positive weights survives if and only if the threshold does not exceed it. -/
theorem shrinkF_survives (F : Fmt) (l : List K) (q : K) (hpos : ∀ w ∈ l, 0 < w) :
    (∃ w ∈ shrinkF F l q, w ≠ 0) ↔ ∃ w ∈ l, quantileF F l q ≤ w := by
  unfold shrinkF
  constructor
  · rintro ⟨w, hw, hne⟩
    obtain ⟨v, hv, rfl⟩ := List.mem_map.1 hw
    by_cases h : v < quantileF F l q
    · exact absurd (if_pos h) hne
    · exact ⟨v, hv, not_lt.1 h⟩
  · rintro ⟨w, hw, h⟩
    exact ⟨w, List.mem_map.2 ⟨w, hw, if_neg (not_lt.2 h)⟩, (hpos w hw).ne'⟩

/-- the weights are floats, positive and at most one -/
def FloatWeights (F : Fmt) (l : List K) : Prop := ∀ w ∈ l, F.IsFloat w ∧ 0 < w ∧ w ≤ 1

theorem sort_getD_mem {l : List K} {i : Nat} (h : i < l.length) : (sortL l).getD i 0 ∈ l := by
  rw [List.getD_eq_getElem _ _ (by simpa using h)]
  exact mem_sortL.1 (List.getElem_mem _)

theorem round_one (F : Fmt) (hF : F.emin ≤ F.frac) : F.round (1 : K) = 1 := by
  have := F.round_int (K := K) hF 1 (by rw [abs_one]; exact one_le_pow₀ (by norm_num))
  simpa using this

/-- C177: what is safe. The strongest weight of a row survives when the rate is 0 or 1 as a float, when there is
one neighbour, and when the rank is a whole number. -/
theorem C177_safe (F : Fmt) (hF : F.emin ≤ F.frac) (l : List K) (q : K) (hl : l ≠ []) (hw : FloatWeights F l)
    (h : l.length = 1 ∨ F.round (q * 100) = 100 ∨ F.round (q * 100) = 0 ∨
      ((⌊rankF F l.length q⌋ : K) = rankF F l.length q ∧ 1 ≤ rankF F l.length q ∧ rankF F l.length q ≤ l.length)) :
    ∃ w ∈ shrinkF F l q, w ≠ 0 := by
  have hlen := List.length_pos_iff.2 hl
  rw [shrinkF_survives F l q fun w h => (hw w h).2.1]
  unfold quantileF
  dsimp only
  split_ifs with h1 h2 h3
  · exact ⟨_, sort_getD_mem hlen, le_rfl⟩
  · exact ⟨_, sort_getD_mem (i := l.length - 1) (by omega), le_rfl⟩
  · exact ⟨_, sort_getD_mem hlen, le_rfl⟩
  · obtain h | h | h | ⟨h, r1, r2⟩ := h
    · exact absurd h h1
    · exact absurd h h2
    · exact absurd h h3
    · have f1 : 1 ≤ ⌊rankF F l.length q⌋ := Int.le_floor.2 (by simpa using r1)
      have f2 : ⌊rankF F l.length q⌋ ≤ l.length := by
        have : (⌊rankF F l.length q⌋ : K) ≤ l.length := by rw [h]; exact r2
        exact_mod_cast this
      have hi : ⌊rankF F l.length q⌋.toNat - 1 < l.length := by omega
      refine ⟨_, sort_getD_mem hi, le_of_eq ?_⟩
      rw [h, sub_self, Fmt.round_zero, lerpF, sub_zero, round_one F hF, mul_one, mul_zero, Fmt.round_zero, add_zero,
        Fmt.round_round, F.round_float _ (hw _ (sort_getD_mem hi)).1]

theorem round_le (F : Fmt) {x : K} (x0 : 0 ≤ x) :
    F.round x ≤ x * (1 + 2 ^ (-(F.frac + 1 : ℤ))) + 2 ^ (F.emin - F.frac - 1) := by
  have e0 : (0 : K) < 2 ^ (-(F.frac + 1 : ℤ)) := Fmt.two_zpow_pos _
  have e1 : (0 : K) < 2 ^ (F.emin - F.frac - 1) := Fmt.two_zpow_pos _
  rcases le_or_gt ((2 : K) ^ F.emin) |x| with h | h
  · have := abs_le.1 (F.round_relative h)
    rw [abs_of_nonneg x0] at this
    nlinarith [this.2]
  · have h2 : |x| < 2 ^ (F.emin + 1) := h.trans (zpow_lt_zpow_right₀ (by norm_num) (by omega))
    have := abs_le.1 (F.round_subnormal h2)
    nlinarith [this.2]

theorem round_nonneg (F : Fmt) {x : K} (x0 : 0 ≤ x) : 0 ≤ F.round x := by
  have := F.round_mono x0
  rwa [Fmt.round_zero] at this

theorem lerpF_le (F : Fmt) (lower upper m : K) (l0 : 0 ≤ lower) (lu : lower ≤ upper) (u1 : upper ≤ 1) (m0 : 0 ≤ m)
    (m1 : m ≤ 1) : lerpF F lower upper m ≤
      upper * (1 + 2 ^ (-(F.frac + 1 : ℤ))) ^ 3 + 9 * 2 ^ (F.emin - F.frac - 1) := by
  have e0 : (0 : K) < 2 ^ (-(F.frac + 1 : ℤ)) := Fmt.two_zpow_pos _
  have e2 : (2 : K) ^ (-(F.frac + 1 : ℤ)) ≤ 1 := zpow_le_one_of_nonpos₀ (by norm_num) (by omega)
  have e1 : (0 : K) < 2 ^ (F.emin - F.frac - 1) := Fmt.two_zpow_pos _
  have u0 := l0.trans lu
  have a1 := round_le F (sub_nonneg.2 m1)
  have a0 := round_nonneg F (sub_nonneg.2 m1)
  have b1 := round_le F (mul_nonneg l0 a0)
  have b0 := round_nonneg F (mul_nonneg l0 a0)
  have c1 := round_le F (mul_nonneg u0 m0)
  have c0 := round_nonneg F (mul_nonneg u0 m0)
  have d1 := round_le F (add_nonneg b0 c0)
  unfold lerpF
  generalize (2 : K) ^ (-(F.frac + 1 : ℤ)) = u at *
  generalize (2 : K) ^ (F.emin - F.frac - 1) = t at *
  generalize F.round (F.round (lower * F.round (1 - m)) + F.round (upper * m)) = d at *
  generalize F.round (lower * F.round (1 - m)) = b at *
  generalize F.round (upper * m) = c at *
  generalize F.round (1 - m) = v at *
  have k1 : lower * v ≤ upper * ((1 - m) * (1 + u)) + t := by
    have h1 : lower * v ≤ upper * v := mul_le_mul_of_nonneg_right lu a0
    have h2 : upper * v ≤ upper * ((1 - m) * (1 + u) + t) := mul_le_mul_of_nonneg_left a1 u0
    have h3 : upper * t ≤ t := mul_le_of_le_one_left e1.le u1
    linarith [mul_add upper ((1 - m) * (1 + u)) t]
  have k2 : b ≤ upper * ((1 - m) * (1 + u) ^ 2) + t * (1 + u) + t := by
    have := mul_le_mul_of_nonneg_right k1 (show 0 ≤ 1 + u by linarith)
    nlinarith
  have k3 : c ≤ upper * (m * (1 + u) ^ 2) + t := by
    have h : upper * m * (1 + u) ≤ upper * m * (1 + u) * (1 + u) :=
      le_mul_of_one_le_right (by positivity) (by linarith)
    nlinarith
  have k4 : b + c ≤ upper * (1 + u) ^ 2 + t * (1 + u) + 2 * t := by nlinarith
  have k5 := mul_le_mul_of_nonneg_right k4 (show 0 ≤ 1 + u by linarith)
  have k6 : t * u ≤ t := mul_le_of_le_one_right e1.le e2
  have k7 : t * u * u ≤ t := (mul_le_of_le_one_right (by positivity) e2).trans k6
  nlinarith

/-- C177: what is nearly safe. At any rate the strongest weight survives if it exceeds the weight in the next whole
rank by the relative error of three roundings. -/
theorem C177_strict_maximum (F : Fmt) (l : List K) (q : K) (hw : FloatWeights F l)
    (h1 : 1 ≤ rankF F l.length q) (h2 : rankF F l.length q < l.length) (hF : F.emin ≤ F.frac)
    (w : K) (hwl : w ∈ l) (hmax : ∀ v ∈ l, v ≤ w)
    (hgap : (sortL l).getD ⌊rankF F l.length q⌋.toNat 0 * (1 + 2 ^ (-(F.frac + 1 : ℤ))) ^ 3 +
      9 * 2 ^ (F.emin - F.frac - 1) ≤ w) : w ∈ shrinkF F l q ∧ w ≠ 0 := by
  have hl : l ≠ [] := List.ne_nil_of_mem hwl
  have hlen := List.length_pos_iff.2 hl
  refine ⟨?_, (hw w hwl).2.1.ne'⟩
  have hq : quantileF F l q ≤ w := by
    unfold quantileF
    dsimp only
    split_ifs
    · exact hmax _ (sort_getD_mem hlen)
    · exact hmax _ (sort_getD_mem (i := l.length - 1) (by omega))
    · exact hmax _ (sort_getD_mem hlen)
    · set r := rankF F l.length q with hr
      have f1 : 1 ≤ ⌊r⌋ := Int.le_floor.2 (by simpa using h1)
      have f2 : ⌊r⌋ < l.length := by
        have : (⌊r⌋ : K) < l.length := lt_of_le_of_lt (Int.floor_le r) h2
        exact_mod_cast this
      have hi : ⌊r⌋.toNat < l.length := by omega
      have m0 : 0 ≤ r - ⌊r⌋ := sub_nonneg.2 (Int.floor_le r)
      have m1 : r - ⌊r⌋ ≤ 1 := by have := Int.lt_floor_add_one r; linarith
      have g0 := round_nonneg F m0
      have g1 : F.round (r - ⌊r⌋) ≤ 1 := by
        have := F.round_mono m1
        rwa [round_one F hF] at this
      have lm := hw _ (sort_getD_mem (l := l) (i := ⌊r⌋.toNat - 1) (by omega))
      have um := hw _ (sort_getD_mem (l := l) hi)
      have hle : (sortL l).getD (⌊r⌋.toNat - 1) 0 ≤ (sortL l).getD ⌊r⌋.toNat 0 :=
        sortL_monoTo l _ _ (by omega) hi
      exact (lerpF_le F _ _ _ lm.2.1.le hle um.2.2 g0 g1).trans hgap
  exact List.mem_map.2 ⟨w, hwl, if_neg (not_lt.2 hq)⟩

theorem isFloat_half (F : Fmt) {v : K} (hv : F.IsFloat v) (h : 2 ^ (F.emin + 1) ≤ v) : F.IsFloat (v / 2) := by
  obtain ⟨m, e, hm, he, rfl⟩ := hv
  have two : (2 : K) ≠ 0 := by norm_num
  rcases lt_or_eq_of_le he with h' | h'
  · refine ⟨m, e - 1, hm, by omega, ?_⟩
    rw [zpow_sub_one₀ two]
    ring
  · have e1 : (2 : K) ^ (F.emin + 1) = 2 ^ (F.frac + 1) * 2 ^ e := by
      rw [← zpow_natCast, ← zpow_add₀ two]
      congr 1
      push_cast
      omega
    rw [e1] at h
    have h2 := le_of_mul_le_mul_right h (Fmt.two_zpow_pos e)
    have h3 : (2 : ℤ) ^ (F.frac + 1) ≤ m := by exact_mod_cast h2
    have h4 : m = 2 ^ (F.frac + 1) := le_antisymm ((le_abs_self m).trans hm) h3
    refine ⟨2 ^ F.frac, e, ?_, he, ?_⟩
    · rw [abs_of_nonneg (by positivity)]
      exact pow_le_pow_right₀ (by norm_num) (by omega)
    · rw [h4]
      push_cast
      rw [pow_succ]
      ring

theorem round_halves (F : Fmt) (hF : F.emin < F.frac) (k : Nat) (hk : k ≤ 2 ^ (F.frac + 1)) :
    F.round ((k : K) / 2) = k / 2 := by
  refine F.round_float _ ⟨k, -1, ?_, by omega, ?_⟩
  · rw [abs_of_nonneg (by positivity)]
    exact_mod_cast hk
  · rw [zpow_neg_one, div_eq_mul_inv]
    simp

/-- The rank at rate one half is exact. -/
theorem rankF_half (F : Fmt) (hF : F.emin < F.frac) (h6 : 6 ≤ F.frac) (n : Nat) (n1 : 1 ≤ n) (n2 : n ≤ 2 ^ F.frac) :
    rankF F n (1 / 2 : K) = ((n : K) + 1) / 2 := by
  have h64 : 2 ^ 6 ≤ 2 ^ F.frac := Nat.pow_le_pow_right (by norm_num) h6
  have hp : 2 ^ (F.frac + 1) = 2 * 2 ^ F.frac := by rw [pow_succ]; ring
  have a : F.round ((1 / 2 : K) * 100) = 50 := by
    have := round_halves (K := K) F hF 100 (by omega)
    norm_num at this ⊢
    exact this
  have b : F.round ((50 : K) / 100) = 1 / 2 := by
    have := round_halves (K := K) F hF 1 (by omega)
    norm_num at this ⊢
    exact this
  have c : F.round (((n - 1 : Nat) : K) * (1 / 2)) = ((n - 1 : Nat) : K) / 2 := by
    rw [← round_halves (K := K) F hF (n - 1) (by omega), mul_one_div]
  rw [rankF, a, b, c]
  have e : (1 : K) + ((n - 1 : Nat) : K) / 2 = ((n + 1 : Nat) : K) / 2 := by
    rw [Nat.cast_sub n1]
    push_cast
    ring
  rw [e, round_halves (K := K) F hF (n + 1) (by omega)]
  push_cast
  rfl

/-- C177: at the default rate of one half the strongest weight survives, as long as no weight is among the
subnormal numbers. -/
theorem C177_half (F : Fmt) (hF : F.emin < F.frac) (h6 : 6 ≤ F.frac) (l : List K) (hl : l ≠ [])
    (hw : FloatWeights F l) (hn : ∀ w ∈ l, 2 ^ (F.emin + 1) ≤ w) (n2 : l.length ≤ 2 ^ F.frac) :
    ∃ w ∈ shrinkF F l (1 / 2), w ≠ 0 := by
  have hlen : 1 ≤ l.length := List.length_pos_iff.2 hl
  have hr := rankF_half (K := K) F hF h6 l.length hlen n2
  have hlen' : (1 : K) ≤ l.length := by exact_mod_cast hlen
  rcases Nat.even_or_odd' l.length with ⟨k, hk | hk⟩
  · rw [shrinkF_survives F l _ fun w h => (hw w h).2.1]
    have hk' : (l.length : K) = 2 * k := by exact_mod_cast hk
    have hr' : rankF F l.length (1 / 2 : K) = (k : K) + 1 / 2 := by rw [hr, hk']; ring
    have hfl : ⌊rankF F l.length (1 / 2 : K)⌋ = (k : ℤ) := by
      rw [hr', Int.floor_eq_iff]
      constructor <;> push_cast <;> linarith
    unfold quantileF
    dsimp only
    split_ifs
    · exact ⟨_, sort_getD_mem hlen, le_rfl⟩
    · exact ⟨_, sort_getD_mem (i := l.length - 1) (by omega), le_rfl⟩
    · exact ⟨_, sort_getD_mem hlen, le_rfl⟩
    · have hi : k < l.length := by omega
      refine ⟨_, sort_getD_mem hi, ?_⟩
      rw [hfl, hr', Int.toNat_natCast]
      have e1 : (k : K) + 1 / 2 - ((k : ℤ) : K) = ((1 : Nat) : K) / 2 := by push_cast; ring
      have e2 : (1 : K) - ((1 : Nat) : K) / 2 = ((1 : Nat) : K) / 2 := by push_cast; ring
      have hp : 1 ≤ 2 ^ (F.frac + 1) := Nat.one_le_two_pow
      rw [e1, round_halves (K := K) F hF 1 hp, lerpF, e2, round_halves (K := K) F hF 1 hp]
      have lm := hw _ (sort_getD_mem (l := l) (i := k - 1) (by omega))
      have um := hw _ (sort_getD_mem (l := l) hi)
      have hle : (sortL l).getD (k - 1) 0 ≤ (sortL l).getD k 0 := sortL_monoTo l _ _ (by omega) hi
      have hh := isFloat_half F um.1 (hn _ (sort_getD_mem (l := l) hi))
      generalize (sortL l).getD (k - 1) 0 = a at *
      generalize (sortL l).getD k 0 = b at *
      have hb : F.round (b * (((1 : Nat) : K) / 2)) = b / 2 := by
        rw [show b * (((1 : Nat) : K) / 2) = b / 2 by push_cast; ring, F.round_float _ hh]
      have ha : F.round (a * (((1 : Nat) : K) / 2)) ≤ b / 2 := by
        rw [← hb]
        exact F.round_mono (mul_le_mul_of_nonneg_right hle (by push_cast; norm_num))
      rw [hb]
      calc F.round (F.round (a * (((1 : Nat) : K) / 2)) + b / 2) ≤ F.round b := F.round_mono (by linarith)
        _ = b := F.round_float _ um.1
  · refine C177_safe F (by omega) l _ hl hw (Or.inr (Or.inr (Or.inr ?_)))
    have hk' : (l.length : K) = 2 * k + 1 := by exact_mod_cast hk
    have hr' : rankF F l.length (1 / 2 : K) = ((k + 1 : ℤ) : K) := by rw [hr, hk']; push_cast; ring
    rw [hr', Int.floor_intCast]
    have : (0 : K) ≤ k := Nat.cast_nonneg k
    refine ⟨rfl, ?_, ?_⟩
    · push_cast; linarith
    · rw [hk']; push_cast; linarith

/-- one weight as a double, the float next to 1/25 -/
def w25 : ℚ := double.round (1 / 25)

/-- C177: what goes wrong. Twenty-five neighbours of the same weight 1/25, of which a rate of 0.7 is to keep the
stronger part: in double precision the threshold comes out above the weight, and no neighbour is left. In exact
arithmetic the threshold is the weight, and all are kept. -/
theorem C177_all_lost : shrinkF double (List.replicate 25 w25) (double.round (7 / 10)) = List.replicate 25 0 ∧
    FloatWeights double (List.replicate 25 w25) ∧
    ∀ w ∈ List.replicate 25 w25, quantileVal virtLinear (List.replicate 25 w25) (7 / 10) ≤ w := by
  refine ⟨by decide +kernel, ?_, by decide +kernel⟩
  intro w hw
  rw [List.eq_of_mem_replicate hw]
  exact ⟨Fmt.round_isFloat _ _, by decide +kernel, by decide +kernel⟩

/-- C177: at the rate of one half two subnormal weights can both be lost. -/
theorem C177_half_subnormal : shrinkF double (List.replicate 2 (3 * 2 ^ (-1074 : ℤ) : ℚ)) (1 / 2) =
    List.replicate 2 0 ∧ FloatWeights double (List.replicate 2 (3 * 2 ^ (-1074 : ℤ) : ℚ)) := by
  refine ⟨by decide +kernel, ?_⟩
  intro w hw
  rw [List.eq_of_mem_replicate hw]
  exact ⟨⟨3, -1074, by decide, by decide, by norm_num⟩, by positivity, by decide +kernel⟩

/-- The hypotheses of `C177_half` hold of three weights in double precision, and the two stronger are kept. -/
example : double.emin < double.frac ∧ 6 ≤ double.frac ∧ FloatWeights double [1 / 4, 1 / 2, (1 : ℚ)] ∧
    (∀ w ∈ [1 / 4, 1 / 2, (1 : ℚ)], 2 ^ (double.emin + 1) ≤ w) ∧
    shrinkF double [1 / 4, 1 / 2, (1 : ℚ)] (1 / 2) = [0, 1 / 2, 1] := by
  refine ⟨by decide, by decide, ?_, by decide +kernel, by decide +kernel⟩
  intro w hw
  simp only [List.mem_cons, List.not_mem_nil, or_false] at hw
  obtain rfl | rfl | rfl := hw
  · exact ⟨⟨1, -2, by decide, by decide, by norm_num⟩, by norm_num, by norm_num⟩
  · exact ⟨⟨1, -1, by decide, by decide, by norm_num⟩, by norm_num, by norm_num⟩
  · exact ⟨⟨1, 0, by decide, by decide, by norm_num⟩, by norm_num, by norm_num⟩

/-- The hypotheses of `C177_strict_maximum` hold of three weights at a rate of 0.3 in double precision. -/
example : 1 ≤ rankF double 3 (double.round (3 / 10) : ℚ) ∧ rankF double 3 (double.round (3 / 10) : ℚ) < 3 ∧
    (sortL [1 / 4, 1 / 2, (1 : ℚ)]).getD ⌊rankF double 3 (double.round (3 / 10) : ℚ)⌋.toNat 0 *
      (1 + 2 ^ (-(double.frac + 1 : ℤ))) ^ 3 + 9 * 2 ^ (double.emin - double.frac - 1) ≤ 1 ∧
    shrinkF double [1 / 4, 1 / 2, (1 : ℚ)] (double.round (3 / 10)) = [0, 1 / 2, 1] := by
  decide +kernel

end Geo
