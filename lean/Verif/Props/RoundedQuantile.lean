import Verif.Model.RoundedQuantile
import Verif.Props.RateCounts
set_option linter.unusedSectionVars false
/-
C179: bandwidths from a fraction of the neighbours, and grids of effect curves, in floating point.
-/
namespace Geo
variable {K : Type} [Field K] [LinearOrder K] [IsStrictOrderedRing K] [FloorRing K]

/-- The format of the values is contained in the format of the calculation. -/
structure Fmt.Within (S F : Fmt) : Prop where
  frac : S.frac ≤ F.frac
  tiny : F.emin - F.frac ≤ S.emin - S.frac
  one : F.emin < F.frac

theorem Fmt.Within.isFloat {S F : Fmt} (h : S.Within F) {x : K} (hx : S.IsFloat x) : F.IsFloat x := by
  obtain ⟨m, e, hm, he, rfl⟩ := hx
  exact ⟨m, e, hm.trans (pow_le_pow_right₀ (by norm_num) (by have := h.frac; omega)), h.tiny.trans he, rfl⟩

theorem isFloat_two_zpow (F : Fmt) (e : ℤ) (he : F.emin - F.frac ≤ e) : F.IsFloat ((2 : K) ^ e) :=
  ⟨1, e, by rw [abs_one]; exact one_le_pow₀ (by norm_num), he, by simp⟩

/-- Half of a rounded difference of two values, or less, stays below the difference when rounded. -/
theorem half_difference (S F : Fmt) (hSF : S.Within F) (a b t : K) (ha : S.IsFloat a) (hb : S.IsFloat b) (hab : a ≤ b)
    (t0 : 0 ≤ t) (t1 : t ≤ 1 / 2) : 0 ≤ F.round (S.round (b - a) * t) ∧ F.round (S.round (b - a) * t) ≤ b - a := by
  have nn (G : Fmt) {x : K} (hx : 0 ≤ x) : 0 ≤ G.round x := by
    have := G.round_mono hx
    rwa [Fmt.round_zero] at this
  rcases eq_or_lt_of_le hab with h | h
  · rw [h, sub_self, Fmt.round_zero, zero_mul, Fmt.round_zero]
    exact ⟨le_rfl, le_rfl⟩
  · have hd : 0 < b - a := sub_pos.2 h
    refine ⟨nn F (mul_nonneg (nn S hd.le) t0), ?_⟩
    -- the power of two at or below the difference
    obtain ⟨i, hi⟩ := ha.multiple
    obtain ⟨j, hj⟩ := hb.multiple
    have hmul : b - a = ((j - i : ℤ) : K) * 2 ^ (S.emin - S.frac) := by rw [hi, hj]; push_cast; ring
    have hp := Fmt.two_zpow_pos (K := K) (S.emin - S.frac)
    have hij : 1 ≤ j - i := by
      by_contra hc
      have h0 : ((j - i : ℤ) : K) ≤ 0 := by exact_mod_cast (by omega : j - i ≤ 0)
      have := mul_nonpos_of_nonpos_of_nonneg h0 hp.le
      linarith
    have hmin : (2 : K) ^ (S.emin - S.frac) ≤ b - a := by
      rw [hmul]
      have : (1 : K) ≤ ((j - i : ℤ) : K) := by exact_mod_cast hij
      exact le_mul_of_one_le_left hp.le this
    set k := Int.log 2 (b - a) with hk
    have k1 : (2 : K) ^ k ≤ b - a := by
      have := Int.zpow_log_le_self (b := 2) (by norm_num) hd
      exact_mod_cast this
    have k2 : b - a < (2 : K) ^ (k + 1) := by
      have := Int.lt_zpow_succ_log_self (b := 2) (by norm_num) (b - a)
      exact_mod_cast this
    have k3 : S.emin - S.frac ≤ k :=
      (Int.zpow_le_iff_le_log (b := 2) (by norm_num) hd).1 (by exact_mod_cast hmin)
    have r1 : S.round (b - a) ≤ 2 ^ (k + 1) := by
      have := S.round_mono k2.le
      rwa [S.round_float _ (isFloat_two_zpow S (k + 1) (by omega))] at this
    have r2 : S.round (b - a) * t ≤ 2 ^ k := by
      have e : (2 : K) ^ (k + 1) * (1 / 2) = 2 ^ k := by
        rw [zpow_add_one₀ (by norm_num)]
        ring
      rw [← e]
      exact mul_le_mul r1 t1 t0 (Fmt.two_zpow_pos _).le
    have r3 := F.round_mono r2
    rw [F.round_float _ (isFloat_two_zpow F k (hSF.tiny.trans k3))] at r3
    exact r3.trans k1

theorem round_unit (F : Fmt) (h : F.emin < F.frac) : F.round (1 : K) = 1 ∧ F.round (1 / 2 : K) = 1 / 2 := by
  constructor
  · simpa using F.round_float _ (isFloat_two_zpow (K := K) F 0 (by omega))
  · have := F.round_float _ (isFloat_two_zpow (K := K) F (-1) (by omega))
    rwa [zpow_neg_one, ← one_div] at this

/-- numpy's interpolation never leaves the interval. -/
theorem lerpR_mem (S F : Fmt) (hSF : S.Within F) (a b t : K) (ha : S.IsFloat a) (hb : S.IsFloat b) (hab : a ≤ b)
    (t0 : 0 ≤ t) (t1 : t ≤ 1) : a ≤ lerpR S F a b t ∧ lerpR S F a b t ≤ b := by
  have fa := F.round_float _ (hSF.isFloat ha)
  have fb := F.round_float _ (hSF.isFloat hb)
  have nn {x : K} (hx : 0 ≤ x) : 0 ≤ F.round x := by
    have := F.round_mono hx
    rwa [Fmt.round_zero] at this
  unfold lerpR
  split_ifs with h
  · have u1 : F.round (1 - t) ≤ 1 / 2 := by
      rw [← (round_unit (K := K) F hSF.one).2]
      exact F.round_mono (by linarith)
    obtain ⟨h1, h2⟩ := half_difference S F hSF a b _ ha hb hab (nn (sub_nonneg.2 t1)) u1
    constructor
    · conv_lhs => rw [← fa]
      exact F.round_mono (by linarith)
    · conv_rhs => rw [← fb]
      exact F.round_mono (by linarith)
  · obtain ⟨h1, h2⟩ := half_difference S F hSF a b _ ha hb hab t0 (not_le.1 h).le
    constructor
    · conv_lhs => rw [← fa]
      exact F.round_mono (by linarith)
    · conv_rhs => rw [← fb]
      exact F.round_mono (by linarith)

theorem sorted_mem {l : List K} {i : Nat} (h : i < l.length) : (sortL l).getD i 0 ∈ l := by
  rw [List.getD_eq_getElem _ _ (by simpa using h)]
  exact mem_sortL.1 (List.getElem_mem _)

/-- C179: the quantile is between the two values on either side of the virtual index. -/
theorem C179_between (S F : Fmt) (hSF : S.Within F) (l : List K) (hl : ∀ x ∈ l, S.IsFloat x) (v : K) (v0 : 0 ≤ v)
    (v1 : v < ((l.length - 1 : Nat) : K)) :
    (sortL l).getD ⌊v⌋₊ 0 ≤ quantileR S F l v ∧ quantileR S F l v ≤ (sortL l).getD (⌊v⌋₊ + 1) 0 := by
  have hf : ⌊v⌋₊ < l.length - 1 := (Nat.floor_lt v0).2 v1
  have nn {x : K} (hx : 0 ≤ x) : 0 ≤ F.round x := by
    have := F.round_mono hx
    rwa [Fmt.round_zero] at this
  have t0 : 0 ≤ v - ⌊v⌋₊ := sub_nonneg.2 (Nat.floor_le v0)
  have t1 : F.round (v - ⌊v⌋₊) ≤ 1 := by
    rw [← (round_unit (K := K) F hSF.one).1]
    exact F.round_mono (by have := Nat.lt_floor_add_one v; linarith)
  unfold quantileR
  dsimp only
  rw [if_neg (not_le.2 v1), if_neg (not_lt.2 v0)]
  exact lerpR_mem S F hSF _ _ _ (hl _ (sorted_mem (by omega))) (hl _ (sorted_mem (by omega)))
    (sortL_monoTo l _ _ (by omega) (by omega)) (nn t0) t1

/-- C179: it is never outside the range of the values, whatever the virtual index. -/
theorem C179_range (S F : Fmt) (hSF : S.Within F) (l : List K) (hl : ∀ x ∈ l, S.IsFloat x) (hne : l ≠ []) (v : K) :
    (∃ x ∈ l, x ≤ quantileR S F l v) ∧ ∃ x ∈ l, quantileR S F l v ≤ x := by
  have hlen := List.length_pos_iff.2 hne
  by_cases h1 : ((l.length - 1 : Nat) : K) ≤ v
  · have e : quantileR S F l v = (sortL l).getD (l.length - 1) 0 := if_pos h1
    rw [e]
    exact ⟨⟨_, sorted_mem (by omega), le_rfl⟩, _, sorted_mem (by omega), le_rfl⟩
  · by_cases h2 : v < 0
    · have e : quantileR S F l v = (sortL l).getD 0 0 := by
        unfold quantileR
        dsimp only
        rw [if_neg h1, if_pos h2]
      rw [e]
      exact ⟨⟨_, sorted_mem hlen, le_rfl⟩, _, sorted_mem hlen, le_rfl⟩
    · rw [not_le] at h1
      rw [not_lt] at h2
      have hf : ⌊v⌋₊ < l.length - 1 := (Nat.floor_lt h2).2 h1
      obtain ⟨a, b⟩ := C179_between S F hSF l hl v h2 h1
      exact ⟨⟨_, sorted_mem (by omega), a⟩, _, sorted_mem (by omega), b⟩

/-- C179: an index below zero gives the smallest value, one from `n - 1` on the largest. -/
theorem C179_outside (S F : Fmt) (l : List K) (v : K) :
    (v < 0 → ∀ x ∈ l, quantileR S F l v ≤ x) ∧ (((l.length - 1 : Nat) : K) ≤ v → ∀ x ∈ l, x ≤ quantileR S F l v) := by
  have at_index {x : K} (hx : x ∈ l) : ∃ i, i < l.length ∧ x = (sortL l).getD i 0 := by
    obtain ⟨i, hi, rfl⟩ := List.getElem_of_mem (mem_sortL.2 hx)
    exact ⟨i, by simpa using hi, (List.getD_eq_getElem _ _ hi).symm⟩
  constructor
  · intro hv x hx
    obtain ⟨i, hi, rfl⟩ := at_index hx
    have h1 : ¬ ((l.length - 1 : Nat) : K) ≤ v := by
      have : (0 : K) ≤ ((l.length - 1 : Nat) : K) := Nat.cast_nonneg _
      intro h
      linarith
    have e : quantileR S F l v = (sortL l).getD 0 0 := by
      unfold quantileR
      dsimp only
      rw [if_neg h1, if_pos hv]
    rw [e]
    exact sortL_monoTo l 0 i (Nat.zero_le _) hi
  · intro hv x hx
    obtain ⟨i, hi, rfl⟩ := at_index hx
    have e : quantileR S F l v = (sortL l).getD (l.length - 1) 0 := if_pos hv
    rw [e]
    exact sortL_monoTo l i (l.length - 1) (by omega) (by omega)

/-- C179: ties are exact: where the values on either side agree, the quantile is that value. -/
theorem C179_ties (S F : Fmt) (hSF : S.Within F) (l : List K) (hl : ∀ x ∈ l, S.IsFloat x) (v : K) (v0 : 0 ≤ v)
    (v1 : v < ((l.length - 1 : Nat) : K))
    (ht : (sortL l).getD ⌊v⌋₊ 0 = (sortL l).getD (⌊v⌋₊ + 1) 0) : quantileR S F l v = (sortL l).getD ⌊v⌋₊ 0 := by
  obtain ⟨a, b⟩ := C179_between S F hSF l hl v v0 v1
  exact le_antisymm (by rw [ht]; exact b) a

/-- C179: a bandwidth taken at virtual index `v` has at least `⌊v⌋ + 1` points within reach, and at most as many
strictly nearer. -/
theorem C179_reach (S F : Fmt) (hSF : S.Within F) (l : List K) (hl : ∀ x ∈ l, S.IsFloat x) (v : K) (v0 : 0 ≤ v)
    (v1 : v < ((l.length - 1 : Nat) : K)) :
    ⌊v⌋₊ + 1 ≤ l.countP (fun x => decide (x ≤ quantileR S F l v)) ∧
      l.countP (fun x => decide (x < quantileR S F l v)) ≤ ⌊v⌋₊ + 1 := by
  have hf : ⌊v⌋₊ < l.length - 1 := (Nat.floor_lt v0).2 v1
  obtain ⟨a, b⟩ := C179_between S F hSF l hl v v0 v1
  have hs := sortL_pairwise l
  have p (f : K → Bool) : l.countP f = (sortL l).countP f := ((sortL_perm l).countP_eq f).symm
  have hk : ⌊v⌋₊ < (sortL l).length := by simp; omega
  have hk1 : ⌊v⌋₊ + 1 < (sortL l).length := by simp; omega
  rw [List.getD_eq_getElem _ _ hk] at a
  rw [List.getD_eq_getElem _ _ hk1] at b
  rw [p, p]
  constructor
  · refine (countP_le_sorted hs hk).trans (List.countP_mono_left ?_)
    intro x _ hx
    simp only [decide_eq_true_eq] at hx ⊢
    exact hx.trans a
  · refine le_trans (List.countP_mono_left ?_) (countP_lt_sorted hs hk1)
    intro x _ hx
    simp only [decide_eq_true_eq] at hx ⊢
    exact hx.trans_le b

/-- C179: the ends of a grid of quantiles are the smallest and the largest value, so that the grid covers all
values. -/
theorem C179_grid_ends (S F : Fmt) (hSF : S.Within F) (l : List K) (hl : ∀ x ∈ l, S.IsFloat x) (hne : l ≠ [])
    (hn : l.length ≤ 2 ^ (F.frac + 1)) : ∀ x ∈ l,
    quantileR S F l (virtLinearR F l.length 0) ≤ x ∧ x ≤ quantileR S F l (virtLinearR F l.length 1) := by
  intro x hx
  have hlen := List.length_pos_iff.2 hne
  obtain ⟨i, hi, rfl⟩ := List.getElem_of_mem (mem_sortL.2 hx)
  have hi' : i < l.length := by simpa using hi
  have e : (sortL l)[i] = (sortL l).getD i 0 := (List.getD_eq_getElem _ _ hi).symm
  rw [e]
  constructor
  · refine le_trans ?_ (sortL_monoTo l 0 i (Nat.zero_le _) hi')
    unfold virtLinearR
    rw [mul_zero, Fmt.round_zero]
    by_cases h1 : l.length - 1 = 0
    · have : quantileR S F l (0 : K) = (sortL l).getD (l.length - 1) 0 := if_pos (by rw [h1]; simp)
      rw [this, h1]
    · have v1 : (0 : K) < ((l.length - 1 : Nat) : K) := by exact_mod_cast Nat.pos_of_ne_zero h1
      have hz : quantileR S F l (0 : K) = (sortL l).getD 0 0 := by
        unfold quantileR
        dsimp only
        rw [if_neg (not_le.2 v1), if_neg (lt_irrefl _), Nat.floor_zero, Nat.cast_zero, sub_zero, Fmt.round_zero, lerpR,
          if_neg (by norm_num), mul_zero, Fmt.round_zero, add_zero,
          F.round_float _ (hSF.isFloat (hl _ (sorted_mem hlen)))]
      rw [hz]
  · refine (sortL_monoTo l i (l.length - 1) (by omega) (by omega)).trans ?_
    unfold virtLinearR
    have hr : F.round (((l.length - 1 : Nat) : K) * 1) = ((l.length - 1 : Nat) : K) := by
      rw [mul_one]
      have := F.round_int (K := K) hSF.one.le ((l.length - 1 : Nat) : ℤ)
        (by rw [abs_of_nonneg (by positivity)]; exact_mod_cast (by omega : l.length - 1 ≤ 2 ^ (F.frac + 1)))
      simpa using this
    rw [hr]
    exact le_of_eq (if_pos le_rfl).symm

/-- The rounding error of numbers well below the largest exact integer. -/
theorem round_sixteenth (F : Fmt) (h6 : 6 ≤ F.frac) (hF : F.emin ≤ 0) {x : K} (h : |x| ≤ 2 ^ (F.frac - 3)) :
    |F.round x - x| ≤ 1 / 16 := by
  refine (F.round_close x).trans ?_
  have := ulp_le_of_lt (F := F) (x := x) (k := ((F.frac - 3 : ℕ) : ℤ)) (by omega) (by omega) (by
    rw [zpow_natCast]
    exact h)
  rw [show ((F.frac - 3 : ℕ) : ℤ) - F.frac = -3 by omega] at this
  norm_num at this
  linarith

theorem floor_close {x y : K} (h : |x - y| < 1) : |⌊x⌋ - ⌊y⌋| ≤ 1 := by
  have h1 := abs_lt.1 h
  have a := Int.floor_le x
  have b := Int.lt_floor_add_one x
  have c := Int.floor_le y
  have d := Int.lt_floor_add_one y
  have e1 : ((⌊x⌋ - ⌊y⌋ : ℤ) : K) < 2 := by push_cast; linarith [h1.2]
  have e2 : (-2 : K) < ((⌊x⌋ - ⌊y⌋ : ℤ) : K) := by push_cast; linarith [h1.1]
  have f1 : ⌊x⌋ - ⌊y⌋ < 2 := by exact_mod_cast e1
  have f2 : -2 < ⌊x⌋ - ⌊y⌋ := by exact_mod_cast e2
  rw [abs_le]
  omega

/-- C179: the virtual index is less than one off, so that the number of points within reach is at most one off.
First, the default method. -/
theorem C179_index_linear (F : Fmt) (h6 : 6 ≤ F.frac) (hF : F.emin ≤ 0) (n : Nat) (n1 : 1 ≤ n)
    (hn : n ≤ 2 ^ (F.frac - 4)) (q : K) (q0 : 0 ≤ q) (q1 : q ≤ 1) :
    |virtLinearR F n q - virtLinear n q| < 1 ∧ |⌊virtLinearR F n q⌋ - ⌊virtLinear n q⌋| ≤ 1 := by
  have hp : (2 : K) ^ (F.frac - 3) = 2 * 2 ^ (F.frac - 4) := by
    rw [show F.frac - 3 = F.frac - 4 + 1 by omega, pow_succ]
    ring
  have hn' : (n : K) ≤ 2 ^ (F.frac - 4) := by exact_mod_cast hn
  have e : ((n - 1 : Nat) : K) = (n : K) - 1 := by rw [Nat.cast_sub n1, Nat.cast_one]
  have hn1 : (1 : K) ≤ n := by exact_mod_cast n1
  have x0 : 0 ≤ ((n : K) - 1) * q := mul_nonneg (by linarith) q0
  have x1 : ((n : K) - 1) * q ≤ n - 1 := mul_le_of_le_one_right (by linarith) q1
  have h := round_sixteenth F h6 hF (x := ((n : K) - 1) * q) (by rw [abs_of_nonneg x0, hp]; linarith)
  unfold virtLinearR virtLinear
  rw [e]
  refine ⟨by linarith, ?_⟩
  exact floor_close (by linarith)

/-- C179: and `median_unbiased`. -/
theorem C179_index_median (F : Fmt) (h6 : 6 ≤ F.frac) (hF : F.emin ≤ 0) (n : Nat) (hn : n ≤ 2 ^ (F.frac - 4)) (q : K)
    (q0 : 0 ≤ q) (q1 : q ≤ 1) :
    |virtMedianR F n q - virtMedian n q| < 1 ∧ |⌊virtMedianR F n q⌋ - ⌊virtMedian n q⌋| ≤ 1 := by
  have hp : (2 : K) ^ (F.frac - 3) = 2 * 2 ^ (F.frac - 4) := by
    rw [show F.frac - 3 = F.frac - 4 + 1 by omega, pow_succ]
    ring
  have h4 : (4 : K) ≤ 2 ^ (F.frac - 4) := by
    have : (2 : K) ^ 2 ≤ 2 ^ (F.frac - 4) := pow_le_pow_right₀ (by norm_num) (by omega)
    linarith
  have hn' : (n : K) ≤ 2 ^ (F.frac - 4) := by exact_mod_cast hn
  have err {x : K} (h1 : -2 ≤ x) (h2 : x ≤ 2 ^ (F.frac - 4) + 4) := abs_le.1 (round_sixteenth F h6 hF (x := x)
    (abs_le.2 ⟨by linarith, by linarith⟩))
  have n0 : (0 : K) ≤ n := Nat.cast_nonneg n
  have key : |virtMedianR F n q - virtMedian n q| < 1 := by
    unfold virtMedianR virtMedian
    dsimp only
    obtain ⟨t1, t2⟩ := err (x := 1 / 3) (by norm_num) (by linarith)
    generalize F.round (1 / 3 : K) = t at *
    obtain ⟨a1, a2⟩ := err (x := 1 - t) (by linarith) (by linarith)
    generalize F.round (1 - t) = a at *
    obtain ⟨b1, b2⟩ := err (x := a - t) (by linarith) (by linarith)
    generalize F.round (a - t) = b at *
    have qb1 : q * b ≤ q * (1 / 3) + 1 / 4 := by nlinarith
    have qb2 : q * (1 / 3) - 1 / 4 ≤ q * b := by nlinarith
    obtain ⟨c1, c2⟩ := err (x := q * b) (by linarith) (by linarith)
    generalize F.round (q * b) = c at *
    obtain ⟨d1, d2⟩ := err (x := t + c) (by linarith) (by linarith)
    generalize F.round (t + c) = d at *
    have nq1 : (n : K) * q ≤ n := mul_le_of_le_one_right n0 q1
    have nq0 : 0 ≤ (n : K) * q := mul_nonneg n0 q0
    obtain ⟨e1, e2⟩ := err (x := (n : K) * q) (by linarith) (by linarith)
    generalize F.round ((n : K) * q) = e at *
    obtain ⟨f1, f2⟩ := err (x := e + d) (by linarith) (by linarith)
    generalize F.round (e + d) = f at *
    obtain ⟨g1, g2⟩ := err (x := f - 1) (by linarith) (by linarith)
    generalize F.round (f - 1) = g at *
    rw [abs_lt]
    constructor <;> linarith
  exact ⟨key, floor_close key⟩

/-- Double precision contains single precision and itself. -/
theorem within_double : single.Within double ∧ double.Within double :=
  ⟨⟨by decide, by decide, by decide⟩, by decide, by decide, by decide⟩

/-- Four distances in single precision and the fraction 0.6: the virtual index is between 1 and 2, and the
bandwidth between the second and third distance. -/
example : (∀ x ∈ [(0 : ℚ), 3, 1, 2], single.IsFloat x) ∧
    ⌊virtMedianR double 4 (double.round (6 / 10) : ℚ)⌋₊ = 1 ∧
    0 ≤ virtMedianR double 4 (double.round (6 / 10) : ℚ) ∧
    virtMedianR double 4 (double.round (6 / 10) : ℚ) < 3 ∧
    1 < quantileR single double [(0 : ℚ), 3, 1, 2] (virtMedianR double 4 (double.round (6 / 10))) ∧
    quantileR single double [(0 : ℚ), 3, 1, 2] (virtMedianR double 4 (double.round (6 / 10))) < 2 := by
  refine ⟨?_, by decide +kernel, by decide +kernel, by decide +kernel, by decide +kernel, by decide +kernel⟩
  intro x hx
  simp only [List.mem_cons, List.not_mem_nil, or_false] at hx
  obtain rfl | rfl | rfl | rfl := hx
  · exact ⟨0, 0, by decide, by decide, by norm_num⟩
  · exact ⟨3, 0, by decide, by decide, by norm_num⟩
  · exact ⟨1, 0, by decide, by decide, by norm_num⟩
  · exact ⟨2, 0, by decide, by decide, by norm_num⟩

/-- C179: and one off it can be. With 33 points at distances 0 to 32 and the fraction 0.29 the index is 9 and ten
points are within the bandwidth, but in double precision the index comes out just below 9 and nine points are. -/
theorem C179_one_off : virtMedian 33 (29 / 100 : ℚ) = 9 ∧ ⌊virtMedianR double 33 (double.round (29 / 100) : ℚ)⌋ = 8 ∧
    ((List.range 33).map fun i => (i : ℚ)).countP (fun x => decide (x ≤
      quantileVal virtMedian ((List.range 33).map fun i => (i : ℚ)) (29 / 100))) = 10 ∧
    ((List.range 33).map fun i => (i : ℚ)).countP (fun x => decide (x ≤
      quantileR single double ((List.range 33).map fun i => (i : ℚ))
        (virtMedianR double 33 (double.round (29 / 100))))) = 9 := by
  refine ⟨by norm_num [virtMedian], by decide +kernel, by decide +kernel, by decide +kernel⟩

/-- The hypotheses of the index theorems hold of double precision and 33 points. -/
example : 6 ≤ double.frac ∧ double.emin ≤ 0 ∧ (33 : ℕ) ≤ 2 ^ (double.frac - 4) := by decide

end Geo
