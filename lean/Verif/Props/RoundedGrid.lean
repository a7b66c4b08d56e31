import Verif.Model.RoundedGrid
import Verif.Props.Ale
import Verif.Props.RoundedQuantile
set_option linter.unusedSectionVars false
/-
C180: the grid of an effect curve in floating point.
-/
namespace Geo
variable {K : Type} [Field K] [LinearOrder K] [IsStrictOrderedRing K] [FloorRing K]

/-- What is asked of the format: 100 is exact, and numbers down to `2^-frac` are normal. -/
structure Fmt.Grid (F : Fmt) : Prop where
  frac : 6 ≤ F.frac
  emin : F.emin ≤ -F.frac

theorem Fmt.Grid.within {F : Fmt} (h : F.Grid) : F.Within F :=
  ⟨le_rfl, le_rfl, by have := h.frac; have := h.emin; omega⟩

theorem Fmt.Grid.hundred {F : Fmt} (h : F.Grid) : F.round (100 : K) = 100 := by
  have h64 : (2 : ℤ) ^ 7 ≤ 2 ^ (F.frac + 1) := pow_le_pow_right₀ (by norm_num) (by have := h.frac; omega)
  have := F.round_int (K := K) (by have := h.frac; have := h.emin; omega) 100
    (by rw [abs_of_pos (by norm_num)]; linarith)
  exact_mod_cast this

/-- The percentiles stay within 0 and 100. -/
theorem percentileR_mem {F : Fmt} (h : F.Grid) {num k : Nat} (hk : k < num) (hn : num ≤ 2 ^ F.frac) :
    (0 : K) ≤ percentileR F num k ∧ (percentileR F num k : K) ≤ 100 := by
  have nn {x : K} (hx : 0 ≤ x) : 0 ≤ F.round x := by
    have := F.round_mono hx
    rwa [Fmt.round_zero] at this
  unfold percentileR
  split_ifs with h1 h2
  · exact ⟨le_rfl, by norm_num⟩
  · exact ⟨by norm_num, le_rfl⟩
  · have d0 : (0 : K) < ((num - 1 : Nat) : K) := by exact_mod_cast (by omega : 0 < num - 1)
    have x0 : (0 : K) ≤ 100 / ((num - 1 : Nat) : K) := div_nonneg (by norm_num) d0.le
    refine ⟨nn (mul_nonneg (Nat.cast_nonneg k) (nn x0)), ?_⟩
    conv_rhs => rw [← h.hundred (K := K)]
    refine F.round_mono ?_
    have hd : ((num - 1 : Nat) : K) ≤ 2 ^ F.frac := by exact_mod_cast (by omega : num - 1 ≤ 2 ^ F.frac)
    have hk1 : (k : K) ≤ ((num - 1 : Nat) : K) - 1 := by
      have : ((k + 1 : Nat) : K) ≤ ((num - 1 : Nat) : K) := by exact_mod_cast (by omega : k + 1 ≤ num - 1)
      push_cast at this
      linarith
    have hx : (2 : K) ^ F.emin ≤ |100 / ((num - 1 : Nat) : K)| := by
      rw [abs_of_nonneg x0, le_div_iff₀ d0]
      calc (2 : K) ^ F.emin * ((num - 1 : Nat) : K) ≤ 2 ^ (-(F.frac : ℤ)) * 2 ^ F.frac := by
            refine mul_le_mul (zpow_le_zpow_right₀ (by norm_num) h.emin) hd d0.le (Fmt.two_zpow_pos _).le
        _ = 1 := by rw [← zpow_natCast, ← zpow_add₀ (by norm_num), neg_add_cancel, zpow_zero]
        _ ≤ 100 := by norm_num
    have hr := (abs_le.1 (F.round_relative hx)).2
    rw [abs_of_nonneg x0] at hr
    have u0 : (0 : K) < 2 ^ (-(F.frac + 1 : ℤ)) := Fmt.two_zpow_pos _
    have hu : ((num - 1 : Nat) : K) * 2 ^ (-(F.frac + 1 : ℤ)) ≤ 1 := by
      calc ((num - 1 : Nat) : K) * 2 ^ (-(F.frac + 1 : ℤ)) ≤ 2 ^ F.frac * 2 ^ (-(F.frac + 1 : ℤ)) :=
            mul_le_mul_of_nonneg_right hd u0.le
        _ = 2 ^ (-1 : ℤ) := by
            rw [← zpow_natCast, ← zpow_add₀ (by norm_num)]
            congr 1
            omega
        _ ≤ 1 := by norm_num
    have r0 := nn x0
    generalize (2 : K) ^ (-(F.frac + 1 : ℤ)) = u at *
    generalize hD : ((num - 1 : Nat) : K) = D at *
    generalize F.round (100 / D) = r at *
    have i1 : (k : K) * r ≤ (D - 1) * r := mul_le_mul_of_nonneg_right hk1 r0
    have k0 : (0 : K) ≤ k := Nat.cast_nonneg k
    have i2 : (D - 1) * r ≤ (D - 1) * (100 / D * (1 + u)) :=
      mul_le_mul_of_nonneg_left (by nlinarith) (by linarith)
    have i3 : (D - 1) * (100 / D * (1 + u)) = 100 * ((D - 1) * (1 + u) / D) := by
      field_simp
    have i4 : (D - 1) * (1 + u) / D ≤ 1 := by
      rw [div_le_one d0]
      nlinarith
    nlinarith

/-- The `j`-th of `n` grid points. -/
def gridPointR (F : Fmt) (values : List K) (n j : Nat) : K :=
  quantileR F F values (virtLinearR F values.length (F.round (percentileR F n j / 100)))

theorem getQuantilesR_nat {F : Fmt} (h : F.Grid) {values : List K} (hv : values ≠ []) (n : Nat)
    (hn : n ≤ 2 ^ F.frac) : getQuantilesR F values n = .ok ((List.range n).map (gridPointR F values n)) := by
  unfold getQuantilesR
  rw [if_neg (by omega)]
  simp only [Int.toNat_natCast]
  refine mapE_of_forall (g := gridPointR F values n) ?_
  intro k hk
  have hk := List.mem_range.1 hk
  obtain ⟨p0, p1⟩ := percentileR_mem (K := K) h hk hn
  have q0 : (0 : K) ≤ F.round (percentileR F n k / 100) := by
    have := F.round_mono (show (0 : K) ≤ percentileR F n k / 100 by positivity)
    rwa [Fmt.round_zero] at this
  have q1 : F.round (percentileR F n k / 100 : K) ≤ 1 := by
    have := F.round_mono (show (percentileR F n k / 100 : K) ≤ 1 by linarith)
    rwa [(round_unit F h.within.one).1] at this
  rw [if_neg (by push Not; exact ⟨q0, q1⟩), if_neg hv]
  rfl

theorem getQuantilesR_neg (F : Fmt) (values : List K) {n : ℤ} (h : n < 0) :
    getQuantilesR F values n = .error .valueError := if_pos h

variable {F : Fmt} {values : List K}

theorem gridPointR_first (h : F.Grid) (hf : ∀ x ∈ values, F.IsFloat x) (hv : values ≠ [])
    (hl : values.length ≤ 2 ^ F.frac) (n : Nat) :
    gridPointR F values n 0 ∈ values ∧ ∀ v ∈ values, gridPointR F values n 0 ≤ v := by
  have e : gridPointR F values n 0 = quantileR F F values (virtLinearR F values.length 0) := by
    unfold gridPointR
    congr 2
    unfold percentileR
    split_ifs with h1 h2
    · rw [zero_div, Fmt.round_zero]
    · omega
    · rw [Nat.cast_zero, zero_mul, Fmt.round_zero, zero_div, Fmt.round_zero]
  have hle : ∀ v ∈ values, gridPointR F values n 0 ≤ v := by
    rw [e]
    exact fun v hx => (C179_grid_ends F F h.within values hf hv
      (hl.trans (Nat.pow_le_pow_right (by norm_num) (by omega))) v hx).1
  refine ⟨?_, hle⟩
  obtain ⟨⟨x, hx, hxle⟩, _⟩ := C179_range F F h.within values hf hv (virtLinearR F values.length 0)
  rw [← e] at hxle
  rw [le_antisymm (hle x hx) hxle]
  exact hx

theorem gridPointR_last (h : F.Grid) (hf : ∀ x ∈ values, F.IsFloat x) (hv : values ≠ [])
    (hl : values.length ≤ 2 ^ F.frac) {n : Nat} (h2 : 2 ≤ n) :
    gridPointR F values n (n - 1) ∈ values ∧ ∀ v ∈ values, v ≤ gridPointR F values n (n - 1) := by
  have e : gridPointR F values n (n - 1) = quantileR F F values (virtLinearR F values.length 1) := by
    unfold gridPointR
    congr 2
    unfold percentileR
    rw [if_neg (by omega), if_pos (by omega), div_self (by norm_num), (round_unit F h.within.one).1]
  have hle : ∀ v ∈ values, v ≤ gridPointR F values n (n - 1) := by
    rw [e]
    exact fun v hx => (C179_grid_ends F F h.within values hf hv
      (hl.trans (Nat.pow_le_pow_right (by norm_num) (by omega))) v hx).2
  refine ⟨?_, hle⟩
  obtain ⟨_, x, hx, hxle⟩ := C179_range F F h.within values hf hv (virtLinearR F values.length 1)
  rw [← e] at hxle
  rw [le_antisymm hxle (hle x hx)]
  exact hx

theorem gridSpecR (h : F.Grid) (hf : ∀ x ∈ values, F.IsFloat x) (hv : values ≠ []) (hl : values.length ≤ 2 ^ F.frac)
    {n : Nat} (h2 : 2 ≤ n) : GridSpec values (uniqueL ((List.range n).map (gridPointR F values n))) := by
  refine ⟨uniqueL_pairwise _, ⟨gridPointR F values n 0, strict_head (uniqueL_pairwise _) ?_ ?_,
    gridPointR_first h hf hv hl n⟩, ⟨gridPointR F values n (n - 1), strict_last (uniqueL_pairwise _) ?_ ?_,
    gridPointR_last h hf hv hl h2⟩⟩
  · rw [mem_uniqueL]; exact List.mem_map.2 ⟨0, List.mem_range.2 (by omega), rfl⟩
  · intro x hx
    obtain ⟨j, _, rfl⟩ := List.mem_map.1 (mem_uniqueL.1 hx)
    obtain ⟨⟨y, hy, hyle⟩, _⟩ := C179_range F F h.within values hf hv
      (virtLinearR F values.length (F.round (percentileR F n j / 100)))
    exact ((gridPointR_first h hf hv hl n).2 y hy).trans hyle
  · rw [mem_uniqueL]; exact List.mem_map.2 ⟨n - 1, List.mem_range.2 (by omega), rfl⟩
  · intro x hx
    obtain ⟨j, _, rfl⟩ := List.mem_map.1 (mem_uniqueL.1 hx)
    obtain ⟨_, y, hy, hyle⟩ := C179_range F F h.within values hf hv
      (virtLinearR F values.length (F.round (percentileR F n j / 100)))
    exact hyle.trans ((gridPointR_last h hf hv hl h2).2 y hy)

theorem minimumSatisfiedR_nat (h : F.Grid) (hv : values ≠ []) (m : ℤ) (n : Nat) (hn : n ≤ 2 ^ F.frac) :
    minimumSatisfiedR F values m n = .ok
      (if ((bincount (aleIdx (uniqueL ((List.range n).map (gridPointR F values n))) values)).drop 1).all
        (fun c => decide (m < c)) then 1 else 0) := by
  unfold minimumSatisfiedR
  rw [getQuantilesR_nat h hv n hn]

theorem notSatisfiedR_small (h : F.Grid) (hf : ∀ x ∈ values, F.IsFloat x) (hv : values ≠ [])
    (hl : values.length ≤ 2 ^ F.frac) (m : ℤ) (hm : m < values.length) {n : Nat} (hn : n ≤ 2)
    (hn' : n ≤ 2 ^ F.frac) :
    (minimumSatisfiedR F values m n).map (fun b => ((1 - b : ℤ) : K)) = .ok 0 := by
  rw [minimumSatisfiedR_nat h hv m n hn']
  have hone : ∀ v ∈ values, searchLeft (uniqueL ((List.range n).map (gridPointR F values n))) v ≤ 1 := by
    intro v hx
    have hlen : (uniqueL ((List.range n).map (gridPointR F values n))).length ≤ n := by
      refine (List.Sublist.length_le (List.dedup_sublist _)).trans ?_
      simp
    rcases Nat.lt_or_ge n 2 with h' | h'
    · have : searchLeft (uniqueL ((List.range n).map (gridPointR F values n))) v ≤ _ :=
        List.countP_le_length
      omega
    · have := searchLeft_lt ((gridSpecR h hf hv hl h').cover hx)
      omega
  rw [if_pos ((satisfied_one_bin hv m hone).2 hm)]
  simp [Except.map]

/-- C180: in floating point too, with at least three values and more than `min_bin_points` of them, the call
returns a grid that increases strictly from the smallest to the largest value, every value lies in exactly one
interval, and every interval contains more than `min_bin_points` values. -/
theorem C180_adaptive_grid (h : F.Grid) (hf : ∀ x ∈ values, F.IsFloat x) (hl : values.length ≤ 2 ^ F.frac) (m : ℤ)
    (h3 : 3 ≤ values.length) (hm : m < values.length) :
    ∃ q n, adaptiveGridR F values m = .ok (q, n) ∧ 2 ≤ n ∧ n < values.length ∧
      q.Pairwise (· < ·) ∧
      (∃ a, q.head? = some a ∧ a ∈ values ∧ ∀ v ∈ values, a ≤ v) ∧
      (∃ b, q.getLast? = some b ∧ b ∈ values ∧ ∀ v ∈ values, v ≤ b) ∧
      (2 ≤ q.length → ∀ v ∈ values, ∃! k, k + 1 < q.length ∧ (k = 0 ∨ q.getD k 0 < v) ∧ v ≤ q.getD (k + 1) 0) ∧
      ∀ k, k + 1 < q.length → m < values.countP fun v =>
        decide ((k = 0 ∨ q.getD k 0 < v) ∧ v ≤ q.getD (k + 1) 0) := by
  have hv : values ≠ [] := by rintro rfl; simp at h3
  have okn : ∀ n : Nat, n < values.length → n ≤ 2 ^ F.frac := fun n hn => by omega
  obtain ⟨v, hb⟩ := C57_terminates (fun n => (minimumSatisfiedR F values m n).map fun b => ((1 - b : ℤ) : K)) (1 / 2) 0
    values.length (by
      intro x hx hx2
      obtain ⟨n, rfl⟩ := Int.eq_ofNat_of_zero_le hx
      rw [minimumSatisfiedR_nat h hv m n (okn n (by omega))]
      exact ⟨_, rfl⟩)
  obtain ⟨h1, h2, h3', h4⟩ := C57_result _ _ _ _ v (by omega) hb
  have hv3 : ∀ n : Nat, n ≤ 2 → (n : ℤ) < values.length → v ≠ n := by
    rintro n hn2 hlt rfl
    rcases h4 with h4 | ⟨x, hx, hxt⟩
    · omega
    · rw [notSatisfiedR_small h hf hv hl m hm hn2 (okn n (by omega))] at hx
      injection hx with hx
      rw [← hx] at hxt
      exact absurd hxt (by norm_num)
  have n0 : v ≠ 0 := fun e => hv3 0 (by omega) (by omega) (by simpa using e)
  have n1 := hv3 1 (by omega) (by omega)
  have n2 := hv3 2 (by omega) (by omega)
  obtain ⟨n, hn'⟩ := Int.eq_ofNat_of_zero_le (show 0 ≤ v - 1 by omega)
  have hn'' : v - 1 = (n : ℤ) := hn'
  have hn2 : 2 ≤ n := by push_cast at *; omega
  have hnl : n < values.length := by omega
  have hsat : minimumSatisfiedR F values m n = .ok 1 := by
    rcases h3' with h3' | ⟨x, hx, hxt⟩
    · exact absurd h3' n0
    · rw [hn''] at hx
      rw [minimumSatisfiedR_nat h hv m n (okn n hnl)] at hx ⊢
      split at hx
      · rw [if_pos (by assumption)]
      · simp only [Except.map] at hx
        injection hx with hx
        rw [← hx] at hxt
        exact absurd hxt (by norm_num)
  have hg : adaptiveGridR F values m = .ok (uniqueL ((List.range n).map (gridPointR F values n)), (n : ℤ)) := by
    unfold adaptiveGridR
    rw [hb]
    simp only
    rw [hn'', getQuantilesR_nat h hv n (okn n hnl)]
  have hgs := gridSpecR h hf hv hl hn2
  set q := uniqueL ((List.range n).map (gridPointR F values n)) with hq
  refine ⟨_, _, hg, by omega, by omega, hgs.strict, hgs.first, hgs.last, ?_, fun k hk => ?_⟩
  · intro hlq v hvm
    have hpos := binOf_pos q v
    have hk : binOf q v = (binOf q v - 1) + 1 := by omega
    refine ⟨binOf q v - 1, (binOf_eq_iff hgs.strict hlq (hgs.cover hvm) _).1 hk, ?_⟩
    intro k' hk'
    have := (binOf_eq_iff hgs.strict hlq (hgs.cover hvm) k').2 hk'
    omega
  · have hl2 : 2 ≤ q.length := by omega
    rw [minimumSatisfiedR_nat h hv m n (okn n hnl)] at hsat
    have hall : ((bincount (aleIdx q values)).drop 1).all (fun c => decide (m < c)) = true := by
      by_contra hc
      rw [if_neg hc] at hsat
      cases hsat
    rw [bincount_all (by simpa [aleIdx] using hv)] at hall
    have := hall (k + 1) (by omega) (by rw [hgs.max hl2]; omega)
    rw [hgs.count hl2] at this
    simpa [InBin, hk] using this

/-- C180: the percentiles handed to numpy never leave 0 to 100, so the call is not refused for them. -/
theorem C180_percentiles (h : F.Grid) (num k : Nat) (hk : k < num) (hn : num ≤ 2 ^ F.frac) :
    (0 : K) ≤ percentileR F num k ∧ (percentileR F num k : K) ≤ 100 := percentileR_mem h hk hn

/-- Double precision is such a format. -/
theorem double_grid : double.Grid := ⟨by decide, by decide⟩

/-- Six values in double precision: the hypotheses of `C180_adaptive_grid` hold, and with more than two
values in every interval there are three grid points. -/
example : (∀ x ∈ [(1 : ℚ), 2, 4, 8, 16, 32], double.IsFloat x) ∧
    (adaptiveGridR double [(1 : ℚ), 2, 4, 8, 16, 32] 2).toOption = some ([1, 6, 32], 3) := by
  refine ⟨?_, by decide +kernel⟩
  intro x hx
  simp only [List.mem_cons, List.not_mem_nil, or_false] at hx
  obtain rfl | rfl | rfl | rfl | rfl | rfl := hx
  · exact ⟨1, 0, by decide, by decide, by norm_num⟩
  · exact ⟨2, 0, by decide, by decide, by norm_num⟩
  · exact ⟨4, 0, by decide, by decide, by norm_num⟩
  · exact ⟨8, 0, by decide, by decide, by norm_num⟩
  · exact ⟨16, 0, by decide, by decide, by norm_num⟩
  · exact ⟨32, 0, by decide, by decide, by norm_num⟩

end Geo
