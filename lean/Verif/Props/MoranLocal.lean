import Verif.Props.MoranPerm
/-
Local Moran values (C65), the standardisation of the weights (C66) and concrete cases for C63-C66.
-/
set_option linter.unusedSectionVars false
namespace Geo
variable {K : Type} [Field K] [LinearOrder K] [IsStrictOrderedRing K]
open Num Finset Equiv

/-! ### local values -/

theorem lmiOut_fin {y : List K} {w : Nat → Nat → Num K} {v : Nat → Nat → K} (hy : devSq y ≠ 0)
    (hn : 0 < y.length) (hw : ∀ i < y.length, ∀ j < y.length, w i j = fin (v i j)) :
    lmiOut y w = ((List.range y.length).map fun i =>
      (y.length : K) * deviation y i * (∑ j ∈ range y.length, v i j * deviation y j) /
        devSq y).map fin := by
  have h0 : (y.length : K) ≠ 0 := Nat.cast_ne_zero.2 (by omega)
  unfold lmiOut
  rw [List.map_map]
  refine List.map_congr_left fun i hi => ?_
  have : (sumTo y.length fun j => Num.mul (w i j) (fin (deviation y j))) =
      fin (∑ j ∈ range y.length, v i j * deviation y j) := by
    rw [← sumTo_fin]
    exact sumTo_congr fun j hj => by rw [hw i (by simpa using hi) j hj]; rfl
  rw [this, Num.div, if_neg (div_ne_zero hy h0)]
  simp only [Num.mul, Function.comp]
  congr 1
  field_simp

/-- C65: the local values are finite, one per observation, and add up to the global `I` of both
functions times the sum of the weights in use. -/
theorem C65_sum (env : StatEnv K) (he : env.Ok) (y : List K) (W : Mat K)
    (h1 : W.r = y.length) (h2 : W.c = y.length) (hn : 2 ≤ y.length) (hW : RowsOk y.length W)
    (v : Nat → Nat → K) (hv : v = fun i j => W.get i j / (W.row j).sum)
    (u : Nat → K) (hu : u = fun i => y.getD i 0 - y.sum / (y.length : K))
    (S0 : K) (h0 : S0 = ∑ i ∈ range y.length, ∑ j ∈ range y.length, v i j) (hS : S0 ≠ 0)
    (hy : ∃ a ∈ y, ∃ b ∈ y, a ≠ b) :
    ∃ (l : List K) (I : K) (o o' : MoranOut K) (p : Num K), moranLMI y W = .ok (l.map fin) ∧ l.length = y.length ∧
      (∀ i < y.length, l.getD i 0 = (y.length : K) * u i *
        (∑ j ∈ range y.length, v i j * u j) / ∑ j ∈ range y.length, u j ^ 2) ∧
      moranMI env y W = .ok o ∧ moranST env y W = .ok (o', p) ∧ o.I = fin I ∧ o'.I = fin I ∧
      l.sum = S0 * I := by
  have hq := devSq_ne hy
  have hval := stdWeights_val hW
  have hv' : stdVal W = v := hv ▸ rfl
  have hu' : deviation y = u := by rw [hu]; rfl
  obtain ⟨p, hp⟩ := moranST_ok (env := env) h1 h2 hn
  have hI : stI y (stdWeights W) = fin ((y.length : K) * autoCov y v / (S0 * devSq y)) := by
    rw [stI_fin hval, hv', ← h0, Num.div, if_neg (mul_ne_zero hS hq)]
  refine ⟨(List.range y.length).map fun i => (y.length : K) * deviation y i *
      (∑ j ∈ range y.length, stdVal W i j * deviation y j) / devSq y,
    _, _, _, p, ?_, ?_, ?_, moranMI_ok h1 h2 (by omega), hp, ?_, hI, ?_⟩
  · rw [moranLMI_ok h1 h2, lmiOut_fin hq (by omega) hval]
  · simp
  · intro i hi
    rw [hv', ← hu', ← devSq_eq]
    simp [List.getElem?_range hi]
  · rw [miI_eq_stI_all he]; exact hI
  · rw [sum_map_range, hv']
    rw [show S0 * ((y.length : K) * autoCov y v / (S0 * devSq y)) =
      (y.length : K) * autoCov y v / devSq y by field_simp]
    unfold autoCov
    rw [Finset.mul_sum, Finset.sum_div]
    refine Finset.sum_congr rfl fun i _ => ?_
    rw [mul_assoc, Finset.mul_sum]
    congr 2
    exact Finset.sum_congr rfl fun j _ => by ring

/-- C65: when an observation has no neighbours no local value is a number. -/
theorem C65_undefined (y : List K) (W : Mat K) (h1 : W.r = y.length) (h2 : W.c = y.length)
    (hj : ∃ j < y.length, (W.row j).sum = 0) :
    ∃ l, moranLMI y W = .ok l ∧ l.length = y.length ∧ ∀ x ∈ l, ∀ a, x ≠ fin a := by
  obtain ⟨j, hj, hr⟩ := hj
  refine ⟨_, moranLMI_ok h1 h2, by simp [lmiOut], ?_⟩
  intro x hx
  obtain ⟨i, hi, rfl⟩ := List.mem_map.1 hx
  exact Num.mul_NF_right (sumTo_NF hj (Num.mul_NF_left (stdWeights_NF hr i)))

/-! ### standardisation -/

/-- Row-standardised weights: every entry divided by the sum of its own row. -/
def rowStd (W : Mat K) : Mat K := ⟨W.r, W.c, fun i j => W.get i j / (W.row i).sum⟩

theorem rowStd_row {W : Mat K} {i : Nat} (h : (W.row i).sum ≠ 0) :
    ((rowStd W).row i).sum = 1 := by
  rw [row_sum_eq]
  show ∑ k ∈ range W.c, W.get i k / (W.row i).sum = 1
  rw [← Finset.sum_div, ← row_sum_eq, div_self h]

theorem stdWeights_rowStd {n : Nat} {W : Mat K} (h : RowsOk n W) :
    ∀ i < n, ∀ j < n, stdWeights (rowStd W) i j = fin (W.get i j / (W.row i).sum) := by
  intro i _ j hj
  unfold stdWeights
  rw [rowStd_row (h j hj)]
  simp [Num.div, rowStd]

theorem wS1_transpose (n : Nat) (w : Nat → Nat → Num K) : wS1 n (fun i j => w j i) = wS1 n w := by
  unfold wS1
  congr 1
  exact sumTo_congr fun i _ => sumTo_congr fun j _ => by rw [Num.add_comm']

theorem wS2_transpose (n : Nat) (w : Nat → Nat → Num K) : wS2 n (fun i j => w j i) = wS2 n w := by
  unfold wS2
  exact sumTo_congr fun i _ => by rw [sumTo_congr fun j _ => Num.add_comm' _ _]

theorem stOut_transpose {y : List K} {w : Nat → Nat → Num K} {v : Nat → Nat → K}
    (hw : ∀ i < y.length, ∀ j < y.length, w i j = fin (v i j)) :
    stOut y (fun i j => w j i) = stOut y w := by
  have hw' : ∀ i < y.length, ∀ j < y.length, (fun i j => w j i) i j = fin ((fun i j => v j i) i j) :=
    fun i hi j hj => hw j hj i hi
  have e0 : wS0 y.length (fun i j => w j i) = wS0 y.length w := by
    rw [wS0_fin hw', wS0_fin hw, Finset.sum_comm]
  have eI : stI y (fun i j => w j i) = stI y w := by
    rw [stI_fin hw', stI_fin hw]
    have : autoCov y (fun i j => v j i) = autoCov y v := by
      unfold autoCov
      rw [Finset.sum_comm]
      exact Finset.sum_congr rfl fun i _ => Finset.sum_congr rfl fun j _ => by ring
    rw [this, Finset.sum_comm]
  unfold stOut
  simp only [eI, e0, wS1_transpose, wS2_transpose]

/-- C66: for symmetric weights the global statistics are those of the row-standardised weights
(the code divides by the wrong row, which transposes the matrix, and none of the global
statistics changes when the matrix is transposed). -/
theorem C66_symmetric (env : StatEnv K) (he : env.Ok) (y : List K) (W : Mat K)
    (hn : 0 < y.length) (hW : RowsOk y.length W)
    (hsym : ∀ i < y.length, ∀ j < y.length, W.get i j = W.get j i) :
    moranMI env y W = moranMI env y (rowStd W) ∧
    moranST env y W = moranST env y (rowStd W) := by
  have hw : ∀ i < y.length, ∀ j < y.length,
      stdWeights (rowStd W) i j = (fun i j => stdWeights W j i) i j := by
    intro i hi j hj
    rw [stdWeights_rowStd hW i hi j hj]
    simp only
    rw [stdWeights_fin (hW i hi), hsym i hi j hj]
  have hs : stOut y (stdWeights (rowStd W)) = stOut y (stdWeights W) := by
    rw [stOut_congr hw, stOut_transpose (stdWeights_val hW)]
  have hm : miOut env y (stdWeights (rowStd W)) = miOut env y (stdWeights W) := by
    rw [miOut_eq he y hn, miOut_eq he y hn]
    have hI : stI y (stdWeights (rowStd W)) = stI y (stdWeights W) := congrArg MoranOut.I hs
    have e0 : wS0 y.length (stdWeights (rowStd W)) = wS0 y.length (stdWeights W) := by
      rw [wS0_congr hw]
      have hw' : ∀ i < y.length, ∀ j < y.length,
          (fun i j => stdWeights W j i) i j = fin ((fun i j => stdVal W j i) i j) :=
        fun i hi j hj => stdWeights_val hW j hj i hi
      rw [wS0_fin hw', wS0_fin (stdWeights_val hW), Finset.sum_comm]
    rw [hI, e0, wS1_congr hw, wS1_transpose, wS2_congr hw, wS2_transpose]
  constructor
  · unfold moranMI
    rw [hm]; rfl
  · unfold moranST
    rw [hs]; rfl

/-- C66: when all rows have the same sum all three functions use row-standardised weights. -/
theorem C66_equal_row_sums (env : StatEnv K) (y : List K) (W : Mat K) (c : K) (hc : c ≠ 0)
    (hW : ∀ j < y.length, (W.row j).sum = c) :
    moranMI env y W = moranMI env y (rowStd W) ∧
    moranST env y W = moranST env y (rowStd W) ∧ moranLMI y W = moranLMI y (rowStd W) := by
  have hr : RowsOk y.length W := fun j hj => by rw [hW j hj]; exact hc
  have hw : ∀ i < y.length, ∀ j < y.length, stdWeights (rowStd W) i j = stdWeights W i j := by
    intro i hi j hj
    rw [stdWeights_rowStd hr i hi j hj, stdWeights_fin (hr j hj), hW i hi, hW j hj]
  refine ⟨?_, ?_, ?_⟩
  · unfold moranMI
    rw [miOut_congr hw]; rfl
  · unfold moranST
    rw [stOut_congr hw]; rfl
  · unfold moranLMI
    rw [lmiOut_congr hw]; rfl

/-- C66: for symmetric weights the weights in use have columns, not rows, that sum to one; their
sum `S0` is the number of observations. -/
theorem C66_columns (n : Nat) (W : Mat K) (h2 : W.c = n) (hW : RowsOk n W)
    (hsym : ∀ i < n, ∀ j < n, W.get i j = W.get j i)
    (v : Nat → Nat → K) (hv : v = fun i j => W.get i j / (W.row j).sum) :
    (∀ i < n, ∀ j < n, stdWeights W i j = fin (v i j)) ∧
    (∀ j < n, ∑ i ∈ range n, v i j = 1) ∧ ∑ i ∈ range n, ∑ j ∈ range n, v i j = (n : K) := by
  have hc : ∀ j < n, ∑ i ∈ range n, v i j = 1 := by
    intro j hj
    rw [hv]
    simp only
    rw [← Finset.sum_div, div_eq_one_iff_eq (hW j hj), row_sum_eq, h2]
    exact Finset.sum_congr rfl fun i hi => hsym i (by simpa using hi) j hj
  refine ⟨fun i hi j hj => by rw [hv]; exact stdWeights_fin (hW j hj) i, hc, ?_⟩
  rw [Finset.sum_comm, Finset.sum_congr rfl fun j hj => hc j (by simpa using hj)]
  simp

/-! ### concrete cases -/

/-- A stand-in for the square root on the rationals; any function with the same zeros does. -/
def ratStat : StatEnv ℚ := ⟨fun x => x, fun x => x⟩

theorem ratStat_ok : ratStat.Ok := ⟨fun _ h => h, fun _ _ => Iff.rfl⟩

/-- The real square root meets the assumption. -/
example (cdf : Num ℝ → Num ℝ) : (⟨Real.sqrt, cdf⟩ : StatEnv ℝ).Ok :=
  ⟨fun x _ => Real.sqrt_nonneg x, fun _ h => Real.sqrt_eq_zero h⟩

/-- Four observations; the weights are not symmetric. -/
def mW : Mat ℚ := Mat.ofRows 0 4 [[0, 1, 2, 0], [1, 0, 5, 1], [0, 1, 0, 3], [1, 1, 1, 0]]
/-- Symmetric weights with different row sums. -/
def mS : Mat ℚ := Mat.ofRows 0 4 [[0, 1, 2, 0], [1, 0, 1, 0], [2, 1, 0, 3], [0, 0, 3, 0]]
def mY : List ℚ := [1, 2, 4, 9]

theorem mW_rows : RowsOk 4 mW := by
  intro j hj
  have : j = 0 ∨ j = 1 ∨ j = 2 ∨ j = 3 := by omega
  rcases this with rfl | rfl | rfl | rfl <;> decide +kernel

theorem mS_rows : RowsOk 4 mS := by
  intro j hj
  have : j = 0 ∨ j = 1 ∨ j = 2 ∨ j = 3 := by omega
  rcases this with rfl | rfl | rfl | rfl <;> decide +kernel

/-- `mW` meets the hypotheses of `C63_value`, `C63_expectation`, `C64_variances`,
`C64_permutation_variance` and `C65_sum`. -/
example : mW.r = mY.length ∧ mW.c = mY.length ∧ 4 ≤ mY.length ∧
    (∀ i < mY.length, mW.get i i = 0) ∧ (∃ a ∈ mY, ∃ b ∈ mY, a ≠ b) ∧
    ∑ i ∈ range mY.length, ∑ j ∈ range mY.length, mW.get i j / (mW.row j).sum ≠ 0 := by
  refine ⟨rfl, rfl, by decide, ?_, ⟨1, by simp [mY], 2, by simp [mY], by norm_num⟩, ?_⟩
  · intro j hj
    have : j = 0 ∨ j = 1 ∨ j = 2 ∨ j = 3 := by
      have : mY.length = 4 := rfl
      omega
    rcases this with rfl | rfl | rfl | rfl <;> decide +kernel
  · decide +kernel

/-- A relabelling of four observations. -/
example : Relabel 4 (fun i => (i + 1) % 4) := by
  unfold Relabel; decide

/-- C64: the two variances really are different numbers for the same data. -/
theorem C64_variances_differ : ∃ (y : List ℚ) (W : Mat ℚ) (o o' : MoranOut ℚ) (p : Num ℚ),
    moranMI ratStat y W = .ok o ∧ moranST ratStat y W = .ok (o', p) ∧ o.I = o'.I ∧
    o.VI ≠ o'.VI := by
  refine ⟨mY, mS, miOut ratStat mY (stdWeights mS), stOut mY (stdWeights mS), ?_⟩
  obtain ⟨p, hp⟩ := moranST_ok (env := ratStat) (y := mY) (W := mS) rfl rfl (by decide)
  exact ⟨p, moranMI_ok rfl rfl (by decide), hp, miI_eq_stI_all ratStat_ok mY mS,
    by decide +kernel⟩

/-- C66: in general the global statistics are not those of the row-standardised weights, and
the local values are not even for symmetric weights. -/
theorem C66_not_row_standardised :
    (∃ (y : List ℚ) (W : Mat ℚ) (o o' : MoranOut ℚ), moranMI ratStat y W = .ok o ∧
      moranMI ratStat y (rowStd W) = .ok o' ∧ o.I ≠ o'.I) ∧
    (∃ (y : List ℚ) (W : Mat ℚ) (l l' : List (Num ℚ)),
      (∀ i < y.length, ∀ j < y.length, W.get i j = W.get j i) ∧ moranLMI y W = .ok l ∧
      moranLMI y (rowStd W) = .ok l' ∧ l ≠ l') := by
  constructor
  · exact ⟨mY, mW, _, _, moranMI_ok rfl rfl (by decide), moranMI_ok rfl rfl (by decide),
      by decide +kernel⟩
  · refine ⟨mY, mS, _, _, ?_, moranLMI_ok rfl rfl, moranLMI_ok rfl rfl, by decide +kernel⟩
    intro i hi j hj
    have h4 : mY.length = 4 := rfl
    rw [h4] at hi hj
    have a : i = 0 ∨ i = 1 ∨ i = 2 ∨ i = 3 := by omega
    have b : j = 0 ∨ j = 1 ∨ j = 2 ∨ j = 3 := by omega
    rcases a with rfl | rfl | rfl | rfl <;> rcases b with rfl | rfl | rfl | rfl <;>
      decide +kernel

/-- The sum of the local values of a concrete data set. -/
example : ∃ l, moranLMI mY mW = .ok l ∧ l ≠ [] ∧ l.all (fun x => decide (x = fin x.toK)) :=
  ⟨_, moranLMI_ok rfl rfl, by decide +kernel, by decide +kernel⟩

end Geo
