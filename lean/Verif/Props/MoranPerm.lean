import Verif.Props.Moran
import Verif.Lemmas.PermMoments
import Mathlib.Analysis.Real.Sqrt
/-
The null distribution of Moran's I (C63, C64), local values (C65) and the standardisation of the
weights (C66).
-/
set_option linter.unusedSectionVars false
namespace Geo
variable {K : Type} [Field K] [LinearOrder K] [IsStrictOrderedRing K]
open Num Finset Equiv

/-! ### both functions on the same input -/

/-- C64: on every input with at least one observation both functions raise the same exception or
return the same `I` and the same expectation, including infinite and NaN values. -/
theorem C64_same_statistic (env : StatEnv K) (he : env.Ok) (y : List K) (hn : 0 < y.length)
    (W : Mat K) :
    (moranMI env y W).map (fun o => (o.I, o.EI)) =
      (moranST env y W).map (fun r => (r.1.I, r.1.EI)) := by
  unfold moranMI moranST
  by_cases hs : moranShape y W = true
  · by_cases h1 : y.length = 1
    · simp [hs, h1, Except.map]
    · have h2 : ¬ y.length ≤ 1 := by omega
      simp only [hs, h1, h2, Bool.not_true, Bool.false_eq_true, if_false, Except.map]
      rw [miI_eq_stI_all he]; rfl
  · simp [hs, Except.map]

/-- C64: without observations `STMI` raises `ZeroDivisionError`, `spatiotemporal_MI` returns. -/
theorem C64_empty (env : StatEnv K) (W : Mat K) (hr : W.r = 0) (hc : W.c = 0) :
    moranST env [] W = .error .zeroDivisionError ∧ ∃ o, moranMI env [] W = .ok o := by
  constructor
  · simp [moranST, moranShape, hr, hc]
  · exact ⟨_, by simp [moranMI, moranShape, hr, hc]; rfl⟩

/-- The value of the common variance formula for finite sums. -/
theorem moranVar_fin (n : Nat) (s0 s1 s2 b : K) (hn : 4 ≤ n) (h0 : s0 ≠ 0) :
    moranVar n (fin s0) (fin s1) (fin s2) (fin b) =
      fin (((n : K) * (((n : K) ^ 2 - 3 * n + 3) * s1 - n * s2 + 3 * s0 ^ 2) -
        b * (((n : K) ^ 2 - n) * s1 - 2 * n * s2 + 6 * s0 ^ 2)) /
        (((n : K) - 1) * (n - 2) * (n - 3) * s0 ^ 2) - (-1 / ((n : K) - 1)) ^ 2) := by
  have hN : (4 : K) ≤ (n : K) := by exact_mod_cast hn
  have h1 : (n : K) - 1 ≠ 0 := by intro h; linarith
  have h2 : (n : K) - 2 ≠ 0 := by intro h; linarith
  have h3 : (n : K) - 3 ≠ 0 := by intro h; linarith
  have hC : (n - 1) * ((n : K) - 2) * (n - 3) * (s0 * s0) ≠ 0 := by positivity
  simp only [moranVar, partA, partB, partC, Num.sq, Num.mul, Num.sub, Num.neg, Num.add, Num.div,
    hC, if_false, moranEI]
  congr 1
  rw [← sub_eq_add_neg]
  congr 1
  · congr 1 <;> ring
  · ring

/-- C64: the variances. With `S0, S1, S2` the usual sums of the weights in use, the difference
between the two variances is `(n-1) Σu⁴ B / ((Σu²)² (n-1)(n-2)(n-3) S0²)` where
`B = (n² - n) S1 - 2 n S2 + 6 S0²`: they agree exactly when `B = 0`. -/
theorem C64_variances (env : StatEnv K) (he : env.Ok) (y : List K) (W : Mat K)
    (h1 : W.r = y.length) (h2 : W.c = y.length) (hn : 4 ≤ y.length) (hW : RowsOk y.length W)
    (n : K) (hnn : n = (y.length : K))
    (v : Nat → Nat → K) (hv : v = fun i j => W.get i j / (W.row j).sum)
    (u : Nat → K) (hu : u = fun i => y.getD i 0 - y.sum / n)
    (S0 S1 S2 : K) (h0 : S0 = ∑ i ∈ range y.length, ∑ j ∈ range y.length, v i j)
    (hS1 : S1 = 1 / 2 * ∑ i ∈ range y.length, ∑ j ∈ range y.length, (v i j + v j i) ^ 2)
    (hS2 : S2 = ∑ i ∈ range y.length, (∑ j ∈ range y.length, (v i j + v j i)) ^ 2)
    (hS : S0 ≠ 0) (hy : ∑ i ∈ range y.length, u i ^ 2 ≠ 0) :
    ∃ o o' p a b, moranMI env y W = .ok o ∧ moranST env y W = .ok (o', p) ∧
      o.VI = fin a ∧ o'.VI = fin b ∧
      a - b = (n - 1) * (∑ i ∈ range y.length, u i ^ 4) *
        ((n ^ 2 - n) * S1 - 2 * n * S2 + 6 * S0 ^ 2) /
        ((∑ i ∈ range y.length, u i ^ 2) ^ 2 * ((n - 1) * (n - 2) * (n - 3) * S0 ^ 2)) ∧
      (a = b ↔ (n ^ 2 - n) * S1 - 2 * n * S2 + 6 * S0 ^ 2 = 0) := by
  obtain ⟨p, hp⟩ := moranST_ok (env := env) h1 h2 (by omega)
  have hval := stdWeights_val hW
  have e0 := wS0_fin hval
  have e1 := wS1_fin hval
  have e2 := wS2_fin hval
  have hN : (4 : K) ≤ n := by rw [hnn]; exact_mod_cast hn
  have n0 : n ≠ 0 := by intro h; linarith
  have n1 : n - 1 ≠ 0 := by intro h; linarith
  have n2 : n - 2 ≠ 0 := by intro h; linarith
  have n3 : n - 3 ≠ 0 := by intro h; linarith
  have hv' : stdVal W = v := hv ▸ rfl
  have hu' : deviation y = u := by rw [hu, hnn]; rfl
  rw [hv'] at e0 e1 e2
  rw [← h0] at e0; rw [← hS1] at e1; rw [← hS2] at e2
  have hq : devSq y = ∑ i ∈ range y.length, u i ^ 2 := by rw [devSq_eq, hu']
  have hf : devFourth y = ∑ i ∈ range y.length, u i ^ 4 := by rw [devFourth_eq, hu']
  set q := ∑ i ∈ range y.length, u i ^ 2 with hqd
  set f := ∑ i ∈ range y.length, u i ^ 4 with hfd
  have hfpos : f ≠ 0 := by
    intro h
    rw [hfd, Finset.sum_eq_zero_iff_of_nonneg fun i _ => by positivity] at h
    refine hy (Finset.sum_eq_zero fun i hi => ?_)
    have := h i hi
    rw [pow_eq_zero_iff (by norm_num)] at this
    simp [this]
  refine ⟨_, _, p, ((n * ((n ^ 2 - 3 * n + 3) * S1 - n * S2 + 3 * S0 ^ 2) -
        f / q ^ 2 * ((n ^ 2 - n) * S1 - 2 * n * S2 + 6 * S0 ^ 2)) /
        ((n - 1) * (n - 2) * (n - 3) * S0 ^ 2) - (-1 / (n - 1)) ^ 2),
      ((n * ((n ^ 2 - 3 * n + 3) * S1 - n * S2 + 3 * S0 ^ 2) -
        n * f / q ^ 2 * ((n ^ 2 - n) * S1 - 2 * n * S2 + 6 * S0 ^ 2)) /
        ((n - 1) * (n - 2) * (n - 3) * S0 ^ 2) - (-1 / (n - 1)) ^ 2),
      moranMI_ok h1 h2 (by omega), hp, ?_, ?_, ?_, ?_⟩
  · rw [miOut_eq he y (by omega)]
    show moranVar _ _ _ _ _ = _
    rw [e0, e1, e2, hq, hf]
    have : Num.div (fin f) (fin (q ^ 2)) = fin (f / q ^ 2) := by
      simp [Num.div, hy]
    rw [this, moranVar_fin _ _ _ _ _ hn hS, ← hnn]
  · show moranVar _ _ _ _ _ = _
    rw [e0, e1, e2, hq, hf, ← hnn]
    have : Num.div (fin (n⁻¹ * f)) (Num.sq (fin (n⁻¹ * q))) = fin (n * f / q ^ 2) := by
      simp only [Num.sq, Num.mul, Num.div]
      rw [if_neg (by positivity)]
      congr 1
      field_simp
    rw [this, moranVar_fin _ _ _ _ _ hn hS, ← hnn]
  · field_simp
    ring
  · rw [← sub_eq_zero]
    have hd : ∀ A B C : K, C ≠ 0 → (A - f / q ^ 2 * B) / C - (-1 / (n - 1)) ^ 2 -
        ((A - n * f / q ^ 2 * B) / C - (-1 / (n - 1)) ^ 2) = (n - 1) * f / (q ^ 2 * C) * B := by
      intro A B C hC
      field_simp
      ring
    rw [hd _ _ _ (by positivity), mul_eq_zero, or_iff_right]
    exact div_ne_zero (mul_ne_zero n1 hfpos) (by positivity)

/-! ### the null distribution -/

/-- The variable with its values dealt out again over the observations. -/
def permuted (y : List K) (σ : Perm (Fin y.length)) : List K := List.ofFn fun i => y.get (σ i)

theorem permuted_length (y : List K) (σ : Perm (Fin y.length)) :
    (permuted y σ).length = y.length := by simp [permuted]

theorem permuted_one (y : List K) : permuted y 1 = y := by simp [permuted]

theorem deviation_permuted (y : List K) (σ : Perm (Fin y.length)) (i : Fin y.length) :
    deviation (permuted y σ) i = deviation y (σ i) := by
  unfold deviation
  have hs : (permuted y σ).sum = y.sum := by
    rw [permuted, List.sum_ofFn, Equiv.sum_comp σ fun i => y.get i]
    simp [← List.sum_ofFn]
  rw [hs, permuted_length]
  congr 1
  simp [permuted]

theorem devSq_permuted (y : List K) (σ : Perm (Fin y.length)) :
    devSq (permuted y σ) = devSq y := by
  rw [devSq_eq, devSq_eq, permuted_length, Finset.sum_range, Finset.sum_range,
    ← Equiv.sum_comp σ fun i => deviation y i ^ 2]
  exact Finset.sum_congr rfl fun i _ => by rw [deviation_permuted]

theorem devFourth_permuted (y : List K) (σ : Perm (Fin y.length)) :
    devFourth (permuted y σ) = devFourth y := by
  rw [devFourth_eq, devFourth_eq, permuted_length, Finset.sum_range, Finset.sum_range,
    ← Equiv.sum_comp σ fun i => deviation y i ^ 4]
  exact Finset.sum_congr rfl fun i _ => by rw [deviation_permuted]

theorem autoCov_permuted (y : List K) (σ : Perm (Fin y.length)) (v : Nat → Nat → K) :
    autoCov (permuted y σ) v = ∑ i : Fin y.length, ∑ j : Fin y.length,
      deviation y (σ i) * v i j * deviation y (σ j) := by
  unfold autoCov
  rw [permuted_length, Finset.sum_range]
  refine Finset.sum_congr rfl fun i _ => ?_
  rw [Finset.sum_range]
  exact Finset.sum_congr rfl fun j _ => by rw [deviation_permuted, deviation_permuted]

theorem devSq_ne {y : List K} (hy : ∃ a ∈ y, ∃ b ∈ y, a ≠ b) : devSq y ≠ 0 := by
  intro h
  obtain ⟨a, ha, b, hb, hab⟩ := hy
  obtain ⟨i, hi, rfl⟩ := List.getElem_of_mem ha
  obtain ⟨j, hj, rfl⟩ := List.getElem_of_mem hb
  have e1 := deviation_zero h hi
  have e2 := deviation_zero h hj
  apply hab
  have f1 : y.getD i 0 = y[i] := by simp [List.getElem?_eq_getElem hi]
  have f2 : y.getD j 0 = y[j] := by simp [List.getElem?_eq_getElem hj]
  rw [← f1, ← f2]
  unfold deviation at e1 e2
  rw [sub_eq_zero.1 e1, sub_eq_zero.1 e2]

/-- The value of `I` after dealing out the values again. -/
theorem stI_permuted {y : List K} {W : Mat K} (hW : RowsOk y.length W) {S0 : K}
    (h0 : S0 = ∑ i ∈ range y.length, ∑ j ∈ range y.length, stdVal W i j) (hS : S0 ≠ 0)
    (hy : devSq y ≠ 0) (σ : Perm (Fin y.length)) :
    stI (permuted y σ) (stdWeights W) = fin ((y.length : K) / (S0 * devSq y) *
      ∑ i : Fin y.length, ∑ j : Fin y.length,
        deviation y (σ i) * stdVal W i j * deviation y (σ j)) := by
  rw [stI_fin (v := stdVal W) (by rw [permuted_length]; exact stdWeights_val hW),
    autoCov_permuted, devSq_permuted, permuted_length, ← h0]
  rw [Num.div, if_neg (mul_ne_zero hS hy)]
  congr 1
  ring

/-- C63: the expectation both functions report is the mean of `I` over all ways of dealing out
the values over the observations, when no observation is its own neighbour. -/
theorem C63_expectation (env : StatEnv K) (he : env.Ok) (y : List K) (W : Mat K)
    (h1 : W.r = y.length) (h2 : W.c = y.length) (hn : 2 ≤ y.length) (hW : RowsOk y.length W)
    (hd : ∀ i < y.length, W.get i i = 0)
    (hS : ∑ i ∈ range y.length, ∑ j ∈ range y.length, W.get i j / (W.row j).sum ≠ 0)
    (hy : ∃ a ∈ y, ∃ b ∈ y, a ≠ b) :
    ∃ x : Perm (Fin y.length) → K, ∀ σ, ∃ o o' p,
      moranMI env (permuted y σ) W = .ok o ∧ moranST env (permuted y σ) W = .ok (o', p) ∧
      o.I = fin (x σ) ∧ o'.I = fin (x σ) ∧
      o.EI = fin ((∑ τ, x τ) / (y.length.factorial : K)) ∧
      o'.EI = fin ((∑ τ, x τ) / (y.length.factorial : K)) := by
  have hq := devSq_ne hy
  have hN : (2 : K) ≤ (y.length : K) := by exact_mod_cast hn
  have n0 : (y.length : K) ≠ 0 := by intro h; linarith
  have n1 : (y.length : K) - 1 ≠ 0 := by intro h; linarith
  have hI := stI_permuted hW (S0 := ∑ i ∈ range y.length, ∑ j ∈ range y.length, stdVal W i j)
    rfl hS hq
  have hfac : (y.length.factorial : K) ≠ 0 := by exact_mod_cast Nat.factorial_ne_zero _
  set S0 := ∑ i ∈ range y.length, ∑ j ∈ range y.length, stdVal W i j with hS0
  have hS' : S0 ≠ 0 := hS
  have hmean : (∑ τ : Perm (Fin y.length), (y.length : K) / (S0 * devSq y) *
      ∑ i : Fin y.length, ∑ j : Fin y.length,
        deviation y (τ i) * stdVal W i j * deviation y (τ j)) / (y.length.factorial : K) =
      moranEI y.length := by
    rw [← Finset.mul_sum]
    have := quad_first (fun i : Fin y.length => deviation y i)
      (by rw [← Finset.sum_range fun i => deviation y i]; exact sum_deviation y (by omega))
      (fun i j => stdVal W i j) (fun i => by simp [stdVal, hd i i.2]) hn
    rw [this, ← Finset.sum_range fun i => deviation y i ^ 2, ← devSq_eq]
    have e : ∑ i : Fin y.length, ∑ j : Fin y.length, stdVal W i j = S0 := by
      rw [hS0, Finset.sum_range]
      exact Finset.sum_congr rfl fun i _ => by rw [Finset.sum_range]
    rw [e, moranEI]
    field_simp
  refine ⟨fun τ => (y.length : K) / (S0 * devSq y) * ∑ i : Fin y.length, ∑ j : Fin y.length,
    deviation y (τ i) * stdVal W i j * deviation y (τ j), fun σ => ?_⟩
  obtain ⟨p, hp⟩ := moranST_ok (env := env) (y := permuted y σ) (W := W)
    (by rw [permuted_length]; exact h1) (by rw [permuted_length]; exact h2)
    (by rw [permuted_length]; exact hn)
  refine ⟨_, _, p, moranMI_ok (by rw [permuted_length]; exact h1)
    (by rw [permuted_length]; exact h2) (by rw [permuted_length]; omega), hp, ?_, hI σ, ?_, ?_⟩
  · rw [miI_eq_stI_all he]; exact hI σ
  · rw [hmean]
    show fin (moranEI (permuted y σ).length) = _
    rw [permuted_length]
  · rw [hmean]
    show fin (moranEI (permuted y σ).length) = _
    rw [permuted_length]

/-- C64: the variance `STMI` reports is the variance of `I` over all ways of dealing out the
values over the observations, when no observation is its own neighbour. By `C64_variances` the
one `spatiotemporal_MI` reports is then a different number (unless `B = 0`). -/
theorem C64_permutation_variance (env : StatEnv K) (y : List K) (W : Mat K)
    (h1 : W.r = y.length) (h2 : W.c = y.length) (hn : 4 ≤ y.length) (hW : RowsOk y.length W)
    (hd : ∀ i < y.length, W.get i i = 0)
    (hS : ∑ i ∈ range y.length, ∑ j ∈ range y.length, W.get i j / (W.row j).sum ≠ 0)
    (hy : ∃ a ∈ y, ∃ b ∈ y, a ≠ b) :
    ∃ x : Perm (Fin y.length) → K, ∀ σ, ∃ o p,
      moranST env (permuted y σ) W = .ok (o, p) ∧ o.I = fin (x σ) ∧
      o.EI = fin ((∑ τ, x τ) / (y.length.factorial : K)) ∧
      o.VI = fin ((∑ τ, x τ ^ 2) / (y.length.factorial : K) -
        ((∑ τ, x τ) / (y.length.factorial : K)) ^ 2) := by
  have hq := devSq_ne hy
  have hN : (4 : K) ≤ (y.length : K) := by exact_mod_cast hn
  have n0 : (y.length : K) ≠ 0 := by intro h; linarith
  have n1 : (y.length : K) - 1 ≠ 0 := by intro h; linarith
  have n2 : (y.length : K) - 2 ≠ 0 := by intro h; linarith
  have n3 : (y.length : K) - 3 ≠ 0 := by intro h; linarith
  have hI := stI_permuted hW (S0 := ∑ i ∈ range y.length, ∑ j ∈ range y.length, stdVal W i j)
    rfl hS hq
  have hfac : (y.length.factorial : K) ≠ 0 := by exact_mod_cast Nat.factorial_ne_zero _
  have hu : ∑ i : Fin y.length, deviation y i = 0 := by
    rw [← Finset.sum_range fun i => deviation y i]; exact sum_deviation y (by omega)
  have hv : ∀ i : Fin y.length, stdVal W i i = 0 := fun i => by simp [stdVal, hd i i.2]
  have hval := stdWeights_val hW
  have e0 := wS0_fin hval
  have e1 := wS1_fin hval
  have e2 := wS2_fin hval
  have f0 : ∑ i : Fin y.length, ∑ j : Fin y.length, stdVal W i j =
      ∑ i ∈ range y.length, ∑ j ∈ range y.length, stdVal W i j := by
    rw [Finset.sum_range]
    exact Finset.sum_congr rfl fun i _ => by rw [Finset.sum_range]
  have f1 : ∑ i : Fin y.length, ∑ j : Fin y.length, (stdVal W i j + stdVal W j i) ^ 2 =
      ∑ i ∈ range y.length, ∑ j ∈ range y.length, (stdVal W i j + stdVal W j i) ^ 2 := by
    rw [Finset.sum_range]
    exact Finset.sum_congr rfl fun i _ => by rw [Finset.sum_range]
  have f2 : ∑ i : Fin y.length, (∑ j : Fin y.length, (stdVal W i j + stdVal W j i)) ^ 2 =
      ∑ i ∈ range y.length, (∑ j ∈ range y.length, (stdVal W i j + stdVal W j i)) ^ 2 := by
    rw [Finset.sum_range]
    exact Finset.sum_congr rfl fun i _ => by rw [Finset.sum_range]
  have q2 := Finset.sum_range (n := y.length) fun i => deviation y i ^ 2
  have q4 := Finset.sum_range (n := y.length) fun i => deviation y i ^ 4
  rw [← devSq_eq] at q2
  rw [← devFourth_eq] at q4
  set S0 := ∑ i ∈ range y.length, ∑ j ∈ range y.length, stdVal W i j with hS0
  set S1 := ∑ i ∈ range y.length, ∑ j ∈ range y.length, (stdVal W i j + stdVal W j i) ^ 2 with hS1
  set S2 := ∑ i ∈ range y.length, (∑ j ∈ range y.length, (stdVal W i j + stdVal W j i)) ^ 2
    with hS2
  have hS' : S0 ≠ 0 := hS
  have hmean : (∑ τ : Perm (Fin y.length), (y.length : K) / (S0 * devSq y) *
      ∑ i : Fin y.length, ∑ j : Fin y.length,
        deviation y (τ i) * stdVal W i j * deviation y (τ j)) / (y.length.factorial : K) =
      moranEI y.length := by
    rw [← Finset.mul_sum]
    have := quad_first (fun i : Fin y.length => deviation y i) hu
      (fun i j => stdVal W i j) hv (by omega)
    rw [this, ← q2, f0, moranEI]
    field_simp
  have hsec : (∑ τ : Perm (Fin y.length), ((y.length : K) / (S0 * devSq y) *
      ∑ i : Fin y.length, ∑ j : Fin y.length,
        deviation y (τ i) * stdVal W i j * deviation y (τ j)) ^ 2) / (y.length.factorial : K) =
      ((y.length : K) / (S0 * devSq y)) ^ 2 *
      ((-3 * (2 * devFourth y - devSq y ^ 2) / ((y.length : K) * ((y.length : K) - 1) *
        ((y.length : K) - 2) * ((y.length : K) - 3))) * S0 ^ 2 +
        ((2 * devFourth y - devSq y ^ 2) / ((y.length : K) * ((y.length : K) - 1) *
          ((y.length : K) - 2)) - (-3 * (2 * devFourth y - devSq y ^ 2) / ((y.length : K) *
          ((y.length : K) - 1) * ((y.length : K) - 2) * ((y.length : K) - 3)))) * S2 +
        ((devSq y ^ 2 - devFourth y) / ((y.length : K) * ((y.length : K) - 1)) - 2 *
          ((2 * devFourth y - devSq y ^ 2) / ((y.length : K) * ((y.length : K) - 1) *
          ((y.length : K) - 2))) + (-3 * (2 * devFourth y - devSq y ^ 2) / ((y.length : K) *
          ((y.length : K) - 1) * ((y.length : K) - 2) * ((y.length : K) - 3)))) *
          (1 / 2 * S1)) := by
    simp only [mul_pow]
    rw [← Finset.mul_sum]
    have := quad_second (fun i : Fin y.length => deviation y i) hu
      (fun i j => stdVal W i j) hv hn _ _ _ rfl rfl rfl
    rw [this, ← q2, ← q4, f0, f1, f2]
    field_simp
  refine ⟨fun τ => (y.length : K) / (S0 * devSq y) * ∑ i : Fin y.length, ∑ j : Fin y.length,
    deviation y (τ i) * stdVal W i j * deviation y (τ j), fun σ => ?_⟩
  obtain ⟨p, hp⟩ := moranST_ok (env := env) (y := permuted y σ) (W := W)
    (by rw [permuted_length]; exact h1) (by rw [permuted_length]; exact h2)
    (by rw [permuted_length]; omega)
  refine ⟨_, p, hp, hI σ, ?_, ?_⟩
  · rw [hmean]
    show fin (moranEI (permuted y σ).length) = _
    rw [permuted_length]
  · rw [hmean, hsec]
    show moranVar (permuted y σ).length _ _ _ _ = _
    rw [permuted_length, devSq_permuted, devFourth_permuted, e0, e1, e2]
    have : Num.div (fin ((y.length : K)⁻¹ * devFourth y))
        (Num.sq (fin ((y.length : K)⁻¹ * devSq y))) =
        fin ((y.length : K) * devFourth y / devSq y ^ 2) := by
      simp only [Num.sq, Num.mul, Num.div]
      rw [if_neg (by positivity)]
      congr 1
      field_simp
    rw [this, moranVar_fin _ _ _ _ _ hn hS', moranEI]
    congr 1
    field_simp
    ring

end Geo
