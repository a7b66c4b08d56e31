import Verif.Props.MoranPerm
import Verif.Props.MoranLocal
import Mathlib.Algebra.Order.Chebyshev
import Mathlib.Data.List.GetD
import Mathlib.Tactic.LinearCombination
set_option linter.unusedSectionVars false
/-
Property C129: the fourth result of `STMI`, called `p`.
-/
namespace Geo
variable {K : Type} [Field K] [LinearOrder K] [IsStrictOrderedRing K]
open Num Finset Equiv

/-- What is used of `scipy.stats.norm.cdf`: on finite arguments it is a strictly increasing function
`F` with value one half at 0; NaN stays NaN. -/
structure StatEnv.Normal (env : StatEnv K) (F : K → K) : Prop where
  fin : ∀ x, env.cdf (Num.fin x) = Num.fin (F x)
  nan : env.cdf Num.nan = Num.nan
  mono : StrictMono F
  half : F 0 = 1 / 2

theorem moranST_inv {env : StatEnv K} {y : List K} {W : Mat K} {o : MoranOut K} {p : Num K}
    (h : moranST env y W = .ok (o, p)) :
    W.r = y.length ∧ W.c = y.length ∧ 2 ≤ y.length ∧ o = stOut y (stdWeights W) ∧
      p = env.cdf (Num.div (Num.sub o.I o.EI) (env.sqrtN o.VI)) := by
  unfold moranST at h
  split at h
  · cases h
  · rename_i hs
    split at h
    · cases h
    · rename_i hn
      simp only [moranShape, Bool.not_eq_true', Bool.and_eq_false_iff, beq_eq_false_iff_ne,
        not_or, ne_eq, not_not] at hs
      injection h with h
      injection h with h1 h2
      subst h1
      exact ⟨hs.1, hs.2, by omega, rfl, h2.symm⟩

/-- C129, first part: `p` is the lower tail. When the variance is positive, `p` is above one half
exactly when `I` is above its expectation, below exactly when it is below, and equal exactly when
they are equal: clustering gives a `p` near one, not near zero. -/
theorem C129_lower_tail (env : StatEnv K) (he : env.Ok) (F : K → K) (hF : env.Normal F) (y : List K)
    (W : Mat K) (o : MoranOut K) (p : Num K) (h : moranST env y W = .ok (o, p)) (I v : K)
    (hI : o.I = fin I) (hv : o.VI = fin v) (v0 : 0 < v) :
    ∃ q, p = fin q ∧ q = F ((I + 1 / ((y.length : K) - 1)) / env.sqrt v) ∧
      (1 / 2 < q ↔ -1 / ((y.length : K) - 1) < I) ∧
      (q < 1 / 2 ↔ I < -1 / ((y.length : K) - 1)) := by
  obtain ⟨-, -, -, ho, hp⟩ := moranST_inv h
  have hE : o.EI = fin (-1 / ((y.length : K) - 1)) := by rw [ho]; rfl
  have s0 : 0 < env.sqrt v :=
    lt_of_le_of_ne (he.nonneg v v0.le) fun e => v0.ne' ((he.zero v v0.le).1 e.symm)
  have e : -1 / ((y.length : K) - 1) = -(1 / ((y.length : K) - 1)) := neg_div _ _
  refine ⟨F ((I + 1 / ((y.length : K) - 1)) / env.sqrt v), ?_, rfl, ?_, ?_⟩
  · rw [hp, hI, hE, hv, StatEnv.sqrtN, if_neg (not_lt.2 v0.le)]
    simp only [Num.sub, Num.neg, Num.add, Num.div, s0.ne', if_false]
    rw [hF.fin, e, neg_neg]
  · rw [← hF.half, hF.mono.lt_iff_lt, lt_div_iff₀ s0, zero_mul, e]
    exact ⟨fun h => by linarith, fun h => by linarith⟩
  · rw [← hF.half, hF.mono.lt_iff_lt, div_lt_iff₀ s0, zero_mul, e]
    exact ⟨fun h => by linarith, fun h => by linarith⟩

/-- C129, second part: `p` is NaN whenever `I` is NaN or the variance is negative or NaN. -/
theorem C129_nan (env : StatEnv K) (F : K → K) (hF : env.Normal F) (y : List K)
    (W : Mat K) (o : MoranOut K) (p : Num K) (h : moranST env y W = .ok (o, p))
    (hn : o.I = Num.nan ∨ o.VI = Num.nan ∨ ∃ v < 0, o.VI = fin v) : p = Num.nan := by
  obtain ⟨-, -, -, ho, hp⟩ := moranST_inv h
  rw [hp, ← hF.nan]
  congr 1
  rcases hn with h | h | ⟨v, v0, h⟩
  · rw [h]
    have : ∀ z : Num K, Num.sub Num.nan z = Num.nan := fun z => by cases z <;> rfl
    rw [this, Num.nan_div]
  · rw [h]
    generalize Num.sub o.I o.EI = z
    cases z <;> rfl
  · rw [h, StatEnv.sqrtN, if_pos v0]
    generalize Num.sub o.I o.EI = z
    cases z <;> rfl

/-- C129, third part: if no observation is its own neighbour, the variance is not negative. -/
theorem C129_no_self (env : StatEnv K) (y : List K) (W : Mat K)
    (h1 : W.r = y.length) (h2 : W.c = y.length) (hn : 4 ≤ y.length) (hW : RowsOk y.length W)
    (hd : ∀ i < y.length, W.get i i = 0)
    (hS : ∑ i ∈ range y.length, ∑ j ∈ range y.length, W.get i j / (W.row j).sum ≠ 0)
    (hy : ∃ a ∈ y, ∃ b ∈ y, a ≠ b) :
    ∃ o p v, moranST env y W = .ok (o, p) ∧ o.VI = fin v ∧ 0 ≤ v := by
  obtain ⟨x, hx⟩ := C64_permutation_variance env y W h1 h2 hn hW hd hS hy
  obtain ⟨o, p, h, -, -, hv⟩ := hx 1
  rw [permuted_one] at h
  refine ⟨o, p, _, h, hv, ?_⟩
  have hcs := sq_sum_le_card_mul_sum_sq (s := (Finset.univ : Finset (Perm (Fin y.length)))) (f := x)
  rw [Finset.card_univ, Fintype.card_perm, Fintype.card_fin] at hcs
  have hf : (0 : K) < (y.length.factorial : K) := by exact_mod_cast Nat.factorial_pos _
  rw [div_pow, sub_nonneg, div_le_div_iff₀ (by positivity) hf]
  nlinarith

/-! ### uniform weights -/

/-- Sums of powers of centred numbers: the fourth moment is at most what one outlier gives, and less
if two disjoint pairs differ. -/
theorem fourth_moment_lt (n : Nat) (hn : 4 ≤ n) (u : Nat → K) (h0 : ∑ i ∈ range n, u i = 0)
    (i j k l : Nat) (hi : i < n) (hj : j < n) (hk : k < n) (hl : l < n)
    (hik : i ≠ k) (hil : i ≠ l) (hjk : j ≠ k) (hjl : j ≠ l) (hij : u i ≠ u j) (hkl : u k ≠ u l) :
    (n : K) * ((n : K) - 1) * ∑ i ∈ range n, u i ^ 4 <
      ((n : K) ^ 2 - 3 * n + 3) * (∑ i ∈ range n, u i ^ 2) ^ 2 := by
  set s := ∑ i ∈ range n, u i ^ 2 with hs
  set f := ∑ i ∈ range n, u i ^ 4 with hf
  have hN : (4 : K) ≤ n := by exact_mod_cast hn
  set c := s / ((n : K) - 1) with hc
  have n1 : (n : K) - 1 ≠ 0 := by intro h; linarith
  set T : Nat → Nat → K := fun a b => ((n : K) - 2) * (u a * u b) + u a ^ 2 + u b ^ 2 - c with hT
  have hfull : ∑ a ∈ range n, ∑ b ∈ range n, T a b ^ 2 =
      ((n : K) - 2) ^ 2 * s ^ 2 + 2 * n * f + 2 * s ^ 2 + n ^ 2 * c ^ 2 - 4 * n * s * c := by
    have inner : ∀ a, ∑ b ∈ range n, T a b ^ 2 =
        ((n : K) - 2) ^ 2 * u a ^ 2 * s + n * u a ^ 4 + f + n * c ^ 2 + 2 * ((n : K) - 2) * u a *
          (∑ b ∈ range n, u b ^ 3) + 2 * u a ^ 2 * s - 2 * n * c * u a ^ 2 - 2 * c * s := by
      intro a
      have : ∀ b, T a b ^ 2 = ((n : K) - 2) ^ 2 * u a ^ 2 * u b ^ 2 + u a ^ 4 + u b ^ 4 + c ^ 2 +
          2 * ((n : K) - 2) * u a * u b ^ 3 + 2 * u a ^ 2 * u b ^ 2 - 2 * c * u a ^ 2 -
          2 * c * u b ^ 2 + (2 * ((n : K) - 2) * u a ^ 3 - 2 * ((n : K) - 2) * c * u a) * u b := by
        intro b; simp only [hT]; ring
      simp only [this, Finset.sum_add_distrib, Finset.sum_sub_distrib, ← Finset.mul_sum, h0,
        Finset.sum_const, card_range, nsmul_eq_mul, ← hs, ← hf]
      ring
    simp only [inner, Finset.sum_add_distrib, Finset.sum_sub_distrib, ← Finset.mul_sum,
      ← Finset.sum_mul, h0, Finset.sum_const, card_range, nsmul_eq_mul, ← hs, ← hf]
    ring
  have hdiag : ∑ a ∈ range n, T a a ^ 2 = (n : K) ^ 2 * f + n * c ^ 2 - 2 * n * s * c := by
    have : ∀ a, T a a ^ 2 = (n : K) ^ 2 * u a ^ 4 + c ^ 2 - 2 * n * c * u a ^ 2 := by
      intro a; simp only [hT]; ring
    simp only [this, Finset.sum_add_distrib, Finset.sum_sub_distrib, ← Finset.mul_sum,
      Finset.sum_const, card_range, nsmul_eq_mul, ← hs, ← hf]
    ring
  have hoff : ∑ a ∈ range n, ∑ b ∈ range n, T a b ^ 2 - ∑ a ∈ range n, T a a ^ 2 =
      ∑ a ∈ range n, ∑ b ∈ (range n).erase a, T a b ^ 2 := by
    rw [← Finset.sum_sub_distrib]
    refine Finset.sum_congr rfl fun a ha => ?_
    rw [← Finset.add_sum_erase _ _ ha]
    ring
  have hpos : 0 < ∑ a ∈ range n, ∑ b ∈ (range n).erase a, T a b ^ 2 := by
    by_contra hle
    have hzero : ∑ a ∈ range n, ∑ b ∈ (range n).erase a, T a b ^ 2 = 0 :=
      le_antisymm (not_lt.1 hle) (Finset.sum_nonneg fun a _ => Finset.sum_nonneg fun b _ => sq_nonneg _)
    have hz : ∀ a < n, ∀ b < n, a ≠ b → T a b = 0 := by
      intro a ha b hb hab
      have h1 := (Finset.sum_eq_zero_iff_of_nonneg (fun a _ => Finset.sum_nonneg fun b _ =>
        sq_nonneg (T a b))).1 hzero a (by simpa using ha)
      have h2 := (Finset.sum_eq_zero_iff_of_nonneg (fun b _ => sq_nonneg (T a b))).1 h1 b
        (by simp [hb, hab.symm])
      exact pow_eq_zero_iff (two_ne_zero) |>.1 h2
    have key : ∀ m, m < n → m ≠ i → m ≠ j → u i + u j = -((n : K) - 2) * u m := by
      intro m hm hmi hmj
      have a := hz m hm i hi hmi
      have b := hz m hm j hj hmj
      simp only [hT] at a b
      have : (u i - u j) * (((n : K) - 2) * u m + u i + u j) = 0 := by linear_combination a - b
      rcases mul_eq_zero.1 this with h | h
      · exact absurd (sub_eq_zero.1 h) hij
      · linear_combination h
    have a := key k hk hik.symm hjk.symm
    have b := key l hl hil.symm hjl.symm
    have n2 : -((n : K) - 2) ≠ 0 := by intro h; linarith
    exact hkl (mul_left_cancel₀ n2 (a.symm.trans b))
  rw [← hoff, hfull, hdiag] at hpos
  have e : (((n : K) - 2) ^ 2 * s ^ 2 + 2 * n * f + 2 * s ^ 2 + n ^ 2 * c ^ 2 - 4 * n * s * c -
      (n ^ 2 * f + n * c ^ 2 - 2 * n * s * c)) * (n - 1) =
      ((n : K) - 2) * (((n : K) ^ 2 - 3 * n + 3) * s ^ 2 - n * (n - 1) * f) := by
    rw [hc]
    field_simp
    ring
  have n2 : (0 : K) < (n : K) - 2 := by linarith
  have hp := mul_pos hpos (show (0 : K) < (n : K) - 1 by linarith)
  rw [e] at hp
  have := (mul_pos_iff_of_pos_left n2).1 hp
  linarith

/-- C129, fourth part: with equal weights for all pairs, self included (the uniform kernel), `I` is
0, the variance is negative and `p` is NaN for every variable in which two disjoint pairs of
observations differ. -/
theorem C129_uniform (env : StatEnv K) (F : K → K) (hF : env.Normal F) (y : List K) (W : Mat K)
    (h1 : W.r = y.length) (h2 : W.c = y.length) (hn : 4 ≤ y.length) (w : K) (hw : w ≠ 0)
    (hW : ∀ i < y.length, ∀ j < y.length, W.get i j = w)
    (i j k l : Nat) (hi : i < y.length) (hj : j < y.length) (hk : k < y.length) (hl : l < y.length)
    (hik : i ≠ k) (hil : i ≠ l) (hjk : j ≠ k) (hjl : j ≠ l) (hij : y.getD i 0 ≠ y.getD j 0)
    (hkl : y.getD k 0 ≠ y.getD l 0) :
    ∃ o p v, moranST env y W = .ok (o, p) ∧ o.I = fin 0 ∧ o.VI = fin v ∧ v < 0 ∧ p = Num.nan := by
  have hN : (4 : K) ≤ (y.length : K) := by exact_mod_cast hn
  have n0 : (y.length : K) ≠ 0 := by intro h; linarith
  have n1 : (y.length : K) - 1 ≠ 0 := by intro h; linarith
  have n2 : (y.length : K) - 2 ≠ 0 := by intro h; linarith
  have n3 : (y.length : K) - 3 ≠ 0 := by intro h; linarith
  have hrow : ∀ j < y.length, (W.row j).sum = y.length * w := by
    intro j hj
    rw [row_sum_eq, h2, Finset.sum_congr rfl fun k hk => hW j hj k (by simpa using hk)]
    simp
  have hok : RowsOk y.length W := fun j hj => by rw [hrow j hj]; exact mul_ne_zero n0 hw
  have hval : ∀ i < y.length, ∀ j < y.length, stdWeights W i j = fin (1 / (y.length : K)) := by
    intro i hi j hj
    rw [stdWeights_val hok i hi j hj, stdVal, hW i hi j hj, hrow j hj]
    congr 1
    field_simp
  obtain ⟨p, hp⟩ := moranST_ok (env := env) h1 h2 (by omega : 2 ≤ y.length)
  have e0 : wS0 y.length (stdWeights W) = fin (y.length : K) := by
    rw [wS0_fin (v := fun _ _ => 1 / (y.length : K)) hval]
    simp only [Finset.sum_const, card_range, nsmul_eq_mul]
    congr 1
    field_simp
  have e1 : wS1 y.length (stdWeights W) = fin (2 : K) := by
    rw [wS1_fin (v := fun _ _ => 1 / (y.length : K)) hval]
    simp only [Finset.sum_const, card_range, nsmul_eq_mul]
    congr 1
    field_simp
    norm_num
  have e2 : wS2 y.length (stdWeights W) = fin (4 * (y.length : K)) := by
    rw [wS2_fin (v := fun _ _ => 1 / (y.length : K)) hval]
    simp only [Finset.sum_const, card_range, nsmul_eq_mul]
    congr 1
    field_simp
    norm_num
  have h0 := sum_deviation y (by omega)
  have hdev : ∀ a b, y.getD a 0 ≠ y.getD b 0 → deviation y a ≠ deviation y b := by
    intro a b hab h
    exact hab (by simpa [deviation] using h)
  have hlt := fourth_moment_lt y.length hn (deviation y) h0 i j k l hi hj hk hl hik hil hjk hjl
    (hdev _ _ hij) (hdev _ _ hkl)
  rw [← devSq_eq, ← devFourth_eq] at hlt
  have hq : devSq y ≠ 0 := devSq_ne ⟨y.getD i 0, by
    rw [List.getD_eq_getElem _ _ hi]; exact List.getElem_mem hi, y.getD j 0, by
    rw [List.getD_eq_getElem _ _ hj]; exact List.getElem_mem hj, hij⟩
  set f := devFourth y with hf
  set q := devSq y with hqd
  have hI : (stOut y (stdWeights W)).I = fin 0 := by
    show stI y _ = _
    rw [stI_fin (v := fun _ _ => 1 / (y.length : K)) hval]
    have ha : autoCov y (fun _ _ => 1 / (y.length : K)) = 0 := by
      unfold autoCov
      simp only [← Finset.mul_sum, h0, mul_zero, Finset.sum_const_zero]
    have hS : (∑ _i ∈ range y.length, ∑ _j ∈ range y.length, 1 / (y.length : K)) = y.length := by
      simp only [Finset.sum_const, card_range, nsmul_eq_mul]
      field_simp
    rw [ha, hS, Num.div, if_neg (mul_ne_zero n0 hq)]
    simp
  have hV : (stOut y (stdWeights W)).VI = fin (2 * ((y.length : K) * (y.length - 1) * f -
      ((y.length : K) ^ 2 - 3 * y.length + 3) * q ^ 2) /
      (((y.length : K) - 1) ^ 2 * (y.length - 2) * (y.length - 3) * y.length * q ^ 2)) := by
    show moranVar _ _ _ _ _ = _
    rw [e0, e1, e2]
    have : Num.div (fin ((y.length : K)⁻¹ * f)) (Num.sq (fin ((y.length : K)⁻¹ * q))) =
        fin (y.length * f / q ^ 2) := by
      simp only [Num.sq, Num.mul, Num.div]
      rw [if_neg (by positivity)]
      congr 1
      field_simp
    rw [this, moranVar_fin _ _ _ _ _ hn n0]
    congr 1
    field_simp
    ring
  have hneg : 2 * ((y.length : K) * (y.length - 1) * f -
      ((y.length : K) ^ 2 - 3 * y.length + 3) * q ^ 2) /
      (((y.length : K) - 1) ^ 2 * (y.length - 2) * (y.length - 3) * y.length * q ^ 2) < 0 := by
    apply div_neg_of_neg_of_pos
    · linarith
    · have p1 : (0 : K) < (y.length : K) - 1 := by linarith
      have p2 : (0 : K) < (y.length : K) - 2 := by linarith
      have p3 : (0 : K) < (y.length : K) - 3 := by linarith
      have p4 : (0 : K) < (y.length : K) := by linarith
      positivity
  exact ⟨_, p, _, hp, hI, hV, hneg,
    C129_nan env F hF y W _ p hp (.inr (.inr ⟨_, hneg, hV⟩))⟩

/-- The weights of a boxcar kernel on four observations, each its own neighbour. -/
def boxW : Mat ℚ := Mat.ofRows 0 4 [[1, 0, 1, 1], [0, 1, 1, 1], [1, 1, 1, 1], [1, 1, 1, 1]]
def boxY : List ℚ := [5, 5, 0, 1]

/-- C129, fifth part: that also happens with the weights of a compact kernel. -/
theorem C129_boxcar : ∃ v < 0, (stOut boxY (stdWeights boxW)).VI = fin v ∧
    ∀ (env : StatEnv ℚ) (F : ℚ → ℚ), env.Normal F → ∃ o,
      moranST env boxY boxW = .ok (o, Num.nan) ∧ o.I = fin (-27 / 166) := by
  have hV : (stOut boxY (stdWeights boxW)).VI = fin (-47837 / 744012) := by decide +kernel
  refine ⟨_, by norm_num, hV, fun env F hF => ?_⟩
  obtain ⟨p, hp⟩ := moranST_ok (env := env) (y := boxY) (W := boxW) rfl rfl (by decide)
  have := C129_nan env F hF boxY boxW _ p hp (.inr (.inr ⟨_, by norm_num, hV⟩))
  subst this
  exact ⟨_, hp, by decide +kernel⟩

/-- A stand-in for the normal distribution function: any strictly increasing function with value one
half at 0. -/
def ratNormal : StatEnv ℚ := ⟨fun x => x, fun
  | fin x => fin (x + 1 / 2)
  | z => z⟩

theorem ratNormal_ok : ratNormal.Ok ∧ ratNormal.Normal fun x => x + 1 / 2 :=
  ⟨⟨fun _ h => h, fun _ _ => Iff.rfl⟩,
    ⟨fun _ => rfl, rfl, fun x y h => by simpa using h, by norm_num⟩⟩

/-- `mW` and `mY` have a finite `I` and a positive variance. -/
example : ∃ o p I v, moranST ratNormal mY mW = .ok (o, p) ∧ o.I = fin I ∧ o.VI = fin v ∧ 0 < v := by
  obtain ⟨p, hp⟩ := moranST_ok (env := ratNormal) (y := mY) (W := mW) rfl rfl (by decide)
  have hI : ∃ I v, (stOut mY (stdWeights mW)).I = fin I ∧ (stOut mY (stdWeights mW)).VI = fin v ∧
      0 < v := by
    refine ⟨(stOut mY (stdWeights mW)).I.toK, (stOut mY (stdWeights mW)).VI.toK, ?_, ?_, ?_⟩ <;>
      decide +kernel
  obtain ⟨I, v, a, b, c⟩ := hI
  exact ⟨_, p, I, v, hp, a, b, c⟩

/-- Four different observations with uniform weights. -/
example : ∃ o p v, moranST ratNormal mY ⟨4, 4, fun _ _ => (1 : ℚ)⟩ = .ok (o, p) ∧ o.I = fin 0 ∧
    o.VI = fin v ∧ v < 0 ∧ p = Num.nan :=
  C129_uniform ratNormal _ ratNormal_ok.2 mY ⟨4, 4, fun _ _ => 1⟩ rfl rfl (by decide) 1 one_ne_zero
    (fun _ _ _ _ => rfl) 0 1 2 3 (by decide) (by decide) (by decide) (by decide) (by decide)
    (by decide) (by decide) (by decide) (by decide +kernel) (by decide +kernel)

end Geo
