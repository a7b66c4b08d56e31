import Verif.Lemmas.Moran
import Mathlib.GroupTheory.Perm.Basic
import Mathlib.Data.Fintype.Perm
import Mathlib.Logic.Equiv.Basic
/-
Global and local Moran statistics: C63-C66.
-/
set_option linter.unusedSectionVars false
namespace Geo
variable {K : Type} [Field K] [LinearOrder K] [IsStrictOrderedRing K]
open Num Finset

/-! ### the result depends only on the weights inside the shape -/

section congr
variable {n : Nat} {w w' : Nat → Nat → Num K} (h : ∀ i < n, ∀ j < n, w i j = w' i j)
include h

theorem wS0_congr : wS0 n w = wS0 n w' :=
  sumTo_congr fun i hi => sumTo_congr fun j hj => h i hi j hj

theorem wS1_congr : wS1 n w = wS1 n w' := by
  unfold wS1
  rw [sumTo_congr fun i hi => sumTo_congr fun j hj => by rw [h i hi j hj, h j hj i hi]]

theorem wS2_congr : wS2 n w = wS2 n w' :=
  sumTo_congr fun i hi => by
    rw [sumTo_congr fun j hj => by rw [h i hi j hj, h j hj i hi]]

theorem quadForm_congr {z z' : Nat → Num K} (hz : ∀ i < n, z i = z' i) :
    quadForm n w z = quadForm n w' z' :=
  sumTo_congr fun i hi => by
    rw [hz i hi, sumTo_congr fun j hj => by rw [h i hi j hj, hz j hj]]

end congr

theorem stI_congr {y : List K} {w w' : Nat → Nat → Num K}
    (h : ∀ i < y.length, ∀ j < y.length, w i j = w' i j) : stI y w = stI y w' := by
  unfold stI
  simp only
  rw [wS0_congr h]
  congr 2
  exact sumTo_congr fun i hi => by
    rw [sumTo_congr fun j hj => by rw [h i hi j hj]]

theorem stOut_congr {y : List K} {w w' : Nat → Nat → Num K}
    (h : ∀ i < y.length, ∀ j < y.length, w i j = w' i j) : stOut y w = stOut y w' := by
  unfold stOut
  simp only
  rw [stI_congr h, wS0_congr h, wS1_congr h, wS2_congr h]

theorem miOut_congr {env : StatEnv K} {y : List K} {w w' : Nat → Nat → Num K}
    (h : ∀ i < y.length, ∀ j < y.length, w i j = w' i j) : miOut env y w = miOut env y w' := by
  unfold miOut
  simp only
  rw [wS0_congr h, wS1_congr h, wS2_congr h, quadForm_congr h fun _ _ => rfl]

theorem lmiOut_congr {y : List K} {w w' : Nat → Nat → Num K}
    (h : ∀ i < y.length, ∀ j < y.length, w i j = w' i j) : lmiOut y w = lmiOut y w' := by
  unfold lmiOut
  refine List.map_congr_left fun i hi => ?_
  rw [sumTo_congr fun j hj => by rw [h i (by simpa using hi) j hj]]

/-! ### undefined statistics -/

theorem stI_NF {y : List K} {w : Nat → Nat → Num K} {j : Nat} (hj : j < y.length)
    (h : ∀ i < y.length, (w i j).NF) : stI y w = Num.nan := by
  unfold stI
  apply Num.div_NF_NF
  · exact Num.mul_NF_right (sumTo_NF hj (Num.mul_NF_right
      (sumTo_NF hj (Num.mul_NF_left (h j hj)))))
  · exact Num.mul_NF_left (sumTo_NF hj (sumTo_NF hj (h j hj)))

theorem miI_NF {env : StatEnv K} {y : List K} {w : Nat → Nat → Num K} {j : Nat}
    (hj : j < y.length) (h : ∀ i < y.length, (w i j).NF) :
    (miOut env y w).I = Num.nan := by
  unfold miOut
  simp only
  have hS : (wS0 y.length w).NF := sumTo_NF hj (sumTo_NF hj (h j hj))
  have hq : (quadForm y.length w (zScore env y)).NF :=
    sumTo_NF hj (Num.mul_NF_left (sumTo_NF hj (Num.mul_NF_left (h j hj))))
  have hm : Num.mul (Num.div (fin (y.length : K)) (wS0 y.length w))
      (quadForm y.length w (zScore env y)) = Num.nan := by
    generalize wS0 y.length w = a at hS
    generalize quadForm y.length w (zScore env y) = b at hq
    cases a <;> cases b <;>
      first
        | exact absurd rfl (hS _)
        | exact absurd rfl (hq _)
        | simp [Num.div, Num.mul, infSign]
  rw [hm, Num.nan_div]

/-- All row sums used as divisors are non-zero. -/
def RowsOk (n : Nat) (W : Mat K) : Prop := ∀ j < n, (W.row j).sum ≠ 0

/-- The weights the statistics use, as finite numbers. -/
def stdVal (W : Mat K) (i j : Nat) : K := W.get i j / (W.row j).sum

theorem stdWeights_val {n : Nat} {W : Mat K} (h : RowsOk n W) :
    ∀ i < n, ∀ j < n, stdWeights W i j = fin (stdVal W i j) :=
  fun i _ j hj => stdWeights_fin (h j hj) i

theorem moranMI_ok {env : StatEnv K} {y : List K} {W : Mat K} (h1 : W.r = y.length)
    (h2 : W.c = y.length) (hn : y.length ≠ 1) :
    moranMI env y W = .ok (miOut env y (stdWeights W)) := by
  simp [moranMI, moranShape, h1, h2, hn]

theorem moranST_ok {env : StatEnv K} {y : List K} {W : Mat K} (h1 : W.r = y.length)
    (h2 : W.c = y.length) (hn : 2 ≤ y.length) :
    ∃ p, moranST env y W = .ok (stOut y (stdWeights W), p) := by
  refine ⟨env.cdf (Num.div (Num.sub (stOut y (stdWeights W)).I (stOut y (stdWeights W)).EI)
    (env.sqrtN (stOut y (stdWeights W)).VI)), ?_⟩
  simp only [moranST, moranShape, h1, h2, beq_self_eq_true, Bool.and_self, Bool.not_true,
    Bool.false_eq_true, if_false]
  rw [if_neg (by omega)]

theorem moranLMI_ok {y : List K} {W : Mat K} (h1 : W.r = y.length)
    (h2 : W.c = y.length) : moranLMI y W = .ok (lmiOut y (stdWeights W)) := by
  simp [moranLMI, moranShape, h1, h2]

theorem devSq_const {y : List K} (hd : ∀ a ∈ y, ∀ b ∈ y, a = b) : devSq y = 0 := by
  have hm : ∀ i < y.length, deviation y i = 0 := by
    intro i hi
    have hs : ∀ k < y.length, y.getD k 0 = y.getD i 0 := fun k hk => by
      apply hd <;> (simp only [List.getD_eq_getElem?_getD]; simp [*])
    unfold deviation
    rw [sum_eq_range, Finset.sum_congr rfl fun k hk => hs k (by simpa using hk)]
    have : (y.length : K) ≠ 0 := Nat.cast_ne_zero.2 (by omega)
    rw [Finset.sum_const, Finset.card_range, nsmul_eq_mul]
    field_simp
    ring
  rw [devSq_eq]
  exact Finset.sum_eq_zero fun i hi => by rw [hm i (by simpa using hi)]; ring

/-- C63: for a constant variable, or as soon as one observation has no neighbours (its weights
sum to zero), both functions return `I = NaN` instead of raising; for one observation both raise
`ZeroDivisionError`. -/
theorem C63_undefined (env : StatEnv K) (he : env.Ok) (y : List K) (W : Mat K)
    (h1 : W.r = y.length) (h2 : W.c = y.length) :
    (y.length = 1 → moranMI env y W = .error .zeroDivisionError ∧
      moranST env y W = .error .zeroDivisionError) ∧
    (2 ≤ y.length → ((∀ a ∈ y, ∀ b ∈ y, a = b) ∨ ∃ j < y.length, (W.row j).sum = 0) →
      (∃ o, moranMI env y W = .ok o ∧ o.I = Num.nan) ∧
      ∃ o p, moranST env y W = .ok (o, p) ∧ o.I = Num.nan) := by
  constructor
  · intro h
    simp [moranMI, moranST, moranShape, h1, h2, h]
  intro hn hd
  obtain ⟨p, hp⟩ := moranST_ok (env := env) h1 h2 hn
  rw [moranMI_ok h1 h2 (by omega), hp]
  refine ⟨⟨_, rfl, ?_⟩, _, _, rfl, ?_⟩
  all_goals by_cases hr : ∃ j < y.length, (W.row j).sum = 0
  · obtain ⟨j, hj, hr⟩ := hr
    exact miI_NF hj fun i _ => stdWeights_NF hr i
  · have hro : RowsOk y.length W := fun j hj h => hr ⟨j, hj, h⟩
    rw [miI_eq_stI he (stdWeights_val hro), stI_fin (stdWeights_val hro)]
    rcases hd with hd | hd
    · have hc := devSq_const hd
      simp [hc, autoCov_zero hc, Num.div, infSign]
    · exact absurd hd hr
  · obtain ⟨j, hj, hr⟩ := hr
    exact stI_NF hj fun i _ => stdWeights_NF hr i
  · have hro : RowsOk y.length W := fun j hj h => hr ⟨j, hj, h⟩
    show stI y (stdWeights W) = _
    rw [stI_fin (stdWeights_val hro)]
    rcases hd with hd | hd
    · have hc := devSq_const hd
      simp [hc, autoCov_zero hc, Num.div, infSign]
    · exact absurd hd hr

/-! ### the value of the statistics -/

/-- C63: the value of `I` when it is defined, in terms of the data: with
`v i j = w i j / (sum of row j)`, `I = n Σᵢⱼ uᵢ vᵢⱼ uⱼ / (Σᵢⱼ vᵢⱼ · Σᵢ uᵢ²)`. -/
theorem C63_value (env : StatEnv K) (he : env.Ok) (y : List K) (W : Mat K)
    (h1 : W.r = y.length) (h2 : W.c = y.length) (hn : 2 ≤ y.length) (hW : RowsOk y.length W)
    (v : Nat → Nat → K) (hv : v = fun i j => W.get i j / (W.row j).sum)
    (u : Nat → K) (hu : u = fun i => y.getD i 0 - y.sum / (y.length : K))
    (hS : ∑ i ∈ range y.length, ∑ j ∈ range y.length, v i j ≠ 0)
    (hy : ∑ i ∈ range y.length, u i ^ 2 ≠ 0) :
    ∃ o o' p, moranMI env y W = .ok o ∧ moranST env y W = .ok (o', p) ∧
      o.I = fin ((y.length : K) *
          (∑ i ∈ range y.length, ∑ j ∈ range y.length, u i * v i j * u j) /
        ((∑ i ∈ range y.length, ∑ j ∈ range y.length, v i j) * ∑ i ∈ range y.length, u i ^ 2)) ∧
      o'.I = o.I ∧ o.EI = fin (-1 / ((y.length : K) - 1)) ∧ o'.EI = o.EI := by
  obtain ⟨p, hp⟩ := moranST_ok (env := env) h1 h2 hn
  refine ⟨_, _, p, moranMI_ok h1 h2 (by omega), hp, ?_, ?_, rfl, rfl⟩
  · rw [miI_eq_stI he (stdWeights_val hW), stI_fin (stdWeights_val hW)]
    subst hv hu
    rw [Num.div, if_neg]
    · rw [devSq_eq]; rfl
    · rw [devSq_eq]; exact mul_ne_zero hS hy
  · show stI y (stdWeights W) = _
    rw [miI_eq_stI he (stdWeights_val hW)]

/-! ### affine changes of the variable -/

theorem deviation_affine (a b : K) (y : List K) {i : Nat} (hi : i < y.length) :
    deviation (y.map fun v => a * v + b) i = a * deviation y i := by
  have h0 : (y.length : K) ≠ 0 := Nat.cast_ne_zero.2 (by omega)
  have hs : (y.map fun v => a * v + b).sum = a * y.sum + (y.length : K) * b := by
    clear hi h0
    induction y with
    | nil => simp
    | cons x l ih => simp [ih]; ring
  unfold deviation
  rw [hs]
  simp only [List.length_map, List.getD_eq_getElem?_getD, List.getElem?_map,
    List.getElem?_eq_getElem hi, Option.map_some, Option.getD_some]
  field_simp
  ring

theorem devSq_affine (a b : K) (y : List K) :
    devSq (y.map fun v => a * v + b) = a ^ 2 * devSq y := by
  rw [devSq_eq, devSq_eq, Finset.mul_sum, List.length_map]
  exact Finset.sum_congr rfl fun i hi => by
    rw [deviation_affine a b y (by simpa using hi)]; ring

theorem devFourth_affine (a b : K) (y : List K) :
    devFourth (y.map fun v => a * v + b) = a ^ 4 * devFourth y := by
  rw [devFourth_eq, devFourth_eq, Finset.mul_sum, List.length_map]
  exact Finset.sum_congr rfl fun i hi => by
    rw [deviation_affine a b y (by simpa using hi)]; ring

theorem autoCov_affine (a b : K) (y : List K) (v : Nat → Nat → K) :
    autoCov (y.map fun v => a * v + b) v = a ^ 2 * autoCov y v := by
  unfold autoCov
  rw [Finset.mul_sum, List.length_map]
  refine Finset.sum_congr rfl fun i hi => ?_
  rw [Finset.mul_sum]
  exact Finset.sum_congr rfl fun j hj => by
    rw [deviation_affine a b y (by simpa using hi), deviation_affine a b y (by simpa using hj)]
    ring

theorem div_scale {c : K} (hc : 0 < c) (a b : K) :
    Num.div (fin (c * a)) (fin (c * b)) = Num.div (fin a) (fin b) := by
  by_cases hb : b = 0
  · simp [Num.div, hb, infSign_pos_mul hc]
  · simp only [Num.div, mul_ne_zero hc.ne' hb, hb, if_false]
    congr 1
    field_simp

theorem stI_affine {a : K} (ha : a ≠ 0) (b : K) (y : List K) (W : Mat K) :
    stI (y.map fun v => a * v + b) (stdWeights W) = stI y (stdWeights W) := by
  by_cases hr : RowsOk y.length W
  · rw [stI_fin (v := stdVal W) (by simpa using stdWeights_val hr), stI_fin (stdWeights_val hr),
      autoCov_affine, devSq_affine, List.length_map]
    rw [← div_scale (c := a ^ 2) (by positivity) ((y.length : K) * autoCov y (stdVal W))]
    congr 2 <;> ring
  · simp only [RowsOk, not_forall, not_not] at hr
    obtain ⟨j, hj, hr⟩ := hr
    rw [stI_NF hj fun i _ => stdWeights_NF hr i,
      stI_NF (by simpa using hj) fun i _ => stdWeights_NF hr i]

theorem miI_eq_stI_all {env : StatEnv K} (he : env.Ok) (y : List K) (W : Mat K) :
    (miOut env y (stdWeights W)).I = stI y (stdWeights W) := by
  by_cases hr : RowsOk y.length W
  · exact miI_eq_stI he (stdWeights_val hr)
  · simp only [RowsOk, not_forall, not_not] at hr
    obtain ⟨j, hj, hr⟩ := hr
    rw [stI_NF hj fun i _ => stdWeights_NF hr i, miI_NF hj fun i _ => stdWeights_NF hr i]

/-- The fields of `spatiotemporal_MI` without z-scores. -/
theorem miOut_eq {env : StatEnv K} (he : env.Ok) (y : List K) (hn : 0 < y.length) (W : Mat K) :
    miOut env y (stdWeights W) = ⟨stI y (stdWeights W), fin (moranEI y.length),
      moranVar y.length (wS0 y.length (stdWeights W)) (wS1 y.length (stdWeights W))
        (wS2 y.length (stdWeights W)) (Num.div (fin (devFourth y)) (fin (devSq y ^ 2)))⟩ := by
  rw [← kurt_eq he y hn, ← miI_eq_stI_all he]; rfl

/-- C63: rescaling the variable by any non-zero factor and shifting it changes nothing in what
`spatiotemporal_MI` and `STMI` return, whatever the weights are. -/
theorem C63_affine (env : StatEnv K) (he : env.Ok) (a b : K) (ha : a ≠ 0) (y : List K)
    (hn : 0 < y.length) (W : Mat K) :
    moranMI env (y.map fun v => a * v + b) W = moranMI env y W ∧
    moranST env (y.map fun v => a * v + b) W = moranST env y W := by
  have h4 : (0 : K) < a ^ 4 := by positivity
  have e1 : Num.div (fin (devFourth (y.map fun v => a * v + b)))
      (fin (devSq (y.map fun v => a * v + b) ^ 2)) =
      Num.div (fin (devFourth y)) (fin (devSq y ^ 2)) := by
    rw [devFourth_affine, devSq_affine, ← div_scale h4 (devFourth y)]
    congr 2; ring
  have hm : miOut env (y.map fun v => a * v + b) (stdWeights W) = miOut env y (stdWeights W) := by
    rw [miOut_eq he _ (by simpa using hn), miOut_eq he _ hn, e1, stI_affine ha, List.length_map]
  have hs : stOut (y.map fun v => a * v + b) (stdWeights W) = stOut y (stdWeights W) := by
    unfold stOut
    simp only
    rw [stI_affine ha, List.length_map, devFourth_affine, devSq_affine]
    congr 2
    simp only [Num.sq, Num.mul]
    rw [← div_scale h4 ((y.length : K)⁻¹ * devFourth y)]
    congr 2 <;> ring
  constructor
  · unfold moranMI
    simp only [moranShape, List.length_map, hm]
    split_ifs <;> simp_all
  · unfold moranST
    simp only [moranShape, List.length_map, hs]

/-! ### rescaled weights -/

theorem row_scale (c : K) (W : Mat K) (j : Nat) :
    ((W.map fun x => c * x).row j).sum = c * (W.row j).sum := by
  rw [row_sum_eq, row_sum_eq, Finset.mul_sum]; rfl

/-- C63: multiplying all weights by a positive factor changes nothing, and neither does any
non-zero factor when no row sums to zero. -/
theorem C63_scale_weights (env : StatEnv K) (c : K) (y : List K) (W : Mat K)
    (hc : 0 < c ∨ c ≠ 0 ∧ RowsOk y.length W) :
    moranMI env y (W.map fun x => c * x) = moranMI env y W ∧
    moranST env y (W.map fun x => c * x) = moranST env y W ∧
    moranLMI y (W.map fun x => c * x) = moranLMI y W := by
  have hw : ∀ i < y.length, ∀ j < y.length,
      stdWeights (W.map fun x => c * x) i j = stdWeights W i j := by
    intro i _ j hj
    unfold stdWeights
    rw [row_scale]
    show Num.div (fin (c * W.get i j)) _ = _
    rcases hc with hc | ⟨hc, hr⟩
    · exact div_scale hc _ _
    · have := hr j hj
      simp only [Num.div, mul_ne_zero hc this, this, if_false]
      congr 1
      field_simp
  refine ⟨?_, ?_, ?_⟩
  · unfold moranMI
    rw [miOut_congr hw]; rfl
  · unfold moranST
    rw [stOut_congr hw]; rfl
  · unfold moranLMI
    rw [lmiOut_congr hw]; rfl

/-! ### relabelled observations -/

/-- The variable after relabelling. -/
def relabelY (σ : Nat → Nat) (y : List K) : List K :=
  (List.range y.length).map fun i => y.getD (σ i) 0

/-- The weights after relabelling. -/
def relabelW (σ : Nat → Nat) (W : Mat K) : Mat K := ⟨W.r, W.c, fun i j => W.get (σ i) (σ j)⟩

theorem relabelY_length (σ : Nat → Nat) (y : List K) : (relabelY σ y).length = y.length := by
  simp [relabelY]

theorem deviation_relabel {σ : Nat → Nat} {y : List K} (h : Relabel y.length σ) {i : Nat}
    (hi : i < y.length) : deviation (relabelY σ y) i = deviation y (σ i) := by
  unfold deviation
  rw [relabelY_length]
  have hs : (relabelY σ y).sum = y.sum := by
    rw [relabelY, sum_relabel h (fun i => y.getD i 0), sum_map_range, ← sum_eq_range]
  rw [hs]
  congr 1
  simp [relabelY, List.getElem?_range hi]

theorem devSq_relabel {σ : Nat → Nat} {y : List K} (h : Relabel y.length σ) :
    devSq (relabelY σ y) = devSq y := by
  unfold devSq
  rw [relabelY_length, ← sum_relabel h fun i => deviation y i ^ 2]
  congr 1
  exact List.map_congr_left fun i hi => by rw [deviation_relabel h (by simpa using hi)]

theorem devFourth_relabel {σ : Nat → Nat} {y : List K} (h : Relabel y.length σ) :
    devFourth (relabelY σ y) = devFourth y := by
  unfold devFourth
  rw [relabelY_length, ← sum_relabel h fun i => deviation y i ^ 4]
  congr 1
  exact List.map_congr_left fun i hi => by rw [deviation_relabel h (by simpa using hi)]

theorem stdWeights_relabel {σ : Nat → Nat} {W : Mat K} (h : Relabel W.c σ) (i j : Nat) :
    stdWeights (relabelW σ W) i j = stdWeights W (σ i) (σ j) := by
  unfold stdWeights
  have : ((relabelW σ W).row j).sum = (W.row (σ j)).sum := sum_relabel h (W.get (σ j))
  rw [this]; rfl

theorem dsum_relabel {n : Nat} {σ : Nat → Nat} (h : Relabel n σ) (f : Nat → Nat → Num K) :
    (sumTo n fun i => sumTo n fun j => f (σ i) (σ j)) = sumTo n fun i => sumTo n fun j => f i j := by
  rw [sumTo_congr fun i _ => sumTo_relabel h (f (σ i))]
  exact sumTo_relabel h fun i => sumTo n (f i)

theorem stOut_relabel {σ : Nat → Nat} {y : List K} {W : Mat K} (h : Relabel y.length σ)
    (hc : W.c = y.length) :
    stOut (relabelY σ y) (stdWeights (relabelW σ W)) = stOut y (stdWeights W) := by
  have hw : ∀ i j, stdWeights (relabelW σ W) i j = stdWeights W (σ i) (σ j) :=
    fun i j => stdWeights_relabel (by rw [hc]; exact h) i j
  have e0 : wS0 y.length (stdWeights (relabelW σ W)) = wS0 y.length (stdWeights W) := by
    unfold wS0; simp only [hw]; exact dsum_relabel h _
  have e1 : wS1 y.length (stdWeights (relabelW σ W)) = wS1 y.length (stdWeights W) := by
    unfold wS1; simp only [hw]
    rw [dsum_relabel h fun i j => Num.sq (Num.add (stdWeights W i j) (stdWeights W j i))]
  have e2 : wS2 y.length (stdWeights (relabelW σ W)) = wS2 y.length (stdWeights W) := by
    unfold wS2; simp only [hw]
    rw [sumTo_congr fun i _ => by
      rw [sumTo_relabel h fun j => Num.add (stdWeights W (σ i) j) (stdWeights W j (σ i))]]
    exact sumTo_relabel h fun i => Num.sq (sumTo y.length fun j =>
      Num.add (stdWeights W i j) (stdWeights W j i))
  have eI : stI (relabelY σ y) (stdWeights (relabelW σ W)) = stI y (stdWeights W) := by
    unfold stI
    simp only [relabelY_length, e0, devSq_relabel h]
    congr 2
    rw [sumTo_congr fun i hi => by
      rw [deviation_relabel h hi, sumTo_congr fun j hj => by rw [deviation_relabel h hj, hw],
        sumTo_relabel h fun j => Num.mul (stdWeights W (σ i) j) (fin (deviation y j))]]
    exact sumTo_relabel h fun i => Num.mul (fin (deviation y i))
      (sumTo y.length fun j => Num.mul (stdWeights W i j) (fin (deviation y j)))
  unfold stOut
  simp only [relabelY_length, eI, e0, e1, e2, devFourth_relabel h, devSq_relabel h]

/-- C63: the statistics do not depend on the order in which the observations are listed, and the
local values follow their observations. -/
theorem C63_relabel (env : StatEnv K) (σ : Nat → Nat) (y : List K) (W : Mat K)
    (h : Relabel y.length σ) (hr : W.r = y.length) (hc : W.c = y.length) :
    moranMI env (relabelY σ y) (relabelW σ W) = moranMI env y W ∧
    moranST env (relabelY σ y) (relabelW σ W) = moranST env y W ∧
    ∃ l l', moranLMI y W = .ok l ∧ moranLMI (relabelY σ y) (relabelW σ W) = .ok l' ∧
      l.length = y.length ∧ l'.length = y.length ∧
      ∀ i < y.length, l'.getD i Num.nan = l.getD (σ i) Num.nan := by
  have hw : ∀ i j, stdWeights (relabelW σ W) i j = stdWeights W (σ i) (σ j) :=
    fun i j => stdWeights_relabel (by rw [hc]; exact h) i j
  have hs := stOut_relabel h hc (σ := σ) (y := y) (W := W)
  have hz : ∀ i < y.length, zScore env (relabelY σ y) i = zScore env y (σ i) := fun i hi => by
    unfold zScore
    rw [deviation_relabel h hi, devSq_relabel h, relabelY_length]
  have hm : miOut env (relabelY σ y) (stdWeights (relabelW σ W)) = miOut env y (stdWeights W) := by
    have hs0 : wS0 y.length (stdWeights (relabelW σ W)) = wS0 y.length (stdWeights W) := by
      unfold wS0; simp only [hw]; exact dsum_relabel h _
    have hv := congrArg MoranOut.VI hs
    have e1 : wS1 y.length (stdWeights (relabelW σ W)) = wS1 y.length (stdWeights W) := by
      unfold wS1; simp only [hw]
      rw [dsum_relabel h fun i j => Num.sq (Num.add (stdWeights W i j) (stdWeights W j i))]
    have e2 : wS2 y.length (stdWeights (relabelW σ W)) = wS2 y.length (stdWeights W) := by
      unfold wS2; simp only [hw]
      rw [sumTo_congr fun i _ => by
        rw [sumTo_relabel h fun j => Num.add (stdWeights W (σ i) j) (stdWeights W j (σ i))]]
      exact sumTo_relabel h fun i => Num.sq (sumTo y.length fun j =>
        Num.add (stdWeights W i j) (stdWeights W j i))
    unfold miOut
    simp only [relabelY_length, hs0, e1, e2]
    rw [sumTo_congr (f := fun i => Num.sq (zScore env (relabelY σ y) i))
        fun i hi => by rw [hz i hi],
      sumTo_congr (f := fun i => Num.sq (Num.sq (zScore env (relabelY σ y) i)))
        fun i hi => by rw [hz i hi],
      sumTo_relabel h fun i => Num.sq (zScore env y i),
      sumTo_relabel h fun i => Num.sq (Num.sq (zScore env y i))]
    congr 3
    unfold quadForm
    rw [sumTo_congr fun i hi => by
      rw [hz i hi, sumTo_congr fun j hj => by rw [hz j hj, hw],
        sumTo_relabel h fun j => Num.mul (stdWeights W (σ i) j) (zScore env y j)]]
    exact sumTo_relabel h fun i => Num.mul
      (sumTo y.length fun j => Num.mul (stdWeights W i j) (zScore env y j)) (zScore env y i)
  refine ⟨?_, ?_, ?_⟩
  · unfold moranMI
    rw [hm]
    simp only [moranShape, relabelY_length, relabelW]
    split_ifs <;> simp_all
  · unfold moranST
    rw [hs]
    simp only [moranShape, relabelY_length, relabelW]
  · refine ⟨_, _, moranLMI_ok hr hc,
      moranLMI_ok (by simpa [relabelW, relabelY_length] using hr)
        (by simpa [relabelW, relabelY_length] using hc),
      by simp [lmiOut], by simp [lmiOut, relabelY_length], ?_⟩
    intro i hi
    have hi' := h.lt hi
    simp only [lmiOut, relabelY_length, List.getD_eq_getElem?_getD, List.getElem?_map,
      List.getElem?_range hi, List.getElem?_range hi', Option.map_some, Option.getD_some]
    rw [deviation_relabel h hi, devSq_relabel h]
    congr 1
    rw [sumTo_congr fun j hj => by rw [deviation_relabel h hj, hw]]
    exact sumTo_relabel h fun j => Num.mul (stdWeights W (σ i) j) (fin (deviation y j))

end Geo
