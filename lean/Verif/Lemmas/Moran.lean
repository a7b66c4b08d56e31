import Verif.Model.Moran
import Mathlib.Algebra.BigOperators.Intervals
import Mathlib.Algebra.BigOperators.Ring.Finset
import Mathlib.Algebra.Order.BigOperators.Ring.Finset
import Mathlib.Algebra.BigOperators.Field
import Mathlib.Tactic.FieldSimp
import Mathlib.Tactic.Ring
set_option linter.unusedSectionVars false
namespace Geo
variable {K : Type} [Field K] [LinearOrder K] [IsStrictOrderedRing K]
open Num Finset

theorem sum_map_range (n : Nat) (f : Nat → K) :
    ((List.range n).map f).sum = ∑ i ∈ range n, f i := by
  induction n with
  | zero => simp
  | succ n ih => simp [List.range_succ, Finset.sum_range_succ, ih]

theorem sumTo_congr {n : Nat} {f g : Nat → Num K} (h : ∀ i < n, f i = g i) :
    sumTo n f = sumTo n g := by
  unfold sumTo
  rw [List.map_congr_left fun i hi => h i (by simpa using hi)]

theorem sumTo_fin (n : Nat) (f : Nat → K) :
    sumTo n (fun i => fin (f i)) = fin (∑ i ∈ range n, f i) := by
  unfold sumTo
  have : (List.range n).map (fun i => (fin (f i) : Num K)) = ((List.range n).map f).map fin := by
    simp
  rw [this, sum_fin, sum_map_range]

theorem Num.add_comm' (a b : Num K) : Num.add a b = Num.add b a := by
  cases a <;> cases b <;> simp [Num.add, _root_.add_comm]

theorem Num.add_right_comm' (a b c : Num K) :
    Num.add (Num.add a b) c = Num.add (Num.add a c) b := by
  cases a <;> cases b <;> cases c <;> simp [Num.add, _root_.add_right_comm]

theorem Num.nan_add (a : Num K) : Num.add nan a = nan := by cases a <;> rfl
theorem Num.add_nan (a : Num K) : Num.add a nan = nan := by cases a <;> rfl
theorem Num.mul_nan (a : Num K) : Num.mul a nan = nan := by cases a <;> rfl
theorem Num.nan_mul (a : Num K) : Num.mul nan a = nan := by cases a <;> rfl
theorem Num.div_nan (a : Num K) : Num.div a nan = nan := by cases a <;> rfl
theorem Num.nan_div (a : Num K) : Num.div nan a = nan := by cases a <;> rfl

theorem Num.mul_comm' (a b : Num K) : Num.mul a b = Num.mul b a := by
  cases a <;> cases b <;> simp [Num.mul, _root_.mul_comm]

/-- Not a finite number. -/
def Num.NF (x : Num K) : Prop := ∀ a, x ≠ fin a

theorem Num.NF.nan : (Num.nan : Num K).NF := fun _ h => by cases h

theorem Num.infSign_NF (x : K) : (infSign x).NF := by
  intro a; unfold infSign; split
  · simp
  · split <;> simp

theorem Num.add_NF_left {a b : Num K} (h : a.NF) : (Num.add a b).NF := by
  intro c; cases a <;> cases b <;> simp_all [Num.add, Num.NF]

theorem Num.add_NF_right {a b : Num K} (h : b.NF) : (Num.add a b).NF := by
  rw [Num.add_comm']; exact Num.add_NF_left h

theorem Num.mul_NF_left {a b : Num K} (h : a.NF) : (Num.mul a b).NF := by
  cases a <;> cases b
  case fin.fin => exact absurd rfl (h _)
  all_goals first
    | exact Num.infSign_NF _
    | (intro c; simp [Num.mul])

theorem Num.mul_NF_right {a b : Num K} (h : b.NF) : (Num.mul a b).NF := by
  rw [Num.mul_comm']; exact Num.mul_NF_left h

theorem Num.div_NF_NF {a b : Num K} (ha : a.NF) (hb : b.NF) : Num.div a b = Num.nan := by
  cases a <;> cases b <;> first | rfl | exact absurd rfl (ha _) | exact absurd rfl (hb _)

theorem foldl_add_nan (l : List (Num K)) : l.foldl Num.add Num.nan = Num.nan := by
  induction l with
  | nil => rfl
  | cons a l ih => simpa [Num.nan_add] using ih

theorem foldl_add_NF (l : List (Num K)) : ∀ {a : Num K}, a.NF → (l.foldl Num.add a).NF := by
  induction l with
  | nil => intro a h; exact h
  | cons x l ih => intro a h; exact ih (Num.add_NF_left h)

theorem sum_NF {l : List (Num K)} {x : Num K} (hx : x ∈ l) (h : x.NF) : (Num.sum l).NF := by
  unfold Num.sum
  generalize (fin 0 : Num K) = a
  induction l generalizing a with
  | nil => cases hx
  | cons b l ih =>
    rcases List.mem_cons.1 hx with rfl | hx
    · exact foldl_add_NF l (Num.add_NF_right h)
    · exact ih hx _

theorem sumTo_NF {n : Nat} {f : Nat → Num K} {i : Nat} (hi : i < n) (h : (f i).NF) :
    (sumTo n f).NF :=
  sum_NF (List.mem_map.2 ⟨i, by simpa using hi, rfl⟩) h

theorem sum_nan {l : List (Num K)} (hx : Num.nan ∈ l) : Num.sum l = Num.nan := by
  unfold Num.sum
  generalize (fin 0 : Num K) = a
  induction l generalizing a with
  | nil => cases hx
  | cons b l ih =>
    rcases List.mem_cons.1 hx with rfl | hx
    · simp [Num.add_nan, foldl_add_nan]
    · exact ih hx _

theorem sumTo_nan {n : Nat} {f : Nat → Num K} {i : Nat} (hi : i < n) (h : f i = Num.nan) :
    sumTo n f = Num.nan :=
  sum_nan (List.mem_map.2 ⟨i, by simpa using hi, h⟩)

/-- A relabelling of `n` observations. -/
def Relabel (n : Nat) (σ : Nat → Nat) : Prop := (List.range n).map σ |>.Perm (List.range n)

theorem sumTo_relabel {n : Nat} {σ : Nat → Nat} (h : Relabel n σ) (f : Nat → Num K) :
    sumTo n (fun i => f (σ i)) = sumTo n f := by
  unfold sumTo Num.sum
  have : (List.range n).map (fun i => f (σ i)) = ((List.range n).map σ).map f := by simp
  rw [this]
  have : RightCommutative (Num.add : Num K → Num K → Num K) := ⟨Num.add_right_comm'⟩
  exact (h.map f).foldl_eq _

theorem sum_relabel {n : Nat} {σ : Nat → Nat} (h : Relabel n σ) (f : Nat → K) :
    ((List.range n).map fun i => f (σ i)).sum = ((List.range n).map f).sum := by
  have : (List.range n).map (fun i => f (σ i)) = ((List.range n).map σ).map f := by simp
  rw [this]
  exact (h.map f).sum_eq

theorem Relabel.lt {n : Nat} {σ : Nat → Nat} (h : Relabel n σ) {i : Nat} (hi : i < n) :
    σ i < n := by
  have : σ i ∈ (List.range n).map σ := List.mem_map.2 ⟨i, by simpa using hi, rfl⟩
  simpa using h.subset this

/-! ### deviations -/

theorem sum_eq_range (y : List K) : y.sum = ∑ i ∈ range y.length, y.getD i 0 := by
  rw [← sum_map_range]
  congr 1
  apply List.ext_getElem (by simp)
  intro i h1 h2
  simp [List.getElem?_eq_getElem h1]

theorem sum_deviation (y : List K) (h : 0 < y.length) :
    ∑ i ∈ range y.length, deviation y i = 0 := by
  have h0 : (y.length : K) ≠ 0 := Nat.cast_ne_zero.2 (by omega)
  unfold deviation
  rw [Finset.sum_sub_distrib, ← sum_eq_range, Finset.sum_const, Finset.card_range, nsmul_eq_mul]
  field_simp
  ring

theorem devSq_eq (y : List K) : devSq y = ∑ i ∈ range y.length, deviation y i ^ 2 :=
  sum_map_range _ _

theorem devFourth_eq (y : List K) : devFourth y = ∑ i ∈ range y.length, deviation y i ^ 4 :=
  sum_map_range _ _

theorem devSq_nonneg (y : List K) : 0 ≤ devSq y := by
  rw [devSq_eq]; exact Finset.sum_nonneg fun i _ => sq_nonneg _

theorem deviation_zero {y : List K} (h : devSq y = 0) {i : Nat} (hi : i < y.length) :
    deviation y i = 0 := by
  rw [devSq_eq, Finset.sum_eq_zero_iff_of_nonneg fun i _ => sq_nonneg _] at h
  exact pow_eq_zero_iff (two_ne_zero) |>.1 (h i (by simpa using hi))

theorem devFourth_zero {y : List K} (h : devSq y = 0) : devFourth y = 0 := by
  rw [devFourth_eq]
  exact Finset.sum_eq_zero fun i hi => by
    rw [deviation_zero h (by simpa using hi)]; ring

/-! ### standardised weights -/

theorem row_sum_eq (W : Mat K) (j : Nat) : (W.row j).sum = ∑ k ∈ range W.c, W.get j k :=
  sum_map_range _ _

theorem stdWeights_fin {W : Mat K} {j : Nat} (h : (W.row j).sum ≠ 0) (i : Nat) :
    stdWeights W i j = fin (W.get i j / (W.row j).sum) := by
  simp [stdWeights, Num.div, h]

theorem stdWeights_NF {W : Mat K} {j : Nat} (h : (W.row j).sum = 0) (i : Nat) :
    (stdWeights W i j).NF := by
  simp only [stdWeights, Num.div, h, if_true]
  exact Num.infSign_NF _

/-! ### values for finite weights -/

section
variable {n : Nat} {w : Nat → Nat → Num K} {v : Nat → Nat → K}

theorem wS0_fin (hw : ∀ i < n, ∀ j < n, w i j = fin (v i j)) :
    wS0 n w = fin (∑ i ∈ range n, ∑ j ∈ range n, v i j) := by
  unfold wS0
  rw [← sumTo_fin]
  exact sumTo_congr fun i hi => by
    rw [← sumTo_fin]; exact sumTo_congr fun j hj => hw i hi j hj

theorem wS1_fin (hw : ∀ i < n, ∀ j < n, w i j = fin (v i j)) :
    wS1 n w = fin (1 / 2 * ∑ i ∈ range n, ∑ j ∈ range n, (v i j + v j i) ^ 2) := by
  unfold wS1
  have : (sumTo n fun i => sumTo n fun j => sq (Num.add (w i j) (w j i))) =
      fin (∑ i ∈ range n, ∑ j ∈ range n, (v i j + v j i) ^ 2) := by
    rw [← sumTo_fin]
    exact sumTo_congr fun i hi => by
      rw [← sumTo_fin]; exact sumTo_congr fun j hj => by
        rw [hw i hi j hj, hw j hj i hi]; simp [Num.sq, Num.add, Num.mul, pow_two]
  rw [this]; rfl

theorem wS2_fin (hw : ∀ i < n, ∀ j < n, w i j = fin (v i j)) :
    wS2 n w = fin (∑ i ∈ range n, (∑ j ∈ range n, (v i j + v j i)) ^ 2) := by
  unfold wS2
  rw [← sumTo_fin]
  exact sumTo_congr fun i hi => by
    have : (sumTo n fun j => Num.add (w i j) (w j i)) = fin (∑ j ∈ range n, (v i j + v j i)) := by
      rw [← sumTo_fin]
      exact sumTo_congr fun j hj => by rw [hw i hi j hj, hw j hj i hi]; rfl
    rw [this]; simp [Num.sq, Num.mul, pow_two]

theorem quadForm_fin {z : Nat → Num K} {x : Nat → K}
    (hw : ∀ i < n, ∀ j < n, w i j = fin (v i j)) (hz : ∀ i < n, z i = fin (x i)) :
    quadForm n w z = fin (∑ i ∈ range n, (∑ j ∈ range n, v i j * x j) * x i) := by
  unfold quadForm
  rw [← sumTo_fin]
  exact sumTo_congr fun i hi => by
    have : (sumTo n fun j => Num.mul (w i j) (z j)) = fin (∑ j ∈ range n, v i j * x j) := by
      rw [← sumTo_fin]
      exact sumTo_congr fun j hj => by rw [hw i hi j hj, hz j hj]; rfl
    rw [this, hz i hi]; rfl

end

/-- `Σ_i Σ_j u_i v_ij u_j`. -/
def autoCov (y : List K) (v : Nat → Nat → K) : K :=
  ∑ i ∈ range y.length, ∑ j ∈ range y.length, deviation y i * v i j * deviation y j

theorem stI_fin {y : List K} {w : Nat → Nat → Num K} {v : Nat → Nat → K}
    (hw : ∀ i < y.length, ∀ j < y.length, w i j = fin (v i j)) :
    stI y w = Num.div (fin ((y.length : K) * autoCov y v))
      (fin ((∑ i ∈ range y.length, ∑ j ∈ range y.length, v i j) * devSq y)) := by
  unfold stI
  simp only
  rw [wS0_fin hw]
  have : (sumTo y.length fun i => Num.mul (fin (deviation y i))
      (sumTo y.length fun j => Num.mul (w i j) (fin (deviation y j)))) = fin (autoCov y v) := by
    unfold autoCov
    rw [← sumTo_fin]
    exact sumTo_congr fun i hi => by
      have : (sumTo y.length fun j => Num.mul (w i j) (fin (deviation y j))) =
          fin (∑ j ∈ range y.length, v i j * deviation y j) := by
        rw [← sumTo_fin]
        exact sumTo_congr fun j hj => by rw [hw i hi j hj]; rfl
      rw [this, Num.mul, Finset.mul_sum]
      congr 1
      exact Finset.sum_congr rfl fun j _ => by ring
  rw [this]; rfl

/-- What the theorems use of the square root. -/
structure StatEnv.Ok (env : StatEnv K) : Prop where
  nonneg : ∀ x, 0 ≤ x → 0 ≤ env.sqrt x
  zero : ∀ x, 0 ≤ x → (env.sqrt x = 0 ↔ x = 0)

theorem autoCov_zero {y : List K} (h : devSq y = 0) (v : Nat → Nat → K) : autoCov y v = 0 :=
  Finset.sum_eq_zero fun i hi => Finset.sum_eq_zero fun j _ => by
    rw [deviation_zero h (by simpa using hi)]; ring

theorem zScore_const {env : StatEnv K} (he : env.Ok) {y : List K} (h : devSq y = 0) {i : Nat}
    (hi : i < y.length) : zScore env y i = Num.nan := by
  have : env.sqrt (devSq y / (y.length : K)) = 0 := by
    rw [(he.zero _ (div_nonneg (devSq_nonneg y) (Nat.cast_nonneg _)))]; simp [h]
  simp [zScore, Num.div, this, deviation_zero h hi, infSign]

theorem std_pos {env : StatEnv K} (he : env.Ok) {y : List K} (hn : 0 < y.length)
    (h : devSq y ≠ 0) : 0 < env.sqrt (devSq y / (y.length : K)) := by
  have h0 : (0 : K) < (y.length : K) := Nat.cast_pos.2 hn
  have hp : 0 ≤ devSq y / (y.length : K) := div_nonneg (devSq_nonneg y) h0.le
  rcases (he.nonneg _ hp).lt_or_eq with h1 | h1
  · exact h1
  · exact absurd ((he.zero _ hp).1 h1.symm) (div_ne_zero h h0.ne')

theorem zScore_fin {env : StatEnv K} (he : env.Ok) {y : List K} (hn : 0 < y.length)
    (h : devSq y ≠ 0) (i : Nat) :
    zScore env y i = fin (deviation y i / env.sqrt (devSq y / (y.length : K))) := by
  simp [zScore, Num.div, (std_pos he hn h).ne']

/-- The kurtosis term of `spatiotemporal_MI` in terms of the deviations. -/
theorem kurt_eq {env : StatEnv K} (he : env.Ok) (y : List K) (hn : 0 < y.length) :
    Num.div (sumTo y.length fun i => sq (sq (zScore env y i)))
      (sq (sumTo y.length fun i => sq (zScore env y i))) =
    Num.div (fin (devFourth y)) (fin (devSq y ^ 2)) := by
  by_cases h : devSq y = 0
  · rw [sumTo_nan hn (f := fun i => sq (sq (zScore env y i)))
      (by simp [zScore_const he h hn, Num.sq, Num.mul]), Num.nan_div]
    simp [Num.div, h, devFourth_zero h, infSign]
  · have hs := std_pos he hn h
    set s := env.sqrt (devSq y / (y.length : K)) with hsd
    have h1 : (sumTo y.length fun i => sq (zScore env y i)) = fin (devSq y / s ^ 2) := by
      rw [devSq_eq, Finset.sum_div, ← sumTo_fin]
      exact sumTo_congr fun i _ => by
        rw [zScore_fin he hn h]; simp only [Num.sq, Num.mul, ← hsd]; congr 1; field_simp
    have h2 : (sumTo y.length fun i => sq (sq (zScore env y i))) = fin (devFourth y / s ^ 4) := by
      rw [devFourth_eq, Finset.sum_div, ← sumTo_fin]
      exact sumTo_congr fun i _ => by
        rw [zScore_fin he hn h]; simp only [Num.sq, Num.mul, ← hsd]; congr 1; field_simp
    rw [h1, h2]
    have h3 : devSq y / s ^ 2 * (devSq y / s ^ 2) ≠ 0 := by positivity
    have h4 : devSq y ^ 2 ≠ 0 := by positivity
    simp only [Num.sq, Num.mul, Num.div, h3, h4, if_false]
    congr 1
    field_simp

theorem infSign_pos_mul {a x : K} (h : 0 < a) : infSign (a * x) = infSign x := by
  unfold infSign
  simp [h.ne', h]

theorem div_infSign (x : K) {b : K} (hb : 0 ≤ b) : Num.div (infSign x) (fin b) = infSign x := by
  unfold infSign
  split
  · rfl
  · split <;> simp [Num.div, not_lt.2 hb]

/-- With finite weights both functions return the same `I`. -/
theorem miI_eq_stI {env : StatEnv K} (he : env.Ok) {y : List K} {w : Nat → Nat → Num K}
    {v : Nat → Nat → K} (hw : ∀ i < y.length, ∀ j < y.length, w i j = fin (v i j)) :
    (miOut env y w).I = stI y w := by
  rw [stI_fin hw]
  unfold miOut
  simp only
  rw [wS0_fin hw]
  set S := ∑ i ∈ range y.length, ∑ j ∈ range y.length, v i j with hS
  rcases Nat.eq_zero_or_pos y.length with hn | hn
  · have : (sumTo y.length fun i => sq (zScore env y i)) = fin 0 := by rw [hn]; rfl
    rw [this]
    have hq : quadForm y.length w (zScore env y) = fin 0 := by rw [hn]; rfl
    rw [hq]
    have hS0 : S = 0 := by rw [hS, hn]; simp
    simp [hS0, hn, Num.div, infSign, Num.mul]
  by_cases h : devSq y = 0
  · rw [sumTo_nan hn (f := fun i => sq (zScore env y i))
      (by simp [zScore_const he h hn, Num.sq, Num.mul]), Num.div_nan]
    simp [h, Num.div, autoCov_zero, infSign]
  have hs := std_pos he hn h
  have hq := quadForm_fin hw (fun i (_ : i < y.length) => zScore_fin he hn h i)
  set s := env.sqrt (devSq y / (y.length : K)) with hsd
  have h1 : (sumTo y.length fun i => sq (zScore env y i)) = fin (devSq y / s ^ 2) := by
    rw [devSq_eq, Finset.sum_div, ← sumTo_fin]
    exact sumTo_congr fun i _ => by
      rw [zScore_fin he hn h]; simp only [Num.sq, Num.mul, ← hsd]; congr 1; field_simp
  have hq' : quadForm y.length w (zScore env y) = fin (autoCov y v / s ^ 2) := by
    rw [hq]
    congr 1
    unfold autoCov
    rw [Finset.sum_div]
    refine Finset.sum_congr rfl fun i _ => ?_
    rw [Finset.sum_mul, Finset.sum_div]
    exact Finset.sum_congr rfl fun j _ => by field_simp
  rw [h1, hq']
  have hD : 0 < devSq y := lt_of_le_of_ne (devSq_nonneg y) (Ne.symm h)
  have hN : (0 : K) < (y.length : K) := Nat.cast_pos.2 hn
  by_cases hS0 : S = 0
  · have e1 : Num.div (fin (y.length : K)) (fin S) = pinf := by
      simp [hS0, Num.div, infSign, hN, hN.ne']
    have e2 : Num.div (fin ((y.length : K) * autoCov y v)) (fin (S * devSq y)) =
        infSign (autoCov y v) := by
      simp [hS0, Num.div, infSign_pos_mul hN]
    rw [e1, e2]
    simp only [Num.mul]
    have e : infSign (autoCov y v / s ^ 2) = infSign (autoCov y v) := by
      rw [div_eq_inv_mul, infSign_pos_mul (by positivity)]
    rw [e]
    exact div_infSign _ (by positivity)
  · have h2 : devSq y / s ^ 2 ≠ 0 := by positivity
    have h3 : S * devSq y ≠ 0 := mul_ne_zero hS0 h
    simp only [Num.div, hS0, h2, h3, if_false, Num.mul]
    congr 1
    field_simp

end Geo
