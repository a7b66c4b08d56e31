import Mathlib.GroupTheory.Perm.Basic
import Mathlib.Data.Fintype.Perm
import Mathlib.Data.Fintype.BigOperators
import Mathlib.Algebra.BigOperators.Ring.Finset
import Mathlib.Algebra.BigOperators.Fin
import Mathlib.Algebra.Order.Field.Basic
import Mathlib.Tactic.FieldSimp
import Mathlib.Tactic.Ring
import Mathlib.Tactic.Linarith
/-
Moments of a sample under all permutations of its entries.
-/
set_option linter.unusedSectionVars false
namespace Geo
variable {K : Type} [Field K] [LinearOrder K] [IsStrictOrderedRing K]
open Finset Equiv

/-- Summing over the images of all indices outside `A`. -/
theorem perm_step {n : Nat} (A : Finset (Fin n)) (g : Perm (Fin n) → K) (f : Fin n → K)
    (hg : ∀ σ τ : Perm (Fin n), (∀ a ∈ A, τ a = a) → g (σ * τ) = g σ) {l : Fin n} (hl : l ∉ A) :
    ((n : K) - (A.card : K)) * ∑ σ, g σ * f (σ l) =
      ∑ σ, g σ * (∑ m, f m - ∑ m ∈ A, f (σ m)) := by
  have hsw : ∀ m ∉ A, ∑ σ, g σ * f (σ m) = ∑ σ, g σ * f (σ l) := by
    intro m hm
    rw [← Equiv.sum_comp (Equiv.mulRight (swap l m))]
    refine Finset.sum_congr rfl fun σ _ => ?_
    simp only [Equiv.coe_mulRight, Perm.mul_apply, swap_apply_right]
    rw [hg σ _ fun a ha => swap_apply_of_ne_of_ne (ne_of_mem_of_not_mem ha hl) (ne_of_mem_of_not_mem ha hm)]
  have hsum : ∀ σ : Perm (Fin n), ∑ m, f m - ∑ m ∈ A, f (σ m) = ∑ m ∈ Aᶜ, f (σ m) := by
    intro σ
    rw [← Equiv.sum_comp σ f, ← Finset.sum_add_sum_compl A fun m => f (σ m)]
    ring
  simp only [hsum, Finset.mul_sum]
  rw [Finset.sum_comm, Finset.sum_congr rfl fun m hm => hsw m (Finset.mem_compl.1 hm),
    Finset.sum_const, Finset.card_compl, Fintype.card_fin, nsmul_eq_mul,
    Nat.cast_sub (by simpa using Finset.card_le_univ A)]
  simp only [Finset.mul_sum]

section moments
variable {n : Nat} (u : Fin n → K) (hu : ∑ m, u m = 0)

theorem moment1 (f : Fin n → K) (i : Fin n) :
    (n : K) * ∑ σ : Perm (Fin n), f (σ i) = (n.factorial : K) * ∑ m, f m := by
  have h := perm_step (∅ : Finset (Fin n)) (fun _ => (1 : K)) f (fun _ _ _ => rfl)
    (l := i) (by simp)
  simp only [Finset.card_empty, Nat.cast_zero, sub_zero, one_mul, Finset.sum_empty] at h
  rw [h, Finset.sum_const, Finset.card_univ, Fintype.card_perm, Fintype.card_fin, nsmul_eq_mul]

theorem inv2 {i : Fin n} (f : Fin n → K) (σ τ : Perm (Fin n)) (h : τ i = i) :
    f ((σ * τ) i) = f (σ i) := by rw [Perm.mul_apply, h]

theorem moment_pair (f g : Fin n → K) {i j : Fin n} (hij : i ≠ j) :
    ((n : K) - 1) * ∑ σ : Perm (Fin n), g (σ i) * f (σ j) =
      ∑ σ : Perm (Fin n), g (σ i) * (∑ m, f m - f (σ i)) := by
  have h := perm_step ({i} : Finset (Fin n)) (fun σ => g (σ i)) f
    (fun σ τ h => inv2 g σ τ (h i (by simp))) (l := j) (by simp [hij.symm])
  simpa using h

theorem moment_triple (f g h : Fin n → K) {i j k : Fin n} (hij : i ≠ j) (hik : i ≠ k)
    (hjk : j ≠ k) :
    ((n : K) - 2) * ∑ σ : Perm (Fin n), g (σ i) * h (σ j) * f (σ k) =
      ∑ σ : Perm (Fin n), g (σ i) * h (σ j) * (∑ m, f m - (f (σ i) + f (σ j))) := by
  have h := perm_step ({i, j} : Finset (Fin n)) (fun σ => g (σ i) * h (σ j)) f
    (fun σ τ hτ => by
      rw [inv2 g σ τ (hτ i (by simp)), inv2 h σ τ (hτ j (by simp))]) (l := k)
    (by simp [hik.symm, hjk.symm])
  rw [Finset.card_pair hij] at h
  simpa [Finset.sum_pair hij] using h

theorem moment_quad (f g h e : Fin n → K) {i j k l : Fin n} (hij : i ≠ j) (hik : i ≠ k)
    (hjk : j ≠ k) (hil : i ≠ l) (hjl : j ≠ l) (hkl : k ≠ l) :
    ((n : K) - 3) * ∑ σ : Perm (Fin n), g (σ i) * h (σ j) * e (σ k) * f (σ l) =
      ∑ σ : Perm (Fin n), g (σ i) * h (σ j) * e (σ k) *
        (∑ m, f m - (f (σ i) + (f (σ j) + f (σ k)))) := by
  have h := perm_step ({i, j, k} : Finset (Fin n)) (fun σ => g (σ i) * h (σ j) * e (σ k)) f
    (fun σ τ hτ => by
      rw [inv2 g σ τ (hτ i (by simp)), inv2 h σ τ (hτ j (by simp)), inv2 e σ τ (hτ k (by simp))])
    (l := l) (by simp [hil.symm, hjl.symm, hkl.symm])
  rw [Finset.card_insert_of_notMem (by simp [hij, hik]), Finset.card_pair hjk] at h
  rw [show ((2 + 1 : ℕ) : K) = 3 by norm_num] at h
  simpa [Finset.sum_insert, hij, hik, hjk, Finset.sum_pair hjk] using h

include hu

/-- `E[u_i u_j]` for different positions. -/
theorem moment11 (hn : 2 ≤ n) {i j : Fin n} (hij : i ≠ j) :
    ∑ σ : Perm (Fin n), u (σ i) * u (σ j) =
      (n.factorial : K) * (-(∑ m, u m ^ 2) / ((n : K) * ((n : K) - 1))) := by
  have hN : (2 : K) ≤ (n : K) := by exact_mod_cast hn
  have h0 : (n : K) ≠ 0 := by intro h; linarith
  have h1 : (n : K) - 1 ≠ 0 := by intro h; linarith
  have a := moment_pair u u hij
  have b := moment1 (fun m => u m ^ 2) i
  have e : ∀ σ : Perm (Fin n), u (σ i) * (0 - u (σ i)) = -(u (σ i) ^ 2) := fun σ => by ring
  simp only [hu, e, Finset.sum_neg_distrib] at a
  have b' : ∑ σ : Perm (Fin n), u (σ i) ^ 2 = (n.factorial : K) * (∑ m, u m ^ 2) / (n : K) := by
    rw [← b]; field_simp
  rw [b'] at a
  field_simp
  field_simp at a
  linarith

theorem moment22 (hn : 2 ≤ n) {i j : Fin n} (hij : i ≠ j) :
    ∑ σ : Perm (Fin n), u (σ i) ^ 2 * u (σ j) ^ 2 =
      (n.factorial : K) * (((∑ m, u m ^ 2) ^ 2 - ∑ m, u m ^ 4) / ((n : K) * ((n : K) - 1))) := by
  have hN : (2 : K) ≤ (n : K) := by exact_mod_cast hn
  have h0 : (n : K) ≠ 0 := by intro h; linarith
  have h1 : (n : K) - 1 ≠ 0 := by intro h; linarith
  have a := moment_pair (fun m => u m ^ 2) (fun m => u m ^ 2) hij
  set q := ∑ m, u m ^ 2 with hq
  have e : ∀ σ : Perm (Fin n), u (σ i) ^ 2 * (q - u (σ i) ^ 2) = q * u (σ i) ^ 2 - u (σ i) ^ 4 :=
    fun σ => by ring
  simp only [e, Finset.sum_sub_distrib, ← Finset.mul_sum] at a
  have b := moment1 (fun m => u m ^ 2) i
  have c := moment1 (fun m => u m ^ 4) i
  have b' : ∑ σ : Perm (Fin n), u (σ i) ^ 2 = (n.factorial : K) * q / (n : K) := by
    rw [hq, ← b]; field_simp
  have c' : ∑ σ : Perm (Fin n), u (σ i) ^ 4 = (n.factorial : K) * (∑ m, u m ^ 4) / (n : K) := by
    rw [← c]; field_simp
  rw [b', c'] at a
  rw [eq_comm, ← mul_right_inj' h1, a]
  field_simp

theorem moment31 (hn : 2 ≤ n) {i j : Fin n} (hij : i ≠ j) :
    ∑ σ : Perm (Fin n), u (σ i) ^ 3 * u (σ j) =
      (n.factorial : K) * (-(∑ m, u m ^ 4) / ((n : K) * ((n : K) - 1))) := by
  have hN : (2 : K) ≤ (n : K) := by exact_mod_cast hn
  have h0 : (n : K) ≠ 0 := by intro h; linarith
  have h1 : (n : K) - 1 ≠ 0 := by intro h; linarith
  have a := moment_pair u (fun m => u m ^ 3) hij
  have e : ∀ σ : Perm (Fin n), u (σ i) ^ 3 * (0 - u (σ i)) = -(u (σ i) ^ 4) := fun σ => by ring
  simp only [hu, e, Finset.sum_neg_distrib] at a
  have c := moment1 (fun m => u m ^ 4) i
  have c' : ∑ σ : Perm (Fin n), u (σ i) ^ 4 = (n.factorial : K) * (∑ m, u m ^ 4) / (n : K) := by
    rw [← c]; field_simp
  rw [c'] at a
  rw [eq_comm, ← mul_right_inj' h1, a]
  field_simp

theorem moment211 (hn : 3 ≤ n) {i j k : Fin n} (hij : i ≠ j) (hik : i ≠ k) (hjk : j ≠ k) :
    ∑ σ : Perm (Fin n), u (σ i) ^ 2 * u (σ j) * u (σ k) =
      (n.factorial : K) * ((2 * (∑ m, u m ^ 4) - (∑ m, u m ^ 2) ^ 2) /
        ((n : K) * ((n : K) - 1) * ((n : K) - 2))) := by
  have hN : (3 : K) ≤ (n : K) := by exact_mod_cast hn
  have h0 : (n : K) ≠ 0 := by intro h; linarith
  have h1 : (n : K) - 1 ≠ 0 := by intro h; linarith
  have h2 : (n : K) - 2 ≠ 0 := by intro h; linarith
  have a := moment_triple u (fun m => u m ^ 2) u hij hik hjk
  have e : ∀ σ : Perm (Fin n), u (σ i) ^ 2 * u (σ j) * (0 - (u (σ i) + u (σ j))) =
      -(u (σ i) ^ 3 * u (σ j)) - u (σ i) ^ 2 * u (σ j) ^ 2 := fun σ => by ring
  simp only [hu, e, Finset.sum_sub_distrib, Finset.sum_neg_distrib] at a
  rw [moment31 u hu (by omega) hij, moment22 u hu (by omega) hij] at a
  rw [eq_comm, ← mul_right_inj' h2, a]
  field_simp
  ring

theorem moment1111 (hn : 4 ≤ n) {i j k l : Fin n} (hij : i ≠ j) (hik : i ≠ k)
    (hjk : j ≠ k) (hil : i ≠ l) (hjl : j ≠ l) (hkl : k ≠ l) :
    ∑ σ : Perm (Fin n), u (σ i) * u (σ j) * u (σ k) * u (σ l) =
      (n.factorial : K) * (-3 * (2 * (∑ m, u m ^ 4) - (∑ m, u m ^ 2) ^ 2) /
        ((n : K) * ((n : K) - 1) * ((n : K) - 2) * ((n : K) - 3))) := by
  have hN : (4 : K) ≤ (n : K) := by exact_mod_cast hn
  have h0 : (n : K) ≠ 0 := by intro h; linarith
  have h1 : (n : K) - 1 ≠ 0 := by intro h; linarith
  have h2 : (n : K) - 2 ≠ 0 := by intro h; linarith
  have h3 : (n : K) - 3 ≠ 0 := by intro h; linarith
  have a := moment_quad u u u u hij hik hjk hil hjl hkl
  have e : ∀ σ : Perm (Fin n), u (σ i) * u (σ j) * u (σ k) *
      (0 - (u (σ i) + (u (σ j) + u (σ k)))) =
      -(u (σ i) ^ 2 * u (σ j) * u (σ k)) - u (σ j) ^ 2 * u (σ i) * u (σ k) -
        u (σ k) ^ 2 * u (σ i) * u (σ j) := fun σ => by ring
  simp only [hu, e, Finset.sum_sub_distrib, Finset.sum_neg_distrib] at a
  rw [moment211 u hu (by omega) hij hik hjk,
    moment211 u hu (by omega) hij.symm hjk hik,
    moment211 u hu (by omega) hik.symm hjk.symm hij] at a
  rw [eq_comm, ← mul_right_inj' h3, a]
  field_simp
  ring

end moments

section quad
variable {n : Nat} (u : Fin n → K) (hu : ∑ m, u m = 0) (v : Fin n → Fin n → K)
  (hv : ∀ i, v i i = 0)
include hu hv

/-- The first moment of the quadratic form. -/
theorem quad_first (hn : 2 ≤ n) :
    ∑ σ : Perm (Fin n), ∑ i, ∑ j, u (σ i) * v i j * u (σ j) =
      (n.factorial : K) * (-(∑ m, u m ^ 2) / ((n : K) * ((n : K) - 1)) * ∑ i, ∑ j, v i j) := by
  rw [Finset.sum_comm, Finset.mul_sum, Finset.mul_sum]
  refine Finset.sum_congr rfl fun i _ => ?_
  rw [Finset.sum_comm, Finset.mul_sum, Finset.mul_sum]
  refine Finset.sum_congr rfl fun j _ => ?_
  by_cases hij : i = j
  · subst hij; simp [hv]
  · rw [Finset.sum_congr rfl fun σ _ =>
      show u (σ i) * v i j * u (σ j) = v i j * (u (σ i) * u (σ j)) by ring, ← Finset.mul_sum,
      moment11 u hu hn hij]
    ring

/-- The fourth moments of four positions with `i ≠ j` and `k ≠ l`. -/
theorem moment_four (hn : 4 ≤ n) {i j k l : Fin n} (hij : i ≠ j) (hkl : k ≠ l)
    (E2 E3 E4 : K)
    (h2 : E2 = ((∑ m, u m ^ 2) ^ 2 - ∑ m, u m ^ 4) / ((n : K) * ((n : K) - 1)))
    (h3 : E3 = (2 * (∑ m, u m ^ 4) - (∑ m, u m ^ 2) ^ 2) /
        ((n : K) * ((n : K) - 1) * ((n : K) - 2)))
    (h4 : E4 = -3 * (2 * (∑ m, u m ^ 4) - (∑ m, u m ^ 2) ^ 2) /
        ((n : K) * ((n : K) - 1) * ((n : K) - 2) * ((n : K) - 3))) :
    ∑ σ : Perm (Fin n), u (σ i) * u (σ j) * (u (σ k) * u (σ l)) =
      (n.factorial : K) * (E4 + (E3 - E4) * ((if i = k then 1 else 0) + (if i = l then 1 else 0) +
          (if j = k then 1 else 0) + (if j = l then 1 else 0)) +
        (E2 - 2 * E3 + E4) * ((if i = k then 1 else 0) * (if j = l then 1 else 0) +
          (if i = l then 1 else 0) * (if j = k then 1 else 0))) := by
  by_cases hik : i = k
  · subst hik
    by_cases hjl : j = l
    · subst hjl
      simp only [if_true, if_neg hij, if_neg hij.symm]
      rw [Finset.sum_congr rfl fun σ _ =>
        show u (σ i) * u (σ j) * (u (σ i) * u (σ j)) = u (σ i) ^ 2 * u (σ j) ^ 2 by ring,
        moment22 u hu (by omega) hij, ← h2]
      ring
    · simp only [if_true, if_neg hjl, if_neg hij.symm, if_neg hkl]
      rw [Finset.sum_congr rfl fun σ _ =>
        show u (σ i) * u (σ j) * (u (σ i) * u (σ l)) = u (σ i) ^ 2 * u (σ j) * u (σ l) by ring,
        moment211 u hu (by omega) hij hkl hjl, ← h3]
      ring
  · by_cases hil : i = l
    · subst hil
      by_cases hjk : j = k
      · subst hjk
        simp only [if_true, if_neg hij, if_neg hij.symm]
        rw [Finset.sum_congr rfl fun σ _ =>
          show u (σ i) * u (σ j) * (u (σ j) * u (σ i)) = u (σ i) ^ 2 * u (σ j) ^ 2 by ring,
          moment22 u hu (by omega) hij, ← h2]
        ring
      · simp only [if_true, if_neg hjk, if_neg hij.symm, if_neg hik]
        rw [Finset.sum_congr rfl fun σ _ =>
          show u (σ i) * u (σ j) * (u (σ k) * u (σ i)) = u (σ i) ^ 2 * u (σ j) * u (σ k) by ring,
          moment211 u hu (by omega) hij hik hjk, ← h3]
        ring
    · by_cases hjk : j = k
      · subst hjk
        simp only [if_true, if_neg hij, if_neg hil, if_neg hkl]
        rw [Finset.sum_congr rfl fun σ _ =>
          show u (σ i) * u (σ j) * (u (σ j) * u (σ l)) = u (σ j) ^ 2 * u (σ i) * u (σ l) by ring,
          moment211 u hu (by omega) hij.symm hkl hil, ← h3]
        ring
      · by_cases hjl : j = l
        · subst hjl
          simp only [if_true, if_neg hik, if_neg hij, if_neg hjk]
          rw [Finset.sum_congr rfl fun σ _ =>
            show u (σ i) * u (σ j) * (u (σ k) * u (σ j)) = u (σ j) ^ 2 * u (σ i) * u (σ k) by ring,
            moment211 u hu (by omega) hij.symm hjk hik, ← h3]
          ring
        · simp only [if_neg hik, if_neg hil, if_neg hjk, if_neg hjl]
          rw [Finset.sum_congr rfl fun σ _ =>
            show u (σ i) * u (σ j) * (u (σ k) * u (σ l)) =
              u (σ i) * u (σ j) * u (σ k) * u (σ l) by ring,
            moment1111 u hu hn hij hik hjk hil hjl hkl, ← h4]
          ring

/-- The second moment of the quadratic form. -/
theorem quad_second (hn : 4 ≤ n) (E2 E3 E4 : K)
    (h2 : E2 = ((∑ m, u m ^ 2) ^ 2 - ∑ m, u m ^ 4) / ((n : K) * ((n : K) - 1)))
    (h3 : E3 = (2 * (∑ m, u m ^ 4) - (∑ m, u m ^ 2) ^ 2) /
        ((n : K) * ((n : K) - 1) * ((n : K) - 2)))
    (h4 : E4 = -3 * (2 * (∑ m, u m ^ 4) - (∑ m, u m ^ 2) ^ 2) /
        ((n : K) * ((n : K) - 1) * ((n : K) - 2) * ((n : K) - 3))) :
    ∑ σ : Perm (Fin n), (∑ i, ∑ j, u (σ i) * v i j * u (σ j)) ^ 2 =
      (n.factorial : K) * (E4 * (∑ i, ∑ j, v i j) ^ 2 +
        (E3 - E4) * (∑ i, (∑ j, (v i j + v j i)) ^ 2) +
        (E2 - 2 * E3 + E4) * (1 / 2 * ∑ i, ∑ j, (v i j + v j i) ^ 2)) := by
  have hexp : ∀ σ : Perm (Fin n), (∑ i, ∑ j, u (σ i) * v i j * u (σ j)) ^ 2 =
      ∑ i, ∑ j, ∑ k, ∑ l, v i j * v k l * (u (σ i) * u (σ j) * (u (σ k) * u (σ l))) := by
    intro σ
    rw [pow_two, Finset.sum_mul]
    refine Finset.sum_congr rfl fun i _ => ?_
    rw [Finset.sum_mul]
    refine Finset.sum_congr rfl fun j _ => ?_
    rw [Finset.mul_sum]
    refine Finset.sum_congr rfl fun k _ => ?_
    rw [Finset.mul_sum]
    exact Finset.sum_congr rfl fun l _ => by ring
  have hcomm : ∑ σ : Perm (Fin n), (∑ i, ∑ j, u (σ i) * v i j * u (σ j)) ^ 2 =
      ∑ i, ∑ j, ∑ k, ∑ l, v i j * v k l *
        ((n.factorial : K) * (E4 + (E3 - E4) * ((if i = k then 1 else 0) +
          (if i = l then 1 else 0) + (if j = k then 1 else 0) + (if j = l then 1 else 0)) +
        (E2 - 2 * E3 + E4) * ((if i = k then 1 else 0) * (if j = l then 1 else 0) +
          (if i = l then 1 else 0) * (if j = k then 1 else 0)))) := by
    simp only [hexp]
    rw [Finset.sum_comm]
    refine Finset.sum_congr rfl fun i _ => ?_
    rw [Finset.sum_comm]
    refine Finset.sum_congr rfl fun j _ => ?_
    rw [Finset.sum_comm]
    refine Finset.sum_congr rfl fun k _ => ?_
    rw [Finset.sum_comm]
    refine Finset.sum_congr rfl fun l _ => ?_
    rw [← Finset.mul_sum]
    by_cases hij : i = j
    · subst hij; simp [hv]
    by_cases hkl : k = l
    · subst hkl; simp [hv]
    rw [moment_four u hu v hv hn hij hkl E2 E3 E4 h2 h3 h4]
  rw [hcomm]
  clear hcomm hexp h2 h3 h4
  have e4 : ∑ i, ∑ j, ∑ k, ∑ l, v i j * v k l = (∑ i, ∑ j, v i j) ^ 2 := by
    rw [pow_two, Finset.sum_mul]
    refine Finset.sum_congr rfl fun i _ => ?_
    rw [Finset.sum_mul]
    refine Finset.sum_congr rfl fun j _ => ?_
    rw [Finset.mul_sum]
    refine Finset.sum_congr rfl fun k _ => ?_
    rw [Finset.mul_sum]
  have hR : ∀ i, ∑ j, (v i j + v j i) = ∑ j, v i j + ∑ j, v j i := fun i =>
    Finset.sum_add_distrib
  have e3 : ∑ i, ∑ j, ∑ k, ∑ l, v i j * v k l * ((if i = k then 1 else 0) +
      (if i = l then 1 else 0) + (if j = k then 1 else 0) + (if j = l then 1 else 0)) =
      ∑ i, (∑ j, (v i j + v j i)) ^ 2 := by
    have a1 : ∑ i, ∑ j, ∑ k, ∑ l, v i j * v k l * (if i = k then 1 else 0) =
        ∑ i, (∑ j, v i j) * ∑ j, v i j := by
      refine Finset.sum_congr rfl fun i _ => ?_
      rw [Finset.sum_mul]
      refine Finset.sum_congr rfl fun j _ => ?_
      rw [Finset.sum_eq_single i (fun k _ hk => by simp [Ne.symm hk]) (by simp), Finset.mul_sum]
      simp
    have a2 : ∑ i, ∑ j, ∑ k, ∑ l, v i j * v k l * (if i = l then 1 else 0) =
        ∑ i, (∑ j, v i j) * ∑ j, v j i := by
      refine Finset.sum_congr rfl fun i _ => ?_
      rw [Finset.sum_mul]
      refine Finset.sum_congr rfl fun j _ => ?_
      rw [Finset.mul_sum]
      refine Finset.sum_congr rfl fun k _ => ?_
      rw [Finset.sum_eq_single i (fun l _ hl => by simp [Ne.symm hl]) (by simp)]
      simp
    have a3 : ∑ i, ∑ j, ∑ k, ∑ l, v i j * v k l * (if j = k then 1 else 0) =
        ∑ i, (∑ j, v j i) * ∑ j, v i j := by
      rw [Finset.sum_comm]
      refine Finset.sum_congr rfl fun i _ => ?_
      rw [Finset.sum_mul]
      refine Finset.sum_congr rfl fun j _ => ?_
      rw [Finset.sum_eq_single i (fun k _ hk => by simp [Ne.symm hk]) (by simp), Finset.mul_sum]
      simp
    have a4 : ∑ i, ∑ j, ∑ k, ∑ l, v i j * v k l * (if j = l then 1 else 0) =
        ∑ i, (∑ j, v j i) * ∑ j, v j i := by
      rw [Finset.sum_comm]
      refine Finset.sum_congr rfl fun i _ => ?_
      rw [Finset.sum_mul]
      refine Finset.sum_congr rfl fun j _ => ?_
      rw [Finset.mul_sum]
      refine Finset.sum_congr rfl fun k _ => ?_
      rw [Finset.sum_eq_single i (fun l _ hl => by simp [Ne.symm hl]) (by simp)]
      simp
    simp only [mul_add, Finset.sum_add_distrib]
    rw [a1, a2, a3, a4, ← Finset.sum_add_distrib, ← Finset.sum_add_distrib,
      ← Finset.sum_add_distrib]
    exact Finset.sum_congr rfl fun i _ => by ring
  have e2 : ∑ i, ∑ j, ∑ k, ∑ l, v i j * v k l * ((if i = k then 1 else 0) *
      (if j = l then 1 else 0) + (if i = l then 1 else 0) * (if j = k then 1 else 0)) =
      1 / 2 * ∑ i, ∑ j, (v i j + v j i) ^ 2 := by
    have b1 : ∑ i, ∑ j, ∑ k, ∑ l, v i j * v k l * ((if i = k then 1 else 0) *
        (if j = l then 1 else 0)) = ∑ i, ∑ j, v i j ^ 2 := by
      refine Finset.sum_congr rfl fun i _ => Finset.sum_congr rfl fun j _ => ?_
      rw [Finset.sum_eq_single i (fun k _ hk => by simp [Ne.symm hk]) (by simp),
        Finset.sum_eq_single j (fun k _ hk => by simp [Ne.symm hk]) (by simp)]
      simp [pow_two]
    have b2 : ∑ i, ∑ j, ∑ k, ∑ l, v i j * v k l * ((if i = l then 1 else 0) *
        (if j = k then 1 else 0)) = ∑ i, ∑ j, v i j * v j i := by
      refine Finset.sum_congr rfl fun i _ => Finset.sum_congr rfl fun j _ => ?_
      rw [Finset.sum_eq_single j (fun k _ hk => by simp [Ne.symm hk]) (by simp),
        Finset.sum_eq_single i (fun k _ hk => by simp [Ne.symm hk]) (by simp)]
      simp
    have b3 : ∑ i, ∑ j, v j i ^ 2 = ∑ i, ∑ j, v i j ^ 2 := Finset.sum_comm
    have b4 : ∑ i, ∑ j, (v i j + v j i) ^ 2 =
        ∑ i, ∑ j, v i j ^ 2 + 2 * ∑ i, ∑ j, v i j * v j i + ∑ i, ∑ j, v j i ^ 2 := by
      simp only [Finset.mul_sum, ← Finset.sum_add_distrib]
      exact Finset.sum_congr rfl fun i _ => Finset.sum_congr rfl fun j _ => by ring
    simp only [mul_add, Finset.sum_add_distrib]
    simp only [← mul_add, ← Finset.sum_add_distrib] at b4 ⊢
    simp only [mul_add, Finset.sum_add_distrib] at b4 ⊢
    rw [b1, b2]
    have b4' : ∑ i, ∑ j, (v i j + v j i) ^ 2 =
        2 * ∑ i, ∑ j, v i j ^ 2 + 2 * ∑ i, ∑ j, v i j * v j i := by
      rw [b4, b3]; ring
    rw [b4']; ring
  rw [← e4, ← e3, ← e2]
  simp only [Finset.mul_sum]
  rw [← Finset.sum_add_distrib, ← Finset.sum_add_distrib, Finset.mul_sum]
  refine Finset.sum_congr rfl fun i _ => ?_
  rw [← Finset.sum_add_distrib, ← Finset.sum_add_distrib, Finset.mul_sum]
  refine Finset.sum_congr rfl fun j _ => ?_
  rw [← Finset.sum_add_distrib, ← Finset.sum_add_distrib, Finset.mul_sum]
  refine Finset.sum_congr rfl fun k _ => ?_
  rw [← Finset.sum_add_distrib, ← Finset.sum_add_distrib, Finset.mul_sum]
  exact Finset.sum_congr rfl fun l _ => by ring

end quad

end Geo
