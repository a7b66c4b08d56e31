import Mathlib.Algebra.Order.Field.Basic
import Mathlib.Algebra.Order.Floor.Ring
import Mathlib.Algebra.Order.Floor.Semiring
import Mathlib.Data.List.GetD
import Mathlib.Data.Rat.Floor
import Mathlib.Data.List.Sort
import Mathlib.Tactic.Linarith
import Mathlib.Tactic.Ring
import Verif.Basic.Err
/-
Order statistics and quantiles of lists, as numpy computes them.
-/
set_option linter.unusedSectionVars false
namespace Geo

section SortSec
variable {K : Type} [LinearOrder K]

/-- `np.sort` of a one-dimensional array. -/
def sortL (l : List K) : List K := l.insertionSort (· ≤ ·)

@[simp] theorem sortL_length (l : List K) : (sortL l).length = l.length := by simp [sortL]

theorem sortL_perm (l : List K) : (sortL l).Perm l := List.perm_insertionSort _ l

@[simp] theorem mem_sortL {l : List K} {x : K} : x ∈ sortL l ↔ x ∈ l := (sortL_perm l).mem_iff

theorem sortL_pairwise (l : List K) : (sortL l).Pairwise (· ≤ ·) :=
  List.pairwise_insertionSort (r := (· ≤ ·)) l

theorem sortL_eq_of_perm {l l' : List K} (h : l.Perm l') : sortL l = sortL l' :=
  List.Perm.eq_of_pairwise (le := (· ≤ ·)) (fun _ _ _ _ h1 h2 => le_antisymm h1 h2)
    (sortL_pairwise l) (sortL_pairwise l')
    ((sortL_perm l).trans (h.trans (sortL_perm l').symm))

theorem sorted_getElem_le {s : List K} (hs : s.Pairwise (· ≤ ·)) {i j : Nat} (hij : i ≤ j)
    (hj : j < s.length) : s[i]'(lt_of_le_of_lt hij hj) ≤ s[j] := by
  rcases Nat.eq_or_lt_of_le hij with rfl | h
  · exact le_rfl
  · exact List.pairwise_iff_getElem.1 hs i j _ _ h

/-- In a sorted list at most `k` entries are below the entry at index `k`. -/
theorem countP_lt_sorted {s : List K} (hs : s.Pairwise (· ≤ ·)) {k : Nat} (hk : k < s.length) :
    s.countP (fun x => decide (x < s[k])) ≤ k := by
  generalize hx : s[k] = x
  rw [← List.take_append_drop k s, List.countP_append]
  subst hx
  have h1 : (s.take k).countP (fun x => decide (x < s[k])) ≤ k :=
    (List.countP_le_length).trans (by simp)
  have h2 : (s.drop k).countP (fun x => decide (x < s[k])) = 0 := by
    rw [List.countP_eq_zero]
    intro x hx
    obtain ⟨i, hi, rfl⟩ := List.getElem_of_mem hx
    simp only [List.length_drop] at hi
    simpa using sorted_getElem_le hs (Nat.le_add_right k i) (by omega)
  omega

/-- In a sorted list at least `k + 1` entries are at most the entry at index `k`. -/
theorem countP_le_sorted {s : List K} (hs : s.Pairwise (· ≤ ·)) {k : Nat} (hk : k < s.length) :
    k + 1 ≤ s.countP (fun x => decide (x ≤ s[k])) := by
  generalize hx : s[k] = x
  rw [← List.take_append_drop (k+1) s, List.countP_append]
  subst hx
  have h1 : (s.take (k+1)).countP (fun x => decide (x ≤ s[k])) = k + 1 := by
    have : (s.take (k+1)).length = k + 1 := by simp; omega
    conv_rhs => rw [← this]
    rw [List.countP_eq_length]
    intro x hx
    obtain ⟨i, hi, rfl⟩ := List.getElem_of_mem hx
    simp only [List.length_take] at hi
    simpa using sorted_getElem_le hs (show i ≤ k by omega) hk
  omega

end SortSec

section Quantile
variable {K : Type} [Field K] [LinearOrder K] [IsStrictOrderedRing K] [FloorRing K]

/-- Linear interpolation at the virtual index `v` of the sorted values `f 0, .., f (n-1)`
(numpy's `_get_indexes`/`_lerp`): the last value when `v ≥ n-1`, the first when `v < 0`. -/
def lerp (f : Nat → K) (n : Nat) (v : K) : K :=
  if (n : K) - 1 ≤ v then f (n - 1)
  else if v < 0 then f 0
  else f ⌊v⌋₊ + (f (⌊v⌋₊ + 1) - f ⌊v⌋₊) * (v - ⌊v⌋₊)

/-- Virtual index of numpy's default method `linear`: `(n - 1) * q`. -/
def virtLinear (n : Nat) (q : K) : K := ((n : K) - 1) * q

/-- Virtual index of the method `median_unbiased` (alpha = beta = 1/3):
`n * q + (1/3 + q * (1 - 1/3 - 1/3)) - 1`. -/
def virtMedian (n : Nat) (q : K) : K := n * q + (1 / 3 + q * (1 - 1 / 3 - 1 / 3)) - 1

/-- The `q`-quantile of a non-empty list, for a rule `virt` giving the virtual index. -/
def quantileVal (virt : Nat → K → K) (l : List K) (q : K) : K :=
  lerp (fun i => (sortL l).getD i 0) l.length (virt l.length q)

/-- `np.quantile(l, q, method)` for a one-dimensional array: `ValueError` when `q` is
outside `[0,1]`, `IndexError` when `l` is empty. -/
def npQuantile (virt : Nat → K → K) (l : List K) (q : K) : Except Err K :=
  if q < 0 ∨ 1 < q then .error .valueError
  else if l = [] then .error .indexError
  else .ok (quantileVal virt l q)

variable {f : Nat → K} {n : Nat}

/-- `f` is non-decreasing on the indices `0 .. n-1`. -/
def MonoTo (f : Nat → K) (n : Nat) : Prop := ∀ i j, i ≤ j → j < n → f i ≤ f j

theorem floor_lt_of_lt_pred {v : K} (h0 : 0 ≤ v) (h : v < (n : K) - 1) : ⌊v⌋₊ + 1 < n := by
  have h1 := Nat.floor_le h0
  have : ((⌊v⌋₊ : K)) + 1 < n := by linarith
  exact_mod_cast this

omit [IsStrictOrderedRing K] in
theorem sortL_monoTo (l : List K) : MonoTo (fun i => (sortL l).getD i 0) l.length := by
  intro i j hij hj
  have hj' : j < (sortL l).length := by simpa using hj
  have hi' : i < (sortL l).length := lt_of_le_of_lt hij hj'
  simp only [List.getD_eq_getElem _ _ hj', List.getD_eq_getElem _ _ hi']
  exact sorted_getElem_le (sortL_pairwise l) hij hj'

/-- Between consecutive grid points `i` and `i+1` containing `v`, the interpolation lies
between the two values. -/
theorem lerp_bracket (hf : MonoTo f n) {v : K} (h0 : 0 ≤ v) (h : v < (n : K) - 1) :
    f ⌊v⌋₊ ≤ lerp f n v ∧ lerp f n v ≤ f (⌊v⌋₊ + 1) := by
  have hlt := floor_lt_of_lt_pred h0 h
  have h1 := Nat.floor_le h0
  have h2 := Nat.lt_floor_add_one v
  have hm := hf ⌊v⌋₊ (⌊v⌋₊ + 1) (by omega) hlt
  simp only [lerp, not_le.2 h, not_lt.2 h0, if_false]
  constructor
  · have := mul_nonneg (sub_nonneg.2 hm) (sub_nonneg.2 h1)
    linarith
  · have := mul_nonneg (sub_nonneg.2 hm) (show 0 ≤ 1 - (v - ⌊v⌋₊) by linarith)
    linarith [this, mul_one_sub (f (⌊v⌋₊ + 1) - f ⌊v⌋₊) (v - (⌊v⌋₊ : K))]

theorem lerp_bounds (hf : MonoTo f n) (hn : 0 < n) (v : K) :
    f 0 ≤ lerp f n v ∧ lerp f n v ≤ f (n - 1) := by
  by_cases h : (n : K) - 1 ≤ v
  · simp only [lerp, h, if_true]
    exact ⟨hf 0 (n-1) (by omega) (by omega), le_rfl⟩
  · by_cases h0 : v < 0
    · simp only [lerp, h, h0, if_false, if_true]
      exact ⟨le_rfl, hf 0 (n-1) (by omega) (by omega)⟩
    · have hlt := floor_lt_of_lt_pred (not_lt.1 h0) (not_le.1 h)
      have := lerp_bracket hf (not_lt.1 h0) (not_le.1 h)
      exact ⟨(hf 0 _ (by omega) (by omega)).trans this.1,
        this.2.trans (hf _ (n-1) (by omega) (by omega))⟩

theorem lerp_mono (hf : MonoTo f n) (hn : 0 < n) {v w : K} (hvw : v ≤ w) :
    lerp f n v ≤ lerp f n w := by
  by_cases hw : (n : K) - 1 ≤ w
  · have : lerp f n w = f (n-1) := by simp [lerp, hw]
    rw [this]; exact (lerp_bounds hf hn v).2
  · by_cases hv0 : v < 0
    · have hv : ¬ (n : K) - 1 ≤ v := fun h => hw (h.trans hvw)
      have : lerp f n v = f 0 := by simp [lerp, hv, hv0]
      rw [this]; exact (lerp_bounds hf hn w).1
    · rw [not_le] at hw; rw [not_lt] at hv0
      have hw0 := hv0.trans hvw
      have hv := hvw.trans_lt hw
      have hfl : ⌊v⌋₊ ≤ ⌊w⌋₊ := Nat.floor_le_floor hvw
      rcases Nat.eq_or_lt_of_le hfl with he | hl
      · have hlt := floor_lt_of_lt_pred hw0 hw
        have hm := hf ⌊w⌋₊ (⌊w⌋₊ + 1) (by omega) hlt
        simp only [lerp, not_le.2 hw, not_lt.2 hv0, not_le.2 hv, not_lt.2 hw0, if_false, he]
        have := mul_le_mul_of_nonneg_left (show v - (⌊w⌋₊ : K) ≤ w - ⌊w⌋₊ by linarith)
          (sub_nonneg.2 hm)
        linarith
      · have a := (lerp_bracket hf hv0 hv).2
        have b := (lerp_bracket hf hw0 hw).1
        have hlt := floor_lt_of_lt_pred hw0 hw
        exact a.trans ((hf _ _ (by omega) (by omega)).trans b)

theorem lerp_congr {g : Nat → K} (h : ∀ i < n, f i = g i) (hn : 0 < n) (v : K) :
    lerp f n v = lerp g n v := by
  unfold lerp
  split
  · exact h _ (by omega)
  · split
    · exact h _ hn
    · rename_i h1 h2
      have := floor_lt_of_lt_pred (not_lt.1 h2) (not_le.1 h1)
      rw [h _ (by omega), h _ this]

/-- Interpolation at an integer index is the order statistic itself. -/
theorem lerp_nat {k : Nat} (hk : k < n) : lerp f n (k : K) = f k := by
  unfold lerp
  split
  · rename_i h
    have : (n : K) ≤ (k : K) + 1 := by linarith
    have : n ≤ k + 1 := by exact_mod_cast this
    congr 1; omega
  · have : ¬ ((k : K) < 0) := not_lt.2 (Nat.cast_nonneg k)
    simp [this]

omit [IsStrictOrderedRing K] in
theorem quantileVal_perm {virt : Nat → K → K} {l l' : List K} (h : l.Perm l') (q : K) :
    quantileVal virt l q = quantileVal virt l' q := by
  simp [quantileVal, sortL_eq_of_perm h, h.length_eq]

omit [IsStrictOrderedRing K] in
theorem npQuantile_perm {virt : Nat → K → K} {l l' : List K} (h : l.Perm l') (q : K) :
    npQuantile virt l q = npQuantile virt l' q := by
  unfold npQuantile
  have hn : l = [] ↔ l' = [] := by
    constructor
    · rintro rfl; exact h.nil_eq.symm
    · rintro rfl; exact h.eq_nil
  simp [hn, quantileVal_perm h]

/-- When `npQuantile` succeeds: the guards and the value. -/
theorem npQuantile_ok {virt : Nat → K → K} {l : List K} {q x : K}
    (h : npQuantile virt l q = .ok x) :
    0 ≤ q ∧ q ≤ 1 ∧ 0 < l.length ∧
      x = quantileVal virt l q := by
  unfold npQuantile at h
  split at h
  · cases h
  · rename_i h1
    split at h
    · cases h
    · rename_i h2
      simp only [not_or, not_lt] at h1
      injection h with h
      exact ⟨h1.1, h1.2, List.length_pos_iff.2 h2, h.symm⟩

theorem npQuantile_isOk (virt : Nat → K → K) {l : List K} {q : K} (h0 : 0 ≤ q) (h1 : q ≤ 1)
    (hl : l ≠ []) : npQuantile virt l q =
      .ok (quantileVal virt l q) := by
  simp [npQuantile, not_lt.2 h0, not_lt.2 h1, hl]

/-- A quantile lies between two members of the list. -/
theorem quantileVal_between (virt : Nat → K → K) {l : List K} (q : K) (hn : 0 < l.length) :
    ∃ a ∈ l, ∃ b ∈ l, a ≤ quantileVal virt l q ∧ quantileVal virt l q ≤ b ∧
      (∀ y ∈ l, a ≤ y) ∧ (∀ y ∈ l, y ≤ b) := by
  unfold quantileVal
  have hb := lerp_bounds (sortL_monoTo l) hn (virt l.length q)
  have hs : 0 < (sortL l).length := by simpa using hn
  have hs1 : l.length - 1 < (sortL l).length := by simp; omega
  simp only [List.getD_eq_getElem _ _ hs, List.getD_eq_getElem _ _ hs1] at hb
  refine ⟨_, mem_sortL.1 (List.getElem_mem hs), _, mem_sortL.1 (List.getElem_mem hs1),
    hb.1, hb.2, ?_, ?_⟩
  · intro y hy
    obtain ⟨i, hi, rfl⟩ := List.getElem_of_mem (mem_sortL.2 hy)
    exact sorted_getElem_le (sortL_pairwise l) (Nat.zero_le _) hi
  · intro y hy
    obtain ⟨i, hi, rfl⟩ := List.getElem_of_mem (mem_sortL.2 hy)
    exact sorted_getElem_le (sortL_pairwise l) (by simp at hi; omega) hs1

theorem npQuantile_between {virt : Nat → K → K} {l : List K} {q x : K}
    (h : npQuantile virt l q = .ok x) : ∃ a ∈ l, ∃ b ∈ l, a ≤ x ∧ x ≤ b ∧
      (∀ y ∈ l, a ≤ y) ∧ (∀ y ∈ l, y ≤ b) := by
  obtain ⟨-, -, hn, rfl⟩ := npQuantile_ok h
  exact quantileVal_between virt q hn

theorem quantileVal_mono {virt : Nat → K → K} {l : List K} (hl : 0 < l.length) {q q' : K}
    (h : virt l.length q ≤ virt l.length q') : quantileVal virt l q ≤ quantileVal virt l q' :=
  lerp_mono (sortL_monoTo l) hl h

end Quantile
end Geo
