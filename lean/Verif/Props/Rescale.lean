import Verif.Model.Rescale
import Mathlib.Data.List.GetD
import Mathlib.Tactic.Linarith
import Mathlib.Tactic.Positivity
import Mathlib.Algebra.Order.Field.Basic
/-
C146: rescaling the local importance before plotting.
-/
set_option linter.unusedSectionVars false
namespace Geo
variable {K : Type} [Field K] [LinearOrder K] [IsStrictOrderedRing K]

theorem foldl_npMin2_fin (l : List K) (a : K) : ∃ m ∈ a :: l, (∀ x ∈ a :: l, m ≤ x) ∧
    (l.map Num.fin).foldl npMin2 (.fin a) = .fin m := by
  induction l generalizing a with
  | nil => exact ⟨a, by simp, by simp, rfl⟩
  | cons b l ih =>
    by_cases h : b < a
    · obtain ⟨m, hm, hle, he⟩ := ih b
      refine ⟨m, List.mem_cons_of_mem _ hm, fun x hx => ?_, ?_⟩
      · rcases List.mem_cons.1 hx with rfl | hx
        · exact (hle b (List.mem_cons_self ..)).trans h.le
        · exact hle x hx
      · rw [List.map_cons, List.foldl_cons]
        simpa [npMin2, Num.lt, h] using he
    · obtain ⟨m, hm, hle, he⟩ := ih a
      refine ⟨m, ?_, fun x hx => ?_, ?_⟩
      · rcases List.mem_cons.1 hm with rfl | hm
        · exact List.mem_cons_self ..
        · exact List.mem_cons_of_mem _ (List.mem_cons_of_mem _ hm)
      · rcases List.mem_cons.1 hx with rfl | hx
        · exact hle _ (List.mem_cons_self ..)
        · rcases List.mem_cons.1 hx with rfl | hx
          · exact (hle a (List.mem_cons_self ..)).trans (not_lt.1 h)
          · exact hle x (List.mem_cons_of_mem _ hx)
      · rw [List.map_cons, List.foldl_cons]
        simpa [npMin2, Num.lt, h] using he

theorem foldl_npMax2_fin (l : List K) (a : K) : ∃ m ∈ a :: l, (∀ x ∈ a :: l, x ≤ m) ∧
    (l.map Num.fin).foldl npMax2 (.fin a) = .fin m := by
  induction l generalizing a with
  | nil => exact ⟨a, by simp, by simp, rfl⟩
  | cons b l ih =>
    by_cases h : a < b
    · obtain ⟨m, hm, hle, he⟩ := ih b
      refine ⟨m, List.mem_cons_of_mem _ hm, fun x hx => ?_, ?_⟩
      · rcases List.mem_cons.1 hx with rfl | hx
        · exact h.le.trans (hle b (List.mem_cons_self ..))
        · exact hle x hx
      · rw [List.map_cons, List.foldl_cons]
        simpa [npMax2, Num.lt, h] using he
    · obtain ⟨m, hm, hle, he⟩ := ih a
      refine ⟨m, ?_, fun x hx => ?_, ?_⟩
      · rcases List.mem_cons.1 hm with rfl | hm
        · exact List.mem_cons_self ..
        · exact List.mem_cons_of_mem _ (List.mem_cons_of_mem _ hm)
      · rcases List.mem_cons.1 hx with rfl | hx
        · exact hle _ (List.mem_cons_self ..)
        · rcases List.mem_cons.1 hx with rfl | hx
          · exact (not_lt.1 h).trans (hle a (List.mem_cons_self ..))
          · exact hle x (List.mem_cons_of_mem _ hx)
      · rw [List.map_cons, List.foldl_cons]
        simpa [npMax2, Num.lt, h] using he

theorem npMin_fin {l : List K} (h : l ≠ []) : ∃ m ∈ l, (∀ x ∈ l, m ≤ x) ∧ npMin (l.map Num.fin) = .ok (.fin m) := by
  cases l with
  | nil => exact absurd rfl h
  | cons a l =>
    obtain ⟨m, h1, h2, h3⟩ := foldl_npMin2_fin l a
    exact ⟨m, h1, h2, by rw [List.map_cons, npMin, h3]⟩

theorem npMax_fin {l : List K} (h : l ≠ []) : ∃ m ∈ l, (∀ x ∈ l, x ≤ m) ∧ npMax (l.map Num.fin) = .ok (.fin m) := by
  cases l with
  | nil => exact absurd rfl h
  | cons a l =>
    obtain ⟨m, h1, h2, h3⟩ := foldl_npMax2_fin l a
    exact ⟨m, h1, h2, by rw [List.map_cons, npMax, h3]⟩

theorem foldl_npMin2_nan (l : List (Num K)) (a : Num K) (h : Num.nan ∈ a :: l) : l.foldl npMin2 a = .nan := by
  induction l generalizing a with
  | nil => simp at h; simp [← h]
  | cons b l ih =>
    rw [List.foldl_cons]
    refine ih _ ?_
    rcases List.mem_cons.1 h with h | h
    · simp [npMin2, ← h]
    · rcases List.mem_cons.1 h with h | h
      · simp [npMin2, ← h]
      · exact List.mem_cons_of_mem _ h

theorem npMin_nan {l : List (Num K)} (h : Num.nan ∈ l) : npMin l = .ok .nan := by
  cases l with
  | nil => cases h
  | cons a l => rw [npMin, foldl_npMin2_nan l a h]

theorem npMin_ok {l : List (Num K)} (h : l ≠ []) : ∃ m, npMin l = .ok m := by
  cases l with
  | nil => exact absurd rfl h
  | cons a l => exact ⟨_, rfl⟩

theorem npMax_ok {l : List (Num K)} (h : l ≠ []) : ∃ m, npMax l = .ok m := by
  cases l with
  | nil => exact absurd rfl h
  | cons a l => exact ⟨_, rfl⟩

theorem mem_entries {A : Mat (Num K)} {v : Num K} :
    v ∈ (List.range A.r).flatMap A.row ↔ ∃ i < A.r, ∃ j < A.c, A.get i j = v := by
  simp [List.mem_flatMap, Mat.row]

theorem entries_fin {A : Mat (Num K)} {a : Nat → Nat → K} (ha : ∀ i < A.r, ∀ j < A.c, A.get i j = .fin (a i j)) :
    (List.range A.r).flatMap A.row =
      ((List.range A.r).flatMap fun i => (List.range A.c).map (a i)).map Num.fin := by
  rw [List.map_flatMap]
  refine List.flatMap_congr fun i hi => ?_
  rw [List.map_map]
  refine List.map_congr_left fun j hj => ?_
  exact ha i (List.mem_range.1 hi) j (List.mem_range.1 hj)

/-- C146: rescaled as a whole, finite importances that are not all equal lie in [0, 1], both ends occur,
and any two of them (of any locations and features) compare as before. -/
theorem C146_whole (A : Mat (Num K)) (a : Nat → Nat → K)
    (ha : ∀ i < A.r, ∀ j < A.c, A.get i j = .fin (a i j))
    (hne : ∃ i < A.r, ∃ j < A.c, ∃ i' < A.r, ∃ j' < A.c, a i j ≠ a i' j') :
    ∃ (B : Mat (Num K)) (b : Nat → Nat → K), rescaleAll A = .ok B ∧ B.r = A.r ∧ B.c = A.c ∧
      (∀ i < A.r, ∀ j < A.c, B.get i j = .fin (b i j) ∧ 0 ≤ b i j ∧ b i j ≤ 1) ∧
      (∃ i < A.r, ∃ j < A.c, b i j = 0) ∧ (∃ i < A.r, ∃ j < A.c, b i j = 1) ∧
      ∀ i < A.r, ∀ j < A.c, ∀ i' < A.r, ∀ j' < A.c, b i j ≤ b i' j' ↔ a i j ≤ a i' j' := by
  obtain ⟨i1, hi1, j1, hj1, i2, hi2, j2, hj2, h12⟩ := hne
  have hmem : ∀ i < A.r, ∀ j < A.c, a i j ∈ (List.range A.r).flatMap fun i => (List.range A.c).map (a i) := by
    intro i hi j hj
    exact List.mem_flatMap.2 ⟨i, List.mem_range.2 hi, List.mem_map.2 ⟨j, List.mem_range.2 hj, rfl⟩⟩
  have hinv : ∀ x ∈ (List.range A.r).flatMap fun i => (List.range A.c).map (a i),
      ∃ i < A.r, ∃ j < A.c, a i j = x := by
    intro x hx
    obtain ⟨i, hi, hx⟩ := List.mem_flatMap.1 hx
    obtain ⟨j, hj, rfl⟩ := List.mem_map.1 hx
    exact ⟨i, List.mem_range.1 hi, j, List.mem_range.1 hj, rfl⟩
  have hnn := List.ne_nil_of_mem (hmem i1 hi1 j1 hj1)
  obtain ⟨lo, hlo, hlo', elo⟩ := npMin_fin hnn
  obtain ⟨hi, hhi, hhi', ehi⟩ := npMax_fin hnn
  have hd : 0 < hi - lo := by
    have := hlo' _ (hmem i1 hi1 j1 hj1)
    have := hlo' _ (hmem i2 hi2 j2 hj2)
    have := hhi' _ (hmem i1 hi1 j1 hj1)
    have := hhi' _ (hmem i2 hi2 j2 hj2)
    rcases lt_or_gt_of_ne h12 with h | h <;> linarith
  refine ⟨⟨A.r, A.c, fun i j => Num.div (Num.sub (A.get i j) (.fin lo)) (Num.sub (.fin hi) (.fin lo))⟩,
    fun i j => (a i j - lo) / (hi - lo), by rw [rescaleAll, entries_fin ha, elo, ehi], rfl, rfl,
    fun i hi' j hj => ⟨?_, ?_, ?_⟩, ?_, ?_, ?_⟩
  · simp only [ha i hi' j hj, Num.sub, Num.neg, Num.add, Num.div, ← sub_eq_add_neg, hd.ne', if_false]
  · exact div_nonneg (sub_nonneg.2 (hlo' _ (hmem i hi' j hj))) hd.le
  · rw [div_le_one hd]
    have := hhi' _ (hmem i hi' j hj)
    linarith
  · obtain ⟨i, hi', j, hj, e⟩ := hinv lo hlo
    exact ⟨i, hi', j, hj, by simp [e]⟩
  · obtain ⟨i, hi', j, hj, e⟩ := hinv hi hhi
    exact ⟨i, hi', j, hj, by simp [e, hd.ne']⟩
  · intro i hi' j hj i' hi2 j' hj'
    rw [div_le_div_iff_of_pos_right hd, sub_le_sub_iff_right]

/-- C146: a single location without a score blanks everything, and so do importances that are all
equal. -/
theorem C146_whole_nan (A : Mat (Num K)) (hr : 0 < A.r) (hc : 0 < A.c)
    (h : (∃ i < A.r, ∃ j < A.c, A.get i j = .nan) ∨ ∃ x : K, ∀ i < A.r, ∀ j < A.c, A.get i j = .fin x) :
    ∃ B, rescaleAll A = .ok B ∧ ∀ i < A.r, ∀ j < A.c, B.get i j = .nan := by
  have hm0 : A.get 0 0 ∈ (List.range A.r).flatMap A.row := mem_entries.2 ⟨0, hr, 0, hc, rfl⟩
  rcases h with h | ⟨x, hx⟩
  · obtain ⟨hi, ehi⟩ := npMax_ok (List.ne_nil_of_mem hm0)
    refine ⟨⟨A.r, A.c, fun i j => Num.div (Num.sub (A.get i j) .nan) (Num.sub hi .nan)⟩,
      by rw [rescaleAll, npMin_nan (mem_entries.2 h), ehi], fun i _ j _ => ?_⟩
    simp only [Num.sub, Num.neg]
    cases A.get i j <;> rfl
  · have he := entries_fin (a := fun _ _ => x) hx
    have hnn : ((List.range A.r).flatMap fun _ => (List.range A.c).map fun _ => x) ≠ [] := by
      intro h0
      rw [he, h0] at hm0
      cases hm0
    obtain ⟨lo, hlo, -, elo⟩ := npMin_fin hnn
    obtain ⟨hi, hhi, -, ehi⟩ := npMax_fin hnn
    have hall : ∀ z ∈ (List.range A.r).flatMap fun _ => (List.range A.c).map fun _ => x, z = x := by
      intro z hz
      obtain ⟨i, -, hz⟩ := List.mem_flatMap.1 hz
      obtain ⟨j, -, rfl⟩ := List.mem_map.1 hz
      rfl
    have := hall lo hlo
    have := hall hi hhi
    subst lo hi
    refine ⟨⟨A.r, A.c, fun i j => Num.div (Num.sub (A.get i j) (.fin x)) (Num.sub (.fin x) (.fin x))⟩,
      by rw [rescaleAll, he, elo, ehi], fun i hi' j hj => ?_⟩
    simp [hx i hi' j hj, Num.sub, Num.neg, Num.add, Num.div, Num.infSign]

/-- The lists of row minima and maxima. -/
theorem rowExtremes (A : Mat (Num K)) (hc : 0 < A.c) : ∃ lo hi : Nat → Num K,
    mapE (fun i => npMin (A.row i)) (List.range A.r) = .ok ((List.range A.r).map lo) ∧
    mapE (fun i => npMax (A.row i)) (List.range A.r) = .ok ((List.range A.r).map hi) ∧
    (∀ i, npMin (A.row i) = .ok (lo i)) ∧ ∀ i, npMax (A.row i) = .ok (hi i) := by
  have hne : ∀ i, A.row i ≠ [] := fun i h => by
    have := congrArg List.length h
    simp [Mat.row] at this
    omega
  choose lo hlo using fun i => npMin_ok (hne i)
  choose hi hhi using fun i => npMax_ok (hne i)
  refine ⟨lo, hi, ?_, ?_, hlo, hhi⟩
  · exact mapE_of_forall fun i _ => hlo i
  · exact mapE_of_forall fun i _ => hhi i

/-- C146: the rescaling "per location" raises whenever there are at least two locations and two features,
unless there are as many features as locations. -/
theorem C146_by_row_fails (A : Mat (Num K)) (hr : 2 ≤ A.r) (hc : A.c ≠ 1) (hrc : A.c ≠ A.r) :
    rescaleByRow A = .error .valueError := by
  unfold rescaleByRow
  split
  · rfl
  · rename_i h0
    obtain ⟨lo, hi, e1, e2, -, -⟩ := rowExtremes A (by omega)
    rw [e1, e2]
    simp only [broadcastRow, List.length_map, List.length_range]
    rw [if_neg (by omega), if_neg hc, if_neg (by omega)]

/-- C146: with as many features as locations, the importance of feature `j` is rescaled by the extremes
of location `j`. -/
theorem C146_by_row_square (A : Mat (Num K)) (h0 : 0 < A.c) (h : A.r = A.c) : ∃ (B : Mat (Num K)) (lo hi : Nat → Num K),
    rescaleByRow A = .ok B ∧ B.r = A.r ∧ B.c = A.c ∧ (∀ j, npMin (A.row j) = .ok (lo j)) ∧
    (∀ j, npMax (A.row j) = .ok (hi j)) ∧
    ∀ i, ∀ j < A.c, B.get i j = Num.div (Num.sub (A.get i j) (lo j)) (Num.sub (hi j) (lo j)) := by
  obtain ⟨lo, hi, e1, e2, e3, e4⟩ := rowExtremes A h0
  refine ⟨⟨A.r, A.c, fun i j => Num.div (Num.sub (A.get i j) (((List.range A.r).map lo).getD j .nan))
    ((List.zipWith Num.sub ((List.range A.r).map hi) ((List.range A.r).map lo)).getD j .nan)⟩, lo, hi,
    ?_, rfl, rfl, e3, e4, fun i j hj => ?_⟩
  · unfold rescaleByRow
    rw [if_neg (by omega), e1, e2]
    simp only [broadcastRow, List.length_map, List.length_range, List.length_zipWith, h, min_self, if_true]
  · have hj' : j < A.r := by omega
    simp [List.getD_eq_getElem?_getD, hj']

/-- C146: with one feature, the result has a column per location and no finite entry. -/
theorem C146_by_row_one_feature (A : Mat (Num K)) (a : Nat → K) (hc : A.c = 1) (hr : 2 ≤ A.r)
    (ha : ∀ i < A.r, A.get i 0 = .fin (a i)) :
    ∃ B, rescaleByRow A = .ok B ∧ B.r = A.r ∧ B.c = A.r ∧
      ∀ i < A.r, ∀ j < A.r, B.get i j = Num.infSign (a i - a j) := by
  obtain ⟨lo, hi, e1, e2, e3, e4⟩ := rowExtremes A (by omega)
  have hrow : ∀ i < A.r, A.row i = [.fin (a i)] := by
    intro i h
    simp [Mat.row, hc, ha i h]
  have hlo : ∀ i < A.r, lo i = .fin (a i) := by
    intro i h
    have := e3 i
    rw [hrow i h] at this
    exact (Except.ok.inj this).symm
  have hhi : ∀ i < A.r, hi i = .fin (a i) := by
    intro i h
    have := e4 i
    rw [hrow i h] at this
    exact (Except.ok.inj this).symm
  refine ⟨⟨A.r, A.r, fun i j => Num.div (Num.sub (A.get i 0) (((List.range A.r).map lo).getD j .nan))
    ((List.zipWith Num.sub ((List.range A.r).map hi) ((List.range A.r).map lo)).getD j .nan)⟩,
    ?_, rfl, rfl, fun i h j hj => ?_⟩
  · unfold rescaleByRow
    rw [if_neg (by omega), e1, e2]
    simp only [broadcastRow, List.length_map, List.length_range, List.length_zipWith, hc, min_self, if_true]
    rw [if_neg (by omega)]
    simp only [if_true]
  · simp [List.getD_eq_getElem?_getD, hj, hlo j hj, hhi j hj, ha i h, Num.sub,
      Num.neg, Num.add, Num.div, sub_eq_add_neg]

/-- C146: for a single location the features are rescaled within it, which is rescaling as a whole. -/
theorem C146_by_row_one_location (A : Mat (Num K)) (hr : A.r = 1) (hc : 2 ≤ A.c) :
    rescaleByRow A = rescaleAll A := by
  obtain ⟨lo, hi, e1, e2, e3, e4⟩ := rowExtremes A (by omega)
  have hfl : (List.range A.r).flatMap A.row = A.row 0 := by simp [hr]
  have h1 : ¬ 1 = A.c := by omega
  have h2 : ¬ A.c = 1 := by omega
  have h0 : ¬ A.c = 0 := by omega
  rw [rescaleAll, hfl, e3, e4]
  unfold rescaleByRow
  rw [if_neg h0, e1, e2]
  simp [broadcastRow, hr, h1, h2]

/-- With as many features as locations the result need not lie in [0, 1]: location 1 has smaller
importances, so feature 1 of location 0 comes out as 99. The script itself has 5000 locations and two
features: it stops with a `ValueError`. -/
theorem C146_by_row_out_of_range :
    ∃ B, rescaleByRow (⟨2, 2, fun i j => .fin ([[50, 100], [2, 1]].getD i [] |>.getD j 0)⟩ : Mat (Num ℚ)) = .ok B ∧
      B.get 0 1 = .fin 99 := ⟨_, rfl, by decide +kernel⟩

/-- The hypotheses of `C146_by_row_fails` for that script. -/
example (A : Mat (Num ℚ)) (h : A.r = 5000) (h' : A.c = 2) : rescaleByRow A = .error .valueError :=
  C146_by_row_fails A (by omega) (by omega) (by omega)

/-- The hypotheses of `C146_whole` and what comes out. -/
example : ∃ B, rescaleAll (⟨2, 2, fun i j => .fin ([[50, 100], [2, 1]].getD i [] |>.getD j 0)⟩ : Mat (Num ℚ)) = .ok B ∧
    B.get 0 0 = .fin (49 / 99) ∧ B.get 0 1 = .fin 1 ∧ B.get 1 1 = .fin 0 :=
  ⟨_, rfl, by decide +kernel, by decide +kernel, by decide +kernel⟩

end Geo
