import Verif.Model.Neighbour
set_option linter.unusedSectionVars false
/-
Lemmas on shrinking: the effect of the scatter loop and counting of survivors.
-/
namespace Geo
variable {K : Type} [Field K] [LinearOrder K] [IsStrictOrderedRing K] [FloorRing K]

theorem scatter_map (g h : Nat → K) (idx : List Nat) (j : Nat) :
    scatter g idx (idx.map h) j = if j ∈ idx then h j else g j := by
  unfold scatter
  induction idx generalizing g with
  | nil => simp
  | cons a l ih =>
    simp only [List.map_cons, List.zip_cons_cons, List.foldl_cons, ih, List.mem_cons]
    by_cases h1 : j ∈ l
    · simp [h1]
    · by_cases h2 : j = a
      · subst h2; simp [h1]
      · simp [h1, h2]

theorem mem_nonzeroIdx {c : Nat} {g : Nat → K} {j : Nat} :
    j ∈ nonzeroIdx c g ↔ j < c ∧ g j ≠ 0 := by simp [nonzeroIdx]

/-- The non-zero values of a row, in order. -/
def nonzeroVals (c : Nat) (g : Nat → K) : List K := (nonzeroIdx c g).map g

theorem mem_nonzeroVals {c : Nat} {g : Nat → K} {x : K} :
    x ∈ nonzeroVals c g ↔ x ≠ 0 ∧ ∃ j < c, g j = x := by
  simp only [nonzeroVals, List.mem_map, mem_nonzeroIdx]
  constructor
  · rintro ⟨j, ⟨h1, h2⟩, rfl⟩; exact ⟨h2, j, h1, rfl⟩
  · rintro ⟨h, j, h1, rfl⟩; exact ⟨j, ⟨h1, h⟩, rfl⟩

theorem shrinkRow_get (q : K) (c : Nat) (g : Nat → K) {j : Nat} (hj : j < c) :
    shrinkRow q c g j = if g j < quantileVal virtLinear (nonzeroVals c g) q ∧ g j ≠ 0 then 0
      else g j := by
  unfold shrinkRow shrinkValues
  rw [List.map_map, scatter_map]
  by_cases h : g j = 0
  · simp [mem_nonzeroIdx, h]
  · simp only [mem_nonzeroIdx, hj, h, ne_eq, not_false_eq_true, and_self, and_true, if_true,
      Function.comp]
    rfl

theorem quantile_linear_zero {l : List K} (hl : 0 < l.length) :
    ∀ x ∈ l, quantileVal virtLinear l 0 ≤ x := by
  obtain ⟨a, ha, -, -, -, -, hmin, -⟩ := quantileVal_between (virtLinear (K := K)) 0 hl
  intro x hx
  have : quantileVal virtLinear l 0 = (sortL l).getD 0 0 := by
    unfold quantileVal
    have h0 : virtLinear l.length (0 : K) = ((0 : ℕ) : K) := by simp [virtLinear]
    rw [h0, lerp_nat hl]
  rw [this]
  obtain ⟨i, hi, rfl⟩ := List.getElem_of_mem (mem_sortL.2 hx)
  rw [List.getD_eq_getElem _ _ (by simpa using hl)]
  exact sorted_getElem_le (sortL_pairwise l) (Nat.zero_le _) hi

theorem quantile_linear_one {l : List K} (hl : 0 < l.length) :
    quantileVal virtLinear l 1 ∈ l ∧ ∀ x ∈ l, x ≤ quantileVal virtLinear l 1 := by
  have : quantileVal virtLinear l 1 = (sortL l).getD (l.length - 1) 0 := by
    unfold quantileVal lerp
    simp [virtLinear]
  rw [this]
  have h1 : l.length - 1 < (sortL l).length := by simp; omega
  rw [List.getD_eq_getElem _ _ h1]
  refine ⟨mem_sortL.1 (List.getElem_mem h1), fun x hx => ?_⟩
  obtain ⟨i, hi, rfl⟩ := List.getElem_of_mem (mem_sortL.2 hx)
  exact sorted_getElem_le (sortL_pairwise l) (by simp at hi; omega) h1

/-- The interpolated value does not exceed the order statistic at the next integer index. -/
theorem lerp_le_ceil {f : Nat → K} {n : Nat} (hf : MonoTo f n) (hn : 0 < n) {v : K}
    (h1 : v ≤ (n : K) - 1) : lerp f n v ≤ f ⌈v⌉₊ := by
  have hc : ⌈v⌉₊ < n := by
    have : ⌈v⌉₊ ≤ n - 1 := by
      rw [Nat.ceil_le, Nat.cast_sub hn]; simpa using h1
    omega
  rw [← lerp_nat (f := f) hc]
  exact lerp_mono hf hn (Nat.le_ceil v)

/-- For strictly increasing values, every order statistic before that index is smaller than
the interpolated value. -/
theorem lt_lerp_of_lt_ceil {f : Nat → K} {n : Nat} (hf : ∀ i j, i < j → j < n → f i < f j)
    {v : K} (h0 : 0 ≤ v) (h1 : v ≤ (n : K) - 1) {j : Nat} (hj : j < ⌈v⌉₊) :
    f j < lerp f n v := by
  have hjv : (j : K) < v := Nat.lt_ceil.1 hj
  unfold lerp
  split
  · rename_i h
    have hv : v = (n : K) - 1 := le_antisymm h1 h
    have h2 : (j : K) + 1 < n := by linarith
    have h3 : j + 1 < n := by exact_mod_cast h2
    exact hf j (n - 1) (by omega) (by omega)
  · rename_i h
    rw [if_neg (not_lt.2 h0)]
    rw [not_le] at h
    have hlt := floor_lt_of_lt_pred h0 h
    have hfl := Nat.floor_le h0
    have hs := hf ⌊v⌋₊ (⌊v⌋₊ + 1) (by omega) hlt
    have hjf : j ≤ ⌊v⌋₊ := Nat.le_floor hjv.le
    rcases Nat.eq_or_lt_of_le hjf with he | hl
    · have h5 : (0 : K) < v - ⌊v⌋₊ := by rw [← he]; linarith
      have := mul_pos (sub_pos.2 hs) h5
      rw [he]; linarith
    · have := mul_nonneg (sub_nonneg.2 hs.le) (sub_nonneg.2 hfl)
      have := hf j ⌊v⌋₊ hl (by omega)
      linarith

theorem countP_ge_sorted {s : List K} (hs : s.Pairwise (· ≤ ·)) {k : Nat} (hk : k < s.length) :
    s.length - k ≤ s.countP (fun x => decide (s[k] ≤ x)) := by
  generalize hx : s[k] = x
  have hlen : (s.drop k).countP (fun x => decide (s[k] ≤ x)) = s.length - k := by
    have : (s.drop k).length = s.length - k := by simp
    rw [← this, List.countP_eq_length]
    intro x hx
    obtain ⟨i, hi, rfl⟩ := List.getElem_of_mem hx
    simp only [List.length_drop] at hi
    simpa using sorted_getElem_le hs (Nat.le_add_right k i) (by omega)
  rw [← hx, ← hlen]
  exact (List.drop_sublist k s).countP_le

/-- Number of values at or above the linear `q`-quantile: at least `⌊(1-q)(m-1)⌋ + 1`. -/
theorem countP_ge_quantile {l : List K} (hl : 0 < l.length) {q : K} (h0 : 0 ≤ q) (h1 : q ≤ 1) :
    ⌊(1 - q) * ((l.length : K) - 1)⌋₊ + 1 ≤
      l.countP fun x => decide (quantileVal virtLinear l q ≤ x) := by
  have hm : (0 : K) ≤ (l.length : K) - 1 := by
    have : (1 : K) ≤ l.length := by exact_mod_cast hl
    linarith
  have hv0 : 0 ≤ virtLinear l.length q := mul_nonneg hm h0
  have hv1 : virtLinear l.length q ≤ (l.length : K) - 1 := mul_le_of_le_one_right hm h1
  set k := ⌈virtLinear l.length q⌉₊ with hk
  have hkl : k < l.length := by
    have : k ≤ l.length - 1 := by
      rw [hk, Nat.ceil_le, Nat.cast_sub hl]; simpa using hv1
    omega
  have hks : k < (sortL l).length := by simpa using hkl
  have hle : quantileVal virtLinear l q ≤ (sortL l)[k] := by
    have := lerp_le_ceil (sortL_monoTo l) hl hv1
    simp only [← hk, List.getD_eq_getElem _ _ hks] at this
    exact this
  have h2 : (sortL l).length - k ≤ (sortL l).countP (fun x => decide ((sortL l)[k] ≤ x)) :=
    countP_ge_sorted (sortL_pairwise l) hks
  have h3 : (sortL l).countP (fun x => decide ((sortL l)[k] ≤ x)) ≤
      (sortL l).countP (fun x => decide (quantileVal virtLinear l q ≤ x)) :=
    List.countP_mono_left fun x _ hx => by
      simp only [decide_eq_true_eq] at hx ⊢; exact hle.trans hx
  have h5 : ⌊(1 - q) * ((l.length : K) - 1)⌋₊ + 1 ≤ l.length - k := by
    have h6 : ⌊(1 - q) * ((l.length : K) - 1)⌋₊ ≤ l.length - 1 - k := by
      apply Nat.le_of_lt_succ
      rw [Nat.floor_lt (mul_nonneg (by linarith) hm)]
      have hc : (k : K) < virtLinear l.length q + 1 := Nat.ceil_lt_add_one hv0
      have : (1 - q) * ((l.length : K) - 1) = (l.length : K) - 1 - virtLinear l.length q := by
        unfold virtLinear; ring
      rw [this]
      have h7 : ((l.length - 1 - k).succ : K) = (l.length : K) - 1 - k + 1 := by
        rw [Nat.succ_eq_add_one, Nat.cast_add, Nat.cast_sub (by omega), Nat.cast_sub hl]; simp
      rw [h7]; linarith
    omega
  rw [← (sortL_perm l).countP_eq]
  simp only [sortL_length] at h2
  omega

/-- For pairwise different values the number is exactly that of the order statistics from the
rounded-up index on. -/
theorem countP_ge_quantile_nodup {l : List K} (hl : 0 < l.length) (hnd : l.Nodup) {q : K}
    (h0 : 0 ≤ q) (h1 : q ≤ 1) :
    (l.countP fun x => decide (quantileVal virtLinear l q ≤ x)) =
      l.length - ⌈q * ((l.length : K) - 1)⌉₊ := by
  have hm : (0 : K) ≤ (l.length : K) - 1 := by
    have : (1 : K) ≤ l.length := by exact_mod_cast hl
    linarith
  have hv : q * ((l.length : K) - 1) = virtLinear l.length q := by unfold virtLinear; ring
  rw [hv]
  have hv0 : 0 ≤ virtLinear l.length q := mul_nonneg hm h0
  have hv1 : virtLinear l.length q ≤ (l.length : K) - 1 := mul_le_of_le_one_right hm h1
  set k := ⌈virtLinear l.length q⌉₊ with hk
  have hkl : k < l.length := by
    have : k ≤ l.length - 1 := by
      rw [hk, Nat.ceil_le, Nat.cast_sub hl]; simpa using hv1
    omega
  have hks : k < (sortL l).length := by simpa using hkl
  have hle : quantileVal virtLinear l q ≤ (sortL l)[k] := by
    have := lerp_le_ceil (sortL_monoTo l) hl hv1
    simp only [← hk, List.getD_eq_getElem _ _ hks] at this
    exact this
  have hsn : (sortL l).Nodup := (sortL_perm l).nodup_iff.2 hnd
  have hstrict : ∀ i j, i < j → j < l.length → (sortL l).getD i 0 < (sortL l).getD j 0 := by
    intro i j hij hj
    have hj' : j < (sortL l).length := by simpa using hj
    have hi' : i < (sortL l).length := hij.trans hj'
    rw [List.getD_eq_getElem _ _ hi', List.getD_eq_getElem _ _ hj']
    apply lt_of_le_of_ne (sorted_getElem_le (sortL_pairwise l) hij.le hj')
    intro he
    exact hij.ne ((List.Nodup.getElem_inj_iff hsn).1 he)
  rw [← (sortL_perm l).countP_eq]
  rw [show sortL l = (sortL l).take k ++ (sortL l).drop k from (List.take_append_drop k _).symm,
    List.countP_append]
  have e1 : ((sortL l).take k).countP (fun x => decide (quantileVal virtLinear l q ≤ x)) = 0 := by
    rw [List.countP_eq_zero]
    intro x hx
    obtain ⟨i, hi, rfl⟩ := List.getElem_of_mem hx
    simp only [List.length_take] at hi
    have := lt_lerp_of_lt_ceil hstrict hv0 hv1 (show i < ⌈virtLinear l.length q⌉₊ by omega)
    rw [List.getD_eq_getElem _ _ (by omega)] at this
    simpa [quantileVal] using this
  have e2 : ((sortL l).drop k).countP (fun x => decide (quantileVal virtLinear l q ≤ x)) =
      l.length - k := by
    have : ((sortL l).drop k).length = l.length - k := by simp
    rw [← this, List.countP_eq_length]
    intro x hx
    obtain ⟨i, hi, rfl⟩ := List.getElem_of_mem hx
    simp only [List.length_drop] at hi
    simpa using hle.trans (sorted_getElem_le (sortL_pairwise l) (Nat.le_add_right k i) (by omega))
  omega

end Geo
