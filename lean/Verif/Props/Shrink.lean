import Verif.Lemmas.Shrink
import Verif.Lemmas.Csr
set_option linter.unusedSectionVars false
/-
Properties C26-C29: shrinking of neighbourhoods.
-/
namespace Geo
variable {K : Type} [Field K] [LinearOrder K] [IsStrictOrderedRing K] [FloorRing K]

/-- The linear quantile of the non-zero weights of row `i` (numpy's definition, `Basic/Quantile`). -/
def rowQuantile (W : Mat K) (q : K) (i : Nat) : K :=
  quantileVal virtLinear ((W.row i).filter fun x => x ≠ 0) q

theorem nonzeroVals_eq (W : Mat K) (i : Nat) :
    nonzeroVals W.c (W.get i) = (W.row i).filter fun x => x ≠ 0 := by
  unfold nonzeroVals nonzeroIdx Mat.row
  rw [List.filter_map]
  rfl

/-- The rates accepted. -/
theorem shrinkDense_ok (W : Mat K) (q : K) (h0 : 0 ≤ q) (h1 : q ≤ 1) :
    shrinkDense W q = .ok ⟨W.r, W.c, fun i => shrinkRow q W.c (W.get i)⟩ := by
  unfold shrinkDense badRate
  simp [not_lt.2 h0, not_lt.2 h1]

/-- C26: for a rate in `[0,1]` shrinking succeeds, keeps the shape, leaves exactly the non-zero
weights that are at least the quantile of the row's non-zero weights unchanged, and makes all
other entries zero. -/
theorem C26_shrink_dense (W : Mat K) (q : K) (h0 : 0 ≤ q) (h1 : q ≤ 1) :
    ∃ W', shrinkDense W q = .ok W' ∧ W'.r = W.r ∧ W'.c = W.c ∧ ∀ i < W.r, ∀ j < W.c,
      (W.get i j ≠ 0 → rowQuantile W q i ≤ W.get i j → W'.get i j = W.get i j) ∧
      (W.get i j = 0 ∨ W.get i j < rowQuantile W q i → W'.get i j = 0) := by
  refine ⟨_, shrinkDense_ok W q h0 h1, rfl, rfl, fun i hi j hj => ?_⟩
  have hq : rowQuantile W q i = quantileVal virtLinear (nonzeroVals W.c (W.get i)) q := by
    rw [nonzeroVals_eq]; rfl
  simp only [shrinkRow_get q W.c (W.get i) hj, hq]
  refine ⟨fun hne hle => ?_, fun h => ?_⟩
  · rw [if_neg]; exact fun h => absurd h.1 (not_lt.2 hle)
  · rcases h with h | h
    · simp [h]
    · by_cases hz : W.get i j = 0
      · simp [hz]
      · rw [if_pos ⟨h, hz⟩]

/-- C26: rates outside `[0,1]` are rejected (as soon as there is a row). -/
theorem C26_rate_rejected (W : Mat K) (q : K) (hr : 0 < W.r) (h : q < 0 ∨ 1 < q) :
    shrinkDense W q = .error .valueError := by
  unfold shrinkDense badRate
  rw [if_pos]
  simp only [hr, decide_true, Bool.true_and, Bool.or_eq_true, decide_eq_true_eq]
  exact h

/-- C26: the largest weight of a row always survives unchanged; so a row with a non-zero weight
keeps one. -/
theorem C26_largest_survives (W W' : Mat K) (q : K) (h0 : 0 ≤ q) (h1 : q ≤ 1)
    (h : shrinkDense W q = .ok W') (i : Nat) (hi : i < W.r) (j : Nat) (hj : j < W.c)
    (hne : W.get i j ≠ 0) (hmax : ∀ k < W.c, W.get i k ≠ 0 → W.get i k ≤ W.get i j) :
    W'.get i j = W.get i j := by
  obtain ⟨W'', h', -, -, hspec⟩ := C26_shrink_dense W q h0 h1
  rw [h] at h'
  injection h' with h'
  subst h'
  apply (hspec i hi j hj).1 hne
  have hmem : W.get i j ∈ (W.row i).filter fun x => x ≠ 0 := by
    simp only [List.mem_filter, Mat.mem_row, decide_eq_true_eq]
    exact ⟨⟨j, hj, rfl⟩, hne⟩
  obtain ⟨-, -, b, hb, -, hle, -, -⟩ := quantileVal_between virtLinear q
    (List.length_pos_of_mem hmem)
  refine hle.trans ?_
  simp only [List.mem_filter, Mat.mem_row, decide_eq_true_eq] at hb
  obtain ⟨⟨k, hk, rfl⟩, hkne⟩ := hb
  exact hmax k hk hkne

/-- C26: a row with a non-zero weight never becomes empty. -/
theorem C26_row_not_emptied (W W' : Mat K) (q : K) (h0 : 0 ≤ q) (h1 : q ≤ 1)
    (h : shrinkDense W q = .ok W') (i : Nat) (hi : i < W.r) (j : Nat) (hj : j < W.c)
    (hne : W.get i j ≠ 0) : ∃ k < W.c, W'.get i k ≠ 0 := by
  have hmem : W.get i j ∈ (W.row i).filter fun x => x ≠ 0 := by
    simp only [List.mem_filter, Mat.mem_row, decide_eq_true_eq]
    exact ⟨⟨j, hj, rfl⟩, hne⟩
  obtain ⟨-, -, b, hb, -, -, -, hmax⟩ := quantileVal_between (virtLinear (K := K)) q
    (List.length_pos_of_mem hmem)
  simp only [List.mem_filter, Mat.mem_row, decide_eq_true_eq] at hb hmax
  obtain ⟨⟨k, hk, rfl⟩, hkne⟩ := hb
  refine ⟨k, hk, ?_⟩
  rw [C26_largest_survives W W' q h0 h1 h i hi k hk hkne fun k' hk' hne' =>
    hmax _ ⟨⟨k', hk', rfl⟩, hne'⟩]
  exact hkne

/-- Running example: one row with weights 1, 2, 0, 4, 3. -/
def exW : Mat ℚ := ⟨1, 5, fun _ j => [1, 2, 0, 4, 3].getD j 0⟩

example : okAnd (shrinkDense exW (1 / 2)) (fun W' => W'.row 0 == [0, 0, 0, 4, 3]) = true := by
  decide +kernel

/-- Survivors: the entries that are still non-zero. -/
def survivors (W : Mat K) (i : Nat) : List Nat := (List.range W.c).filter fun j => W.get i j ≠ 0

theorem mem_survivors {W : Mat K} {i j : Nat} : j ∈ survivors W i ↔ j < W.c ∧ W.get i j ≠ 0 := by
  simp [survivors]

theorem mem_survivors_shrink {W W' : Mat K} {q : K} (h0 : 0 ≤ q) (h1 : q ≤ 1)
    (h : shrinkDense W q = .ok W') {i j : Nat} (hi : i < W.r) :
    j ∈ survivors W' i ↔ j < W.c ∧ W.get i j ≠ 0 ∧ rowQuantile W q i ≤ W.get i j := by
  obtain ⟨W'', h', -, hc, hspec⟩ := C26_shrink_dense W q h0 h1
  rw [h] at h'
  injection h' with h'
  subst h'
  rw [mem_survivors, hc]
  constructor
  · rintro ⟨hj, hne⟩
    refine ⟨hj, fun hz => hne ((hspec i hi j hj).2 (.inl hz)), ?_⟩
    by_contra hlt
    exact hne ((hspec i hi j hj).2 (.inr (not_le.1 hlt)))
  · rintro ⟨hj, hne, hle⟩
    exact ⟨hj, by rw [(hspec i hi j hj).1 hne hle]; exact hne⟩

/-- C27: rate 0 changes nothing. -/
theorem C27_rate_zero (W W' : Mat K) (h : shrinkDense W 0 = .ok W') : W'.Same W := by
  obtain ⟨W'', h', hr, hc, hspec⟩ := C26_shrink_dense W 0 le_rfl zero_le_one
  rw [h] at h'
  injection h' with h'
  subst h'
  refine ⟨hr, hc, fun i hi j hj => ?_⟩
  rw [hr] at hi; rw [hc] at hj
  by_cases hne : W.get i j = 0
  · rw [hne]; exact (hspec i hi j hj).2 (.inl hne)
  · apply (hspec i hi j hj).1 hne
    have hmem : W.get i j ∈ (W.row i).filter fun x => x ≠ 0 := by
      simp only [List.mem_filter, Mat.mem_row, decide_eq_true_eq]
      exact ⟨⟨j, hj, rfl⟩, hne⟩
    exact quantile_linear_zero (List.length_pos_of_mem hmem) _ hmem

/-- C27: rate 1 keeps exactly the entries equal to the row maximum. -/
theorem C27_rate_one (W W' : Mat K) (h : shrinkDense W 1 = .ok W') (i : Nat) (hi : i < W.r)
    (j : Nat) : j ∈ survivors W' i ↔
      j < W.c ∧ W.get i j ≠ 0 ∧ ∀ k < W.c, W.get i k ≠ 0 → W.get i k ≤ W.get i j := by
  rw [mem_survivors_shrink zero_le_one le_rfl h hi]
  have key : ∀ j < W.c, W.get i j ≠ 0 → (rowQuantile W 1 i ≤ W.get i j ↔
      ∀ k < W.c, W.get i k ≠ 0 → W.get i k ≤ W.get i j) := by
    intro j hj hne
    have hmem : W.get i j ∈ (W.row i).filter fun x => x ≠ 0 := by
      simp only [List.mem_filter, Mat.mem_row, decide_eq_true_eq]
      exact ⟨⟨j, hj, rfl⟩, hne⟩
    obtain ⟨h1, h2⟩ := quantile_linear_one (List.length_pos_of_mem hmem)
    constructor
    · intro hle k hk hkne
      refine (h2 _ ?_).trans hle
      simp only [List.mem_filter, Mat.mem_row, decide_eq_true_eq]
      exact ⟨⟨k, hk, rfl⟩, hkne⟩
    · intro hall
      simp only [List.mem_filter, Mat.mem_row, decide_eq_true_eq] at h1
      obtain ⟨⟨k, hk, hkeq⟩, hkne⟩ := h1
      unfold rowQuantile
      rw [← hkeq] at hkne ⊢
      exact hall k hk hkne
  constructor
  · rintro ⟨h1, h2, h3⟩; exact ⟨h1, h2, (key j h1 h2).1 h3⟩
  · rintro ⟨h1, h2, h3⟩; exact ⟨h1, h2, (key j h1 h2).2 h3⟩

/-- C27: a larger rate keeps a subset of what a smaller rate keeps. -/
theorem C27_monotone (W W₁ W₂ : Mat K) (q₁ q₂ : K) (h0 : 0 ≤ q₁) (hq : q₁ ≤ q₂) (h1 : q₂ ≤ 1)
    (hW₁ : shrinkDense W q₁ = .ok W₁) (hW₂ : shrinkDense W q₂ = .ok W₂) (i : Nat) (hi : i < W.r)
    (j : Nat) (hj : j ∈ survivors W₂ i) : j ∈ survivors W₁ i := by
  rw [mem_survivors_shrink (h0.trans hq) h1 hW₂ hi] at hj
  rw [mem_survivors_shrink h0 (hq.trans h1) hW₁ hi]
  refine ⟨hj.1, hj.2.1, le_trans ?_ hj.2.2⟩
  have hmem : W.get i j ∈ (W.row i).filter fun x => x ≠ 0 := by
    simp only [List.mem_filter, Mat.mem_row, decide_eq_true_eq]
    exact ⟨⟨j, hj.1, rfl⟩, hj.2.1⟩
  have hl := List.length_pos_of_mem hmem
  apply quantileVal_mono hl
  unfold virtLinear
  apply mul_le_mul_of_nonneg_left hq
  have : (1 : K) ≤ (((W.row i).filter fun x => x ≠ 0).length : K) := by exact_mod_cast hl
  linarith

theorem survivors_length_eq {W W' : Mat K} {q : K} (h0 : 0 ≤ q) (h1 : q ≤ 1)
    (h : shrinkDense W q = .ok W') {i : Nat} (hi : i < W.r) :
    (survivors W' i).length = ((W.row i).filter fun x => x ≠ 0).countP fun x =>
      decide (rowQuantile W q i ≤ x) := by
  have hc : W'.c = W.c := by
    rw [shrinkDense_ok W q h0 h1] at h; injection h with h; subst h; rfl
  have : survivors W' i = (nonzeroIdx W.c (W.get i)).filter fun j =>
      decide (rowQuantile W q i ≤ W.get i j) := by
    unfold nonzeroIdx
    rw [List.filter_filter]
    conv_lhs => unfold survivors
    rw [hc]
    apply List.filter_congr
    intro j hj
    have := mem_survivors_shrink h0 h1 h (j := j) hi
    rw [mem_survivors, hc] at this
    have hj' : j < W.c := by simpa using hj
    simp only [hj', true_and] at this
    rw [Bool.eq_iff_iff, decide_eq_true_eq, this]
    simp only [Bool.and_eq_true, decide_eq_true_eq]
    tauto
  rw [this, ← nonzeroVals_eq, nonzeroVals, List.countP_map, List.countP_eq_length_filter]
  rfl

/-- C27: of `m` non-zero weights at least `⌊(1-q)(m-1)⌋ + 1` survive. -/
theorem C27_survivor_count (W W' : Mat K) (q : K) (h0 : 0 ≤ q) (h1 : q ≤ 1)
    (h : shrinkDense W q = .ok W') (i : Nat) (hi : i < W.r)
    (hne : survivors W i ≠ []) :
    ⌊(1 - q) * (((survivors W i).length : K) - 1)⌋₊ + 1 ≤ (survivors W' i).length := by
  have hlen : (survivors W i).length = ((W.row i).filter fun x => x ≠ 0).length := by
    rw [← nonzeroVals_eq]; simp [nonzeroVals, nonzeroIdx, survivors]
  rw [survivors_length_eq h0 h1 h hi, hlen]
  exact countP_ge_quantile (by rw [← hlen]; exact List.length_pos_iff.2 hne) h0 h1

/-- C27: when the non-zero weights of the row are pairwise different, exactly
`m - ⌈q (m-1)⌉` survive. -/
theorem C27_survivor_count_distinct (W W' : Mat K) (q : K) (h0 : 0 ≤ q) (h1 : q ≤ 1)
    (h : shrinkDense W q = .ok W') (i : Nat) (hi : i < W.r)
    (hne : survivors W i ≠ []) (hd : ((W.row i).filter fun x => x ≠ 0).Nodup) :
    (survivors W' i).length =
      (survivors W i).length - ⌈q * (((survivors W i).length : K) - 1)⌉₊ := by
  have hlen : (survivors W i).length = ((W.row i).filter fun x => x ≠ 0).length := by
    rw [← nonzeroVals_eq]; simp [nonzeroVals, nonzeroIdx, survivors]
  rw [survivors_length_eq h0 h1 h hi, hlen]
  exact countP_ge_quantile_nodup (by rw [← hlen]; exact List.length_pos_iff.2 hne) hd h0 h1

example : survivors exW 0 ≠ [] ∧ ((exW.row 0).filter fun x => x ≠ 0).Nodup ∧
    okAnd (shrinkDense exW (1 / 2)) (fun W' => survivors W' 0 == [3, 4]) = true :=
  ⟨by decide +kernel, by decide +kernel, by decide +kernel⟩

/-- No explicitly stored zero. -/
def Csr.NoZeros (A : Csr K) : Prop := ∀ x ∈ A.data, x ≠ 0

theorem nonzeroVals_entry {A : Csr K} (h : A.Canonical) (hz : A.NoZeros) {i : Nat} (hi : i < A.r) :
    nonzeroVals A.c (A.entry i) = A.rowData i := by
  have hidx : nonzeroIdx A.c (A.entry i) = A.rowIdx i := by
    apply List.Perm.eq_of_pairwise (le := (· < ·)) (fun _ _ _ _ h1 h2 => absurd h1 (Nat.lt_asymm h2))
    · exact List.Pairwise.filter _ List.pairwise_lt_range
    · exact h.sorted i hi
    · unfold nonzeroIdx
      rw [List.perm_ext_iff_of_nodup (List.Nodup.filter _ List.nodup_range) (nodup_of_lt (h.sorted i hi))]
      intro j
      refine (mem_nonzeroIdx (c := A.c) (g := A.entry i)).trans ?_
      constructor
      · rintro ⟨-, hne⟩
        by_contra hm
        exact hne (Csr.entry_of_not_mem hm)
      · intro hm
        refine ⟨h.rowIdx_lt hm, ?_⟩
        obtain ⟨k, hk, rfl⟩ := List.getElem_of_mem hm
        rw [h.entry_getElem hi hk]
        exact hz _ (mem_of_mem_slice (List.getElem_mem _))
  rw [nonzeroVals, hidx, h.map_entry hi]

/-- Entries of the sparse result. -/
theorem shrinkSparse_entry {A A' : Csr K} {q : K} (h : A.Canonical)
    (h' : shrinkSparse A q = .ok A') {i j : Nat} (hi : i < A.r) :
    A'.entry i j = if A.entry i j < quantileVal virtLinear (A.rowData i) q ∧ j ∈ A.rowIdx i then 0
      else A.entry i j := by
  unfold shrinkSparse at h'
  split at h'
  · cases h'
  · injection h' with h'
    subst h'
    have hcan := shrinkData_canonical A q h
    unfold Csr.eliminateZeros
    rw [hcan.keep_entry _ _ hi]
    have hidx : Csr.rowIdx { A with data := shrinkData A q } i = A.rowIdx i := rfl
    rw [hidx]
    by_cases hm : j ∈ A.rowIdx i
    · obtain ⟨k, hk, rfl⟩ := List.getElem_of_mem hm
      have e1 := h.entry_getElem hi hk
      have e2 := hcan.entry_getElem (i := i) hi (by rw [hidx]; exact hk)
      simp only [hidx] at e2
      simp only [e2, e1]
      have e3 : (Csr.rowData { A with data := shrinkData A q } i)[k]'(by
          rw [hcan.rowData_length hi]; exact hk) = if (A.rowData i)[k]'(by
          rw [h.rowData_length hi]; exact hk) < quantileVal virtLinear (A.rowData i) q then 0 else
          (A.rowData i)[k]'(by rw [h.rowData_length hi]; exact hk) := by
        simp only [shrinkData_rowData A q h hi, shrinkValues, List.getElem_map]
      rw [e3]
      simp only [hm, true_and, and_true, id, decide_eq_true_eq]
      split_ifs <;> simp_all
    · simp [hm, Csr.entry_of_not_mem hm]

/-- C28: for a canonical CSR array without stored zeros, sparse shrinking succeeds exactly when
dense shrinking of the matrix it stands for does, and represents the same result in canonical
format, again without stored zeros. -/
theorem C28_sparse_eq_dense (A : Csr K) (q : K) (h : A.Canonical) (hz : A.NoZeros) :
    (∀ e, shrinkSparse A q = .error e ↔ shrinkDense A.dense q = .error e) ∧
    ∀ A', shrinkSparse A q = .ok A' → A'.Canonical ∧ A'.NoZeros ∧
      ∃ W', shrinkDense A.dense q = .ok W' ∧ A'.dense.Same W' := by
  have hr : A.indptr.length - 1 = A.r := by rw [h.len]; rfl
  constructor
  · intro e
    unfold shrinkSparse shrinkDense
    rw [hr]
    show _ ↔ (if badRate q A.r = true then _ else _) = _
    split <;> simp
  · intro A' hA'
    have hb : ¬ badRate q A.r = true := by
      intro hb
      unfold shrinkSparse at hA'
      rw [hr, if_pos hb] at hA'
      cases hA'
    have hentry : ∀ i < A.r, ∀ j, A'.entry i j =
        if A.entry i j < quantileVal virtLinear (A.rowData i) q ∧ j ∈ A.rowIdx i then 0
          else A.entry i j := fun i hi j => shrinkSparse_entry h hA' hi
    have hcan := shrinkData_canonical A q h
    have hA'' : A' = Csr.eliminateZeros { A with data := shrinkData A q } := by
      unfold shrinkSparse at hA'
      rw [hr, if_neg hb] at hA'
      injection hA' with hA'
      exact hA'.symm
    have hr' : A'.r = A.r := by rw [hA'']; exact Csr.keep_r _ _ _
    have hc' : A'.c = A.c := by rw [hA'']; rfl
    refine ⟨by rw [hA'']; exact hcan.keep _ _, ?_, ?_⟩
    · rw [hA'']
      intro x hx
      unfold Csr.eliminateZeros Csr.keep Csr.ofRows at hx
      simp only [List.mem_map, List.mem_flatten] at hx
      obtain ⟨e, ⟨l, ⟨i, -, rfl⟩, hel⟩, rfl⟩ := hx
      simpa using (List.mem_filter.1 hel).2
    · refine ⟨⟨A.r, A.c, fun i => shrinkRow q A.c (A.entry i)⟩, ?_, ?_⟩
      · unfold shrinkDense
        exact if_neg hb
      · refine ⟨hr', hc', fun i hi j hj => ?_⟩
        have hi' : i < A.r := hr' ▸ hi
        have hj' : j < A.c := hc' ▸ hj
        show A'.entry i j = shrinkRow q A.c (A.entry i) j
        rw [hentry i hi' j, shrinkRow_get q A.c (A.entry i) hj', nonzeroVals_entry h hz hi']
        by_cases hm : j ∈ A.rowIdx i
        · have hne : A.entry i j ≠ 0 := by
            obtain ⟨k, hk, rfl⟩ := List.getElem_of_mem hm
            rw [h.entry_getElem hi' hk]
            exact hz _ (mem_of_mem_slice (List.getElem_mem _))
          simp [hm, hne]
        · have hze : A.entry i j = 0 := Csr.entry_of_not_mem hm
          simp [hm, hze]

/-- A canonical example without stored zeros. -/
def exCsr : Csr ℚ := ⟨2, 3, [0, 2, 5], [0, 2, 0, 1, 2], [1, 3, 1, 2, 4]⟩

theorem exCsr_canonical : exCsr.Canonical where
  len := rfl
  first := rfl
  mono := by decide
  last := rfl
  dataLen := rfl
  bound := by decide
  sorted := by decide

example : exCsr.Canonical ∧ exCsr.NoZeros ∧
    okAnd (shrinkSparse exCsr (1 / 2)) (fun A' => A'.indices == [2, 1, 2]) = true :=
  ⟨exCsr_canonical, by unfold Csr.NoZeros; decide +kernel, by decide +kernel⟩

/-- C28: the condition on stored zeros is needed: the same matrix stored with an explicit zero
keeps more entries. -/
theorem C28_stored_zeros_matter :
    ∃ A : Csr ℚ, A.Canonical ∧ (∃ A' W', shrinkSparse A (1 / 2) = .ok A' ∧
      shrinkDense A.dense (1 / 2) = .ok W' ∧ A'.entry 0 1 = 1 ∧ W'.get 0 1 = 0) := by
  refine ⟨⟨1, 3, [0, 3], [0, 1, 2], [0, 1, 2]⟩, ⟨rfl, rfl, by decide, rfl, rfl, by decide, by decide⟩, ?_⟩
  obtain ⟨A', h1, h2⟩ := of_okAnd (x := shrinkSparse (⟨1, 3, [0, 3], [0, 1, 2], [0, 1, 2]⟩ : Csr ℚ)
    (1 / 2)) (p := fun A' => A'.entry 0 1 == 1) (by decide +kernel)
  obtain ⟨W', h3, h4⟩ := of_okAnd (x := shrinkDense (Csr.dense ⟨1, 3, [0, 3], [0, 1, 2], [0, 1, 2]⟩ : Mat ℚ)
    (1 / 2)) (p := fun W' => W'.get 0 1 == 0) (by decide +kernel)
  exact ⟨A', W', h1, h3, by simpa using h2, by simpa using h4⟩

/-- C29: what the caller's array holds afterwards, and what is returned, for both values of
`inplace` and of `return_weight_matrix`. -/
theorem C29_caller_array (W : Mat K) (q : K) (returnWeight inplace : Bool) :
    (inplace = false → (neighbourShrinkDense W q returnWeight inplace).2 = W) ∧
    ∀ W', shrinkDense W q = .ok W' →
      (inplace = true → (neighbourShrinkDense W q returnWeight inplace).2 = W') ∧
      (returnWeight = true → (neighbourShrinkDense W q returnWeight inplace).1 = .ok (.weights W')) ∧
      (returnWeight = false → ∃ M, (neighbourShrinkDense W q returnWeight inplace).1 = .ok (.mask M) ∧
        M.r = W'.r ∧ M.c = W'.c ∧ ∀ i j, M.get i j = true ↔ 0 < W'.get i j) := by
  unfold neighbourShrinkDense
  cases h : shrinkDense W q with
  | error e => exact ⟨fun _ => rfl, fun W' hW' => by cases hW'⟩
  | ok W' =>
    refine ⟨fun hi => by simp [hi], ?_⟩
    intro W'' hW''
    injection hW'' with hW''
    subst hW''
    refine ⟨fun hi => by simp [hi], fun hr => by simp [hr], fun hr => ?_⟩
    refine ⟨gt0 W', by simp [hr], rfl, rfl, fun i j => by simp [gt0, Mat.map]⟩

/-- C29, sparse arrays: with `inplace=True` the caller's array is the shrunk one (and stored
zeros are gone), with `inplace=False` it is untouched. What is returned is the shrunk array or the
mask of its positive entries. -/
theorem C29_caller_array_sparse (A : Csr K) (q : K) (returnWeight inplace : Bool) :
    (inplace = false → (neighbourShrinkSparse A q returnWeight inplace).2 = A) ∧
    ∀ A', shrinkSparse A q = .ok A' →
      (inplace = true → (neighbourShrinkSparse A q returnWeight inplace).2 = A') ∧
      (returnWeight = true →
        (neighbourShrinkSparse A q returnWeight inplace).1 = .ok (.weights A')) ∧
      (returnWeight = false →
        ∃ B, (neighbourShrinkSparse A q returnWeight inplace).1 = .ok (.mask B) ∧
          B.r = A'.r ∧ B.c = A'.c ∧ ∀ i < A'.r,
            B.rowIdx i = (((A'.rowIdx i).zip (A'.rowData i)).filter fun e => decide (0 < e.2)).map
              Prod.fst) := by
  unfold neighbourShrinkSparse
  cases h : shrinkSparse A q with
  | error e => exact ⟨fun _ => rfl, fun W' hW' => by cases hW'⟩
  | ok A' =>
    refine ⟨fun hi => by simp [hi], ?_⟩
    intro A'' hA''
    injection hA'' with hA''
    subst hA''
    refine ⟨fun hi => by simp [hi], fun hr => by simp [hr], fun hr => ?_⟩
    refine ⟨A'.gt0, by simp [hr], Csr.keep_r _ _ _, Csr.keep_c _ _ _, fun i hi => ?_⟩
    exact Csr.keep_rowIdx _ _ _ hi

end Geo
