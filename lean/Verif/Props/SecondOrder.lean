import Verif.Model.Neighbour
/-
Properties C23 and C24: second-order neighbours.
-/
namespace Geo

/-- C23. -/
theorem C23_second_order_dense (A leaveOut : Mat Bool) (i j : Nat) :
    (secondOrderDense A leaveOut).get i j = true ↔
      ∃ k < A.r, leaveOut.get i k = true ∧ A.get k j = true := by
  simp only [secondOrderDense, decide_eq_true_eq, ne_eq, List.sum_eq_zero_iff_forall_eq_nat, not_forall]
  constructor
  · rintro ⟨x, hx, hne⟩
    obtain ⟨k, hk, rfl⟩ := List.mem_map.1 hx
    obtain ⟨hk1, hk2⟩ := List.mem_filter.1 hk
    refine ⟨k, by simpa using hk1, hk2, ?_⟩
    by_contra h
    simp [h] at hne
  · rintro ⟨k, hk, h1, h2⟩
    refine ⟨1, List.mem_map.2 ⟨k, List.mem_filter.2 ⟨by simpa using hk, h1⟩, by simp [h2]⟩, by simp⟩

/-- C23: the API function on dense input, with the default `leave_out`: exactly the pairs
linked by a path of length two, in an `N × N` array. -/
theorem C23_second_order_api (A : Mat Bool) (leaveOut : Option (Mat Bool)) :
    ∃ M, secondOrderNeighbour (.dense A) (leaveOut.map .dense) = .ok (.dense M) ∧
      M.r = A.c ∧ M.c = A.c ∧ ∀ i j, M.get i j = true ↔
        ∃ k < A.r, (leaveOut.getD A).get i k = true ∧ A.get k j = true := by
  refine ⟨secondOrderDense A (leaveOut.getD A), ?_, rfl, rfl, C23_second_order_dense A _⟩
  cases leaveOut <;> rfl

example : (secondOrderDense ⟨3, 3, fun i j => decide (j = i + 1)⟩
    ⟨3, 3, fun i j => decide (j = i + 1)⟩).get 0 2 = true := by decide

theorem setAll_getD (l : List Nat) (u : List Bool) (j : Nat) :
    (l.foldl (fun u j => u.set j true) u).getD j false = true ↔
      (j < u.length ∧ j ∈ l) ∨ u.getD j false = true := by
  induction l generalizing u with
  | nil => simp
  | cons a l ih =>
    simp only [List.foldl_cons, ih, List.length_set, List.mem_cons]
    have : (u.set a true).getD j false = true ↔ (j < u.length ∧ j = a) ∨ u.getD j false = true := by
      simp only [List.getD, List.getElem?_set]
      by_cases h : a = j
      · subst h
        by_cases hl : a < u.length <;> simp [hl]
      · simp [h, Ne.symm h]
    rw [this]
    tauto

theorem setAll_length (l : List Nat) (u : List Bool) :
    (l.foldl (fun u j => u.set j true) u).length = u.length := by
  induction l generalizing u with
  | nil => rfl
  | cons a l ih => simp [ih]

theorem flags_getD {α : Type} (A : Csr α) (ks : List Nat) (u : List Bool) (j : Nat) :
    (ks.foldl (fun u k => (A.rowIdx k).foldl (fun u j => u.set j true) u) u).getD j false = true ↔
      (j < u.length ∧ ∃ k ∈ ks, j ∈ A.rowIdx k) ∨ u.getD j false = true := by
  induction ks generalizing u with
  | nil => simp
  | cons k ks ih =>
    simp only [List.foldl_cons, ih, setAll_length, setAll_getD, List.exists_mem_cons_iff]
    generalize (∃ k ∈ ks, j ∈ A.rowIdx k) = P
    generalize (u.getD j false = true) = Q
    tauto

/-- The marked positions of one row. -/
theorem mem_secondOrderRow {α β : Type} (A : Csr α) (L : Csr β) (N i j : Nat) :
    j ∈ secondOrderRow A L N i ↔ j < N ∧ ∃ k ∈ L.rowIdx i, j ∈ A.rowIdx k := by
  simp only [secondOrderRow, List.mem_filter, List.mem_range, flags_getD, List.length_replicate]
  constructor
  · rintro ⟨h1, h | h⟩
    · exact h
    · simp [List.getD, h1] at h
  · rintro ⟨h1, h2⟩
    exact ⟨h1, .inl ⟨h1, h2⟩⟩

theorem secondOrderRow_sorted {α β : Type} (A : Csr α) (L : Csr β) (N i : Nat) :
    (secondOrderRow A L N i).Pairwise (· < ·) :=
  List.Pairwise.filter _ List.pairwise_lt_range

/-- The relation of the stored positions of a CSR array, as a boolean matrix. -/
def Csr.pattern {α : Type} (A : Csr α) : Mat Bool := ⟨A.r, A.c, fun i j => decide (j ∈ A.rowIdx i)⟩

theorem csrInferred_cases (rows : List (List Nat)) :
    ((∀ l ∈ rows, l = []) ∧ csrInferred rows = .error .valueError) ∨
      ∃ m, m ∈ rows.flatten ∧ (∀ l ∈ rows, ∀ j ∈ l, j ≤ m) ∧
        csrInferred rows = .ok (Csr.ofRows (m + 1) rows (rows.flatten.map fun _ => 1)) := by
  unfold csrInferred
  cases h : rows.flatten.max? with
  | none =>
    left
    rw [List.max?_eq_none_iff] at h
    exact ⟨List.flatten_eq_nil_iff.1 h, rfl⟩
  | some m =>
    right
    obtain ⟨h1, h2⟩ := List.max?_eq_some_iff.1 h
    exact ⟨m, h1, fun l hl j hj => h2 j (List.mem_flatten.2 ⟨l, hl, hj⟩), rfl⟩

/-- C24: for square canonical CSR arrays the sparse path either finds no second-order
neighbour at all and raises `ValueError`, or returns a canonical CSR array with one row per
point whose stored positions are exactly the `true` entries of the dense path; its number of
columns is one more than the largest index that occurs. -/
theorem C24_sparse_eq_dense (A L : Csr Bool) (N : Nat) (hA : A.Canonical) (hAr : A.r = N)
    (hAc : A.c = N) (hL : L.Canonical) (hLr : L.r = N) (hLc : L.c = N) :
    ((∀ i < N, ∀ j < N, (secondOrderDense A.pattern L.pattern).get i j = false) ∧
        secondOrderNeighbour (.sparse A) (some (.sparse L)) = .error .valueError) ∨
    ∃ M, secondOrderNeighbour (.sparse A) (some (.sparse L)) = .ok (.sparse M) ∧
      M.Canonical ∧ M.r = N ∧ M.c ≤ N ∧
      (∀ i < N, ∀ j, j ∈ M.rowIdx i ↔
        j < N ∧ (secondOrderDense A.pattern L.pattern).get i j = true) ∧
      (M.c = N ↔ ∃ i < N, (secondOrderDense A.pattern L.pattern).get i (N - 1) = true) := by
  have hN : A.indptr.length - 1 = N := by rw [hA.len, hAr]; rfl
  have hlen : (secondOrderRows A L).length = N := by simp [secondOrderRows, hN]
  have hrow : ∀ i (h : i < (secondOrderRows A L).length),
      (secondOrderRows A L)[i] = secondOrderRow A L N i := by
    intro i h; simp [secondOrderRows, hN]
  have hrel : ∀ i < N, ∀ j, j ∈ secondOrderRow A L N i ↔
      j < N ∧ (secondOrderDense A.pattern L.pattern).get i j = true := by
    intro i hi j
    rw [mem_secondOrderRow, C23_second_order_dense]
    simp only [Csr.pattern, decide_eq_true_eq, hAr]
    constructor
    · rintro ⟨h1, k, hk, hj⟩
      exact ⟨h1, k, hLc ▸ hL.rowIdx_lt hk, hk, hj⟩
    · rintro ⟨h1, k, -, hk, hj⟩
      exact ⟨h1, k, hk, hj⟩
  have hmem : ∀ l ∈ secondOrderRows A L, ∃ i < N, l = secondOrderRow A L N i := by
    intro l hl
    obtain ⟨i, hi, rfl⟩ := List.getElem_of_mem hl
    exact ⟨i, hlen ▸ hi, hrow i hi⟩
  have hmem' : ∀ i < N, secondOrderRow A L N i ∈ secondOrderRows A L := by
    intro i hi
    rw [← hrow i (hlen ▸ hi)]
    exact List.getElem_mem _
  have hun : secondOrderNeighbour (.sparse A) (some (.sparse L)) =
      (csrInferred (secondOrderRows A L)).map .sparse := rfl
  rw [hun]
  rcases csrInferred_cases (secondOrderRows A L) with ⟨h0, h⟩ | ⟨m, hm, hmax, h⟩
  · left
    rw [h]
    refine ⟨fun i hi j hj => ?_, rfl⟩
    by_contra hne
    have : j ∈ secondOrderRow A L N i := (hrel i hi j).2 ⟨hj, by simpa using hne⟩
    rw [h0 _ (hmem' i hi)] at this
    simp at this
  · right
    rw [h]
    obtain ⟨l, hl, hml⟩ := List.mem_flatten.1 hm
    obtain ⟨i0, hi0, rfl⟩ := hmem l hl
    have hmN : m < N := ((hrel i0 hi0 m).1 hml).1
    have hidx : ∀ i < N, (Csr.ofRows (m + 1) (secondOrderRows A L)
        ((secondOrderRows A L).flatten.map fun _ => 1)).rowIdx i = secondOrderRow A L N i := by
      intro i hi
      rw [Csr.ofRows_rowIdx _ _ _ (hlen ▸ hi), hrow]
    refine ⟨_, rfl, ?_, hlen, hmN, ?_, ?_⟩
    · apply Csr.ofRows_canonical
      · rw [List.length_map]
      · intro l hl j hj
        exact Nat.lt_succ_of_le (hmax l hl j hj)
      · intro l hl
        obtain ⟨i, -, rfl⟩ := hmem l hl
        exact secondOrderRow_sorted A L N i
    · intro i hi j
      rw [hidx i hi, hrel i hi]
    · show m + 1 = N ↔ _
      constructor
      · intro hm1
        refine ⟨i0, hi0, ?_⟩
        have := ((hrel i0 hi0 m).1 hml).2
        rwa [show N - 1 = m by omega]
      · rintro ⟨i, hi, hn⟩
        have h1 : N - 1 ∈ secondOrderRow A L N i := (hrel i hi _).2 ⟨by omega, hn⟩
        have := hmax _ (hmem' i hi) _ h1
        omega

/-- A canonical 3 x 3 example: 0 → 1 → 2 → 0. -/
def exCycle : Csr Bool := ⟨3, 3, [0, 1, 2, 3], [1, 2, 0], [true, true, true]⟩

theorem exCycle_canonical : exCycle.Canonical where
  len := rfl
  first := rfl
  mono := by decide
  last := rfl
  dataLen := rfl
  bound := by decide
  sorted := by decide

example : exCycle.Canonical ∧ exCycle.r = 3 ∧ exCycle.c = 3 ∧
    (secondOrderDense exCycle.pattern exCycle.pattern).get 0 2 = true :=
  ⟨exCycle_canonical, rfl, rfl, by decide⟩

/-- C24: when the last point is nobody's second-order neighbour the returned array is not
square: point 2 has no incoming link here. -/
theorem C24_shape_can_shrink :
    let A : Csr Bool := ⟨3, 3, [0, 1, 2, 3], [1, 0, 0], [true, true, true]⟩
    ∃ M, secondOrderNeighbour (.sparse A) none = .ok (.sparse M) ∧ M.r = 3 ∧ M.c = 2 := by
  refine ⟨_, rfl, rfl, rfl⟩

end Geo
