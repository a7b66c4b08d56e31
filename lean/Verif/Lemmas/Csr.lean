import Verif.Model.Neighbour
set_option linter.unusedSectionVars false
/-
Lemmas on CSR arrays: entries, filtering of stored entries, and the row loop of
`_neighbour_shrink_sparse`.
-/
namespace Geo
variable {α β : Type}

theorem lookup_zip_of_not_mem {idx : List Nat} {vals : List α} {j : Nat} (h : j ∉ idx) :
    (idx.zip vals).lookup j = none := by
  induction idx generalizing vals with
  | nil => rfl
  | cons a l ih =>
    cases vals with
    | nil => rfl
    | cons v vals =>
      simp only [List.mem_cons, not_or] at h
      have : (j == a) = false := by simpa using h.1
      simp [List.lookup, this, ih h.2]

theorem lookup_zip_getElem {idx : List Nat} {vals : List α} (hnd : idx.Nodup)
    (hl : vals.length = idx.length) {k : Nat} (hk : k < idx.length) :
    (idx.zip vals).lookup idx[k] = some (vals[k]'(hl ▸ hk)) := by
  induction idx generalizing vals k with
  | nil => simp at hk
  | cons a l ih =>
    cases vals with
    | nil => simp at hl
    | cons v vals =>
      cases k with
      | zero => simp
      | succ k =>
        simp only [List.length_cons, Nat.add_lt_add_iff_right] at hk
        have hne : (l[k] == a) = false := by
          have := (List.nodup_cons.1 hnd).1
          simp only [beq_eq_false_iff_ne]
          intro h; exact this (h ▸ List.getElem_mem hk)
        simp only [List.zip_cons_cons, List.getElem_cons_succ, List.lookup, hne]
        exact ih (List.nodup_cons.1 hnd).2 (by simpa using hl) hk

theorem zip_map_self {γ δ : Type} (l : List γ) (g : γ → δ) :
    l.zip (l.map g) = l.map fun x => (x, g x) := by
  induction l with
  | nil => rfl
  | cons a l ih => simp [ih]

theorem nodup_of_lt {l : List Nat} (h : l.Pairwise (· < ·)) : l.Nodup :=
  h.imp fun h => Nat.ne_of_lt h

namespace Csr

theorem Canonical.entry_getElem [Zero α] {A : Csr α} (h : A.Canonical) {i k : Nat} (hi : i < A.r)
    (hk : k < (A.rowIdx i).length) :
    A.entry i (A.rowIdx i)[k] = (A.rowData i)[k]'(by rw [h.rowData_length hi]; exact hk) := by
  unfold entry
  rw [lookup_zip_getElem (nodup_of_lt (h.sorted i hi)) (h.rowData_length hi) hk]
  rfl

theorem entry_of_not_mem [Zero α] {A : Csr α} {i j : Nat} (h : j ∉ A.rowIdx i) :
    A.entry i j = 0 := by
  unfold entry
  rw [lookup_zip_of_not_mem h]
  rfl

theorem Canonical.map_entry [Zero α] {A : Csr α} (h : A.Canonical) {i : Nat} (hi : i < A.r) :
    (A.rowIdx i).map (A.entry i) = A.rowData i := by
  apply List.ext_getElem
  · rw [List.length_map, h.rowData_length hi]
  · intro k h1 h2
    rw [List.getElem_map]
    exact h.entry_getElem hi (by simpa using h1)

/-- Row `i` as a list of (column, value). -/
def row (A : Csr α) (i : Nat) : List (Nat × α) := (A.rowIdx i).zip (A.rowData i)

theorem keep_r (A : Csr α) (p : Nat → Nat → α → Bool) (f : α → β) : (A.keep p f).r = A.r := by
  simp [keep, ofRows]

theorem keep_c (A : Csr α) (p : Nat → Nat → α → Bool) (f : α → β) : (A.keep p f).c = A.c := rfl

theorem keep_rowIdx (A : Csr α) (p : Nat → Nat → α → Bool) (f : α → β) {i : Nat} (hi : i < A.r) :
    (A.keep p f).rowIdx i = ((A.row i).filter fun e => p i e.1 e.2).map Prod.fst := by
  unfold keep
  rw [ofRows_rowIdx _ _ _ (by simpa using hi)]
  simp [row]

theorem keep_rowData (A : Csr α) (p : Nat → Nat → α → Bool) (f : α → β) {i : Nat} (hi : i < A.r) :
    (A.keep p f).rowData i = ((A.row i).filter fun e => p i e.1 e.2).map fun e => f e.2 := by
  have hlen : ∀ (R : List (List (Nat × α))) (n : Nat),
      ((R.map (List.map Prod.fst)).take n).flatten.length =
        ((R.map (List.map fun e => f e.2)).take n).flatten.length := by
    intro R n
    simp only [List.length_flatten, ← List.map_take, List.map_map]
    congr 1
    apply List.map_congr_left
    intro x _; simp
  unfold keep rowData ptr ofRows
  simp only
  rw [indptrOf_getD _ (by simpa using hi.le), indptrOf_getD _ (by simpa using Nat.succ_le_of_lt hi), hlen, hlen,
    List.map_flatten, slice_flatten _ (by simpa using hi)]
  simp [row, rowData, ptr]

theorem Canonical.keep {A : Csr α} (h : A.Canonical) (p : Nat → Nat → α → Bool) (f : α → β) :
    (A.keep p f).Canonical := by
  have hkey : ∀ i < A.r, (A.row i).map Prod.fst = A.rowIdx i := by
    intro i hi
    unfold row
    rw [List.map_fst_zip]
    rw [h.rowData_length hi]
  apply ofRows_canonical
  · simp only [List.length_map, List.length_flatten, List.map_map]
    congr 1
    apply List.map_congr_left
    intro x _
    simp
  · intro l hl j hj
    simp only [List.map_map, List.mem_map, List.mem_range] at hl
    obtain ⟨i, hi, rfl⟩ := hl
    obtain ⟨e, he, rfl⟩ := List.mem_map.1 hj
    apply h.rowIdx_lt (i := i)
    rw [← hkey i hi]
    exact List.mem_map.2 ⟨e, (List.mem_filter.1 he).1, rfl⟩
  · intro l hl
    simp only [List.map_map, List.mem_map, List.mem_range] at hl
    obtain ⟨i, hi, rfl⟩ := hl
    simp only [Function.comp]
    have hs := h.sorted i hi
    rw [← hkey i hi] at hs
    exact hs.sublist (List.Sublist.map _ List.filter_sublist)

/-- Stored positions after filtering. -/
theorem Canonical.mem_keep_rowIdx [Zero α] {A : Csr α} (h : A.Canonical)
    (p : Nat → Nat → α → Bool) (f : α → β) {i j : Nat} (hi : i < A.r) :
    j ∈ (A.keep p f).rowIdx i ↔ j ∈ A.rowIdx i ∧ p i j (A.entry i j) = true := by
  rw [keep_rowIdx A p f hi]
  have hrow : A.row i = (A.rowIdx i).map fun j => (j, A.entry i j) := by
    unfold row
    rw [← h.map_entry hi, zip_map_self]
  rw [hrow, List.filter_map, List.map_map]
  simp only [List.mem_map, List.mem_filter, Function.comp]
  constructor
  · rintro ⟨k, ⟨h1, h2⟩, rfl⟩; exact ⟨h1, h2⟩
  · rintro ⟨h1, h2⟩; exact ⟨j, ⟨h1, h2⟩, rfl⟩

theorem Canonical.row_eq [Zero α] {A : Csr α} (h : A.Canonical) {i : Nat} (hi : i < A.r) :
    A.row i = (A.rowIdx i).map fun j => (j, A.entry i j) := by
  unfold row
  rw [← h.map_entry hi, zip_map_self]

/-- Entries after filtering: kept entries are mapped, others are zero. -/
theorem Canonical.keep_entry [Zero α] [Zero β] {A : Csr α} (h : A.Canonical)
    (p : Nat → Nat → α → Bool) (f : α → β) {i j : Nat} (hi : i < A.r) :
    (A.keep p f).entry i j =
      if j ∈ A.rowIdx i ∧ p i j (A.entry i j) = true then f (A.entry i j) else 0 := by
  split
  · rename_i hc
    have hm := (h.mem_keep_rowIdx p f hi).2 hc
    obtain ⟨k, hk, rfl⟩ := List.getElem_of_mem hm
    rw [(h.keep p f).entry_getElem (by rw [keep_r]; exact hi) hk]
    have h1 := keep_rowData A p f hi
    have h2 := keep_rowIdx A p f hi
    rw [h.row_eq hi, List.filter_map, List.map_map] at h1 h2
    simp only [h1, h2, List.getElem_map, Function.comp]
  · rename_i hc
    apply entry_of_not_mem
    intro hm
    exact hc ((h.mem_keep_rowIdx p f hi).1 hm)

end Csr

variable {K : Type} [Field K] [LinearOrder K] [IsStrictOrderedRing K] [FloorRing K]

theorem shrinkValues_length (q : K) (l : List K) : (shrinkValues q l).length = l.length := by
  simp [shrinkValues]

/-- The loop over the rows replaces the data of each row by the shrunk data. -/
theorem shrinkLoop (A : Csr K) (q : K) (h : A.Canonical) (n : Nat) (hn : n ≤ A.r) :
    (List.range n).foldl (shrinkSlice q A.ptr) A.data =
      ((List.range n).map fun i => shrinkValues q (A.rowData i)).flatten ++ A.data.drop (A.ptr n) ∧
    ((List.range n).map fun i => shrinkValues q (A.rowData i)).flatten.length = A.ptr n := by
  induction n with
  | zero => simp [h.first]
  | succ n ih =>
    obtain ⟨ih1, ih2⟩ := ih (by omega)
    have hm := h.mono n (by omega)
    have hle : A.ptr (n + 1) ≤ A.data.length := by rw [h.dataLen]; exact h.ptr_le hn
    have hrd : (A.rowData n).length = A.ptr (n + 1) - A.ptr n := slice_length _ hle
    rw [List.range_succ, List.foldl_append, List.map_append, List.flatten_append, ih1]
    generalize hP : ((List.range n).map fun i => shrinkValues q (A.rowData i)).flatten = P at ih2
    have hsl : slice (P ++ A.data.drop (A.ptr n)) (A.ptr n) (A.ptr (n + 1)) = A.rowData n := by
      unfold slice Csr.rowData
      rw [← ih2, List.drop_left]
      rfl
    constructor
    · simp only [List.foldl_cons, List.foldl_nil, shrinkSlice, hsl, List.map_cons, List.map_nil,
        List.flatten_cons, List.flatten_nil, List.append_nil, writeSlice, shrinkValues_length, hrd]
      have h1 : (P ++ A.data.drop (A.ptr n)).take (A.ptr n) = P := by rw [← ih2, List.take_left]
      have h2 : (P ++ A.data.drop (A.ptr n)).drop (A.ptr n + (A.ptr (n + 1) - A.ptr n)) =
          A.data.drop (A.ptr (n + 1)) := by
        rw [← List.drop_drop]
        conv_lhs => rw [show (P ++ A.data.drop (A.ptr n)).drop (A.ptr n) = A.data.drop (A.ptr n) by
          conv_lhs => rw [← ih2]
          rw [List.drop_left, ih2]]
        rw [List.drop_drop]
        congr 1; omega
      rw [h1, h2]
    · simp only [List.map_cons, List.map_nil, List.flatten_cons, List.flatten_nil, List.append_nil,
        List.length_append, ih2, shrinkValues_length, hrd]
      omega

theorem shrinkData_eq (A : Csr K) (q : K) (h : A.Canonical) :
    shrinkData A q = ((List.range A.r).map fun i => shrinkValues q (A.rowData i)).flatten := by
  unfold shrinkData
  rw [h.len, Nat.add_sub_cancel, (shrinkLoop A q h A.r le_rfl).1]
  have : A.data.drop (A.ptr A.r) = [] := by
    rw [List.drop_eq_nil_iff, h.last, h.dataLen]
  rw [this, List.append_nil]

theorem shrinkData_length (A : Csr K) (q : K) (h : A.Canonical) :
    (shrinkData A q).length = A.indices.length := by
  rw [shrinkData_eq A q h, (shrinkLoop A q h A.r le_rfl).2, h.last]

/-- The shrunk data of row `i`. -/
theorem shrinkData_rowData (A : Csr K) (q : K) (h : A.Canonical) {i : Nat} (hi : i < A.r) :
    Csr.rowData { A with data := shrinkData A q } i = shrinkValues q (A.rowData i) := by
  unfold Csr.rowData
  show slice (shrinkData A q) (A.ptr i) (A.ptr (i + 1)) = _
  rw [shrinkData_eq A q h]
  have e : ∀ n ≤ A.r, A.ptr n =
      (((List.range A.r).map fun i => shrinkValues q (A.rowData i)).take n).flatten.length := by
    intro n hn
    rw [← (shrinkLoop A q h n hn).2, ← List.map_take, List.take_range, Nat.min_eq_left hn]
  rw [e i hi.le, e (i + 1) hi, slice_flatten _ (by simpa using hi)]
  simp only [List.getElem_map, List.getElem_range]
  rw [← e i hi.le, ← e (i + 1) hi]
  rfl

theorem shrinkData_canonical (A : Csr K) (q : K) (h : A.Canonical) :
    Csr.Canonical { A with data := shrinkData A q } where
  len := h.len
  first := h.first
  mono := h.mono
  last := h.last
  dataLen := shrinkData_length A q h
  bound := h.bound
  sorted := h.sorted

end Geo
