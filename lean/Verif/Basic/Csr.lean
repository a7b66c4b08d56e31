import Verif.Basic.Err
import Verif.Basic.Mat
import Mathlib.Data.List.Basic
import Mathlib.Data.List.Pairwise
import Mathlib.Algebra.Order.Group.Nat
import Mathlib.Tactic.Linarith
/-
Compressed sparse row arrays (`scipy.sparse.csr_array`).
-/
namespace Geo
variable {α β : Type}

/-- Python's `l[a:b]` for non-negative bounds. -/
def slice (l : List β) (a b : Nat) : List β := (l.drop a).take (b - a)

theorem slice_length (l : List β) {a b : Nat} (hb : b ≤ l.length) : (slice l a b).length = b - a := by
  simp [slice]; omega

theorem mem_of_mem_slice {l : List β} {a b : Nat} {x : β} (h : x ∈ slice l a b) : x ∈ l :=
  List.mem_of_mem_drop (List.mem_of_mem_take h)

theorem slice_getElem? (l : List β) (a b i : Nat) :
    (slice l a b)[i]? = if i < b - a then l[a + i]? else none := by
  simp [slice, List.getElem?_take]

/-- `indptr`, `indices`, `data` and the shape of a CSR array. -/
structure Csr (α : Type) where
  r : Nat
  c : Nat
  indptr : List Nat
  indices : List Nat
  data : List α

namespace Csr

def ptr (A : Csr α) (i : Nat) : Nat := A.indptr.getD i 0

/-- `indices[indptr[i] : indptr[i+1]]`. -/
def rowIdx (A : Csr α) (i : Nat) : List Nat := slice A.indices (A.ptr i) (A.ptr (i + 1))

/-- `data[indptr[i] : indptr[i+1]]`. -/
def rowData (A : Csr α) (i : Nat) : List α := slice A.data (A.ptr i) (A.ptr (i + 1))

/-- The stored value at `(i, j)`, or zero. (scipy adds duplicates; canonical arrays have none.) -/
def entry [Zero α] (A : Csr α) (i j : Nat) : α :=
  (((A.rowIdx i).zip (A.rowData i)).lookup j).getD 0

/-- The dense matrix a CSR array stands for. -/
def dense [Zero α] (A : Csr α) : Mat α := ⟨A.r, A.c, A.entry⟩

/-- What scipy calls canonical format: consistent row pointers, and strictly increasing column
indices inside each row. -/
structure Canonical (A : Csr α) : Prop where
  len : A.indptr.length = A.r + 1
  first : A.ptr 0 = 0
  mono : ∀ i < A.r, A.ptr i ≤ A.ptr (i + 1)
  last : A.ptr A.r = A.indices.length
  dataLen : A.data.length = A.indices.length
  bound : ∀ j ∈ A.indices, j < A.c
  sorted : ∀ i < A.r, (A.rowIdx i).Pairwise (· < ·)

theorem Canonical.ptr_mono {A : Csr α} (h : A.Canonical) {i j : Nat} (hij : i ≤ j) (hj : j ≤ A.r) :
    A.ptr i ≤ A.ptr j := by
  induction j with
  | zero => obtain rfl : i = 0 := by omega
            exact le_rfl
  | succ j ih =>
    rcases Nat.lt_or_ge i (j + 1) with h1 | h1
    · exact (ih (by omega) (by omega)).trans (h.mono j (by omega))
    · obtain rfl : i = j + 1 := by omega
      exact le_rfl

theorem Canonical.ptr_le {A : Csr α} (h : A.Canonical) {i : Nat} (hi : i ≤ A.r) :
    A.ptr i ≤ A.indices.length := h.last ▸ h.ptr_mono hi le_rfl

theorem Canonical.rowData_length {A : Csr α} (h : A.Canonical) {i : Nat} (hi : i < A.r) :
    (A.rowData i).length = (A.rowIdx i).length := by
  unfold rowData rowIdx
  rw [slice_length _ (by rw [h.dataLen]; exact h.ptr_le hi), slice_length _ (h.ptr_le hi)]

theorem Canonical.rowIdx_lt {A : Csr α} (h : A.Canonical) {i j : Nat} (hj : j ∈ A.rowIdx i) :
    j < A.c := h.bound j (mem_of_mem_slice hj)

end Csr

/-- The row pointers the code builds from a list of rows: `indptr[0] = 0` and
`indptr[i+1] = indptr[i] + len(rows[i])`
(`neighbour_utils.py:31-33` and `neighbour_utils.py:201-203`). -/
def indptrOf (rows : List (List β)) : List Nat := (rows.map List.length).scanl (· + ·) 0

theorem scanl_add_length (l : List Nat) (a : Nat) : (l.scanl (· + ·) a).length = l.length + 1 := by
  simp

theorem scanl_add_getElem? (l : List Nat) (a i : Nat) (hi : i ≤ l.length) :
    (l.scanl (· + ·) a)[i]? = some (a + (l.take i).sum) := by
  induction l generalizing a i with
  | nil =>
    obtain rfl : i = 0 := by simpa using hi
    simp
  | cons x l ih =>
    cases i with
    | zero => simp [List.scanl]
    | succ i =>
      simp only [List.length_cons, Nat.add_le_add_iff_right] at hi
      simp only [List.scanl_cons, List.getElem?_cons_succ, ih _ _ hi, List.take_succ_cons,
        List.sum_cons]
      congr 1; omega

theorem indptrOf_getElem? (rows : List (List β)) {i : Nat} (hi : i ≤ rows.length) :
    (indptrOf rows)[i]? = some (rows.take i).flatten.length := by
  unfold indptrOf
  rw [scanl_add_getElem? _ _ _ (by simpa using hi)]
  simp [List.length_flatten, List.map_take]

theorem indptrOf_getD (rows : List (List β)) {i : Nat} (hi : i ≤ rows.length) (d : Nat) :
    (indptrOf rows).getD i d = (rows.take i).flatten.length := by
  simp [List.getD, indptrOf_getElem? rows hi]

theorem indptrOf_length (rows : List (List β)) : (indptrOf rows).length = rows.length + 1 := by
  simp [indptrOf]

/-- Slicing the concatenation by the row pointers gives back the rows. -/
theorem slice_flatten (rows : List (List β)) {i : Nat} (hi : i < rows.length) :
    slice rows.flatten (rows.take i).flatten.length (rows.take (i + 1)).flatten.length = rows[i] := by
  have h1 : rows = rows.take i ++ rows[i] :: rows.drop (i + 1) := by
    rw [← List.drop_eq_getElem_cons hi, List.take_append_drop]
  have h2 : rows.take (i + 1) = rows.take i ++ [rows[i]] := by
    rw [List.take_add_one, List.getElem?_eq_getElem hi]; rfl
  rw [h2]
  have h3 : rows.flatten = (rows.take i ++ rows[i] :: rows.drop (i + 1)).flatten := by rw [← h1]
  rw [h3]
  generalize rows.take i = a
  generalize rows.drop (i+1) = b
  generalize rows[i] = x
  simp [slice]

/-- A CSR array assembled from its rows with a given shape. -/
def Csr.ofRows (c : Nat) (idx : List (List Nat)) (data : List α) : Csr α :=
  ⟨idx.length, c, indptrOf idx, idx.flatten, data⟩

theorem Csr.ofRows_rowIdx (c : Nat) (idx : List (List Nat)) (data : List α) {i : Nat}
    (hi : i < idx.length) : (Csr.ofRows c idx data).rowIdx i = idx[i] := by
  unfold Csr.rowIdx Csr.ptr Csr.ofRows
  simp only [indptrOf_getD idx hi.le, indptrOf_getD idx (Nat.succ_le_of_lt hi)]
  exact slice_flatten idx hi

theorem Csr.ofRows_canonical (c : Nat) (idx : List (List Nat)) (data : List α)
    (hd : data.length = idx.flatten.length) (hb : ∀ l ∈ idx, ∀ j ∈ l, j < c)
    (hs : ∀ l ∈ idx, l.Pairwise (· < ·)) : (Csr.ofRows c idx data).Canonical where
  len := by simp [Csr.ofRows, indptrOf_length]
  first := by
    simp only [Csr.ptr, Csr.ofRows]
    rw [indptrOf_getD _ (Nat.zero_le _)]; simp
  mono i hi := by
    simp only [Csr.ofRows] at hi
    simp only [Csr.ptr, Csr.ofRows]
    rw [indptrOf_getD idx hi.le, indptrOf_getD idx (Nat.succ_le_of_lt hi), List.take_add_one]
    simp
  last := by
    simp only [Csr.ptr, Csr.ofRows]
    rw [indptrOf_getD idx le_rfl, List.take_length]
  dataLen := hd
  bound j hj := by
    obtain ⟨l, hl, hj⟩ := List.mem_flatten.1 hj
    exact hb l hl j hj
  sorted i hi := by
    simp only [Csr.ofRows] at hi
    rw [Csr.ofRows_rowIdx c idx data hi]
    exact hs _ (List.getElem_mem hi)

end Geo
