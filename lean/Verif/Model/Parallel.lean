import Verif.Basic.Par
import Verif.Model.Neighbour
/-
The `prange` loops of `georegression/neighbour_utils.py` as programs of atomic steps on shared
memory. An iteration reads and writes one array element per step; local variables of the loop
body are private to the iteration (numba privatises them). Arrays that are only read are
parameters.
-/
namespace Geo
namespace Par

/-! ### Second-order neighbours, dense (`neighbour_utils.py:68-75`) -/

/-- Add element `(k, j)` of the neighbour matrix to the private sum vector of the iteration
(`neighbour_utils.py:71-74`). -/
def sumStep (A : Mat Bool) (k j : Nat) : Act (Nat × Nat) Bool (Nat → Nat) :=
  fun l m => (Function.update l j (l j + if A.get k j then 1 else 0), m)

/-- Store element `(i, j)` of the result (`neighbour_utils.py:71-74`). -/
def storeBool (i j : Nat) : Act (Nat × Nat) Bool (Nat → Nat) :=
  fun l m => (l, Function.update m (i, j) (decide (l j ≠ 0)))

/-- Iteration `i` of `_second_order_neighbour_dense` (`neighbour_utils.py:71-74`). -/
def secondOrderActs (A leaveOut : Mat Bool) (i : Nat) : List (Act (Nat × Nat) Bool (Nat → Nat)) :=
  (((List.range A.r).filter fun k => leaveOut.get i k).flatMap fun k =>
    (List.range A.c).map (sumStep A k)) ++ (List.range A.c).map (storeBool i)

/-! ### Second-order neighbours, sparse (`neighbour_utils.py:49-63`) -/

/-- Set one flag of the private flag array (`neighbour_utils.py:60`). -/
def markStep (j : Nat) : Act Nat (List Nat) (List Bool) := fun l m => (l.set j true, m)

/-- `indices_list[row_index] = np.nonzero(flags)[0]` (`neighbour_utils.py:62-63`). -/
def storeRow (N i : Nat) : Act Nat (List Nat) (List Bool) :=
  fun l m => (l, Function.update m i ((List.range N).filter fun j => l.getD j false))

/-- Iteration `i` of `_second_order_neighbour_sparse` (`neighbour_utils.py:50-63`). -/
def secondOrderSparseActs {α β : Type} (A : Csr α) (L : Csr β) (N i : Nat) :
    List (Act Nat (List Nat) (List Bool)) :=
  ((L.rowIdx i).flatMap fun k => (A.rowIdx k).map markStep) ++ [storeRow N i]

/-! ### Shrinking -/
section
variable {K : Type} [Field K] [LinearOrder K] [FloorRing K]

/-- Private state of an iteration of `_neighbour_shrink`: the elements read so far and the
pairs (index, value) to be written (`neighbour_utils.py:100-107`). -/
structure ShrinkLocal (K : Type) where
  seen : List K
  out : List (Nat × K)

/-- Read element `(i, j)` (`neighbour_utils.py:100-102`). -/
def readStep (i j : Nat) : Act (Nat × Nat) K (ShrinkLocal K) :=
  fun l m => ({ l with seen := l.seen ++ [m (i, j)] }, m)

/-- `np.nonzero`, `np.quantile` and the masked assignment, on private arrays
(`neighbour_utils.py:100-104`). -/
def computeStep (q : K) : Act (Nat × Nat) K (ShrinkLocal K) :=
  fun l m =>
    let idx := (List.range l.seen.length).filter fun j => l.seen.getD j 0 ≠ 0
    ({ l with out := idx.zip (shrinkValues q (idx.map fun j => l.seen.getD j 0)) }, m)

/-- `weight_matrix[i, neighbour_indices[k]] = positive_value[k]`; nothing once the private
arrays are exhausted (`neighbour_utils.py:106-107`). -/
def writeStep (i k : Nat) : Act (Nat × Nat) K (ShrinkLocal K) :=
  fun l m => (l, match l.out[k]? with
    | some p => Function.update m (i, p.1) p.2
    | none => m)

/-- Iteration `i` of `_neighbour_shrink` (`neighbour_utils.py:98-107`). -/
def shrinkActs (q : K) (c i : Nat) : List (Act (Nat × Nat) K (ShrinkLocal K)) :=
  (List.range c).map (readStep i) ++ [computeStep q] ++ (List.range c).map (writeStep i)

/-- Read element `p` of the data array (`np.quantile` of the slice) (`neighbour_utils.py:116`). -/
def readData (p : Nat) : Act Nat K (List K × K) := fun l m => ((l.1 ++ [m p], l.2), m)

/-- The quantile (`neighbour_utils.py:116`). -/
def quantileStep (q : K) : Act Nat K (List K × K) :=
  fun l m => ((l.1, quantileVal virtLinear l.1 q), m)

/-- `positive_value[positive_value < shrink_value] = 0`; `positive_value` is a view of the data
array (`neighbour_utils.py:117`). -/
def maskStep (p : Nat) : Act Nat K (List K × K) :=
  fun l m => (l, if m p < l.2 then Function.update m p 0 else m)

/-- The assignment of the slice to itself (`neighbour_utils.py:118-120`). -/
def copyStep (p : Nat) : Act Nat K (List K × K) := fun l m => (l, Function.update m p (m p))

/-- The positions of row `i` in the data array (`neighbour_utils.py:113-115`). -/
def positions (ptr : Nat → Nat) (i : Nat) : List Nat := List.range' (ptr i) (ptr (i + 1) - ptr i)

/-- Iteration `i` of `_neighbour_shrink_sparse` (`neighbour_utils.py:112-120`). -/
def shrinkSparseActs (q : K) (ptr : Nat → Nat) (i : Nat) : List (Act Nat K (List K × K)) :=
  (positions ptr i).map readData ++ [quantileStep q] ++ (positions ptr i).map maskStep ++
    (positions ptr i).map copyStep

end
end Par
end Geo
