import Verif.Basic.Csr
import Verif.Basic.Quantile
import Mathlib.Logic.Function.Basic
/-
Model of `georegression/neighbour_utils.py`.
-/
namespace Geo

/-! ### Second-order neighbours -/

/-- `_second_order_neighbour_dense` (`neighbour_utils.py:68-75`): row `i` is the sum of the rows
of the neighbours selected by row `i` of `leave_out`, converted to booleans. The loop runs over
`shape[1]`. -/
def secondOrderDense (A leaveOut : Mat Bool) : Mat Bool :=
  ⟨A.c, A.c, fun i j =>
    decide ((((List.range A.r).filter fun k => leaveOut.get i k).map
      fun k => if A.get k j then 1 else 0).sum ≠ 0)⟩

/-- One row of `_second_order_neighbour_sparse` (`neighbour_utils.py:50-63`): mark the column
indices of the rows of all neighbours in an array of `N` flags, and return the marked
positions. -/
def secondOrderRow {α β : Type} (A : Csr α) (L : Csr β) (N i : Nat) : List Nat :=
  let flags := (L.rowIdx i).foldl
    (fun u k => (A.rowIdx k).foldl (fun u j => u.set j true) u) (List.replicate N false)
  (List.range N).filter fun j => flags.getD j false

/-- `_second_order_neighbour_sparse` (`neighbour_utils.py:43-65`). -/
def secondOrderRows {α β : Type} (A : Csr α) (L : Csr β) : List (List Nat) :=
  (List.range (A.indptr.length - 1)).map (secondOrderRow A L (A.indptr.length - 1))

/-- `csr_array((np.ones_like(indices), indices, indptr))` without a shape
(`neighbour_utils.py:31-38`): the number of columns is inferred from the largest index;
`ValueError` when there is no index at all (or no row: `np.hstack` of an empty list). -/
def csrInferred (rows : List (List Nat)) : Except Err (Csr Nat) :=
  match rows.flatten.max? with
  | none => .error .valueError
  | some m => .ok (Csr.ofRows (m + 1) rows (rows.flatten.map fun _ => 1))

/-- The argument of `second_order_neighbour`: ndarray, `csr_array` or anything else
(`neighbour_utils.py:7`, `21-40`). -/
inductive NeighbourArg
  | dense (m : Mat Bool)
  | sparse (m : Csr Bool)
  | other

/-- The result of `second_order_neighbour` (`neighbour_utils.py:22`, `38`). -/
inductive SecondOrderOut
  | dense (m : Mat Bool)
  | sparse (m : Csr Nat)

/-- `second_order_neighbour` (`neighbour_utils.py:7-40`). A mixture of dense and sparse
arguments fails inside numba or with a missing attribute. -/
def secondOrderNeighbour (A : NeighbourArg) (leaveOut : Option NeighbourArg) :
    Except Err SecondOrderOut :=
  match A, leaveOut.getD A with
  | .dense a, .dense l => .ok (.dense (secondOrderDense a l))
  | .sparse a, .sparse l => (csrInferred (secondOrderRows a l)).map .sparse
  | .dense _, _ => .error .typeError
  | .sparse _, _ => .error .attributeError
  | .other, _ => .error .valueError

/-! ### Shrinking -/

section
variable {K : Type} [Field K] [LinearOrder K] [FloorRing K]

/-- `values[values < quantile] = 0` with the linear quantile of the values
(`neighbour_utils.py:101-104` and `113-117`). For an empty list nothing is written, whatever
`np.quantile` returns (the case in which numba raises for an empty row is not modelled). -/
def shrinkValues (q : K) (vals : List K) : List K :=
  vals.map fun x => if x < quantileVal virtLinear vals q then 0 else x

/-- The scatter loop `weight_matrix[i, idx[j]] = values[j]` (`neighbour_utils.py:106-107`). -/
def scatter (g : Nat → K) (idx : List Nat) (vals : List K) : Nat → K :=
  (idx.zip vals).foldl (fun g p => Function.update g p.1 p.2) g

/-- `np.nonzero(row)[0]` (`neighbour_utils.py:100`). -/
def nonzeroIdx (c : Nat) (g : Nat → K) : List Nat := (List.range c).filter fun j => g j ≠ 0

/-- One iteration of `_neighbour_shrink` (`neighbour_utils.py:98-107`). -/
def shrinkRow (q : K) (c : Nat) (g : Nat → K) : Nat → K :=
  scatter g (nonzeroIdx c g) (shrinkValues q ((nonzeroIdx c g).map g))

/-- A rate outside `[0,1]` makes `np.quantile` raise `ValueError` in the first iteration
(`neighbour_utils.py:103`, `116`). -/
def badRate (q : K) (rows : Nat) : Bool := decide (0 < rows) && (decide (q < 0) || decide (1 < q))

/-- `_neighbour_shrink` (`neighbour_utils.py:97-108`). -/
def shrinkDense (W : Mat K) (q : K) : Except Err (Mat K) :=
  if badRate q W.r then .error .valueError
  else .ok ⟨W.r, W.c, fun i => shrinkRow q W.c (W.get i)⟩

/-- `l[a : a+len(new)] = new` (`neighbour_utils.py:118-120`). -/
def writeSlice (l : List K) (a : Nat) (new : List K) : List K :=
  l.take a ++ new ++ l.drop (a + new.length)

/-- One iteration of `_neighbour_shrink_sparse` (`neighbour_utils.py:112-120`). -/
def shrinkSlice (q : K) (ptr : Nat → Nat) (data : List K) (i : Nat) : List K :=
  writeSlice data (ptr i) (shrinkValues q (slice data (ptr i) (ptr (i + 1))))

/-- `_neighbour_shrink_sparse` (`neighbour_utils.py:110-121`): the loop, in order. -/
def shrinkData (A : Csr K) (q : K) : List K :=
  (List.range (A.indptr.length - 1)).foldl (shrinkSlice q A.ptr) A.data

/-- Keep the stored entries satisfying `p` (used for `eliminate_zeros` and `> 0`)
(`neighbour_utils.py:91`, `95`, `150`). -/
def Csr.keep {α β : Type} (A : Csr α) (p : Nat → Nat → α → Bool) (f : α → β) : Csr β :=
  let rows := (List.range A.r).map fun i =>
    ((A.rowIdx i).zip (A.rowData i)).filter fun e => p i e.1 e.2
  Csr.ofRows A.c (rows.map (List.map Prod.fst)) (rows.flatten.map fun e => f e.2)

/-- `eliminate_zeros` of scipy (`neighbour_utils.py:91`). -/
def Csr.eliminateZeros (A : Csr K) : Csr K := A.keep (fun _ _ x => x ≠ 0) id

/-- The sparse branch of `neighbour_shrink` (`neighbour_utils.py:89-91`). -/
def shrinkSparse (A : Csr K) (q : K) : Except Err (Csr K) :=
  if badRate q (A.indptr.length - 1) then .error .valueError
  else .ok (Csr.eliminateZeros { A with data := shrinkData A q })

/-- `weight_matrix > 0` for an ndarray (`neighbour_utils.py:87`, `143`). -/
def gt0 (W : Mat K) : Mat Bool := W.map fun x => decide (0 < x)

/-- `weight_matrix > 0` for a `csr_array` in canonical format: the positive entries
(`neighbour_utils.py:95`, `143`). -/
def Csr.gt0 (A : Csr K) : Csr Bool := A.keep (fun _ _ x => decide (0 < x)) fun _ => true

/-- The result of `neighbour_shrink`: weights or mask (`neighbour_utils.py:84-87`, `92-95`). -/
inductive ShrinkOut (W M : Type)
  | weights (w : W)
  | mask (m : M)

/-- `neighbour_shrink` on an ndarray (`neighbour_utils.py:78-87`): the result, and the caller's
array afterwards. -/
def neighbourShrinkDense (W : Mat K) (q : K) (returnWeight inplace : Bool) :
    Except Err (ShrinkOut (Mat K) (Mat Bool)) × Mat K :=
  match shrinkDense W q with
  | .error e => (.error e, W)
  | .ok W' =>
    (.ok (if returnWeight then .weights W' else .mask (gt0 W')), if inplace then W' else W)

/-- `neighbour_shrink` on a `csr_array` (`neighbour_utils.py:78-95`). -/
def neighbourShrinkSparse (A : Csr K) (q : K) (returnWeight inplace : Bool) :
    Except Err (ShrinkOut (Csr K) (Csr Bool)) × Csr K :=
  match shrinkSparse A q with
  | .error e => (.error e, A)
  | .ok A' =>
    (.ok (if returnWeight then .weights A' else .mask A'.gt0), if inplace then A' else A)

/-! ### Sampling -/

/-- The global random generator of numpy: its state after `np.random.seed(0)`, and
`np.random.choice(a, size, replace=False)` with the state it leaves
(`neighbour_utils.py:165`, `171-176`, `187-195`). -/
structure Rng (S : Type) where
  seed0 : S
  choice : S → List Nat → ℤ → Except Err (List Nat) × S

/-- `neighbour_count_sampled` of one row (`neighbour_utils.py:154-160`). -/
def sampleCount (rate : K) (cnt : Nat) : ℤ :=
  let k := ⌈(cnt : K) * rate⌉
  let k := if k = 0 then 1 else k
  if (cnt : ℤ) < k then cnt else k

/-- The loop over the rows, threading the generator (`neighbour_utils.py:167-177` and
`179-199`). `rows` are the candidate lists. -/
def sampleLoop {S : Type} (rng : Rng S) (rate : K) : S → List (List Nat) →
    Except Err (List (List Nat)) × S
  | s, [] => (.ok [], s)
  | s, cand :: rows =>
    match rng.choice s cand (sampleCount rate cand.length) with
    | (.error e, s) => (.error e, s)
    | (.ok chosen, s) =>
      match sampleLoop rng rate s rows with
      | (.error e, s) => (.error e, s)
      | (.ok rest, s) => (.ok (chosen :: rest), s)

/-- Use of a result of `neighbour_shrink` as a mask (`neighbour_utils.py:141`). -/
def maskOfDense : Except Err (ShrinkOut (Mat K) (Mat Bool)) → Except Err (Mat Bool)
  | .error e => .error e
  | .ok (.mask m) => .ok m
  | .ok (.weights w) => .ok (w.map fun x => decide (x ≠ 0))

/-- The boolean matrix before sampling (`neighbour_utils.py:140-143`), and the caller's array
afterwards; `shrink_rate=None` means no shrinking. -/
def sampleMaskDense (W : Mat K) (shrink : Option K) : Except Err (Mat Bool) × Mat K :=
  match shrink with
  | none => (.ok (gt0 W), W)
  | some q =>
    (maskOfDense (neighbourShrinkDense W q false false).1, (neighbourShrinkDense W q false false).2)

/-- The candidates of row `i`: `np.nonzero` of the row after clearing the diagonal
(`neighbour_utils.py:146-147`, `172`). -/
def candidatesDense (N : Mat Bool) (i : Nat) : List Nat :=
  (List.range N.c).filter fun j => N.get i j && i != j

/-- What a call leaves behind: the result, the state of the global generator and the caller's
array (`neighbour_utils.py:141-214`). -/
structure Sampled (R S W : Type) where
  result : Except Err R
  rng : S
  caller : W

/-- `sample_neighbour` on an ndarray (`neighbour_utils.py:124-214`), from generator state `s`. -/
def sampleNeighbourDense {S : Type} (rng : Rng S) (s : S) (W : Mat K) (rate : K)
    (shrink : Option K) : Sampled (Mat Bool) S (Mat K) :=
  match sampleMaskDense W shrink with
  | (.error e, W) => ⟨.error e, s, W⟩
  | (.ok N, W) =>
    match sampleLoop rng rate rng.seed0 ((List.range N.r).map (candidatesDense N)) with
    | (.error e, s) => ⟨.error e, s, W⟩
    | (.ok chosen, s) =>
      ⟨.ok ⟨N.r, N.c, fun i j => decide (j ∈ chosen.getD i []) || i == j⟩, s, W⟩

/-- Use of a result of `neighbour_shrink` as a mask (`neighbour_utils.py:141`). -/
def maskOfSparse : Except Err (ShrinkOut (Csr K) (Csr Bool)) → Except Err (Csr Bool)
  | .error e => .error e
  | .ok (.mask m) => .ok m
  | .ok (.weights w) => .ok (w.keep (fun _ _ x => x ≠ 0) fun _ => true)

/-- The sparse mask before sampling (`neighbour_utils.py:140-143`). -/
def sampleMaskSparse (A : Csr K) (shrink : Option K) : Except Err (Csr Bool) × Csr K :=
  match shrink with
  | none => (.ok A.gt0, A)
  | some q =>
    (maskOfSparse (neighbourShrinkSparse A q false false).1,
      (neighbourShrinkSparse A q false false).2)

/-- The candidates of row `i` after `setdiag(False)` and `eliminate_zeros()`
(`neighbour_utils.py:149-150`). -/
def candidatesSparse (N : Csr Bool) (i : Nat) : List Nat := (N.rowIdx i).filter fun j => i != j

/-- `np.sort` of integers (`neighbour_utils.py:184`). -/
def sortNat (l : List Nat) : List Nat := l.insertionSort (· ≤ ·)

/-- `sample_neighbour` on a `csr_array` (`neighbour_utils.py:124-214`). -/
def sampleNeighbourSparse {S : Type} (rng : Rng S) (s : S) (A : Csr K) (rate : K)
    (shrink : Option K) : Sampled (Csr Nat) S (Csr K) :=
  match sampleMaskSparse A shrink with
  | (.error e, A) => ⟨.error e, s, A⟩
  | (.ok N, A) =>
    match sampleLoop rng rate rng.seed0 ((List.range N.r).map (candidatesSparse N)) with
    | (.error e, s) => ⟨.error e, s, A⟩
    | (.ok chosen, s) => ⟨csrInferred (chosen.mapIdx fun i l => sortNat (l ++ [i])), s, A⟩

end
end Geo
