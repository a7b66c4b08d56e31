import Verif.Model.Kernel
import Verif.Basic.MapE
/-
Model of `georegression/weight_matrix.py` (the part that starts from distances).
-/
namespace Geo
variable {K : Type} [Field K] [LinearOrder K] [FloorRing K]

/-- `weight_by_distance` (`weight_matrix.py:220-243`). -/
def weightByDistance (env : Env K) (lazy : Bool) (D : Mat K) (name : String)
    (bandwidth : Option K) (count : Option (Count K)) (S : Option (Mat K)) :
    Except Err (Mat (Num K)) :=
  match bandwidth, count with
  | some b, none => kernelFunction env lazy D (fun _ => b) name
  | none, some n => adaptiveKernel env lazy D n name S
  | _, _ => .error .exception

/-- The parameters of `weight_matrix_from_distance` (`weight_matrix.py:69-76`). A
`kernel_type` of `None` behaves like an unknown name and is not modelled separately. -/
structure WParams (K : Type) where
  kernel : Param String
  ratio : Option (Param K) := none
  bandwidth : Param (Option K) := .scalar none
  count : Param (Option (Count K)) := .scalar none
  sorted : Param (Option (Mat K)) := .scalar none

/-- `p is None` for an optional scalar-or-list parameter (`weight_matrix.py:122`). -/
def Param.isNone {α : Type} : Param (Option α) → Bool
  | .scalar none => true
  | _ => false

/-- The merge of distances by `distance_ratio` (`weight_matrix.py:128-155`). The code assigns
to index 0 of an empty list, so the loop raises `IndexError` at once; `dimension ≥ 1` because
the shapes were checked before. -/
def mergeDistances (dimension : Nat) (ratio : Param K) : Except Err (List (Mat K)) :=
  match ratio with
  | .scalar _ => if dimension ≠ 2 then .error .exception else .error .indexError
  | .list l => if l.length ≠ dimension then .error .exception else .error .indexError

/-- The product of the weights of all dimensions at one entry
(`np.prod(np.stack(weights), axis=0)`, `weight_matrix.py:187-190`). -/
def prodEntry (Ws : List (Mat (Num K))) (i j : Nat) : Num K := Num.prod (Ws.map fun W => W.get i j)

/-- `row_sum`, with zero replaced by one (`weight_matrix.py:196-198`). -/
def rowSum (W : Mat (Num K)) (i : Nat) : Num K :=
  let s := Num.sum (W.row i)
  if s = .fin 0 then .fin 1 else s

/-- Row normalisation (`weight_matrix.py:196-200`). -/
def normalizeRows (W : Mat (Num K)) : Mat (Num K) :=
  ⟨W.r, W.c, fun i j => Num.div (W.get i j) (rowSum W i)⟩

/-- The log statement `nonzero_count / weight_matrix_norm.size` divides by the number of
entries of an ndarray, or by the number of stored entries of a sparse array
(`weight_matrix.py:206-215`): `ZeroDivisionError` if there is none. -/
def logStats (lazy : Bool) (W : Mat (Num K)) : Except Err Unit :=
  let size := if lazy then (W.toLists.flatten.filter fun w => w ≠ .fin 0).length else W.r * W.c
  if size = 0 then .error .zeroDivisionError else .ok ()

/-- The `distance_sorted` argument of dimension `dim`: `distance_matrices_sorted[dim]` for dask
arrays, `None` otherwise (`weight_matrix.py:173-185`). -/
def sortedArg (lazy : Bool) (Ds : List (Mat K)) (p : WParams K) (dim : Nat) :
    Except Err (Option (Mat K)) :=
  if lazy then pyGet (p.sorted.expand Ds.length) dim else .ok none

/-- The body of the loop over the dimensions (`weight_matrix.py:172-185`), after expanding
scalar parameters (`weight_matrix.py:160-170`). On the eager path the sorted matrices are
ignored. -/
def dimWeight (env : Env K) (lazy : Bool) (Ds : List (Mat K)) (p : WParams K) (dim : Nat) :
    Except Err (Mat (Num K)) := do
  let D ← pyGet Ds dim
  let name ← pyGet (p.kernel.expand Ds.length) dim
  let b ← pyGet (p.bandwidth.expand Ds.length) dim
  let n ← pyGet (p.count.expand Ds.length) dim
  let S ← sortedArg lazy Ds p dim
  weightByDistance env lazy D name b n S

/-- The loop over the dimensions (`weight_matrix.py:172-185`). -/
def dimWeights (env : Env K) (lazy : Bool) (Ds : List (Mat K)) (p : WParams K) :
    Except Err (List (Mat (Num K))) :=
  mapE (dimWeight env lazy Ds p) (List.range Ds.length)

/-- The distance matrices after the optional merge (`weight_matrix.py:127-155`). -/
def effectiveDistances (Ds : List (Mat K)) : Option (Param K) → Except Err (List (Mat K))
  | some ratio => mergeDistances Ds.length ratio
  | none => .ok Ds

/-- `weight_matrix_from_distance` (`weight_matrix.py:69-217`). `lazy` says whether the
distance matrices are dask arrays (all of them). For dask input the result is converted to a
CSR array; it is represented here by the matrix it stands for. -/
def weightMatrixFromDistance (env : Env K) (lazy : Bool) (Ds : List (Mat K)) (p : WParams K) :
    Except Err (Mat (Num K)) :=
  if (Ds.map fun D => (D.r, D.c)).dedup.length ≠ 1 then .error .exception
  else if p.bandwidth.isNone && p.count.isNone then .error .exception
  else do
    let Ds ← effectiveDistances Ds p.ratio
    let Ws ← dimWeights env lazy Ds p
    let r := match Ds with | [] => 0 | D :: _ => D.r
    let c := match Ds with | [] => 0 | D :: _ => D.c
    let N := normalizeRows ⟨r, c, prodEntry Ws⟩
    logStats lazy N
    .ok N

end Geo
