import Verif.Basic.Num
import Verif.Basic.Mat
import Verif.Basic.Quantile
/-
Model of `georegression/kernel.py`.
-/
namespace Geo
variable {K : Type} [Field K] [LinearOrder K]

/-- `KERNEL_TYPE_ENUM` (`kernel.py:9-17`). -/
def kernelTypeEnum : List String :=
  ["linear", "uniform", "gaussian", "exponential", "boxcar", "bisquare", "tricube"]

/-- `normalize_distance = distance / bandwidth` followed by
`nan_to_num(nan=0.0, posinf=inf)` (`kernel.py:42-48`); `-inf` becomes the smallest finite
float. One entry; both operands are finite. -/
def normalizeDistance (env : Env K) (d b : K) : Num K :=
  match Num.div (.fin d) (.fin b) with
  | .nan => .fin 0
  | .ninf => .fin (-env.fmax)
  | x => x

/-- `weight[distance > bandwidth] = 0` (`kernel.py:81-82`), one entry. -/
def cutSupport (d b : K) (w : Num K) : Num K := if d > b then .fin 0 else w

/-- `kernel_function` (`kernel.py:20-84`): the dispatch on the kernel name, returning the
entrywise weight function of distance and bandwidth. `lazy` says whether the distance is a
dask array (`kernel.py:65-72`). Simplification: arrays are handled entrywise, with the
bandwidth already broadcast to the entry. -/
def kernelElem (env : Env K) (lazy : Bool) (name : String) : Except Err (K → K → Num K) :=
  if name = "uniform" then .ok fun _ _ => .fin 1
  else if name = "gaussian" then
    .ok fun d b => Num.exp env.exp (.mul (.fin (-(1 / 2))) (.sq (normalizeDistance env d b)))
  else if name = "exponential" then
    .ok fun d b => Num.exp env.exp (.mul (.fin (-(1 / 2))) (.abs (normalizeDistance env d b)))
  else if name = "linear" then
    .ok fun d b => cutSupport d b (.sub (.fin 1) (normalizeDistance env d b))
  else if name = "boxcar" then
    .ok fun d b => cutSupport d b (.fin 1)
  else if name = "bisquare" then
    if lazy then
      .ok fun d b =>
        let x := normalizeDistance env d b
        let x := if Num.lt (.fin 1) x then .fin 1 else x
        .sq (.sub (.fin 1) (.sq x))
    else
      .ok fun d b => cutSupport d b (.sq (.sub (.fin 1) (.sq (normalizeDistance env d b))))
  else if name = "tricube" then
    .ok fun d b =>
      cutSupport d b (.cube (.sub (.fin 1) (.cube (.abs (normalizeDistance env d b)))))
  else .error .exception

/-- `kernel_function` on a single distance with a single bandwidth (`kernel.py:20-84`). -/
def kernelWeight (env : Env K) (lazy : Bool) (name : String) (d b : K) : Except Err (Num K) :=
  match kernelElem env lazy name with
  | .error e => .error e
  | .ok w => .ok (w d b)

/-- `kernel_function` on a matrix of distances, with the bandwidth of each row
(`kernel.py:20-84`; a scalar bandwidth is a constant function). -/
def kernelFunction (env : Env K) (lazy : Bool) (D : Mat K) (bw : Nat → K) (name : String) :
    Except Err (Mat (Num K)) :=
  match kernelElem env lazy name with
  | .error e => .error e
  | .ok w => .ok ⟨D.r, D.c, fun i j => w (D.get i j) (bw i)⟩

/-- A value of the parameter `neighbour_count`: a Python `int`, a Python `float`, or a numpy
integer (which is not an instance of `int`) (`kernel.py:89`, `131-137`). -/
inductive Count (K : Type)
  | int (k : ℤ)
  | float (q : K)
  | npInt (k : ℤ)

variable [FloorRing K]

/-- `adaptive_bandwidth` for an ndarray (`kernel.py:128-139`): the bandwidth of each row.
`np.partition(d, k-1)[:, k-1]` is the entry at index `k-1` of the sorted row and raises
`ValueError` if `k-1` is not an index; `np.quantile` raises `ValueError` for a quantile
outside `[0,1]` and `IndexError` for an empty row. -/
def adaptiveBandwidthEager (D : Mat K) : Count K → Except Err (Nat → K)
  | .int k =>
    if k ≤ 0 then .error .exception
    else if (k - 1).toNat < D.c then .ok fun i => (sortL (D.row i)).getD (k - 1).toNat 0
    else .error .valueError
  | .float q =>
    if q ≤ 0 then .error .exception
    else if q < 0 ∨ 1 < q then .error .valueError
    else if D.c = 0 then .error .indexError
    else .ok fun i => quantileVal virtMedian (D.row i) q
  | .npInt _ => .error .exception

/-- `if isinstance(neighbour_count, float): neighbour_count = math.ceil(N * neighbour_count)`
(`kernel.py:107-108`). -/
def Count.ceil (N : Nat) : Count K → ℤ
  | .float q => ⌈(N : K) * q⌉
  | .int k => k
  | .npInt k => k

/-- `neighbour_count` used as a number (`kernel.py:118-125`). -/
def Count.toNumber : Count K → K
  | .float q => q
  | .int k => (k : K)
  | .npInt k => (k : K)

/-- `adaptive_bandwidth` for a dask array (`kernel.py:100-126`). `N` is the number of rows.
With a sorted matrix `S` the column `neighbour_count - 1` is taken, with Python's negative
indexing. Without it the default (linear) quantile of each row is taken; assuming one chunk
of columns. -/
def adaptiveBandwidthLazy (D : Mat K) (n : Count K) (S : Option (Mat K)) :
    Except Err (Nat → K) :=
  match S with
  | some S =>
    if n.ceil D.r > D.r then .error .exception
    else if 0 ≤ n.ceil D.r - 1 ∧ n.ceil D.r - 1 < S.c then
      .ok fun i => S.get i (n.ceil D.r - 1).toNat
    else if n.ceil D.r - 1 < 0 ∧ -(S.c : ℤ) ≤ n.ceil D.r - 1 then
      .ok fun i => S.get i (n.ceil D.r - 1 + S.c).toNat
    else .error .indexError
  | none =>
    if n.toNumber < 0 ∨ 1 < n.toNumber then .error .valueError
    else if D.c = 0 then .error .indexError
    else .ok fun i => quantileVal virtLinear (D.row i) n.toNumber

/-- `adaptive_bandwidth` (`kernel.py:87-139`). -/
def adaptiveBandwidth (lazy : Bool) (D : Mat K) (n : Count K) (S : Option (Mat K)) :
    Except Err (Nat → K) :=
  if lazy then adaptiveBandwidthLazy D n S else adaptiveBandwidthEager D n

/-- `adaptive_kernel` (`kernel.py:142-161`). -/
def adaptiveKernel (env : Env K) (lazy : Bool) (D : Mat K) (n : Count K) (name : String)
    (S : Option (Mat K)) : Except Err (Mat (Num K)) :=
  match adaptiveBandwidth lazy D n S with
  | .error e => .error e
  | .ok bw => kernelFunction env lazy D bw name

end Geo
