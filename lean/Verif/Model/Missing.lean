import Verif.Model.WeightModel
/-
Model of `georegression/kernel.py` and `georegression/weight_matrix.py` for distances that may be
NaN or infinite, as they are for observations whose coordinates are missing or infinite:
`check_X_y` of the models looks at features and targets only (`weight_model.py:329`), and nothing
else looks at the coordinates.
-/
namespace Geo
variable {K : Type} [Field K] [LinearOrder K]

/-- `normalize_distance = distance / bandwidth` followed by `nan_to_num(nan=0.0, posinf=inf)`
(`kernel.py:42-48`), for any two floats. -/
def normalizeAny (env : Env K) (d b : Num K) : Num K :=
  match Num.div d b with
  | .nan => .fin 0
  | .ninf => .fin (-env.fmax)
  | x => x

/-- `weight[distance > bandwidth] = 0` (`kernel.py:81-82`), one entry; a comparison with NaN is
false. -/
def cutSupportAny (d b w : Num K) : Num K := if Num.lt b d then .fin 0 else w

/-- `kernel_function` (`kernel.py:20-84`) for any distance and bandwidth, entrywise like
`kernelElem`. -/
def kernelElemAny (env : Env K) (lazy : Bool) (name : String) :
    Except Err (Num K → Num K → Num K) :=
  if name = "uniform" then .ok fun _ _ => .fin 1
  else if name = "gaussian" then
    .ok fun d b => Num.exp env.exp (.mul (.fin (-(1 / 2))) (.sq (normalizeAny env d b)))
  else if name = "exponential" then
    .ok fun d b => Num.exp env.exp (.mul (.fin (-(1 / 2))) (.abs (normalizeAny env d b)))
  else if name = "linear" then
    .ok fun d b => cutSupportAny d b (.sub (.fin 1) (normalizeAny env d b))
  else if name = "boxcar" then
    .ok fun d b => cutSupportAny d b (.fin 1)
  else if name = "bisquare" then
    if lazy then
      .ok fun d b =>
        let x := normalizeAny env d b
        let x := if Num.lt (.fin 1) x then .fin 1 else x
        .sq (.sub (.fin 1) (.sq x))
    else
      .ok fun d b => cutSupportAny d b (.sq (.sub (.fin 1) (.sq (normalizeAny env d b))))
  else if name = "tricube" then
    .ok fun d b =>
      cutSupportAny d b (.cube (.sub (.fin 1) (.cube (.abs (normalizeAny env d b)))))
  else .error .exception

/-- `kernel_function` on a matrix of distances with a bandwidth for each row (`kernel.py:20-84`). -/
def kernelFunctionAny (env : Env K) (lazy : Bool) (D : Mat (Num K)) (bw : Nat → Num K)
    (name : String) : Except Err (Mat (Num K)) :=
  match kernelElemAny env lazy name with
  | .error e => .error e
  | .ok w => .ok ⟨D.r, D.c, fun i j => w (D.get i j) (bw i)⟩

/-- `np.isnan` (`kernel.py:42-48`, `133`). -/
def isNan : Num K → Bool
  | .nan => true
  | _ => false

/-- The order `np.sort` and `np.partition` sort by: NaN comes last (`kernel.py:135`,
`distance_utils.py:92`). -/
def sortsBefore : Num K → Num K → Bool
  | _, .nan => true
  | .nan, _ => false
  | a, b => !Num.lt b a

/-- `np.sort` of one row (`distance_utils.py:92`); `np.partition(row, k)[k]` is its entry `k`
(`kernel.py:135`). -/
def sortAny (l : List (Num K)) : List (Num K) := l.insertionSort (sortsBefore · ·)

/-- The finite values of a row, if all are finite (`kernel.py:118-125`, `133`). -/
def finites : List (Num K) → Option (List K)
  | [] => some []
  | .fin x :: l => (finites l).map (x :: ·)
  | _ :: _ => none

variable [FloorRing K]

/-- `np.quantile` of one row (`kernel.py:118-125`, `133`): NaN as soon as the row holds a NaN. What
it returns for a row with infinities and no NaN is left open (`inf`). -/
def quantileAny (inf : List (Num K) → K → Num K) (virt : Nat → K → K) (l : List (Num K)) (q : K) :
    Num K :=
  if l.any isNan then .nan
  else
    match finites l with
    | some l => .fin (quantileVal virt l q)
    | none => inf l q

/-- `adaptive_bandwidth` for an ndarray (`kernel.py:128-139`). -/
def adaptiveBandwidthEagerAny (inf : List (Num K) → K → Num K) (D : Mat (Num K)) :
    Count K → Except Err (Nat → Num K)
  | .int k =>
    if k ≤ 0 then .error .exception
    else if (k - 1).toNat < D.c then .ok fun i => (sortAny (D.row i)).getD (k - 1).toNat (.fin 0)
    else .error .valueError
  | .float q =>
    if q ≤ 0 then .error .exception
    else if q < 0 ∨ 1 < q then .error .valueError
    else if D.c = 0 then .error .indexError
    else .ok fun i => quantileAny inf virtMedian (D.row i) q
  | .npInt _ => .error .exception

/-- `adaptive_bandwidth` for a dask array (`kernel.py:100-126`), as `adaptiveBandwidthLazy`. -/
def adaptiveBandwidthLazyAny (inf : List (Num K) → K → Num K) (D : Mat (Num K)) (n : Count K)
    (S : Option (Mat (Num K))) : Except Err (Nat → Num K) :=
  match S with
  | some S =>
    if n.ceil D.r > D.r then .error .exception
    else if 0 ≤ n.ceil D.r - 1 ∧ n.ceil D.r - 1 < S.c then
      .ok fun i => S.get i (n.ceil D.r - 1).toNat
    else if n.ceil D.r - 1 < 0 ∧ -(S.c : ℤ) ≤ n.ceil D.r - 1 then
      .ok fun i => S.get i (n.ceil D.r - 1 + S.c).toNat
    else .error .indexError
  | none =>
    if n.toNumber < 0 ∨ 1 < n.toNumber then .error .valueError
    else if D.c = 0 then .error .indexError
    else .ok fun i => quantileAny inf virtLinear (D.row i) n.toNumber

/-- `adaptive_kernel` (`kernel.py:142-161`) with `adaptive_bandwidth` (`kernel.py:87-139`). -/
def adaptiveKernelAny (env : Env K) (inf : List (Num K) → K → Num K) (lazy : Bool)
    (D : Mat (Num K)) (n : Count K) (name : String) (S : Option (Mat (Num K))) :
    Except Err (Mat (Num K)) :=
  match if lazy then adaptiveBandwidthLazyAny inf D n S else adaptiveBandwidthEagerAny inf D n with
  | .error e => .error e
  | .ok bw => kernelFunctionAny env lazy D bw name

/-- `weight_by_distance` (`weight_matrix.py:220-243`); the bandwidth given by the user is a finite
number. -/
def weightByDistanceAny (env : Env K) (inf : List (Num K) → K → Num K) (lazy : Bool)
    (D : Mat (Num K)) (name : String) (bandwidth : Option K) (count : Option (Count K))
    (S : Option (Mat (Num K))) : Except Err (Mat (Num K)) :=
  match bandwidth, count with
  | some b, none => kernelFunctionAny env lazy D (fun _ => .fin b) name
  | none, some n => adaptiveKernelAny env inf lazy D n name S
  | _, _ => .error .exception

/-- What a call of `weight_matrix_from_distance` says about one dimension: the distances and the
entries of the parameter lists (`weight_matrix.py:69-76`, `158-170`). -/
structure DimAny (K : Type) where
  dist : Mat (Num K)
  kernel : String
  bandwidth : Option K := none
  count : Option (Count K) := none
  sorted : Option (Mat (Num K)) := none

/-- The weights of one dimension (`weight_matrix.py:172-185`): the sorted distances are passed on
for dask arrays only. -/
def DimAny.weights (env : Env K) (inf : List (Num K) → K → Num K) (lazy : Bool) (d : DimAny K) :
    Except Err (Mat (Num K)) :=
  weightByDistanceAny env inf lazy d.dist d.kernel d.bandwidth d.count
    (if lazy then d.sorted else none)

/-- `weight_matrix_from_distance` (`weight_matrix.py:69-217`) with one entry per dimension in every
parameter list and without `distance_ratio`, which always raises (`weight_matrix.py:128-155`). As
the parameters are lists they are never `None` (`weight_matrix.py:122`). -/
def weightMatrixAny (env : Env K) (inf : List (Num K) → K → Num K) (lazy : Bool)
    (l : List (DimAny K)) : Except Err (Mat (Num K)) :=
  if (l.map fun d => (d.dist.r, d.dist.c)).dedup.length ≠ 1 then .error .exception
  else do
    let Ws ← mapE (DimAny.weights env inf lazy) l
    let r := match l with | [] => 0 | d :: _ => d.dist.r
    let c := match l with | [] => 0 | d :: _ => d.dist.c
    let N := normalizeRows ⟨r, c, prodEntry Ws⟩
    logStats lazy N
    .ok N

/-- All pairwise distances of points with any coordinates (`distance_utils.py:110-115`). -/
def cdistAny (f : List (Num K) → List (Num K) → Num K) (src tgt : Mat (Num K)) : Mat (Num K) :=
  ⟨src.r, tgt.r, fun i j => f (src.row i) (tgt.row j)⟩

/-- Root of a sum of squares as `cdist` takes it (`distance_utils.py:110-115`). -/
def rootAny (root : K → K) : Num K → Num K
  | .fin x => .fin (root x)
  | .pinf => .pinf
  | _ => .nan

/-- The metric `euclidean` of `cdist` on any coordinates (`distance_utils.py:110-115`), for a given
square root. -/
def euclideanAny (root : K → K) (p q : List (Num K)) : Num K :=
  rootAny root (Num.sum (List.zipWith (fun a b => Num.sq (Num.sub a b)) p q))

/-- The metric `cityblock` of `cdist` on any coordinates (`distance_utils.py:110-115`). -/
def cityblockAny (p q : List (Num K)) : Num K :=
  Num.sum (List.zipWith (fun a b => Num.abs (Num.sub a b)) p q)

/-- `weight_matrix_from_points` for one dimension of coordinates, computed eagerly
(`weight_matrix.py:14-66`, `distance_utils.py:61-115`), as a source of weights like `pointSource`:
arrays of different width are refused, and so are weights that are not finite. -/
def pointSourceAny (env : Env K) (inf : List (Num K) → K → Num K)
    (metric : List (Num K) → List (Num K) → Num K) (kernel : String) (bandwidth : Option K)
    (count : Option (Count K)) (src tgt : Mat (Num K)) : Except Err (Mat K) :=
  if src.c ≠ tgt.c then .error .exception
  else
    match weightMatrixAny env inf false
        [{ dist := cdistAny metric src tgt, kernel, bandwidth, count }] with
    | .error e => .error e
    | .ok W =>
      if W.toLists.flatten.all fun w => decide (w = .fin w.toK) then .ok (W.map Num.toK)
      else .error .valueError

end Geo
