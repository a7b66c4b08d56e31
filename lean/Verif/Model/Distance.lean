import Verif.Model.WeightMatrix
/-
Model of `georegression/distance_utils.py` and of `weight_matrix_from_points`.
-/
namespace Geo
variable {K : Type} [Field K] [LinearOrder K] [FloorRing K]

/-- A keyword dictionary for one dimension. `filepath` and `overwrite` are the keys the dask
branch looks at; `rest` holds every other key (`distance_utils.py:61`, `73-78`). -/
structure Kwargs (K : Type) where
  filepath : Option String := none
  overwrite : Bool := false
  rest : List (String × K) := []

/-- The distance functions of the libraries: `scipy.spatial.distance.cdist`/`pdist` by metric
name and keyword arguments (`none`: unknown name or rejected argument), `dask_distance.cdist`
by metric name, and the function `great_circle_distance` on two points
(`distance_utils.py:84-86`, `104-115`). -/
structure Lib (K : Type) where
  scipy : Option String → Kwargs K → Option (List K → List K → K)
  dask : Option String → Option (List K → List K → K)
  great : List K → List K → K

/-- A one- or two-dimensional array of distances (`distance_utils.py:84-86`, `107-115`). -/
inductive DArr (K : Type)
  | d1 (l : List K)
  | d2 (m : Mat K)

/-- The zarr stores on disk: path to array (`distance_utils.py:79-80`, `89`, `93`). -/
abbrev Disk (K : Type) := String → Option (DArr K)

/-- Writing one array (`distance_utils.py:89`, `93`). -/
def Disk.write (fs : Disk K) (path : String) (a : DArr K) : Disk K :=
  fun q => if q = path then some a else fs q

/-- One returned distance matrix: eager or lazy, and its sorted version when the call returned
a pair (`distance_utils.py:95-97`). -/
structure DistOut (K : Type) where
  lazy : Bool
  arr : DArr K
  sorted : Option (DArr K) := none

/-- All pairwise distances, sources in rows (`distance_utils.py:103-115`). -/
def cdistMat (f : List K → List K → K) (src tgt : Mat K) : Mat K :=
  ⟨src.r, tgt.r, fun i j => f (src.row i) (tgt.row j)⟩

/-- `pdist`: the condensed vector of distances between pairs `i < j`
(`distance_utils.py:84`, `108`). -/
def pdistVec (f : List K → List K → K) (src : Mat K) : List K :=
  (List.range src.r).flatMap fun i =>
    ((List.range src.r).filter fun j => i < j).map fun j => f (src.row i) (src.row j)

/-- `str.replace` from left to right, the matches not overlapping (`distance_utils.py:93`). The number
counts the characters of the last match that are still to be passed. -/
def replaceChars (pat rep : List Char) : Nat → List Char → List Char
  | _, [] => []
  | k + 1, _ :: l => replaceChars pat rep k l
  | 0, c :: l =>
    if pat.isPrefixOf (c :: l) then rep ++ replaceChars pat rep (pat.length - 1) l
    else c :: replaceChars pat rep 0 l

/-- The name of the store for the sorted distances (`distance_utils.py:93`). -/
def sortedPath (path : String) : String :=
  String.ofList (replaceChars ".zarr".toList "_sorted.zarr".toList 0 path.toList)

/-- `filepath`, with the suffix appended when missing (`distance_utils.py:73-76`). -/
def zarrPath (kw : Kwargs K) : String :=
  let f := kw.filepath.getD "distance_matrix.zarr"
  if ".zarr".toList.isSuffixOf f.toList then f else f ++ ".zarr"

/-- The store that is reused instead of computing (`distance_utils.py:78-80`). -/
def cachedStore (fs : Disk K) (kw : Kwargs K) : Option (DArr K) :=
  if kw.filepath.isSome && !kw.overwrite then fs (zarrPath kw) else none

/-- Each row sorted (`map_blocks(np.sort)`; chunks hold whole rows, `distance_utils.py:88,92`). -/
def sortRows (D : Mat K) : Mat K := ⟨D.r, D.c, fun i j => (sortL (D.row i)).getD j 0⟩

/-- The dask branch of `_distance_matrix` (`distance_utils.py:69-97`). Without targets,
`pdist` gives a one-dimensional array, and rechunking its second axis raises. The further
keyword arguments are not passed on. -/
def daskDistance (lib : Lib K) (fs : Disk K) (src : Mat K) (tgt : Option (Mat K))
    (metric : Option String) (cacheSort : Bool) (kw : Kwargs K) :
    Except Err (DistOut K) × Disk K :=
  match cachedStore fs kw with
  | some a => (.ok ⟨true, a, none⟩, fs)
  | none =>
    match lib.dask metric, tgt with
    | none, _ => (.error .valueError, fs)
    | some _, none => (.error .axisError, fs)
    | some f, some tgt =>
      let D := cdistMat f src tgt
      let fs := fs.write (zarrPath kw) (.d2 D)
      if cacheSort then
        (.ok ⟨true, .d2 D, some (.d2 (sortRows D))⟩,
          fs.write (sortedPath (zarrPath kw)) (.d2 (sortRows D)))
      else (.ok ⟨true, .d2 D, none⟩, fs)

/-- The eager branch of `_distance_matrix` (`distance_utils.py:99-115`), `float32` casts left
out. `np.array([])` of an empty list of rows is one-dimensional. A missing target array is
rejected by numba at the first source row. -/
def eagerDistance (lib : Lib K) (src : Mat K) (tgt : Option (Mat K)) (metric : Option String)
    (kw : Kwargs K) : Except Err (DistOut K) :=
  if metric = some "great-circle" then
    if src.c ≠ 2 then .error .exception
    else if src.r = 0 then .ok ⟨false, .d1 [], none⟩
    else
      match tgt with
      | none => .error .typeError
      | some tgt => .ok ⟨false, .d2 (cdistMat lib.great src tgt), none⟩
  else
    match lib.scipy metric kw, tgt with
    | none, _ => .error .valueError
    | some f, none => .ok ⟨false, .d1 (pdistVec f src), none⟩
    | some f, some tgt => .ok ⟨false, .d2 (cdistMat f src tgt), none⟩

/-- The column check (`distance_utils.py:63-65`). -/
def columnsDiffer (src : Mat K) : Option (Mat K) → Bool
  | none => false
  | some tgt => src.c != tgt.c

/-- `_distance_matrix` (`distance_utils.py:61-115`). -/
def distanceMatrix (lib : Lib K) (fs : Disk K) (src : Mat K) (tgt : Option (Mat K))
    (metric : Option String) (useDask cacheSort : Bool) (kw : Kwargs K) :
    Except Err (DistOut K) × Disk K :=
  if columnsDiffer src tgt then (.error .exception, fs)
  else if useDask then daskDistance lib fs src tgt metric cacheSort kw
  else (eagerDistance lib src tgt metric kw, fs)

/-- The list comprehension over the dimensions (`distance_utils.py:48-58`), threading the
disk. `srcs` and the parallel lists are consumed together; a parameter list that is too short
raises `IndexError`. -/
def distanceLoop (lib : Lib K) (useDask cacheSort : Bool) :
    Disk K → List (Mat K) → List (Option (Mat K)) → List (Option String) → List (Kwargs K) →
    Except Err (List (DistOut K)) × Disk K
  | fs, [], _, _, _ => (.ok [], fs)
  | fs, src :: srcs, tgt :: tgts, metric :: metrics, kw :: kws =>
    match distanceMatrix lib fs src tgt metric useDask cacheSort kw with
    | (.error e, fs) => (.error e, fs)
    | (.ok d, fs) =>
      match distanceLoop lib useDask cacheSort fs srcs tgts metrics kws with
      | (.error e, fs) => (.error e, fs)
      | (.ok ds, fs) => (.ok (d :: ds), fs)
  | fs, _ :: _, _, _, _ => (.error .indexError, fs)

/-- `_distance_matrices` (`distance_utils.py:12-58`). `kwargs` are the keyword arguments of the
call itself, used for every dimension when `args` is `None`. -/
def distanceMatrices (lib : Lib K) (fs : Disk K) (src : List (Mat K)) (tgt : Option (List (Mat K)))
    (metrics : Param (Option String)) (useDask cacheSort : Bool)
    (args : Option (List (Kwargs K))) (kwargs : Kwargs K) :
    Except Err (List (DistOut K)) × Disk K :=
  let ms := metrics.expand src.length
  let kws := args.getD (List.replicate src.length kwargs)
  match tgt with
  | some tgts =>
    if src.length ≠ tgts.length then (.error .exception, fs)
    else distanceLoop lib useDask cacheSort fs src (tgts.map some) ms kws
  | none => distanceLoop lib useDask cacheSort fs src (List.replicate src.length none) ms kws

/-- The two-dimensional arrays of a list, if all are two-dimensional (`weight_matrix.py:118`). -/
def allD2 : List (DistOut K) → Option (List (Mat K))
  | [] => some []
  | ⟨_, .d2 m, _⟩ :: l => (allD2 l).map (m :: ·)
  | ⟨_, .d1 _, _⟩ :: _ => none

/-- `weight_matrix_from_distance` applied to the result of `_distance_matrices`
(`weight_matrix.py:59-61`). A one-dimensional array fails in the partition/quantile along
axis 1, or in the row sum (`weight_matrix.py:196`), if no earlier check fails; the class of
the exception is not tracked for it. -/
def weightFromDists (env : Env K) (lazy : Bool) (ds : List (DistOut K)) (p : WParams K) :
    Except Err (Mat (Num K)) :=
  match allD2 ds with
  | some Ds => weightMatrixFromDistance env lazy Ds p
  | none => .error .axisError

/-- The value of `distance_args`: one dictionary or a list of dictionaries
(`weight_matrix.py:22`, `50-55`). -/
abbrev DistArgs (K : Type) := Option (Param (List (String × K)))

/-- Python truth value of `distance_args` (`weight_matrix.py:54`). -/
def DistArgs.truthy : DistArgs K → Bool
  | none => false
  | some (.scalar d) => !d.isEmpty
  | some (.list l) => !l.isEmpty

/-- `weight_matrix_from_points` (`weight_matrix.py:14-66`). The fourth positional argument of
`_distance_matrices` is `use_dask`, so `distance_args` is only used for its truth value. -/
def weightMatrixFromPoints (lib : Lib K) (env : Env K) (fs : Disk K) (src : List (Mat K))
    (tgt : Option (List (Mat K))) (measure : Param (Option String)) (p : WParams K)
    (distanceArgs : DistArgs K) : Except Err (Mat (Num K)) × Disk K :=
  match distanceMatrices lib fs src tgt measure distanceArgs.truthy false none {} with
  | (.error e, fs) => (.error e, fs)
  | (.ok ds, fs) =>
    (weightFromDists env distanceArgs.truthy ds { p with sorted := .scalar none }, fs)

end Geo
