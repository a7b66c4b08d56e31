import Verif.Model.Ale
/-
Model of the computations of `georegression/visualize/pd.py` and `georegression/visualize/utils.py`
that are not drawing: the distance between partial dependence lines, sampling of lines, typical
items of clusters, colour normalisation and axis ranges. Not modelled: the plotting functions, and
`partial_cluster`, which hands the distance matrix to UMAP and HDBSCAN.
-/
set_option linter.unusedSectionVars false
namespace Geo
variable {K : Type} [Field K] [LinearOrder K] [IsStrictOrderedRing K] [FloorRing K] {S : Type}

/-! ### Distance between lines -/

/-- A partial dependence line: the x values and the y values (`visualize/pd.py:412-430`). -/
abbrev Line (K : Type) := List K × List K

/-- `np.interp(v, xs, ys)` for increasing `xs`: linear between the points, constant outside
(`visualize/pd.py:446-447`). -/
def interp1 (xs ys : List K) (v : K) : K :=
  let j := xs.countP fun x => decide (x ≤ v)
  if j = 0 then ys.getD 0 0
  else if j = xs.length then ys.getD (j - 1) 0
  else (ys.getD j 0 - ys.getD (j - 1) 0) / (xs.getD j 0 - xs.getD (j - 1) 0) *
    (v - xs.getD (j - 1) 0) + ys.getD (j - 1) 0

/-- `np.interp` on a vector: `ValueError` if the lengths differ (`visualize/pd.py:446-447`). -/
def interpE (vs : List K) (l : Line K) : Except Err (List K) :=
  if l.1.length ≠ l.2.length then .error .valueError else .ok (vs.map (interp1 l.1 l.2))

/-- The points of both lines in the common range (`pd.py:442-443`). -/
def mergeX (xo xd : List K) (lo hi : K) : List K :=
  (uniqueL (xo ++ xd)).filter fun x => decide (lo ≤ x) && decide (x ≤ hi)

/-- `distance_weight` before it is normalised (`pd.py:454-457`). -/
def intervalWeight (xs : List K) (k : Nat) : K :=
  if k + 1 = xs.length then (xs.getD k 0 - xs.getD (k - 1) 0) * 2
  else if k = 0 then (xs.getD 1 0 - xs.getD 0 0) * 2
  else xs.getD (k + 1) 0 - xs.getD (k - 1) 0

/-- `distance_weight / np.sum(distance_weight)` (`pd.py:458`). -/
def normalWeights (xs : List K) : List K :=
  ((List.range xs.length).map (intervalWeight xs)).map fun w =>
    w / ((List.range xs.length).map (intervalWeight xs)).sum

/-- `pointwise_distance` (`pd.py:450-451`). -/
def pointwise (yo yd : List K) (n : Nat) : List K :=
  (List.zipWith (· - ·) yo yd).map fun d =>
    (d + -(List.zipWith (· - ·) yo yd).sum / (n : K)) ^ 2

/-- The distance of two lines on their common points (`pd.py:446-460`). -/
def overlapDistance (a b : Line K) (xs : List K) : Except Err K :=
  match interpE xs a with
  | .error e => .error e
  | .ok yo =>
    match interpE xs b with
    | .error e => .error e
    | .ok yd => npAverage (pointwise yo yd xs.length) (normalWeights xs)

/-- `overlap_start` and `overlap_end` (`pd.py:434-435`): `IndexError` for a line without points. -/
def overlapRange (xo xd : List K) : Except Err (K × K) :=
  match xo.head?, xd.head?, xo.getLast?, xd.getLast? with
  | some a, some b, some c, some d => .ok (max a b, min c d)
  | _, _, _, _ => .error .indexError

/-- The distance of two lines; `none` stands for infinity (`pd.py:434-460`). -/
def lineDistance (a b : Line K) : Except Err (Option K) :=
  match overlapRange a.1 b.1 with
  | .error e => .error e
  | .ok (lo, hi) =>
    if hi ≤ lo then .ok none
    else (overlapDistance a b (mergeX a.1 b.1 lo hi)).map some

/-- One row of the upper triangle (`pd.py:428-463`). -/
def distanceRow (lines : List (Line K)) (i : Nat) : Except Err (List (Option K)) :=
  mapE (fun b => lineDistance (lines.getD i ([], [])) b) (lines.drop i)

/-- `line_distance_matrix` before filling (`pd.py:424`, `463`): zeros below the diagonal. -/
def upperEntry (rows : List (List (Option K))) (i j : Nat) : Option K :=
  if j < i then some 0 else (rows.getD i []).getD (j - i) none

/-- The finite entries (`visualize/pd.py:466-472`). -/
def finiteEntries (rows : List (List (Option K))) : List K :=
  (List.range rows.length).flatMap fun i =>
    (List.range rows.length).filterMap fun j => upperEntry rows i j

/-- `.max()` of a non-empty array (`visualize/pd.py:466-472`). -/
def maxOf (l : List K) : K := l.foldr max (l.headD 0)

/-- `partial_distance` (`pd.py:412-472`): `ValueError` from `max` if no entry is finite. The values
are finite, so that there is no NaN to replace. -/
def partialDistance (lines : List (Line K)) : Except Err (Mat K) :=
  match mapE (distanceRow lines) (List.range lines.length) with
  | .error e => .error e
  | .ok rows =>
    if finiteEntries rows = [] then .error .valueError
    else .ok ⟨lines.length, lines.length, fun i j =>
      (upperEntry rows i j).getD (maxOf (finiteEntries rows) * 2) +
        (upperEntry rows j i).getD (maxOf (finiteEntries rows) * 2)⟩

/-- `features_partial_distance` (`pd.py:475-496`): one matrix per feature, computed by parallel
workers and collected in the order of the features. -/
def featuresPartialDistance (features : List (List (Line K))) : Except Err (List (Mat K)) :=
  mapE partialDistance features

/-! ### Sampling of lines -/

/-- `np.where(cluster_label == value)[0]` (`visualize/pd.py:68`). -/
def whereEq (labels : List ℤ) (v : ℤ) : List Nat :=
  (List.range labels.length).filter fun i => labels.getD i 0 == v

/-- `cluster_sample_sizes` of a cluster with `cnt` items (`pd.py:61-63`). -/
def clusterSampleSize (size : ℤ) (N cnt : Nat) : ℤ :=
  min (max ⌈((cnt : K) * (size : K)) / (N : K)⌉ 1) cnt

/-- The loop over the clusters (`pd.py:65-68`), threading the generator. -/
def clusterLoop (rng : Rng S) : S → List (List Nat × ℤ) → Except Err (List (List Nat)) × S
  | s, [] => (.ok [], s)
  | s, (l, k) :: rest =>
    match rng.choice s l k with
    | (.error e, s) => (.error e, s)
    | (.ok c, s) =>
      match clusterLoop rng s rest with
      | (.error e, s) => (.error e, s)
      | (.ok cs, s) => (.ok (c :: cs), s)

/-- `int(sample_size * N)` if the size is a float (`pd.py:54-55`): truncation towards zero. -/
def lineSampleSize (size : Count K) (N : Nat) : ℤ :=
  match size with
  | .int k => k
  | .npInt k => k
  | .float q => if 0 ≤ q * (N : K) then ⌊q * (N : K)⌋ else ⌈q * (N : K)⌉

/-- The clusters with their sample sizes (`pd.py:60-63`). -/
def clusterJobs (K : Type) [Field K] [LinearOrder K] [FloorRing K] (labels : List ℤ) (size : ℤ)
    (N : Nat) : List (List Nat × ℤ) :=
  (uniqueL labels).map fun v =>
    (whereEq labels v, clusterSampleSize (K := K) size N (whereEq labels v).length)

/-- Selection by sampling (`pd.py:52-73`): `np.concatenate` of nothing is a `ValueError`. -/
def sampleLines (rng : Rng S) (s : S) (N : Nat) (size : Count K) (labels : Option (List ℤ)) :
    Except Err (List Nat) × S :=
  match labels with
  | none => rng.choice s (List.range N) (lineSampleSize size N)
  | some labels =>
    match clusterLoop rng s (clusterJobs K labels (lineSampleSize size N) N) with
    | (.error e, s) => (.error e, s)
    | (.ok cs, s) => (if cs = [] then .error .valueError else .ok cs.flatten, s)

/-- `np.quantile(avg, q, interpolation='nearest')` followed by the first position of the value
(`pd.py:83-89`). Which order statistic is nearest is left to `near`. `ValueError` for a level
outside [0, 1]. -/
def quantileIndex (near : Nat → K → Nat) (avg : List K) (q : K) : Except Err Nat :=
  if q < 0 ∨ 1 < q then .error .valueError
  else
    match (List.range avg.length).find? fun i =>
        decide (avg.getD i 0 = (sortL avg).getD (near avg.length q) 0) with
    | some i => .ok i
    | none => .error .indexError

/-- Selection by quantiles of the average y values (`pd.py:76-91`): `np.vectorize` refuses an empty
array. -/
def quantileLines (near : Nat → K → Nat) (lines : List (Line K)) (qs : List K) :
    Except Err (List Nat) :=
  if lines = [] then .error .valueError
  else mapE (quantileIndex near (lines.map fun l => meanL l.2)) qs

/-- The state of the generator after the seed is set (`pd.py:41-42`). -/
def startState (seeded : Nat → S) (s : S) : Option Nat → S
  | some k => seeded k
  | none => s

/-- `sample_partial` (`pd.py:27-91`) with a list of quantiles; `seeded k` is the state of the
generator after `np.random.seed(k)`. -/
def samplePartial (rng : Rng S) (seeded : Nat → S) (near : Nat → K → Nat) (s : S)
    (lines : List (Line K)) (size : Option (Count K)) (quantile : Option (List K))
    (labels : Option (List ℤ)) (randomState : Option Nat) : Except Err (List Nat) × S :=
  match size, quantile with
  | none, none => (.error .exception, startState seeded s randomState)
  | some _, some _ => (.error .exception, startState seeded s randomState)
  | some size, none => sampleLines rng (startState seeded s randomState) lines.length size labels
  | none, some qs => (quantileLines near lines qs, startState seeded s randomState)

/-! ### Typical items -/

/-- `squareform(pdist(embedding))` for the rows `idx` (`pd.py:660`): a pair is compared once, the
diagonal is zero. -/
def squareformEntry (d : List K → List K → K) (E : Mat K) (idx : List Nat) (a b : Nat) : K :=
  if a = b then 0
  else d (E.row (idx.getD (min a b) 0)) (E.row (idx.getD (max a b) 0))

/-- `np.argmin`: the first position of the smallest value; `ValueError` for an empty array
(`visualize/pd.py:660`). -/
def argminL (l : List K) : Except Err Nat :=
  match (List.range l.length).find? fun i => l.all fun x => decide (l.getD i 0 ≤ x) with
  | some i => .ok i
  | none => .error .valueError

/-- The typical item of one cluster (`pd.py:657-661`); `d` is the Euclidean distance of two rows. -/
def typicalItem (d : List K → List K → K) (E : Mat K) (labels : List ℤ) (v : ℤ) :
    Except Err Nat :=
  match argminL ((List.range (whereEq labels v).length).map fun a =>
      ((List.range (whereEq labels v).length).map
        (squareformEntry d E (whereEq labels v) a)).sum) with
  | .error e => .error e
  | .ok k => pyGet (whereEq labels v) k

/-- `choose_cluster_typical` (`pd.py:641-663`): `IndexError` if a label belongs to no row of the
embedding. -/
def chooseTypical (d : List K → List K → K) (E : Mat K) (labels : List ℤ) :
    Except Err (List Nat) :=
  if E.r < labels.length then .error .indexError
  else mapE (typicalItem d E labels) (uniqueL labels)

/-! ### Ranges and colours -/

/-- `.min()` of a non-empty array (`visualize/utils.py:36-46`). -/
def minOf (l : List K) : K := l.foldr min (l.headD 0)

/-- `range_margin` (`visualize/utils.py:36-46`): `ValueError` from `np.min` of an empty vector. -/
def rangeMargin (vector : Option (List K)) (lo hi : Option K) (margin : K) : Except Err (K × K) :=
  match vector, lo, hi with
  | some v, _, _ =>
    if v = [] then .error .valueError
    else .ok (minOf v - (maxOf v - minOf v) * margin, maxOf v + (maxOf v - minOf v) * margin)
  | none, some a, some b => .ok (a - (b - a) * margin, b + (b - a) * margin)
  | none, _, _ => .error .exception

/-- `vector_normed` of `vector_to_color` (`visualize/utils.py:28-29`) for one vector. -/
def normed (v : List K) : Except Err (List (Num K)) :=
  if v = [] then .error .valueError
  else .ok (v.map fun x => Num.div (.fin (x - minOf v)) (.fin (maxOf v - minOf v)))

/-- `int(color * 255)` of `color_to_str` (`visualize/utils.py:9`) for one channel. -/
def colourByte (c : K) : ℤ := if 0 ≤ c * 255 then ⌊c * 255⌋ else ⌈c * 255⌉

end Geo
