import Verif.Model.Viz
import Mathlib.Analysis.SpecialFunctions.Trigonometric.Basic
/-
Model of the contents of the figures of `georegression/visualize`: which data go into which trace of
a figure, in which order, with which labels, colours, hover texts and axis ranges. Not modelled: the
drawing itself (matplotlib, plotly), fonts, titles, legend positions and files.
-/
set_option linter.unusedSectionVars false
namespace Geo
variable {K : Type} [Field K] [LinearOrder K] [IsStrictOrderedRing K] [FloorRing K]
  {S Col : Type}

/-- `a[idx]` for an index array: `IndexError` if an index is out of range
(`visualize/pd.py:264-275`). -/
def gather {α : Type} (l : List α) (idx : List Nat) : Except Err (List α) := mapE (pyGet l) idx

/-- The positions selected by the mask `l == v` (`visualize/scatter.py:52`). -/
def maskEq {α : Type} [DecidableEq α] (l : List α) (v : α) : List Nat :=
  (List.range l.length).filter fun i => l[i]? = some v

/-- `vector_to_color` (`visualize/utils.py:16-33`) for one vector; `cmap` is the colour map applied to
a normalised value (and turned into a string). -/
def vectorColour (cmap : Num K → Col) (v : List K) : Except Err (List Col) :=
  (normed v).map (·.map cmap)

/-! ### Importance plot -/

/-- The default labels (`visualize/importance.py:19`). -/
def defaultLabels (n : Nat) : List String :=
  (List.range n).map fun i => "Feature " ++ toString (i + 1)

/-- The labels with their index (`visualize/importance.py:24`). -/
def numberedLabels (labels : List String) : List String :=
  (List.range labels.length).map fun i => toString (i + 1) ++ ". " ++ labels.getD i ""

/-- What `global_importance_plot` hands to the plotting library: one label, one row of scores and one
mean per bar (`visualize/importance.py:29-53`). -/
structure ImportancePlot (K : Type) where
  labels : List String
  rows : List (List K)
  means : List K
  deriving DecidableEq

/-- The labels before sorting (`visualize/importance.py:18-25`). -/
def plotLabels (n : Nat) (labels : Option (List String)) (index : Bool) : List String :=
  if index then numberedLabels (labels.getD (defaultLabels n)) else labels.getD (defaultLabels n)

/-- `global_importance_plot` (`visualize/importance.py:7-60`) up to drawing. `argsort` is
`np.argsort`, whose order of equal values is not fixed. The mean of no repeats is NaN in numpy and zero
here. -/
def importancePlot (argsort : List K → List Nat) (M : Mat K) (labels : Option (List String))
    (index : Bool) : Except Err (ImportancePlot K) :=
  let means := (List.range M.r).map fun i => meanL (M.row i)
  let order := argsort means
  match gather ((List.range M.r).map M.row) order, gather (plotLabels M.r labels index) order,
      gather means order with
  | .error e, _, _ => .error e
  | _, .error e, _ => .error e
  | _, _, .error e => .error e
  | .ok rows, .ok ls, .ok ms => .ok ⟨ls, rows, ms⟩

/-- Where `ax.barh(labels, …)` (`visualize/importance.py:47`) draws the bar of a label: on a
categorical axis equal labels are one category, and categories are numbered as they first appear. -/
def barPosition (labels : List String) (l : String) : Nat :=
  (labels.takeWhile fun x => x ≠ l).dedup.length

/-! ### Scatter plot -/

/-- A trace of points. `name = none` is the single trace of a continuous value; `colour = none` means
that the points are coloured by their values (`visualize/scatter.py:53-71`, `75-100`). -/
structure PointTrace (K Col : Type) where
  name : Option K
  x : List K
  y : List K
  z : List K
  colour : Option (List Col)
  text : List K
  custom : List Nat

/-- A time surface: the height of its four corners, its colour and whether it is in the legend
(`visualize/scatter.py:111-122`). -/
structure SurfaceTrace (K Col : Type) where
  z : K
  colour : Option Col
  legend : Bool

/-- The figure of `scatter_3d` (`visualize/scatter.py:47-203`). -/
structure ScatterFig (K Col : Type) where
  points : List (PointTrace K Col)
  surfaces : List (SurfaceTrace K Col)
  aspect : Num K × Num K × Num K
  xRange : K × K
  yRange : K × K
  zRange : K × K

/-- The trace of one cluster (`visualize/scatter.py:51-71`): coordinates, colours and texts are
selected by the mask, `custom_data` is passed whole. -/
def clusterTrace (colour : List Col) (x y z value : List K) (v : K) :
    Except Err (PointTrace K Col) :=
  match gather x (maskEq value v), gather y (maskEq value v), gather z (maskEq value v),
      gather colour (maskEq value v), gather value (maskEq value v) with
  | .ok xs, .ok ys, .ok zs, .ok cs, .ok ts =>
    .ok ⟨some v, xs, ys, zs, some cs, ts, List.range value.length⟩
  | .error e, _, _, _, _ => .error e
  | _, .error e, _, _, _ => .error e
  | _, _, .error e, _, _ => .error e
  | _, _, _, .error e, _ => .error e
  | _, _, _, _, .error e => .error e

/-- The traces of points (`visualize/scatter.py:42-103`). A mask of another length than the array it
selects from is an `IndexError`. -/
def pointTraces (cmap : Num K → Col) (x y z value : List K) (isCluster : Bool) :
    Except Err (List (PointTrace K Col)) :=
  if isCluster then
    match vectorColour cmap value with
    | .error e => .error e
    | .ok colour =>
      if value.length ≠ x.length then .error .indexError
      else mapE (clusterTrace colour x y z value) (uniqueL value)
  else .ok [⟨none, x, y, z, none, value, List.range value.length⟩]

/-- `max - min` of a vector (`visualize/scatter.py:21-29`). -/
def spread (v : List K) : K := maxOf v - minOf v

/-- `z_step` (`visualize/scatter.py:31`). -/
def zStep (z : List K) : K := spread z / ((uniqueL z).length : K)

/-- The time surfaces (`visualize/scatter.py:106-122`). -/
def timeSurfaces (colour : List Col) (z : List K) : List (SurfaceTrace K Col) :=
  (List.range (uniqueL z).length).map fun k =>
    ⟨(uniqueL z).getD k 0 - zStep z * (2 / 25), colour[k]?, k = 0⟩

/-- The aspect ratios (`visualize/scatter.py:127-134`), with numpy's division. -/
def aspectRatio (xi yi : K) (slices : Nat) : Num K × Num K × Num K :=
  if xi < yi then
    (.fin 1, Num.div (.fin yi) (.fin xi),
      Num.mul (Num.mul (Num.div (.fin yi) (.fin xi)) (.fin (slices : K))) (.fin (3 / 5)))
  else
    (Num.div (.fin xi) (.fin yi), .fin 1,
      Num.mul (Num.mul (Num.div (.fin xi) (.fin yi)) (.fin (slices : K))) (.fin (3 / 5)))

/-- `scatter_3d` (`visualize/scatter.py:10-208`) up to drawing; `x`, `y` are the columns of
`geo_vector` and `z` the first column of `temporal_vector`, of one length. `np.min` of an empty array
is a `ValueError`. -/
def scatter3d (cmap : Num K → Col) (x y z value : List K) (isCluster : Bool) :
    Except Err (ScatterFig K Col) :=
  if x = [] ∨ y = [] ∨ z = [] ∨ value = [] then .error .valueError
  else
    match pointTraces cmap x y z value isCluster, vectorColour cmap (uniqueL z) with
    | .error e, _ => .error e
    | _, .error e => .error e
    | .ok pts, .ok cs =>
      .ok { points := pts
            surfaces := timeSurfaces cs z
            aspect := aspectRatio (spread x) (spread y) (uniqueL z).length
            xRange := (minOf x - spread x * (3 / 25), maxOf x + spread x * (3 / 25))
            yRange := (minOf y - spread y * (3 / 25), maxOf y + spread y * (3 / 25))
            zRange := (minOf z - zStep z * (1 / 2), maxOf z + zStep z * (1 / 2)) }

/-- The index that plotly shows when hovering over the `k`-th point of a trace: `%{customdata}` is
the `k`-th entry of `customdata` (`visualize/scatter.py:39-40`, `64-67`). -/
def PointTrace.hoverIndex (t : PointTrace K Col) (k : Nat) : Option Nat := t.custom[k]?

/-! ### Lines of partial dependence in three dimensions -/

/-- A line of partial dependence: the time slice repeated, the feature values, the partial values
(`visualize/pd.py:300-366`). -/
structure LineTrace (K Col : Type) where
  x : List K
  y : List K
  z : List K
  colour : Option Col
  name : Option ℤ
  legend : Bool
  index : Nat

/-- `show_vector` (`visualize/pd.py:287-293`): the first line of each cluster. -/
def legendFlags (labels : List ℤ) : List Bool :=
  (List.range labels.length).map fun k => decide (labels.getD k 0 ∉ labels.take k)

/-- A figure of partial dependence lines (`visualize/pd.py:300-366`). -/
structure LineFig (K Col : Type) where
  lines : List (LineTrace K Col)
  xRange : K × K
  yRange : K × K
  zRange : K × K

/-- One trace (`visualize/pd.py:300-325`). -/
def lineTrace (idx : List Nat) (lines : List (Line K)) (temporal : List K) (colours : List Col)
    (labels : Option (List ℤ)) (k : Nat) : LineTrace K Col :=
  let l := lines.getD k ([], [])
  { x := List.replicate l.1.length (temporal.getD k 0)
    y := l.1
    z := l.2
    colour := colours[k]?
    name := labels.bind (·[k]?)
    legend := (labels.bind fun ls => (legendFlags ls)[k]?).getD false
    index := idx.getD k 0 }

/-- Labels of the selected lines (`visualize/pd.py:274-275`). -/
def gatherLabels (labels : Option (List ℤ)) (idx : List Nat) : Except Err (Option (List ℤ)) :=
  match labels with
  | none => .ok none
  | some ls => (gather ls idx).map some

/-- The colours of the lines (`visualize/pd.py:279, 296`): by cluster, or by time slice. -/
def lineColours (cmap : Num K → Col) (temporal : List K) (labels : Option (List ℤ)) :
    Except Err (List Col) :=
  match labels with
  | none => vectorColour cmap temporal
  | some ls => vectorColour cmap (ls.map fun v : ℤ => (v : K))

/-- The figure of the selected lines (`visualize/pd.py:264-366`). -/
def lineFigure (cmap : Num K → Col) (lines : List (Line K)) (temporal : List K)
    (labels : Option (List ℤ)) (idx : List Nat) : Except Err (LineFig K Col) := do
  let ls ← gather lines idx
  let ts ← gather temporal idx
  let labs ← gatherLabels labels idx
  let cs ← lineColours cmap ts labs
  if ls.any (fun l => l.1 = [] ∨ l.2 = []) then .error .valueError
  else
    let xr ← rangeMargin (some ts) none none (1 / 20)
    let yr ← rangeMargin none (some (minOf (ls.map fun l => minOf l.1)))
      (some (maxOf (ls.map fun l => maxOf l.1))) (1 / 20)
    let zr ← rangeMargin none (some (minOf (ls.map fun l => minOf l.2)))
      (some (maxOf (ls.map fun l => maxOf l.2))) (1 / 20)
    .ok ⟨(List.range idx.length).map (lineTrace idx ls ts cs labs), xr, yr, zr⟩

/-- `partial_plot_3d` (`visualize/pd.py:259-366`) for a `temporal` of shape (N,); the sample is drawn
with the default seed 1003. -/
def partialPlot3d (rng : Rng S) (seeded : Nat → S) (near : Nat → K → Nat) (s : S)
    (cmap : Num K → Col) (lines : List (Line K)) (temporal : List K) (labels : Option (List ℤ))
    (size : Option (Count K)) (quantile : Option (List K)) : Except Err (LineFig K Col) × S :=
  match samplePartial rng seeded near s lines size quantile labels (some 1003) with
  | (.error e, s) => (.error e, s)
  | (.ok idx, s) => (lineFigure cmap lines temporal labels idx, s)

/-- Cluster labels of shape (N,) or (Feature, N) (`visualize/pd.py:390-393`). -/
inductive ClusterArg
  | merged (labels : List ℤ)
  | perFeature (labels : List (List ℤ))

/-- `cluster_labels[feature_index]` after tiling (`visualize/pd.py:390-393, 401`). -/
def featureLabels (labels : Option ClusterArg) (k : Nat) : Except Err (Option (List ℤ)) :=
  match labels with
  | none => .ok none
  | some (.merged ls) => .ok (some ls)
  | some (.perFeature lss) => (pyGet lss k).map some

/-- `partials_plot_3d` (`visualize/pd.py:369-409`): one figure per feature, threading the global
generator. -/
def partialsPlot3d (rng : Rng S) (seeded : Nat → S) (near : Nat → K → Nat)
    (cmap : Num K → Col) (temporal : List K) (labels : Option ClusterArg)
    (size : Option (Count K)) (quantile : Option (List K)) :
    S → Nat → List (List (Line K)) → Except Err (List (LineFig K Col)) × S
  | s, _, [] => (.ok [], s)
  | s, k, lines :: rest =>
    match featureLabels labels k with
    | .error e => (.error e, s)
    | .ok labs =>
      match partialPlot3d rng seeded near s cmap lines temporal labs size quantile with
      | (.error e, s) => (.error e, s)
      | (.ok fig, s) =>
        match partialsPlot3d rng seeded near cmap temporal labels size quantile s (k + 1) rest with
        | (.error e, s) => (.error e, s)
        | (.ok figs, s) => (.ok (fig :: figs), s)

/-! ### Embedding plot and compass -/

/-- A trace of the embedding plot; the hover text shows the time slice and the index
(`visualize/pd.py:690-711`). -/
structure EmbedTrace (K Col : Type) where
  name : ℤ
  x : List K
  y : List K
  colour : List Col
  text : List ℤ
  custom : List (K × Nat)

/-- The trace of one cluster (`visualize/pd.py:690-711`): here `custom_data` is masked as well. -/
def embedTrace (colour : List Col) (x y : List K) (custom : List (K × Nat)) (labels : List ℤ) (v : ℤ) :
    Except Err (EmbedTrace K Col) := do
  let xs ← gather x (maskEq labels v)
  let ys ← gather y (maskEq labels v)
  let cs ← gather colour (maskEq labels v)
  let ts ← gather labels (maskEq labels v)
  let ds ← gather custom (maskEq labels v)
  .ok ⟨v, xs, ys, cs, ts, ds⟩

/-- `embedding_plot` (`visualize/pd.py:666-734`): `np.concatenate` needs as many time slices as
points, the mask as many labels. -/
def embeddingPlot (cmap : Num K → Col) (x y : List K) (labels : List ℤ) (temporal : List K) :
    Except Err (List (EmbedTrace K Col)) :=
  if temporal.length ≠ x.length then .error .valueError
  else
    match vectorColour cmap (labels.map fun v : ℤ => (v : K)) with
    | .error e => .error e
    | .ok cs =>
      if labels.length ≠ x.length then .error .indexError
      else mapE (embedTrace cs x y (temporal.zipIdx) labels) (uniqueL labels)

/-! ### Styles of the typical lines -/

/-- The size of the cluster of each distinct label (`np.unique(..., return_counts=True)`,
`visualize/pd.py:178`). -/
def clusterCounts (labels : List ℤ) : List Nat := (uniqueL labels).map fun v => labels.count v

/-- `style_ratios` of a cluster with `cnt` of `N` items (`visualize/pd.py:179-187`). `power` is
`x ** scale_power`. -/
def styleRatio (logistic power : K → K) (useSigmoid : Bool) (labels : List ℤ) (cnt N : Nat) : K :=
  if maxOf ((clusterCounts labels).map fun c : Nat => (c : K)) =
      minOf ((clusterCounts labels).map fun c : Nat => (c : K)) then 1
  else if useSigmoid then power (logistic (((cnt : K) / (N : K) - 1 / 2) * 10))
  else power ((cnt : K) / (N : K))

/-- `style_alpha` or `style_width` of a line (`visualize/pd.py:188-194`), for as many labels as
lines. -/
def lineStyle (logistic power : K → K) (useSigmoid : Bool) (lo hi : K) (labels : List ℤ) (i : Nat) :
    K :=
  lo + (hi - lo) * styleRatio logistic power useSigmoid labels (labels.count (labels.getD i 0))
    labels.length

/-! ### Clustering of lines -/

/-- Parameters of `partial_cluster` (`visualize/pd.py:499-503`). -/
structure ClusterParams (K : Type) where
  nNeighbours : ℤ := 5
  minDist : K
  nComponents : ℤ := 2
  minClusterSize : ℤ := 10
  minSamples : ℤ := 3
  epsilon : K

/-- UMAP (with a fixed random state) and HDBSCAN: arbitrary functions of their parameters and data
(`visualize/pd.py:547-571`). -/
structure ClusterLib (K : Type) where
  umap : ClusterParams K → ℤ → Mat K → Except Err (Mat K)
  hdbscan : ClusterParams K → Mat K → Except Err (List ℤ)

/-- `partial_cluster` (`visualize/pd.py:499-571`) without plots: the embedding used for display, the
labels and the distances. The second embedding is computed only for another number of components. -/
def partialCluster (lib : ClusterLib K) (p : ClusterParams K) (lines : Option (List (Line K)))
    (distance : Option (Mat K)) : Except Err (Mat K × List ℤ × Mat K) :=
  match distance, lines with
  | none, none => .error .exception
  | some D, _ => clusterOf D
  | none, some ls =>
    match partialDistance ls with
    | .error e => .error e
    | .ok D => clusterOf D
where
  /-- Embedding and clustering of a distance matrix (`visualize/pd.py:547-571`). -/
  clusterOf (D : Mat K) : Except Err (Mat K × List ℤ × Mat K) := do
    let E ← lib.umap p 2 D
    let C ← secondEmbedding E D
    let ls ← lib.hdbscan p C
    .ok (E, ls, D)
  /-- The embedding that is clustered (`visualize/pd.py:553-559`). -/
  secondEmbedding (E D : Mat K) : Except Err (Mat K) :=
    if p.nComponents = 2 then .ok E else lib.umap p p.nComponents D

/-- `features_partial_cluster` (`visualize/pd.py:574-638`): every feature on its own. -/
def featuresPartialCluster (lib : ClusterLib K) (p : ClusterParams K)
    (features : Option (List (List (Line K)))) (distances : Option (List (Mat K))) :
    Except Err (List (Mat K) × List (List ℤ) × List (Mat K)) :=
  match distances, features with
  | none, none => .error .exception
  | some Ds, _ => clusterAll Ds
  | none, some fs =>
    match featuresPartialDistance fs with
    | .error e => .error e
    | .ok Ds => clusterAll Ds
where
  /-- The loop over the features (`visualize/pd.py:611-638`). -/
  clusterAll (Ds : List (Mat K)) : Except Err (List (Mat K) × List (List ℤ) × List (Mat K)) :=
    match mapE (fun D => partialCluster lib p none (some D)) Ds with
    | .error e => .error e
    | .ok rs => .ok (rs.map (·.1), rs.map (·.2.1), Ds)

/-! ### Camera -/

/-- The position of the camera set by `camera_position` (`visualize/utils.py:65-77`). -/
noncomputable def cameraEye (rotation pitch : ℝ) : ℝ × ℝ × ℝ :=
  (Real.cos (rotation * Real.pi / 180), Real.sin (rotation * Real.pi / 180),
    Real.sin (pitch * Real.pi / 180))

/-- The aspect ratios set by `aspect_ratio_scale` (`visualize/utils.py:49-62`). -/
def aspectScale (a : K × K × K) (scale : K) : K × K × K := (a.1 * scale, a.2.1 * scale, a.2.2 * scale)

end Geo
