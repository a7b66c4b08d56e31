import Verif.Model.Figures
/-
Model of the compound figures of `georegression/visualize/pd.py`: `compass_plot` and
`partial_compound_plot`, which put a map of the clusters, the lines of partial dependence and the
embedding of one feature side by side.
-/
set_option linter.unusedSectionVars false
namespace Geo
variable {K : Type} [Field K] [LinearOrder K] [IsStrictOrderedRing K] [FloorRing K]
  {S Col : Type}

/-- The panels of a compass figure (`visualize/pd.py:737-772`): the map of the clusters on the left,
the lines above the embedding on the right. Titles, sizes and axis styles are left out. -/
structure CompassFig (K Col : Type) where
  left : ScatterFig K Col
  upper : LineFig K Col
  lower : List (EmbedTrace K Col)

/-- `compass_plot` (`visualize/pd.py:737-772`): the traces of each figure go into their own panel. -/
def compassPlot (cluster : ScatterFig K Col) (lines : LineFig K Col)
    (embedding : List (EmbedTrace K Col)) : CompassFig K Col :=
  ⟨cluster, lines, embedding⟩

/-- The embedding and the labels (`visualize/pd.py:792-793`): one for all features, with shapes (N, 2)
and (N,), or one per feature, with shapes (Feature, N, 2) and (Feature, N). Mixed shapes are not
modelled. An embedding is given by its two columns. -/
inductive CompoundArg (K : Type)
  | merged (embedding : List K × List K) (labels : List ℤ)
  | perFeature (embedding : List (List K × List K)) (labels : List (List ℤ))

/-- The labels as `partials_plot_3d` receives them (`visualize/pd.py:808-811`). -/
def CompoundArg.labels : CompoundArg K → ClusterArg
  | .merged _ l => .merged l
  | .perFeature _ l => .perFeature l

/-- The embedding figure of feature `k` (`visualize/pd.py:826-832`). -/
def featureEmbedding (cmap : Num K → Col) (temporal : List K) (es : List (List K × List K))
    (ls : List (List ℤ)) (k : Nat) : Except Err (List (EmbedTrace K Col)) :=
  match pyGet es k, pyGet ls k with
  | .ok e, .ok l => embeddingPlot cmap e.1 e.2 l temporal
  | .error e, _ => .error e
  | _, .error e => .error e

/-- The map of the clusters of feature `k` (`visualize/pd.py:834-841`). -/
def featureMap (cmap : Num K → Col) (x y temporal : List K) (ls : List (List ℤ)) (k : Nat) :
    Except Err (ScatterFig K Col) :=
  match pyGet ls k with
  | .ok l => scatter3d cmap x y temporal (l.map fun v : ℤ => (v : K)) true
  | .error e => .error e

/-- `embedding_figs` (`visualize/pd.py:813-818, 825-832`). -/
def embeddingFigs (cmap : Num K → Col) (temporal : List K) (n : Nat) :
    CompoundArg K → Except Err (List (List (EmbedTrace K Col)))
  | .merged e l => (embeddingPlot cmap e.1 e.2 l temporal).map (List.replicate n)
  | .perFeature es ls => mapE (featureEmbedding cmap temporal es ls) (List.range n)

/-- `cluster_figs` (`visualize/pd.py:820-824, 834-841`). -/
def clusterFigs (cmap : Num K → Col) (x y temporal : List K) (n : Nat) :
    CompoundArg K → Except Err (List (ScatterFig K Col))
  | .merged _ l => (scatter3d cmap x y temporal (l.map fun v : ℤ => (v : K)) true).map (List.replicate n)
  | .perFeature _ ls => mapE (featureMap cmap x y temporal ls) (List.range n)

/-- The figures returned by `partial_compound_plot` (`visualize/pd.py:850`). -/
structure CompoundFigs (K Col : Type) where
  lines : List (LineFig K Col)
  embeddings : List (List (EmbedTrace K Col))
  maps : List (ScatterFig K Col)
  compasses : List (CompassFig K Col)

/-- `compass_figs` (`visualize/pd.py:843-848`): figure `k` of every kind. -/
def compassFigs (maps : List (ScatterFig K Col)) (lines : List (LineFig K Col))
    (embeddings : List (List (EmbedTrace K Col))) : List (CompassFig K Col) :=
  List.zipWith (fun c p => compassPlot c p.1 p.2) maps (lines.zip embeddings)

/-- `partial_compound_plot` (`visualize/pd.py:775-850`): first the lines, then the embeddings, then
the maps; `x` and `y` are the columns of `geo_vector`. Writing the files is left out. -/
def partialCompoundPlot (rng : Rng S) (seeded : Nat → S) (near : Nat → K → Nat) (s : S)
    (cmap : Num K → Col) (x y temporal : List K) (features : List (List (Line K)))
    (arg : CompoundArg K) (size : Option (Count K)) (quantile : Option (List K)) :
    Except Err (CompoundFigs K Col) × S :=
  match partialsPlot3d rng seeded near cmap temporal (some arg.labels) size quantile s 0 features with
  | (.error e, s) => (.error e, s)
  | (.ok lines, s) =>
    match embeddingFigs cmap temporal features.length arg with
    | .error e => (.error e, s)
    | .ok embeddings =>
      match clusterFigs cmap x y temporal features.length arg with
      | .error e => (.error e, s)
      | .ok maps => (.ok ⟨lines, embeddings, maps, compassFigs maps lines embeddings⟩, s)

end Geo
