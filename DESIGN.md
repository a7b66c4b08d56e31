# GeoRegression in Lean 4: design of the model and of the proofs

The subject is the Python package in `/repo/georegression`. The model is a set of
executable Lean definitions, one per Python function, under `lean/Verif/Model/`.
Small specifications live in `lean/Verif/Spec/`, helper lemmas in
`lean/Verif/Lemmas/` and `lean/Verif/Basic/`, and the property theorems, each with a
non-vacuity `example`, in `lean/Verif/Props/`. Every model definition cites the lines
it models.

## 1. Trusted base

* Lean 4.33.0's kernel, with the three standard axioms `propext`, `Classical.choice`
  and `Quot.sound`. No own axioms, no `sorry`/`admit`, no `native_decide`/`bv_decide`.
  `AXIOMS.md` lists the axioms of every theorem named in `MANIFEST.json` (output of
  `#print axioms`); none depends on anything else.
* Mathlib's definitions where a statement mentions them (sums, `Real`, `Real.sin`,
  `Matrix.PosDef`, `Equiv.Perm`, ...).
* The reading of the Python source recorded in the model's comments. Nothing is
  extracted automatically.
* The behaviour of the libraries the code calls, as far as it is used: see the table
  below. These behaviours are *defined* in the model (not assumed as axioms), so an
  error here is an error of the model and not an inconsistency.

### Simplifications that hold for the whole model

| Area | What the model does |
|---|---|
| Numbers | exact arithmetic in an arbitrary linearly ordered field `K` (with floor where the code rounds); IEEE special values inf and NaN are modelled by `Num K` where the code produces them (division by a zero bandwidth). Signed zero is not modelled. Rounding and overflow are modelled for the kernels, the rows of the weight matrix and the weighted sum of `predict_by_weight` (`Model/Rounded`: every operation is followed by an arbitrary monotone rounding, so C85, C86 and C128 hold for every IEEE format and rounding mode; `Model/Floats` defines the IEEE binary formats and instantiates them) and for the casts to float32 in `_distance_matrix` (`Model/Floats`, C106: they amount to another library of metrics, so every theorem that holds for all libraries holds with them); everywhere else arithmetic is exact. |
| exp, sin, cos, arcsin | exp is a parameter with the laws `exp 0 = 1`, `exp > 0`, monotone; instantiated by `Real.exp`. Trigonometry is over `Real`. |
| numpy | arrays are lists (rows) or `Mat` (rows, columns, entry function); sorting, partition, quantile (linear and median-unbiased), `array_split`, `unique`, `searchsorted`, `bincount`, broadcasting and truth-value errors are modelled as far as they are used |
| scipy CSR | `indptr/indices/data` lists; row slices, `csr_array(...)` shape inference, `eliminate_zeros` |
| dask / zarr | lazy arrays are the arrays they evaluate to; chunking and storage are not modelled |
| ray, joblib, numba prange | a parallel loop is an arbitrary interleaving of per-iteration steps; worker failures are not modelled |
| library versions | as pinned in `requirements.txt`: numpy 1.24, scipy 1.10, scikit-learn 1.2, numba 0.57, pandas 2.0, joblib 1.2 |
| `np.empty` | arbitrary contents (a parameter `junk`), so a theorem about a result holds whatever memory contained |
| scikit-learn estimators | an arbitrary function from (location, rows, targets, weights) to a fitted predictor or an exception; prediction is row-wise; in `Model/Objects` and `Model/StackObjects` objects instead: `fit` may use and change the object's state in any way, also when it raises, `predict` only reads it, and C155, C156, C158 show that this makes no difference to the results, in this process, on copies in worker processes or in threads whose steps alternate in any way (a step changes one object; the arguments of a task are evaluated when it begins; joblib raises the exception of the first batch, in order, that failed) |
| random generators | an abstract state machine, `seed` resets the state; `choice(list, k, replace=False)` is any function returning `k` distinct elements or raising |
| regressors without `random_state` | a `Learner` is a function of the location and its data, so theorems about one run hold of any regressor, run by run; theorems that compare two runs hold of regressors that do not draw. `Model/Randomised` lets the fits draw from the global generator, only for `n_patches = 1`: the generators of joblib's worker processes are not modelled |
| Python exceptions | values of an error type; where the post-state after an exception matters, state is returned with the exception |

## 2. What is modelled and what is not

| File in `/repo/georegression` | Modelled | Not modelled |
|---|---|---|
| `kernel.py` | all functions (`Model/Kernel`; `kernel_function` again in rounded arithmetic, `Model/Rounded`) | dask chunk sizes |
| `weight_matrix.py` | all functions, including argument broadcasting and every exception (`Model/WeightMatrix`, `Model/Distance`) | memory use |
| `distance_utils.py` | `_distance_matrices`, `_distance_matrix` with the file store, great circle (`Model/Distance`, `Model/GreatCircle`), the casts to float32 (`Model/Floats`) | the metrics themselves (a metric is an arbitrary function of two points) |
| `neighbour_utils.py` | all functions, dense and CSR, sequential (`Model/Neighbour`) and as interleaved per-element steps (`Model/Parallel`) | |
| `numba_impl.py` | `mean`, `ridge_cholesky`, `r2_score` (`Model/NumbaImpl`) | lines 59-71 (an unused timing script) |
| `weight_model.py` | `_fit` (n_jobs, n_patches, both matrix formats), constructor (`Model/Constructor` with the binding of its arguments), `fit`, `predict_by_weight`, `predict_by_fit`, global and interaction importance, partial dependence, local and global ALE (`Model/WeightModel`, with any form of input `Model/Inputs`, with arrays of the caller `Model/SharedData`, with regressors as objects `Model/Objects`, `Importance`, `LocalPd`, `Ale`), local importance (`Model/ImportanceLocal`), `local_ICE` (`Model/LocalIce`, with the three- and the four-argument `_grid_from_X` of scikit-learn) | logging, the internals of scikit-learn's `partial_dependence` and `permutation_importance` beyond what the theorems name |
| `stacking_model.py` | base fit, constructor, `fit` (general, numba, sampled), `predict_by_fit`, `StackingEstimator` (`Model/Stacking`, with base regressors as objects `Model/StackObjects`); the numba loop step by step (`Model/StackingLoop`) with its ridge solver (`Model/NumbaRidge`) | logging, the timing prints |
| `ale_utils.py`, `local_ale.py` | all functions (`Model/Ale`) | |
| `local_pd.py` | `local_partial_dependence` (`Model/LocalPd`), with scikit-learn's grid and for integer arrays (`Model/CurveGrids`) | |
| `spatial_temporal_moran.py` | `spatiotemporal_MI`, `STMI`, `spatiotemporal_LMI` (`Model/Moran`), the points and the line of `plot_moran_diagram` (`Model/MoranDiagram`) | line styles |
| `visualize/pd.py` | `sample_partial`, `partial_distance`, `features_partial_distance`, `choose_cluster_typical` (`Model/Viz`); data, labels, styles and ranges of `partial_plot_2d`, `partial_plot_3d`, `partials_plot_3d`, `embedding_plot`; `partial_cluster`, `features_partial_cluster` (`Model/Figures`); the panels of `compass_plot` and `partial_compound_plot` (`Model/Compound`) | how plotly and matplotlib draw; titles and file names; UMAP and HDBSCAN are arbitrary functions; embeddings and labels of mixed shapes in `partial_compound_plot` |
| `visualize/utils.py` | colours and ranges (`Model/Viz`), camera and aspect scale (`Model/Figures`) | |
| `visualize/scatter.py`, `importance.py` | contents of the figures: traces, colours, labels, ranges, aspect, surfaces (`Model/Figures`) | how they are drawn; fonts, titles, files |
| `visualize/ale.py` | the line and the bars of `plot_ale` (`Model/AlePlot`) | drawing, colours, labels |
| `simulation/simulation_utils.py` | all functions (`Model/Simulation`) | |
| `simulation/simulation_for_fitting.py`, `simulation_for_importance.py`, `simulation.py` | coefficients, response functions and `generate_sample` (`Model/Samples`) | plots, the copies of the same functions in the other scripts |
| `simulation/simulation_for_STST_variation.py`, `simulation_for_data_size.py`, `simulation_for_fitting.py` (experiments) | `fit_models`, `test_models`, `test_GRF`, `test_GWR`, `test_stacking` (`Model/Experiments`): records, their order and the files; a file is the list of its records, the clock is arbitrary | printing, the text of the JSON and what `json.dumps` refuses |
| `simulation/simulation_for_robust.py`, `fit_llocv_models` | `fit_models` with its second sample, `fit_llocv_models` (`Model/HeldOut`): the record and the printed scores | regressors that draw random numbers; the forest's `oob_score_` is some function of the fitted forest |
| `simulation/simulation_for_*.py` (scenarios) | the scenario functions with their numbers and remarks, the binding of their calls to the `fit_models` of the script, the loop over feature sizes, `test_llocv`, the main part of `simulation_for_data_size.py` (`Model/Scenarios`) | how a sample is made (any function of the generator; the actual ones are in `Model/Samples`), plots, `square_gau_strong_10000`/`50000` of two scripts (they call `test_models`) |
| `kernel.py`, `weight_matrix.py` on distances with NaN and infinities | `nan_to_num`, comparison with NaN, `np.partition` and `np.quantile` with NaN, products and row sums (`Model/Missing`) | `np.quantile` of rows with infinities is any function that gives non-negative values; `cdist` of scipy for the other metrics |
| `simulation/simulation_for_importance.py`, `simulation_data_fitting.py` (figures) | the two ways local importance is rescaled to [0, 1] (`Model/Rescale`), with numpy's broadcasting and NaN | drawing |
| `simulation/simulation_for_ale.py`, `simulation_data_fitting.py` | the true effect and the shifted curve (`Model/AleTruth`); the loop over the locations, the parts of each figure, the saved files and how the scripts end (`Model/AleScripts`); the random draws are arguments | colours, labels, legends |
| `simulation/parameter_tuning.py` | the model made in `objective` (`Model/Constructor`) | hyperopt |
| `Examples/*.py` | what the scripts print and draw (`Model/ExampleScripts`); not `spatiotemporal.py` and `local_importance.py`, which only call modelled methods | printing, figures |
| `simulation/*.py` (other), `test/` | nothing | scripts |

Also outside: pickling, timing, memory mapping, the dask scheduler, worker failures in
joblib and ray, and loading of data.

## 3. Plan per property

The status of each property is in `MANIFEST.json`. Where the code does not do what its
documentation or name promises, the property says what the code does, and the theorem
states that for all inputs (or, for a loss of a guarantee, by a witness next to the
theorem that states what remains). These are: C10 (lazy and eager bandwidths outside
counts from 1), C16, C19, C20, C74, C79 (weight matrix arguments and stored distances),
C39 (sampled dense locations), C41, C42 (caller's buffers and state after a failure),
C44, C45 (prediction), C48, C75 (importance), C53-C56, C87, C88 (stacking), C62 (ALE), C64, C66
(Moran), C69, C78, C132, C133, C136 (partial dependence and other curves), C134, C135 (constructors and scikit-learn's protocol), C138 (CSR weights without numba), C80, C82, C83, C110, C111, C112 (simulation) and C109 (Moran diagram), C113 (importance after stacking).

| Property | Model | Proof |
|---|---|---|
| C01–C07, C73 kernels | `Model/Kernel`: `kernelFunction` over `Num K`, division and `nan_to_num` as in the code, dask bisquare branch | case analysis over kernels; order-field algebra |
| C08–C10 adaptive bandwidth | `Model/Kernel`: `adaptiveBandwidth` (partition, median-unbiased quantile, sorted lazy path) over rows | counting lemma for order statistics; interpolation monotonicity |
| C11–C14, C17, C18 weight matrix | `Model/WeightMatrix`: parameter broadcasting, product over dimensions, row normalisation | sums over lists; permutation invariance of order statistics |
| C15, C16, C19, C20 argument handling | same, with exceptions; `weightMatrixFromPoints` passes arguments positionally as the code does | case analysis |
| C74, C79 stored distances | `Model/Distance`: the files as a state | two-run theorems over the file state |
| C21 great circle | `Model/GreatCircle` over `Real` | trigonometric identities |
| C22 validation | `Model/Distance` with exceptions | case analysis |
| C23–C25 second order, parallel loops | `Model/Neighbour`, `Model/Parallel`, `Model/StackingLoop`, dense and CSR; loops as interleavings | membership, sortedness, generic schedule theorem (`Basic/Par`) |
| C26–C29 shrink | `Model/Neighbour` | quantile bounds, counting, caller buffer returned by the model |
| C30–C32 sampling | `Model/Neighbour` with abstract generator | induction over rows; choice specification |
| C33, C34 ridge | `Model/NumbaImpl` with matrices over `Fin p` | positive definiteness, completing the square |
| C35 R2 | same | algebra; comparison with scikit-learn's rule for constant targets |
| C36–C40, C76 local fitting | `Model/WeightModel`: dense/sparse, n_jobs/n_patches | two-run theorems, list lemmas |
| C41, C42 caller buffers, crash points | `fit` returns model state, caller's matrix and result | case analysis |
| C43–C45 prediction | `Model/WeightModel` | convexity; two-run theorems |
| C46–C48, C75 importance | `Model/Importance` | induction over call histories; index arithmetic |
| C49–C56, C87, C88 stacking | `Model/Stacking`, `Model/NumbaRidge`; `Ridge` is specified as a minimiser of the ridge objective | two-run theorem; coverage of the second-order neighbourhood; inversion of successful runs |
| C57–C62, C77 ALE | `Model/Ale` | well-founded recursion; sorted-list lemmas; telescoping sums |
| C63–C66 Moran | `Model/Moran` with sums over `Fin n` | finite-sum algebra; averages over `Equiv.Perm` |
| C67, C78 partial dependence | `Model/LocalPd` | convexity |
| C68–C71 visualisation helpers | `Model/Viz` | symmetric sums, argmin, counting |
| C84 local importance | `Model/ImportanceLocal` | locality by congruence, sums over repeats |
| C89–C92 units of the target, order of the rows | the models above; learners are assumed equivariant or order-free, `Ridge` as a minimiser | two-run theorems with a relation on results (`Lemmas/Rel`) |
| C93, C94 units and position of the coordinates | `Model/Kernel`, `Model/WeightMatrix`, `Model/Distance` | homogeneity of order statistics and quantiles |
| C95 stability under small changes of the distances | `Model/Kernel`, `Model/WeightMatrix` | mean value theorem per kernel; order statistics move no further than the data; over the reals with `Real.exp` |
| C96 exactly linear data | `Model/WeightModel` | zero is attained by the true function, so each minimiser has zero residual at each neighbour; affine combinations carry this to other points |
| C97 global kernels give the global model | `Model/WeightMatrix`, `Model/WeightModel` | each kernel value is 1, so rows normalise to 1/N; all neighbours of all locations are then the same data |
| C98 importance plot | `Model/Figures` | reordering by an argsort keeps label, box and bar together; numbered labels are injective |
| C99 clusters and hover index in scatter plots | `Model/Figures` | a cluster's trace is a mask of the rows; position k of the mask is k only if nothing was skipped before |
| C100 axes, aspect and time surfaces | `Model/Figures` | extremes bound all points; division by a zero extent gives infinity or NaN |
| C101 lines in three dimensions | `Model/Figures`, `Model/Viz` | selection by index commutes with every column; the sample is drawn with a fixed seed |
| C102 line styles | `Model/Figures` | composition of increasing maps on [0, 1] |
| C103 camera and aspect scale | `Model/Figures` | trigonometry over the reals |
| C104 clustering per feature | `Model/Figures` | the loop over features is a map; embedding and clustering are arbitrary functions |
| C105 coincident points | `Model/Distance`, `Model/WeightMatrix` | swapping two equal points changes nothing, and relabelling (C17, C18) says what a swap does |
| C106 single precision | `Model/Floats` | rounding chooses a nearest float, hence is monotone and idempotent; the casts are a library of metrics |
| C107 refit at the training points | `Model/WeightModel` | `predict_by_fit` with given weights is the batch loop of the fit; with coordinates the weights are the transposed ones |
| C108 reach | `Model/WeightMatrix`, `Model/WeightModel` | closed form of the weights with fixed bandwidths; sums, index lists and fits agree up to zeros; two steps for `predict_by_weight` |
| C109 Moran diagram | `Model/MoranDiagram` | completing the square for the slope; with equal row sums the division by column is one factor |
| C85, C86 rounding | `Model/Rounded`, `Model/Floats` | monotone maps on the unit interval, induction over summation trees; Bernoulli's inequality for the bound in double precision |
| C113 baseline of the importance | `Model/Importance`, `Model/Stacking` | the stored estimators reproduce the fitted predictions, so the permuted score is the score of the stored estimators |
| C114 reach of stacking | `Model/Stacking` | two runs that meet `StackSpec` with the same weights and selections |
| C115 range of the predictions | `Model/WeightModel`, `Model/Stacking` | convexity; one comparison of ridge costs for the counterexample |
| C116 what a fit keeps from the past | `Model/WeightModel`, `Model/Stacking` | relational: two runs from different states, stage by stage |
| C117 laws of the ALE curves | `Model/Ale`, `Model/AleTruth` | a curve is determined by its steps and its start or centre; equivariance of quantiles and of the grid search |
| C118 how the features are written down | `Model/WeightModel`, `Model/Stacking`, `Model/Importance`, `Model/ImportanceLocal`, `Model/Ale`, `Model/LocalPd` | simulation relation between two objects, preserved by every method |
| C119 compound figures | `Model/Compound`, `Model/Figures` | figure `k` of every kind comes from feature `k`; the scale of colours is fixed by the smallest and largest label shown |
| C120 ready-made weights | `Model/WeightModel`, `Model/Stacking` | the two fits run the same code from the weight matrix on; clearing a diagonal twice is clearing it once; shrinking twice is not shrinking once |
| C121 randomised regressors | `Model/Randomised` | the generator goes through every fit; `sample_neighbour` seeds it before the first draw, so both runs continue from the same state; agreement with `Model/Stacking` and `Model/WeightModel` for regressors that do not draw |
| C122 experiments | `Model/Experiments` | ten fits that depend neither on the object nor on the generator (C116, C121) have one score; laws of dictionaries (`find` after `put`); invariant of the running maximum |
| C123 condensed and sorted distances | `Model/Distance` | offsets of the rows of the condensed vector by induction; `str.replace` on characters only makes the name longer |
| C124 leave-one-out score | `Model/HeldOut` | the rows kept by a split are the rows other than the location; C97 for every location, then equality of the scores |
| C125 second sample | `Model/HeldOut` | a refit is a fresh fit (C116), so every recorded score is a function of the first sample; last assignment wins in the record; C56 for the uncovered point |
| C126 integer features | `Model/CurveGrids` | writing into an integer array is composition of the predictor with truncation; then C60 for the other predictor |
| C127 grid of partial dependence | `Model/CurveGrids`, `Model/LocalPd` | bracketing of interpolated order statistics, counting |
| C128 rounded prediction | `Model/Rounded`, `Model/Floats` | induction over summation trees with signed summands; triangle inequality; Bernoulli's inequality |
| C129 p of STMI | `Model/Moran` | Cauchy-Schwarz over permutations; a sum of squares over pairs for the sharp bound of the fourth moment |
| C130 `local_ICE` | `Model/LocalIce` | the first location decides; list induction; linearity of the weighted mean |
| C131 ALE figure | `Model/AlePlot` | case analysis of numpy's bin correction for any increasing edges and any guess off by one; double counting |
| C132 sparse fits inspected | `Model/LocalPd`, `LocalIce`, `Ale`, `Importance` | a row of a CSR matrix is no mask; the global methods commute with forgetting the matrices, then C40 |
| C133 sampled fits inspected | the same | there are fewer estimators than locations; reading off the estimator and the mask used for curve `k` |
| C134, C135 constructors | `Model/Constructor`: Python's argument binding for arbitrary signatures, the two constructors, `get_params`, `set_params`, `clone`, `repr`, `score` | induction over the parameters: what each one is bound to, when binding succeeds; the parent's constructor is evaluated for all bound arguments |
| C136 stacking inspected | `Model/StackInspect`, `Ale`, `LocalIce`, `ImportanceLocal` on the state of a stacking fit | C54 says which matrices are recorded, C87 that no estimator is missing |
| C137 penalty | `IsRidge` of `Props/StackingRidge`, `StackSpec` | the meta learner is any ridge regression in the real numbers; the local problem is the one of C50, the bounds follow from minimality of the penalised sum of squares |
| C138 success of a fit | `stackFit` on ndarrays and CSR arrays | necessity is C50; sufficiency runs the model forwards; the sparse case needs the inferred number of columns of C24 |
| C139 success of a weight model | `wmFit`, `fitAll`, `denseTask` | both directions: `wmFit_ok` backwards, the model forwards; CSR by C40 |
| C140 size of the training sets | `adaptiveBandwidth`, `kernelFunction`, `weightMatrixFromPoints`, `wmFit` | the k-th smallest distance (C08) or the interpolated quantile (C09), the supports of the kernels (C04), counting points with the location set aside |
| C141 mutual neighbours | `weightMatrixFromDistance`, `pointSource`, `wmFit` | with fixed bandwidths the products of kernels are symmetric, the row sums are the balancing factors; a witness against `neighbour_count` |
| C142 bandwidth and neighbourhood | the same | the kernels grow with the bandwidth (C05) and the k-th smallest distance with k; list products; Lipschitz bounds of the kernels (C95) for the wide limit over `Real` |
| C143 linear smoother | `wmFit`, `predictByFit`, `predictByWeight` for regressors that superpose | three runs of the model compared location by location; induction over the observations for `H`; normal equations for least squares |
| C144 independent regions | `wmFit`, `weightMatrixFromDistance`, `adaptiveBandwidth` on a subset of the observations | the numbers of a subset as a filtered range; order statistics of a row with members removed; two runs compared location by location |
| C145 copies of observations | `wmFit` with `pointSource` on coordinates that repeat | symmetry of coincident points (C105) with the self weight (C14); the training set contains the copy; regressors that reproduce their training data |
| C146 rescaled importance | `rescaleAll`, `rescaleByRow` | extremes of a list by induction over the fold; case distinction on the shapes numpy broadcasts |
| C147 effect curves and the order of observations | `weightedAle`, `globalAle`, `localAle`, `partialDependence` after `wmFit` | the code is shown equal to a function of the list of (row, weight) pairs (`curveOf`, `globalCurveOf`) that is invariant under permutations: the grid by sorting, the averages by sums over filters; the two fits by C92 and the order-freeness of the learner |
| C148 dimensions of the coordinates | `weightMatrixFromDistance`, `pointSource` with arguments given as lists | the result is a function of the list of per-dimension weights (`weightsOf_ok`, `weightsOf_build`); products are invariant under permutation, ones drop out, squares keep positivity; the coordinate versions through `coordWeights_iff` |
| C149 leave-one-out and prediction without the observation | `wmFit`, `predictByFit`, `pointSource` | the rows a local model is trained on are renumbered by `skip`; a sorted row with its own zero distance is that zero followed by the sorted rest, so the k-th nearest becomes the (k-1)-th; normalisation only changes the scale |
| C150 boxcar depends on ranks only | `adaptiveBandwidth`, `kernelElem`, `weightMatrixFromDistance`, `pointSource`, `wmFit` | an entry is at most a quantile of its row iff fewer than a fixed number of entries are below it (`quantile_rank`), also for interpolated quantiles; lifted to lists of dimensions and to fits by congruence |
| C151 example scripts | `Model/ExampleScripts` on top of `wmFit`, `stackFit`, `stackPredictByFit`, `localAle` | the record of a fit (C38, C87) against the second computation; `predict_by_fit` unfolded: the state only flows into the state; the loop of `stale.py` against `local_ALE` by induction over the locations |
| C152 nearby locations | `adaptiveBandwidth`, `weightMatrixFromDistance`, `predictByWeight` | two rows of one matrix are compared as C95 compares one row of two matrices: order statistics move no further than the data, every kernel but `boxcar` is Lipschitz in distance and bandwidth (mean value theorem in 1/bandwidth for `gaussian` and `exponential`); also gives C95 for adaptive bandwidths; a family of three points for `boxcar` |
| C153 further observations | `adaptiveBandwidth`, `weightMatrixFromDistance`, `wmFit` | the bandwidth by the counts that determine it (C08); products and row sums over a prefix of the targets, zero beyond it; training sets (C139) |
| C154 several kernels as one | `weightMatrixFromDistance`, `kernelElem` | weights as products of kernel shapes at scaled distances; the exponential turns sums into products, the boxcar maxima; over ℝ with the real exponential; a witness for each kernel of bounded support |
| C155, C156 regressors as objects | `Model/Objects`, `Model/StackObjects`: memory with addresses, `clone`, fitting in place, batches in this process, on copies in workers or in threads | refinement: with the references replaced by what they refer to, every method is the method of `Model/WeightModel` and `Model/Stacking` with the clone's `fit` as a function; invariants of the loop over tasks (tasks own different objects) and of memory (old addresses untouched) |
| C157 scenarios of the experiments | `Model/Scenarios`: tables of scenarios, argument binding, loops that write as they go | evaluation of the binding for arbitrary arguments; an invariant of loops that write one record per round, closed under nesting |
| C158 backends of joblib | `Model/Objects` (`Thread.step`, `runThreads`, `collect`): threads take turns by a schedule, the fit of an object is a list of steps | a step of a thread does not change how it ends; threads with different objects do not see each other's steps; induction over the schedule; a witness that a shared object breaks it |
| C159 missing and infinite coordinates | `Model/Missing`: kernels, bandwidths and weight matrices on distances that may be NaN or infinite (numpy's ordering puts NaN last; quantiles of rows with NaN are NaN, those of rows with infinities are an arbitrary function) | case analysis per kernel; refinement to the finite model; the normalisation lemmas of `Lemmas/WeightMatrix`; C97 for the fit |
| C160 changes of the targets | no new model; regressors that follow their targets | the recorded values of a fit location by location (`fit_values`, from C143), convexity of `predict_by_weight`; an explicit ridge problem for the negative part |
| C161 kernel smoother | no new model; the published kernels as functions of distance over bandwidth | C73 for the kernels, the product form of the weights, cancellation of the row factor |
| C162 tiled data | no new model; `np.tile` of matrices and targets as row selection | counts and sums over copies, the product form of the weights, regressors determined by weighted totals |
| C163 local-ALE figures | `Model/AleScripts` on top of `stalePanel`, `weightedAle`, `plotAle`, the constructor | a larger sample with unit weights has a curve whenever the neighbours have one; grid ends; induction over the loop |
| C164 geographically weighted regression | no new model; `NormalEquations` in `Props/Gwr` | a least-squares minimiser solves the normal equations (first-order condition on a quadratic), two solutions agree wherever the observations that count determine the value, factors of the weights cancel |
| C165 in-sample against leave-one-out | no new model; `MinimisesLoss` in `Props/InSample` | add the two minimality inequalities, the common terms and penalties cancel; for least squares the regression without the observation moved by its influence solves the normal equations with it |
| C166 the stack against its competitors | no new model | minimality of the ridge cost at the coefficients of the competitor: a unit vector, the average, zero |
| C167 calls of `regressor.fit` | `Model/Randomised` with a regressor that keeps a list beside the generator | induction over the loop of the locations with the list as accumulator; the generator beside the list draws as before |
| C168 very small and very large bandwidths | `Model/Kernel`, `WeightMatrix`, `WeightModel` over the real numbers with the real exponential | the predictions are means with weights `exp (-s ρ)` (from C161); limits of such means for `s` to infinity and to 0, uniform over the finitely many locations; the hypotheses are shown satisfiable for all dimensions, factors and targets (`C168_applies`). Exact reals: in floating point very small weights underflow to zero, and then the location has no neighbours (C85, C115) |
| C169 what may be passed as features, targets and points | `Model/Inputs`: forms of tables and targets, scikit-learn's `check_X_y`, the log line before it, the unchecked points of the prediction methods. Entries that are text or objects, and `nan` among points to predict at, are not modelled | case analysis of the check; the specification says which numbers a form shows (`Features.Shows`, `Targets.Shows`), independently of the check |
| C170 arrays shared with the caller | `Model/SharedData`: the caller's arrays by address, attributes that are such addresses. Arrays of different kinds do not overlap; data frames (whose arrays may or may not be views) are not claimed about | refinement: reading the object right after a fit gives the state of `Model/WeightModel` (`C170_after_fit`); later stores are arbitrary |
| C171 stacking and observations out of reach | the models above, ndarrays of weights; the coordinates as in C144 | the draws of the first rows do not depend on later rows (induction over the loop); shrinking and selection keep the block; witness for rows in front |
| C172 shapes of predictions | the models above | weighted sums keep every linear comparison of the stored regressors (weights of a row are nonnegative and add up to one or to zero); `predict_by_fit` factors through the regressors of the places; stationarity of the ridge minimiser gives the slope of a stacked regressor over parallel base regressors; witness where every stacked regressor falls although every base regressor grows |
| C173 what leaving out leaves | the models above | counting the left-out pairs by rows and by columns gives the total; a row that draws as many as it has draws all; a generator that draws one location whenever it can makes that base regressor's training set empty unless some neighbour cannot draw it; witnesses on four locations |
| C174 how the kernels compare | no new model | each pair of the nineteen by an elementary inequality on the two sides of the bandwidth (`exp x ≥ 1 + x`); each of the other thirty by one distance where the order fails; the products over the dimensions keep the order, and the own product is one, so dividing by the own weight removes the normalisation |
| C175 R² in floating point | `Model/RoundedScore`: `r2_score` of `numba_impl.py` and scikit-learn's, every operation rounded, any order of summation (the number of targets is not rounded; inputs are finite) | sums of non-negative floats are non-negative or infinite, quotient and difference by monotone rounding; equal summands with representable multiples are added exactly; three doubles nearest to 0.1 evaluated by the kernel; with exact arithmetic the model is that of `fit` (`skR2R_exact`) |
| C176 numbers from rates | `Model/RateCounts`: the rate rounded as written, the product rounded, then `int` or `ceil` | rounding is monotone and keeps integers, so the range and the order survive; half a unit in the last place twice is less than one half; decimal rates evaluated by the kernel |
| C177 shrinking in floating point | `Model/RoundedShrink`: numba's `np.quantile` with every operation rounded, weights in (0, 1] so that nothing overflows; numba's source is not in /repo, the model follows numba 0.57 | a whole rank gives a weight back exactly; half of a normal float is a float, so at rate 1/2 the mean of two weights does not pass the larger; three roundings otherwise; the rows that lose everything are evaluated by the kernel |
| C178 great-circle distances in floating point | `Model/RoundedGreatCircle`: every operation rounded, the library functions as parameters with the symmetry and range of the true ones; NaN as `none` | odd functions squared and a commuted product for symmetry; the root of the float after 1 rounds to 1; error bounds of the products in [0, 1] |
| C179 quantiles in floating point | `Model/RoundedQuantile`: numpy 1.24's index and `_lerp` with every operation rounded, values and calculation in different formats | the power of two below a difference bounds half the rounded difference, so the interpolation cannot leave its interval; counts in sorted lists; seven roundings of the index by 1/16 each; the off-by-one case evaluated by the kernel |
| C180 effect-curve grids in floating point | `Model/RoundedGrid`: `np.linspace`, `np.percentile`, `np.unique` and the bisection over rounded quantiles | a multiple of the rounded step stays below 100 because the relative error is below one part in the number of steps; ends and range from C179; the bisection result holds for every function (C57) |
| C181 Moran's I in floating point | `Model/RoundedMoran`: both `I` and the local values with every operation rounded, any order of summation (no fused multiply-add; variance and p-value stay exact) | deviations of zero make every product zero or NaN; signs survive rounding; a rounding that treats signs alike commutes with negation through every sum; three doubles nearest to 0.1 evaluated by the kernel |
| C182 effect curves in floating point | `Model/RoundedAle`: `weighted_ale` on the rounded grid of C180 with differences, averages, running sums and centring rounded, any order of the sums inside an average (the running sum goes left to right); the predictor is a function from rows to finite numbers. `Model/RoundedGlobalAle`: `global_ALE` the same way | zero differences stay zero; a rounded average of values that are not negative is not negative or NaN, and a rounded running sum of such values never falls; exact arithmetic gives back the curve of C60-C62 |
| C183 permutation importance in floating point | `Model/RoundedImportance`: draws and permuted rows as in `Model/Importance` and `Model/ImportanceLocal`, scores, differences and averages rounded, any order of summation; predictions are finite numbers | a feature without effect leaves the predictions, so the rounded scores are the same number and their difference is exactly zero; scores are at most 1 or NaN (C175); exact arithmetic gives back C46, C47 and C84 |
| C184 partial dependence and weighted predictions in floating point | `Model/RoundedPd`: grid and predicted rows as in `Model/LocalPd`, products, sums and quotients of the averages rounded, any order of summation; predictions are finite numbers | equal columns have equal averages; 'not above, or one is NaN' is kept by rounded sums (same brackets), products with a non-negative weight and division by a positive sum; exact arithmetic gives back C67 |
| C185 the order in which numpy adds up | `Model/PairwiseSum`: `np.sum` of a contiguous row of floats in numpy 1.24: fewer than 8 one after the other, up to 128 in eight running sums, longer rows split at half the length rounded down to a multiple of 8. Written from knowledge of numpy, whose source is not in the sandbox; sums along other axes, sums of sparse matrices and BLAS products are not covered by this order | multiset of leaves and shape by recursion on the row; the depth by halving; zero summands vanish in a left-to-right sum of floats, for predictions and for row sums of weights (`Props/ReorderedRow`); three computed cases |
| C186 training observations in another order, in floating point | the rounded `predict_by_weight` of `Model/Rounded` with the order of sums of `Model/PairwiseSum`; predictions for given weights, which move along with the observations, and the rows of the weight matrix of `Model/Rounded`, whose row sum is a sum of its own | both predictions are close to the same exact sum (C185); the entries of both rows are close to the same exact shares, which sum to at most one, so that both effects add up for the whole prediction (`Props/ReorderedTotal`); two summands commute |
| C187 distances and bandwidths in another unit, in floating point | the rounded kernels and rows of `Model/Rounded`; the conversion multiplies distances and bandwidth by a factor and rounds; it is the user's step, not modelled code | the kernels depend on distance over bandwidth and on their comparison; monotone rounding; floats times a power of two are floats; the rounded shapes are Lipschitz up to their roundings (`Props/RoundedUnitsBound`); sorting commutes with a monotone conversion (`Props/RoundedUnitsAdaptive`); shares of a sum of at least one are stable (`Props/RoundedUnitsRow`); computed edge cases |
| CSR forms of C97, C124, C143, C153, C160, C161, C165 | no new model | `Props/CsrModels`: a successful fit on a CSR array in canonical form is the fit on the ndarray with the same entries (C39, C40), so the claims carry over |
| C110–C112 simulated samples | `Model/Samples` | the order of the draws; positive definite 2×2 forms; bounds for each part of a coefficient |
| C72, C80–C83 simulation | `Model/Simulation` over `Real` | inequalities, Cauchy-Schwarz, positive definite forms |

## 4. Wrong programs

`seeded/LOG.jsonl` has one line per edit of the model that a realistic bug would make:
the edited definition, the edit, the claim it breaks, the declarations that no longer
prove (`failed`), the property theorems that depend on them (`affected_claims`) and the
theorems that were added or tightened when the edit survived (`tightened`).
