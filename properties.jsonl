{"id": "C01", "title": "Kernel weights are finite and lie in [0,1]", "statement": "For every supported kernel name, every finite non-negative distance and every finite non-negative bandwidth (including bandwidth 0, where the code divides by zero), kernel_function returns a finite number between 0 and 1: never NaN, infinite or negative.", "quantifier": "all seven kernels, all distances >= 0, all bandwidths >= 0", "why_tests_cant": "Distances and bandwidths are unbounded reals; the 0/0 and d/0 corners go through NaN and inf and only a case analysis over all of them settles it.", "anchors": ["georegression/kernel.py:kernel_function"]}
{"id": "C02", "title": "Nearer points never get less weight", "statement": "For a fixed kernel and bandwidth, if one point is at least as near as another, its kernel weight is at least as large.", "quantifier": "all kernels, bandwidths >= 0, pairs of distances 0 <= d1 <= d2", "why_tests_cant": "Monotonicity over a continuum of pairs.", "anchors": ["georegression/kernel.py:kernel_function"]}
{"id": "C03", "title": "A point at distance zero gets weight exactly one", "statement": "For every kernel and every bandwidth >= 0 the weight at distance 0 is exactly 1; in particular when the adaptive bandwidth is 0 because of duplicated coordinates, the duplicates get weight 1 and every other point gets weight 0 with the compact kernels and with gaussian and exponential.", "quantifier": "all kernels, all bandwidths >= 0", "why_tests_cant": "The degenerate bandwidth 0 goes through NaN replacement; tests only sample bandwidths.", "anchors": ["georegression/kernel.py:kernel_function"]}
{"id": "C04", "title": "Support of each kernel", "statement": "With linear, bisquare and tricube kernels a point has non-zero weight exactly when it is strictly closer than the bandwidth; with boxcar exactly when it is at most the bandwidth away; with uniform, gaussian and exponential every point has non-zero weight.", "quantifier": "all kernels, distances >= 0, bandwidths > 0", "why_tests_cant": "An iff over a continuum including the boundary distance = bandwidth.", "anchors": ["georegression/kernel.py:kernel_function", "georegression/kernel.py:KERNEL_TYPE_ENUM"]}
{"id": "C05", "title": "Larger bandwidth never lowers a weight, and units do not matter", "statement": "For a fixed kernel and distance the weight is non-decreasing in the bandwidth; multiplying distance and bandwidth by the same positive factor leaves the weight unchanged.", "quantifier": "all kernels, distances >= 0, bandwidths 0 < b1 <= b2, factors c > 0", "why_tests_cant": "Continuum of bandwidths and unit changes.", "anchors": ["georegression/kernel.py:kernel_function"]}
{"id": "C06", "title": "Lazy and eager kernels agree", "statement": "For non-negative distances and bandwidths the chunked (dask) code path of kernel_function returns the same weights as the ndarray code path, for every kernel.", "quantifier": "all kernels, distances >= 0, bandwidths >= 0", "why_tests_cant": "The bisquare branch uses different code (clamping, early return) on dask arrays; equality has to hold at every real input.", "anchors": ["georegression/kernel.py:kernel_function"]}
{"id": "C07", "title": "Unknown kernel names are rejected and only those", "statement": "kernel_function raises exactly when the kernel name is not one of the seven published names, for every distance and bandwidth.", "quantifier": "all strings, all distances and bandwidths", "why_tests_cant": "All strings.", "anchors": ["georegression/kernel.py:kernel_function", "georegression/kernel.py:KERNEL_TYPE_ENUM"]}
{"id": "C08", "title": "Integer neighbour_count picks the distance to the k-th nearest point", "statement": "With integer neighbour_count k on a row of n distances, the adaptive bandwidth is an element of the row, at least k entries are within it and fewer than k entries are strictly closer; k <= 0 or k > n raises. Hence linear/bisquare/tricube give non-zero weight to fewer than k points whenever that bandwidth is positive, and boxcar to at least k.", "quantifier": "all rows of distances of any length (ties included), all integers k", "why_tests_cant": "Any length, any tie pattern.", "anchors": ["georegression/kernel.py:adaptive_bandwidth", "georegression/kernel.py:adaptive_kernel"]}
{"id": "C09", "title": "Fractional neighbour_count picks a median-unbiased quantile", "statement": "With a float neighbour_count q in (0,1] the bandwidth lies between the smallest and largest distance of the row, is non-decreasing in q, lies between two consecutive order statistics whose ranks bracket q*n + (1+q)/3, equals the largest distance for q = 1, and does not depend on the order of the points; q <= 0 or q > 1 raises.", "quantifier": "all non-empty rows, all fractions q", "why_tests_cant": "Any row length and any real q.", "anchors": ["georegression/kernel.py:adaptive_bandwidth"]}
{"id": "C10", "title": "Lazy and eager adaptive bandwidths agree for counts from 1 on square matrices", "statement": "With a square distance matrix and its row-sorted version, adaptive bandwidths for an integer neighbour_count of at least 1 are the same on the lazy (dask) path and on the eager path, or both reject the count. Outside of that the paths disagree: the lazy path accepts the count 0 and silently uses the largest distance, for a fraction q of n points it takes the distance of the k-th nearest point with the smallest k that is at least q*n (the eager path interpolates a quantile, so the bandwidths can differ) and rejects fractions above 1, and it rejects valid counts on a one-row matrix. Without the row-sorted matrix the lazy path reads the number as a quantile: integer counts other than 0 and 1 raise ValueError, 1 gives the largest and 0 the smallest distance of the row, and a fraction q interpolates linearly at rank q*(n-1).", "quantifier": "all square distance matrices, all integer counts >= 1; all non-empty square matrices for the count 0; all one-row matrices for the rejection; all fractions in (0, 1] and above 1 on the lazy path, a witness for the difference; without the sorted matrix all non-empty matrices, all integers and all fractions", "why_tests_cant": "Requires the k-th order statistic to coincide for every matrix; the two paths validate arguments differently.", "anchors": ["georegression/kernel.py:adaptive_bandwidth"]}
{"id": "C11", "title": "Weight rows are normalised", "statement": "Every row of the matrix returned by weight_matrix_from_distance has entries in [0,1], and sums to exactly 1 unless all its kernel weights are zero, in which case the row is all zero and no division by zero occurs.", "quantifier": "all lists of equally shaped non-negative distance matrices of any size, all kernel/bandwidth/neighbour_count parameters accepted", "why_tests_cant": "Any number of rows, columns and dimensions.", "anchors": ["georegression/weight_matrix.py:weight_matrix_from_distance"]}
{"id": "C12", "title": "A spatio-temporal neighbour must be a neighbour in every dimension", "statement": "An entry of the returned weight matrix is positive exactly when the kernel weight of that pair is positive in every coordinate dimension.", "quantifier": "all distance matrices, all parameters, any number of dimensions", "why_tests_cant": "Any number of dimensions and any pair.", "anchors": ["georegression/weight_matrix.py:weight_matrix_from_distance"]}
{"id": "C13", "title": "Normalisation keeps the proportions inside a row", "statement": "Within a row, the ratio of two returned weights is the ratio of the products over dimensions of the kernel weights; a returned weight is zero exactly when that product is zero.", "quantifier": "all distance matrices, all parameters, all pairs in a row", "why_tests_cant": "All pairs, all sizes.", "anchors": ["georegression/weight_matrix.py:weight_matrix_from_distance"]}
{"id": "C14", "title": "Every point is its own heaviest neighbour before leave-one-out", "statement": "When weights are computed between a point set and itself (zero self-distance), each row sums to exactly 1, the diagonal entry is positive and is the largest entry of its row.", "quantifier": "all point sets, kernels, bandwidths or neighbour counts, any number of dimensions", "why_tests_cant": "The stacking meta-prediction relies on the diagonal being positive for every dataset.", "anchors": ["georegression/weight_matrix.py:weight_matrix_from_distance", "georegression/weight_matrix.py:weight_matrix_from_points"]}
{"id": "C15", "title": "Bandwidth specification is validated", "statement": "weight_matrix_from_distance returns a matrix only if the distance matrices have one common shape and, in each dimension, exactly one of bandwidth and neighbour_count is given; giving neither raises, and giving both raises (the README says bandwidth takes precedence, the code raises).", "quantifier": "all inputs, scalar or per-dimension list parameters", "why_tests_cant": "All combinations of scalar/list/None parameters for any dimension count.", "anchors": ["georegression/weight_matrix.py:weight_matrix_from_distance", "georegression/weight_matrix.py:weight_by_distance", "README.md"]}
{"id": "C16", "title": "distance_ratio cannot be used", "statement": "distance_ratio is documented as merging the distances of the dimensions into a ratio-weighted sum. In fact every call of weight_matrix_from_distance with a distance_ratio raises, whatever the distances, the ratio and the other parameters.", "quantifier": "all distance matrices, scalar or list ratios", "why_tests_cant": "Shows that no input at all makes the option work: the code raises for every input.", "anchors": ["georegression/weight_matrix.py:weight_matrix_from_distance"]}
{"id": "C17", "title": "Relabelling points only relabels the weight matrix", "statement": "Permuting the target points permutes the columns of the weight matrix, and permuting the source points permutes its rows; the values do not change.", "quantifier": "all distance matrices, all permutations, all parameters", "why_tests_cant": "All permutations of any size, ties included.", "anchors": ["georegression/weight_matrix.py:weight_matrix_from_distance", "georegression/kernel.py:adaptive_bandwidth"]}
{"id": "C18", "title": "Rows of the weight matrix are independent", "statement": "The weights of a source point depend only on that source's own distances: on the eager path, selecting, reordering or repeating sources selects, reorders or repeats the rows of the weight matrix and changes nothing else. On the lazy path with pre-sorted distances this fails (the number of sources decides whether a neighbour_count is accepted).", "quantifier": "all pairs of inputs agreeing on one row", "why_tests_cant": "Two-run (hyper-)property over all inputs.", "anchors": ["georegression/weight_matrix.py:weight_matrix_from_distance"]}
{"id": "C19", "title": "Leaving out the targets always raises", "statement": "target_coords is optional in weight_matrix_from_points, meaning distances among the sources. In fact every call without targets raises, whatever the points, metric and parameters.", "quantifier": "all source point sets and parameters", "why_tests_cant": "Shows that for every input the call raises instead.", "anchors": ["georegression/weight_matrix.py:weight_matrix_from_points", "georegression/distance_utils.py:_distance_matrix"]}
{"id": "C20", "title": "distance_args never reach the metric", "statement": "distance_args is documented as arguments for the distance function. In fact its content has no influence at all: two calls whose distance_args are both non-empty (or both empty) give the same result, be they dictionaries or lists of dictionaries, and no metric ever receives a keyword from it; a non-empty value only switches the dask backend on.", "quantifier": "all distance_args dictionaries, all point sets", "why_tests_cant": "Shows that for every dictionary the metric receives no argument, and that the content of the dictionary never matters.", "anchors": ["georegression/weight_matrix.py:weight_matrix_from_points", "georegression/distance_utils.py:_distance_matrices"]}
{"id": "C21", "title": "Great-circle distances are well defined and bounded", "statement": "For all longitudes and all latitudes in [-90,90] the haversine argument is in [0,1], the distance is in [0, pi*6371], is symmetric, is zero for identical points, is unchanged by adding 360 degrees to a longitude, is unchanged when both points are rotated about the polar axis, and antipodal points are pi*6371 apart.", "quantifier": "all pairs of coordinates", "why_tests_cant": "Trigonometric identities over a continuum.", "anchors": ["georegression/distance_utils.py:great_circle_distance"]}
{"id": "C22", "title": "Coordinate lists of different dimension are rejected", "statement": "Distance computation raises when the number of source and target coordinate arrays differ, when a source/target pair has a different number of columns, or when great-circle is requested for non-2D coordinates; otherwise it returns one matrix per dimension of shape (sources, targets).", "quantifier": "all coordinate lists", "why_tests_cant": "All shapes.", "anchors": ["georegression/distance_utils.py:_distance_matrices", "georegression/distance_utils.py:_distance_matrix"]}
{"id": "C23", "title": "Second-order neighbours are exactly the neighbours of (left-out) neighbours", "statement": "second_order_neighbour(dense)[i,j] is true exactly when some k is a selected neighbour of i and j is a neighbour of k.", "quantifier": "all boolean matrices of any size", "why_tests_cant": "Any size.", "anchors": ["georegression/neighbour_utils.py:second_order_neighbour", "georegression/neighbour_utils.py:_second_order_neighbour_dense"]}
{"id": "C24", "title": "Sparse second-order neighbours agree with dense ones", "statement": "For square CSR matrices, the sparse code path returns the same relation as the dense path, with strictly increasing column indices in each row and valid row pointers; the shape it infers is N x N whenever point N-1 occurs in the result.", "quantifier": "all square boolean CSR matrices of any size", "why_tests_cant": "Any size and any CSR layout, duplicated or unsorted column indices included.", "anchors": ["georegression/neighbour_utils.py:second_order_neighbour", "georegression/neighbour_utils.py:_second_order_neighbour_sparse"]}
{"id": "C25", "title": "Parallel row loops are schedule independent", "statement": "The results of the parallel loops (second-order neighbours, neighbour shrinking, the numba meta stage of StackingWeightModel.fit) do not depend on the order or interleaving in which the iterations execute: every complete schedule gives the results of the sequential definition. What a successful numba fit records is what the loop leaves in its lists under every schedule, and the loop writes only inside its tables.", "quantifier": "all interleavings of the steps of all iterations, all inputs", "why_tests_cant": "Schedules cannot be enumerated by tests.", "anchors": ["georegression/neighbour_utils.py:_second_order_neighbour_dense", "georegression/neighbour_utils.py:_second_order_neighbour_sparse", "georegression/neighbour_utils.py:_neighbour_shrink", "georegression/neighbour_utils.py:_neighbour_shrink_sparse", "georegression/stacking_model.py:StackingWeightModel.fit.stacking_numba"]}
{"id": "C26", "title": "Shrinking keeps exactly the strongest neighbours, unchanged", "statement": "In exact arithmetic (C177 says what rounding changes): after neighbour_shrink with rate r in [0,1], each row keeps, with unchanged value, exactly the non-zero weights that are at least the r-quantile of the row's non-zero weights, and every other entry is zero; the largest weight always survives, so a non-empty row never becomes empty.", "quantifier": "all weight matrices, all rates in [0,1]", "why_tests_cant": "All sizes, rates and ties.", "anchors": ["georegression/neighbour_utils.py:neighbour_shrink", "georegression/neighbour_utils.py:_neighbour_shrink"]}
{"id": "C27", "title": "Shrink rate behaves monotonically", "statement": "Rate 0 changes nothing, rate 1 keeps only the entries equal to the row maximum, and a larger rate keeps a subset of the neighbours a smaller rate keeps; the number of survivors in a row with m non-zero weights is at least ceil-wise (1-r)*(m-1)+1 rounded down.", "quantifier": "all positive weight matrices, all pairs of rates", "why_tests_cant": "Two-run property over all rates.", "anchors": ["georegression/neighbour_utils.py:_neighbour_shrink"]}
{"id": "C28", "title": "Sparse shrinking agrees with dense shrinking", "statement": "For CSR matrices without stored zeros, neighbour_shrink on the sparse matrix represents the same matrix as neighbour_shrink on the dense one; stored zeros would change the quantile.", "quantifier": "all CSR matrices without stored zeros, all rates", "why_tests_cant": "All layouts.", "anchors": ["georegression/neighbour_utils.py:_neighbour_shrink_sparse", "georegression/neighbour_utils.py:neighbour_shrink"]}
{"id": "C29", "title": "neighbour_shrink(inplace=False) does not modify its argument, inplace=True does", "statement": "With inplace=False the caller's matrix is unchanged; with inplace=True the caller's dense matrix holds the shrunk weights afterwards even if only the boolean mask is returned.", "quantifier": "all weight matrices, rates, flags", "why_tests_cant": "Aliasing holds for all inputs.", "anchors": ["georegression/neighbour_utils.py:neighbour_shrink"]}
{"id": "C30", "title": "Leave-out sampling returns the point itself plus the requested number of real neighbours", "statement": "sample_neighbour returns for each row a selection which contains the diagonal, otherwise only points with positive (shrunk) weight, and exactly min(cnt, max(1, ceil(cnt*rate))) of them where cnt is the number of such neighbours; the caller's matrix is not modified.", "quantifier": "all weight matrices, all rates >= 0, all outcomes of the random generator", "why_tests_cant": "All RNG outcomes and sizes.", "anchors": ["georegression/neighbour_utils.py:sample_neighbour"]}
{"id": "C31", "title": "Leave-out sampling is reproducible", "statement": "The sampled neighbours depend only on the weight matrix and the rates, not on the earlier history of the global random generator; the price is that every call resets the global generator, so what the program draws afterwards does not depend on earlier history either.", "quantifier": "all generator states/histories, all inputs", "why_tests_cant": "Quantifies over all histories of the global RNG.", "anchors": ["georegression/neighbour_utils.py:sample_neighbour"]}
{"id": "C32", "title": "Sparse and dense leave-out sampling agree", "statement": "sample_neighbour on a CSR matrix selects the same pairs as on the equal dense matrix, for the same random generator.", "quantifier": "all weight matrices, rates, generators", "why_tests_cant": "All layouts and RNG outcomes.", "anchors": ["georegression/neighbour_utils.py:sample_neighbour"]}
{"id": "C33", "title": "The meta learner solves weighted ridge regression", "statement": "For alpha > 0, non-negative sample weights with positive sum, ridge_cholesky's linear system has exactly one solution, and the returned coefficients and intercept are the unique minimiser of sum_i w_i (y_i - x_i.coef - b)^2 + alpha*|coef|^2 with unpenalised intercept.", "quantifier": "all data matrices of any shape, all weights, all alpha > 0", "why_tests_cant": "Optimality over all coefficient vectors.", "anchors": ["georegression/numba_impl.py:ridge_cholesky", "georegression/numba_impl.py:mean"]}
{"id": "C34", "title": "Meta learner equivariance", "statement": "Adding a constant to all targets changes only the intercept by that constant; shifting the features changes only the intercept; scaling targets scales coefficients and intercept.", "quantifier": "all data, all shifts", "why_tests_cant": "Two-run property.", "anchors": ["georegression/numba_impl.py:ridge_cholesky"]}
{"id": "C35", "title": "R2 score", "statement": "r2_score is at most 1; for non-constant targets it equals 1 exactly when all predictions are exact and equals scikit-learn's r2_score; for constant targets it returns 1 whatever the predictions (scikit-learn returns 0 when they are wrong).", "quantifier": "all target/prediction vectors", "why_tests_cant": "All vectors.", "anchors": ["georegression/numba_impl.py:r2_score"]}
{"id": "C36", "title": "Leave-local-out predictions never see the local observation", "statement": "With leave_local_out=True the estimator fitted for location i does not depend on y[i] or X[i], and local_predict_ at i does not depend on y[i]: changing them arbitrarily leaves both unchanged. The one exception is a dense weight matrix combined with n_jobs and sample_local_rate, where entries are stored for other locations than the sampled ones and the property fails.", "quantifier": "all datasets, weight matrices, estimators (any deterministic or pre-seeded learner), indices i", "why_tests_cant": "Non-interference over all datasets and all learners.", "anchors": ["georegression/weight_model.py:WeightModel.fit", "georegression/weight_model.py:_fit", "README.md"]}
{"id": "C37", "title": "A local model only sees its own neighbours", "statement": "local_predict_[i] depends only on the rows k with non-zero weight w[i,k], on these weights and on X[i]; changing any observation outside the neighbourhood changes nothing.", "quantifier": "all datasets, weights, learners", "why_tests_cant": "Two-run property.", "anchors": ["georegression/weight_model.py:_fit"]}
{"id": "C38", "title": "Batching does not change the result", "statement": "The local predictions and estimators returned by fit are the same, in the same order, for every number of patches; the k-th prediction belongs to the k-th fitted location, so that residuals compare matching values.", "quantifier": "all n_patches >= 1, all location counts and samples", "why_tests_cant": "All N and patch counts, uneven splits included.", "anchors": ["georegression/weight_model.py:_fit", "georegression/stacking_model.py:_fit"]}
{"id": "C39", "title": "n_jobs and n_patches give the same model, except for dense matrices with sampled locations", "statement": "Without sample_local_rate, or with a sparse weight matrix, fitting with n_jobs and fitting with n_patches give the same outcome and the same attributes whenever one of them succeeds. With a dense matrix and sampled locations they differ: with n_jobs, the stored predictions and estimators are those of locations 0..k-1, while local_indices_ and y_sample_ list the sampled locations.", "quantifier": "all datasets, samples of locations, dense or sparse weights", "why_tests_cant": "Holds without sampling; with sampling the dense n_jobs path pairs location k of the sample with row k of the matrix.", "anchors": ["georegression/weight_model.py:_fit"]}
{"id": "C40", "title": "Sparse and dense weight matrices give the same local predictions", "statement": "WeightModel fitting with a CSR weight matrix without stored zeros gives the same local predictions as with the equal dense matrix.", "quantifier": "all datasets, CSR layouts without stored zeros", "why_tests_cant": "All layouts.", "anchors": ["georegression/weight_model.py:_fit"]}
{"id": "C41", "title": "What fit does to the caller's weight matrix", "statement": "With leave_local_out=False the weight matrix passed to WeightModel.fit is unchanged. With leave_local_out=True (the default) the diagonal of the caller's own matrix is overwritten with zeros, and nothing else, whether or not the fit succeeds (only data refused by the X/y check leave it alone); a later fit with the same array therefore gives different results.", "quantifier": "all weight matrices (dense or canonical CSR), flags, data and outcomes of WeightModel.fit", "why_tests_cant": "Aliasing: true for some flag combinations only, for every matrix.", "anchors": ["georegression/weight_model.py:WeightModel.fit", "georegression/stacking_model.py:StackingWeightModel.fit"]}
{"id": "C42", "title": "State left behind by a failed fit", "statement": "Data refused by the X/y check leave model, weight matrix and random generator untouched. Any later failure leaves the model marked as fitted, and with a weight matrix given it leaves the new weight matrix next to the score and residuals of the previous fit; in particular, giving neither coordinates nor weights raises Exception and marks the model as fitted.", "quantifier": "all model states, data, weights, learners", "why_tests_cant": "All crash points.", "anchors": ["georegression/weight_model.py:WeightModel.fit", "georegression/stacking_model.py:StackingWeightModel.fit"]}
{"id": "C43", "title": "predict_by_weight is a weighted average of the local predictions", "statement": "predict_by_weight at a new point lies between the smallest and largest local prediction if some training point has positive weight for it, reproduces the common value if all local models agree, and is exactly 0 if no training point is in range.", "quantifier": "all fitted models, weights, new points", "why_tests_cant": "All weight rows and predictions.", "anchors": ["georegression/weight_model.py:WeightModel.predict_by_weight"]}
{"id": "C44", "title": "Whether a prediction depends on the batch it is made in", "statement": "predict_by_weight with coordinates gives each point the same value whichever other points are in the same call, in whatever order and multiplicity; so does predict_by_fit with a given weight matrix. predict_by_fit with coordinates does not: the weights are normalised over the prediction points, so a point predicted alone gets an unweighted local model (every training location in range has weight exactly 1) whatever the kernel.", "quantifier": "all batches, both prediction methods", "why_tests_cant": "Two-run property; true for predict_by_weight, false for predict_by_fit.", "anchors": ["georegression/weight_model.py:WeightModel.predict_by_weight", "georegression/weight_model.py:WeightModel.predict_by_fit"]}
{"id": "C45", "title": "Prediction guards", "statement": "predict_by_weight raises Exception unless cache_data and cache_estimator are set, predict_by_fit unless cache_data is set. A weight matrix cannot be given instead of coordinates: with coordinates left out, any weight matrix with other than one entry raises ValueError in both methods. With both given, the coordinates are ignored. With neither given, or with coordinates only after a fit without coordinates, both raise.", "quantifier": "all model configurations and arguments", "why_tests_cant": "All argument combinations; the second half fails for every ndarray with more than one element.", "anchors": ["georegression/weight_model.py:WeightModel.predict_by_weight", "georegression/weight_model.py:WeightModel.predict_by_fit"]}
{"id": "C46", "title": "Global importance accumulates over calls", "statement": "After any sequence of fit, importance_score_global and interaction_score_global calls on a new object, successful or not, importance_score_global(n_repeats) returns for every feature the mean of all score decreases drawn since the object was created: n_repeats new ones and those of all earlier calls; refitting does not discard them. If they were recorded for another number of features, the call raises and leaves the object unchanged.", "quantifier": "all call histories (fit, importance, interaction) and random draws", "why_tests_cant": "All histories.", "anchors": ["georegression/weight_model.py:WeightModel.importance_score_global"]}
{"id": "C47", "title": "Permutation importance perturbs exactly one feature", "statement": "In importance_score_global the prediction stored for location i, feature f, repeat r is the local model i's prediction on X[i] with only feature f replaced, by the f-value of the row the permutation assigns to i. Each (feature, repeat) uses a permutation drawn separately, in feature-major order, and the global generator is left after all these draws.", "quantifier": "all data, permutations, sizes", "why_tests_cant": "Index arithmetic of tile/reshape/transpose for all sizes.", "anchors": ["georegression/weight_model.py:WeightModel.importance_score_global"]}
{"id": "C48", "title": "interaction_score_global raises or returns uninitialised memory", "statement": "With at least two features, interaction_score_global(n_repeats) raises unless n_repeats is 1 or the number of features; whenever it returns, the entry in the last row of the first column is decided by uninitialised memory: for every value there are memory contents for which the same call on the same object returns a matrix of the same shape with that value there. Where the array kept by a first call with as many repeats as features is determined, entry (a, b, k) adds an interaction of features a and b (the drop of the score with both permuted, less their mean single drops) and one of features k and b.", "quantifier": "all fitted objects with at least two features, all repeats, all memory contents", "why_tests_cant": "For every F >= 2, R >= 2 with R != F the call raises (shape mismatch in M + M.T of a 3-D array).", "anchors": ["georegression/weight_model.py:WeightModel.interaction_score_global"]}
{"id": "C49", "title": "Stacked predictions never see the local observation", "statement": "After StackingWeightModel.fit, stacking_predict_[i] and the stored estimator of location i do not depend on y[i]: two fits on data that differ only in y[i] give the same value and the same estimator at i. This holds for dense, sparse and numba fits as long as estimator_sample_rate is not set on a dense fit (see C55 for that case).", "quantifier": "all datasets, weight matrices, leave-out samples, base and meta learners, rates, leave_local_out on or off; estimator_sample_rate unset or the weights in CSR form", "why_tests_cant": "Non-interference over all datasets, samples and learners.", "anchors": ["georegression/stacking_model.py:StackingWeightModel.fit", "georegression/stacking_model.py:_fit", "README.md"]}
{"id": "C50", "title": "Every entry of the meta design matrix is a genuine prediction", "statement": "After a successful StackingWeightModel.fit, every value the meta learner of location i was fitted on is the prediction of a base learner left out for i on the corresponding neighbouring observation, and no zero padding occurs. The value it predicts from is genuine wherever the location keeps a positive own weight after meta_fitting_shrink_rate.", "quantifier": "all datasets, samples, learners and shrink rates; dense weights, or CSR weights in canonical form with positive entries; estimator_sample_rate unset or the weights in CSR form", "why_tests_cant": "Depends on the second-order neighbourhood covering all pairs for every matrix.", "anchors": ["georegression/stacking_model.py:StackingWeightModel.fit", "georegression/stacking_model.py:_fit", "georegression/neighbour_utils.py:second_order_neighbour"]}
{"id": "C51", "title": "Stored stacking estimators reproduce the stacked predictions", "statement": "After fit, local_estimator_list[i].predict(X[i]) equals stacking_predict_[i] for every location that keeps a positive own weight after meta_fitting_shrink_rate. Without an own weight the two can differ, with and without numba.", "quantifier": "all datasets, samples and learners; dense weights, or CSR weights in canonical form with positive entries; all locations with positive own weight", "why_tests_cant": "All datasets.", "anchors": ["georegression/stacking_model.py:StackingWeightModel.fit", "georegression/stacking_model.py:StackingEstimator.predict"]}
{"id": "C52", "title": "Dense, sparse and numba stacking agree", "statement": "With the same weights, leave-out rate and random generator, the dense, CSR and numba code paths of StackingWeightModel.fit give the same base estimators, the same stored estimators and the same stacking_predict_ at every location with a positive own weight. For CSR weights with positive own weights, switching numba on or off changes neither the outcome (success or exception) nor anything recorded but the extra fit scores; with a positive alpha this holds for the package's own ridge solver against any solver that minimises the ridge objective, as scikit-learn's Ridge promises. Without an own weight the numba path uses another location's prediction.", "quantifier": "all datasets, learners, rates; CSR matrices in canonical form with positive entries", "why_tests_cant": "Index scanning over all layouts.", "anchors": ["georegression/stacking_model.py:StackingWeightModel.fit.stacking_numba"]}
{"id": "C53", "title": "StackingWeightModel.fit without a leave-out rate always raises", "statement": "StackingWeightModel.fit with the default neighbour_leave_out_rate=None never succeeds. On valid data it raises AttributeError and leaves is_fitted_ and cache_estimator set to True, while estimators and predictions keep their previous values.", "quantifier": "all datasets, weights, coordinates, learners, earlier states", "why_tests_cant": "For every dataset the call raises, leaving cache_estimator changed to True.", "anchors": ["georegression/stacking_model.py:StackingWeightModel.fit"]}
{"id": "C54", "title": "What weight_matrix_ and neighbour_matrix_ record after a stacking fit", "statement": "If the weights are passed to StackingWeightModel.fit, weight_matrix_ and neighbour_matrix_ keep the values of an earlier fit and the caller's matrix is shrunk in place. If the weights are computed from coordinates, weight_matrix_ is the shrunk matrix while neighbour_matrix_ describes the weights before shrinking; the two agree when meta_fitting_shrink_rate is unset.", "quantifier": "all models, parameters, fit histories for which fit succeeds", "why_tests_cant": "All histories; fails for stacking with meta_fitting_shrink_rate and for stacking with a user-supplied matrix.", "anchors": ["georegression/weight_model.py:WeightModel.fit", "georegression/stacking_model.py:StackingWeightModel.fit"]}
{"id": "C55", "title": "estimator_sample_rate does not subsample the left-out base learners", "statement": "With estimator_sample_rate in (0,1] and dense weights, every location's meta learner uses exactly one base learner, that of location 0, whether or not it was left out, so that the prediction at a location can depend on its own target. With CSR weights the rate has no effect.", "quantifier": "all datasets, learners, rates in (0,1], valid random generators", "why_tests_cant": "Index misuse: base learner 0 is selected for every location.", "anchors": ["georegression/stacking_model.py:StackingWeightModel.fit"]}
{"id": "C56", "title": "Stacking predict_by_fit uses genuine predictions but replaces the fitted model", "statement": "When StackingWeightModel.predict_by_fit succeeds, each test point's meta learner was fitted on genuine base predictions for all pairs of its training neighbours, with their targets and weights, and predicts from the base predictions on the test point. It replaces the fitted model: afterwards there is one stored estimator per test point and the base estimators are refitted. It raises whenever some training point neighbours no test point, and whenever use_numba is set.", "quantifier": "all training/test sets, weights, learners, earlier states", "why_tests_cant": "Coverage over all pairs; the second half fails.", "anchors": ["georegression/stacking_model.py:StackingWeightModel.predict_by_fit"]}
{"id": "C57", "title": "Bisection", "statement": "bisect_fun terminates and returns v in [lo,hi] with fun(v-1) < target unless v = lo and fun(v) >= target unless v = hi, for every function; if fun is non-decreasing then all x < v have fun(x) < target and all x >= v have fun(x) >= target.", "quantifier": "all functions on integers, all bounds lo <= hi, all targets", "why_tests_cant": "All functions and ranges; termination.", "anchors": ["georegression/ale_utils.py:bisect_fun"]}
{"id": "C58", "title": "Adaptive ALE grid", "statement": "For at least 3 values, more than min_bin_points of them, adaptive_grid returns a strictly increasing grid from the minimum to the maximum, made of the distinct ones among n equally spaced quantiles, whose every bin contains more than min_bin_points values (although the search is heuristic). With at most min_bin_points values or no value it raises ValueError. With two values the grid is the smaller one only, with one value it is empty.", "quantifier": "all value arrays, all min_bin_points", "why_tests_cant": "All arrays; the bisected predicate is not monotone.", "anchors": ["georegression/ale_utils.py:adaptive_grid", "georegression/ale_utils.py:minimum_satisfied", "georegression/ale_utils.py:get_quantiles"]}
{"id": "C59", "title": "ALE bins partition the observations", "statement": "Every observation is assigned to exactly one grid interval, that interval contains its feature value, the bin counts add up to the number of observations, no bin is empty, and the ALE curve has one value per grid point.", "quantifier": "all data, features, predictors, weights, non-negative min_bin_points", "why_tests_cant": "All data.", "anchors": ["georegression/local_ale.py:weighted_ale"]}
{"id": "C60", "title": "ALE recovers additive effects", "statement": "Each step of the ALE curve is the weighted average over the observations in the interval of the prediction differences at its two ends. If the predictor is f(x_feature) + g(other features), the curve differences are exactly f(q_k) - f(q_0) for every weighting, also in global_ALE; if the predictor ignores the feature the curve is flat; the un-normalised curve starts at the weighted mean lower prediction of the first bin.", "quantifier": "all data, predictors, weights for which the call succeeds, non-negative min_bin_points", "why_tests_cant": "All predictors and weights.", "anchors": ["georegression/local_ale.py:weighted_ale"]}
{"id": "C61", "title": "Normalised ALE is centred", "statement": "With normalize=True (and in global_ALE) the bin-count weighted mean of the interval midpoints of the ALE curve is zero; normalising only shifts the curve by a constant and changes neither the grid nor whether and how the call fails.", "quantifier": "all data, predictors, weights", "why_tests_cant": "Algebraic identity for all inputs.", "anchors": ["georegression/local_ale.py:weighted_ale", "georegression/weight_model.py:WeightModel.global_ALE"]}
{"id": "C62", "title": "ALE failure modes", "statement": "weighted_ale raises ValueError with at most min_bin_points observations, IndexError when the feature is constant or there are at most two observations, TypeError when weights are omitted (the default); in all other cases it returns when the weights are positive. global_ALE succeeds exactly when data and one estimator per observation are cached, there are at least three observations and the feature is not constant.", "quantifier": "all data, predictors, non-negative min_bin_points", "why_tests_cant": "All data.", "anchors": ["georegression/local_ale.py:weighted_ale"]}
{"id": "C63", "title": "Moran's I: value, invariances and null expectation", "statement": "spatiotemporal_MI and STMI return I = n\u00b7\u03a3\u1d62\u2c7c u\u1d62v\u1d62\u2c7cu\u2c7c / (\u03a3\u1d62\u2c7cv\u1d62\u2c7c \u00b7 \u03a3u\u1d62\u00b2), with u the deviations from the mean and v the weights in use. Everything they return is unchanged when y is rescaled by a non-zero factor and shifted, when the weights are multiplied by a positive factor (by any non-zero factor when no row sums to zero) and when the observations are relabelled; local values follow their observations. The reported expectation -1/(n-1) is the mean of I over all assignments of the values to the observations when no observation is its own neighbour. I is NaN, without an exception, for a constant variable and as soon as one observation has no neighbours; one observation raises ZeroDivisionError.", "quantifier": "all y, all square weight matrices, all non-zero factors and shifts, all permutations, any square root with the right zeros", "why_tests_cant": "All data.", "anchors": ["georegression/spatial_temporal_moran.py:spatiotemporal_MI", "georegression/spatial_temporal_moran.py:STMI"]}
{"id": "C64", "title": "The two global Moran implementations: same I, different variance", "statement": "spatiotemporal_MI and STMI raise the same exception or return the same I and expectation on every non-empty input. Their variances differ by (n-1)\u00b7\u03a3u\u2074\u00b7B/((\u03a3u\u00b2)\u00b2(n-1)(n-2)(n-3)S0\u00b2) with B = (n\u00b2-n)S1 - 2nS2 + 6S0\u00b2, so they agree only when B = 0. STMI's is the variance of I over all assignments of the values to the observations (no self-neighbours); spatiotemporal_MI's is not.", "quantifier": "all y, all weight matrices; variances for at least four observations, non-zero row sums, non-constant y", "why_tests_cant": "Agreement on all inputs including NaN and infinite results; the null variance ranges over all n! permutations.", "anchors": ["georegression/spatial_temporal_moran.py:spatiotemporal_MI", "georegression/spatial_temporal_moran.py:STMI"]}
{"id": "C65", "title": "Local Moran values add up to the global one", "statement": "spatiotemporal_LMI returns one finite value n\u00b7u\u1d62\u00b7\u03a3\u2c7cv\u1d62\u2c7cu\u2c7c/\u03a3u\u00b2 per observation and they add up to the sum of the weights in use times the I of both global functions. When one observation has no neighbours no local value is finite.", "quantifier": "all non-constant y, all weight matrices with non-zero row sums and non-zero total", "why_tests_cant": "All data.", "anchors": ["georegression/spatial_temporal_moran.py:spatiotemporal_LMI", "georegression/spatial_temporal_moran.py:STMI"]}
{"id": "C66", "title": "Moran statistics are row-standardised only in special cases", "statement": "The weight from i to j is divided by the sum of row j, not row i. For symmetric weights the global statistics nevertheless equal those of row-standardised weights (the weights in use have columns that sum to one); when all row sums are equal the local ones do too. In general the global statistics differ from the row-standardised ones, and the local ones differ even for symmetric weights.", "quantifier": "all weight matrices with non-zero row sums, all y; existence of differing data", "why_tests_cant": "The code divides column j by the sum of row j; holds only in special cases (e.g. equal row sums).", "anchors": ["georegression/spatial_temporal_moran.py:spatiotemporal_MI", "georegression/spatial_temporal_moran.py:STMI", "georegression/spatial_temporal_moran.py:spatiotemporal_LMI"]}
{"id": "C67", "title": "Weighted partial dependence is the weighted mean of the individual predictions", "statement": "Each value of a local partial dependence curve is the weighted mean, over the given observations, of the prediction with the feature set to the grid value; the grid is the sorted distinct values when there are fewer than 100. With non-negative weights it lies between any bounds on the predictions of observations with a weight. It does not change when all weights are multiplied by a non-zero factor, follows an additive effect exactly up to a constant, and raises ZeroDivisionError for weights that add up to zero. The function of local_pd.py drops observations without weight altogether (they affect neither grid nor values) and agrees with the one of weight_model.py when no weight is zero.", "quantifier": "all data, row-wise predictors, weights, features and grid points", "why_tests_cant": "All data.", "anchors": ["georegression/local_pd.py:local_partial_dependence", "georegression/weight_model.py:local_partial_dependence"]}
{"id": "C68", "title": "Partial-dependence distance is a symmetric, shift-invariant dissimilarity", "statement": "partial_distance returns a symmetric non-negative matrix with one row and column per line. For two lines whose x ranges overlap in more than a point the entry is the interval-weighted mean squared deviation of their difference from its mean over the x values of both lines in the common range; it is zero exactly when the lines differ there by a constant. It does not change when lines are moved vertically, grows with the square of a common y factor, and reordering the lines reorders the matrix. Pairs without overlap get twice the largest finite distance, hence 0 if no two lines overlap. The diagonal is zero for lines with at least two points and four times the largest finite distance for a line with one point. The call fails with ValueError only without lines or for one single line with one point. features_partial_distance gives each feature the matrix partial_distance gives its lines.", "quantifier": "all collections of lines with increasing x values, all vertical shifts, factors and reorderings", "why_tests_cant": "All collections of curves.", "anchors": ["georegression/visualize/pd.py:partial_distance"]}
{"id": "C69", "title": "Cluster-aware sampling represents every cluster in proportion", "statement": "sample_partial with cluster labels returns distinct indices; from each cluster it takes ceil(count*size/N) lines, but at least one and never more than the cluster has, whatever size is requested; with one label per line and 1 <= size <= N the total is at least the requested size and exceeds it by less than the number of clusters. Without labels it returns exactly the requested number of distinct lines (a fraction is truncated). With quantile levels it returns, per level, the first line whose average is the nearest order statistic of the averages (level 0: a smallest, level 1: a largest average). With a random state the result does not depend on the generator's past; giving both or neither selection method raises.", "quantifier": "all lines, labelings, sample sizes and fractions, quantile levels, random outcomes and generator states", "why_tests_cant": "All RNG outcomes.", "anchors": ["georegression/visualize/pd.py:sample_partial"]}
{"id": "C70", "title": "Typical items are cluster medoids", "statement": "choose_cluster_typical returns one index per distinct label, in increasing order of the labels; the index has that label, no item with the label has a smaller summed distance to the items with the label, and earlier items with the label have a larger sum.", "quantifier": "all embeddings, labelings (at most one label per row) and metrics", "why_tests_cant": "All inputs.", "anchors": ["georegression/visualize/pd.py:choose_cluster_typical"]}
{"id": "C71", "title": "Plot ranges and colours cover the data", "statement": "range_margin with non-negative margin returns an interval that contains all data (or the given limits), with margin times the data range on both sides; without data both limits are required. vector_to_color normalises a non-constant vector into [0,1] preserving order, exactly the smallest values going to 0 and the largest to 1, independent of the units; a constant vector becomes NaN everywhere. A colour channel in [0,1] becomes a byte 0..255, monotonically, 255 exactly for 1.", "quantifier": "all vectors, margins, limits and channels", "why_tests_cant": "All vectors.", "anchors": ["georegression/visualize/utils.py:range_margin", "georegression/visualize/utils.py:vector_to_color"]}
{"id": "C72", "title": "Simulated coefficient surfaces: peak, symmetry, bounds, and where they are undefined", "statement": "The gaussian coefficient equals the amplitude at its mean, is strictly closer to zero everywhere else and symmetric about the mean; a single number as covariance is that variance in every direction; a covariance that is not positive definite is refused (LinAlgError when positive semidefinite, ValueError otherwise) and the upper triangle of a full covariance is ignored. The radial coefficient is the distance to the origin times the amplitude. The directional coefficient is the cosine of the angle to the direction times the amplitude, and NaN at the origin or for a zero direction. The sine coefficient is bounded by the amplitude, odd and periodic.", "quantifier": "all dimensions, points, means, covariances, directions, frequencies and amplitudes", "why_tests_cant": "Continuum of points.", "anchors": ["georegression/simulation/simulation_utils.py:directional_coefficient", "georegression/simulation/simulation_utils.py:sine_coefficient", "georegression/simulation/simulation_utils.py:radial_coefficient", "georegression/simulation/simulation_utils.py:gaussian_coefficient"]}
{"id": "C73", "title": "Every kernel is its published formula", "statement": "For every supported kernel name the weight of distance d with bandwidth b > 0 is the documented function of d/b: exp(-u/2), exp(-u^2/2), 1-u, 1 for u <= 1, (1-u^2)^2, (1-u^3)^3 (compact kernels zero beyond the bandwidth).", "quantifier": "all distances, positive bandwidths and kernel names", "why_tests_cant": "Continuum of inputs.", "anchors": ["georegression/kernel.py:kernel_function"]}
{"id": "C74", "title": "A stored distance matrix is returned for any points", "statement": "With the dask backend and a file path, a call without overwrite that finds an existing store returns the stored matrix whatever points and metric are passed; a call with overwrite, or one that finds none, returns the distance matrix of its points and stores it (leaving all other files alone), and the next call with the same path returns it.", "quantifier": "all point sets, metrics, file-system contents", "why_tests_cant": "Depends on the history of earlier calls: an existing store is returned for any points.", "anchors": ["georegression/distance_utils.py:_distance_matrix"]}
{"id": "C75", "title": "Importance scores are refused after a sampled fit", "statement": "After a successful fit with sample_local_rate that evaluates fewer locations than rows, importance_score_global raises for every n_repeats, and interaction_score_global raises for every n_repeats >= 1 when there are at least two features.", "quantifier": "all data, weights, learners, generators, numbers of repeats", "why_tests_cant": "Depends on the generator, the sampled locations and the whole fitted state.", "anchors": ["georegression/weight_model.py:WeightModel.importance_score_global", "georegression/weight_model.py:WeightModel.interaction_score_global"]}
{"id": "C76", "title": "Attributes of a fitted weight model", "statement": "After a successful fit, local_indices_ are strictly increasing row numbers (all rows without sampling, int(rate*N) of them with a rate in [0,1]), y_sample_ are their targets, llocv_score_ is the coefficient of determination of local_predict_ for y_sample_, and neighbour_matrix_ marks exactly the positive entries of weight_matrix_.", "quantifier": "all data, weights (dense or CSR), learners, generators, parameters", "why_tests_cant": "Relates attributes of the object over all inputs and generator states.", "anchors": ["georegression/weight_model.py:WeightModel.fit"]}
{"id": "C77", "title": "Local ALE curves use only a location's neighbours", "statement": "local_ALE returns one curve per location; curve i is computed from the neighbours of i only, with their local weights and the estimator of i, its grid spans exactly the neighbours' feature values and every interval holds at least six of them. The curves are not centred: curve i starts at the weighted mean prediction of the first interval's neighbours moved to the first grid point. If any location has fewer than six neighbours the whole call raises.", "quantifier": "all fitted models with dense weights, all features", "why_tests_cant": "depends on arbitrary estimators, weights and neighbourhoods; a test sees only a few curves", "anchors": ["georegression/weight_model.py:WeightModel.local_ALE", "georegression/local_ale.py:weighted_ale"]}
{"id": "C78", "title": "WeightModel.partial_dependence fails when all curves are equally long", "statement": "partial_dependence returns only if at least two curves differ in length; then entry i, f is the weighted partial dependence of estimator i over the neighbours of location i, local_partial_ is that result and feature_partial_ holds the same curves indexed by feature and then location. If all curves are equally long (in particular whenever every feature has at least 100 distinct values in every neighbourhood, so that every scikit-learn grid has 100 points, or with one location and one feature) it raises ValueError, after replacing local_partial_ and leaving feature_partial_ as it was. If a location has no estimator or its curves cannot be computed, it raises and leaves both attributes as they were.", "quantifier": "all fitted models with dense matrices, all estimators, data and earlier attribute values", "why_tests_cant": "The failure depends on a coincidence of grid lengths; tests on one data set see one side only.", "anchors": ["georegression/weight_model.py:WeightModel.partial_dependence"]}
{"id": "C79", "title": "One file path for several dimensions makes all use the first dimension's distances", "statement": "With the dask backend, several dimensions and a file path given once for the call, without overwrite and without an existing store, every dimension is returned the distance matrix of the first dimension: the first one stores its distances and the others find them, whatever their own points and metrics are. With overwrite, or without a file path, each dimension gets its own distances.", "quantifier": "all numbers of dimensions, points, metrics and disk contents", "why_tests_cant": "Depends on the state of the file system and on the number of dimensions.", "anchors": ["georegression/distance_utils.py:_distance_matrices", "georegression/distance_utils.py:_distance_matrix"]}
{"id": "C80", "title": "Combined coefficients act per point, except for a single one", "statement": "coefficient_wrapper with two or more coefficients gives, at every point, the operator applied to the values of the coefficients at that point, so a point's value does not depend on the other points. With exactly one coefficient the operator is called on the whole vector without an axis: an elementwise operator acts per point, but a reduction such as np.sum returns one number for all points, not the coefficient itself. With no coefficients the returned function raises ValueError.", "quantifier": "all operators, coefficient functions and point lists", "why_tests_cant": "Unbounded point lists and arbitrary coefficient functions; the single-coefficient case looks right on one point.", "anchors": ["georegression/simulation/simulation_utils.py:coefficient_wrapper"]}
{"id": "C81", "title": "Simulated responses have the shape their names say", "statement": "linear responses are additive and homogeneous in x, square responses are even and of degree two, interactions are symmetric and bilinear, sigmoid responses are odd, bounded by the coefficient and increasing for a positive one, relu responses vanish for negative x and are linear for positive x, and exponential responses keep the sign of the coefficient and are multiplied by exp(y) when x moves by y.", "quantifier": "all coefficient functions, points and real x", "why_tests_cant": "Continuum of inputs.", "anchors": ["georegression/simulation/simulation_utils.py:polynomial_function", "georegression/simulation/simulation_utils.py:square_function", "georegression/simulation/simulation_utils.py:linear_function", "georegression/simulation/simulation_utils.py:interaction_function", "georegression/simulation/simulation_utils.py:sigmoid_function", "georegression/simulation/simulation_utils.py:relu_function", "georegression/simulation/simulation_utils.py:exponential_function"]}
{"id": "C82", "title": "Sampled points respect the bounds and type of their dimension", "statement": "sample_points returns n rows and dim columns; a continuous column lies within the bounds of its dimension, a discrete column takes only its classes, and a column of any other type is silently zero. A list of bounds is one entry per dimension, so a single pair passed as a list fails with TypeError.", "quantifier": "all generator states, sizes, dimensions, bounds and types", "why_tests_cant": "Random draws and unbounded sizes.", "anchors": ["georegression/simulation/simulation_utils.py:sample_points"]}
{"id": "C83", "title": "Sampled features respect their parameters, and bounds given as functions are overwritten", "statement": "sample_x uniform values lie between the two bounds moved by the mean at each point; in normal values the argument called variance is the factor of a standard normal draw (a standard deviation); exponential values are not negative for a scale that is not; an unknown type returns None. Functions in a bounds list are replaced in the caller's list by their values, so later calls with that list reuse the values of the first call whatever their points, or fail when the number of points differs; functions in a bounds tuple raise TypeError.", "quantifier": "all generator states, sizes, points, parameters (numbers, vectors or functions) and later calls", "why_tests_cant": "Random draws; state carried between calls through the caller's list.", "anchors": ["georegression/simulation/simulation_utils.py:sample_x"]}
{"id": "C84", "title": "Local permutation importance is a local, weighted drop of R2", "statement": "importance_score_local returns one row per location and one column per feature. Each entry is the mean over the repeats of the drop of the location's weighted R2 on its neighbours when that feature is rearranged among the neighbours and nothing else changes; all features use the same rearrangements. A row depends only on the location's estimator, neighbours, their targets and weights. A feature the estimator ignores, or that is constant among the neighbours, scores exactly zero; an estimator that reproduces its neighbours' targets has no negative score. With one neighbour or no repeats the entries are NaN. Without cached data and estimators the call raises, and with sparse matrices or after a fit on sampled locations it raises IndexError.", "quantifier": "all fitted models, data, neighbour structures, repeats and random seeds", "why_tests_cant": "Random permutations, arbitrary estimators and unbounded data; neighbourhood leaks do not show in example outputs.", "anchors": ["georegression/weight_model.py:WeightModel.importance_score_local", "georegression/weight_model.py:local_importance"]}
{"id": "C85", "title": "Kernel guarantees survive floating-point rounding", "statement": "In every float arithmetic whose rounding is monotone and leaves 0 and 1 alone (with underflow and overflow), a kernel weight is a finite number of [0, 1], a nearer point or a larger bandwidth never gives less weight, distance 0 gives exactly 1, a compact kernel gives exactly 0 beyond its bandwidth, and dask and numpy agree bit for bit. The tapering kernels give weight exactly 0 to a point within the bandwidth whose normalised distance rounds to one.", "quantifier": "all roundings with the stated laws, all kernels, distances and bandwidths that are not negative", "why_tests_cant": "Rounding errors of all float formats and inputs cannot be sampled; a test compares a few rounded values within a tolerance.", "anchors": ["georegression/kernel.py:kernel_function"]}
{"id": "C86", "title": "Rows of the weight matrix survive floating-point rounding, in any order of summation", "statement": "In every such arithmetic and for every order in which numpy or dask adds up a row, the stored weights are finite, lie in [0, 1], keep the order of nearness and are exactly 0 beyond a compact bandwidth. With relative error e per operation, underflow error u and a summation of depth h, the n weights of a row that is not all zero add up to a number between (1-e)/(1+e)^h - n u and (1+e)/(1-e)^h + n u. IEEE single and double precision are such arithmetics; in double precision the weights of a row add up to one within (2h+3)/2^53.", "quantifier": "all roundings with the stated laws, all summation trees, any number of dimensions and points", "why_tests_cant": "The order of summation depends on array layout, chunk sizes and numpy version; no test enumerates orders and roundings.", "anchors": ["georegression/weight_matrix.py:weight_matrix_from_distance", "georegression/kernel.py:kernel_function"]}
{"id": "C87", "title": "Attributes recorded by a stacking fit", "statement": "After every successful StackingWeightModel.fit: local_indices_ is all N rows and y_sample_ is y; local_predict_ and stacking_predict_ have N entries; llocv_score_ and llocv_stacking_ are the coefficients of determination of those two lists for y (NaN for a single row); base_estimator_list and local_estimator_list have N entries and none is missing; cache_estimator has the value it had before. local_residual_ is not the vector of residuals but an N x N matrix whose entry (a, b) is y[b] minus the prediction at a, so only its diagonal holds the residuals. No coordinates are kept, so predict_by_weight on the fitted model raises unless a weight matrix is given.", "quantifier": "all data, base and meta learners, weight matrices (ndarray, sparse, numba) or coordinates, generators, parameters and previous states of the object", "why_tests_cant": "tests look at one attribute of one fit; the shape of the residuals and the scores must hold for every size, branch and earlier state", "anchors": ["georegression/stacking_model.py:StackingWeightModel.fit", "georegression/weight_model.py:WeightModel.predict_by_weight"]}
{"id": "C88", "title": "Stacking cannot be fitted at sampled locations", "statement": "StackingWeightModel.fit with sample_local_rate in [0, 1) never succeeds. Where the same fit without the rate succeeds, it raises ValueError when the base estimators are scored, and leaves behind: is_fitted_ True, cache_estimator True whatever was configured, local_predict_ for all N rows, the base estimators in local_estimator_list where the stacked ones belong, int(rate*N) sampled local_indices_, and base_estimator_list, local_residual_, stacking_predict_ and llocv_score_ as they were before the call. The caller's weight matrix has been changed as by a successful fit.", "quantifier": "all data, learners, weights, generators, parameters with a rate in [0,1) and previous states", "why_tests_cant": "tests of this option would show one failing call; that no data, weights or generator make it succeed, and what each failing call leaves on the object, are claims about all of them", "anchors": ["georegression/stacking_model.py:StackingWeightModel.fit"]}
{"id": "C89", "title": "The unit of the target does not matter to a weight model", "statement": "If the local learner is equivariant under y -> a*y+b (a nonzero; true of weighted means, least squares with intercept and trees), then fitting on a*y+b instead of y gives the same outcome (success or the same exception), uses the same random draws and changes the caller's weight matrix in the same way. On success the local predictions are mapped by the same affine map, the residuals are multiplied by a, and llocv_score_ and local_indices_ are the same.", "quantifier": "all data, weights (dense or sparse), parameters, generators, earlier states, all a != 0 and b, all equivariant learners", "why_tests_cant": "relates two runs for every affine map; a test compares a handful of runs with one learner in floating point", "anchors": ["georegression/weight_model.py:WeightModel.fit", "georegression/weight_model.py:_fit", "georegression/weight_model.py:fit_local_estimator"]}
{"id": "C90", "title": "The unit of the target in stacking: the ridge penalty must follow", "statement": "Two successful stacking fits, on y and on a*y+b, with an equivariant base learner: base estimators are mapped, and if the second meta regression is Ridge with alpha*a^2 instead of alpha, so are the stacked predictions at every location with a positive weight of its own, and llocv_stacking_ is the same when all locations have one. With the same alpha for both (a^2 != 1) the meta regression is not equivariant: stacked predictions depend on the unit of y.", "quantifier": "all data, weights, base learners, alpha > 0, a != 0, b", "why_tests_cant": "two-run claim over all units; that alpha carries a unit is not visible in any single run", "anchors": ["georegression/stacking_model.py:StackingWeightModel.fit", "georegression/numba_impl.py:ridge_cholesky"]}
{"id": "C91", "title": "Stacking reproduces a constant target", "statement": "If all targets are v, a successful stacking fit with Ridge (alpha > 0) as meta learner predicts exactly v at every location with a positive weight of its own, whatever the base learners predict.", "quantifier": "all features, weights, base learners, alpha > 0 and constants v", "why_tests_cant": "quantifies over every base learner and every weight matrix", "anchors": ["georegression/stacking_model.py:StackingWeightModel.fit", "georegression/stacking_model.py:_fit_local_estimator"]}
{"id": "C92", "title": "The order of the observations does not matter", "statement": "Permuting the rows of X, y and the coordinates (or the rows and columns of the weight matrix) in the same way permutes the local predictions and residuals and leaves llocv_score_ unchanged, for local learners that do not depend on the order of their training rows; if the original fit succeeds so does the permuted one.", "quantifier": "all data, permutations, metrics, kernels, bandwidths and neighbour counts, order-free learners; fits at all locations", "why_tests_cant": "all N! orders of every data set; a test tries one shuffle", "anchors": ["georegression/weight_model.py:WeightModel.fit", "georegression/weight_matrix.py:weight_matrix_from_points"]}
{"id": "C93", "title": "The unit of a coordinate dimension does not matter", "statement": "Multiplying the distances of each dimension by a positive factor of its own, and the fixed bandwidths (and presorted distances) of that dimension by the same factor, leaves weight_matrix_from_distance unchanged: the same matrix or the same exception, for numpy and dask input. With neighbour_count alone nothing has to be converted.", "quantifier": "all distance matrices, kernels, bandwidths, counts, positive factors per dimension, both paths", "why_tests_cant": "relates two runs for all factors; zero bandwidths and lazy quantiles included", "anchors": ["georegression/weight_matrix.py:weight_matrix_from_distance", "georegression/kernel.py:kernel_function", "georegression/kernel.py:adaptive_kernel"]}
{"id": "C94", "title": "Moving, turning or rescaling the coordinates does not matter", "statement": "Apply to the points of each dimension, sources and targets alike, a map that multiplies every distance of that dimension by a positive factor (a shift, rotation, reflection or change of unit; on the sphere a turn about the axis), and multiply fixed bandwidths of that dimension by the factor. weight_matrix_from_points gives the same matrix or the same exception. A WeightModel fitted on the moved coordinates has the same outcome, weights, estimators, local predictions and score, and makes the same predictions at new points moved the same way, by predict_by_weight and by predict_by_fit. (In exact arithmetic: the rounding of large coordinates to single precision, property C106, is not counted.)", "quantifier": "all point sets, dimensions, metrics and maps with that property, kernels, bandwidths, counts, learners, parameters and earlier states; numpy and dask for the weights", "why_tests_cant": "relates two runs under every similarity of the plane or of the sphere; a test tries one map on one data set up to rounding", "anchors": ["georegression/weight_matrix.py:weight_matrix_from_points", "georegression/distance_utils.py:_distance_matrices", "georegression/weight_model.py:WeightModel.fit", "georegression/weight_model.py:WeightModel.predict_by_weight", "georegression/weight_model.py:WeightModel.predict_by_fit"]}
{"id": "C95", "title": "Weights change continuously with the distances, except under the boxcar kernel", "statement": "Every kernel except boxcar is Lipschitz in the normalised distance with an explicit constant of at most 9/4 (uniform 0, exponential 1/2, gaussian 1, linear 1, bisquare 8/5, tricube 9/4). If two sets of distance matrices of the same shape differ by at most eps in every entry, bandwidths are fixed and at least b0 and no kernel is boxcar, then in each row with a target at distance zero no entry of the returned weight matrix changes by more than (1 + N) * dims * 9/4 * eps / b0. An adaptive bandwidth (count or fraction) changes by at most eps, and with adaptive bandwidths of at least b0 the weights change by at most twice the bound for fixed ones. Under boxcar a distance just beyond the bandwidth drops from weight one to zero, so no such bound exists.", "quantifier": "all real distance matrices, all kernels, all fixed bandwidths at least b0, all counts and fractions, every perturbation size eps (in particular the rounding of distances to float32)", "why_tests_cant": "a test perturbs a few inputs; the claim bounds every perturbation of every input and needs the derivative of each kernel over its whole range", "anchors": ["georegression/kernel.py:kernel_function", "georegression/kernel.py:adaptive_bandwidth", "georegression/weight_matrix.py:weight_matrix_from_distance"]}
{"id": "C96", "title": "Exactly linear data are fitted and predicted exactly by local least squares", "statement": "Let the target be a linear function of the features at every observation and the local regressor minimise the weighted sum of squares over linear functions with an intercept (any minimiser). If the weights used are non-negative and each fitted location's features are an affine combination of the features of its neighbours (automatic when its own weight is non-zero), then after fit every local prediction equals the observed value, every residual is zero and llocv_score_ is one, whatever kernel or bandwidth produced the weights. predict_by_fit then returns the exact value of the linear function at every new point whose features are an affine combination of those of its weighted training points, and predict_by_weight does so at every point that gets some weight and whose features are determined by the neighbours of each fitted location.", "quantifier": "all data sizes, numbers of features, linear functions, dense non-negative weight matrices, least-squares regressors and sampling of locations (except n_jobs together with sample_local_rate, see C39)", "why_tests_cant": "exactness must hold for every design and every weighting; a test only sees some designs, and only up to rounding", "anchors": ["georegression/weight_model.py:WeightModel.fit", "georegression/weight_model.py:_fit", "georegression/weight_model.py:WeightModel.predict_by_fit", "georegression/weight_model.py:WeightModel.predict_by_weight"]}
{"id": "C97", "title": "Kernels that reach every point turn the local models into the global one", "statement": "When in every dimension the kernel is uniform, or boxcar with a fixed bandwidth at least as large as every distance, or boxcar with an adaptive bandwidth over all targets (count N or fraction 1.0), each weight is 1/N. With such weights and leave_local_out=False every local regressor is the regressor fitted to all rows with one common weight (to unit weights if the regressor ignores the scale of the weights), local_predict_ is that one model's predictions, and predict_by_fit and predict_by_weight return its predictions at new points. With leave_local_out=True local_predict_ is ordinary leave-one-out cross-validation: the prediction at a location comes from the regressor fitted to all other rows.", "quantifier": "all distance matrices, numbers of dimensions, data sets, regressors whose clones fit alike, sampled locations and new points", "why_tests_cant": "Equality with the global model must hold for every data set, regressor and number of dimensions; tests compare a few fits within a tolerance.", "anchors": ["georegression/kernel.py:kernel_function", "georegression/weight_matrix.py:weight_matrix_from_distance", "georegression/weight_model.py:WeightModel.fit", "georegression/weight_model.py:WeightModel.predict_by_fit", "georegression/weight_model.py:WeightModel.predict_by_weight"]}
{"id": "C98", "title": "The importance plot keeps each feature with its own bar and label", "statement": "global_importance_plot draws one box and one bar per feature, ordered by the mean importance, and the label, the box and the bar at a position belong to the same feature. With the default labels, or at least as many labels as features, it succeeds; with fewer labels it raises IndexError. With index=True (the default) or with distinct labels every feature has a bar position of its own. With index=False two features with equal labels share one bar position, so one bar covers the other and stands beside the wrong box.", "quantifier": "all score tables, all label lists, both values of index", "why_tests_cant": "a test on one table of scores shows one order; ties, missing labels and repeated labels are input-dependent", "anchors": ["georegression/visualize/importance.py:global_importance_plot"]}
{"id": "C99", "title": "A clustered scatter plot has one trace per cluster, and its hover index is only right for a single cluster", "statement": "scatter_3d with cluster labels draws one trace per cluster value, holding exactly the rows of that cluster in their order, in one colour. The index shown on hovering is the position within the trace, not the row number: it equals the row number exactly for the rows before which every row is in the same cluster, so all hover indices are right only when there is a single cluster. In the plot with continuous values, and in embedding_plot, the index shown is the row number.", "quantifier": "all points, all label vectors, all colour maps", "why_tests_cant": "a test with one cluster, or which only looks at positions, does not see the wrong index; the claim is about every row of every labelling", "anchors": ["georegression/visualize/scatter.py:scatter_3d", "georegression/visualize/pd.py:embedding_plot"]}
{"id": "C100", "title": "Axis ranges, aspect and time surfaces of the scatter plot", "statement": "The axis ranges of scatter_3d contain all the points. The horizontal aspect is proportional to the two horizontal extents with the smaller one 1, and the vertical aspect is 0.6 times the larger one per time slice. There is one horizontal surface per time slice, in order of time; with more than one slice it is strictly below the points of its slice, and above the previous slice unless that is closer than a twelfth of the mean step. When all points share one horizontal coordinate the aspect is not finite.", "quantifier": "all coordinates and time values", "why_tests_cant": "the ranges must hold for every point set; degenerate extents are not covered by examples", "anchors": ["georegression/visualize/scatter.py:scatter_3d", "georegression/visualize/utils.py:vector_to_color"]}
{"id": "C101", "title": "A three-dimensional plot of lines draws exactly the selected rows", "statement": "partial_plot_3d draws one line per selected row: the line of that row, at the time of that row, named after the cluster of that row, with the row number as hover index. A line is in the legend exactly when no earlier drawn line is of its cluster, so each drawn cluster has one legend entry. The axis ranges contain all drawn lines. partials_plot_3d makes one figure per feature, each what partial_plot_3d makes of that feature alone, whatever the state of the random generator; with one label vector for all features (or none) and a sample size, every feature shows the same rows.", "quantifier": "all lists of lines, times, labels, sample sizes, quantiles, generators and generator states", "why_tests_cant": "the correspondence must hold for every selection and labelling; a test fixes one seed", "anchors": ["georegression/visualize/pd.py:partial_plot_3d", "georegression/visualize/pd.py:partials_plot_3d"]}
{"id": "C102", "title": "Line styles follow the size of the cluster", "statement": "In partial_plot_2d the opacity and width of a line lie in the given range, are equal for lines of clusters of equal size and do not decrease with the size of the cluster (with or without sigmoid scaling); they strictly increase when clusters differ in size. If all clusters have the same size every line gets the upper end of the range.", "quantifier": "all label vectors, all style ranges, all increasing sigmoid and power functions on [0, 1]", "why_tests_cant": "monotonicity ranges over all pairs of cluster sizes", "anchors": ["georegression/visualize/pd.py:partial_plot_2d"]}
{"id": "C103", "title": "The camera is lower than the pitch says", "statement": "camera_position puts the camera so that it looks from the direction of the rotation angle at horizontal distance 1, and repeats after 360 degrees. Its elevation is not the pitch: the tangent of the elevation is the sine of the pitch, so for every pitch strictly between 0 and 90 degrees the camera stands lower than asked, and it never stands above 45 degrees. Its distance varies between 1 and the square root of 2. aspect_ratio_scale keeps the proportions of a figure: it composes multiplicatively and is undone by the inverse scale.", "quantifier": "all real rotation and pitch angles, all aspect ratios and scales", "why_tests_cant": "a claim about all real angles", "anchors": ["georegression/visualize/utils.py:camera_position", "georegression/visualize/utils.py:aspect_ratio_scale"]}
{"id": "C104", "title": "Lines of different features are clustered independently", "statement": "features_partial_cluster treats each feature on its own: the embedding, labels and distances of feature k are those partial_cluster gives for feature k alone, whatever the other features are. Given distance matrices are used and returned as they are, and the lines are then ignored. With neither lines nor distances both functions raise.", "quantifier": "all feature lists, all distance matrices, all embedding and clustering functions", "why_tests_cant": "independence from the other features quantifies over all of them", "anchors": ["georegression/visualize/pd.py:partial_cluster", "georegression/visualize/pd.py:features_partial_cluster"]}
{"id": "C105", "title": "Points at the same coordinates get the same weights", "statement": "weight_matrix_from_points gives two target points that have the same coordinates in every dimension the same weight from every source, and two source points with the same coordinates the same row of weights, whatever the metrics, kernels, bandwidths, neighbour counts and the other points are.", "quantifier": "all lists of coordinate arrays with any number of points, all metrics (arbitrary functions), all parameters, both backends for targets", "why_tests_cant": "A test would need every metric, kernel and configuration; ties in adaptive bandwidths could break it for particular data only.", "anchors": ["georegression/weight_matrix.py:weight_matrix_from_points", "georegression/distance_utils.py:_distance_matrix"]}
{"id": "C106", "title": "Without dask, coordinates and distances count in single precision only", "statement": "Unless distance_args selects dask, or a dimension is measured by great-circle distance, weight_matrix_from_points sees the coordinates rounded to single precision: rounding them beforehand changes nothing, and points whose coordinates agree after rounding get the same weights. Between 2^k and 2^(k+1) only multiples of 2^(k-23) are kept (the nearest one, with a relative error of at most 2^-24; integers up to 2^24 exactly), so times in seconds since 1970 have a resolution of 128 s, and moving all points far from the origin changes the weights. With dask the same coordinates are used unrounded. Distances are rounded too, which keeps their order but can make different distances equal.", "quantifier": "all coordinates, metrics, kernels and bandwidths below the overflow threshold of single precision", "why_tests_cant": "The loss depends on the size of the coordinates; tests with small coordinates never show it.", "anchors": ["georegression/distance_utils.py:_distance_matrix", "georegression/weight_matrix.py:weight_matrix_from_points"]}
{"id": "C107", "title": "Predicting again at the training points", "statement": "After a fit with cache_data (all locations, deterministic local estimator), predict_by_fit on the training data reproduces local_predict_ if the fitted dense weight matrix is passed to it (with any coordinates, which are ignored). With the training coordinates instead it does not in general: the local model of location i then uses, for training row j, the weight location i has in the normalised row of j (the transposed matrix), and row i itself takes part even if leave_local_out is set. The two agree if leave_local_out is False and the normalised weights are symmetric.", "quantifier": "all training data, weights, local estimators, job and batch settings; witnesses for the differences", "why_tests_cant": "Relation between two calls for all data; the equality holds on symmetric layouts, which is what small tests tend to use.", "anchors": ["georegression/weight_model.py:WeightModel.predict_by_fit", "georegression/weight_model.py:WeightModel.fit"]}
{"id": "C108", "title": "How far an observation can reach", "statement": "With fixed bandwidths and kernels of compact support (linear, boxcar, bisquare, tricube) in every dimension: the weights of a point, its local model and its local prediction depend only on the observations within the bandwidth of it in every dimension. Two fits of the same model to data that agree on these observations give the same local model and prediction there, whatever observations farther away are changed, moved, added or removed. A value predicted by predict_by_weight depends only on observations within reach of a training location that is itself within reach of the new point.", "quantifier": "all pairs of data sets (possibly of different sizes), metrics, bandwidths, local estimators, locations and new points", "why_tests_cant": "Two-run property over all changes to distant data; needs kernel support, normalisation, leave-out and the batch loop together.", "anchors": ["georegression/weight_model.py:WeightModel.fit", "georegression/weight_model.py:WeightModel.predict_by_weight", "georegression/weight_matrix.py:weight_matrix_from_points", "georegression/kernel.py:kernel_function"]}
{"id": "C109", "title": "The Moran diagram shows deviations against weighted neighbour deviations; its slope is Moran's I only for equal row sums", "statement": "plot_moran_diagram draws one point per observation: its deviation from the mean against the sum of all deviations weighted by its row of the matrix as passed. The dashed line runs through the origin from the smallest to the largest deviation and has the least squares slope. If every row sums to c, the slope is c times the I returned by spatiotemporal_MI and STMI, and for row-standardised weights a point lies in the upper right or lower left quadrant exactly if its value in spatiotemporal_LMI is positive. For other weights slope and I differ and quadrants and signs can disagree, because the statistics divide the weights first. Equal observations give a diagram at the origin; no observations or another shape raise ValueError.", "quantifier": "all variables, all weight matrices (all fields of numbers)", "why_tests_cant": "the identity between slope and statistic is about all data and weights; a drawn figure is not compared with a number in tests", "anchors": ["georegression/spatial_temporal_moran.py:plot_moran_diagram", "georegression/spatial_temporal_moran.py:spatiotemporal_MI", "georegression/spatial_temporal_moran.py:spatiotemporal_LMI"]}
{"id": "C110", "title": "Simulated samples with one feature: design before coefficient, response row by row, ranges", "statement": "generate_sample of simulation_for_fitting returns count points and one feature, all between -10 and 10, which for the same seed and count do not depend on the coefficient or the response function. The response of an observation is computed from its own point and feature: coefficient times the squared feature (f_square), plus ten times the coefficient (f_square_const), or coefficient times tanh (f_sigmoid). f_square_2 and f_interact raise IndexError there. With coef_strong the coefficient is between -3 and 7 and the response between -300 and 700; at the origin both are NaN, because the directional part is undefined there.", "quantifier": "all counts, seeds and generators with uniform draws in [0, 1), all coefficient functions", "why_tests_cant": "the claim is about every seed and count and every coefficient function; ranges hold for all points of the square", "anchors": ["georegression/simulation/simulation_for_fitting.py:generate_sample", "georegression/simulation/simulation_for_fitting.py:coef_strong", "georegression/simulation/simulation_for_fitting.py:f_square", "georegression/simulation/simulation_for_fitting.py:f_interact"]}
{"id": "C111", "title": "The random coefficients of the simulations can always be made unless a covariance draw hits the end of its interval", "statement": "coef_auto_gau_weak and coef_auto_gau_strong sum a radial part, a directional part and 1000 Gaussians with centres in the square and heights between 1 and 2; every centre coordinate, height, sign, variance and covariance uses a draw of its own, seven in a row per Gaussian. They raise LinAlgError exactly if one of the 1000 covariances is drawn at the lower end of its half-open interval, where the matrix is singular; otherwise the coefficient is finite everywhere but at the origin, where it is NaN, and at most 2002 in absolute value in the square.", "quantifier": "all generators with uniform draws in [0, 1), all states, all positive variance intervals", "why_tests_cant": "the failing draw has probability about 1e-13 per sample, so no test meets it; positive definiteness is a claim about all draws", "anchors": ["georegression/simulation/simulation_for_fitting.py:coef_auto_gau_weak", "georegression/simulation/simulation_for_fitting.py:coef_auto_gau_strong"]}
{"id": "C112", "title": "Simulated samples with two features: which coefficient goes where", "statement": "generate_sample of simulation_for_importance takes one coefficient function or a list; f_square_2 needs two and raises IndexError with one. generate_sample of simulation.py calls the coefficient function three times: the first result is the mean of the first feature (draws within 1), three times the second the mean of the second feature (draws within 2), the third multiplies both features in the response, so a random coefficient function gives features that do not follow the coefficient of the response. A list raises TypeError there although the code checks for lists. The default coefficient is finite everywhere and between -2.5 and 6.8 in the square, so the default sample is finite.", "quantifier": "all counts, seeds, generators with uniform draws in [0, 1), coefficient functions and lists of them", "why_tests_cant": "which of three random coefficients is used cannot be seen in the output; the bounds hold for every point", "anchors": ["georegression/simulation/simulation.py:generate_sample", "georegression/simulation/simulation.py:coef_manual_gau", "georegression/simulation/simulation_for_importance.py:generate_sample"]}
{"id": "C113", "title": "What the importance of a feature is compared with", "statement": "global importance is the score at fit time minus the score after permutation. After fit of a weight model at all locations, a feature that does not matter to the local estimators (e.g. a constant one) has decrease exactly 0 in every repetition. After fit of a stacking model the score at fit time is that of the base predictions (llocv_score_), the score after permutation that of the stacked estimators: a feature that does not matter gets llocv_score_ - llocv_stacking_ in every repetition, which is negative when stacking improves the fit.", "quantifier": "all data, weights, learners, generators that permute, repeat counts, columns without effect on the stored estimators", "why_tests_cant": "which of two scores is the baseline shows in one number per feature that also depends on the permutation; tests do not compare it with the scores of the fit", "anchors": ["georegression/weight_model.py:WeightModel.importance_score_global", "georegression/stacking_model.py:StackingWeightModel.fit"]}
{"id": "C114", "title": "How far an observation reaches in a stacking fit", "statement": "the stacked estimator stored for a location, and its stacked prediction if its own weight is positive, are determined by the features of the locations at most two steps away (the location, its neighbours, their neighbours in the weight matrix) and by the targets of these locations without its own. Two fits whose data agree there agree at the location, whatever the data elsewhere, earlier fits and the state of the random generator. Two steps are really needed; a weight model needs one.", "quantifier": "all data sets, learners, weights (ndarray or CSR), sampling and shrink rates, generators, earlier states, locations", "why_tests_cant": "the statement compares two runs on arbitrary data; a test changes one value in one data set", "anchors": ["georegression/stacking_model.py:StackingWeightModel.fit", "georegression/neighbour_utils.py:sample_neighbour", "georegression/neighbour_utils.py:second_order_neighbour"]}
{"id": "C115", "title": "Regressors that average never predict outside the range of the targets", "statement": "for local regressors whose predictions stay within the targets they were fitted on (trees, forests, nearest neighbours, means): local_predict_ at a location, and every later prediction of its stored model, lies between the smallest and largest target of its neighbours; a residual is at most the spread of the targets among the location and its neighbours; predict_by_weight with coordinates lies between the targets of the neighbours of the training locations in range of the point, except that a point with no location in range gets 0 whatever the targets; predict_by_fit lies between the targets of the training points with a weight for it. A stacked prediction has this property if the meta estimator averages; ridge, which the package uses, does not, for any penalty.", "quantifier": "all data, averaging regressors, weights that are not negative, sampling, numbers of jobs and patches, new points", "why_tests_cant": "the claim is about every point and data set; tests look at values for one data set and a linear regressor", "anchors": ["georegression/weight_model.py:WeightModel.fit", "georegression/weight_model.py:WeightModel.predict_by_weight", "georegression/weight_model.py:WeightModel.predict_by_fit", "georegression/stacking_model.py:StackingWeightModel.fit", "georegression/numba_impl.py:ridge_cholesky"]}
{"id": "C116", "title": "What a fit keeps from the past of the object and of the random generator", "statement": "Fitting a weight model that was fitted or inspected before has the same outcome, the same effect on the caller's matrix and on the generator as fitting a new object, and after success all attributes are those of a new object, except that the recorded score decreases and interactions of the earlier data are kept, and, with cache_data off, the stored data. Fitting a stacking model has the same outcome for every earlier state of the object and every state of NumPy's global generator (it reseeds), and after success everything it computes and the generator's state are the same; kept from an earlier fit are, with weights given by the caller, weight_matrix_ and neighbour_matrix_, without numba the stacking_scores_ of an earlier numba fit, the stored coordinates, and cache_estimator.", "quantifier": "all learners, generators, parameters, data, coordinates or weights, and all earlier states of the object", "why_tests_cant": "a test refits one or two objects; the claim is about every history the object can have and every seed", "anchors": ["georegression/weight_model.py:WeightModel.fit", "georegression/stacking_model.py:StackingWeightModel.fit", "georegression/stacking_model.py:sample_neighbour"]}
{"id": "C117", "title": "Laws of the accumulated local effects", "statement": "weighted_ale is linear in the predictor: the curve of a*p1+b*p2 is a times one curve plus b times the other on the same grid, whether it exists does not depend on the predictor, predictions a*p+b give a*curve, plus b unless normalised. Only the proportions of the weights matter. A feature in another unit (a*x+b, a>0) gives the same values on the grid in that unit. With non-negative weights a prediction that never falls in the feature gives a curve that never falls, and bounds on its slope bound the slope of the curve. For c*x*z plus terms without x the slope in an interval is c times the weighted mean of z among the observations in that interval. Models fitted to y and to a*y+b with a regressor that follows the unit of the target have local curves a*v+b and a global curve a*v on the same grids, or both raise. The comparison drawn by the ALE simulation shows two parallel lines for an exact estimator and balanced neighbours, which coincide exactly if the base value lies on the true line.", "quantifier": "all data, predictors, weights, bin sizes from 0, features, regressors, parameters", "why_tests_cant": "a test evaluates a few curves; linearity, monotonicity and unit laws range over all predictors, data and units", "anchors": ["georegression/local_ale.py:weighted_ale", "georegression/ale_utils.py:adaptive_grid", "georegression/weight_model.py:WeightModel.local_ALE", "georegression/weight_model.py:WeightModel.global_ALE", "georegression/simulation/simulation_for_ale.py:draw_graph"]}
{"id": "C118", "title": "How the features are written down does not matter to a regressor that does not mind", "statement": "Let the rows of the feature table be rewritten by any function (other units and offsets, another order of the columns, added derived columns), and let the regressor (or its counterpart for the rewritten table) be indifferent to it: trained on rewritten rows it raises the same exceptions and predicts the same numbers for rewritten rows. Then the whole model is indifferent. Two new objects that receive the same calls on the two tables succeed or fail with the same exception at every fit, draw the same random numbers, leave the same weights with the caller, have the same local predictions, residuals, scores and weights, and give the same predict_by_weight and predict_by_fit results; this holds for weight models and for stacking (dense, sparse and numba) and after any earlier calls. If every feature is rewritten on its own, the global importance, the interaction and the local importance scores are equal too. If the inspected feature is rewritten as a * x + b with a > 0, local_ALE, global_ALE and partial_dependence give the same values at grid points a * q + b.", "quantifier": "all tables, targets, weights, options, generators, random states, rewritings of rows and indifferent regressors, and all pairs of object states that correspond to each other", "why_tests_cant": "Tests compare one pair of tables for one regressor; that no part of the library looks at the numerical values of the features except through the regressor (and through quantiles in the curves) is a statement about all of them.", "anchors": ["georegression/weight_model.py:WeightModel.fit", "georegression/weight_model.py:WeightModel.predict_by_weight", "georegression/weight_model.py:WeightModel.predict_by_fit", "georegression/weight_model.py:WeightModel.importance_score_global", "georegression/weight_model.py:WeightModel.interaction_score_global", "georegression/weight_model.py:WeightModel.importance_score_local", "georegression/weight_model.py:WeightModel.local_ALE", "georegression/weight_model.py:WeightModel.global_ALE", "georegression/weight_model.py:WeightModel.partial_dependence", "georegression/stacking_model.py:StackingWeightModel.fit", "georegression/stacking_model.py:StackingWeightModel.predict_by_fit"]}
{"id": "C119", "title": "Panels of a compound figure belong together, and share colours only if the extreme clusters are drawn", "statement": "partial_compound_plot returns, for every feature, a map, a figure of lines, an embedding figure and a compass, and the compass of a feature holds exactly the three other figures of that feature, all made with that feature's labels (with one embedding and one label vector, every compass shows that same map and embedding). The map and the embedding have one trace per cluster, of the same size and the same colour. With sample_size every cluster has at least one line, and every line has the colour its cluster has in the map and in the embedding. With quantile the lines drawn may miss clusters; if they include the clusters with the lowest and the highest label the colours agree, otherwise (for two or more clusters and a colour map that separates values) some line has another colour than its cluster has in the map.", "quantifier": "all partial dependence lines, coordinates, time slices, embeddings, labels (shared or per feature), sample sizes, quantiles, colour maps and generators, for calls that return", "why_tests_cant": "A test sees one data set, in which the quantile lines happen to cover or miss the extreme clusters; that sampling always keeps the colour scale is a statement about all label vectors and sizes.", "anchors": ["georegression/visualize/pd.py:partial_compound_plot", "georegression/visualize/pd.py:compass_plot", "georegression/visualize/pd.py:partial_plot_3d", "georegression/visualize/pd.py:embedding_plot", "georegression/visualize/scatter.py:scatter_3d", "georegression/visualize/utils.py:vector_to_color"]}
{"id": "C120", "title": "A precomputed weight matrix can stand in for the coordinates, and be used again", "statement": "Fitting WeightModel on coordinates and fitting it on the weight matrix weight_matrix_from_points(coordinates, coordinates) end alike: same success or failure, same attributes, same use of the random generator. If the coordinates are passed beside the matrix nothing differs; without them only the cached coordinates do. The same holds for StackingWeightModel up to the recorded weight and neighbour matrices. The array that a WeightModel fit leaves behind (with its diagonal cleared) gives the same fit when it is passed again. A stacking fit leaves the array alone when neither shrink rate is set; with meta_fitting_shrink_rate the same call repeated on the same array can fail. A WeightModel fitted on a matrix alone predicts only when it gets both a matrix and some coordinates; the coordinates are ignored and the predictions are those of the model fitted on coordinates.", "quantifier": "every regressor, generator, parameter setting, state of the object, data and coordinates; every dense or CSR matrix for the reuse", "why_tests_cant": "Two code paths must agree for every input, and in-place changes of the caller's array show up only in a second call.", "anchors": ["georegression/weight_model.py:WeightModel.fit", "georegression/weight_model.py:WeightModel.predict_by_weight", "georegression/weight_model.py:WeightModel.predict_by_fit", "georegression/stacking/stacking_model.py:StackingWeightModel.fit"]}
{"id": "C121", "title": "Stacking with regressors that draw from the global generator is repeatable in one process", "statement": "With n_patches = 1, so that every local regressor is fitted in the calling process, a StackingWeightModel whose base regressor draws from numpy's global generator (a tree or forest without random_state) gives the same outcome, the same scores, predictions and estimators, whatever the state of the generator before the fit and whatever the object was fitted on before: fit seeds the generator itself before any regressor draws. The generator is also left in the same state, so whatever is fitted next is repeatable too. A WeightModel in the same setting is not repeatable: two equal calls can give different predictions. For regressors that do not draw, this model of one process agrees with the model of fit used everywhere else. Nothing is said about draws in worker processes (n_patches above 1, the default on a machine with several cores).", "quantifier": "all randomised base regressors, generators, generator states, object states, parameters, data and weights", "why_tests_cant": "A test sees a few generator states and one regressor; a repeat that agrees by chance or because of a cached state looks the same as one that must agree.", "anchors": ["georegression/stacking_model.py:StackingWeightModel.fit", "georegression/neighbour_utils.py:sample_neighbour", "georegression/weight_model.py:WeightModel.fit"]}
{"id": "C122", "title": "What the experiments record, and that ten repeated fits in one process show no variation", "statement": "The variation experiment fits one stacking model ten times, each time on the object the last fit left, and records both scores after each fit and the mean, the root of the variance, the maximum and the minimum of the ten stacking scores; if one of the fits fails it fails and writes nothing. If the regressors do not draw random numbers, or if they draw from the global generator with n_patches = 1, all ten scores are equal, mean, maximum and minimum are that score and the variance is zero, whatever the generator was before: each fit seeds it. (Draws in worker processes, the default on several cores, are not covered.) In the comparison of models the caller's remarks override measured values of the same name, nothing is written if a model fails, and the data size script never records the second stacking score under the name Stacking_Extra. A parameter search tries every combination with and without coordinates, those with coordinates first, and writes one record per trial with its score and parameters; the record called best has the largest score and is the first that has it, so ties go to the model with coordinates; a first score of nan is called best. If a fit fails nothing is written; an empty grid raises ValueError after all records were written and before the best ones.", "quantifier": "all regressors, data, parameters, generator states, grids, scores, remarks and previous file contents", "why_tests_cant": "The scripts have no tests; whether ten equal scores are a property of the data or forced by the seed, and what ties, nan and empty grids do, shows only over all inputs.", "anchors": ["georegression/simulation/simulation_for_STST_variation.py:fit_models", "georegression/simulation/simulation_for_fitting.py:fit_models", "georegression/simulation/simulation_for_data_size.py:fit_models", "georegression/simulation/simulation_for_fitting.py:test_models", "georegression/simulation/simulation_for_fitting.py:test_stacking", "georegression/simulation/simulation_for_fitting.py:test_GWR"]}
{"id": "C123", "title": "Where the distances of a pair stand without targets, and what cache_sort stores", "statement": "Without targets and without dask, distance computation returns a vector with n(n-1)/2 entries in which the distance of points i < j is at position n*i + j - (i+2)(i+1)/2, as scipy documents, and stores nothing. With dask and cache_sort, a call that computes returns the distances of its points and a second matrix whose rows are the same distances in ascending order; both are in their stores afterwards, the stores have different names whatever the path, and all other files are as before.", "quantifier": "all point sets, metrics, file paths and file-system contents", "why_tests_cant": "A position formula and a rearrangement over all sizes; a path that contains the suffix several times is renamed in several places.", "anchors": ["georegression/distance_utils.py:_distance_matrix"]}
{"id": "C124", "title": "The leave-one-out score, and when llocv_score_ is the same number", "statement": "fit_llocv_models records the coefficient of determination of leave-one-out predictions: the prediction for a row comes from a new regressor fitted, without weights, to the features and coordinates of all other rows. It raises for fewer than two rows or mismatched numbers of rows. For a regressor that ignores the scale of weights the number equals llocv_score_ of a WeightModel with leave_local_out whose weights are all equal and positive, fitted to the same features and coordinates.", "quantifier": "all data sets, regressors (whose clones fit alike), weights w > 0, job and batch settings, earlier states of the object", "why_tests_cant": "Equality of two procedures over all data sets and regressors.", "anchors": ["georegression/simulation/simulation_for_fitting.py:fit_llocv_models", "georegression/simulation/simulation_for_robust.py:fit_llocv_models", "georegression/weight_model.py:WeightModel.fit"]}
{"id": "C125", "title": "The comparison with a second sample records nothing about it", "statement": "In simulation_for_robust.py, fit_models returns and appends to simulation_result.jsonl one record whose scores are those of models fitted to the first sample only. Two comparisons on the same first sample that succeed (same times and remarks) give the same record whatever the second samples and the generator; no prediction score is recorded. The printed prediction score of a WeightModel or stacking model is the coefficient of determination of predict_by_fit, and the printed scores of the fit to the second sample are those of a new object although the used one is refitted. The printed prediction scores of the regressors fitted to all rows (forest, boosted trees, linear regression) are those, on the second sample, of the regressor fitted to the first. If a training point is a neighbour of no test point, stacking cannot predict: the comparison raises and writes nothing.", "quantifier": "all pairs of samples, regressors that do not draw from the global generator, parameters without sample_local_rate, times, remarks, generator states and file contents", "why_tests_cant": "Non-interference over all second samples; the failure depends on the geometry of two samples.", "anchors": ["georegression/simulation/simulation_for_robust.py:fit_models", "georegression/stacking_model.py:StackingWeightModel.predict_by_fit", "georegression/weight_model.py:WeightModel.predict_by_fit"]}
{"id": "C126", "title": "Effect curves of integer features are computed at truncated positions", "statement": "When the features are given as an integer array (fit keeps the type), the copies into which the effect curves write their grid values are integer arrays too. So weighted_ale, local_ALE and global_ALE compute, for every predictor, the curve of the predictor that sees the feature without its decimals, and return it over the grid with the decimals. For a predictor linear in the feature the accumulated effect at a grid point is off by the slope times the dropped decimals: by less than one slope, and it is right exactly at the whole grid points, which the smallest and the largest are. If all grid points are whole nothing changes. A partial-dependence curve shows at each grid point the weighted mean prediction at the truncated grid point; with fewer than 100 distinct values per feature its grid is whole and it is right.", "quantifier": "all integer-valued data (any size), predictors, weights, both normalisations, all bin minima >= 0; all fitted states for the two methods", "why_tests_cant": "The returned curve looks plausible and its grid is right; only a statement relating the values to the positions at which the predictor was asked, for all data, shows the mismatch.", "anchors": ["georegression/local_ale.py:weighted_ale", "georegression/weight_model.py:WeightModel.local_ALE", "georegression/weight_model.py:WeightModel.global_ALE", "georegression/weight_model.py:local_partial_dependence", "georegression/local_pd.py:local_partial_dependence"]}
{"id": "C127", "title": "The grid of a partial-dependence curve leaves out the tails, and features with one dominant value have none", "statement": "The abscissae of a partial-dependence curve depend on the given observations only, not on the regressor or the weights. With fewer than 100 distinct values they are exactly these values. With at least 100 they are 100 increasing, equally spaced points inside the range of the data, such that about a twentieth of the observations (n/20 up to less than one observation) lies before the first and after the last point. If all but less than n/20 - 0.59 observations on either side share one value there is no grid: ValueError, and no curve of any feature at that location. Over a common grid the curves are linear in the predictor.", "quantifier": "all data sizes, all values, all predictors and weights", "why_tests_cant": "Which observations are cut off depends on order statistics of arbitrary data; the failure needs hundreds of distinct values next to a dominant one.", "anchors": ["georegression/weight_model.py:local_partial_dependence", "georegression/local_pd.py:local_partial_dependence"]}
{"id": "C128", "title": "Prediction by weight in floating point stays within the local predictions", "statement": "In floating-point arithmetic with relative error e per operation and underflow error u, and for every order in which numpy adds up the products, one prediction of predict_by_weight is finite and differs from the exact weighted sum of the n local predictions by at most ((1+e)^(h+1) - 1) times the weighted sum of their absolute values plus n u (1+e)^h, h being the depth of the summation. In double precision, with the weights the library itself computes for a new location and local predictions between lo and hi and of size at most B, the prediction is between lo and hi up to (5h+6) 2^-53 B + 2^-800 unless all weights of the location are zero, and then it is exactly 0. If no local prediction is negative, the prediction is not negative, in every arithmetic with monotone rounding.", "quantifier": "all roundings with the stated accuracy (IEEE single and double are such), all summation orders of any depth up to 2^50, any number of training points up to 2^200, all kernels, distances, bandwidths, all local predictions up to 2^900", "why_tests_cant": "the order of summation depends on array layout and numpy version, and tests compare with a tolerance that nobody derived", "anchors": ["georegression/weight_model.py:WeightModel.predict_by_weight", "georegression/weight_matrix.py:weight_matrix_from_distance"]}
{"id": "C129", "title": "The p of STMI is a lower-tail probability, and NaN for equal weights", "statement": "STMI returns as p the normal distribution function at (I - expectation)/sqrt(variance). With a positive variance p is above one half exactly when I is above its expectation -1/(n-1): clustered data give p near 1, so a small p means dispersion. p is NaN, without an exception, whenever I is NaN or the variance is negative or NaN. The variance is never negative if no observation is its own neighbour. If all pairs have the same weight, self included (as the uniform kernel of the library gives), then I is 0, the variance is negative and p is NaN for every variable in which two disjoint pairs of observations differ; boxcar weights of four observations show that compact kernels can do the same.", "quantifier": "all data, weight matrices and strictly increasing distribution functions; the statement on equal weights for every n >= 4", "why_tests_cant": "tests check one p on one data set; the sign of the variance for all data needs a sharp inequality between fourth and second moments", "anchors": ["georegression/spatial_temporal_moran.py:STMI"]}
{"id": "C130", "title": "local_ICE raises with the required scikit-learn; what its curves are with an older one", "statement": "With scikit-learn 1.2, which requirements.txt asks for, local_ICE never returns: for every model with at least one location and one feature it raises and leaves local_ice_ and feature_ice_ as they were; on a fitted model that kept data and estimators the exception is TypeError. With an older scikit-learn, a returned result has one row per location and one curve per feature: the abscissae come from the feature's values among the location's neighbours (all of them in increasing order if fewer than 100), the ordinate at v is what the location's own estimator predicts for the location's own row with the feature set to v (truncated first when X holds integers). A location that is its own neighbour finds its own value on the curve, with its own prediction there. If all curves are equally long it raises ValueError after replacing local_ice_; a location without estimator, without neighbours or without enough columns makes it raise with both attributes unchanged. For an additive estimator the curve differs from the weighted partial dependence by a constant.", "quantifier": "all fitted states, estimators, feature matrices, neighbour relations and grids; both signatures of the library function", "why_tests_cant": "The failure concerns every model, the curve statement every location, feature and grid value; a test sees one data set with one library version.", "anchors": ["georegression/weight_model.py:WeightModel.local_ICE", "georegression/weight_model.py:WeightModel.partial_dependence"]}
{"id": "C131", "title": "The figure of an ALE curve", "statement": "plot_ale(fvals, ale, x) draws the line through the given points in their order and ten bars of equal width from the smallest to the largest x. Every x belongs to exactly one bar: from its left edge to before its right edge, the largest value to the last bar; so the heights add up to the number of values, and no weights enter. If all x are equal the bars span half a unit to both sides and all values are in the sixth. The bar of a value is right even if its first (rounded) guess is off by one bar. Coordinates that differ in number raise ValueError, nothing else does.", "quantifier": "all curves and all lists of values; for the bar of a value also all increasing edges, all numbers of bars and all guesses off by at most one", "why_tests_cant": "Values on the edges and rounding of the bar index are rare in samples; the claim covers all of them.", "anchors": ["georegression/visualize/ale.py:plot_ale"]}
{"id": "C132", "title": "What can be asked of a model fitted with a sparse weight matrix", "statement": "After every successful WeightModel.fit with a CSR weight matrix and cache_data and cache_estimator on, the four methods that look at neighbourhoods (importance_score_local, partial_dependence, local_ICE, local_ALE) raise IndexError and leave the object as it was. The global methods (importance_score_global, interaction_score_global, global_ALE) return the same scores and curves, or the same exception, as after the fit with the equal dense matrix, draw the same random numbers and record the same attributes.", "quantifier": "all learners, data, canonical CSR weight matrices, earlier states of the object, random generators, repeats and features", "why_tests_cant": "That no matrix at all makes the methods work, and that two code paths agree for all matrices, is a statement over all inputs.", "anchors": ["georegression/weight_model.py:WeightModel.partial_dependence", "georegression/weight_model.py:WeightModel.local_ICE", "georegression/weight_model.py:WeightModel.local_ALE", "georegression/weight_model.py:WeightModel.importance_score_local", "georegression/weight_model.py:WeightModel.importance_score_global", "georegression/weight_model.py:WeightModel.global_ALE"]}
{"id": "C133", "title": "Effect curves after a fit at sampled locations", "statement": "After a successful fit with sample_local_rate that evaluates fewer locations than rows, partial_dependence, local_ICE and global_ALE raise and leave the recorded curves alone. local_ALE does not raise for that reason: with a dense weight matrix (and n_jobs not given) it returns one curve per sampled location, and the k-th curve is made from the estimator of the k-th sampled location but from the neighbours and the weights of row k, whichever location was sampled k-th.", "quantifier": "all learners, data, weight matrices, rates, random generators and features", "why_tests_cant": "The curves look plausible; that a wrong neighbourhood is used for every sample is not visible from one result.", "anchors": ["georegression/weight_model.py:WeightModel.local_ALE", "georegression/weight_model.py:WeightModel.partial_dependence", "georegression/weight_model.py:WeightModel.local_ICE", "georegression/weight_model.py:WeightModel.global_ALE", "georegression/weight_model.py:WeightModel.fit"]}
{"id": "C134", "title": "Model objects cannot take part in scikit-learn's model selection", "statement": "Although WeightModel is documented to support scikit-learn workflows such as GridSearchCV, for every WeightModel and StackingWeightModel object get_params, clone, repr and set_params with arguments raise RuntimeError (the constructor has *args), set_params without arguments returns the object, and the inherited score raises AttributeError because there is no predict. fit of a stacked local estimator raises TypeError when it is given X and y.", "quantifier": "all objects of the two classes, parameter values to set, ways to clone a parameter", "why_tests_cant": "That no way of making the object avoids the exception is a statement about all constructor calls.", "anchors": ["georegression/weight_model.py:WeightModel", "georegression/stacking_model.py:StackingWeightModel", "georegression/stacking_model.py:StackingEstimator"]}
{"id": "C135", "title": "What becomes of constructor arguments", "statement": "Every constructor argument of WeightModel and StackingWeightModel, by position, keyword or default, becomes the attribute of its name, with these exceptions: n_patches becomes the number of processors if neither n_jobs nor n_patches is given; midpoint of StackingWeightModel has no effect at all and there is no such attribute. A keyword neither class knows (for example a misspelled parameter) is accepted silently and changes nothing but kwargs. Surplus positional arguments are ignored by WeightModel and raise TypeError in StackingWeightModel. From the seventh positional argument on the two classes differ: arguments in the order of WeightModel end up one parameter earlier in StackingWeightModel. Without local_estimator both raise TypeError, so every evaluation in parameter_tuning.py raises. Left out, leave_local_out is True, cache_data, cache_estimator and use_numba are False, alpha is 10, and everything else is None; the attributes for data and results exist on a new object and are None.", "quantifier": "all lists of positional and keyword arguments, all values, numbers of processors", "why_tests_cant": "The space of calls is unbounded; a call with a misspelled or displaced argument looks like a success.", "anchors": ["georegression/weight_model.py:WeightModel.__init__", "georegression/stacking_model.py:StackingWeightModel.__init__", "georegression/simulation/parameter_tuning.py:objective"]}
{"id": "C136", "title": "What can be asked of a fitted stacking model", "statement": "After every successful StackingWeightModel.fit partial_dependence raises and leaves the recorded curves alone. If the weights were given to fit and the object had recorded none, local_ALE, local_ICE, partial_dependence and importance_score_local raise TypeError. If it had recorded weights in an earlier fit, local_ALE makes its curves with those old weights. After a fit from coordinates, curve i is the effect in the i-th stacked estimator over all observations of positive weight for location i, location i included, with the weights after meta_fitting_shrink_rate (zero for those shrunk away).", "quantifier": "all learners, data, weights or coordinates, parameters, generators, earlier states of the object and features", "why_tests_cant": "Which weights a curve used is not visible in it; the claims range over all fit histories.", "anchors": ["georegression/weight_model.py:WeightModel.partial_dependence", "georegression/weight_model.py:WeightModel.local_ALE", "georegression/weight_model.py:WeightModel.local_ICE", "georegression/weight_model.py:WeightModel.importance_score_local", "georegression/stacking_model.py:StackingWeightModel.fit", "georegression/stacking_model.py:StackingEstimator"]}
{"id": "C137", "title": "What the penalty of a stacking model does", "statement": "The penalty alpha of StackingWeightModel pulls every location towards local averaging. For any solver that does what ridge regression promises (scikit-learn's Ridge or the package's own): alpha times the squared distance of the stacked prediction of a location from the weighted mean of the targets of the neighbours it is stacked on is at most the weighted scatter of those targets times the scatter, around their local means, of the base predictions at the location; for every tolerance there is a penalty from which on all stacked predictions are within it of these local means; and fitting the same data with a larger penalty leaves the base estimators as they are, never gives a location coefficients with a larger sum of squares, and never reduces the weighted training error of a location's meta estimator.", "quantifier": "every data set, weight matrix, base regressor, random generator and pair of penalties, for every location that keeps a positive weight for itself", "why_tests_cant": "The limit and the monotonicity are over all penalties and all data; a test compares two penalties on one data set.", "anchors": ["georegression/stacking_model.py:StackingWeightModel.fit", "georegression/numba_impl.py:ridge_cholesky"]}
{"id": "C138", "title": "When a stacking fit goes through", "statement": "With admissible arguments (neighbour_leave_out_rate set and not negative, a positive number of patches, no sample_local_rate, no estimator_sample_rate on ndarrays) and a meta regressor that takes every non-empty table with positive weights, as ridge regression does, StackingWeightModel.fit on an ndarray of weights succeeds if and only if data and weights have matching shapes, the base regressor takes the training set left to every location after leaving out the sampled neighbours, and every location has a neighbour other than itself with a positive weight (after meta_fitting_shrink_rate). On a canonical CSR array the same holds with one more condition: without numba, some location must have a positive weight for the last location of the data (otherwise IndexError); with numba, no location may have a negative weight for another one. So the order of the rows can decide whether a fit on sparse weights succeeds.", "quantifier": "every data set, weight matrix, base regressor, meta regressor, random generator and option within the stated conditions", "why_tests_cant": "The condition is over all weight matrices and draws; a test exercises one neighbourhood graph, usually a connected one in which the last row is somebody's neighbour.", "anchors": ["georegression/stacking_model.py:StackingWeightModel.fit", "georegression/neighbour_utils.py:second_order_neighbour"]}
{"id": "C139", "title": "When a weight model can be fitted", "statement": "With admissible n_jobs and n_patches and without sample_local_rate, WeightModel.fit goes through exactly when there are at least two observations and one feature, as many targets as observations, a weight for every pair of observations, and the local estimator accepts the training set of every location: the observations of non-zero weight in its row, without the location itself when leave_local_out is set. In particular one single location for which the estimator refuses (say, an empty training set) makes the whole fit raise. The same holds for CSR weights.", "quantifier": "all data, weights, estimators, earlier states of the object, numbers of jobs and batches", "why_tests_cant": "ranges over all weight matrices and over arbitrary estimators; a test can only try some data sets that happen to work or to fail", "anchors": ["georegression/weight_model.py:WeightModel.fit", "georegression/weight_model.py:_fit", "georegression/weight_model.py:fit_local_estimator"]}
{"id": "C140", "title": "How many observations neighbour_count leaves for training", "statement": "neighbour_count counts the location itself and the neighbour at the bandwidth. With leave_local_out and neighbour_count=k in some dimension, where fewer than k observations share the place of the location, linear, bisquare and tricube kernels train the local model on at most k-2 observations. With a single dimension boxcar trains on at least k-1; if no two observations are equally far away, the numbers are exactly k-2 and k-1. If the nearest k-1 other observations are all equally far (always so for k=2, and for k=3 inside an equally spaced series, for k up to 5 inside a square grid), linear, bisquare and tricube leave nothing to train on and fit raises, for every estimator that refuses an empty training set. With a fraction q of n observations let m be the integer part of n*q+(1+q)/3: linear, bisquare and tricube train on at most m-1 observations; with a single dimension boxcar on at least m-1 (or all the others), and if no two observations are equally far away and n*q+(1+q)/3 is not an integer, each of the four kernels trains on exactly m-1 (so 0.3 of 500 gives 149). If n*q+(1+q)/3 < 2, every one of the four leaves a location with a place of its own nothing to train on, and fit raises.", "quantifier": "all coordinates, metrics, counts k, fractions q, numbers of dimensions, estimators and data", "why_tests_cant": "the counts depend on the ties of an arbitrary set of distances; a test on one layout shows one number", "anchors": ["georegression/kernel.py:adaptive_bandwidth", "georegression/kernel.py:adaptive_kernel", "georegression/weight_matrix.py:weight_matrix_from_points", "georegression/weight_model.py:WeightModel.fit"]}
{"id": "C141", "title": "Neighbours are mutual with fixed bandwidths, and need not be with neighbour_count", "statement": "If a bandwidth is given for every dimension and the distances are the same both ways, one point has a positive weight for another exactly if the other has one for it, and the weights balance: multiplying every row with a suitable positive number makes the matrix symmetric, although the row-normalised matrix itself is not. After a WeightModel fit on coordinates an observation therefore trains the local model of a second one exactly if the second trains the model of the first, whether or not the location itself is left out. With neighbour_count this fails: of stations at 0, 1, 4, 9 and 16 the model of the last is trained on the one at 4 and not the other way round.", "quantifier": "All distance matrices with symmetric entries, all kernels, dimensions and bandwidths; all coordinates, symmetric metrics, learners and previous states; a witness for neighbour_count.", "why_tests_cant": "Mutuality is a relation between all pairs of rows; a test sees one layout, and regular layouts (grids, evenly spaced stations) hide the asymmetry of neighbour_count.", "anchors": ["georegression/weight_matrix.py:weight_matrix_from_distance", "georegression/weight_matrix.py:weight_matrix_from_points", "georegression/kernel.py:adaptive_bandwidth", "georegression/weight_model.py:WeightModel.fit"]}
{"id": "C142", "title": "How the bandwidth governs the neighbourhood", "statement": "With the same kernels and in every dimension a bandwidth, a neighbour count or a fraction that is at least as large, every pair of points with a positive weight keeps one, and the weight of a point for itself, which is the largest of its row, does not grow; so every observation that trains a local model still does with the wider parameters. In the narrow limit (bandwidths below all distances that are not zero and a kernel of bounded support) the observations in the very place of a point share its weight equally and no others have any. In the wide limit all weights tend to 1/N: with distances at most \u03b4 and bandwidths of at least b the weights lie between (1-\u03b7)/N and 1/(N(1-\u03b7)) for \u03b7 = D\u00b7(9/4)\u00b7\u03b4/b with D dimensions, so for any distances and any tolerance there is a bandwidth from which on all weights are within the tolerance of 1/N, whatever the kernels.", "quantifier": "All distance matrices, kernels, dimensions, bandwidths and counts; all coordinates and learners for the training sets; all real distances and tolerances for the wide limit.", "why_tests_cant": "A limit and a comparison of two parameter sets range over infinitely many bandwidths; tests evaluate a handful, and normalisation makes single weights move in both directions.", "anchors": ["georegression/kernel.py:kernel_function", "georegression/kernel.py:adaptive_bandwidth", "georegression/weight_matrix.py:weight_matrix_from_distance", "georegression/weight_model.py:WeightModel.fit"]}
{"id": "C143", "title": "With regressors linear in the target a weight model is a linear smoother", "statement": "If the local regressor superposes (trained on a*y + b*y' it predicts a times its prediction for y plus b times its prediction for y'), so does the weight model: local predictions, residuals, predict_by_fit and predict_by_weight for the target a*y + b*y' are a times those for y plus b times those for y'. There is then one matrix H, the same for all targets, with local_predict_ = H y; H[i, k] is zero unless observation k trains the model of location i, so the diagonal vanishes with leave_local_out, and the rows sum to one if the regressor reproduces constants. Weighted least squares with an intercept superposes wherever the features of the location are an affine combination of those of its neighbours, whichever minimiser is returned.", "quantifier": "All features, targets, factors, coordinates, ndarrays or CSR arrays (in canonical form) of weights, sampled locations, n_jobs and n_patches, previous states and all superposing regressors; all least-squares regressors.", "why_tests_cant": "Superposition relates three fits with arbitrary targets and factors, and the existence of H is a statement about all targets at once; a test compares a few numbers.", "anchors": ["georegression/weight_model.py:WeightModel.fit", "georegression/weight_model.py:WeightModel.predict_by_fit", "georegression/weight_model.py:WeightModel.predict_by_weight", "georegression/weight_model.py:fit_local_estimator"]}
{"id": "C144", "title": "Regions out of reach of each other are fitted independently", "statement": "If a group of at least two observations is out of reach of all others (in some dimension with a kernel of bounded support every other observation is beyond the fixed bandwidth, or with an integer neighbour_count that many members of the group are nearer than it), the normalised weights within the group are exactly those computed from the group's coordinates alone and the weights towards all others are zero. Fitting the group alone, on its rows of X, y and the coordinates, then succeeds whenever the fit on all observations does, and gives every member the same local estimator and local prediction; other observations may come, go or change without any effect on the group. The group may still be reached by others (with a count neighbours need not be mutual).", "quantifier": "All coordinates, metrics, kernels, bandwidths and integer counts in any number of dimensions, all subsets of observations, all features, targets and learners, n_jobs and n_patches and previous states; no sampling of locations.", "why_tests_cant": "The claim compares two fits of different size for every subset of every data set; normalisation and the adaptive bandwidth both look at all observations, so agreement in a test says nothing about other subsets.", "anchors": ["georegression/weight_model.py:WeightModel.fit", "georegression/weight_matrix.py:weight_matrix_from_points", "georegression/kernel.py:adaptive_bandwidth"]}
{"id": "C145", "title": "Copies of an observation defeat leave_local_out", "statement": "leave_local_out removes one row, not one observation: of two rows at the same coordinates each gives the other exactly the weight it would give itself, positive and the largest of its row, for every kernel, bandwidth and count. So with a regressor that reproduces its training data (nearest neighbours, trees grown to the end) an observation that occurs twice is predicted exactly and its residual is zero, and if every observation occurs twice (equal features never going with different targets) local_predict_ equals y and llocv_score_ is 1, whatever the targets; once each, the same observations can have a negative score.", "quantifier": "All coordinates, metrics with distance zero from a point to itself, kernels, bandwidths, counts, dimensions, features, targets, previous states, and all regressors that reproduce consistent training data.", "why_tests_cant": "That a score is 1 for every possible target is a statement about all data sets with repeated rows; tests use distinct random points, where the effect does not show.", "anchors": ["georegression/weight_model.py:WeightModel.fit", "georegression/weight_model.py:WeightModel.__init__", "georegression/weight_matrix.py:weight_matrix_from_points"]}
{"id": "C146", "title": "Rescaling local importance to [0, 1]", "statement": "Rescaled as a whole (simulation_data_fitting), finite local importances that are not all equal lie in [0, 1], both ends occur, and importances of any two locations and features compare as before; one NaN (a location without a score), or all importances equal, turns every value into NaN. Rescaled per location (simulation_for_importance) the row minima are broadcast as a row of features: with at least two locations and two features, and not as many features as locations, it raises ValueError, as it does for the 5000 locations and two features of the script; with as many features as locations feature j is rescaled by the extremes of location j and values can leave [0, 1]; with one feature the result has a column per location and no finite value; only for a single location is it the intended rescaling.", "quantifier": "All arrays of local importances (any numbers of locations and features, any finite values, NaN anywhere).", "why_tests_cant": "The shapes for which the expression works are an infinite family of which a script tries one; that order is kept and the ends are reached is a claim about all values.", "anchors": ["georegression/simulation/simulation_for_importance.py:draw_graph", "georegression/simulation/simulation_data_fitting.py:draw_graph"]}
{"id": "C147", "title": "Effect curves do not depend on the order of the observations", "statement": "weighted_ale returns the same grid and the same curve (or raises the same exception) for the same weighted observations in any order, and so does the weighted partial dependence. After two fits of the same observations in two orders, with a local learner that does not care about the order of its training rows and with data and estimators cached: global_ALE returns the same curve or raises the same exception; local_ALE and partial_dependence return for every observation the same curves, at the position where the observation stands in that order; and if one of them raises in one order it raises in the other.", "quantifier": "all data, weights, permutations, features and order-free learners; fits at all locations with dense weights", "why_tests_cant": "all N! orders of every data set; the grid is found by bisection over quantiles, and each interval is averaged by pandas groupby", "anchors": ["georegression/local_ale.py:weighted_ale", "georegression/ale_utils.py:adaptive_grid", "georegression/weight_model.py:WeightModel.local_ALE", "georegression/weight_model.py:WeightModel.global_ALE", "georegression/weight_model.py:WeightModel.partial_dependence"]}
{"id": "C148", "title": "The order of coordinate dimensions does not matter, and dimensions that do not vary have no influence", "statement": "Weights computed from several dimensions (space, time, ...) do not depend on the order in which the dimensions are listed, as long as each keeps its own metric, kernel, bandwidth and neighbour count; this holds for distance matrices, eager or lazy, and for coordinates. Giving an argument once or as a list of equal entries is the same. A dimension in which nothing differs (all distances zero; for coordinates: the same coordinates everywhere), or whose kernel is 'uniform', can be added or left out without changing any weight, whatever its bandwidth or neighbour count, unless it is the only one. Listing a dimension twice keeps every neighbourhood as it is but changes the weights, except for 'boxcar'. Splitting one dimension with a fixed bandwidth into several with distances that are never larger (such as the axes of a map), with the same kernel and bandwidth, never loses a neighbour, but can gain some.", "quantifier": "all numbers of dimensions and their permutations, shapes, kernels, bandwidths, neighbour counts, eager and lazy arrays, metrics and coordinates", "why_tests_cant": "tests use one or two dimensions in a fixed order", "anchors": ["georegression/weight_matrix.py:weight_matrix_from_distance", "georegression/weight_matrix.py:weight_matrix_from_points", "georegression/weight_matrix.py:weight_by_distance", "georegression/kernel.py:kernel_function"]}
{"id": "C149", "title": "Leave-one-out predictions are the predictions of a model without the observation, with one neighbour fewer", "statement": "With leave_local_out the prediction of a fit at an observation is exactly the one that a WeightModel fitted to the other observations gives at its place through predict_by_fit, if the regressor ignores the scale of its weights and the weights are handed over as a matrix computed with the new place as source, with the same bandwidths and every integer neighbour_count lowered by one (in the fit each observation is its own nearest neighbour). So llocv_score_ estimates the quality of such predictions. It does not for the same neighbour_count, nor for predict_by_fit with coordinates, which takes the training points as sources.", "quantifier": "all data, locations, numbers of dimensions, metrics that are zero between equal coordinates, kernels, bandwidths, integer neighbour counts of at least two, scale-free regressors, histories of both models", "why_tests_cant": "a statement that two computations on different data agree for every observation and every data set", "anchors": ["georegression/weight_model.py:WeightModel.fit", "georegression/weight_model.py:WeightModel.predict_by_fit", "georegression/weight_matrix.py:weight_matrix_from_points", "georegression/kernel.py:adaptive_bandwidth"]}
{"id": "C150", "title": "With the boxcar kernel and an adaptive bandwidth only the order of the distances matters", "statement": "In dimensions with kernel_type 'boxcar' and a neighbour_count (a number of neighbours or a share of the observations, with or without dask), two sets of distances that order the observations in the same way as seen from every location give the same weight matrix, entry by entry, alone or combined with any other dimensions; so replacing distance_measure by one that orders the pairs in the same way (such as euclidean by sqeuclidean) changes no weight, and a model fitted with the one has the same local estimators, predictions, score, residuals and errors as a model fitted with the other. Other kernels, and fixed bandwidths, depend on more than the order.", "quantifier": "all matrices of non-negative distances of any size, all neighbour counts of either kind, all lists of dimensions, all pairs of measures that agree on the order of the observations, all local models, sampling rates and ways of running in parallel", "why_tests_cant": "a test compares two measures on a few points; that interpolated quantiles never separate two orderings needs an argument about all lists", "anchors": ["georegression/kernel.py:adaptive_bandwidth", "georegression/kernel.py:kernel_function", "georegression/weight_matrix.py:weight_matrix_from_distance", "georegression/weight_model.py:WeightModel.fit"]}
{"id": "C151", "title": "What the example scripts print and draw", "statement": "The scripts GWR_fit.py, STRF_fit.py and STST_fit.py run through exactly if the fit in them does, and then the score held by the fitted object and the r2_score computed again from its predictions are the same number; for the local models it is the R\u00b2 of predictions by models trained on the other observations with non-zero weight, with the coordinates as further predictors. In predict.py the score on the second sample does not depend on the fit that precedes it: predict_by_fit of a stacking model returns the same on any object with the same parameters, fitted or not, whatever the random state. The two alternatives mentioned there for a WeightModel are refused for a model constructed as in the scripts. The figures of stale.py show for each location the curve local_ALE(0) returns, exactly the other observations with positive weight, coloured by that weight, and the location itself; if one of the two fails, so does the other with the same error.", "quantifier": "all samples and second samples of any size, all regressors, weight functions, parameters, numbers of processors and random states", "why_tests_cant": "a run of the scripts shows one sample; that two computations agree for every sample and every regressor, and that an earlier fit has no influence whatever the state, cannot be seen from outputs", "anchors": ["Examples/GWR_fit.py", "Examples/STRF_fit.py", "Examples/STST_fit.py", "Examples/predict.py", "Examples/stale.py:draw_graph", "georegression/weight_model.py:WeightModel.local_ALE", "georegression/stacking_model.py:StackingWeightModel.predict_by_fit"]}
{"id": "C152", "title": "Places close to each other are treated alike, except with the boxcar kernel", "statement": "The adaptive bandwidths (by count or by fraction) of two locations differ by no more than the largest difference of their distances to a common target; under a metric that is at most the distance between the two. With any kernels but boxcar and fixed or adaptive bandwidths of at least b0 at both, the normalised weights two observations give to any target differ by at most (1+N)*dims*9/4*2*delta/b0, where delta is the largest distance between the two over the dimensions. predict_by_weight at two places with equal predictors then differs by at most N times the difference of the weights times the largest local prediction. With boxcar two places arbitrarily close to each other can give a target weight 0 and weight 1/3.", "quantifier": "all distance matrices obeying the triangle inequality, kernels, bandwidths, counts and fractions, numbers of dimensions and targets, local models and predictors", "why_tests_cant": "Continuity of a map on real matrices with a bound that holds for every size; a test compares one pair of places", "anchors": ["georegression/weight_matrix.py:weight_matrix_from_distance", "georegression/kernel.py:adaptive_bandwidth", "georegression/kernel.py:kernel_function", "georegression/weight_model.py:WeightModel.predict_by_weight"]}
{"id": "C153", "title": "What further observations change at a location", "statement": "With an integer neighbour_count, adding observations never enlarges the bandwidth of a location, and leaves it as it is exactly when fewer than neighbour_count observations, old and new, are nearer than it. Observations that are no nearer than the bandwidth in any dimension with a count, and beyond the bandwidth in some dimension whose kernel has bounded support, get weight zero at the location and leave its other weights exactly as they were after normalisation; a fit on the enlarged data gives the location the same local estimator and the same local prediction. With a fractional neighbour_count this fails: one far observation enlarges the bandwidth.", "quantifier": "all distance matrices, numbers of dimensions, kernels, bandwidths and integer counts, numbers of old and new observations, features, targets, learners, n_jobs and n_patches; no sampling of locations", "why_tests_cant": "Compares two fits on datasets of any two sizes; a test sees one dataset and one addition", "anchors": ["georegression/kernel.py:adaptive_bandwidth", "georegression/weight_matrix.py:weight_matrix_from_distance", "georegression/weight_model.py:WeightModel.fit"]}
{"id": "C154", "title": "Weights from several Gaussian dimensions are the weights of one combined distance", "statement": "When every dimension uses the Gaussian kernel with its own fixed bandwidth, the weight matrix is exactly the one obtained from a single distance matrix with one bandwidth, provided the square of that distance in units of its bandwidth is the sum of the squares of the separate distances in units of theirs; so weighting by each coordinate with one common bandwidth is weighting by Euclidean distance. For the exponential kernel the same holds with the sum of the scaled distances (city-block distance), and for the boxcar kernel with the largest scaled distance. For the kernels of bounded support it fails for Euclidean distance: two stations within the bandwidth in each coordinate but beyond it by Euclidean distance are neighbours in the first description and not in the second.", "quantifier": "all numbers of dimensions, all matrix sizes, all nonnegative distances and positive bandwidths", "why_tests_cant": "a test compares a few matrices in floating point and cannot say for which kernels the two descriptions of a neighbourhood agree for all distances", "anchors": ["georegression/weight_matrix.py:weight_matrix_from_distance", "georegression/kernel.py:kernel_function"]}
{"id": "C155", "title": "The regressor passed to a model is never touched, and every location has a regressor of its own", "statement": "WeightModel.fit and predict_by_fit, successful or not, in this process or with worker processes, leave every existing regressor object as it was: the one passed to the constructor and those kept from earlier fits of this or another model. After a successful fit local_estimator_list holds one new object per fitted location, no two locations sharing one (or only None without cache_estimator). All results depend on the regressor passed in only through what clone copies: it does not matter that it was fitted before, that it uses warm_start, or that several models share it; and workers make no difference. A model's predict_by_weight gives the same after any sequence of later calls on other models, and a fit later on is the fit it would have been at once.", "quantifier": "all classes of regressors (fit may use the object's former state, may change it in any way and may raise after doing so), all data, weights as ndarray or CSR, n_jobs and n_patches, with and without workers, all sequences of later calls, all random generators with sample_local_rate between 0 and 1", "why_tests_cant": "Aliasing and leftover state show only in particular orders of calls, with particular regressors and joblib backends; a test with a stateless regressor passes even if one object were shared by all locations.", "anchors": ["georegression/weight_model.py:WeightModel.fit", "georegression/weight_model.py:WeightModel.predict_by_fit", "georegression/weight_model.py:WeightModel.predict_by_weight", "georegression/weight_model.py:fit_local_estimator", "georegression/weight_model.py:_fit"]}
{"id": "C156", "title": "Stacking fits share base regressors within a fit and never across fits", "statement": "StackingWeightModel.fit and predict_by_fit, successful or not, leave every existing regressor object as it was. After a successful call base_estimator_list holds one new object per location, no two the same, and the stacking estimators of all locations refer to these very objects (neighbouring locations share them). The results are those of a regressor that is a function of its data: neither former fits of the regressor passed in nor workers matter. Although predict_by_fit and a second fit replace the lists of the model, stacking estimators taken from the model before go on predicting what they predicted, after any sequence of calls on models of either kind.", "quantifier": "all classes of regressors with state, all data, weights as ndarray or CSR, numba or not, all parameters and random generators, with and without workers, all sequences of later calls on WeightModel and StackingWeightModel objects", "why_tests_cant": "What is shared between estimators and what survives a refit is invisible in any single result; it would take all orders of calls with regressors that keep state.", "anchors": ["georegression/stacking_model.py:StackingWeightModel.fit", "georegression/stacking_model.py:StackingWeightModel.predict_by_fit", "georegression/stacking_model.py:_fit", "georegression/stacking_model.py:_fit_local_estimator", "georegression/stacking_model.py:StackingEstimator"]}
{"id": "C157", "title": "What the scenario functions of the experiment scripts do", "statement": "In simulation_for_robust.py every scenario function except square_strong_1000 and square_strong_5000 raises TypeError after it has made its sample: its call of fit_models lacks the three arguments of the second sample, so nothing is fitted and no record is written; the two others hand both samples, all their numbers and their remarks to the comparison. Every scenario of simulation_for_fitting.py, simulation_for_data_size.py and simulation_for_STST_variation.py binds, with no default used; called with samples only, the comparisons run with 3 % neighbours, a leave-out rate of 0.15, 50 and 2000 trees and no remarks. A scenario of simulation_for_fitting.py adds exactly one record to simulation_result.jsonl, carrying its remarks f, coef and count whatever the models measured, or fails and writes nothing. The remarks name the response function and the coefficient that made the sample, except those of interact_ale, which are those of square_2_gau_strong_weak_5000; records of any other two scenarios can be told apart by their remarks. simulation_for_data_size.py and test_llocv write their records in a fixed order, each with its labels, and a failure leaves exactly the records of the rounds before it.", "quantifier": "all scenario functions, all ways of making samples and of drawing further features (including failing ones), all models and scores, all states of the generator and contents of the files", "why_tests_cant": "The scripts take hours to run and are not tested; which calls bind, what the labels say and what remains after a failure must hold for any outcome of the fits.", "anchors": ["georegression/simulation/simulation_for_robust.py:square_gau_strong_100", "georegression/simulation/simulation_for_robust.py:square_strong_1000", "georegression/simulation/simulation_for_fitting.py:interact_ale", "georegression/simulation/simulation_for_fitting.py:test_llocv", "georegression/simulation/simulation_for_data_size.py:square_gau_strong_100", "georegression/simulation/simulation_for_STST_variation.py:square_gau_strong_100"]}
{"id": "C158", "title": "The joblib backend does not matter, threads with any interleaving included", "statement": "WeightModel.fit and predict_by_fit and StackingWeightModel.fit and predict_by_fit return, raise and store the same whichever backend joblib uses: batches one after the other in this process, batches on copies in worker processes, or batches in threads of this process whose steps (parts of a fit, the reading of a prediction) alternate in any order. With threads the objects in memory after a successful call are those a serial run leaves, and objects that belong to no task are untouched even if the call fails. This rests on every task having its own clone: with one object shared by all tasks the order of the steps decides about the results.", "quantifier": "all regressors with a state (including partial changes before an exception), all schedules of all threads, all batches, parameters, data and earlier states of the model", "why_tests_cant": "A test runs a few of the interleavings a scheduler happens to produce; data races show up under others.", "anchors": ["georegression/weight_model.py:_fit", "georegression/weight_model.py:fit_local_estimator", "georegression/weight_model.py:WeightModel.fit", "georegression/weight_model.py:WeightModel.predict_by_fit", "georegression/stacking_model.py:StackingWeightModel.fit", "georegression/stacking_model.py:StackingWeightModel.predict_by_fit"]}
{"id": "C159", "title": "Missing and infinite coordinates", "statement": "Coordinates are not checked: WeightModel checks X and y only. A distance that is NaN counts as distance zero, whatever the kernel and the bandwidth, and a NaN bandwidth makes every weight one; a distance of +inf has weight zero for every kernel except uniform. Weights stay between zero and one, finite, and rows that have any weight sum to one, so neither an exception nor a NaN reveals a missing coordinate. With fixed bandwidths the result is exactly that of the same call with zeros for the NaN distances, so an observation without coordinates is among the heaviest neighbours of every place, and a place without coordinates weights all observations alike. With a whole neighbour_count k the NaN observations come on top of the k nearest, and if fewer than k distances of a row are present the row is uniform. With a fractional neighbour_count one observation with a missing coordinate makes every weight of every row 1/n (the quantile is NaN): such a dimension has no effect at all next to others, and alone it turns WeightModel.fit with leave_local_out into n leave-one-out fits on equal weights, ignoring location altogether. At a new place without coordinates predict_by_weight returns the plain mean of all local models. Euclidean and cityblock distances pass NaN on; an infinite coordinate is infinitely far from the finite places but at distance NaN, hence zero, from itself. Without missing values the extended model is the same program as the model used for all the other properties.", "quantifier": "all kernels, bandwidths, neighbour counts, numbers of dimensions, dense and dask matrices, numbers and positions of missing values; for the fit: all regressors, data and sample rates", "why_tests_cant": "Tests use complete data; the library never raises here, so wrong weights show up only as slightly worse predictions.", "anchors": ["georegression/kernel.py:kernel_function", "georegression/kernel.py:adaptive_bandwidth", "georegression/weight_matrix.py:weight_matrix_from_distance", "georegression/weight_matrix.py:weight_matrix_from_points", "georegression/distance_utils.py:_distance_matrix", "georegression/weight_model.py:fit"]}
{"id": "C160", "title": "How far the predictions move when the targets move", "statement": "If the regressor follows its targets (on the same rows and weights, moving every target by an amount between lo and hi moves every prediction by an amount between lo and hi: means, nearest neighbours, trees of fixed shape), so do the models. Between two fits that differ in the targets only, the local prediction at a location, and everything its stored model predicts later, moves by an amount between any bounds for the changes of the targets of the observations the location is trained on (its own target is not among them with leave_local_out); hence no prediction falls when targets rise, and none moves further than the targets of its neighbours. Residuals move by at most twice the largest change. predict_by_fit and predict_by_weight have the same bounds (places out of reach are zero before and after). Such a regressor that reproduces constants never leaves the range of its targets; ridge regression, the meta estimator of the stacking model, does not follow its targets whatever the penalty.", "quantifier": "all such regressors, data, weights (coordinates, ndarrays, canonical CSR arrays), pairs of targets, earlier states, numbers of jobs and patches, sampled locations, bounds", "why_tests_cant": "A test moves particular targets by particular amounts; the bounds hold for all changes at once and for all locations.", "anchors": ["georegression/weight_model.py:fit", "georegression/weight_model.py:predict_by_fit", "georegression/weight_model.py:predict_by_weight", "georegression/weight_model.py:fit_local_estimator"]}
{"id": "C161", "title": "With the weighted mean as regressor the model is a kernel smoother", "statement": "With fixed bandwidths every row of the weight matrix is, up to one positive factor, the product over the dimensions of the published kernels of distance over bandwidth. With a regressor that predicts the weighted mean of its targets (scikit-learn's DummyRegressor) the local predictions of WeightModel.fit are therefore the Nadaraya-Watson estimates, without the observation itself if leave_local_out is set. At new places predict_by_fit gives the Nadaraya-Watson estimate if it is handed the weight matrix from the new places to the training places; with coordinates alone it does not: each observation counts in proportion to its kernel divided by the sum of its kernels over all the places asked about. predict_by_weight smooths twice: it is the weighted mean of the estimates at the fitted locations.", "quantifier": "all kernels, bandwidths, numbers of dimensions, data, weights (ndarrays or canonical CSR arrays), places, sampled or not, numbers of jobs", "why_tests_cant": "Whether three prediction methods are the textbook estimator is a matter of formulas for all data, not of sample values.", "anchors": ["georegression/kernel.py:kernel_function", "georegression/weight_matrix.py:weight_matrix_from_distance", "georegression/weight_model.py:fit", "georegression/weight_model.py:predict_by_fit", "georegression/weight_model.py:predict_by_weight"]}
{"id": "C162", "title": "Writing every observation several times changes nothing, with three exceptions", "statement": "Fit a model once on n observations and once on the same observations written m times (coordinates, features and targets tiled), with the same bandwidths or with integer neighbour counts multiplied by m, and without leave_local_out. Each weight is shared evenly among the copies (w/m each). With a regressor that is determined by weighted totals of its training data (any unique minimiser of a weighted loss with or without a penalty, weighted means included) every copy has the same local model and local prediction as the observation, and predict_by_weight returns the same numbers at new places; so does predict_by_fit with weights of new places passed in. predict_by_fit with coordinates needs the unchanged neighbour_count (it counts new places) and a regressor that does not mind a common factor of the weights, i.e. no penalty, because every copy then has the full weight. It is not so with leave_local_out (the other copies stay in), with a fraction as neighbour_count (the bandwidth moves), or when an integer count is not multiplied.", "quantifier": "all data sets, numbers of copies, metrics, kernels, fixed bandwidths and integer neighbour counts in any number of dimensions, all regressors determined by weighted totals, all new places", "why_tests_cant": "a test tries one data set with one number of copies; that copies share the weight exactly and that the k-th nearest becomes the m\u00b7k-th holds for all of them only by counting, and the exceptions depend on which way a prediction is asked for", "anchors": ["georegression/kernel.py:adaptive_bandwidth", "georegression/weight_matrix.py:weight_matrix_from_distance", "georegression/weight_model.py:WeightModel.fit", "georegression/weight_model.py:WeightModel.predict_by_weight", "georegression/weight_model.py:WeightModel.predict_by_fit"]}
{"id": "C163", "title": "The local-ALE figures of the simulation scripts", "statement": "draw_graph of simulation_for_ale.py saves one figure per location, in order, for as long as the local curves exist: it finishes exactly if local_ALE(0) of the fitted model does, the curves are those of local_ALE(0) moved to start at the mean prediction for the smallest feature value of the neighbours, and otherwise it ends with the same error after saving the figures before the first location without a curve. In each figure both curves run from the smallest to the largest feature value of the neighbours; the second one uses all observations in that range with equal weights and exists whenever the first does; the line of the true effect is beta*mean*x over that range. draw_graph of simulation_data_fitting.py shows the same figures and then always raises (AttributeError once the importances are computed), because a WeightModel has no stacking_predict_: residual.png and ale_global.png are never written.", "quantifier": "all learners, weight functions, samples with two features, random draws and constructor arguments", "why_tests_cant": "the figures exist only after fitting thousands of local models; that no input makes the second script finish, and that the second curve never fails on its own, quantify over all samples", "anchors": ["georegression/simulation/simulation_for_ale.py:draw_graph", "georegression/simulation/simulation_data_fitting.py:draw_graph", "georegression/local_ale.py:weighted_ale", "georegression/visualize/ale.py:plot_ale"]}
{"id": "C164", "title": "With least squares as regressor the model is geographically weighted regression", "statement": "With LinearRegression as regressor (any weighted least-squares fit with an intercept, whichever minimiser it takes) the model fitted at a location solves the normal equations of the regression whose weights are the published kernels of distance over bandwidth, multiplied over the dimensions, where the bandwidth is the fixed one, the distance of the k-th nearest observation or the quantile of the distances; the observation itself has weight zero if leave_local_out is set. The scaling of the weights to row sums of one does not matter. local_predict_ is the value of any solution of these equations at the location whenever its features are an affine combination of those of observations that count. predict_by_fit is geographically weighted regression at the new place if it is handed the weight matrix from the new places to the training places; with coordinates alone the weight of an observation is its kernel divided by the sum of its kernels over all places asked about. predict_by_weight averages the coefficients of the regressions at the fitted locations with the weights of the new place.", "quantifier": "all data, numbers of features, kernels, bandwidths and neighbour counts in any number of dimensions, all least-squares regressors, sampled or not, all new places", "why_tests_cant": "That the estimates are those of the textbook method is a statement about minimisers for all data; a test compares numbers on one data set.", "anchors": ["Examples/GWR_fit.py:model", "georegression/weight_model.py:fit", "georegression/weight_model.py:predict_by_fit", "georegression/weight_model.py:predict_by_weight", "georegression/weight_matrix.py:weight_matrix_from_distance", "georegression/kernel.py:adaptive_bandwidth"]}
{"id": "C165", "title": "Keeping the local observation can only flatter the fit", "statement": "Fit a weight model once with leave_local_out and once without, everything else the same. With a regressor that minimises a weighted loss plus a penalty over a class of models (least squares, ridge, lasso, means, quantiles) the loss of the local prediction at every location is at most as large without leave_local_out as with it, and for squared errors llocv_score_ with leave_local_out is never above the score without. For means and least squares the residuals are proportional: residual without = (1 - h) * residual with, where h is the own weight of the location in its normalised row (means) or, for least squares, the value at the location of the local regression of the target that is one there and zero elsewhere, a number between 0 and 1. Without the assumption on the regressor this fails: twice the weighted mean can score better with leave_local_out.", "quantifier": "all regressors minimising a penalised weighted loss, all losses and penalties, data, non-negative own weights (coordinates, ndarrays, canonical CSR arrays), sampled or not, numbers of jobs", "why_tests_cant": "An inequality between two fits for all data sets and all losses cannot be sampled; a test sees it on one data set.", "anchors": ["georegression/weight_model.py:fit", "georegression/weight_model.py:fit_local_estimator"]}
{"id": "C166", "title": "What the stacked model of a location is at least as good as", "statement": "On the neighbours it is fitted on, the stacked model of a location is never worse than its competitors by more than the penalty allows. After a successful fit of StackingWeightModel with any solver that does what ridge regression promises, the weighted squared error of the stored estimator of a location over the neighbours it is stacked on, plus alpha times the sum of its squared coefficients, is at most that of every combination of the base estimators left out for the location with every intercept. So that error is at most the error of each of those base estimators (the location's own among them) shifted by any constant, plus alpha; at most the error of their plain average shifted by any constant, plus alpha divided by their number; and at most the error of any constant, in particular the weighted local mean. Nothing of the kind is claimed for the location itself, which the meta estimator does not see.", "quantifier": "every data set, weight matrix, base regressor, random generator, non-negative penalty, combination, and location of a successful fit (dense, or sparse as for C50)", "why_tests_cant": "The comparison is with infinitely many combinations, for all data and all base regressors; a test compares with a few.", "anchors": ["georegression/stacking_model.py:StackingWeightModel.fit", "georegression/stacking_model.py:StackingEstimator.predict", "georegression/numba_impl.py:ridge_cholesky"]}
{"id": "C167", "title": "Which calls of regressor.fit a fit makes", "statement": "Fitting calls the fit method of the regressor exactly as often as it has to and with exactly the data it should. With n_jobs unset and one patch, a regressor that records the calls of its fit method ends up, after a successful fit of WeightModel, with exactly one call for each local location, in their order: the observations of non-zero weight (not the location's own under leave_local_out), their targets and their weights; without location sampling that is one call per observation, and all calls together pass as many rows as there are such non-zero weights. After a successful fit of StackingWeightModel there is exactly one call per observation, with the same data less the observations the base estimator is left out for, so no call is larger than the one WeightModel makes. A fit that fails has made at most one call per location, and recording changes nothing else about the outcome, the object, the caller's matrix or the random generator.", "quantifier": "every data set, weight matrix (dense, or CSR in canonical form), parameters with n_jobs unset and one patch, regressor, random generator and earlier state of the object", "why_tests_cant": "A test with a mock counts the calls for one data set; the claim is for all weights, all regressors and failing fits too.", "anchors": ["georegression/weight_model.py:WeightModel.fit", "georegression/weight_model.py:fit_local_estimator", "georegression/stacking_model.py:StackingWeightModel.fit", "georegression/stacking_model.py:_fit_local_estimator"]}
{"id": "C168", "title": "What very small and very large bandwidths do to predictions", "statement": "With the weighted mean as regressor and Gaussian (or exponential) kernels with fixed bandwidths in all dimensions, multiply all bandwidths by the same factor. For every tolerance there is a factor below which every local prediction is within the tolerance of the plain mean of the targets of the nearest observations (the nearest others, with leave_local_out; nearest in the sum over the dimensions of the squared distances in bandwidths, for the exponential kernel of the distances in bandwidths), and every prediction by predict_by_fit with weights from the new places is within the tolerance of the mean over the nearest training observations. There is a factor above which every local prediction is within the tolerance of the plain mean of all (other) targets. The factors depend on the distances, the targets and the tolerance only, not on features, states, random generators or jobs. This is about exact real arithmetic.", "quantifier": "all lists of dimensions with non-negative distances and positive bandwidths, all numbers of observations, targets, tolerances, and all features, parameters, states, generators, and numbers of jobs (with jobs in patches or without sampled locations) for which the fit succeeds", "why_tests_cant": "A limit is about all sufficiently small factors; a test sees some factors, and in floating point the weights of far observations underflow before the limit is visible.", "anchors": ["georegression/kernel.py:kernel_function", "georegression/weight_matrix.py:weight_matrix_from_distance", "georegression/weight_model.py:WeightModel.fit", "georegression/weight_model.py:WeightModel.predict_by_fit"]}
{"id": "C169", "title": "What may be passed as features, targets and points", "statement": "WeightModel.fit takes features as a two-dimensional array or a data frame and targets as a list, an array or a single column, and the form makes no difference; everything else is refused before anything happens: the object, the caller's weight matrix and the random generator stay as they were. Lists of lists raise AttributeError (the log line reads X.shape), sparse features TypeError; missing values or infinities among features or targets, no targets, several columns of targets, features with one or more than two dimensions, and different lengths raise ValueError. StackingWeightModel.fit takes lists of lists, too. predict_by_fit does not check its points: lists of lists and data frames raise once there is something to predict, and a one-dimensional array, which fit refuses, is silently taken as points with one feature. predict_by_weight takes arrays, data frames and lists of lists alike and raises for a one-dimensional array.", "quantifier": "all numeric tables and targets in these forms, with missing values and infinities anywhere, all sizes, states, parameters, regressors, generators", "why_tests_cant": "The combinations of forms, sizes and positions of missing values are unbounded, and that nothing has happened to the object concerns all its past states.", "anchors": ["georegression/weight_model.py:WeightModel.fit", "georegression/weight_model.py:WeightModel.log_before_fitting", "georegression/weight_model.py:WeightModel.predict_by_fit", "georegression/weight_model.py:WeightModel.predict_by_weight", "georegression/stacking_model.py:StackingWeightModel.fit"]}
{"id": "C170", "title": "A fitted model shares arrays with the caller", "statement": "Numeric arrays passed to WeightModel.fit are kept, not copied. Right after the fit this cannot be seen. When the caller later writes into its arrays of features, targets or coordinates, predict_by_fit of a model with cache_data uses the new contents: its predictions are those of a model fitted to them. The stored regressors, local predictions, scores, residuals, sampled locations and predict_by_weight with given weights (or with unchanged training coordinates) are not affected, and neither is a new model whose data had to be converted (for example lists of targets). Two models fitted with the same weight matrix share it: fitting the second with leave_local_out removes the diagonal from weight_matrix_ of the first.", "quantifier": "all contents of the caller's arrays at the time of the fit and at any later time, all states, parameters, regressors, generators, and all second models", "why_tests_cant": "Tests use an array once; what happens when it is changed later is a statement about all later contents and all later calls.", "anchors": ["georegression/weight_model.py:WeightModel.fit", "georegression/weight_model.py:WeightModel.predict_by_fit", "georegression/weight_model.py:WeightModel.predict_by_weight"]}
{"id": "C171", "title": "Stacking: observations out of reach matter if they are written before, not if they are written after", "statement": "Let the first m observations be out of reach of all others (as in C144: beyond a fixed bandwidth of a kernel of bounded support, or farther than neighbour_count of their own). If StackingWeightModel.fit on coordinates or on an ndarray of weights succeeds on all observations (ridge or any meta regressor that takes every non-empty table), it succeeds on the first m alone, and their base estimators, stacked estimators and stacked predictions (with a positive own weight after meta_fitting_shrink_rate) are the same, with both shrink rates or without: observations may be appended, changed or removed at the end without any effect. Observations written before the group change the neighbours drawn for it and with them its predictions, although no weight connects them: the order of the observations matters to stacking.", "quantifier": "all data, weights, numbers of observations, base regressors, meta regressors, generators, rates and shrink rates, all earlier states", "why_tests_cant": "Concerns pairs of fits on data of different size for all data out of reach.", "anchors": ["georegression/stacking_model.py:StackingWeightModel.fit", "georegression/neighbour_utils.py:sample_neighbour", "georegression/neighbour_utils.py:neighbour_shrink"]}
{"id": "C172", "title": "Predictions keep the shape of the local regressors in the features, stacked ones need not", "statement": "Predicting by weight at given places, every linear comparison of predictions for several feature tables (monotone, convex, slowly varying) that holds for every stored regressor holds for the model wherever a training location is in range, and all predictions are zero where none is. predict_by_fit answers row by row with regressors that depend on the places and training data only, not on the new features. A stacked regressor with a ridge meta regressor is affine if its base regressors are, but its direction is not theirs: if all base regressors are one function h of the features up to constants, it is slope*h up to a constant, with slope*(alpha + n*var) = n*cov, where var and cov are the weighted variance of h and its covariance with the targets among the neighbours. So base regressors that all grow with a feature can give stacked regressors that all fall with it.", "quantifier": "all regressors, training data, weights from coordinates, places, feature tables and linear comparisons; for stacking all penalties, rates, draws and parallel base regressors", "why_tests_cant": "A test fixes one regressor and a few points; shape holds for all feature tables at once, and the direction of a stacked regressor depends on a covariance no test varies.", "anchors": ["georegression/weight_model.py:WeightModel.predict_by_weight", "georegression/weight_model.py:WeightModel.predict_by_fit", "georegression/stacking_model.py:StackingEstimator.predict", "georegression/stacking_model.py:StackingWeightModel.fit"]}
{"id": "C173", "title": "Leaving out neighbours costs a fixed number of training rows and can leave a base regressor none", "statement": "Let StackingWeightModel be fitted with a local regressor that refuses an empty training set. In a fit that succeeds, where neighbours are mutual, the training rows of all base estimators together are exactly those of all neighbourhoods minus min(n, max(1, ceil(n * neighbour_leave_out_rate))) for every location with n other neighbours, whatever is drawn. The fit always raises, whatever is drawn and however the weights are given, if all neighbours of some location draw all their own neighbours including it: with a rate of one or more whenever the neighbours of some location count it as a neighbour (so always with coordinates and fixed bandwidths), and at every rate if two locations have only each other. Otherwise it depends on luck: with a regressor that takes every non-empty training set, the fit succeeds for every random generator if and only if every location has a neighbour of which it is not itself a neighbour; so where neighbours are mutual no rate is safe.", "quantifier": "all leave-out rates, numbers of locations, weights (ndarray or CSR for the counts and the failures, ndarray for the equivalence), shrink rates, regressors and random generators", "why_tests_cant": "A test sees the draws of one generator, with which a fit may succeed although the next seed or one more location makes it raise; the equivalence ranges over all generators and all neighbourhoods.", "anchors": ["georegression/neighbour_utils.py:sample_neighbour", "georegression/stacking_model.py:StackingWeightModel.fit", "georegression/weight_model.py:WeightModel.fit"]}
{"id": "C174", "title": "How the kernels compare, and what a wider kernel does to the weights", "statement": "Among the seven kernels exactly these comparisons hold at every distance and bandwidth (the first never gives more weight than the second, before normalisation): linear below boxcar, gaussian, exponential and uniform; bisquare below boxcar, gaussian and uniform; tricube below boxcar and uniform; boxcar, gaussian and exponential below uniform; and each kernel with itself. No other pair is ordered: for each there is a distance where the first gives more. When in every dimension the kernel is replaced by one that is at least as wide, with the same distances, bandwidths and neighbour counts, every location with weight keeps weight; the weight a point gives to itself does not grow; and each other weight, relative to the weight of the point itself, does not shrink.", "quantifier": "All pairs of kernels, all non-negative distances and bandwidths (zero included), both kernel implementations; for the weights all lists of distance matrices, fixed bandwidths or neighbour counts and all replacements of the kernels in any of the dimensions; real arithmetic", "why_tests_cant": "That one kernel is below another is an inequality over all distances, and that a pair is not ordered has to be known for all thirty other pairs; sample distances show neither", "anchors": ["georegression/kernel.py:kernel_function", "georegression/weight_matrix.py:weight_matrix_from_distance", "georegression/weight_matrix.py:weight_by_distance"]}
{"id": "C175", "title": "R\u00b2 scores in floating point: at most one, one for perfect predictions, but unreliable for constant targets", "statement": "Both R\u00b2 scores (scikit-learn's, behind llocv_score_ and llocv_stacking_, and the one in numba_impl) computed in floating point, with the sums in any order: a score is at most 1 (or minus infinity), and NaN only if the mean of the targets is NaN or both sums of squares overflow. Perfect predictions score exactly 1. If every prediction is at least as close to its target neither score is lower, provided the squared deviations of the targets do not overflow; if they do and the squared residuals do not, the score is exactly 1 whatever the predictions. The special treatment of constant targets works if and only if the square of the rounded difference between the target and its rounded mean is zero: always when the multiples of the target are floats (integers), so that the scores are 1 (numba_impl) and 1 or 0 (scikit-learn); but not for three targets of 0.1 in double precision, where predictions off by 1/1024 in one place score below -10^27.", "quantifier": "All lists of finite targets and predictions, all monotone roundings (IEEE formats with rounding to nearest for the comparison of predictions), all orders of summation (with the same brackets for the comparison of predictions)", "why_tests_cant": "The claims are about every rounding and every order of summation; a test with the usual example values, for which the mean of a constant target happens to be exact, does not see the failing guard", "anchors": ["georegression/numba_impl.py:r2_score", "georegression/weight_model.py:WeightModel.fit", "georegression/stacking_model.py:StackingWeightModel.fit"]}
{"id": "C176", "title": "How many items a rate asks for in floating point", "statement": "The numbers computed from sample_local_rate, neighbour_leave_out_rate, estimator_sample_rate, a fraction of neighbours in a dask bandwidth and a fraction of lines in a plot are rounded down or up after a multiplication of floats. Whatever the rounding, a rate from 0 to 1 never asks for more items than there are, rate 1 asks for all, rate 0 for none, a larger rate never for fewer, and at least one and at most all neighbours are left out. The number differs by at most one from the one computed with exact numbers; where rate times number is an integer, rounding down gives it or one less and rounding up gives it or one more, and rates that are binary fractions give it exactly. The difference occurs: a rate of 0.29 of 100 observations draws 28 locations, and leave-out rates of 0.07 and 0.55 leave out 8 and 56 of 100 neighbours.", "quantifier": "All rates from 0 to 1, all numbers of items up to 2^51 (double precision; other binary formats accordingly)", "why_tests_cant": "Which decimal rates are off depends on the pair of rate and number; that the error never exceeds one and never asks for too many is a statement about all of them", "anchors": ["georegression/weight_model.py:WeightModel.fit", "georegression/neighbour_utils.py:sample_neighbour", "georegression/kernel.py:adaptive_bandwidth", "georegression/stacking_model.py:StackingWeightModel.fit", "georegression/visualize/pd.py:sample_partial"]}
{"id": "C177", "title": "Shrinking a neighbourhood in floating point can lose every neighbour", "statement": "Shrinking sets to zero the weights of a row below the quantile at the shrink rate, which in exact arithmetic always keeps the strongest. With the quantile that numba compiles, each operation rounded: the strongest weight survives when the row has one neighbour, when the rate is 0 or 1, when the rank is a whole number, at the default rate of 1/2 unless weights are subnormal, and at every rate when it exceeds the next ranked weight by the relative error of three roundings. With ties at the top it need not: 25 equal weights of 1/25 shrunk at the rate 0.7 in double precision are all set to zero, and so are two equal subnormal weights at the rate 1/2.", "quantifier": "all rows of floating point weights in (0, 1], all shrink rates, all binary formats; witnesses in double precision", "why_tests_cant": "whether the threshold rounds up past the largest weight depends on the exact weight, rate and number of neighbours; a few examples all look fine", "anchors": ["georegression/neighbour_utils.py:neighbour_shrink", "georegression/neighbour_utils.py:_neighbour_shrink", "georegression/neighbour_utils.py:_neighbour_shrink_sparse"]}
{"id": "C178", "title": "Great-circle distances in floating point", "statement": "With every operation rounded and a mathematical library whose functions have the symmetry and range of the true ones: the computed great-circle distance is symmetric to the last bit and zero from a point to itself, and between points of latitude in [-90,90] it is never negative and never above the computed half circumference. It is a number, not NaN, as long as the haversine argument does not come out beyond the float after 1, which the square root forgives, and it is NaN if the argument comes out at the second float after 1 or later; so it is a number for all points that are not nearly antipodal, nearly meaning within the error of the sines and cosines plus two roundings.", "quantifier": "all pairs of points, all binary formats, all mathematical libraries with the stated symmetry, range and error", "why_tests_cant": "rounding errors depend on the points and on the mathematical library installed; a NaN would appear for single antipodal pairs only", "anchors": ["georegression/distance_utils.py:great_circle_distance"]}
{"id": "C179", "title": "Fractions of neighbours and quantile grids in floating point", "statement": "numpy's quantile, which gives the bandwidth for a fractional neighbour_count and the grid of an effect curve, computed in floating point: it lies between the two values on either side of the computed index and equals them when they are tied, so it never leaves the range of the values, at least index + 1 points are within reach of the bandwidth and at most as many are strictly nearer; the ends of a grid are exactly the smallest and largest value, so every observation is covered. The computed index is less than one off, so the number of points within reach is at most one off; and one off it can be: 33 points at distances 0 to 32 and the fraction 0.29 leave nine within reach where exact arithmetic has ten.", "quantifier": "all lists of floating point values, all fractions in [0,1], single precision values in double precision calculations included; for the index up to 2^(frac-4) points", "why_tests_cant": "interpolation and index are rounded differently for every number of points and fraction; the off-by-one cases are rare", "anchors": ["georegression/kernel.py:adaptive_bandwidth", "georegression/ale_utils.py:get_quantiles"]}
{"id": "C180", "title": "The grid of an effect curve in floating point", "statement": "With the percentiles, the quantiles and the search for their number computed in floating point, adaptive_grid on at least three finite values, more than min_bin_points of them, still returns: the percentiles never leave 0 to 100; the grid increases strictly from exactly the smallest to exactly the largest value; every value lies in exactly one interval; and every interval holds more than min_bin_points values.", "quantifier": "all lists of floating point values of length up to 2^frac, all min_bin_points, all binary formats with at least 7 significant bits and a normal 2^-frac", "why_tests_cant": "a percentile rounded above 100 or a grid point rounded outside the data would make a rare data set fail or lose an observation", "anchors": ["georegression/ale_utils.py:adaptive_grid", "georegression/ale_utils.py:get_quantiles", "georegression/ale_utils.py:minimum_satisfied"]}
{"id": "C181", "title": "Moran's I of a constant or negated variable in floating point", "statement": "STMI, spatiotemporal_MI and spatiotemporal_LMI recognise a constant variable (NaN, as in exact arithmetic) when its multiples up to the number of observations are floats, whatever the weights: any integer of reasonable size. For other constants they may not: for three observations of 0.1 that are all neighbours of each other both I are exactly 1 and so is every local value. In no case is a statistic of a constant variable negative when the weights are not. Negating the variable changes neither I nor any local value, not even in the last digit.", "quantifier": "all float arithmetics (IEEE formats in particular) and orders of summation, all constants, numbers of observations and weights; the failure is a witness in double precision", "why_tests_cant": "All constants, sizes, weights and orders of summation; which constants survive rounding is not visible from any sample.", "anchors": ["georegression/spatial_temporal_moran.py:spatiotemporal_MI", "georegression/spatial_temporal_moran.py:STMI", "georegression/spatial_temporal_moran.py:spatiotemporal_LMI"]}
{"id": "C182", "title": "Effect curves in floating point", "statement": "In IEEE arithmetic (any format, rounding to nearest even, any order of summation inside an average) weighted_ale gives an exactly flat curve for a feature the predictor ignores, exactly zero with normalize=True, and global_ALE an exactly zero curve for a feature that no local model uses; for a predictor (or local models) that never fall in the feature no value of the curve exceeds the next one (unless one of the two is NaN from overflow, which a finite last value rules out). Additive effects are recovered up to rounding only: with equal weights the curve of a single step of 0.1 ends one unit in the last place below 0.1.", "quantifier": "all features, predictors, non-negative weights, settings of normalize and min_bin_points, IEEE formats and orders of summation", "why_tests_cant": "Sums of many rounded differences depend on the data, on the format and on the order of summation; a test sees a few curves within a tolerance.", "anchors": ["georegression/local_ale.py:weighted_ale", "georegression/weight_model.py:WeightModel.local_ALE", "georegression/weight_model.py:WeightModel.global_ALE"]}
{"id": "C183", "title": "Permutation importance in floating point", "statement": "In IEEE arithmetic (any format and order of summation) a feature without effect on the local models has importance exactly 0, locally for all weights and globally in the first call after the fit of a weight model, unless the score has overflowed; all features without effect have exactly the same global importance whatever score is stored. A model with score 1 has no negative importance. If the stored score is not that of the stored estimators, as after a stacking fit, the importance of a feature without effect depends on n_repeats although all repetitions give the same decrease: with score 0.2 and perfect predictions it is -0.8 for n_repeats=1 and one unit in the last place less for n_repeats=3.", "quantifier": "all fitted models, regressors, generators, numbers of repetitions, non-negative weights, IEEE formats and orders of summation", "why_tests_cant": "Exact zeros in rounded arithmetic for all models and draws; a test compares a few scores with a tolerance.", "anchors": ["georegression/weight_model.py:WeightModel.importance_score_global", "georegression/weight_model.py:WeightModel.importance_score_local", "georegression/weight_model.py:local_importance"]}
{"id": "C184", "title": "What floating point does to partial dependence curves and to weighted predictions", "statement": "Partial dependence curves average the predictions of a local model over the observations, with weights, in floating point. The curve of a feature that the local model does not use consists of one and the same number: rounding does not make it wiggle. If the prediction never falls when the feature grows and no weight is negative, the rounded curve never falls: the value at a larger grid point is not smaller, unless one of the two is NaN. With non-negative predictions no value is negative. The same holds for the function of the module local_pd, which drops observations without weight first. The flat value need not be one that the model predicts: with the constant prediction 0.1 and weights 0.1, 0.1, 0.5 the curves show the next larger number. A prediction by weight does not fall either if no local prediction does and the weights are the same. Without rounding the curves are those of C67.", "quantifier": "all tables, predictors, weights, features and grids; all roundings that are monotone and keep 0 and 1; for the monotonicity all orders of summation that depend on the number of summands only", "why_tests_cant": "A test sees a few curves at a few values; that no rounding error can ever make a monotone curve fall needs all orders of summation and all magnitudes, including overflow.", "anchors": ["georegression/weight_model.py:local_partial_dependence", "georegression/local_pd.py:local_partial_dependence", "georegression/weight_model.py:WeightModel.predict_by_weight"]}
{"id": "C185", "title": "The order in which sums are added up, and what observations without weight do to it", "statement": "Row sums, means and weighted predictions are added up in numpy's order for contiguous rows. Every summand is added exactly once and the brackets depend on the number of summands only, so what is shown for rounded scores, curves, importances, Moran statistics and predictions under these assumptions holds for this order. No summand goes through more than 25 additions, plus one for every doubling of the length beyond 128, so the error of a weighted prediction grows with the logarithm of the number of training observations only: in double precision a prediction by weight leaves the range of the local predictions by at most (5k + 131) / 2^53 of their size for up to 15 + 113 * 2^k observations, about 2.3e-14 for a million. With fewer than eight training observations, those without weight do not change a prediction at all. With eight they can: seven observations predicting 1 with weight 0.1 give 0.7, and an eighth one out of reach raises the prediction by one unit in the last place. The same goes for the weights themselves: with fewer than eight training observations, those out of reach of a location get weight zero and leave its other weights exactly as they are, whereas with a linear kernel of bandwidth 3 seven observations at distance 1 all gain one unit in the last place as soon as there is an eighth at distance 4.", "quantifier": "all rows of floats of any length; all weights and local predictions; all monotone roundings, for the error bound with a relative and an absolute error", "why_tests_cant": "Tests compare with tolerances and use a few lengths; the bound needs every length, and that a training observation without weight can change the last bit shows only at particular lengths and values.", "anchors": ["georegression/weight_matrix.py:weight_matrix_from_distance", "georegression/weight_model.py:WeightModel.predict_by_weight", "georegression/local_ale.py:weighted_ale"]}
{"id": "C186", "title": "What the order of the training observations does to weights and predictions in floating point", "statement": "Without rounding, a prediction by weight does not depend on the order of the training observations, and their weights move along with them. In floating point the weights of a row change by the rounding of the row sum and of the division only: in double precision and with up to a million observations no weight changes by more than 2^-46. For given weights the prediction changes by at most twice the rounding error of a sum whose depth is the logarithm of the number of observations: for up to 15 + 113 * 2^k observations the two predictions are finite and differ by no more than 2((1+eps)^(26+k) - 1) times the sum of the absolute weighted predictions, plus underflow. Both together: when the weights are computed again from the reordered observations, the prediction in double precision changes by at most 2^-45 of the largest local prediction in size, plus 2^-1050, with up to a million observations. With fewer than eight training observations of which at most two have weight the order does not change the prediction at all. With three it does: weights 0.1, 0.2 and 0.3 with predictions of 1 give another number when the observations are reversed.", "quantifier": "all weights and local predictions, all permutations of the training observations, all numbers of observations; all roundings with a relative and an absolute error bound", "why_tests_cant": "A test can compare a few permutations with a tolerance; a bound for every permutation and every length needs a proof, and that equality may be asserted with two but not with three observations in reach cannot be seen from samples.", "anchors": ["georegression/weight_model.py:WeightModel.predict_by_weight", "georegression/weight_matrix.py:weight_matrix_from_distance"]}
{"id": "C187", "title": "Changing the unit of the distances in floating point", "statement": "Without rounding, giving distances and bandwidth in another unit does not change any weight. In floating point it changes none if every distance and every bandwidth is converted exactly, whatever the kernels, the order of summation and the number of dimensions; in double precision conversion by a power of two is exact unless it overflows. With other units neighbours can change at the edge only, in one direction: with the boxcar kernel an observation within the bandwidth stays within it but one just beyond can come in, and with the linear, bisquare and tricube kernels an observation at or beyond the bandwidth keeps weight zero, as long as the bandwidth does not become zero, but one just inside can drop out. Both happen from metres to kilometres: at bandwidth 7.9 the next larger distance becomes a boxcar neighbour, and at bandwidth 15.7 the next smaller distance loses its linear weight. With these three kernels the jump is small everywhere: a weight changes by a few roundings, at most 2^-46 in double precision if the converted distance and bandwidth are normal numbers. With an integer neighbour_count the bandwidth computed from the converted distances is the converted bandwidth, so all this applies. After normalisation it matters whether the location is a training location: there, with one such dimension and up to a million observations, no weight changes by more than (n + 3) / 2^46, but at a new location whose only neighbour is just inside the bandwidth the weight goes from one to zero, and the prediction from that of the neighbour to zero.", "quantifier": "all kernels, distances, bandwidths and positive conversion factors; for the direction of the change all monotone roundings; for powers of two all double-precision distances and bandwidths", "why_tests_cant": "Tests convert a few coordinates and compare with a tolerance; that no pair of distance and bandwidth changes sides in the other direction, and that powers of two never change a bit, are statements about all floats.", "anchors": ["georegression/kernel.py:kernel_function", "georegression/kernel.py:adaptive_bandwidth", "georegression/weight_matrix.py:weight_matrix_from_distance", "georegression/weight_model.py:WeightModel.predict_by_weight"]}
