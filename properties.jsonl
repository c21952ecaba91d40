{"id": "C01", "title": "Element access always returns the kernel value", "statement": "After attach_to(X) (or attach_to(X, sample_two=Y)) succeeded, and whatever public calls (other than another attach_to) were made on the KernelMatrix since, every km[S, T] that does not select the whole matrix either raises or returns exactly the kernel values: kernel(X[i], Y[j]) for two samples, kernel(X[min(i,j)], X[max(i,j)]) for one sample. This stays true when any kernel calls raised in between.", "quantifier": "every kernel, every sample (pair), every sequence of public calls since the attach, every (possibly transient) pattern of kernel failures, every index pair", "why_tests_cant": "the result depends on a memo table filled by an unbounded call history with arbitrary failure points", "anchors": ["kernelmethods/base.py:KernelMatrix.__getitem__", "kernelmethods/base.py:KernelMatrix._eval_kernel", "kernelmethods/base.py:KernelMatrix._compute_for_index_combinations"]}
{"id": "C02", "title": "Each pair is evaluated at most once per attachment", "statement": "Between two attachments, the object completes the kernel function at most once for each (unordered, in the one-sample case) pair of samples (self-kernel evaluations on the temporary objects created by two-sample normalisation are not counted); the evaluation counter equals the number of memoised values and never exceeds n(n+1)/2 for one sample of size n, n*m for two samples of sizes n and m. If the kernel does not raise, these numbers are reached by the first call of full (for two samples: unless sparse storage was requested before), and no later call evaluates the kernel again.", "quantifier": "every history of public calls, every failure pattern, every n and m", "why_tests_cant": "the bound is over all call histories; a test fixes one order of accesses", "anchors": ["kernelmethods/base.py:KernelMatrix._eval_kernel", "kernelmethods/base.py:KernelMatrix._reset"]}
{"id": "C03", "title": "Access is lazy", "statement": "km[S, T] (not selecting everything), and diagonal(), make the kernel be evaluated only on the requested cells (up to symmetry), never on any other pair of samples.", "quantifier": "every index selection, every prior history", "why_tests_cant": "absence of extra evaluations must hold for every selection and memo state", "anchors": ["kernelmethods/base.py:KernelMatrix.__getitem__", "kernelmethods/base.py:KernelMatrix.diagonal"]}
{"id": "C04", "title": "Submatrix selection semantics", "statement": "km[S, T] with S, T integers, slices or iterables of integers returns the |S|x|T| matrix over the distinct selected indices in increasing order (duplicates and order of the request are ignored). In particular for strictly increasing index lists entry (a,b) is the kernel between samples S[a] and T[b].", "quantifier": "every pair of selections in range, every sample size", "why_tests_cant": "ranges over all index lists and slices including negative steps and bounds", "anchors": ["kernelmethods/base.py:KernelMatrix._get_indices_in_sample", "kernelmethods/base.py:KernelMatrix.__getitem__"]}
{"id": "C05", "title": "Invalid access is rejected without side effects", "statement": "An index that is negative, too large, not an integer/slice/iterable of integers, or that selects nothing makes km[S, T] raise KMAccessError, and the object (memo table, counter, cached matrices, attributes) is unchanged.", "quantifier": "every invalid index object, every state of an attached KernelMatrix", "why_tests_cant": "all invalid indices on all states", "anchors": ["kernelmethods/base.py:KernelMatrix._get_indices_in_sample"]}
{"id": "C06", "title": "Linear indexing", "statement": "km[k] for an integer k equals km[k // ncols, k % ncols] for 0 <= k < size, and raises ValueError for all other k.", "quantifier": "every k, every shape", "why_tests_cant": "all shapes and all k, including out of range", "anchors": ["kernelmethods/base.py:KernelMatrix.__getitem__"]}
{"id": "C07", "title": "Slices select the numpy index set", "statement": "A slice start:stop:step on a dimension of size n selects exactly the indices Python/numpy would select (negative bounds count from the end, bounds are clipped, negative steps run backwards); step 0 raises ValueError.", "quantifier": "every start, stop, step (including None and negatives) and every n", "why_tests_cant": "infinitely many slices; boundary handling is where such code is wrong", "anchors": ["kernelmethods/base.py:KernelMatrix._get_indices_in_sample", "kernelmethods/base.py:ConstantKernelMatrix._get_indices_in_sample"]}
{"id": "C08", "title": "Unnormalised full matrix is the Gram matrix, for every history", "statement": "With normalized=False and no kernel failure, km.full is the dense matrix of all kernel values, symmetric in the one-sample case, whatever calls preceded it on this attachment, provided full_sparse and whole-matrix indexing were not used before.", "quantifier": "every sample(s), every fault-free history of the other public calls", "why_tests_cant": "cached state machine: the result must not depend on which of the lazily computed forms were touched first", "anchors": ["kernelmethods/base.py:KernelMatrix.full", "kernelmethods/base.py:KernelMatrix._populate_fully"]}
{"id": "C09", "title": "Normalised full matrix is the cosine-normalised Gram matrix, for every history", "statement": "With normalized=True and no kernel failure, km.full returns the cosine normalisation of the Gram matrix (k(x,y)/sqrt(k(x,x)k(y,y)), for two samples using the self-kernels of both samples) or raises KMNormError exactly when a self-kernel is close to zero - after every history of public calls, including full_sparse and km[:, :].", "quantifier": "every sample(s), every fault-free history of public calls", "why_tests_cant": "same as C08, with the extra normalised cache", "anchors": ["kernelmethods/base.py:KernelMatrix.full", "kernelmethods/base.py:KernelMatrix.normalize"]}
{"id": "C10", "title": "full does not depend on what was accessed before", "statement": "For normalized=False, km.full returns the same dense, fully populated matrix regardless of any earlier calls on this attachment (e.g. full_sparse or km[:, :]).", "quantifier": "every history of public calls", "why_tests_cant": "needs all call orders; the code violates it and the tests never call full after full_sparse", "anchors": ["kernelmethods/base.py:KernelMatrix.full", "kernelmethods/base.py:KernelMatrix.full_sparse", "kernelmethods/base.py:KernelMatrix._populate_fully"]}
{"id": "C11", "title": "A failed computation is never served as a result", "statement": "If computing the full matrix raised because a kernel call failed, no later call on that attachment returns a matrix with unevaluated (NaN- or zero-filled) entries: it either raises again or returns the true kernel matrix.", "quantifier": "every failure point of every kernel call, every later history", "why_tests_cant": "requires injecting a failure at every possible evaluation and exploring every continuation", "anchors": ["kernelmethods/base.py:KernelMatrix._populate_fully"]}
{"id": "C12", "title": "Re-attaching gives a fresh object", "statement": "After a successful attach_to, every later observable result of a KernelMatrix is the same as that of a newly constructed KernelMatrix with the same kernel and flag attached to the same sample(s): no value, flag, attribute or cached matrix of earlier samples leaks, whatever happened before (including failures).", "quantifier": "every prior history, every later history", "why_tests_cant": "leakage may need a particular combination of earlier cached forms", "anchors": ["kernelmethods/base.py:KernelMatrix.attach_to", "kernelmethods/base.py:KernelMatrix._reset"]}
{"id": "C13", "title": "A failed attach_to leaves the object as it was", "statement": "If attach_to raises (input not 2D, feature dimensions of the two samples differ), the KernelMatrix continues to behave exactly as before the call.", "quantifier": "every state, every invalid input", "why_tests_cant": "the failure is only visible through later accesses of uncached entries", "anchors": ["kernelmethods/base.py:KernelMatrix.attach_to"]}
{"id": "C14", "title": "Attributes behave like a map scoped to the attachment", "statement": "get_attr(name, default) returns the last value set for that name since the latest attach_to/construct, else the default; setting one name never affects another; no access, normalisation or centering changes attributes; a successful attach_to clears all of them.", "quantifier": "every history of operations, all names and values", "why_tests_cant": "unbounded histories", "anchors": ["kernelmethods/base.py:KernelMatrix.set_attr", "kernelmethods/base.py:KernelMatrix.get_attr", "kernelmethods/base.py:KernelMatrix._reset"]}
{"id": "C15", "title": "Two-sample restrictions", "statement": "When attached to two samples, center() raises NotImplementedError, centered and diagonal() raise KMAccessError, whatever the history, and leave the object unchanged.", "quantifier": "every two-sample state", "why_tests_cant": "every history", "anchors": ["kernelmethods/base.py:KernelMatrix.center", "kernelmethods/base.py:KernelMatrix.centered", "kernelmethods/base.py:KernelMatrix.diagonal"]}
{"id": "C16", "title": "centered, frob_norm and diagonal are about the raw Gram matrix", "statement": "For a one-sample attachment without failures and without prior sparse population, centered is the doubly-centred unnormalised Gram matrix, frob_norm the Frobenius norm of the unnormalised matrix (also for two samples), diagonal() the self-kernels - independently of the normalisation flag and of the order of calls.", "quantifier": "every history", "why_tests_cant": "cached values in several attributes; order dependence", "anchors": ["kernelmethods/base.py:KernelMatrix.centered", "kernelmethods/base.py:KernelMatrix.frob_norm", "kernelmethods/base.py:KernelMatrix.diagonal"]}
{"id": "C17", "title": "Size bookkeeping", "statement": "After attach_to, shape, num_samples, size and len agree with the samples: (n,n), n, n*n for one sample; (n,m), (n,m), n*m for two; they never change until the next attach_to. Before any attach, accessing matrix contents raises.", "quantifier": "every history", "why_tests_cant": "every history and size", "anchors": ["kernelmethods/base.py:KernelMatrix.size", "kernelmethods/base.py:KernelMatrix.num_samples", "kernelmethods/base.py:KernelMatrix.attach_to"]}
{"id": "C18", "title": "center_km really centers", "statement": "center_km(K) for a square ndarray returns K_ij - mean of row i - mean of column j + grand mean: all row and column sums are 0, centering twice equals centering once, symmetry and positive semidefiniteness are preserved. Non-square or non-ndarray input raises ValueError.", "quantifier": "every real square matrix of every size", "why_tests_cant": "all matrices of all sizes", "anchors": ["kernelmethods/operations.py:center_km"]}
{"id": "C19", "title": "normalize_km yields a unit-diagonal matrix", "statement": "For a square K with positive diagonal not close to 0, normalize_km(K) has entries K_ij/sqrt(K_ii K_jj): unit diagonal, symmetric if K is, PSD if K is, all entries in [-1,1] if K is PSD, and normalising again changes nothing.", "quantifier": "every real square matrix of every size", "why_tests_cant": "all matrices", "anchors": ["kernelmethods/operations.py:normalize_km"]}
{"id": "C20", "title": "Normalisation rejects exactly the undefined cases", "statement": "normalize_km raises ValueError for non-square input, NotImplementedError for any method other than cosine (case-insensitive), KMNormError iff some diagonal entry is within isclose tolerance of 0; otherwise it returns. Negative diagonal entries produce NaN in their row and column rather than an exception.", "quantifier": "every matrix and method name", "why_tests_cant": "error conditions for all inputs", "anchors": ["kernelmethods/operations.py:normalize_km"]}
{"id": "C21", "title": "Two-sample normalisation agrees with one-sample normalisation", "statement": "normalize_km_2sample(K_XY, d_X, d_Y) has entries K_ij/sqrt(dX_i dY_j), raises ValueError on a shape mismatch and KMNormError iff a diagonal entry is close to 0; for Y = X and d = diag(K) it returns the same matrix as normalize_km. Hence a normalised KernelMatrix attached to (X, X) equals the one attached to X for a symmetric kernel.", "quantifier": "every matrix, diagonals and sizes", "why_tests_cant": "train/test consistency over all data", "anchors": ["kernelmethods/operations.py:normalize_km_2sample", "kernelmethods/base.py:KernelMatrix.normalize"]}
{"id": "C22", "title": "Frobenius product and norm", "statement": "frobenius_product is symmetric, bilinear and positive (frobenius_norm(A)^2 = <A,A>, zero iff A = 0), satisfies Cauchy-Schwarz, and raises ValueError iff the shapes differ.", "quantifier": "all matrices of equal dimensions", "why_tests_cant": "all matrices", "anchors": ["kernelmethods/operations.py:frobenius_product", "kernelmethods/operations.py:frobenius_norm"]}
{"id": "C23", "title": "Centered alignment is a normalised similarity", "statement": "Whenever alignment_centered returns a computed value it lies in [-1, 1]; it is symmetric in its arguments, 1 for a matrix with itself, invariant under positive rescaling and under adding constants to a matrix, and non-negative for PSD matrices.", "quantifier": "all pairs of square matrices", "why_tests_cant": "all matrices", "anchors": ["kernelmethods/operations.py:alignment_centered"]}
{"id": "C24", "title": "Alignment with a degenerate kernel", "statement": "If either centered norm is close to zero, alignment_centered raises ValueError when value_if_zero_division is 'raise', and otherwise returns exactly value_if_zero_division; in all other cases that parameter has no effect.", "quantifier": "all matrices, all parameter values", "why_tests_cant": "all matrices", "anchors": ["kernelmethods/operations.py:alignment_centered"]}
{"id": "C25", "title": "is_PSD decides positive semidefiniteness up to the tolerance", "statement": "is_PSD(K) raises TypeError for non-ndarrays, returns False for non-square or non-symmetric K, and for exactly symmetric K returns True iff x^T K x >= -tolerance*|x|^2 for every x; in particular every PSD matrix is accepted.", "quantifier": "every matrix, every tolerance", "why_tests_cant": "all matrices, all vectors", "anchors": ["kernelmethods/operations.py:is_positive_semidefinite"]}
{"id": "C26", "title": "linear_combination", "statement": "linear_combination(km_set, w) is the matrix sum_k w_k K_k; with norm_weights=True it is the same with weights divided by their sum, raising RuntimeError iff the sum is close to 0; it raises ValueError iff the number of weights differs from the set size. With non-negative weights and PSD kernels the result is PSD.", "quantifier": "every kernel set, all weights", "why_tests_cant": "all sets and weights", "anchors": ["kernelmethods/operations.py:linear_combination"]}
{"id": "C27", "title": "Kernel functions are symmetric", "statement": "Every provided kernel function satisfies k(x,y) = k(y,x) for all valid inputs of equal length (including which inputs raise), for all parameter values.", "quantifier": "all vectors of equal length, all parameters, all kernel classes", "why_tests_cant": "all inputs", "anchors": ["kernelmethods/numeric_kernels.py:PolyKernel", "kernelmethods/numeric_kernels.py:GaussianKernel", "kernelmethods/numeric_kernels.py:LaplacianKernel", "kernelmethods/numeric_kernels.py:Chi2Kernel", "kernelmethods/numeric_kernels.py:SigmoidKernel", "kernelmethods/numeric_kernels.py:LinearKernel", "kernelmethods/numeric_kernels.py:HadamardKernel", "kernelmethods/categorical.py:MatchCountKernel"]}
{"id": "C28", "title": "Kernel functions are positive semidefinite", "statement": "On every finite sample the Gram matrix of the linear, polynomial (b, gamma >= 0, natural degree), Gaussian (any sigma), Laplacian (gamma >= 0), chi^2 (gamma >= 0, non-negative data) and match-count kernels is PSD; the Hadamard kernel with positive alpha is PSD as well.", "quantifier": "every finite sample of every size and dimension, all parameter values in range", "why_tests_cant": "PSD is a statement about all samples and all coefficient vectors", "anchors": ["kernelmethods/numeric_kernels.py:PolyKernel", "kernelmethods/numeric_kernels.py:GaussianKernel", "kernelmethods/numeric_kernels.py:LaplacianKernel", "kernelmethods/numeric_kernels.py:Chi2Kernel", "kernelmethods/numeric_kernels.py:LinearKernel", "kernelmethods/numeric_kernels.py:HadamardKernel", "kernelmethods/categorical.py:MatchCountKernel"]}
{"id": "C29", "title": "Ranges of kernel values", "statement": "Gaussian, Laplacian (gamma>=0) and chi^2 (gamma>=0) values lie in (0,1] and equal 1 at x=y; sigmoid values lie in (-1,1); Hadamard values are >= 0; match-count lies in 0..d and match-percentage in [0,1], with the maximum exactly when x=y.", "quantifier": "all inputs", "why_tests_cant": "all inputs", "anchors": ["kernelmethods/numeric_kernels.py", "kernelmethods/categorical.py"]}
{"id": "C30", "title": "Kernel input validation", "statement": "With input checks enabled every numeric kernel accepts exactly two arrays of shapes (n, 1, ..., 1) with the same n and numeric (or convertible) entries and raises ValueError otherwise; the match kernels accept exactly two vectors of strings of the same length; the chi^2 kernel raises Chi2NegativeValuesException iff some entry of x or y is negative; HadamardKernel(alpha) raises ValueError iff alpha is close to 0; the Gaussian bandwidth is never below machine epsilon and the kernel never divides by zero.", "quantifier": "all inputs and parameters", "why_tests_cant": "all inputs", "anchors": ["kernelmethods/numeric_kernels.py", "kernelmethods/utils.py:check_input_arrays", "kernelmethods/utils.py:_ensure_min_eps"]}
{"id": "C31", "title": "The sigmoid kernel is not a valid kernel in general", "statement": "There are samples on which the sigmoid kernel with parameters from the default bucket yields a non-PSD Gram matrix (so is_PSD is False for it), as its documentation warns.", "quantifier": "existence of samples", "why_tests_cant": "random tests may or may not hit a violating sample", "anchors": ["kernelmethods/numeric_kernels.py:SigmoidKernel"]}
{"id": "C32", "title": "Composite kernels compute what their names say", "statement": "After fit(), composite_KM is: SumKernel - the (weighted) sum, ProductKernel - the element-wise product, AverageKernel - the mean, WeightedAverageKernel - sum of w_k K_k, of the kernel matrices of the set, of shape (n,n). AverageKernel equals WeightedAverageKernel with weights 1/N and SumKernel(w) equals WeightedAverageKernel(w) equals linear_combination(w).", "quantifier": "every kernel set of >= 2 kernels, all weights", "why_tests_cant": "all sets", "anchors": ["kernelmethods/base.py:SumKernel", "kernelmethods/base.py:ProductKernel", "kernelmethods/base.py:AverageKernel", "kernelmethods/base.py:WeightedAverageKernel"]}
{"id": "C33", "title": "Composition preserves validity of kernels", "statement": "Sum with non-negative weights, product, average, and weighted average with non-negative weights of PSD kernel matrices are PSD (and symmetric).", "quantifier": "every set of PSD matrices of any size", "why_tests_cant": "all matrices and sets", "anchors": ["kernelmethods/base.py:SumKernel", "kernelmethods/base.py:ProductKernel", "kernelmethods/base.py:AverageKernel", "kernelmethods/base.py:WeightedAverageKernel"]}
{"id": "C34", "title": "Composite access control", "statement": "Constructing a composite raises TypeError for a non-KernelSet, ValueError for fewer than 2 kernels or an unattached set, ValueError for a wrong number of weights; composite_KM/full raise ValueError until fit has completed once.", "quantifier": "every input, every history before the first completed fit", "why_tests_cant": "all histories", "anchors": ["kernelmethods/base.py:CompositeKernel"]}
{"id": "C35", "title": "A failed refit does not corrupt the composite result", "statement": "After one successful fit, if a later fit raises part-way, composite_KM still returns the matrix of a completed fit.", "quantifier": "every failure point in every refit", "why_tests_cant": "needs failure injection at each kernel of the set", "anchors": ["kernelmethods/base.py:SumKernel.fit", "kernelmethods/base.py:CompositeKernel.composite_KM"]}
{"id": "C36", "title": "KernelSet only admits compatible kernel matrices", "statement": "append adds KM at the end iff its num_samples equals that of the set (the first KM defines it), raises KMSetAdditionError otherwise and then leaves the members unchanged; so at the time of insertion all members agree in num_samples, for every sequence of append/extend/take.", "quantifier": "every sequence of set operations", "why_tests_cant": "unbounded histories", "anchors": ["kernelmethods/base.py:KernelSet.append", "kernelmethods/base.py:KernelSet.extend"]}
{"id": "C37", "title": "KernelSet is an ordered sequence", "statement": "len/size, iteration and ks[i] agree: ks[i] is the i-th appended KM for 0<=i<size, IndexError otherwise, ValueError for non-integers; extend appends the other set in order (a set may be extended by itself, doubling it); take(indices) returns the requested KMs in the requested order (repetitions kept) or raises IndexError, and does not change the source set.", "quantifier": "every sequence of operations, every index (list)", "why_tests_cant": "unbounded histories; aliasing", "anchors": ["kernelmethods/base.py:KernelSet.__getitem__", "kernelmethods/base.py:KernelSet.take", "kernelmethods/base.py:KernelSet.extend", "kernelmethods/base.py:KernelSet.__iter__"]}
{"id": "C38", "title": "Attaching a KernelSet attaches every member", "statement": "ks.attach_to(sample) raises ValueError when the number of samples differs from the set; otherwise every KernelMatrix in it is attached to that sample (previous results and attributes reset) and the given attribute is set on each.", "quantifier": "every set of KernelMatrix members, every prior state", "why_tests_cant": "all states of all members", "anchors": ["kernelmethods/base.py:KernelSet.attach_to"]}
{"id": "C39", "title": "KernelSet attributes", "statement": "set_attr(name, v) with a scalar/str gives every member v, with a sequence of len == size gives member i the i-th value, and any other length raises ValueError with no member changed; get_attr returns the members values in order.", "quantifier": "every set, all values", "why_tests_cant": "all sets", "anchors": ["kernelmethods/base.py:KernelSet.set_attr", "kernelmethods/base.py:KernelSet.get_attr"]}
{"id": "C40", "title": "Kernel bucket contents", "statement": "KernelBucket contains the linear kernel first and then one kernel per supplied parameter value, in order, skipping exactly the values whose construction fails; None values add nothing, an empty list or a non-iterable raises ValueError; make_kernel_bucket is case-insensitive and yields 25, 15 and 1 kernels for exhaustive, light and linear_only and raises ValueError for any other string.", "quantifier": "every list of parameter values, every strategy string", "why_tests_cant": "all parameter lists", "anchors": ["kernelmethods/sampling.py:KernelBucket", "kernelmethods/sampling.py:make_kernel_bucket", "kernelmethods/config.py"]}
{"id": "C41", "title": "Kernels added to a bucket are really added", "statement": "add_parametrized_kernels on any bucket adds one kernel per valid parameter value.", "quantifier": "every bucket state, including attached buckets", "why_tests_cant": "the code swallows the failure; only a state-dependent check reveals it", "anchors": ["kernelmethods/sampling.py:KernelBucket.add_parametrized_kernels"]}
{"id": "C42", "title": "Pairwise similarity matrix is symmetric and complete", "statement": "pairwise_similarity returns a num_km x num_km matrix without missing entries whose (i,j) and (j,i) entries both equal the metric between kernels min(i,j) and max(i,j); for metric=align all entries lie in [-1,1].", "quantifier": "every bucket", "why_tests_cant": "all buckets", "anchors": ["kernelmethods/sampling.py:pairwise_similarity"]}
{"id": "C43", "title": "Ideal kernel", "statement": "ideal_kernel(y) is the symmetric PSD rank-one matrix y_i*y_j.", "quantifier": "every target vector", "why_tests_cant": "all vectors", "anchors": ["kernelmethods/sampling.py:ideal_kernel"]}
{"id": "C44", "title": "min_max_scale", "statement": "Returns zeros if the spread is close to 0; otherwise values in [0,1] attaining both 0 and 1, an increasing affine image of the input (order and ties preserved).", "quantifier": "every non-empty array", "why_tests_cant": "all arrays", "anchors": ["kernelmethods/utils.py:min_max_scale"]}
{"id": "C45", "title": "find_optimal_kernel returns a best-ranked kernel", "statement": "find_optimal_kernel attaches the bucket to the sample and returns the first kernel matrix of the bucket with the largest ranking score; for cv_risk (if the spread of scores is not negligible) it has the largest cross-validation score; for align/corr the largest centered alignment with y y^T. Unknown methods and unknown estimators raise NotImplementedError, a non-bucket and unknown keywords raise TypeError, a sample of another size and an empty bucket ValueError, and exceptions of the cross-validation are passed on.", "quantifier": "every bucket, sample, targets, every score function", "why_tests_cant": "all score vectors including ties", "anchors": ["kernelmethods/ranking.py:find_optimal_kernel", "kernelmethods/ranking.py:rank_kernels", "kernelmethods/ranking.py:CV_ranking", "kernelmethods/ranking.py:alignment_ranking"]}
{"id": "C46", "title": "OptimalKernelSVC/SVR support every valid ranking method", "statement": "Fitting an OptimalKernelSVC/SVR with a method listed in VALID_RANKING_METHODS ('align/corr', 'cv_risk') ranks the kernels by it.", "quantifier": "both methods, all data", "why_tests_cant": "configuration space; no test uses align/corr with the estimator", "anchors": ["kernelmethods/algorithms.py:OptimalKernelSVC._find_optimal_kernel", "kernelmethods/ranking.py:alignment_ranking"]}
{"id": "C47", "title": "KernelMachine trains and predicts with consistent kernel matrices", "statement": "fit passes to the learner the (optionally normalised) kernel matrix of the training data; predict passes the test-by-train matrix with one row per test sample and one column per training sample; predicting on the training data itself passes exactly the training matrix (symmetric kernel). predict before fit raises NotFittedError.", "quantifier": "all data, all kernels, every history of fit/predict", "why_tests_cant": "all data", "anchors": ["kernelmethods/algorithms.py:BaseKernelMachine.fit", "kernelmethods/algorithms.py:BaseKernelMachine.predict"]}
{"id": "C48", "title": "predict does not change the fitted model", "statement": "Any number of predict calls in any order return the same predictions for the same input as the first predict after fit.", "quantifier": "every history of predict calls after a fit", "why_tests_cant": "predict overwrites internal kernel matrix state", "anchors": ["kernelmethods/algorithms.py:BaseKernelMachine.predict", "kernelmethods/algorithms.py:BaseOptimalKernelMachine.predict"]}
{"id": "C49", "title": "predict uses the parameters the estimator was fitted with", "statement": "Changing parameters with set_params after fit does not alter predictions until fit is called again.", "quantifier": "every history of fit/set_params/predict", "why_tests_cant": "history dependent; no test calls set_params between fit and predict", "anchors": ["kernelmethods/algorithms.py:BaseKernelMachine.set_params", "kernelmethods/algorithms.py:BaseKernelMachine.predict"]}
{"id": "C50", "title": "ConstantKernelMatrix access", "statement": "const[S, T] returns a |S|x|T| matrix (distinct indices) all of whose entries are the constant and raises KMAccessError for out-of-range or empty selections; full and diag have the right shapes and values.", "quantifier": "all sizes and selections", "why_tests_cant": "all selections; the empty selection is never tested on this class", "anchors": ["kernelmethods/base.py:ConstantKernelMatrix"]}
{"id": "C51", "title": "KernelMatrixPrecomputed only accepts symmetric square matrices", "statement": "Construction succeeds only for a real 2D square matrix symmetric up to tolerance and then full returns that matrix, num_samples and len its number of rows, and diag its diagonal; anything else raises ValueError.", "quantifier": "every input matrix", "why_tests_cant": "all shapes including degenerate ones that broadcast", "anchors": ["kernelmethods/base.py:KernelMatrixPrecomputed", "kernelmethods/utils.py:not_symmetric"]}
{"id": "C52", "title": "Array shape coercion", "statement": "ensure_ndarray_1D accepts exactly the arrays whose shape is (n,1,...,1) and returns the n values; ensure_ndarray_2D exactly those of shape (n,m,1,...,1); all others raise ValueError; ensure_num_cols is enforced.", "quantifier": "all shapes of any rank", "why_tests_cant": "unbounded ranks", "anchors": ["kernelmethods/utils.py:ensure_ndarray_1D", "kernelmethods/utils.py:ensure_ndarray_2D", "kernelmethods/utils.py:ensure_ndarray_size"]}
{"id": "C53", "title": "The numerical pipeline is sound end to end", "statement": "A KernelMatrix built on a Gaussian, Laplacian, linear, polynomial, chi^2 (non-negative data) or Hadamard kernel and attached to any sample yields, after any fault-free history, a full matrix that is symmetric PSD (normalised: with unit diagonal).", "quantifier": "all samples, kernels, histories", "why_tests_cant": "combines C08/C09 with C28", "anchors": ["kernelmethods/base.py:KernelMatrix.full", "kernelmethods/numeric_kernels.py"]}
{"id": "C54", "title": "is_psd of a kernel function", "statement": "kernel.is_psd() returns True for every linear, polynomial (b, gamma >= 0), Gaussian, Laplacian, chi^2 or positive-alpha Hadamard kernel whatever random sample is drawn, except that it raises KMNormError when a self-kernel on the sample is close to zero.", "quantifier": "every random draw of any size, all parameter values in range", "why_tests_cant": "the method draws its sample at random; a test sees a handful of draws", "anchors": ["kernelmethods/base.py:BaseKernelFunction.is_psd"]}
{"id": "C55", "title": "Kernel functions compute their documented formulas", "statement": "On vectors of equal length each kernel returns its documented formula: dot product, (b + gamma<x,y>)^degree, exp(-|x-y|^2/(2 sigma^2)), exp(-gamma|x-y|_1), exp(-gamma sum (x-y)^2/(x+y)), tanh(offset + gamma<x,y>), sum |x|^a|y|^a/(2(|x|^a+|y|^a)), number (or share) of matching coordinates; coordinates where both entries are 0 do not count in chi^2 and Hadamard.", "quantifier": "all vectors of every dimension, all parameters", "why_tests_cant": "all dimensions and values", "anchors": ["kernelmethods/numeric_kernels.py", "kernelmethods/categorical.py"]}
{"id": "C56", "title": "OptimalKernelSVC/SVR train on the kernel matrix as a kernel", "statement": "The SVM underlying OptimalKernelSVC/SVR is trained with the kernel matrix of the chosen kernel as a precomputed kernel (kernel='precomputed').", "quantifier": "all data, all buckets, every learner", "why_tests_cant": "tests only look at the type and shape of predictions", "anchors": ["kernelmethods/algorithms.py:OptimalKernelSVC.__init__", "kernelmethods/algorithms.py:BaseOptimalKernelMachine.fit"]}
{"id": "C57", "title": "Optimal-kernel machines leave the bucket they are given alone", "statement": "fit, predict and set_params of OptimalKernelSVC/SVR never change any kernel matrix that existed before the machine was fitted, in particular those of the bucket passed as k_bucket, over every sequence of calls.", "quantifier": "every bucket (also with shared members), every history", "why_tests_cant": "aliasing; needs all histories", "anchors": ["kernelmethods/algorithms.py:BaseOptimalKernelMachine.fit", "kernelmethods/algorithms.py:BaseOptimalKernelMachine.predict"]}
{"id": "C58", "title": "get_params and set_params of KernelMachine are inverse to each other", "statement": "set_params(**get_params()) changes nothing, and get_params shows what was set.", "quantifier": "all parameter values", "why_tests_cant": "all values, also unusable ones", "anchors": ["kernelmethods/algorithms.py:BaseKernelMachine.get_params", "kernelmethods/algorithms.py:BaseKernelMachine.set_params"]}
{"id": "C59", "title": "A failed fit of KernelMachine is not silently used by predict", "statement": "After a fit that raises, predict raises or gives the same predictions as before that fit.", "quantifier": "every machine, all data, every learner", "why_tests_cant": "no test predicts after a failed fit", "anchors": ["kernelmethods/algorithms.py:BaseKernelMachine.fit", "kernelmethods/algorithms.py:BaseKernelMachine.predict"]}
{"id": "C60", "title": "Non-finite kernel values produce a warning, not an exception", "statement": "If some kernel values are NaN or infinite, KernelMatrix.full still returns the matrix (or what normalisation makes of it) and only warns.", "quantifier": "every kernel function including KernelFromCallable, all samples, every history of calls", "why_tests_cant": "needs kernels that return non-finite values on some pair of samples", "anchors": ["kernelmethods/base.py:KernelMatrix._populate_fully", "kernelmethods/base.py:KernelMatrix.normalize", "kernelmethods/base.py:KernelFromCallable"]}
{"id": "C61", "title": "Custom kernels", "statement": "KernelFromCallable accepts exactly callables with at least two parameters (else TypeError) and takes its name from the argument or the callable; the kernel matrix on it has the entries func(x_i, x_j, **params) for i <= j, mirrored, for one sample, and func(x_i, y_j, **params) for two; if the function raises on a pair then full, normed_km, centered and frob_norm raise, always.", "quantifier": "every callable and parameters, all samples, every history of calls", "why_tests_cant": "functions that are not symmetric, or raise on some pairs, after all histories", "anchors": ["kernelmethods/base.py:KernelFromCallable", "kernelmethods/utils.py:check_callable", "kernelmethods/utils.py:get_callable_name"]}
{"id": "C62", "title": "Small validators and names", "statement": "check_operation_kernel_matrix returns one of sum, product, average, without regard to case, and is idempotent; is_iterable_but_not_str holds exactly for non-string iterables with enough elements; different kernel classes have different names.", "quantifier": "all strings, all objects, all kernels", "why_tests_cant": "all strings", "anchors": ["kernelmethods/utils.py:check_operation_kernel_matrix", "kernelmethods/utils.py:is_iterable_but_not_str", "kernelmethods/numeric_kernels.py", "kernelmethods/categorical.py"]}
{"id": "C63", "title": "The kernel chosen from the default buckets", "statement": "With the buckets made by make_kernel_bucket, find_optimal_kernel(method='align/corr') returns the first kernel whose matrix has the largest centered alignment with the targets; in particular a kernel with a finite matrix. With normalisation, a sample with a zero row raises KMNormError.", "quantifier": "all samples, all targets, the strategies exhaustive, light and linear_only, both normalisation flags", "why_tests_cant": "all samples and targets; which kernels of the bucket give finite matrices depends on the sample", "anchors": ["kernelmethods/ranking.py:find_optimal_kernel", "kernelmethods/ranking.py:alignment_ranking", "kernelmethods/sampling.py:make_kernel_bucket"]}
{"id": "C64", "title": "Kernels on integer arrays", "statement": "The value of a numeric kernel, and hence the kernel matrix, depends on the numbers in the samples and not on their dtype: on integer arrays it is the same as on the same numbers as floats. In particular kernels are symmetric and linear kernel matrices positive semidefinite on integer samples.", "quantifier": "all integer dtypes, all integer arrays, all kernels and parameters", "why_tests_cant": "overflow depends on the magnitude of the entries, the number of features and the dtype", "anchors": ["kernelmethods/numeric_kernels.py", "kernelmethods/base.py:KernelMatrix.attach_to", "kernelmethods/utils.py:check_input_arrays"]}
{"id": "C65", "title": "Kernel matrices of related samples agree", "statement": "If a sample B consists of rows of a sample A (some of them, reordered or repeated), then the kernel matrix on B has the corresponding entries of the one on A, and kernel matrices between two such samples are the corresponding blocks, with and without normalisation; after reordering the rows the centered matrix and the Frobenius norm correspond too.", "quantifier": "every symmetric kernel, all samples and all choices of rows, every history of calls (without normalisation: not including full_sparse)", "why_tests_cant": "needs all pairs of related samples and arbitrary histories on two objects", "anchors": ["kernelmethods/base.py:KernelMatrix.attach_to", "kernelmethods/base.py:KernelMatrix.full", "kernelmethods/base.py:KernelMatrix.centered", "kernelmethods/base.py:KernelMatrix.frob_norm", "kernelmethods/base.py:KernelMatrix.normalize"]}
{"id": "C66", "title": "Changes of the data that do not matter", "statement": "Reordering the features, or adding a feature that is zero throughout, changes no kernel value; the Gaussian and Laplacian kernels do not change under a common shift; a common factor in the data acts on each kernel in the way its formula says; two objects whose kernels have the same values on corresponding rows have the same kernel matrices, normalised or not.", "quantifier": "all kernels, parameters, numbers of features and vectors, every history of calls", "why_tests_cant": "all feature permutations and vectors of all lengths", "anchors": ["kernelmethods/numeric_kernels.py", "kernelmethods/categorical.py:MatchCountKernel", "kernelmethods/base.py:KernelMatrix.full"]}
{"id": "C67", "title": "What the choice of a kernel by alignment depends on", "statement": "The position in the bucket of the kernel that find_optimal_kernel(method='align/corr') returns does not depend on what was done with the bucket before, nor on the order of the samples; it is the same after adding a constant to the targets and after multiplying them by one, as long as they vary enough for the alignment to be computed.", "quantifier": "all buckets of kernels with finite matrices, samples, targets and histories", "why_tests_cant": "all histories of the members of the bucket, all permutations of the samples and all rescalings of the targets", "anchors": ["kernelmethods/ranking.py:find_optimal_kernel", "kernelmethods/ranking.py:alignment_ranking", "kernelmethods/operations.py:alignment_centered"]}
{"id": "C68", "title": "Parameters of OptimalKernelSVC and OptimalKernelSVR", "statement": "get_params shows exactly the arguments of the constructor; set_params(**get_params()) changes nothing; set_params changes the parameters named, nothing else, and ignores names that are not parameters; fit depends on the parameters and the data only: a machine that has been fitted before behaves as a new one constructed with the same parameters.", "quantifier": "all parameter values, all lists of keyword arguments, all previous states, all data, every learner", "why_tests_cant": "all previous states, including those after a fit that raised", "anchors": ["kernelmethods/algorithms.py:OptimalKernelSVC.__init__", "kernelmethods/algorithms.py:OptimalKernelSVC.get_params", "kernelmethods/algorithms.py:OptimalKernelSVC.set_params", "kernelmethods/algorithms.py:OptimalKernelSVR.get_params", "kernelmethods/algorithms.py:OptimalKernelSVR.set_params", "kernelmethods/algorithms.py:BaseOptimalKernelMachine.fit"]}
{"id": "C69", "title": "What a kernel matrix returns does not depend on what the caller does with the arrays it passed or received", "statement": "After attach_to, the results of all calls are determined by the samples as they were when they were passed and by the calls, whatever the caller writes into the arrays of the samples or into matrices that the object returned; and matrices that were returned do not change later by themselves.", "quantifier": "all kernels, samples, histories of calls and of writes by the caller in between", "why_tests_cant": "all interleavings of calls and writes", "anchors": ["kernelmethods/base.py:KernelMatrix.attach_to", "kernelmethods/base.py:KernelMatrix.full", "kernelmethods/base.py:KernelMatrix.full_sparse", "kernelmethods/base.py:KernelMatrix.normed_km", "kernelmethods/base.py:KernelMatrix.centered", "kernelmethods/base.py:KernelMatrix.__getitem__", "kernelmethods/utils.py:ensure_ndarray_2D"]}
{"id": "C70", "title": "Printing tells the truth and changes nothing", "statement": "str(km) shows the kernel, the normalisation flag and the names and shapes of the samples the kernel matrix is attached to, and only name and kernel before the first attachment; it never raises, and neither does formatting; printing and the names of samples have no effect on any other result; numeric kernels that print alike are equal, and so are sizes and constants of precomputed and constant matrices; a set prints all its members, their number and that of samples, and a composite kernel its set.", "quantifier": "all kernels, names, samples and histories", "why_tests_cant": "all histories, including those with rejected samples", "anchors": ["kernelmethods/base.py:KernelMatrix.__str__", "kernelmethods/base.py:KernelMatrix.attach_to", "kernelmethods/base.py:KernelSet.__str__", "kernelmethods/base.py:CompositeKernel.__str__", "kernelmethods/numeric_kernels.py:PolyKernel.__str__", "kernelmethods/numeric_kernels.py:GaussianKernel.__str__", "kernelmethods/numeric_kernels.py:SigmoidKernel.__str__"]}
{"id": "C71", "title": "Rounding errors are bounded and leave kernel matrices positive semidefinite", "statement": "In floating point arithmetic with relative error u, and whatever the order in which sums are evaluated: the value of a valid kernel is off by at most gamma_m sqrt(k(x,x) k(y,y)), m being the number of roundings; normalisation has relative error at most gamma_6 and raises in the same cases; km.full differs from the exact (normalised) kernel matrix by correspondingly small amounts after any calls, is symmetric (up to gamma_12 when normalised), and is accepted by is_PSD; kernel.is_psd() answers True.", "quantifier": "all arithmetics satisfying the standard model, all orders of summation, kernels, samples and histories", "why_tests_cant": "errors depend on the data, the machine and the BLAS; tests see one platform and small inputs", "anchors": ["kernelmethods/base.py:KernelMatrix.full", "kernelmethods/base.py:BaseKernelFunction.is_psd", "kernelmethods/operations.py:normalize_km", "kernelmethods/operations.py:normalize_km_2sample", "kernelmethods/operations.py:is_positive_semidefinite", "kernelmethods/numeric_kernels.py:GaussianKernel.__call__", "kernelmethods/numeric_kernels.py:PolyKernel.__call__", "kernelmethods/numeric_kernels.py:LinearKernel.__call__", "kernelmethods/numeric_kernels.py:Chi2Kernel.__call__", "kernelmethods/numeric_kernels.py:LaplacianKernel.__call__", "kernelmethods/numeric_kernels.py:HadamardKernel.__call__"]}
{"id": "C72", "title": "Results do not depend on the storage format", "statement": "frob_norm and centered are determined by the kernel and the samples, whether the matrix is kept as an array or as a sparse matrix (after full_sparse or after indexing the whole matrix): the Frobenius norm of the kernel matrix, and the centred kernel matrix.", "quantifier": "all kernels, samples and histories of calls", "why_tests_cant": "all histories; with a diagonal or dense-only test both formats agree", "anchors": ["kernelmethods/base.py:KernelMatrix.frob_norm", "kernelmethods/base.py:KernelMatrix.centered", "kernelmethods/base.py:KernelMatrix.full_sparse", "kernelmethods/operations.py:frobenius_norm", "kernelmethods/operations.py:center_km"]}
{"id": "C73", "title": "Several threads can compute parts of one kernel matrix at the same time", "statement": "Threads that share an attached kernel matrix and call any methods other than attach_to on it finish, and each call returns what it would return if the threads ran one after the other: elements and parts are exactly the kernel values, full is the kernel matrix; each pair of rows is evaluated at most once per thread.", "quantifier": "all kernels, samples, earlier histories, numbers of threads, calls and orders of their steps", "why_tests_cant": "the number of interleavings is astronomical and the scheduler cannot be controlled by a test", "anchors": ["kernelmethods/base.py:KernelMatrix.__getitem__", "kernelmethods/base.py:KernelMatrix._eval_kernel", "kernelmethods/base.py:KernelMatrix._populate_fully", "kernelmethods/base.py:KernelMatrix.full", "kernelmethods/base.py:KernelMatrix.diagonal", "kernelmethods/base.py:KernelMatrix.normalize", "kernelmethods/base.py:KernelMatrix.center"]}
{"id": "C74", "title": "A missing value affects the kernel values of its own sample, visibly, and nothing else", "statement": "If a value of a sample is missing (NaN), the kernel values of that sample are NaN, and all others are the values of the kernel on the complete samples, for elements, full, normed and centered matrices; kernels that instead leave out the missing coordinates remain positive semidefinite.", "quantifier": "all numeric kernels and parameters, all samples, all patterns of missing values, all histories of calls", "why_tests_cant": "all patterns of missing values; no test uses them", "anchors": ["kernelmethods/numeric_kernels.py:HadamardKernel.__call__", "kernelmethods/numeric_kernels.py:Chi2Kernel.__call__", "kernelmethods/numeric_kernels.py:PolyKernel.__call__", "kernelmethods/numeric_kernels.py:GaussianKernel.__call__", "kernelmethods/numeric_kernels.py:LaplacianKernel.__call__", "kernelmethods/numeric_kernels.py:SigmoidKernel.__call__", "kernelmethods/numeric_kernels.py:LinearKernel.__call__", "kernelmethods/base.py:KernelMatrix.full", "kernelmethods/base.py:KernelMatrix.centered", "kernelmethods/operations.py:normalize_km", "kernelmethods/operations.py:center_km"]}
{"id": "C75", "title": "Rounding errors of centering and alignment are bounded, and the best kernel is still chosen", "statement": "In floating point arithmetic with relative error u, and whatever the order in which sums are evaluated: center_km, frobenius_product and frobenius_norm have bounded errors and raise in the same cases as in exact arithmetic; alignment_centered is within 1 + gamma of 0, exactly symmetric in its arguments, close to the exact alignment, and takes its branch for zero norms exactly if the exact function does; find_optimal_kernel with align/corr chooses a kernel whose exact alignment is the largest up to the error bound.", "quantifier": "all arithmetics satisfying the standard model, all orders of summation, matrices, kernels, samples, targets and histories", "why_tests_cant": "errors depend on the data, the machine and the BLAS; tests see one platform and small inputs", "anchors": ["kernelmethods/operations.py:center_km", "kernelmethods/operations.py:frobenius_product", "kernelmethods/operations.py:frobenius_norm", "kernelmethods/operations.py:alignment_centered", "kernelmethods/ranking.py:find_optimal_kernel", "kernelmethods/ranking.py:alignment_ranking"]}
{"id": "C76", "title": "is_positive_semidefinite works with inexact eigenvalues", "statement": "With an eigenvalue solver of backward error epsilon the answer is True for all matrices that the exact test accepts at tolerance tol - epsilon, False for all that it rejects at tol + epsilon, and False if the solver fails; in particular positive semidefinite matrices are accepted if epsilon <= tol, and so are normalised matrices of valid kernels computed with rounding; kernel.is_psd() is then True or raises KMNormError.", "quantifier": "all solvers, all matrices and tolerances; all arithmetics satisfying the standard model, kernels, samples and histories of calls", "why_tests_cant": "all matrices and all perturbations of their eigenvalues", "anchors": ["kernelmethods/operations.py:is_positive_semidefinite", "kernelmethods/base.py:BaseKernelFunction.is_psd", "kernelmethods/base.py:KernelMatrix.full"]}
{"id": "C77", "title": "Indexing a kernel matrix agrees with numpy indexing of the array", "statement": "km[S, T] has the entries of km.full[S, T] in the same order, where axes indexed by an integer are kept as axes of length 1, and numpy accepts the index objects that km accepts; KernelMatrixPrecomputed(km.full) is accepted and stands in for km; ConstantKernelMatrix(n, v) answers like a KernelMatrix with a constant kernel.", "quantifier": "all kernels, samples, histories and index objects (integers, slices, sequences of integers)", "why_tests_cant": "all combinations of index objects; order, repetition, negative and empty selections", "anchors": ["kernelmethods/base.py:KernelMatrix.__getitem__", "kernelmethods/base.py:KernelMatrix._get_indices_in_sample", "kernelmethods/base.py:KernelMatrixPrecomputed.__getitem__", "kernelmethods/base.py:ConstantKernelMatrix.__getitem__"]}
{"id": "C78", "title": "Gaussian, Laplacian and chi2 kernels tell samples apart", "statement": "For these kernels with gamma > 0 (every GaussianKernel the constructor returns) km.full is positive definite if no two rows of the sample are equal, so that any values at the samples are interpolated by exactly one combination of its columns, and its centred matrix loses only the constant vectors. Equal rows make the matrix of any valid kernel singular; normalising neither creates nor destroys positive definiteness; the linear kernel is positive definite exactly for linearly independent rows, the polynomial kernel is singular for more rows than monomials. One positive definite member makes sums, averages, weighted averages with positive weight and products with nonzero self-kernels positive definite.", "quantifier": "all parameters, all samples, all histories of calls, all kernel sets", "why_tests_cant": "all finite point sets in all dimensions; near-equal points are never told apart numerically", "anchors": ["kernelmethods/numeric_kernels.py:GaussianKernel.__call__", "kernelmethods/numeric_kernels.py:LaplacianKernel.__call__", "kernelmethods/numeric_kernels.py:Chi2Kernel.__call__", "kernelmethods/numeric_kernels.py:PolyKernel.__call__", "kernelmethods/numeric_kernels.py:LinearKernel.__call__", "kernelmethods/numeric_kernels.py:HadamardKernel.__call__", "kernelmethods/base.py:KernelMatrix.full", "kernelmethods/base.py:KernelMatrix.centered", "kernelmethods/base.py:SumKernel.fit", "kernelmethods/base.py:ProductKernel.fit", "kernelmethods/base.py:AverageKernel.fit", "kernelmethods/base.py:WeightedAverageKernel.fit"]}
{"id": "C79", "title": "Rounding errors of composite kernels and linear combinations are bounded", "statement": "In floating point arithmetic a SumKernel, AverageKernel or WeightedAverageKernel of N members is within gamma(N+1) sum |w_k K_k| of the exact combination in every entry, a ProductKernel (dense members) within the relative error gamma(N); symmetric members give exactly symmetric results; for non-negative weights and positive semidefinite members negative eigenvalues are at most rounding errors, and is_PSD accepts if its tolerance covers them. From data to composite matrix the relative errors of kernels, normalisation and combination multiply. linear_combination: likewise, with gamma(2N+2) if weights are normalised. fit raises exactly what it raises in exact arithmetic; so does linear_combination without normalisation.", "quantifier": "all roundings of unit roundoff u with N u < 1, all orders of summation, all members, weights and samples", "why_tests_cant": "a test sees the errors of one machine on a few matrices, not a bound", "anchors": ["kernelmethods/base.py:SumKernel.fit", "kernelmethods/base.py:ProductKernel.fit", "kernelmethods/base.py:AverageKernel.fit", "kernelmethods/base.py:WeightedAverageKernel.fit", "kernelmethods/operations.py:linear_combination", "kernelmethods/operations.py:is_positive_semidefinite"]}
{"id": "C80", "title": "Predictions are made sample by sample", "statement": "If the underlying learner predicts row by row, then after fit there is a function of a single sample such that predict returns its values on the samples of the batch: predictions for a part of a batch, for a single sample, for reordered or repeated samples and for joined batches are the corresponding predictions, whatever was predicted before. If the order of the training samples does not matter to the learner, it does not matter to the machine.", "quantifier": "all kernels, training samples, batches, learners and earlier predictions", "why_tests_cant": "all batches and all ways of splitting them", "anchors": ["kernelmethods/algorithms.py:BaseKernelMachine.fit", "kernelmethods/algorithms.py:BaseKernelMachine.predict", "kernelmethods/algorithms.py:BaseOptimalKernelMachine.predict", "kernelmethods/algorithms.py:OptimalKernelSVC.predict", "kernelmethods/base.py:KernelMatrix.attach_to", "kernelmethods/base.py:KernelMatrix.full"]}
{"id": "C81", "title": "Programs do not influence each other", "statement": "Several programs using the library in one interpreter, each with its own kernel matrices, sets and buckets of them, composite kernels, rankings, searches for the optimal kernel, similarity matrices and linear combinations, with their steps interleaved in any way: each sees the same results and exceptions as if it ran alone, and its objects end in the same state. No object ever belongs to two of them.", "quantifier": "all numbers of programs, all programs, all interleavings, all kernels, also with steps that raise", "why_tests_cant": "state shared by accident (class attributes, default arguments, caches) shows up only in particular interleavings", "anchors": ["kernelmethods/base.py:KernelMatrix.__init__", "kernelmethods/base.py:KernelMatrix.attach_to", "kernelmethods/base.py:KernelMatrixPrecomputed.__init__", "kernelmethods/base.py:KernelSet.__init__", "kernelmethods/base.py:KernelSet.append", "kernelmethods/base.py:KernelSet.extend", "kernelmethods/base.py:KernelSet.take", "kernelmethods/base.py:CompositeKernel.__init__", "kernelmethods/operations.py:linear_combination", "kernelmethods/ranking.py:alignment_ranking", "kernelmethods/ranking.py:find_optimal_kernel", "kernelmethods/sampling.py:KernelBucket.__init__", "kernelmethods/sampling.py:KernelBucket.add_parametrized_kernels", "kernelmethods/sampling.py:pairwise_similarity"]}
{"id": "C82", "title": "Composite kernels after their set has changed", "statement": "composite_KM is a snapshot taken by fit: changing the set, its members or anything else does not change it before the next fit. The next fit composes all members the set has by then: sum, mean, product or weighted sum of their kernel matrices; so does linear_combination.", "quantifier": "all programs between construction, fit and use of the composite kernel, all kernels and weights", "why_tests_cant": "all histories of the set, its members and other composite kernels sharing them", "anchors": ["kernelmethods/base.py:CompositeKernel.__init__", "kernelmethods/base.py:CompositeKernel.composite_KM", "kernelmethods/base.py:SumKernel.fit", "kernelmethods/base.py:AverageKernel.fit", "kernelmethods/base.py:ProductKernel.fit", "kernelmethods/base.py:WeightedAverageKernel.__init__", "kernelmethods/base.py:WeightedAverageKernel.fit", "kernelmethods/base.py:KernelSet.append"]}
{"id": "C83", "title": "A finite kernel value is accurate, also if intermediate results overflow", "statement": "In floating point arithmetic with a largest number: if calling a numeric kernel on finite samples returns a finite number, then this number differs from the kernel value by rounding errors only. Overflow on the way is visible in the result, as an infinite number or NaN. Gaussian and Laplacian kernels are finite always. The same for the entries of the kernel matrix.", "quantifier": "all finite samples of any size, all kernels and parameters, all rounding arithmetics, all orders of summation, all histories of the matrix", "why_tests_cant": "overflow needs numbers that tests do not contain, and a wrong finite result raises no alarm", "anchors": ["kernelmethods/numeric_kernels.py:HadamardKernel.__call__", "kernelmethods/numeric_kernels.py:PolyKernel.__call__", "kernelmethods/numeric_kernels.py:GaussianKernel.__call__", "kernelmethods/numeric_kernels.py:LaplacianKernel.__call__", "kernelmethods/numeric_kernels.py:Chi2Kernel.__call__", "kernelmethods/numeric_kernels.py:SigmoidKernel.__call__", "kernelmethods/numeric_kernels.py:LinearKernel.__call__", "kernelmethods/base.py:KernelMatrix.full"]}
{"id": "C84", "title": "An infinite entry in a sample is visible", "statement": "If a sample contains an infinite number, numeric kernels do not return a finite number for it: on the sample and itself, and (linear, polynomial, Hadamard) on the sample and any other. The row and column, or at least the diagonal element, of the kernel matrix are not finite.", "quantifier": "all samples with infinite and without missing entries, all kernels and parameters, all orders of summation, all histories of the matrix", "why_tests_cant": "all combinations of infinite, large and finite numbers", "anchors": ["kernelmethods/numeric_kernels.py:HadamardKernel.__call__", "kernelmethods/numeric_kernels.py:PolyKernel.__call__", "kernelmethods/numeric_kernels.py:GaussianKernel.__call__", "kernelmethods/numeric_kernels.py:LaplacianKernel.__call__", "kernelmethods/numeric_kernels.py:Chi2Kernel.__call__", "kernelmethods/numeric_kernels.py:SigmoidKernel.__call__", "kernelmethods/numeric_kernels.py:LinearKernel.__call__", "kernelmethods/utils.py:check_input_arrays", "kernelmethods/base.py:KernelMatrix.full"]}
{"id": "C85", "title": "The total number of kernel calls", "statement": "After attach_to, whatever is accessed how often, the kernel function is called at most n(n+1)/2 times in total for one sample of size n, and n m + n + m times for two (n + m self-kernels for the normalisation), counting also the calls made through the auxiliary objects of normalize; a single call never needs more. fit makes n(n+1)/2 calls, predict m n (plus m + n if normalising) each time.", "quantifier": "all kernels that do not raise, all samples, all histories", "why_tests_cant": "the counter _num_ker_eval does not see the calls of the auxiliary objects, and all histories", "anchors": ["kernelmethods/base.py:KernelMatrix.attach_to", "kernelmethods/base.py:KernelMatrix._eval_kernel", "kernelmethods/base.py:KernelMatrix.normalize", "kernelmethods/base.py:KernelMatrix.full", "kernelmethods/base.py:KernelMatrix.diagonal", "kernelmethods/algorithms.py:BaseKernelMachine.fit", "kernelmethods/algorithms.py:BaseKernelMachine.predict"]}
{"id": "C86", "title": "Close samples have close kernel values", "statement": "Every numeric kernel is a continuous function of its two arguments, with an explicit bound on the change of the value in terms of the distances of the arguments and (for the unbounded kernels) their sizes; uniformly for Gaussian, Laplacian and chi2. Kernel matrices of slightly different samples are close entry by entry with the same bound, also normalised ones, and centred ones up to the factor 4.", "quantifier": "all samples and perturbations of any size, all parameters the kernels are meant for (gamma >= 0, degree >= 0, alpha > 0; non-negative data for chi2)", "why_tests_cant": "a bound over all pairs of close samples, including those where numerator and denominator vanish", "anchors": ["kernelmethods/numeric_kernels.py:HadamardKernel.__call__", "kernelmethods/numeric_kernels.py:PolyKernel.__call__", "kernelmethods/numeric_kernels.py:GaussianKernel.__call__", "kernelmethods/numeric_kernels.py:LaplacianKernel.__call__", "kernelmethods/numeric_kernels.py:Chi2Kernel.__call__", "kernelmethods/numeric_kernels.py:SigmoidKernel.__call__", "kernelmethods/numeric_kernels.py:LinearKernel.__call__", "kernelmethods/base.py:KernelMatrix.full", "kernelmethods/base.py:KernelMatrix.centered"]}
{"id": "C87", "title": "Arrays of the caller are the caller's own", "statement": "A program that overwrites arrays it has passed to a kernel machine, to KernelMatrixPrecomputed or to WeightedAverageKernel, or that it got from a composite kernel, sees the same results afterwards as if it had not.", "quantifier": "all programs, all arrays, all kernels and learners", "why_tests_cant": "shared arrays show up only in programs that reuse buffers", "anchors": ["kernelmethods/algorithms.py:BaseKernelMachine.fit", "kernelmethods/algorithms.py:BaseKernelMachine.predict", "kernelmethods/algorithms.py:BaseOptimalKernelMachine.fit", "kernelmethods/algorithms.py:BaseOptimalKernelMachine.predict", "kernelmethods/base.py:KernelMatrixPrecomputed.__init__", "kernelmethods/base.py:CompositeKernel.composite_KM", "kernelmethods/base.py:WeightedAverageKernel.__init__", "kernelmethods/base.py:WeightedAverageKernel.fit", "kernelmethods/utils.py:ensure_ndarray_2D", "kernelmethods/utils.py:ensure_ndarray_1D"]}
{"id": "C88", "title": "Kernel matrices describe the geometry of feature vectors", "statement": "For valid kernels there are vectors, one for each sample, whose scalar products are the kernel values, within one sample and between two. What the library does with kernel matrices it does to these vectors: centering moves the origin to their mean, normalising scales them to length 1 (also between two samples), sums and averages put them side by side, products form tensor products. sqrt(K_ii + K_jj - 2 K_ij) is a distance: symmetric, with the triangle inequality, unchanged by centering, zero only for equal samples (Gaussian, Laplacian, chi2), and the distance of the rows for the linear kernel.", "quantifier": "all valid kernels and data, all members of composite kernels, all histories", "why_tests_cant": "statements about all samples and the existence of vectors", "anchors": ["kernelmethods/base.py:KernelMatrix.full", "kernelmethods/base.py:KernelMatrix.centered", "kernelmethods/operations.py:center_km", "kernelmethods/operations.py:normalize_km", "kernelmethods/operations.py:normalize_km_2sample", "kernelmethods/base.py:SumKernel.fit", "kernelmethods/base.py:ProductKernel.fit", "kernelmethods/base.py:AverageKernel.fit", "kernelmethods/base.py:WeightedAverageKernel.fit", "kernelmethods/numeric_kernels.py:LinearKernel.__call__", "kernelmethods/numeric_kernels.py:SigmoidKernel.__call__"]}
{"id": "C89", "title": "Iterating over a kernel matrix", "statement": "for v in km visits the elements of a KernelMatrix row by row (the rows of a KernelMatrixPrecomputed) and ends normally; w in km tells whether w is one of the elements; reversed(km) visits them in the opposite order. The classes have no __iter__, so that Python asks for km[0], km[1], ... until IndexError; the elements seen are kernel values, whatever was called before and whichever kernel calls fail.", "quantifier": "all samples, kernels, histories and kernel failures", "why_tests_cant": "iteration over a kernel matrix is not tested; statement about all sizes and failures", "anchors": ["kernelmethods/base.py:KernelMatrix.__getitem__", "kernelmethods/base.py:KernelMatrix.__len__", "kernelmethods/base.py:KernelMatrix.size", "kernelmethods/base.py:KernelMatrixPrecomputed.__getitem__", "kernelmethods/base.py:KernelMatrixPrecomputed.__len__", "kernelmethods/base.py:ConstantKernelMatrix.__getitem__"]}
{"id": "C90", "title": "NaN and infinite values are announced", "statement": "A KernelMatrix returns a kernel matrix (normalised or not) with NaN or infinite entries only if a warning about such values has been issued since the samples were attached; every such warning is about a matrix that does contain such values, and is issued once per computation; warnings have no other effect. add_parametrized_kernels issues a warning for exactly the values it does not turn into members.", "quantifier": "all samples, kernels, histories and kernel failures; all buckets, kernel classes and lists of values", "why_tests_cant": "tests check single cases in which a warning is expected; statement about all histories and failures", "anchors": ["kernelmethods/base.py:KernelMatrix._populate_fully", "kernelmethods/base.py:KernelMatrix.normalize", "kernelmethods/base.py:KernelMatrix.full", "kernelmethods/sampling.py:KernelBucket.add_parametrized_kernels"]}
{"id": "C91", "title": "Predicted labels are training labels", "statement": "After a successful fit of a classifier (KernelMachine, OptimalKernelSVC), and any calls of predict and set_params, every label that predict returns is one of the labels given to fit (equal in Python), and equals the prediction of the underlying SVC: the final conversion of predictions to a dtype never changes a label, merges two labels or raises. Regressors return the predictions of the SVR unchanged.", "quantifier": "all labels and dtypes that an SVC accepts, training and test data, kernels, and sequences of calls", "why_tests_cant": "tests use labels 0, 1, 2; statement about all label types and values", "anchors": ["kernelmethods/algorithms.py:BaseKernelMachine.predict", "kernelmethods/algorithms.py:OptimalKernelSVC.predict", "kernelmethods/algorithms.py:BaseKernelMachine.fit"]}
{"id": "C92", "title": "Composite kernels of one family", "statement": "Composite kernels agree with the algebra of the kernel families: a ProductKernel of Gaussian, Laplacian or chi2 kernels equals the single kernel of the family whose gamma is the sum of theirs (for GaussianKernel(sigma): 1/sigma^2 is the sum of the 1/sigma_k^2), of polynomial kernels with equal gamma and b the one whose degree is the sum, of n linear kernels the polynomial kernel of degree n; a SumKernel of homogeneous polynomial kernels with binomial weights is the inhomogeneous one; an AverageKernel of copies of a kernel is the kernel. Normalising a polynomial kernel of degree d gives the d-th power of the normalised kernel of degree 1. Concatenating features multiplies (Gaussian, Laplacian, chi2) or adds (linear, Hadamard) kernel values.", "quantifier": "all samples, parameters, numbers of members, and histories of the member objects before the set is attached", "why_tests_cant": "an identity between whole families of configurations and samples; tests compare a few matrices", "anchors": ["kernelmethods/base.py:ProductKernel.fit", "kernelmethods/base.py:SumKernel.fit", "kernelmethods/base.py:AverageKernel.fit", "kernelmethods/numeric_kernels.py:GaussianKernel.__init__", "kernelmethods/numeric_kernels.py:PolyKernel.__call__"]}
{"id": "C93", "title": "Operations announce results that are not the ordinary ones", "statement": "is_PSD warns exactly when it answers False without looking at the eigenvalues, so that a silent False is genuine; normalize_km warns exactly when it raises NotImplementedError or returns NaN or infinite values; a result of normalize_km_2sample without a warning is finite; alignment_centered warns exactly when it returns value_if_zero_division; find_optimal_kernel issues one warning for each member without an alignment, so that a silent choice is a genuine one, and with constant targets all members are announced and the first is returned; make_kernel_bucket warns exactly when given a bucket. Warnings have no effect on results.", "quantifier": "all arguments, buckets with all histories, numbers of members, targets", "why_tests_cant": "tests check that a warning appears in one case, not that a silent result is never wrong", "anchors": ["kernelmethods/operations.py:is_positive_semidefinite", "kernelmethods/operations.py:normalize_km", "kernelmethods/operations.py:normalize_km_2sample", "kernelmethods/operations.py:alignment_centered", "kernelmethods/ranking.py:find_optimal_kernel", "kernelmethods/sampling.py:make_kernel_bucket"]}
{"id": "C94", "title": "A kernel bucket contains no kernel twice", "statement": "Any two members of a KernelBucket made from lists of parameter values without repetitions, in particular of the buckets of make_kernel_bucket, are different kernels, with and without normalisation: there are samples on which, after attaching the bucket, their full matrices differ.", "quantifier": "all lists of degrees, sigmas, gammas and offsets, both settings of normalisation; all pairs of members", "why_tests_cant": "whether two kernels agree on all samples cannot be seen from finitely many values; tests count the members", "anchors": ["kernelmethods/sampling.py:KernelBucket", "kernelmethods/sampling.py:KernelBucket.add_parametrized_kernels", "kernelmethods/sampling.py:make_kernel_bucket", "kernelmethods/numeric_kernels.py:GaussianKernel"]}
{"id": "C95", "title": "Normalisation does not hide an overflow", "statement": "In floating point arithmetic with overflow, a finite entry of a normalised kernel matrix has only rounding errors: kernel values that have overflowed do not turn into ordinary-looking numbers, and normalising finite positive semidefinite matrices does not overflow.", "quantifier": "all floating point formats, all orders of summation, all square matrices and all pairs of self-kernels; for km.full all histories, all finite samples, linear, polynomial, Gaussian and Laplacian kernels", "why_tests_cant": "overflow needs data near the end of the range, and 0 is a plausible similarity", "anchors": ["kernelmethods/operations.py:normalize_km", "kernelmethods/operations.py:normalize_km_2sample", "kernelmethods/base.py:KernelMatrix.normalize", "kernelmethods/base.py:KernelMatrix.full"]}
{"id": "C96", "title": "Centering and alignment do not hide an overflow", "statement": "In floating point arithmetic with overflow, a finite result of centering, of Frobenius products and norms and of alignment has only rounding errors: infinite and undefined entries do not turn into ordinary-looking numbers, and moderate entries do not overflow.", "quantifier": "all floating point formats, all orders of summation, all matrices with finite, infinite and undefined entries", "why_tests_cant": "overflow needs entries near the end of the range, and an alignment of 0 is plausible: the kernel is merely ranked last", "anchors": ["kernelmethods/operations.py:center_km", "kernelmethods/operations.py:frobenius_product", "kernelmethods/operations.py:frobenius_norm", "kernelmethods/operations.py:alignment_centered"]}
{"id": "C97", "title": "Composite kernels do not hide an overflow", "statement": "In floating point arithmetic with overflow, a finite entry of a composite kernel or of a linear combination has only rounding errors: if a member (or a weight) is infinite or undefined there, so is the result, whatever the weights are.", "quantifier": "all floating point formats, all numbers of members, all matrices and weights with finite, infinite and undefined entries, all orders of summation of the weights", "why_tests_cant": "overflow needs data or weights near the end of the range, and the result 0 is plausible", "anchors": ["kernelmethods/base.py:SumKernel.fit", "kernelmethods/base.py:ProductKernel.fit", "kernelmethods/base.py:AverageKernel.fit", "kernelmethods/base.py:WeightedAverageKernel.fit", "kernelmethods/operations.py:linear_combination"]}
{"id": "C98", "title": "Overflow does not decide the choice of a kernel", "statement": "find_optimal_kernel chooses a kernel with the largest score, up to rounding errors: a kernel whose matrix or score is infinite or undefined is not preferred to others, and does not change which of them is chosen.", "quantifier": "all floating point formats, all numbers of kernels and samples, all matrices and scores with finite, infinite and undefined entries, all orders of summation", "why_tests_cant": "overflow needs data near the end of the range, and any kernel is a plausible choice", "anchors": ["kernelmethods/ranking.py:find_optimal_kernel", "kernelmethods/ranking.py:alignment_ranking", "kernelmethods/ranking.py:CV_ranking", "kernelmethods/utils.py:min_max_scale"]}
{"id": "C99", "title": "Estimators can be cloned", "statement": "sklearn.base.clone of an estimator succeeds and gives an unfitted estimator with copies of the parameters. fit of the clone does what fit of the original does, and their predictions are the same afterwards. Neither affects the other.", "quantifier": "all estimators and parameters, all histories of the original, all kernel functions, learners, data and sequences of predictions", "why_tests_cant": "tests clone estimators that have just been constructed", "anchors": ["kernelmethods/algorithms.py:BaseKernelMachine.get_params", "kernelmethods/algorithms.py:BaseKernelMachine.set_params", "kernelmethods/algorithms.py:BaseKernelMachine.__init__", "kernelmethods/algorithms.py:KernelMachineRegressor.__init__", "kernelmethods/algorithms.py:OptimalKernelSVR.get_params", "kernelmethods/algorithms.py:OptimalKernelSVC.get_params"]}
{"id": "C100", "title": "Tags of estimators tell which data they accept", "statement": "A machine with a given kernel fails to fit or predict, because the kernel function rejects the data, if and only if its tags contain requires_positive_X and the data have a negative entry.", "quantifier": "all kernel functions and parameters, all states of the machine, all training data and new data, with and without normalisation, all learners", "why_tests_cant": "tests of scikit-learn only use the tags to decide which data to generate", "anchors": ["kernelmethods/algorithms.py:BaseKernelMachine._more_tags", "kernelmethods/algorithms.py:BaseKernelMachine.fit", "kernelmethods/algorithms.py:BaseKernelMachine.predict", "kernelmethods/numeric_kernels.py:Chi2Kernel.__call__"]}
{"id": "C101", "title": "The kernels that are not chosen do not matter", "statement": "If kernels other than the one returned by find_optimal_kernel are removed from the bucket, find_optimal_kernel returns the same kernel.", "quantifier": "all buckets in all states of use, all ways of removing kernels, all samples and targets, both methods of ranking, all cross-validation scores", "why_tests_cant": "a test runs the search on one bucket and does not compare it with its parts", "anchors": ["kernelmethods/ranking.py:find_optimal_kernel", "kernelmethods/ranking.py:CV_ranking", "kernelmethods/ranking.py:alignment_ranking", "kernelmethods/utils.py:min_max_scale"]}
{"id": "C102", "title": "A kernel that cannot be evaluated is not passed over", "statement": "If the kernel function of some member of the bucket raises an exception on a pair of samples, then find_optimal_kernel, rank_kernels and fit of OptimalKernelSVC and OptimalKernelSVR raise an exception, each time they are called; they do not choose among the other kernels, nor rank numbers that were not computed.", "quantifier": "all buckets, all kernels that raise on some pair, all samples and targets, all names of ranking methods, all cross-validation scores, all earlier uses", "why_tests_cant": "a test uses kernels that do not raise, or calls the function once", "anchors": ["kernelmethods/ranking.py:find_optimal_kernel", "kernelmethods/ranking.py:rank_kernels", "kernelmethods/base.py:KernelMatrix._populate_fully", "kernelmethods/algorithms.py:BaseOptimalKernelMachine.fit"]}
{"id": "C103", "title": "A failed fit of OptimalKernelSVC or OptimalKernelSVR does not change predictions silently", "statement": "If fit of OptimalKernelSVC or OptimalKernelSVR raises an exception, then afterwards predict gives the same results as before this call, or raises an exception.", "quantifier": "all machines in all states of use, all training data and weights, all causes of failure (k_bucket, check of the data, method, kernels, SVM), all test data", "why_tests_cant": "a test does not go on using an estimator after an exception", "anchors": ["kernelmethods/algorithms.py:BaseOptimalKernelMachine.fit", "kernelmethods/algorithms.py:BaseOptimalKernelMachine.predict", "kernelmethods/algorithms.py:OptimalKernelSVC.predict"]}
{"id": "C104", "title": "A composite kernel of kernels that cannot be evaluated cannot be fitted", "statement": "If the kernel function of some member of a set raises an exception on a pair of samples, then fit of every composite kernel of the set, and linear_combination, raise an exception, each time they are called.", "quantifier": "all kernel sets with such a member, all samples, all kinds of composite kernels, all weights (also 0), all numbers of calls", "why_tests_cant": "needs kernels that raise, and calls repeated after an exception", "anchors": ["kernelmethods/base.py:SumKernel.fit", "kernelmethods/base.py:ProductKernel.fit", "kernelmethods/base.py:AverageKernel.fit", "kernelmethods/base.py:WeightedAverageKernel.fit", "kernelmethods/operations.py:linear_combination"]}
{"id": "C105", "title": "The package and its modules can be imported in any order, and __all__ is resolved", "statement": "With the dependencies installed, the package and each of its modules can be imported in any order and whatever has been done with the package before; each name in __all__ is an attribute of the package, the class of this name from the only module that defines it, also with \"from kernelmethods import ...\" and \"from kernelmethods import *\". Other names that do not begin with two underscores and are not modules raise AttributeError.", "quantifier": "all sequences of imports of modules, attribute accesses and from-imports (also ones that fail), all names", "why_tests_cant": "the outcome of imports between modules depends on the order in which they are first used; a test process starts with one order", "anchors": ["kernelmethods/__init__.py:__getattr__"]}
{"id": "C106", "title": "Without scikit-learn the package can be imported; only the machines are missing", "statement": "If sklearn is not installed, the package and all its modules but algorithms can be imported, and all names of __all__ other than the machines are resolved; the machines raise ImportError, each time. If numpy or scipy is not installed, everything raises ImportError, each time.", "quantifier": "all sequences of imports, attribute accesses and from-imports (also ones that fail), all names, all sets of installed dependencies", "why_tests_cant": "tests run with all dependencies installed", "anchors": ["kernelmethods/__init__.py:__getattr__"]}
{"id": "C107", "title": "Reading attributes of the package does not change what other attributes give", "statement": "Reading an attribute of the package gives the same result whatever attributes have been read before.", "quantifier": "all names, all sequences of attribute accesses", "why_tests_cant": "depends on what has been read before in the same process", "anchors": ["kernelmethods/__init__.py:__getattr__"]}
{"id": "C108", "title": "__all__ lists all public classes that the package exposes", "statement": "Every attribute of the package that does not begin with two underscores and is not a module is in __all__.", "quantifier": "all names, all states of the import system", "why_tests_cant": "a test would have to know all names", "anchors": ["kernelmethods/__init__.py:__getattr__"]}
{"id": "C109", "title": "In programs, kernel matrices change by calls of their own methods only", "statement": "Whatever a program does with sets, buckets, composite kernels, rankings and similarity matrices, a kernel matrix changes only by calls of its methods: full, set_attr and get_attr, calls written in the program, and attach_to if the program attaches sets or searches for the optimal kernel. Hence what holds for all histories of a single kernel matrix holds in programs, for instance that element access gives kernel values of the attached sample, that full is the Gram matrix, and that composite kernels and linear_combination combine the Gram matrices of the members, pairwise_similarity compares them, and find_optimal_kernel chooses by them. Precomputed kernel matrices do not change.", "quantifier": "all programs (sequences of constructions and calls, also ones that raise), all interleavings of programs, all kernel functions", "why_tests_cant": "the same kernel matrix is shared by sets and composites; the number of ways in which they can be used together is not bounded", "anchors": ["kernelmethods/base.py:KernelSet.attach_to", "kernelmethods/base.py:KernelSet.append", "kernelmethods/base.py:SumKernel.fit", "kernelmethods/sampling.py:pairwise_similarity", "kernelmethods/ranking.py:find_optimal_kernel"]}
{"id": "C110", "title": "In programs, sets only grow, and only by calls on themselves", "statement": "Whatever a program does, members are added to a set at its end only and are never removed or replaced, and the number of samples of a set does not change once there is one. A set changes only by append, extend, attach_to, add_parametrized_kernels and find_optimal_kernel called on this very set, not by what is done with sets taken from it, sets extended by it, composite kernels of it or its members. A composite kernel and its set always agree in the number of samples.", "quantifier": "all states, all programs (sequences of constructions and calls, also ones that raise)", "why_tests_cant": "the sets share their members with other sets and with composite kernels; the number of ways in which they can be used together is not bounded", "anchors": ["kernelmethods/base.py:KernelSet.append", "kernelmethods/base.py:KernelSet.take", "kernelmethods/base.py:KernelSet.extend", "kernelmethods/base.py:KernelSet.attach_to", "kernelmethods/base.py:CompositeKernel.__init__"]}
{"id": "C111", "title": "In programs, kernel values are computed once for all users of a kernel matrix", "statement": "However sets, composite kernels, rankings, similarity matrices and direct calls use a kernel matrix in a program, no pair of samples is evaluated twice between two calls of attach_to: num_ker_eval is the number of distinct pairs, with one stored value each. After full on a kernel matrix attached to one sample of n rows no further pair is evaluated, and the kernel function has been called exactly n(n+1)/2 times since attach_to, at most so often in any case, calls for normalising included.", "quantifier": "all states, all programs (sequences of constructions and calls, also ones that raise) that do not attach in between", "why_tests_cant": "the number of ways in which the users of a shared kernel matrix can take turns is not bounded; tests look at the values, not at how often they are computed", "anchors": ["kernelmethods/base.py:KernelMatrix._eval_kernel", "kernelmethods/base.py:KernelMatrix.full", "kernelmethods/base.py:KernelMatrix.attach_to", "kernelmethods/base.py:CompositeKernel.fit", "kernelmethods/base.py:KernelSet.append"]}
