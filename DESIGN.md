# Formal model of kernelmethods in Lean 4

`lean/` is a Lake project. Under `lean/Verif/`:

* `Model/*` models the Python code function by function. Every definition cites file and lines in the repository; definitions without a counterpart of their own there (Python and NumPy primitives, auxiliary types, programs that call the code) cite the lines they are used for, as "(for file:lines)".
* `Spec/*` says what the properties mean: matrices of kernel values, index sets, histories of calls, attached samples. It does not call the
  functions under test except to say "a history of calls"; `Spec/Demo*` holds small concrete objects used in examples and counterexamples.
* `Lemmas/*` are helper proofs.
* `Props/*` hold the property theorems (`Cnn_...`) and, beside them, `example`s showing that the hypotheses can be met by non-trivial objects.

`properties.jsonl` states the properties in words, `MANIFEST.json` maps them to theorems, `seeded/LOG.jsonl` records the wrong programs the
theorems were tried against.

## Modelling conventions

* **Exceptions are values.** A Python method that may mutate `self` and may raise is a function `σ → Except PyErr α × σ` (`PyM σ α`): a raise keeps
  the mutations made so far, as in Python. `try: ... except: raise E` is `PyM.catchAll`, `try: ... except: warn(...)` is `PyM.ignoreErrors`.
  Which exception class is raised is modelled, its message is not.
* **Numbers.** Floating point is idealised as exact real numbers plus one non-finite value: `F := real x | nan`; `nan` stands for NaN and ±Inf and
  is absorbing under arithmetic. Overflow and signed infinities are modelled in `Model/Overflow` (C83, C84), `Model/OverflowNorm` (C95), `Model/OverflowAlign` (C96), `Model/OverflowComposite` (C97) and `Model/OverflowRanking` (C98) only, and rounding only in these and in `Model/Rounding` (C71), `Model/RoundAlign` (C75, C76) and `Model/RoundComposite` (C79). `np.isclose(a, b)` is `|a-b| ≤ 1e-8 + 1e-5*|b|`, false on
  non-finite operands.
* **Kernel calls may fail.** A kernel is a value function `kval` plus a fault oracle `fails : Nat → K → X → X → Bool` indexed by the running number
  of kernel calls, so failures may be transient and may occur at any evaluation.
* **State machine.** `KernelMatrix` is modelled field by field (`KMState`); "attribute does not exist yet" is `none`; every public method is an operation.
  Properties quantify over all lists of calls (`Reachable`, `Since...` in `Spec/History`), including calls that raise.
* The state machine is generic in the value type `V` and the numeric operations (`Ops V`); `realOps` instantiates them with the model of `operations.py`
  over `F`. Some theorems hold for all `V` and all `Ops V`.
* **Objects are references.** Members of a `KernelSet` are references into a heap, so two sets can share a member and `deepcopy` makes new objects.
* **Threads** (`Model/Threads`) are trees of atomic steps: one read or write of an attribute, dict entry or array, or one kernel call. An execution is a list of thread numbers; a thread that
  runs alone is proved to behave as the sequential model (`C73_single_thread_partial`).
* **Storage format** (ndarray, `lil_matrix`, `np.matrix`) is modelled because `*`, `ravel`, `isinstance(..., np.ndarray)` depend on it.
* **scikit-learn** is a parameter: learners, cross-validation scores, and the outcome of `check_X_y`/`check_array` are arbitrary functions or values.

## Trusted base

* Lean 4.33.0's kernel. No axioms of our own, no `sorry`, no `native_decide`, no `bv_decide`, no `implemented_by`. Mathlib supplies analysis and
  linear algebra.
* The axioms each property theorem depends on (from `#print axioms`; nothing beyond Lean's three standard axioms):

<!-- axioms begin -->
* **no axioms** (3): C50_bad_objects, C50_unsized_objects, C50_full_diag
* **`propext`** (17): C05_invalid_key, C10_violated, C11_violated, C13_violated, C69_violated_results_not_copied, C69_violated_sparse_result, C70_violated_stale, C70_violated_raises, C70_violated_format, C73_violated_full, C73_violated_counter, C89_truncated, C89_contains_truncated, C89_unattached, C89_constant_violated, C90_no_effect, C90_violated
* **`Quot.sound`, `propext`** (7): C11_custom_two_samples_violated, C62_iterable, C70_set_text, C90_no_false_alarm, C99_machine_partial, C99_machine_iff, C99_machine_violated
* **`Classical.choice`, `Quot.sound`, `propext`** (634): C01_element_access, C02_evaluated_at_most_once, C02_evaluations_only_accumulate, C02_full_evaluates_all, C02_full_evaluates_all_two, C02_nothing_after_full, C03_getitem_is_lazy, C03_diagonal_is_lazy, C04_selection_semantics, C04_increasing_lists, C05_invalid_access, C06_linear_indexing, C07_slices, C07_zero_step, C07_usual_slices, C08_full_is_gram, C08_symmetric, C09_full_is_normalised_gram, C09_one_sample, C09_two_samples, C10_full_contents_partial, C11_custom_partial, C11_custom_always_raises_partial, C11_no_stale_full_partial, C11_no_wrong_values_partial, C12_reattach_is_fresh, C13_bad_first_sample_partial, C13_bookkeeping_partial, C14_attributes, C15_two_sample_restrictions, C16_centered, C16_frob_norm_one, C16_frob_norm_two, C16_diagonal, C17_bookkeeping_one, C17_bookkeeping_two, C17_unattached, C18_center, C18_errors, C19_normalise, C20_errors, C20_negative_diagonal, C21_values, C21_errors, C21_agrees, C21_same_samples, C22_inner_product, C22_symmetric, C22_errors, C22_norm, C23_range, C23_symmetric, C23_self, C23_scaling, C23_add_constant, C23_psd_nonneg, C24_degenerate, C24_rejects, C25_rejects, C25_decides, C25_accepts_psd, C26_value, C26_normalised, C26_wrong_number, C26_psd, C27_numeric_symmetric, C27_match_symmetric, C28_linear, C28_poly, C28_gaussian, C28_laplacian, C28_chi2, C28_hadamard, C28_match_count, C28_match_perc, C29_gaussian, C29_laplacian, C29_chi2, C29_sigmoid, C29_hadamard, C29_match_count, C29_match_perc, C30_call_accepts, C30_call_rejects, C30_match_accepts, C30_match_rejects, C30_length, C30_chi2_negative, C30_hadamard_alpha, C30_gaussian_eps, C31_not_psd, C31_is_psd_false, C32_sum, C32_average, C32_weighted, C32_product_partial, C32_product_violated, C32_sum_eq_weighted, C32_average_eq_weighted, C32_sum_eq_linear_combination, C33_sum, C33_average, C33_weighted, C33_product, C33_pipeline, C34_construct, C34_construct_weighted, C34_not_fitted, C35_violated, C35_bad_arguments_partial, C35_stays_fitted_partial, C35_sum_violated, C35_weighted_violated, C35_average_violated, C35_product_violated, C36_append_compatible, C36_append_incompatible, C36_new_set, C36_new_set_one, C36_append_matrix, C36_failed_append, C36_members_agree, C36_sharing_breaks_agreement, C37_sequence, C37_appends_in_order, C37_extend, C37_extend_self, C37_extend_new, C37_extend_incompatible, C37_extend_only_adds, C37_take, C37_take_nothing, C37_take_out_of_range, C37_take_keeps_source, C37_kernel_funcs, C38_wrong_size, C38_bad_sample, C38_attach, C38_precomputed_member, C39_set_scalar, C39_set_sequence, C39_set_wrong_length, C39_get, C40_contents, C40_bad_values, C40_bad_flags, C40_add_rejects, C40_exhaustive, C40_light, C40_linear_only, C40_other_strategy, C41_unattached_partial, C41_attached_adds_nothing, C41_violated, C42_unknown_metric, C42_symmetric, C42_align_partial, C42_corr_partial, C42_correlation_raises, C42_violated, C43_ideal, C44_constant, C44_scaled, C44_empty_nan, C45_align, C45_cv, C45_cv_tied, C45_cv_nan, C45_rejects, C45_member, C45_estimator_names, C45_wrong_size, C45_bad_sample, C45_empty_bucket, C45_keywords, C45_unknown_estimator, C45_score_raises, C46_cv_partial, C46_cv_strategy_partial, C46_violated, C46_type_error, C47_fit, C47_predict, C47_predict_cols, C47_fit_predict, C47_training_data, C47_not_fitted, C47_fit_rejects, C47_optimal_fit_rejects, C47_optimal_predict, C47_optimal_not_fitted, C47_optimal_after, C48_predict_again, C48_optimal_predict_again, C48_make_kernel_bucket, C49_partial, C49_predict_current, C49_violated, C49_optimal, C50_access_partial, C50_rows_out_of_range, C50_cols_out_of_range, C50_empty_selection_violated, C51_square_partial, C51_error, C51_rejects_partial, C51_violated, C51_diag, C51_access, C52_1D, C52_2D, C52_errors, C52_check_input_arrays, C53_full_psd, C53_normalised_psd, C53_centered_psd, C53_unit_diagonal, C54_is_psd, C54_is_psd_true, C55_linear, C55_poly, C55_gaussian, C55_laplacian, C55_chi2, C55_sigmoid, C55_hadamard, C55_match, C56_always_rbf, C56_partial, C56_violated, C57_fit, C57_predict, C57_make_kernel_bucket, C58_round_trip, C59_partial, C59_violated, C60_violated, C60_first_call, C60_second_call, C60_library_kernels_partial, C60_custom_finite_partial, C61_construct, C61_construct_error, C61_one_sample, C61_two_samples, C61_raising, C62_operation, C62_names, C63_light, C63_exhaustive_partial, C63_first_nan, C63_nan_chosen, C63_zero_row, C63_violated, C63_violated_best, C64_stored, C64_fits_partial, C64_linear_iff, C64_chi2, C64_int64_partial, C64_violated, C64_symmetric_partial, C64_not_symmetric, C64_matrix_partial, C64_matrix_violated, C65_subsample, C65_blocks, C65_normalised, C65_normalised_blocks, C65_reordered, C65_asymmetric, C66_feature_order, C66_match_feature_order, C66_zero_feature, C66_zero_feature_hadamard, C66_shift, C66_scale, C66_gaussian_units, C66_feature_groups, C66_poly, C66_values_only, C66_numeric, C66_matrix, C67_history, C67_targets_shift, C67_targets_affine, C67_sample_order, C68_constructor, C68_round_trip, C68_set_get, C68_ignored, C68_epsilon, C68_refit, C69_element_access_partial, C69_evaluated_at_most_once_partial, C69_entries_are_remembered_partial, C69_reattach_is_fresh_partial, C69_samples_unused_after_full_partial, C69_returned_matrix_stays_partial, C69_violated_samples_not_copied, C70_shows_the_attached_samples_partial, C70_new_object_partial, C70_printing_is_transparent, C70_text_determines_shapes, C70_kernels_print_differently, C70_text_determines_sizes, C70_sample_numbers_print_differently, C70_composite_text, C71_kernel_error, C71_normalise, C71_normalise_errors, C71_normalise_two_samples, C71_full, C71_full_is_psd_partial, C71_full_normalised, C71_full_normalised_is_psd, C71_double_is_psd, C71_is_psd, C71_violated, C72_frob_norm_partial, C72_frob_norm_after_sparse, C72_frob_norm_two_samples, C72_centered_partial, C72_centered_after_sparse, C72_violated, C73_single_thread_partial, C73_threads_finish_partial, C73_elements_partial, C73_diagonal_partial, C73_evaluations_partial, C73_full_partial, C73_whole_key_partial, C73_after_full_partial, C74_no_missing, C74_value_partial, C74_hadamard, C74_chi2, C74_constant, C74_full_partial, C74_full_two_partial, C74_violated_normalised, C74_violated_centered, C74_violated_chi2_psd, C74_hadamard_psd, C75_center, C75_center_psd, C75_center_errors, C75_frobenius, C75_frobenius_errors, C75_align_centered, C75_align_bounds, C75_align_symmetric, C75_align_self, C75_align_shape_errors, C75_align_partial, C75_zero_division, C75_best_partial, C75_best_kernel_partial, C75_clear_winner_partial, C75_violated, C75_exceeds_one, C76_errors, C76_band, C76_exact, C76_psd, C76_full_normalised, C76_is_psd, C77_sorted_selection, C77_agrees_partial, C77_two_lists_violated, C77_repeated_violated, C77_negative_violated, C77_empty_violated, C77_linear_violated, C77_list_key_violated, C77_order_violated, C77_normalised_violated, C77_precomputed, C77_constant, C78_positive_definite, C78_positive_definite_normalised, C78_gaussian, C78_interpolates, C78_centered, C78_repeated, C78_normalising, C78_linear, C78_poly, C78_hadamard_signs, C78_sum, C78_average, C78_weighted, C78_product, C78_pipeline, C79_sum, C79_product, C79_same_errors, C79_same_errors_combination, C79_sum_psd, C79_product_psd, C79_combination, C79_normalised_partial, C79_kernels, C79_cancellation_violated, C80_function_partial, C80_selection_partial, C80_together_partial, C80_normalising, C80_violated, C80_optimal_partial, C80_training_order, C81_isolation, C81_objects, C81_disjoint, C81_interleavings, C82_snapshot, C82_current_partial, C82_constructed_partial, C82_weighted_ignores, C82_combine, C82_violated, C83_error_partial, C83_bounded_finite, C83_lost_double, C83_moderate, C83_violated_chi2, C83_chi2_far, C83_violated_chi2_far, C83_violated_hadamard, C83_violated_sigmoid, C83_violated_laplacian, C83_full_partial, C83_full_moderate, C84_value_partial, C84_self_partial, C84_violated_chi2, C84_violated_sigmoid, C84_full_partial, C85_one_sample, C85_two_samples_partial, C85_repeated_normalisation, C85_violated, C85_one_call, C85_fit, C85_predict, C86_kernel, C86_continuous, C86_uniform, C86_full, C86_full_normalised, C86_centered, C86_negative_powers, C86_chi2_edge, C87_machine_partial, C87_optimal_partial, C87_copied_partial, C87_overwritten, C87_violated, C87_precomputed_partial, C87_precomputed_written, C87_precomputed_violated, C87_composite_partial, C87_refit, C87_composite_violated, C87_weights, C87_weights_violated, C88_features, C88_center, C88_normalise, C88_object, C88_linear, C88_sum, C88_average, C88_weighted, C88_product, C88_distance, C88_linear_distance, C88_sigmoid, C89_loop_partial, C89_elements, C89_violated, C89_contains_partial, C89_reversed, C89_contains_violated, C89_reversed_truncated, C89_precomputed_partial, C89_precomputed_reversed, C90_silent_partial, C90_full_exact, C90_normed_exact, C90_bucket, C91_machine, C91_regressor, C91_optimal_partial, C91_optimal_answers, C91_text_violated, C91_violated, C91_svr_violated, C92_gaussian, C92_gaussian_sigma, C92_laplacian, C92_chi2, C92_poly, C92_linear, C92_binomial, C92_average, C92_normalised, C92_joined, C93_no_effect, C93_psd, C93_psd_silent, C93_normalise, C93_normalise_negative, C93_normalise2_partial, C93_normalise2_violated, C93_align, C93_align_real, C93_choice, C93_choice_silent, C93_choice_constant, C93_bucket, C94_distinct_partial, C94_default, C94_violated_sigmoid, C94_violated_sigma, C95_visible, C95_accurate, C95_finite, C95_two_visible, C95_two_accurate_partial, C95_full, C95_full_bounded, C95_full_two_partial, C95_violated, C96_center_visible, C96_center_accurate, C96_center_finite, C96_shapes, C96_frobenius, C96_norm, C96_frobenius_finite, C96_align_centered_partial, C96_align_partial, C96_align_finite, C96_violated, C97_visible, C97_sum, C97_average, C97_product, C97_errors, C97_sum_finite, C97_product_finite, C97_combination, C97_normalised_partial, C97_violated, C98_best_partial, C98_finite_scores_partial, C98_nan_violated, C98_violated, C98_cv, C98_cv_violated, C98_empty, C99_machine_params, C99_machine_fits, C99_optimal_clone, C99_optimal_fits, C99_optimal_apart, C99_optimal_original, C100_kernels, C100_fit_partial, C100_predict_partial, C100_violated, C101_align, C101_cv_score, C101_cv_partial, C101_cv_history, C101_cv_violated, C101_nan_violated, C102_find, C102_first, C102_fit, C102_chi2, C102_rank_partial, C102_rank_custom_partial, C102_rank_violated, C103_never_fitted, C103_rejected_partial, C103_search_violated, C103_svm_violated, C103_violated, C104_fit_partial, C104_linear_combination_partial, C104_custom_partial, C104_violated, C105_modules, C105_names, C105_from, C105_star, C105_unknown, C106_modules, C106_names, C106_machines, C106_missing, C107_partial, C107_without_sklearn, C107_reads_partial, C107_violated, C108_partial, C108_violated, C109_calls, C109_precomputed, C109_constructed, C109_session, C109_since, C109_values, C109_full, C109_members, C109_composite, C109_combine, C109_members_dense, C109_product, C109_similarity, C109_find, C109_attach, C109_normalised, C109_attach_full, C110_grown, C110_unchanged, C110_composite, C111_once, C111_nothing_after_full, C111_cost, C111_attach, C111_session
<!-- axioms end -->

* Our reading of the Python source. The code was not run.
* Our reading of the library calls it makes: numpy broadcasting of 2-D arrays, `tril_indices`, `unravel_index`, `squeeze`, `isclose`, `argmax` (first NaN,
  else first maximum), `diagflat`, `slice.indices`, indexing of 2-D arrays by integers, slices and sequences of integers; `lil_matrix` and `np.matrix` arithmetic (`*` is the matrix product); `scipy.linalg.eigh` idealised as the
  exact eigenvalues (as an arbitrary solver in C76); `scipy.stats.pearsonr` as the clipped correlation, NaN for constant input; `copy.deepcopy`; `str.lower` on ASCII
  letters; `'{}'.format(x)` calling `type(x).__format__(x, '')`.

## What is modelled

| source | model |
|---|---|
| `base.py` `BaseKernelFunction.is_psd`, `KernelFromCallable` | `Model/Kernels` |
| `base.py` `KernelMatrix` (all public methods and properties except arithmetic operators) | `Model/KernelMatrix`; arrays shared with the caller `Model/Alias`; several threads `Model/Threads` |
| `__str__`, `__repr__`, `__format__` of all classes | `Model/Describe` |
| `base.py` `KernelMatrixPrecomputed`, `ConstantKernelMatrix` | `Model/Derived`; numpy indexing `Model/NpIndex` |
| `base.py` `KernelSet` | `Model/KernelSet` |
| programs using all of `base.py`, `linear_combination`, `rank_kernels`, `find_optimal_kernel`, `KernelBucket`, `add_parametrized_kernels` and `pairwise_similarity`; several such programs in one interpreter | `Model/Session` (programs share no objects; arrays passed as samples are values) |
| `base.py` `CompositeKernel`, `SumKernel`, `ProductKernel`, `AverageKernel`, `WeightedAverageKernel`; `operations.py` `linear_combination` | `Model/Composite`; with rounding `Model/RoundComposite`; with overflow `Model/OverflowComposite` |
| `operations.py` `is_positive_semidefinite`, `center_km`, `normalize_km`, `normalize_km_2sample`, `frobenius_product`, `frobenius_norm`, `alignment_centered` | `Model/Operations`; with rounding, and `is_positive_semidefinite` with any eigenvalue solver, `Model/RoundAlign` |
| `utils.py` | `Model/Utils`, `Model/Scale`, `containsNanInf` in `Model/Operations`, `ensureMinEps` in `Model/Kernels` |
| `numeric_kernels.py`, `categorical.py` | `Model/Kernels`; numeric kernels on integer arrays `Model/IntKernels`, on arrays with NaN `Model/Missing`; numeric kernels and normalisation with rounding `Model/Rounding`; numeric kernels with overflow, infinite numbers and NaN `Model/Overflow`, normalisation with these `Model/OverflowNorm`, centering and alignment `Model/OverflowAlign` |
| `sampling.py`, default values in `config.py` | `Model/Sampling` |
| `ranking.py` | `Model/Ranking`; `find_optimal_kernel(method='align/corr')` with rounding `Model/RoundAlign`; with overflow `Model/OverflowRanking` |
| iteration over kernel matrices (`for`, `in`, `reversed`) | `Model/Iterate` |
| warnings issued by `KernelMatrix` and `add_parametrized_kernels` | `Model/Warnings` |
| warnings issued by `operations.py`, `find_optimal_kernel`, `make_kernel_bucket` | `Model/OpWarnings` |
| conversion of predictions in `predict` (algorithms.py:153, 681-683) | `Model/Labels` |
| `algorithms.py` | `Model/Algorithms`, `Model/Params`, `Model/Clone` (with scikit-learn's `clone`), `Model/Tags`; arrays shared with the caller `Model/Store` |
| `__init__.py`, imports between all modules | `Model/Package` |
| `slice.indices`, `range` | `Model/Slice` |

## What is not modelled

* Floating-point overflow outside `Model/Overflow`, `Model/OverflowNorm`, `Model/OverflowAlign`, `Model/OverflowComposite` and `Model/OverflowRanking` (kernel functions, kernel matrices, normalisation, centering, alignment, composite kernels, ranking); the sign of zero; underflow except in `np.exp`; rounding outside `Model/Rounding` (kernel functions except the sigmoid, normalisation, as used by `KernelMatrix`)
  `Model/RoundAlign` (centering, Frobenius products, alignment, ranking by alignment; eigenvalue solvers) and `Model/RoundComposite`, in particular that of the parameters of kernels; integer overflow outside `Model/IntKernels`; outside the former five also the difference between NaN and ±Inf, and infinite entries in samples.
* The text of numbers, of `KernelFromCallable` and of parameters that are not numbers; `name` arguments of sets, buckets and machines.
* Warnings, apart from those of `KernelMatrix` about NaN or infinite values and of `add_parametrized_kernels` (`Model/Warnings`, C90), of `operations.py`, `find_optimal_kernel` and `make_kernel_bucket` (`Model/OpWarnings`, C93) and the exception raised while composing one (C60);
  Python's filters for warnings; numpy's warnings.
* `KernelMatrix.__add__/__mul__/__sub__` (base.py:781-793), `eval_similarity` (operations.py:383): they only raise `NotImplementedError`.
* `KernelMatrix._features` (private helper; its effect is part of `rowAt`); how `_version.py` finds the version; what the top-level statements of modules evaluate (`Model/Package` has their names and imports only); assigning to attributes of modules, `importlib.reload`, the subpackage `tests`.
* `MLDataset` inputs (pyradigm); `np.matrix` samples. A scipy sparse matrix given as a sample is, for `KernelMatrix.attach_to`, a 0-dimensional object array (`SampleIn.arr []`), and lists and data frames are objects without `dtype` (`noDtype`).
* In-place mutation, by the caller, of arrays other than those passed to or returned by `KernelMatrix` (`Model/Alias`, C69), machines, `KernelMatrixPrecomputed`, composite kernels (`Model/Store`, C87).
* scikit-learn internals, hyper-parameter grids, random numbers (`is_psd` is stated for every sample that `np.random.rand` might return).
* Performance and memory. Threads, except several threads that share one `KernelMatrix` (`Model/Threads`, C73).

Simplifications local to one function are stated in the comment of its model definition.

## Where the code disagrees with a property

For each, the negation is proved with a concrete witness (`Cnn_violated` or similar), what does hold is proved as `..._partial`.

* **C10** After `km.full_sparse`, `km.full` returns the upper triangle only (the lower triangle is 0): `_populated_fully` is shared by both formats.
* **C11** If a kernel call raises while `full` is being computed, `full` raises `RuntimeError`, but the next `full` returns the matrix with
  unevaluated entries (NaN): `hasattr(self, '_full_km')` makes the second call skip the computation. Entries are never wrong, only missing. Custom kernels are, by
  accident, protected when attached to one sample: the missing entry is NaN, and the warning about it raises (see C60), each time. With two samples the second call
  returns unevaluated entries for them too (`C11_custom_two_samples_violated`).
* **C13** `attach_to(one, two)` with a bad second sample raises after the first sample has been replaced.
* **C32** `ProductKernel` multiplies members in sparse storage (`np.matrix`) as matrices instead of entry by entry.
* **C35** A refit that fails at some member leaves `composite_KM` at the partial sum or product while `_is_fitted` stays true. What is left is exactly the sum or product of the members before the one that raises, for `AverageKernel` without the division by their number (`C35_sum_violated` and three more).
* **C36** (agreement of numbers of samples) holds for a set as long as its members are not attached through another reference; sharing breaks it
  (`C36_sharing_breaks_agreement`).
* **C41** On a bucket that has been attached, `add_parametrized_kernels` adds nothing and raises nothing: the new kernel matrix has no samples, `append` raises
  `KMSetAdditionError`, and the bare `except` turns it into a warning.
* **C42** `pairwise_similarity` raises for members in sparse storage.
* **C46** `OptimalKernelSVC/SVR(method='align/corr').fit` always raises: `estimator_name` is passed on to `alignment_centered`, which has no such argument.
* **C49** `KernelMachine.set_params(k_func=..., normalized=...)` after `fit` changes predictions without a refit: `predict` builds the test kernel matrix from
  the current parameters.
* **C50** `ConstantKernelMatrix`: an empty selection raises `NameError` (the error message uses an undefined name `dim`) instead of `KMAccessError`.
* **C51** `KernelMatrixPrecomputed` accepts 1×m arrays with constant entries, because the symmetry test broadcasts.
* **C56** `OptimalKernelSVC/SVR` never set `kernel='precomputed'`: scikit-learn applies its default `rbf` kernel to rows of the kernel matrix.
* **C59** A refit of `KernelMachine` with an unknown learner raises after the training data have been replaced; `predict` then combines the old model with the new
  data. A classifier with `learner_id='SVR'` raises `AttributeError` (no `classes_`) after fitting.
* **C60** `KernelFromCallable` sets `__format__ = __str__`, which does not accept the format specification. The warning about NaN/Inf values formats the
  kernel, so that the first `full` raises `TypeError` instead of warning; the next call returns the matrix. The same alias is in
  `KernelMatrix` (base.py:776), `KernelMatrixPrecomputed` (865), `ConstantKernelMatrix` (1035), `KernelSet` (1250) and `CompositeKernel` (1434).
* **C63** The bucket 'exhaustive' (the default) contains the sigmoid kernel with offset -2, whose self-kernel `tanh(|x|^2 - 2)` is negative for rows with squared length
  below 2. Normalisation (the default) then produces NaN, the alignment is NaN, and `np.argmax` returns the first NaN: `find_optimal_kernel` with `align/corr`
  chooses this kernel, even if another one fits the targets perfectly.
* **C64** Samples keep their integer dtype, and numpy's integer arithmetic wraps around: the linear kernel of the `uint8` sample 16 with itself is 0, so that the matrix of
  16 and 1 is not positive semidefinite and its normalisation raises; the Gaussian and Laplacian kernels on unsigned samples are not symmetric; the Hadamard kernel with
  its default `alpha` is 0 for the `int64` entry 2048. Only the chi² kernel converts its arguments to float.
* **C69** `attach_to` keeps a view of the caller's array, and `full`, `full_sparse`, `normed_km`, `centered` and `km[:, :]` return the object's own attributes. If the caller
  overwrites the sample after some elements have been computed, `full` mixes old and new kernel values; if it changes a result in place, later results change. The sparse
  matrix returned by `full_sparse` is filled in place by a later `km[:, :]`.
* **C70** `attach_to` with a bad second sample (C13) also leaves the old description behind, so that `str(km)` names samples that are no longer used; on a new object `str(km)`
  then raises `AttributeError`. `'{}'.format(km)` always raises `TypeError` (see C60).
* **C71** `is_PSD` compares eigenvalues with an absolute tolerance of 1e-6, whatever the size of the entries. In double precision the linear kernel on the two samples 200000001
  and 200000005 gives a matrix with an eigenvalue of about -4, although the exact matrix is positive semidefinite.
* **C72** `np.multiply` of a `lil_matrix` with itself is the matrix product. After `full_sparse` (or `km[:, :]`), `frob_norm` is the square root of the sum of the entries of that
  product, of the upper triangle only after `full_sparse`: for the linear kernel on the samples 1, 2 it is √27 instead of 5; for two samples of different sizes it raises
  `ValueError`. `centered` raises `ValueError` then.
* **C73** The documentation advertises "parallel computation of different part of the KM" (docs/kernel_matrix.rst:10). This works for parts, not for the whole: `self._full_km` is
  assigned before it is filled, and its existence is what the other threads test. If two threads call `full` on the same object, one can return a matrix almost all of which is
  NaN, declare the lower triangle filled, and so leave it at NaN in all later results. `self._num_ker_eval += 1` loses increments. Once `full` has returned, the object can be
  shared freely.
* **C74** A missing value (NaN) is not reported anywhere. The Hadamard kernel (`denominator > 0` is false on NaN) and the chi² kernel (`np.nansum`) silently leave the
  coordinate out, the polynomial kernel of degree 0 does not depend on it, the other kernels return NaN. The chi² kernel is then not positive semidefinite, for any
  gamma. `normalize_km` multiplies with `diag(1/sqrt(diag))`, and `center_km` with full matrices: 0 · NaN = NaN makes the whole matrix NaN, also for complete samples, if the matrix
  product follows IEEE (a BLAS that skips zero factors is not modelled).
* **C75** `alignment_centered` decides with an absolute tolerance of 1e-8 whether a norm is zero. In double precision the constant 3 × 3 matrix with entries 2⁸⁰ is centered to 2⁻²⁶
  everywhere instead of 0, its norm is above the tolerance, and its alignment with itself is about 1 instead of raising `ValueError`. Alignments can exceed 1 (identity matrix).
* **C79** `linear_combination(norm_weights=True)` divides by a sum of weights that can cancel: in double precision 2⁵⁴, 1, -2⁵⁴ sum to 0 from left to right, and `RuntimeError` is raised, although
  the sum is 1.
* **C80** A machine with `normalized=True` computes predictions for a batch all or nothing: one sample with self-kernel 0 makes `predict` raise `KMNormError` for the whole batch, although the other samples alone are
  predicted (`C80_violated`; when exactly: `C80_normalising`).
* **C82** A member added to the set of a `WeightedAverageKernel` after its construction is left out of the weighted sum without an exception: the number of weights is checked by the constructor only, and `fit` zips
  weights and members (`C82_violated`, `C82_weighted_ignores`).
* **C83** Overflow can go unnoticed. The chi² kernel leaves out coordinates where the quotient overflows to inf/inf (`np.nansum`): the value is 1, that of equal samples, instead of almost 0 (`C83_violated_chi2`).
  If only the squared difference overflows, the value is 0 instead of at least exp(-64 gamma) (`C83_violated_chi2_far`).
  The Hadamard kernel divides by an infinite denominator: 0 instead of a number above 1/4 (`C83_violated_hadamard`). The sigmoid kernel maps an infinite inner product to 1, also if the inner product is 0
  (`C83_violated_sigmoid`). The Laplacian kernel, whose `gamma` may be tiny, is 0 instead of exp(-2) (`C83_violated_laplacian`).
* **C84** Infinite entries are not rejected. The chi² kernel takes them for missing values, and is 1 on a sample of infinite numbers and itself (`C84_violated_chi2`); so is the sigmoid kernel (`C84_violated_sigmoid`).
* **C85** Between two samples a normalisation that raises `KMNormError` is not remembered: every access to the normalised matrix evaluates the self-kernels of both samples again (`C85_repeated_normalisation`, `C85_violated`). The comment in `attach_to` promises a bound on the number of kernel evaluations regardless of the number of accesses.
* **C86** is stated for the parameters and data the kernels are meant for. `HadamardKernel(alpha)` and `PolyKernel(degree)` also accept negative numbers; then the value is NaN at 0 though finite nearby (`C86_negative_powers`).
* **C87** `KernelMachine` and `OptimalKernelSVC`/`SVR` keep a reference to an ndarray they are fitted with (`check_X_y` does not copy it): overwriting it changes later predictions, which then mix a model of the old with kernel values of the new contents
  (`C87_overwritten`, `C87_violated`). `KernelMatrixPrecomputed` keeps the ndarray, so its symmetry is checked only once (`C87_precomputed_violated`); `composite_KM` returns its own array (`C87_composite_violated`);
  `WeightedAverageKernel` keeps a view of the weights (`C87_weights_violated`).
* **C89** The kernel matrix classes have `__getitem__` but no `__iter__`, so that `for v in km` asks for `km[0]`, `km[1]`, ... until `IndexError`. `KernelMatrix` raises `ValueError` for
  `km[n * m]` (from `np.unravel_index`) and `KernelMatrixPrecomputed` turns every exception into `KMAccessError`: loops, `list(km)`, `sum(km)` and `w in km` for an absent `w` always raise.
  `ConstantKernelMatrix` raises at once. A kernel function that raises `IndexError` ends the loop early without any exception.
* **C77** The documentation says that `km[...]` is "aimed to be compliant with numpy implementation as much as possible" (base.py:602). It differs from `km.full[...]`: two sequences select all
  combinations instead of pairs; positions are sorted and repetitions dropped; negative integers and empty slices raise `KMAccessError`; `km[t]` is entry `t` of the flattened
  matrix instead of row `t`; `km[[i, j]]` is `km[i, j]` instead of two rows; axes indexed by integers are kept; and an object that normalises returns plain kernel values.
* **C90** With two samples, `_populate_fully` marks the matrix as complete before the lower triangle is computed (see C11). A kernel failure there raises `RuntimeError`; the check for NaN
  at the end of `_populate_fully` is never reached, and the next `full` returns the NaN entries without any warning.
* **C91** `OptimalKernelSVC.predict` converts predictions to `np.intp`. Labels that are strings raise `ValueError` (an `SVC`, for which the class is documented to be a drop-in replacement, accepts
  them), and unsigned labels from 2⁶³ on come out as negative numbers. `KernelMachine(learner_id='SVR')`, whose `fit` raises (C59), predicts truncated numbers that are not labels.
* **C93** `normalize_km` warns when its result contains NaN or infinite values, `normalize_km_2sample` does not: a negative self-kernel (sigmoid kernels have them) gives NaN silently.
* **C94** The sigmoid kernels of a bucket vary `gamma` first and `offset` second, each with the other at its default 1: if both lists contain 1, the same kernel is added twice. All `sigma` below the
  machine precision give the same Gaussian kernel (`ensure_min_eps`). The default lists avoid both.
* **C95** `normalize_km_2sample` divides by √k(x,x) √k(y,y). If k(x,x) overflows while k(x,y) does not (a large sample x, an ordinary y), the factor 1/√inf is 0 and the normalised value is 0, finite and
  without a warning, although it may be 1. Predictions of a `KernelMachine` use such matrices.
* **C96** `alignment_centered` divides by the product of two norms. If the sum of the squares of one matrix overflows (entries above 1e154) while the Frobenius product does not, the alignment is
  x/inf = 0, without an error, although it may be 1. The kernel is then ranked last.
* **C97** `linear_combination(..., norm_weights=True)` divides by the sum of the weights. If it overflows, all weights become x/inf = 0 and the result is a matrix of zeros, without an error.
* **C98** `find_optimal_kernel` does not look at the scores it compares. A kernel matrix with an infinite or undefined entry has the score NaN, and `np.argmax` returns the position of the first NaN: a broken kernel wins. A kernel whose norm overflows has the score 0. With `method='cv_risk'`, one score that is NaN (`error_score` of `GridSearchCV`) or -inf makes all scaled scores NaN, and the first kernel of the bucket wins.
* **C99** The constructors of `KernelMachine` and `KernelMachineRegressor` replace `k_func=None` by a new `GaussianKernel`, but scikit-learn's `clone` requires that a constructor keeps the objects it is given. After `set_params(k_func=None)`, which is accepted without an error, `clone` (and so `cross_val_score` and `GridSearchCV`) raises `RuntimeError` (`C99_machine_violated`).
* **C100** `_more_tags` looks at the class of `k_func`: a `KernelFromCallable` whose function calls the chi² kernel makes fitting fail on negative data, but the estimator does not have the tag `requires_positive_X` (`C100_violated`). (`OptimalKernelSVC` and `OptimalKernelSVR` have no `_more_tags` at all, although the bucket passed to them may contain the chi² kernel; not stated as a theorem.)
* **C101** Removing a kernel that is not chosen can change the choice made by cross-validation. `min_max_scale` treats scores with a spread of at most 1e-8 as equal, so of kernels with scores 0, 5e-9 and -1 the second is returned, but the first one if the third is removed (`C101_cv_violated`). One NaN score makes all scaled scores NaN, so of kernels with scores 0, 1 and NaN the first is returned, but the second one if the third is removed (`C101_nan_violated`).
* **C102** `rank_kernels` raises if a kernel function raises, but called once more it returns scores computed from a matrix of NaN, as `full` has left it (see C11) (`C102_rank_violated`).
* **C103** `fit` of `OptimalKernelSVC` and `OptimalKernelSVR` replaces the training data before it searches for a kernel, and the kernel before it fits the SVM. If the search raises (with `method='align/corr'` always, see C46), `predict` goes on with the old model and the old kernel, but evaluates it on the new training data (`C103_search_violated`, `C103_violated`). If the SVM raises, `predict` goes on with the old model and the matrix of the new kernel (`C103_svm_violated`).
* **C104** A consequence of C11: if the members of a kernel set raise, so does `fit` of a composite kernel, but each call uses up one of them. With two such members the third call succeeds, and `composite_KM` is a matrix of NaN (`C104_violated`).
* **C107** `kernelmethods.ranking` and `kernelmethods.algorithms` raise `AttributeError` until one of the machines is read from the package for the first time; then they are the modules (`C107_violated`). The cause is the lazy import in `__getattr__`: without sklearn, or as long as no machine is read, there is no such effect (`C107_without_sklearn`, `C107_reads_partial`).
* **C108** `KernelMachineRegressor` is exposed by `__getattr__` like the three other machines, but is missing in `__all__`, so that `from kernelmethods import *` does not import it (`C108_violated`).

Observed while modelling, without a property of their own:

* `KernelSet.attach_to` rejects samples of strings that `KernelMatrix.attach_to` accepts (it calls `ensure_ndarray_2D` with the default dtype).
* A set with a `KernelMatrixPrecomputed` member fails midway in `attach_to` (`AttributeError`), the members before it being attached already. `extend` and `append` of
  several members are not atomic either.
* `KernelMatrix.normalize(method)` ignores `method` for two samples, and does nothing if the matrix has been normalised before, even with another method.
* `MatchCountKernel` rejects lists with one element (`np.squeeze` makes them 0-dimensional) but accepts arrays with one element, and rejects arrays of shape
  `(n, 1)` but accepts lists of that shape (`C30_match_accepts`, `C30_match_rejects`).
* `KernelSet.set_attr` with a list of length 1 on a set of another size raises `ValueError` although the documentation allows it.
* Appending a kernel function to a `KernelSet`, allowed by its type check, raises `AttributeError`.
* `WeightedAverageKernel` does not divide by the sum of the weights; if its set has grown since construction the extra members are ignored.
* A failed first `fit` of `KernelMachine` leaves `_km` behind, so that `predict` raises `AttributeError` instead of `NotFittedError`.
* `cv_risk` scores that differ by at most 1e-8 are all mapped to 0, so the first kernel wins.
* `OptimalKernelSVC.fit` with a bucket that is attached to a sample of another size raises `ValueError`.
* `set_params` of `OptimalKernelSVC/SVR` ignores unknown names without an error, so that `kernel='precomputed'` (see C56) cannot be set in this way
  (`C68_ignored`).
* `attributes()` returns the object's own dictionary, so that changes to it change the attributes, and the next `attach_to` empties the dictionary the caller holds.

Dependencies on library versions: `is_classifier`/tags of scikit-learn, which attributes `check_is_fitted` looks at, `np.zeros(None)`,
the `ravel` of an `np.matrix` given to `pearsonr`, whether `pearsonr` rejects NaN, and whether `np.power` of unsigned integers with a negative
integer exponent is a `ValueError` or an `OverflowError`.

## Proof methods

| id | method |
|----|--------|
| C01-C06, C08-C17, C60, C61, C65, C69, C70 | invariants and refinement to a pure specification by induction over histories; failures by comparing with a fault-free environment |
| C07 | characterisation of membership in `slice.indices` |
| C18-C26 | reduction to Mathlib matrices and inner products |
| C27-C31, C55, C64, C66 | algebra; positive semidefiniteness by Schur products, power series and limits |
| C32-C35 | folds over the set; Schur product theorem |
| C36-C39 | induction over histories of calls on a heap |
| C40-C43 | folds |
| C44-C46 | order reasoning; the scores are an arbitrary function |
| C47-C49, C56-C59, C68 | state machine with an arbitrary learner |
| C50-C52, C62 | case analysis, induction on shapes |
| C53-C54, C63, C67 | composition of the above |
| C72 | invariants of histories (as C16), now with the stored norm |
| C73 | each method once more as a program of atomic steps, proved to refine the sequential model; rely-guarantee reasoning (`Lemmas/Rely`) over all schedules |
| C74 | `F`-valued kernels, reduced to the kernels on the coordinates present in both samples; the chi² witness by an explicit quadratic form |
| C75 | relative errors of sums of products; matrices as vectors of a Euclidean space, perturbation of the cosine of an angle; explicit rounding in 53 bits for the witnesses |
| C76 | eigenvalues by quadratic forms |
| C77 | numpy's selection of positions against the sorted selection of C04 |
| C78 | power series of `exp`: if a quadratic form vanishes, so do those of all powers of the exponent, hence (a point added by a generic linear functional) all power sums, and a Vandermonde determinant decides; counting monomials |
| C79 | errors of left-to-right sums, relative errors of products; Cauchy-Schwarz for the weighted sum of members |
| C80 | each row of the matrix between test and training samples depends on its own test sample only, normalised or not |
| C81 | a relational calculus of programs: each program's heap is embedded in the common heap by an injective renaming of references |
| C82 | an invariant of steps other than `fit` |
| C83, C84 | whatever overflows is larger than the largest number up to rounding, by induction over the order of evaluation; what is not finite stays so |
| C85 | invariant: the calls so far are the pairs evaluated plus `n + m` per normalisation; the pairs are counted by C02 |
| C86 | Lipschitz bounds for `exp`, `tanh` and powers, quadrangle inequalities for the distances, and for chi² and Hadamard bounds on the fractions that include the case 0/0 |
| C87 | simulation: the object with the present contents of its array against the same calls with arguments of their own |
| C88 | a positive semidefinite matrix is a matrix of scalar products; two samples: the same for the samples one after the other |
| C89 | induction on the number of elements left; outcomes are unique; only row access out of range raises `IndexError` |
| C90 | calls are repeated with a log; the log can be erased; invariant of states whose log is empty: cached matrices that count as complete are finite |
| C91 | inversion of successful calls of `fit` and `predict`; conversions to the own dtype are the identity |
| C92 | the chain attach–construct–fit reduces to products and sums of matrices (C32); exponentials of sums, the binomial theorem |
| C93 | each function repeated with a log; case analysis; induction over the members for the log of a ranking |
| C94 | kernels with equal values on all (or all large) numbers are equal: values at single points without normalisation; with normalisation the limits for y → ∞, which order the families |
| C95 | a finite sum has finite terms only, so that one infinite entry reaches all entries of D K D; a sum with one non-zero product overflows only if the product does; the error calculus of C71 |
| C96 | all entries of C K C depend on all entries of K with non-zero coefficients; computed sums of squares are exact ones up to a factor; the error calculus of C75 |
| C97 | induction over the loops: a finite partial result has finite operands; the error calculus of C79 |
| C98 | specification of np.argmax with NaN; the case analysis of C96 for each score; a common error bound for all scores |
| C99 | object identities for machines with a given kernel; for the others a simulation between heaps in which the same objects have different places |
| C100 | a pair of samples on which the kernel raises stays unevaluated, so that one of the two loops that fill the matrix fails |
| C101 | the first best entry of a list is the first best entry of every sublist that contains it; the numbers ranked depend only on the kernel and the sample |
| C102 | a step that raises makes the loop over the kernels raise; attaching erases the cache, so the pair is evaluated again |
| C103 | what `predict` uses: the chosen kernel, the training data, the model; which of them `fit` has replaced when it raises; choosing the bucket adds objects only |
| C104 | every composite kernel, and `linear_combination`, read `full` of every member, also of those with weight 0; when this raises |
| C105 | the top-level statements of all modules; `import` with `sys.modules`, modules whose import is under way or has failed, submodules as attributes of the package; `__getattr__`; `from … import`; all histories of use |
| C106 | the same with any of numpy, scipy, sklearn missing |
| C107 | comparison of two histories |
| C108 | names that are attributes against those listed |
| C109 | the objects of a program before and after any steps; the calls that a step may make are listed by `POp.MayCall`, `KMOp.Basic` |
| C110 | the sets of a program before and after any steps; the sets that a step may change are given by `POp.target` |
| C111 | the pairs evaluated (`succ`) and the calls of the kernel function (`clock`) of a kernel matrix before and after any steps of a program |
| C71 | a calculus of relative errors; perturbation of quadratic forms; binary arithmetic with round to nearest as an instance |
