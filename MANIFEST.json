{
 "claims": [
  {
   "property": "C01",
   "status": "proved",
   "theorems": [
    "KMethods.C01_element_access"
   ],
   "note": "All histories, all failure patterns."
  },
  {
   "property": "C02",
   "status": "proved",
   "theorems": [
    "KMethods.C02_evaluated_at_most_once",
    "KMethods.C02_evaluations_only_accumulate",
    "KMethods.C02_full_evaluates_all",
    "KMethods.C02_full_evaluates_all_two",
    "KMethods.C02_nothing_after_full"
   ],
   "note": "Counts kernel calls made by the object itself; the two-sample normalisation also evaluates self-kernels on temporary objects."
  },
  {
   "property": "C03",
   "status": "proved",
   "theorems": [
    "KMethods.C03_getitem_is_lazy",
    "KMethods.C03_diagonal_is_lazy"
   ],
   "note": ""
  },
  {
   "property": "C04",
   "status": "proved",
   "theorems": [
    "KMethods.C04_selection_semantics",
    "KMethods.C04_increasing_lists"
   ],
   "note": ""
  },
  {
   "property": "C05",
   "status": "proved",
   "theorems": [
    "KMethods.C05_invalid_access",
    "KMethods.C05_invalid_key"
   ],
   "note": ""
  },
  {
   "property": "C06",
   "status": "proved",
   "theorems": [
    "KMethods.C06_linear_indexing"
   ],
   "note": ""
  },
  {
   "property": "C07",
   "status": "proved",
   "theorems": [
    "KMethods.C07_slices",
    "KMethods.C07_zero_step",
    "KMethods.C07_usual_slices"
   ],
   "note": ""
  },
  {
   "property": "C08",
   "status": "proved",
   "theorems": [
    "KMethods.C08_full_is_gram",
    "KMethods.C08_symmetric"
   ],
   "note": "Fault-free histories without full_sparse and whole-matrix indexing."
  },
  {
   "property": "C09",
   "status": "proved",
   "theorems": [
    "KMethods.C09_full_is_normalised_gram",
    "KMethods.C09_one_sample",
    "KMethods.C09_two_samples"
   ],
   "note": "Every fault-free history; the general theorem also covers kernels producing NaN."
  },
  {
   "property": "C10",
   "status": "partial",
   "theorems": [
    "KMethods.C10_violated",
    "KMethods.C10_full_contents_partial"
   ],
   "note": "The code violates the property (C10_violated: full_sparse followed by full returns the upper triangle only). Proved for all histories without full_sparse."
  },
  {
   "property": "C11",
   "status": "partial",
   "theorems": [
    "KMethods.C11_custom_partial",
    "KMethods.C11_custom_always_raises_partial",
    "KMethods.C11_custom_two_samples_violated",
    "KMethods.C11_violated",
    "KMethods.C11_no_stale_full_partial",
    "KMethods.C11_no_wrong_values_partial"
   ],
   "note": "The code violates the property (C11_violated: full after a failed full returns unevaluated entries; C11_custom_two_samples_violated: also for custom kernels, on two samples). Proved: no stale result as long as no earlier call was interrupted; entries are never wrong, only missing; custom kernels on one sample (dense storage) never give a wrong result after any failures."
  },
  {
   "property": "C12",
   "status": "proved",
   "theorems": [
    "KMethods.C12_reattach_is_fresh"
   ],
   "note": ""
  },
  {
   "property": "C13",
   "status": "partial",
   "theorems": [
    "KMethods.C13_violated",
    "KMethods.C13_bad_first_sample_partial",
    "KMethods.C13_bookkeeping_partial"
   ],
   "note": "The code violates the property (C13_violated: a rejected second sample replaces the attached sample). Proved: bad first sample leaves the object unchanged; bookkeeping and attributes are never changed."
  },
  {
   "property": "C14",
   "status": "proved",
   "theorems": [
    "KMethods.C14_attributes"
   ],
   "note": ""
  },
  {
   "property": "C15",
   "status": "proved",
   "theorems": [
    "KMethods.C15_two_sample_restrictions"
   ],
   "note": ""
  },
  {
   "property": "C16",
   "status": "proved",
   "theorems": [
    "KMethods.C16_centered",
    "KMethods.C16_frob_norm_one",
    "KMethods.C16_frob_norm_two",
    "KMethods.C16_diagonal"
   ],
   "note": ""
  },
  {
   "property": "C17",
   "status": "proved",
   "theorems": [
    "KMethods.C17_bookkeeping_one",
    "KMethods.C17_bookkeeping_two",
    "KMethods.C17_unattached"
   ],
   "note": ""
  },
  {
   "property": "C18",
   "status": "proved",
   "theorems": [
    "KMethods.C18_center",
    "KMethods.C18_errors"
   ],
   "note": ""
  },
  {
   "property": "C19",
   "status": "proved",
   "theorems": [
    "KMethods.C19_normalise"
   ],
   "note": ""
  },
  {
   "property": "C20",
   "status": "proved",
   "theorems": [
    "KMethods.C20_errors",
    "KMethods.C20_negative_diagonal"
   ],
   "note": ""
  },
  {
   "property": "C21",
   "status": "proved",
   "theorems": [
    "KMethods.C21_values",
    "KMethods.C21_errors",
    "KMethods.C21_agrees",
    "KMethods.C21_same_samples"
   ],
   "note": ""
  },
  {
   "property": "C22",
   "status": "proved",
   "theorems": [
    "KMethods.C22_inner_product",
    "KMethods.C22_symmetric",
    "KMethods.C22_errors",
    "KMethods.C22_norm"
   ],
   "note": ""
  },
  {
   "property": "C23",
   "status": "proved",
   "theorems": [
    "KMethods.C23_range",
    "KMethods.C23_symmetric",
    "KMethods.C23_self",
    "KMethods.C23_scaling",
    "KMethods.C23_add_constant",
    "KMethods.C23_psd_nonneg"
   ],
   "note": ""
  },
  {
   "property": "C24",
   "status": "proved",
   "theorems": [
    "KMethods.C24_degenerate",
    "KMethods.C24_rejects"
   ],
   "note": ""
  },
  {
   "property": "C25",
   "status": "proved",
   "theorems": [
    "KMethods.C25_rejects",
    "KMethods.C25_decides",
    "KMethods.C25_accepts_psd"
   ],
   "note": ""
  },
  {
   "property": "C26",
   "status": "proved",
   "theorems": [
    "KMethods.C26_value",
    "KMethods.C26_normalised",
    "KMethods.C26_wrong_number",
    "KMethods.C26_psd"
   ],
   "note": "Members with finite kernel matrices in any storage, attached to one or two samples."
  },
  {
   "property": "C27",
   "status": "proved",
   "theorems": [
    "KMethods.C27_numeric_symmetric",
    "KMethods.C27_match_symmetric"
   ],
   "note": ""
  },
  {
   "property": "C28",
   "status": "proved",
   "theorems": [
    "KMethods.C28_linear",
    "KMethods.C28_poly",
    "KMethods.C28_gaussian",
    "KMethods.C28_laplacian",
    "KMethods.C28_chi2",
    "KMethods.C28_hadamard",
    "KMethods.C28_match_count",
    "KMethods.C28_match_perc"
   ],
   "note": ""
  },
  {
   "property": "C29",
   "status": "proved",
   "theorems": [
    "KMethods.C29_gaussian",
    "KMethods.C29_laplacian",
    "KMethods.C29_chi2",
    "KMethods.C29_sigmoid",
    "KMethods.C29_hadamard",
    "KMethods.C29_match_count",
    "KMethods.C29_match_perc"
   ],
   "note": ""
  },
  {
   "property": "C30",
   "status": "proved",
   "theorems": [
    "KMethods.C30_call_accepts",
    "KMethods.C30_call_rejects",
    "KMethods.C30_match_accepts",
    "KMethods.C30_match_rejects",
    "KMethods.C30_length",
    "KMethods.C30_chi2_negative",
    "KMethods.C30_hadamard_alpha",
    "KMethods.C30_gaussian_eps"
   ],
   "note": ""
  },
  {
   "property": "C31",
   "status": "proved",
   "theorems": [
    "KMethods.C31_not_psd",
    "KMethods.C31_is_psd_false"
   ],
   "note": ""
  },
  {
   "property": "C32",
   "status": "partial",
   "theorems": [
    "KMethods.C32_sum",
    "KMethods.C32_average",
    "KMethods.C32_weighted",
    "KMethods.C32_product_partial",
    "KMethods.C32_product_violated",
    "KMethods.C32_sum_eq_weighted",
    "KMethods.C32_average_eq_weighted",
    "KMethods.C32_sum_eq_linear_combination"
   ],
   "note": "The code violates the property for ProductKernel: members left in sparse storage are multiplied as matrices (C32_product_violated). Proved for dense storage; sum, average and weighted average are proved for any storage."
  },
  {
   "property": "C33",
   "status": "proved",
   "theorems": [
    "KMethods.C33_sum",
    "KMethods.C33_average",
    "KMethods.C33_weighted",
    "KMethods.C33_product",
    "KMethods.C33_pipeline"
   ],
   "note": "Product: members in dense storage (see C32)."
  },
  {
   "property": "C34",
   "status": "proved",
   "theorems": [
    "KMethods.C34_construct",
    "KMethods.C34_construct_weighted",
    "KMethods.C34_not_fitted"
   ],
   "note": ""
  },
  {
   "property": "C35",
   "status": "partial",
   "theorems": [
    "KMethods.C35_violated",
    "KMethods.C35_bad_arguments_partial",
    "KMethods.C35_stays_fitted_partial",
    "KMethods.C35_sum_violated",
    "KMethods.C35_weighted_violated",
    "KMethods.C35_average_violated",
    "KMethods.C35_product_violated"
   ],
   "note": "The code violates the property (C35_violated: a refit failing at the second kernel leaves the matrix of the first). Proved: refits rejected because of their arguments change nothing; a failed refit never makes the object unfitted. In general: if the matrix of a member cannot be computed, what is left is exactly the composite of the members before it, for AverageKernel without the division (C35_sum_violated, C35_weighted_violated, C35_average_violated, C35_product_violated)."
  },
  {
   "property": "C36",
   "status": "proved",
   "theorems": [
    "KMethods.C36_append_compatible",
    "KMethods.C36_append_incompatible",
    "KMethods.C36_new_set",
    "KMethods.C36_new_set_one",
    "KMethods.C36_append_matrix",
    "KMethods.C36_failed_append",
    "KMethods.C36_members_agree",
    "KMethods.C36_sharing_breaks_agreement"
   ],
   "note": ""
  },
  {
   "property": "C37",
   "status": "proved",
   "theorems": [
    "KMethods.C37_sequence",
    "KMethods.C37_appends_in_order",
    "KMethods.C37_extend",
    "KMethods.C37_extend_self",
    "KMethods.C37_extend_new",
    "KMethods.C37_extend_incompatible",
    "KMethods.C37_extend_only_adds",
    "KMethods.C37_take",
    "KMethods.C37_take_nothing",
    "KMethods.C37_take_out_of_range",
    "KMethods.C37_take_keeps_source",
    "KMethods.C37_kernel_funcs"
   ],
   "note": ""
  },
  {
   "property": "C38",
   "status": "proved",
   "theorems": [
    "KMethods.C38_wrong_size",
    "KMethods.C38_bad_sample",
    "KMethods.C38_attach",
    "KMethods.C38_precomputed_member"
   ],
   "note": ""
  },
  {
   "property": "C39",
   "status": "proved",
   "theorems": [
    "KMethods.C39_set_scalar",
    "KMethods.C39_set_sequence",
    "KMethods.C39_set_wrong_length",
    "KMethods.C39_get"
   ],
   "note": ""
  },
  {
   "property": "C40",
   "status": "proved",
   "theorems": [
    "KMethods.C40_contents",
    "KMethods.C40_bad_values",
    "KMethods.C40_bad_flags",
    "KMethods.C40_add_rejects",
    "KMethods.C40_exhaustive",
    "KMethods.C40_light",
    "KMethods.C40_linear_only",
    "KMethods.C40_other_strategy"
   ],
   "note": "For every library of kernel classes and every list of values; the strategies for the numeric kernels."
  },
  {
   "property": "C41",
   "status": "partial",
   "theorems": [
    "KMethods.C41_unattached_partial",
    "KMethods.C41_attached_adds_nothing",
    "KMethods.C41_violated"
   ],
   "note": "The code violates the property: on an attached bucket every addition fails and the failure is swallowed (C41_violated, C41_attached_adds_nothing). Proved for buckets that are not attached."
  },
  {
   "property": "C42",
   "status": "partial",
   "theorems": [
    "KMethods.C42_unknown_metric",
    "KMethods.C42_symmetric",
    "KMethods.C42_align_partial",
    "KMethods.C42_corr_partial",
    "KMethods.C42_correlation_raises",
    "KMethods.C42_violated"
   ],
   "note": "The code violates the property for members in sparse storage, e.g. after km[:, :] (C42_violated). Proved for other members; symmetry whenever a matrix is returned."
  },
  {
   "property": "C43",
   "status": "proved",
   "theorems": [
    "KMethods.C43_ideal"
   ],
   "note": ""
  },
  {
   "property": "C44",
   "status": "proved",
   "theorems": [
    "KMethods.C44_constant",
    "KMethods.C44_scaled",
    "KMethods.C44_empty_nan"
   ],
   "note": "Real arrays; non-finite entries are one value of the number model."
  },
  {
   "property": "C45",
   "status": "proved",
   "theorems": [
    "KMethods.C45_align",
    "KMethods.C45_cv",
    "KMethods.C45_cv_tied",
    "KMethods.C45_cv_nan",
    "KMethods.C45_rejects",
    "KMethods.C45_member",
    "KMethods.C45_estimator_names",
    "KMethods.C45_wrong_size",
    "KMethods.C45_bad_sample",
    "KMethods.C45_empty_bucket",
    "KMethods.C45_keywords",
    "KMethods.C45_unknown_estimator",
    "KMethods.C45_score_raises"
   ],
   "note": ""
  },
  {
   "property": "C46",
   "status": "partial",
   "theorems": [
    "KMethods.C46_cv_partial",
    "KMethods.C46_cv_strategy_partial",
    "KMethods.C46_violated",
    "KMethods.C46_type_error"
   ],
   "note": "The code violates the property: with method='align/corr' fit always raises (C46_violated; TypeError on good data, C46_type_error). Proved for cv_risk, with a bucket or the name of a strategy, if some two scores differ by more than 1e-8."
  },
  {
   "property": "C47",
   "status": "proved",
   "theorems": [
    "KMethods.C47_fit",
    "KMethods.C47_predict",
    "KMethods.C47_predict_cols",
    "KMethods.C47_fit_predict",
    "KMethods.C47_training_data",
    "KMethods.C47_not_fitted",
    "KMethods.C47_fit_rejects",
    "KMethods.C47_optimal_fit_rejects",
    "KMethods.C47_optimal_predict",
    "KMethods.C47_optimal_not_fitted",
    "KMethods.C47_optimal_after"
   ],
   "note": "For every learner. Both families of machines."
  },
  {
   "property": "C48",
   "status": "proved",
   "theorems": [
    "KMethods.C48_predict_again",
    "KMethods.C48_optimal_predict_again",
    "KMethods.C48_make_kernel_bucket"
   ],
   "note": "KernelMachine and OptimalKernelSVC/SVR, for kernel functions whose failures depend on their arguments only."
  },
  {
   "property": "C49",
   "status": "partial",
   "theorems": [
    "KMethods.C49_partial",
    "KMethods.C49_predict_current",
    "KMethods.C49_violated",
    "KMethods.C49_optimal"
   ],
   "note": "The code violates the property for KernelMachine: set_params(k_func=..., normalized=...) after fit changes predictions (C49_violated). Proved for the other parameters; for OptimalKernelSVC/SVR proved in full (C48_optimal_predict_again covers set_params)."
  },
  {
   "property": "C50",
   "status": "partial",
   "theorems": [
    "KMethods.C50_access_partial",
    "KMethods.C50_rows_out_of_range",
    "KMethods.C50_cols_out_of_range",
    "KMethods.C50_bad_objects",
    "KMethods.C50_unsized_objects",
    "KMethods.C50_empty_selection_violated",
    "KMethods.C50_full_diag"
   ],
   "note": "The code violates the property: every empty selection raises NameError instead of KMAccessError (C50_empty_selection_violated). Everything else is proved."
  },
  {
   "property": "C51",
   "status": "partial",
   "theorems": [
    "KMethods.C51_square_partial",
    "KMethods.C51_error",
    "KMethods.C51_rejects_partial",
    "KMethods.C51_violated",
    "KMethods.C51_diag",
    "KMethods.C51_access"
   ],
   "note": "The code violates the property: 1 x m arrays with constant entries are accepted, by broadcasting in the symmetry test (C51_violated). Proved for square arrays, and for n x m with n, m different from each other and from 1."
  },
  {
   "property": "C52",
   "status": "proved",
   "theorems": [
    "KMethods.C52_1D",
    "KMethods.C52_2D",
    "KMethods.C52_errors",
    "KMethods.C52_check_input_arrays"
   ],
   "note": ""
  },
  {
   "property": "C53",
   "status": "proved",
   "theorems": [
    "KMethods.C53_full_psd",
    "KMethods.C53_normalised_psd",
    "KMethods.C53_centered_psd",
    "KMethods.C53_unit_diagonal"
   ],
   "note": ""
  },
  {
   "property": "C54",
   "status": "proved",
   "theorems": [
    "KMethods.C54_is_psd",
    "KMethods.C54_is_psd_true"
   ],
   "note": ""
  },
  {
   "property": "C55",
   "status": "proved",
   "theorems": [
    "KMethods.C55_linear",
    "KMethods.C55_poly",
    "KMethods.C55_gaussian",
    "KMethods.C55_laplacian",
    "KMethods.C55_chi2",
    "KMethods.C55_sigmoid",
    "KMethods.C55_hadamard",
    "KMethods.C55_match"
   ],
   "note": ""
  },
  {
   "property": "C56",
   "status": "partial",
   "theorems": [
    "KMethods.C56_always_rbf",
    "KMethods.C56_partial",
    "KMethods.C56_violated"
   ],
   "note": "The code violates the property: kernel='precomputed' is never set, scikit-learn's default 'rbf' is applied to rows of the kernel matrix (C56_violated, C56_always_rbf). That the matrix passed is the kernel matrix of the chosen kernel is part of C46_cv_partial."
  },
  {
   "property": "C57",
   "status": "proved",
   "theorems": [
    "KMethods.C57_fit",
    "KMethods.C57_predict",
    "KMethods.C57_make_kernel_bucket"
   ],
   "note": ""
  },
  {
   "property": "C58",
   "status": "proved",
   "theorems": [
    "KMethods.C58_round_trip"
   ],
   "note": ""
  },
  {
   "property": "C59",
   "status": "partial",
   "theorems": [
    "KMethods.C59_partial",
    "KMethods.C59_violated"
   ],
   "note": "The code violates the property: a refit with an unknown learner leaves the old model with new training data (C59_violated). Proved for known learners (not SVR in a classifier)."
  },
  {
   "property": "C60",
   "status": "partial",
   "theorems": [
    "KMethods.C60_violated",
    "KMethods.C60_first_call",
    "KMethods.C60_second_call",
    "KMethods.C60_library_kernels_partial",
    "KMethods.C60_custom_finite_partial"
   ],
   "note": "The code violates the property for KernelFromCallable: __format__ = __str__ makes '{}'.format(kernel) raise TypeError inside the warning (C60_violated). C60_first_call says exactly when, C60_second_call that the next call returns the true matrix. Proved for the kernels of the library and for custom kernels with finite values."
  },
  {
   "property": "C61",
   "status": "proved",
   "theorems": [
    "KMethods.C61_construct",
    "KMethods.C61_construct_error",
    "KMethods.C61_one_sample",
    "KMethods.C61_two_samples",
    "KMethods.C61_raising"
   ],
   "note": ""
  },
  {
   "property": "C62",
   "status": "proved",
   "theorems": [
    "KMethods.C62_operation",
    "KMethods.C62_iterable",
    "KMethods.C62_names"
   ],
   "note": ""
  },
  {
   "property": "C63",
   "status": "partial",
   "theorems": [
    "KMethods.C63_light",
    "KMethods.C63_exhaustive_partial",
    "KMethods.C63_first_nan",
    "KMethods.C63_nan_chosen",
    "KMethods.C63_zero_row",
    "KMethods.C63_violated",
    "KMethods.C63_violated_best"
   ],
   "note": "The code violates the property for the default strategy 'exhaustive' with normalisation: the sigmoid kernel with offset -2 has negative self-kernels on rows of squared length below 2, normalisation gives NaN, np.argmax prefers NaN, and that kernel is returned (C63_nan_chosen, C63_violated). Proved in full for 'light' (C63_light) and for 'exhaustive' when no row is that short (C63_exhaustive_partial). C63_first_nan is the general statement for every bucket, C63_zero_row the error."
  },
  {
   "property": "C64",
   "status": "partial",
   "theorems": [
    "KMethods.C64_stored",
    "KMethods.C64_fits_partial",
    "KMethods.C64_linear_iff",
    "KMethods.C64_chi2",
    "KMethods.C64_int64_partial",
    "KMethods.C64_violated",
    "KMethods.C64_symmetric_partial",
    "KMethods.C64_not_symmetric",
    "KMethods.C64_matrix_partial",
    "KMethods.C64_matrix_violated"
   ],
   "note": "The code violates the property: integer arithmetic wraps around (C64_violated, C64_not_symmetric, C64_matrix_violated). Proved when the integers on the way are in the range of the dtype (C64_fits_partial; an explicit range for int64 in C64_int64_partial; kernel matrices in C64_matrix_partial), always for chi\u00b2 (C64_chi2); for the linear kernel exactly then (C64_linear_iff). Symmetry holds except for Gaussian and Laplacian on unsigned dtypes."
  },
  {
   "property": "C65",
   "status": "proved",
   "theorems": [
    "KMethods.C65_subsample",
    "KMethods.C65_blocks",
    "KMethods.C65_normalised",
    "KMethods.C65_normalised_blocks",
    "KMethods.C65_reordered",
    "KMethods.C65_asymmetric"
   ],
   "note": "Symmetry of the kernel is needed (C65_asymmetric). Histories without full_sparse unless the object normalises (after full_sparse see C10)."
  },
  {
   "property": "C66",
   "status": "proved",
   "theorems": [
    "KMethods.C66_feature_order",
    "KMethods.C66_match_feature_order",
    "KMethods.C66_zero_feature",
    "KMethods.C66_zero_feature_hadamard",
    "KMethods.C66_shift",
    "KMethods.C66_scale",
    "KMethods.C66_gaussian_units",
    "KMethods.C66_feature_groups",
    "KMethods.C66_poly",
    "KMethods.C66_values_only",
    "KMethods.C66_numeric",
    "KMethods.C66_matrix"
   ],
   "note": "Adding a zero feature to the Hadamard kernel needs a positive exponent; with a negative one the value is NaN (C66_zero_feature_hadamard)."
  },
  {
   "property": "C67",
   "status": "proved",
   "theorems": [
    "KMethods.C67_history",
    "KMethods.C67_targets_shift",
    "KMethods.C67_targets_affine",
    "KMethods.C67_sample_order"
   ],
   "note": "For buckets of kernels with finite matrices, method align/corr; TargetsVary: the alignment is not cut off to 0."
  },
  {
   "property": "C68",
   "status": "proved",
   "theorems": [
    "KMethods.C68_constructor",
    "KMethods.C68_round_trip",
    "KMethods.C68_set_get",
    "KMethods.C68_ignored",
    "KMethods.C68_epsilon",
    "KMethods.C68_refit"
   ],
   "note": ""
  },
  {
   "property": "C69",
   "status": "partial",
   "theorems": [
    "KMethods.C69_element_access_partial",
    "KMethods.C69_evaluated_at_most_once_partial",
    "KMethods.C69_entries_are_remembered_partial",
    "KMethods.C69_reattach_is_fresh_partial",
    "KMethods.C69_samples_unused_after_full_partial",
    "KMethods.C69_returned_matrix_stays_partial",
    "KMethods.C69_violated_samples_not_copied",
    "KMethods.C69_violated_results_not_copied",
    "KMethods.C69_violated_sparse_result"
   ],
   "note": "The code violates the property: samples are not copied (C69_violated_samples_not_copied: full returns a matrix that is not the kernel matrix of any sample), results are the internal arrays (C69_violated_results_not_copied), and the sparse matrix returned by full_sparse is changed in place later (C69_violated_sparse_result). Proved: writes into results never affect element access; accessed entries and all results after full are unaffected by writes into the samples; the kernel is evaluated at most once per pair; re-attachment repairs everything; the dense matrix returned by full is never changed by the object."
  },
  {
   "property": "C70",
   "status": "partial",
   "theorems": [
    "KMethods.C70_shows_the_attached_samples_partial",
    "KMethods.C70_new_object_partial",
    "KMethods.C70_printing_is_transparent",
    "KMethods.C70_text_determines_shapes",
    "KMethods.C70_violated_stale",
    "KMethods.C70_violated_raises",
    "KMethods.C70_violated_format",
    "KMethods.C70_kernels_print_differently",
    "KMethods.C70_set_text",
    "KMethods.C70_text_determines_sizes",
    "KMethods.C70_sample_numbers_print_differently",
    "KMethods.C70_composite_text"
   ],
   "note": "The code violates the property: after a rejected second sample str(km) describes the samples attached before (C70_violated_stale) or raises AttributeError (C70_violated_raises), and formatting always raises TypeError (C70_violated_format). Proved for objects whose last attach_to succeeded or that were never attached; transparency, and that texts determine shapes and kernels, are proved in general."
  },
  {
   "property": "C71",
   "status": "partial",
   "theorems": [
    "KMethods.C71_kernel_error",
    "KMethods.C71_normalise",
    "KMethods.C71_normalise_errors",
    "KMethods.C71_normalise_two_samples",
    "KMethods.C71_full",
    "KMethods.C71_full_is_psd_partial",
    "KMethods.C71_full_normalised",
    "KMethods.C71_full_normalised_is_psd",
    "KMethods.C71_double_is_psd",
    "KMethods.C71_is_psd",
    "KMethods.C71_violated"
   ],
   "note": "The code violates the property for matrices that are not normalised: is_PSD has an absolute tolerance, and in double precision rejects the 2x2 linear kernel matrix of the samples 200000001 and 200000005 (C71_violated). Acceptance is proved when the trace is at most 1e-6/gamma_m, and for normalised matrices (unless KMNormError is raised) when n (m + 3) <= 4e9. Error bounds are proved without such hypotheses. Overflow and underflow (other than in exp) are not modelled, the eigenvalues in is_PSD are exact (for inexact ones see C76), kernel parameters are exact, the sigmoid kernel is excluded."
  },
  {
   "property": "C72",
   "status": "partial",
   "theorems": [
    "KMethods.C72_frob_norm_partial",
    "KMethods.C72_frob_norm_after_sparse",
    "KMethods.C72_frob_norm_two_samples",
    "KMethods.C72_centered_partial",
    "KMethods.C72_centered_after_sparse",
    "KMethods.C72_violated"
   ],
   "note": "The code violates the property: np.multiply of two lil_matrix objects is their matrix product, so frob_norm after full_sparse is sqrt(sum of the entries of U U), U being the upper triangle (C72_frob_norm_after_sparse), and centered raises ValueError (C72_centered_after_sparse). Without sparse storage see C16. After arbitrary calls: one of three values, the right centred matrix or ValueError."
  },
  {
   "property": "C73",
   "status": "partial",
   "theorems": [
    "KMethods.C73_single_thread_partial",
    "KMethods.C73_threads_finish_partial",
    "KMethods.C73_elements_partial",
    "KMethods.C73_diagonal_partial",
    "KMethods.C73_evaluations_partial",
    "KMethods.C73_full_partial",
    "KMethods.C73_whole_key_partial",
    "KMethods.C73_after_full_partial",
    "KMethods.C73_violated_full",
    "KMethods.C73_violated_counter"
   ],
   "note": "The code violates the property for the whole matrix: _full_km exists before it is filled, so that full called by two threads returns a matrix with unwritten cells to one of them and can leave the lower triangle unwritten for ever (C73_violated_full); the evaluation counter loses increments (C73_violated_counter). Proved for all schedules: elements, parts and diagonal are exact; no cell of a returned full matrix holds a wrong value (it is right or unwritten); at most one evaluation per pair and thread; all threads finish under fair schedules; once full has returned sequentially, every call returns its sequential result."
  },
  {
   "property": "C74",
   "status": "partial",
   "theorems": [
    "KMethods.C74_no_missing",
    "KMethods.C74_value_partial",
    "KMethods.C74_hadamard",
    "KMethods.C74_chi2",
    "KMethods.C74_constant",
    "KMethods.C74_full_partial",
    "KMethods.C74_full_two_partial",
    "KMethods.C74_violated_normalised",
    "KMethods.C74_violated_centered",
    "KMethods.C74_violated_chi2_psd",
    "KMethods.C74_hadamard_psd"
   ],
   "note": "The code violates the property: the chi\u00b2 kernel leaves missing coordinates out and is then not positive semidefinite (C74_violated_chi2_psd), one missing value makes the whole normalised and centered matrix NaN (C74_violated_normalised, C74_violated_centered). Proved: which kernels propagate NaN and which leave the coordinate out; full without normalisation has NaN exactly in rows and columns of incomplete samples for the propagating kernels; Hadamard with positive exponent stays positive semidefinite."
  },
  {
   "property": "C75",
   "status": "partial",
   "theorems": [
    "KMethods.C75_center",
    "KMethods.C75_center_psd",
    "KMethods.C75_center_errors",
    "KMethods.C75_frobenius",
    "KMethods.C75_frobenius_errors",
    "KMethods.C75_align_centered",
    "KMethods.C75_align_bounds",
    "KMethods.C75_align_symmetric",
    "KMethods.C75_align_self",
    "KMethods.C75_align_shape_errors",
    "KMethods.C75_align_partial",
    "KMethods.C75_zero_division",
    "KMethods.C75_best_partial",
    "KMethods.C75_best_kernel_partial",
    "KMethods.C75_clear_winner_partial",
    "KMethods.C75_violated",
    "KMethods.C75_exceeds_one"
   ],
   "note": "The threshold 1e-8 for zero norms is absolute, and the code violates the property next to it: in double precision alignment_centered of the constant 3x3 matrix 2^80 with itself returns about 1, although the centered matrix is zero so that ValueError is due (C75_violated); alignments can exceed 1 by a rounding error (C75_exceeds_one). Closeness of alignments and the choice of the best kernel are proved if the centered norms are clearly above the threshold, and the other branch if one is clearly below; all other bounds without such hypotheses. Overflow and underflow are not modelled."
  },
  {
   "property": "C76",
   "status": "proved",
   "theorems": [
    "KMethods.C76_errors",
    "KMethods.C76_band",
    "KMethods.C76_exact",
    "KMethods.C76_psd",
    "KMethods.C76_full_normalised",
    "KMethods.C76_is_psd"
   ],
   "note": "The solver is a parameter: any function from symmetric matrices to lists of eigenvalues, or failure. That it is backward stable is a hypothesis where needed."
  },
  {
   "property": "C77",
   "status": "partial",
   "theorems": [
    "KMethods.C77_sorted_selection",
    "KMethods.C77_agrees_partial",
    "KMethods.C77_two_lists_violated",
    "KMethods.C77_repeated_violated",
    "KMethods.C77_negative_violated",
    "KMethods.C77_empty_violated",
    "KMethods.C77_linear_violated",
    "KMethods.C77_list_key_violated",
    "KMethods.C77_order_violated",
    "KMethods.C77_normalised_violated",
    "KMethods.C77_precomputed",
    "KMethods.C77_constant"
   ],
   "note": "The code follows numpy for integers, slices with positive step and strictly increasing sequences, not two of them at once (C77_agrees_partial). It differs, in the ways proved for all inputs, for two sequences (all combinations instead of pairs), repeated positions, other orders, negative integers, empty slices, a single integer, a list of two integers as key, and objects that normalise (C77_..._violated). What is selected in every case is C77_sorted_selection. Boolean masks, Ellipsis and None are not modelled."
  },
  {
   "property": "C78",
   "status": "proved",
   "theorems": [
    "KMethods.C78_positive_definite",
    "KMethods.C78_positive_definite_normalised",
    "KMethods.C78_gaussian",
    "KMethods.C78_interpolates",
    "KMethods.C78_centered",
    "KMethods.C78_repeated",
    "KMethods.C78_normalising",
    "KMethods.C78_linear",
    "KMethods.C78_poly",
    "KMethods.C78_hadamard_signs",
    "KMethods.C78_sum",
    "KMethods.C78_average",
    "KMethods.C78_weighted",
    "KMethods.C78_product",
    "KMethods.C78_pipeline"
   ],
   "note": "Real arithmetic (rounding: C69-C72). The Hadamard kernel does not see signs (C78_hadamard_signs). The sigmoid kernel is not positive semidefinite (C28) and not included. The product statement needs dense storage, as C32 does."
  },
  {
   "property": "C79",
   "status": "partial",
   "theorems": [
    "KMethods.C79_sum",
    "KMethods.C79_product",
    "KMethods.C79_same_errors",
    "KMethods.C79_same_errors_combination",
    "KMethods.C79_sum_psd",
    "KMethods.C79_product_psd",
    "KMethods.C79_combination",
    "KMethods.C79_normalised_partial",
    "KMethods.C79_kernels",
    "KMethods.C79_cancellation_violated"
   ],
   "note": "Violated for linear_combination(norm_weights=True) with weights of both signs: in double precision the weights 2^54, 1, -2^54 sum to 0 from left to right, so RuntimeError is raised although the exact sum is 1 (C79_cancellation_violated); the normalised case is proved for non-negative weights whose sum is clearly above or clearly below 1e-8. Products need dense storage, as in C32. Overflow and underflow are not modelled; weights are floating point numbers."
  },
  {
   "property": "C80",
   "status": "partial",
   "theorems": [
    "KMethods.C80_function_partial",
    "KMethods.C80_selection_partial",
    "KMethods.C80_together_partial",
    "KMethods.C80_normalising",
    "KMethods.C80_violated",
    "KMethods.C80_optimal_partial",
    "KMethods.C80_training_order"
   ],
   "note": "Proved for batches whose kernel matrix can be computed (C80_function_partial, C80_selection_partial, C80_together_partial, C80_optimal_partial). Violated for normalising machines: one sample with self-kernel 0 makes the prediction of the whole batch raise KMNormError, while the other samples alone are predicted (C80_violated); C80_normalising says exactly when this happens. What the learner does is a hypothesis."
  },
  {
   "property": "C81",
   "status": "proved",
   "theorems": [
    "KMethods.C81_isolation",
    "KMethods.C81_objects",
    "KMethods.C81_disjoint",
    "KMethods.C81_interleavings"
   ],
   "note": "Programs share no objects; arrays passed in are values. The theorems are about the model of base.py, linear_combination and rank_kernels as one language of programs (Model/Session). That the code has no mutable state outside its objects is a fact read off the source (no global statements, no mutable default arguments that are written to, no writable class attributes) and built into the model."
  },
  {
   "property": "C82",
   "status": "partial",
   "theorems": [
    "KMethods.C82_snapshot",
    "KMethods.C82_current_partial",
    "KMethods.C82_constructed_partial",
    "KMethods.C82_weighted_ignores",
    "KMethods.C82_combine",
    "KMethods.C82_violated"
   ],
   "note": "Snapshot and SumKernel, AverageKernel, ProductKernel (dense members): proved (C82_snapshot, C82_current_partial). Violated by WeightedAverageKernel: a member added after construction is left out by zip, without an exception (C82_weighted_ignores, C82_violated)."
  },
  {
   "property": "C83",
   "status": "partial",
   "theorems": [
    "KMethods.C83_error_partial",
    "KMethods.C83_bounded_finite",
    "KMethods.C83_lost_double",
    "KMethods.C83_moderate",
    "KMethods.C83_violated_chi2",
    "KMethods.C83_chi2_far",
    "KMethods.C83_violated_chi2_far",
    "KMethods.C83_violated_hadamard",
    "KMethods.C83_violated_sigmoid",
    "KMethods.C83_violated_laplacian",
    "KMethods.C83_full_partial",
    "KMethods.C83_full_moderate"
   ],
   "note": "Linear, polynomial, Gaussian and Laplacian kernel: proved (C83_error_partial, C83_full_partial); for the last two up to the kernel value at distances that are not representable, below exp(-2^970) for Python floats with gamma >= eps (C83_lost_double). All kernels but sigmoid on data of moderate size: C83_moderate, C83_full_moderate. Violated by chi2 (1 instead of almost 0, 0 instead of at least exp(-64 gamma)), Hadamard (0 instead of at least 1/4), sigmoid (1 instead of 0), and Laplacian with tiny gamma (0 instead of exp(-2)): C83_violated_*."
  },
  {
   "property": "C84",
   "status": "partial",
   "theorems": [
    "KMethods.C84_value_partial",
    "KMethods.C84_self_partial",
    "KMethods.C84_violated_chi2",
    "KMethods.C84_violated_sigmoid",
    "KMethods.C84_full_partial"
   ],
   "note": "Pairs: linear, polynomial of positive degree, Hadamard with alpha > 0 (C84_value_partial); a sample and itself: also Gaussian and Laplacian (C84_self_partial, C84_full_partial). Violated by chi2, which takes infinite entries for missing, and sigmoid (1): C84_violated_chi2, C84_violated_sigmoid. Gaussian and Laplacian on different samples are 0 by design."
  },
  {
   "property": "C85",
   "status": "partial",
   "theorems": [
    "KMethods.C85_one_sample",
    "KMethods.C85_two_samples_partial",
    "KMethods.C85_repeated_normalisation",
    "KMethods.C85_violated",
    "KMethods.C85_one_call",
    "KMethods.C85_fit",
    "KMethods.C85_predict"
   ],
   "note": "One sample, single calls, fit and predict: proved. Two samples: if the normalisation, if any, does not raise (C85_two_samples_partial). If it raises KMNormError, it is tried again at every access with n + m new kernel calls, so that no bound holds: C85_repeated_normalisation, C85_violated."
  },
  {
   "property": "C86",
   "status": "proved",
   "theorems": [
    "KMethods.C86_kernel",
    "KMethods.C86_continuous",
    "KMethods.C86_uniform",
    "KMethods.C86_full",
    "KMethods.C86_full_normalised",
    "KMethods.C86_centered",
    "KMethods.C86_negative_powers",
    "KMethods.C86_chi2_edge"
   ],
   "note": "Hypothesis MeantFor: alpha > 0, degree >= 0, gamma >= 0, non-negative data for chi2. The constructors accept more: with a negative alpha or degree the value is NaN at 0 although finite nearby (C86_negative_powers); negative entries make chi2 raise (C86_chi2_edge)."
  },
  {
   "property": "C87",
   "status": "partial",
   "theorems": [
    "KMethods.C87_machine_partial",
    "KMethods.C87_optimal_partial",
    "KMethods.C87_copied_partial",
    "KMethods.C87_overwritten",
    "KMethods.C87_violated",
    "KMethods.C87_precomputed_partial",
    "KMethods.C87_precomputed_written",
    "KMethods.C87_precomputed_violated",
    "KMethods.C87_composite_partial",
    "KMethods.C87_refit",
    "KMethods.C87_composite_violated",
    "KMethods.C87_weights",
    "KMethods.C87_weights_violated"
   ],
   "note": "Holds for programs that do not overwrite the array a machine was fitted with (C87_machine_partial, C87_optimal_partial) or whose training data were converted by scikit-learn (C87_copied_partial), the array of a precomputed matrix (C87_precomputed_partial), the matrix returned by composite_KM (C87_composite_partial). Violated otherwise: C87_violated, C87_precomputed_violated, C87_composite_violated, C87_weights_violated; C87_overwritten, C87_precomputed_written, C87_refit and C87_weights say what happens then."
  },
  {
   "property": "C88",
   "status": "proved",
   "theorems": [
    "KMethods.C88_features",
    "KMethods.C88_center",
    "KMethods.C88_normalise",
    "KMethods.C88_object",
    "KMethods.C88_linear",
    "KMethods.C88_sum",
    "KMethods.C88_average",
    "KMethods.C88_weighted",
    "KMethods.C88_product",
    "KMethods.C88_distance",
    "KMethods.C88_linear_distance",
    "KMethods.C88_sigmoid"
   ],
   "note": "Validity as in C53 (the sigmoid kernel is not valid: C88_sigmoid). Products for members in dense storage, see C32."
  },
  {
   "property": "C89",
   "status": "partial",
   "theorems": [
    "KMethods.C89_loop_partial",
    "KMethods.C89_elements",
    "KMethods.C89_violated",
    "KMethods.C89_truncated",
    "KMethods.C89_contains_partial",
    "KMethods.C89_reversed",
    "KMethods.C89_contains_violated",
    "KMethods.C89_contains_truncated",
    "KMethods.C89_reversed_truncated",
    "KMethods.C89_unattached",
    "KMethods.C89_precomputed_partial",
    "KMethods.C89_precomputed_reversed",
    "KMethods.C89_constant_violated"
   ],
   "note": "The code violates the full property: no loop over an attached KernelMatrix ends normally (C89_violated), it raises ValueError after the last element; KernelMatrixPrecomputed raises KMAccessError after the last row, ConstantKernelMatrix at once. If the kernel raises IndexError, the loop ends early without an exception (C89_truncated). reversed works."
  },
  {
   "property": "C90",
   "status": "partial",
   "theorems": [
    "KMethods.C90_no_effect",
    "KMethods.C90_no_false_alarm",
    "KMethods.C90_silent_partial",
    "KMethods.C90_full_exact",
    "KMethods.C90_normed_exact",
    "KMethods.C90_violated",
    "KMethods.C90_bucket"
   ],
   "note": "The code violates the full property with two samples: after a kernel failure below the diagonal the next full returns NaN entries and no warning is ever issued (C90_violated). Proved for one sample with any kernel failures, and for two samples when no call ended in RuntimeError (C90_silent_partial)."
  },
  {
   "property": "C91",
   "status": "partial",
   "theorems": [
    "KMethods.C91_machine",
    "KMethods.C91_regressor",
    "KMethods.C91_optimal_partial",
    "KMethods.C91_optimal_answers",
    "KMethods.C91_text_violated",
    "KMethods.C91_violated",
    "KMethods.C91_svr_violated"
   ],
   "note": "Proved for KernelMachine (any dtype) and regressors. The code violates it for OptimalKernelSVC, which converts predictions to 64-bit integers: unsigned labels from 2^63 on become other labels (C91_violated), labels that are strings raise ValueError (C91_text_violated); proved there for integer labels that fit into 64 bits. KernelMachine(learner_id=\"SVR\") predicts other labels after its fit has raised (C91_svr_violated)."
  },
  {
   "property": "C92",
   "status": "proved",
   "theorems": [
    "KMethods.C92_gaussian",
    "KMethods.C92_gaussian_sigma",
    "KMethods.C92_laplacian",
    "KMethods.C92_chi2",
    "KMethods.C92_poly",
    "KMethods.C92_linear",
    "KMethods.C92_binomial",
    "KMethods.C92_average",
    "KMethods.C92_normalised",
    "KMethods.C92_joined"
   ],
   "note": "Exact arithmetic; the members are not normalising and are attached through the set, so their storage is dense (C32 says what ProductKernel does with sparse storage)."
  },
  {
   "property": "C93",
   "status": "partial",
   "theorems": [
    "KMethods.C93_no_effect",
    "KMethods.C93_psd",
    "KMethods.C93_psd_silent",
    "KMethods.C93_normalise",
    "KMethods.C93_normalise_negative",
    "KMethods.C93_normalise2_partial",
    "KMethods.C93_normalise2_violated",
    "KMethods.C93_align",
    "KMethods.C93_align_real",
    "KMethods.C93_choice",
    "KMethods.C93_choice_silent",
    "KMethods.C93_choice_constant",
    "KMethods.C93_bucket"
   ],
   "note": "normalize_km_2sample returns NaN for negative self-kernels without a warning (C93_normalise2_violated); all other parts hold in full. is_PSD with exact eigenvalues; choices by alignment for members with finite matrices."
  },
  {
   "property": "C94",
   "status": "partial",
   "theorems": [
    "KMethods.C94_distinct_partial",
    "KMethods.C94_default",
    "KMethods.C94_violated_sigmoid",
    "KMethods.C94_violated_sigma"
   ],
   "note": "Proved for the default buckets (C94_default) and for all lists of positive degrees, positive gammas, sigmas within the range of ensure_min_eps, and offsets that do not contain the default if the gammas do. Violated otherwise: sigmoid_gamma_values=[1], sigmoid_offset_values=[1] gives the same kernel twice, and so do two sigmas below the machine precision (C94_violated_*)."
  },
  {
   "property": "C95",
   "status": "partial",
   "theorems": [
    "KMethods.C95_visible",
    "KMethods.C95_accurate",
    "KMethods.C95_finite",
    "KMethods.C95_two_visible",
    "KMethods.C95_two_accurate_partial",
    "KMethods.C95_full",
    "KMethods.C95_full_bounded",
    "KMethods.C95_full_two_partial",
    "KMethods.C95_violated"
   ],
   "note": "Proved for one sample: a matrix with a non-finite entry gives a result without finite entries, finite entries are accurate, and positive semidefinite matrices do not overflow; km.full is accurate or has no finite entry. With two samples it is false if a self-kernel overflows: the entry is 0 whatever it should be (C95_violated); all other finite entries are accurate (C95_full_two_partial)."
  },
  {
   "property": "C96",
   "status": "partial",
   "theorems": [
    "KMethods.C96_center_visible",
    "KMethods.C96_center_accurate",
    "KMethods.C96_center_finite",
    "KMethods.C96_shapes",
    "KMethods.C96_frobenius",
    "KMethods.C96_norm",
    "KMethods.C96_frobenius_finite",
    "KMethods.C96_align_centered_partial",
    "KMethods.C96_align_partial",
    "KMethods.C96_align_finite",
    "KMethods.C96_violated"
   ],
   "note": "Proved for centering, Frobenius products and norms. For alignment it is false: if the norm of one matrix overflows, but nothing else, the alignment is 0 whatever it should be (C96_violated); all other finite alignments are accurate (C96_align_centered_partial, C96_align_partial), and without overflow of the sums of squares the result is finite (C96_align_finite)."
  },
  {
   "property": "C97",
   "status": "partial",
   "theorems": [
    "KMethods.C97_visible",
    "KMethods.C97_sum",
    "KMethods.C97_average",
    "KMethods.C97_product",
    "KMethods.C97_errors",
    "KMethods.C97_sum_finite",
    "KMethods.C97_product_finite",
    "KMethods.C97_combination",
    "KMethods.C97_normalised_partial",
    "KMethods.C97_violated"
   ],
   "note": "Proved for the four composite kernels and for linear_combination without normalisation of the weights. With normalisation it is false: if the sum of the weights overflows, all normalised weights are 0 and so is the result (C97_violated); all other finite entries are accurate (C97_normalised_partial, weights that are not negative)."
  },
  {
   "property": "C98",
   "status": "partial",
   "theorems": [
    "KMethods.C98_best_partial",
    "KMethods.C98_finite_scores_partial",
    "KMethods.C98_nan_violated",
    "KMethods.C98_violated",
    "KMethods.C98_cv",
    "KMethods.C98_cv_violated",
    "KMethods.C98_empty"
   ],
   "note": "Proved if nothing overflows: alignment (C98_best_partial) and cross-validation (C98_cv). Otherwise false: a kernel matrix with an infinite or undefined entry has the score NaN and is preferred by np.argmax (C98_nan_violated), a kernel whose norm overflows has the score 0 (C98_violated), and a score NaN or -inf of the cross-validation makes the first kernel win (C98_cv_violated). For finite alignment scores the chosen kernel is the best one whose norm does not overflow, or its own norm overflows and all those are nearly unaligned (C98_finite_scores_partial)."
  },
  {
   "property": "C99",
   "status": "partial",
   "theorems": [
    "KMethods.C99_machine_params",
    "KMethods.C99_machine_partial",
    "KMethods.C99_machine_iff",
    "KMethods.C99_machine_violated",
    "KMethods.C99_machine_fits",
    "KMethods.C99_optimal_clone",
    "KMethods.C99_optimal_fits",
    "KMethods.C99_optimal_apart",
    "KMethods.C99_optimal_original"
   ],
   "note": "Machines that choose a kernel: proved (C99_optimal_clone, C99_optimal_fits, C99_optimal_apart, C99_optimal_original). Machines with a given kernel: proved if k_func is not None (C99_machine_partial, C99_machine_fits); after set_params(k_func=None), which is accepted, clone raises RuntimeError (C99_machine_violated, C99_machine_iff), because the constructor replaces None."
  },
  {
   "property": "C100",
   "status": "partial",
   "theorems": [
    "KMethods.C100_kernels",
    "KMethods.C100_fit_partial",
    "KMethods.C100_predict_partial",
    "KMethods.C100_violated"
   ],
   "note": "Proved for the kernels of the library (C100_kernels, C100_fit_partial, C100_predict_partial). The tags are chosen by the class of k_func, so a KernelFromCallable around the chi-squared kernel rejects negative data without the tag (C100_violated). Nothing is claimed about the tag poor_score."
  },
  {
   "property": "C101",
   "status": "partial",
   "theorems": [
    "KMethods.C101_align",
    "KMethods.C101_cv_score",
    "KMethods.C101_cv_partial",
    "KMethods.C101_cv_history",
    "KMethods.C101_cv_violated",
    "KMethods.C101_nan_violated"
   ],
   "note": "Proved for alignment (C101_align) and, for cross-validation with finite scores, if two of the remaining scores differ by more than 1e-8 (C101_cv_partial); without this the returned kernel is best up to 1e-8 (C101_cv_score). C101_cv_history: the earlier use of the bucket does not matter. Violated for scores 0, 5e-9, -1, where removing the last kernel changes the choice (C101_cv_violated), and for NaN scores (C101_nan_violated)."
  },
  {
   "property": "C102",
   "status": "partial",
   "theorems": [
    "KMethods.C102_find",
    "KMethods.C102_first",
    "KMethods.C102_fit",
    "KMethods.C102_chi2",
    "KMethods.C102_rank_partial",
    "KMethods.C102_rank_custom_partial",
    "KMethods.C102_rank_violated"
   ],
   "note": "Proved for find_optimal_kernel (C102_find; with RuntimeError if it is the first kernel, C102_first) and for fit of OptimalKernelSVC/SVR (C102_fit, which keep the old kernel and model; C102_chi2 for the chi2 kernel and negative data). For rank_kernels: right after attach_to (C102_rank_partial), and each time for kernels that cannot be formatted (C102_rank_custom_partial). Violated: rank_kernels called again after it raised returns scores (C102_rank_violated)."
  },
  {
   "property": "C103",
   "status": "partial",
   "theorems": [
    "KMethods.C103_never_fitted",
    "KMethods.C103_rejected_partial",
    "KMethods.C103_search_violated",
    "KMethods.C103_svm_violated",
    "KMethods.C103_violated"
   ],
   "note": "Proved for machines that have not been fitted successfully before (C103_never_fitted), and if fit raises because of k_bucket or because the data do not pass the check (C103_rejected_partial). Violated in all other cases: if the search raises, predict combines the old kernel and the old model with the new training data (C103_search_violated, with C103_violated as a concrete case); if the SVM raises, the new kernel and data with the old model (C103_svm_violated)."
  },
  {
   "property": "C104",
   "status": "partial",
   "theorems": [
    "KMethods.C104_fit_partial",
    "KMethods.C104_linear_combination_partial",
    "KMethods.C104_custom_partial",
    "KMethods.C104_violated"
   ],
   "note": "Proved for the first call after attach_to (C104_fit_partial, C104_linear_combination_partial), and for every call if the kernel cannot be formatted, like all custom kernels (C104_custom_partial). Violated for other kernels: the third fit of the sum of two kernels that always raise succeeds, with a matrix of NaN (C104_violated)."
  },
  {
   "property": "C105",
   "status": "proved",
   "theorems": [
    "KMethods.C105_modules",
    "KMethods.C105_names",
    "KMethods.C105_from",
    "KMethods.C105_star",
    "KMethods.C105_unknown"
   ],
   "note": "The import system with sys.modules, partially imported modules and __getattr__ is modelled; the theorems hold in every state reached from the start of the interpreter (Used). The states are finite in number; that the list of them is closed under all imports is checked by the kernel, that no other operation leaves it is proved for all names."
  },
  {
   "property": "C106",
   "status": "proved",
   "theorems": [
    "KMethods.C106_modules",
    "KMethods.C106_names",
    "KMethods.C106_machines",
    "KMethods.C106_missing"
   ],
   "note": "As for C105, for every set of installed packages."
  },
  {
   "property": "C107",
   "status": "partial",
   "theorems": [
    "KMethods.C107_partial",
    "KMethods.C107_without_sklearn",
    "KMethods.C107_reads_partial",
    "KMethods.C107_violated"
   ],
   "note": "Proved for all names but ranking, algorithms and categorical (C107_partial); for all names if sklearn is not installed (C107_without_sklearn) or no machine has been read (C107_reads_partial). Violated for ranking and algorithms: AttributeError at first, but the modules once a machine has been read (C107_violated)."
  },
  {
   "property": "C108",
   "status": "partial",
   "theorems": [
    "KMethods.C108_partial",
    "KMethods.C108_violated"
   ],
   "note": "Violated by KernelMachineRegressor (C108_violated); proved for all other names (C108_partial)."
  },
  {
   "property": "C109",
   "status": "proved",
   "theorems": [
    "KMethods.C109_calls",
    "KMethods.C109_precomputed",
    "KMethods.C109_constructed",
    "KMethods.C109_session",
    "KMethods.C109_since",
    "KMethods.C109_values",
    "KMethods.C109_full",
    "KMethods.C109_members",
    "KMethods.C109_composite",
    "KMethods.C109_combine",
    "KMethods.C109_members_dense",
    "KMethods.C109_product",
    "KMethods.C109_similarity",
    "KMethods.C109_find",
    "KMethods.C109_attach",
    "KMethods.C109_normalised",
    "KMethods.C109_attach_full"
   ],
   "note": "For all programs of Model/Session (no assignment to attributes from outside). C109_values, C109_full and C109_normalised carry C01, C08 and C09 over to programs; C109_composite, C109_product, C109_combine, C109_similarity and C109_find carry over C32, C26, C42 and C45; C109_calls does so for other properties of all histories."
  },
  {
   "property": "C110",
   "status": "proved",
   "theorems": [
    "KMethods.C110_grown",
    "KMethods.C110_unchanged",
    "KMethods.C110_composite"
   ],
   "note": "For all programs of Model/Session and all states (no assignment to attributes from outside)."
  },
  {
   "property": "C111",
   "status": "proved",
   "theorems": [
    "KMethods.C111_once",
    "KMethods.C111_nothing_after_full",
    "KMethods.C111_cost",
    "KMethods.C111_attach",
    "KMethods.C111_session"
   ],
   "note": "For all programs of Model/Session. The count of calls of the kernel function, and that nothing is evaluated after full, are for one sample and kernels that do not raise on it; for two samples normalising can evaluate the diagonals again and again (C85)."
  }
 ]
}