{
 "claims": [
  {
   "property": "C01",
   "status": "partial",
   "theorems": [
    "Verif.Writer.c01_data",
    "Verif.Writer.c01_process_partial",
    "Verif.Writer.c01_readd_violated"
   ],
   "note": "Holds for histories that do not register the channel name again. The code violates the full claim: add_channel on an existing name (also through the default name ch{n}) wipes the stored templates, so a second template is accepted (c01_readd_violated)."
  },
  {
   "property": "C02",
   "status": "partial",
   "theorems": [
    "Verif.Writer.c02_pseudodata",
    "Verif.Writer.c02_layout_partial",
    "Verif.Writer.c02_order_violated",
    "Verif.Writer.c02_reader_violated"
   ],
   "note": "Proved for histories with pairwise distinct channel names, sparse templates holding only bins of their channel. The code violates the full claim when a name is registered again: fitted-then-masked leaves the channel before fitted ones (c02_order_violated), masked-then-fitted makes reader and writer ranges differ (c02_reader_violated)."
  },
  {
   "property": "C03",
   "status": "proved",
   "theorems": [
    "Verif.Writer.c03_order",
    "Verif.Writer.c03_order_independent",
    "Verif.Writer.c03_both_kinds",
    "Verif.Writer.c03_mu"
   ],
   "note": ""
  },
  {
   "property": "C04",
   "status": "partial",
   "theorems": [
    "Verif.c04_digits_value",
    "Verif.c04_split_roundtrip",
    "Verif.c04_compare_never_raises",
    "Verif.c04_sorted",
    "Verif.c04_order_independent",
    "Verif.c04_ties_violated"
   ],
   "note": "Ordering proved when all natural-sort keys of the booked names are distinct. Names with equal keys (e.g. 'a1' and 'a01') stay in booking order: c04_ties_violated."
  },
  {
   "property": "C05",
   "status": "partial",
   "theorems": [
    "Verif.Writer.c05_weights_partial",
    "Verif.Writer.c05_mixed_violated"
   ],
   "note": "Proved for histories that do not ask for the same nuisance both with and without constraint; otherwise the name is listed twice and the weight 0 goes to the constrained copy: c05_mixed_violated."
  },
  {
   "property": "C06",
   "status": "proved",
   "theorems": [
    "Verif.Writer.c06_groups",
    "Verif.Writer.c06_resolves"
   ],
   "note": "Exact membership is stated with asked bookings (only these can appear) and accepted bookings (all of these appear)."
  },
  {
   "property": "C07",
   "status": "partial",
   "theorems": [
    "Verif.Writer.c07_symmetric_flag",
    "Verif.Writer.c07_dense_written",
    "Verif.Writer.c07_calls_nominal",
    "Verif.Writer.c07_calls_pair",
    "Verif.Writer.c07_calls_mirrored",
    "Verif.Writer.c07_calls_local",
    "Verif.Writer.c07_readd_violated",
    "Verif.Yields.c07_log_normal",
    "Verif.Yields.c07_normal_partial",
    "Verif.Yields.c07_normal_rate_violated",
    "Verif.Yields.c07_zero_nominal_violated"
   ],
   "note": "Log-normal type proved for every nominal > 0 and any rate. For the normal type the variation is additive, so it is recovered only at rate 1 (c07_normal_rate_violated); a zero nominal bin recovers nothing because book_logk zeroes it (c07_zero_nominal_violated). From the calls to the yields of the written file (dense mode, with further calls before and after, some of them refused): nominal (c07_calls_nominal), pair (c07_calls_pair), mirrored template (c07_calls_mirrored), no effect elsewhere (c07_calls_local). Adding a nuisance again after a pair leaves the difference of the pair (c07_readd_violated)."
  },
  {
   "property": "C08",
   "status": "proved",
   "theorems": [
    "Verif.Writer.c08_calls_symmetrised",
    "Verif.Writer.c08_calls_split",
    "Verif.Yields.c08_average",
    "Verif.Yields.c08_conservative",
    "Verif.Yields.c08_linear",
    "Verif.Yields.c08_quadratic",
    "Verif.Yields.c08_none",
    "Verif.Yields.c08_symmetric_unchanged"
   ],
   "note": "Also proved from the calls to the yields of the written file: averaged and conservative pairs (c08_calls_symmetrised), linear and quadratic ones (c08_calls_split)."
  },
  {
   "property": "C09",
   "status": "proved",
   "theorems": [
    "Verif.Yields.c09_sign",
    "Verif.Yields.c09_floor"
   ],
   "note": ""
  },
  {
   "property": "C10",
   "status": "partial",
   "theorems": [
    "Verif.Writer.c10_lookup_partial",
    "Verif.Writer.c10_lookup_violated",
    "Verif.Writer.c10_content_partial",
    "Verif.Writer.c10_calls",
    "Verif.Writer.c10_file_partial",
    "Verif.Writer.c10_complete_partial",
    "Verif.Yields.c10_yields_partial",
    "Verif.Yields.c10_scaled",
    "Verif.Yields.c10_masked_rates_violated"
   ],
   "note": "From the calls to the yields: the same dense histories written in the two modes give files with the same content (c10_calls, c10_content_partial), which yields the same expectations (c10_file_partial); for complete inputs both files exist (c10_complete_partial). Evaluation level: equal content gives equal yields. With masked channels, a per-bin rate model and full=False the sparse path raises while the dense one evaluates (c10_masked_rates_violated). Templates given as sparse matrices are covered at the level of evaluation only."
  },
  {
   "property": "C11",
   "status": "proved",
   "theorems": [
    "Verif.Writer.c11_canonical"
   ],
   "note": "For every history and every write in sparse mode. Hypotheses: channel names used once, sparse templates list a bin at most once and only bins of their channel, dense templates have one value per bin (what check() enforces for histograms)."
  },
  {
   "property": "C12",
   "status": "partial",
   "theorems": [
    "Verif.Batched.c12_loop_partial",
    "Verif.Batched.c12_dense_partial",
    "Verif.Batched.c12_values",
    "Verif.Batched.c12_slices",
    "Verif.Batched.c12_call",
    "Verif.Batched.c12_order_violated",
    "Verif.Batched.c12_binning_violated",
    "Verif.Batched.c12_finite_violated",
    "Verif.Batched.c12_empty_violated",
    "Verif.Batched.c12_unlisted_violated",
    "Verif.Batched.c12_names_violated",
    "Verif.Batched.c12_slices_dense"
   ],
   "note": "c12_values: what one batched call books: one nuisance per combination of bins of the extra axes, named after the bins, whose variation in every bin of the channel is that of the template by the content of the corresponding bin of the full histogram; nothing else is changed. c12_loop_partial: whenever the loop of single calls over the slices succeeds, the batched call succeeds and leaves the same writer state up to the order of the entries of sparse variations (c12_dense_partial: exactly the same state in dense mode); the other axes have to come in the order of the channel and the template has to have the size of the histogram. c12_slices, c12_slices_dense: contents of the slices of sparse and dense histograms, with and without flow bins. c12_call: all inputs that do not take the batched path are the loop, also if it raises. Violations: axes in another order (c12_order_violated), binning not compared (c12_binning_violated), non-finite numbers in empty bins (c12_finite_violated), empty slices of sparse templates (c12_empty_violated), axes missing in syst_axes (c12_unlisted_violated), equal names of different combinations (c12_names_violated)."
  },
  {
   "property": "C13",
   "status": "proved",
   "theorems": [
    "Verif.Storage.c13_roundtrip",
    "Verif.Storage.c13_roundtrip_exact",
    "Verif.Storage.c13_sparse_roundtrip"
   ],
   "note": "Exact round trip; the sign of a floating point zero may be lost in skipped all-zero chunks (c13_roundtrip states precisely what is kept)."
  },
  {
   "property": "C14",
   "status": "partial",
   "theorems": [
    "Verif.Ext.c14_accepted_iff",
    "Verif.Ext.c14_value",
    "Verif.Ext.c14_order_independent",
    "Verif.Ext.c14_dense_eq_sparse",
    "Verif.Ext.c14_duplicate_term_rejected",
    "Verif.Ext.c14_accepted_labels_agree",
    "Verif.Ext.c14_overflow_axes_violated",
    "Verif.Ext.c14_duplicate_in_term_violated"
   ],
   "note": "Acceptance, value, order independence and dense = sparse proved. Overflow bins of the axes are accepted silently (c14_overflow_axes_violated) and repeated labels in one term are accepted (c14_duplicate_in_term_violated)."
  },
  {
   "property": "C15",
   "status": "partial",
   "theorems": [
    "Verif.Writer.c15_lengths",
    "Verif.Writer.c15_listed_partial",
    "Verif.Writer.c15_scalar_violated",
    "Verif.Writer.c15_asymmetric"
   ],
   "note": "Proved with one uncertainty per listed process (includes a scalar with a single process). An up/down pair for a single process stores half the log ratio, or the larger one (c15_asymmetric). A scalar with several processes acts on the first one only: c15_scalar_violated."
  },
  {
   "property": "C16",
   "status": "partial",
   "theorems": [
    "Verif.Writer.c16_content",
    "Verif.Writer.c16_twice_partial",
    "Verif.Writer.c16_cov_partial",
    "Verif.Writer.c16_twice_violated",
    "Verif.Writer.c16_mcstat_violated"
   ],
   "note": "All content except the covariance is proved stable under any number of writes; the covariance is stable when no nuisance is booked into it, and its formula is proved for the first dense write without Monte Carlo statistics. Second write counts outer products twice: c16_twice_violated; Monte Carlo statistics are broadcast instead of put on the diagonal: c16_mcstat_violated."
  },
  {
   "property": "C17",
   "status": "proved",
   "theorems": [
    "Verif.Writer.c17_stored",
    "Verif.Writer.c17_rejected",
    "Verif.Writer.c17_nonneg"
   ],
   "note": "Sparse inputs are in canonical format (each bin at most once)."
  },
  {
   "property": "C18",
   "status": "proved",
   "theorems": [
    "Verif.Interp.c18_odd",
    "Verif.Interp.c18_bounded",
    "Verif.Interp.c18_saturated",
    "Verif.Interp.c18_smooth",
    "Verif.Interp.c18_joints",
    "Verif.Interp.c18_monotone",
    "Verif.Interp.c18_exact_response",
    "Verif.Interp.c18_response_smooth"
   ],
   "note": "Smoothness is ContDiff of order 2 over all reals."
  },
  {
   "property": "C19",
   "status": "proved",
   "theorems": [
    "Verif.c19_nonneg",
    "Verif.c19_zero_iff",
    "Verif.c19_total_zero_iff",
    "Verif.c19_monotone"
   ],
   "note": ""
  },
  {
   "property": "C20",
   "status": "partial",
   "theorems": [
    "Verif.FullNll.c20_total_partial",
    "Verif.FullNll.c20_sum_of_parts",
    "Verif.FullNll.c20_data_terms",
    "Verif.FullNll.c20_gamma_normalised",
    "Verif.FullNll.c20_single_process_violated",
    "Verif.FullNll.c20_missing_violated",
    "Verif.FullNll.c20_additive_constant_violated",
    "Verif.c20_poisson_offset",
    "Verif.c20_poisson_full_is_log_pmf",
    "Verif.c20_constraint_offset"
   ],
   "note": "Proved for the whole sum wherever the full form exists and is right: Poisson, chi-square and covariance data; no bin-by-bin parameters, gamma in both modes, additive normal in lite mode or with two processes. Violated: additive normal in full mode with one process doubles the term (c20_single_process_violated); multiplicative normal raises NotImplementedError and full additive with three or more processes fails in broadcasting (c20_missing_violated); the additive constant is counted N\u00b2 times in lite mode, still a constant (c20_additive_constant_violated)."
  },
  {
   "property": "C21",
   "status": "proved",
   "theorems": [
    "Verif.c21_constraint_terms",
    "Verif.c21_free_parameter",
    "Verif.c21_zero_iff",
    "Verif.c21_prior_penalty",
    "Verif.c21_no_prior",
    "Verif.c21_accept_priors",
    "Verif.c21_full_is_gaussian_density"
   ],
   "note": ""
  },
  {
   "property": "C22",
   "status": "proved",
   "theorems": [
    "Verif.c22_chisq_is_diagonal_covariance",
    "Verif.c22_set_nobs_guard",
    "Verif.c22_set_nobs_variances",
    "Verif.c22_set_nobs_refuses",
    "Verif.c22_cov_nonneg"
   ],
   "note": ""
  },
  {
   "property": "C23",
   "status": "proved",
   "theorems": [
    "Verif.FitParams.c23_last_call_wins",
    "Verif.FitParams.c23_indices_partition"
   ],
   "note": ""
  },
  {
   "property": "C24",
   "status": "partial",
   "theorems": [
    "Verif.FitParams.c24_frozen_zero_gradient_partial",
    "Verif.FitParams.c24_frozen_zero_hessian_partial",
    "Verif.FitParams.c24_fit_does_not_move_partial",
    "Verif.FitParams.c24_external_violated"
   ],
   "note": "Holds for all likelihood parts except external terms, which read the raw parameter vector without stop_gradient: c24_external_violated."
  },
  {
   "property": "C25",
   "status": "proved",
   "theorems": [
    "Verif.FitParams.c25_selects",
    "Verif.FitParams.c25_order_no_duplicates",
    "Verif.FitParams.c25_raises_iff",
    "Verif.FitParams.c25_plain_name"
   ],
   "note": ""
  },
  {
   "property": "C26",
   "status": "partial",
   "theorems": [
    "Verif.FitParams.c26_offset_values",
    "Verif.FitParams.c26_group_members_share",
    "Verif.FitParams.c26_overlap_raises",
    "Verif.FitParams.c26_offsets_positive",
    "Verif.FitParams.c26_same_likelihood_partial",
    "Verif.FitParams.c26_same_minimum_partial",
    "Verif.FitParams.c26_switch_off",
    "Verif.FitParams.c26_no_blinding",
    "Verif.FitParams.c26_switch_on",
    "Verif.FitParams.c26_external_violated"
   ],
   "note": "Holds without external likelihood terms on blinded parameters; external terms read the unblinded-coordinates vector: c26_external_violated."
  },
  {
   "property": "C27",
   "status": "partial",
   "theorems": [
    "Verif.FitState.c27_prepare_independent",
    "Verif.FitState.c27_no_accumulation",
    "Verif.FitState.c27_scan_keeps_frozen_partial",
    "Verif.FitState.c27_scan_violated"
   ],
   "note": "Assigned state of toy k depends only on its draws and the configuration. The frozen set is not restored when a user-frozen parameter is scanned: c27_scan_violated."
  },
  {
   "property": "C28",
   "status": "proved",
   "theorems": [
    "Verif.FitState.c28_common_values",
    "Verif.FitState.c28_others_kept",
    "Verif.FitState.c28_covariance",
    "Verif.FitState.c28_covariance_absent"
   ],
   "note": ""
  },
  {
   "property": "C29",
   "status": "partial",
   "theorems": [
    "Verif.BBB.c29_objective_is_likelihood",
    "Verif.BBB.c29_constraint_strength",
    "Verif.BBB.c29_gamma_lite_poisson_minimises",
    "Verif.BBB.c29_gamma_lite_closed_form",
    "Verif.BBB.c29_inactive_bin_violated"
   ],
   "note": "Proved for bins with active yield; when the masked-in processes have zero yield the profiled value is not a minimiser: c29_inactive_bin_violated."
  },
  {
   "property": "C30",
   "status": "partial",
   "theorems": [
    "Verif.BBB.c30_normal_mult_lite_poisson_minimises",
    "Verif.BBB.c30_normal_add_lite_poisson_minimises",
    "Verif.BBB.c30_inactive_bin_violated"
   ],
   "note": "Proved for bins with active yield; additive type without active yield is not a minimiser: c30_inactive_bin_violated."
  },
  {
   "property": "C31",
   "status": "partial",
   "theorems": [
    "Verif.BBB.c31_covariance_data_term",
    "Verif.BBB.c31_normal_mult_lite_covariance_minimises",
    "Verif.BBB.c31_normal_add_lite_covariance_minimises",
    "Verif.BBB.c31_masked_bin_correlated_violated",
    "Verif.BBB.c31_gamma_covariance_refused",
    "Verif.BBB.c31_automatic_kind",
    "Verif.BBB.c31_gamma_lite_chisq_minimises",
    "Verif.BBB.c31_normal_mult_lite_chisq_minimises",
    "Verif.BBB.c31_normal_add_lite_chisq_minimises"
   ],
   "note": "Proved per bin, and for the full covariance when every bin has template statistics; with correlated data and a masked bin the linear solve is not the minimiser: c31_masked_bin_correlated_violated."
  },
  {
   "property": "C32",
   "status": "partial",
   "theorems": [
    "Verif.BBB.c32_normal_mult_full_covariance_minimises",
    "Verif.BBB.c32_normal_add_full_covariance_minimises",
    "Verif.BBB.c32_applied_is_spec",
    "Verif.BBB.c32_objective_is_likelihood",
    "Verif.BBB.c32_normal_mult_full_poisson_minimises",
    "Verif.BBB.c32_normal_mult_full_poisson_empty",
    "Verif.BBB.c32_normal_add_full_poisson_minimises",
    "Verif.BBB.c32_normal_mult_full_chisq_minimises",
    "Verif.BBB.c32_normal_add_full_chisq_minimises",
    "Verif.BBB.c32_empty_bin_violated"
   ],
   "note": "Proved for observed bins with positive data; empty bins above the equivalent statistics give a negative prediction: c32_empty_bin_violated."
  },
  {
   "property": "C33",
   "status": "proved",
   "theorems": [
    "Verif.BBB.c33_beta_positive_poisson",
    "Verif.BBB.c33_beta_positive_chisq",
    "Verif.BBB.c33_newton_fixed_point",
    "Verif.BBB.c33_newton_step_bounded",
    "Verif.BBB.c33_stationary_is_global_minimum_poisson",
    "Verif.BBB.c33_empty_bin_minimises",
    "Verif.BBB.c33_stationary_is_global_minimum_chisq"
   ],
   "note": ""
  },
  {
   "property": "C34",
   "status": "proved",
   "theorems": [
    "Verif.BBB.c34_full_untouched",
    "Verif.BBB.c34_lite_untouched",
    "Verif.BBB.c34_lite_untouched_additive",
    "Verif.BBB.c34_mask_iff"
   ],
   "note": ""
  },
  {
   "property": "C35",
   "status": "partial",
   "theorems": [
    "Verif.Cov.c35_covariance_partial",
    "Verif.Cov.c35_not_positive_definite",
    "Verif.Cov.c35_cpu_gpu",
    "Verif.Cov.c35_frozen_violated"
   ],
   "note": "Floating block inverted and placed, symmetric and positive definite there; CPU and GPU paths agree. Rows and columns of frozen parameters keep what the covariance variable held before (prefit variances) instead of zero: c35_frozen_violated."
  },
  {
   "property": "C36",
   "status": "partial",
   "theorems": [
    "Verif.Cov.c36_derivatives",
    "Verif.Cov.c36_dense_partial",
    "Verif.Cov.c36_frozen_violated",
    "Verif.Cov.c36_cg",
    "Verif.Cov.c36_cg_total"
   ],
   "note": "Dense step proved without frozen parameters; with any frozen parameter the dense path raises: c36_frozen_violated. The Hessian-free path is proved for a solver meeting its specification."
  },
  {
   "property": "C37",
   "status": "proved",
   "theorems": [
    "Verif.Impacts.c37_single",
    "Verif.Impacts.c37_groups",
    "Verif.Impacts.c37_constrained_noi_raises",
    "Verif.Impacts.c37_frozen_member_raises",
    "Verif.Cov.c37_statistical"
   ],
   "note": "All positive semidefinite covariances. Extra facts: constrained NOIs raise when no nuisance is unconstrained, a group with a zero-variance member raises. The statistical covariance of the floating parameters exists, is zero for frozen ones and at most the full one (c37_statistical)."
  },
  {
   "property": "C38",
   "status": "partial",
   "theorems": [
    "Verif.Impacts.c38_likelihood",
    "Verif.Impacts.c38_likelihood_no_bbb",
    "Verif.Impacts.c38_gaussian",
    "Verif.Impacts.c38_gaussian_uncorrelated",
    "Verif.Impacts.c38_external_violated",
    "Verif.Impacts.c38_groups",
    "Verif.Impacts.c38_processes"
   ],
   "note": "Likelihood-based and gaussian decomposition proved, including profiled bin-by-bin variables. With external likelihood terms the gaussian parts fall short of the variance: c38_external_violated."
  },
  {
   "property": "C39",
   "status": "proved",
   "theorems": [
    "Verif.Impacts.c39_global_rows",
    "Verif.Impacts.c39_rows",
    "Verif.Impacts.c39_traditional",
    "Verif.Impacts.c39_global"
   ],
   "note": "Traditional and global tables, all option combinations; frozen set at axis creation equals the one at computation. Rows of the global tables are those named by the labels (c39_global_rows)."
  },
  {
   "property": "C40",
   "status": "partial",
   "theorems": [
    "Verif.Scans.c40_rows",
    "Verif.Scans.c40_labels_partial",
    "Verif.Scans.c40_labels_violated",
    "Verif.Scans.c40_groups_partial",
    "Verif.Scans.c40_groups_violated",
    "Verif.Scans.c40_envelope"
   ],
   "note": "Rows are the responses of the shifted refits and the state is restored. Labels follow the call order of freeze_params while rows follow the index order (c40_labels_violated); the group index lists count nuisances while the frozen indices count all parameters (c40_groups_violated). Restricted theorems: a single freeze call, no model parameters."
  },
  {
   "property": "C41",
   "status": "partial",
   "theorems": [
    "Verif.Scans.c41_scan_partial",
    "Verif.Scans.c41_scan2D_partial",
    "Verif.Scans.c41_contour",
    "Verif.Scans.c41_grouped_partial",
    "Verif.Scans.c41_global",
    "Verif.Scans.c41_scan_violated",
    "Verif.Scans.c41_grouped_violated"
   ],
   "note": "Global asymmetric impacts and contour scans restore everything. Likelihood scans unfreeze a scanned parameter that was frozen before (c41_scan_violated); grouped impacts unfreeze parameters matched by a member name read as regular expression (c41_grouped_violated)."
  },
  {
   "property": "C42",
   "status": "partial",
   "theorems": [
    "Verif.Scans.c42_spiral",
    "Verif.Scans.c42_scan_partial",
    "Verif.Scans.c42_grid_partial",
    "Verif.Scans.c42_even_violated",
    "Verif.Scans.c42_prefit_violated",
    "Verif.Scans.c42_single_violated"
   ],
   "note": "Proved for all odd numbers of points around the best fit. Even numbers never visit the last row and column (c42_even_violated); a single point or an even number puts the zero beside the best fit (c42_single_violated); with use_prefit the grid is centred on zero (c42_prefit_violated)."
  },
  {
   "property": "C43",
   "status": "partial",
   "theorems": [
    "Verif.Scans.c43_scan",
    "Verif.Scans.c43_count_partial",
    "Verif.Scans.c43_even_violated"
   ],
   "note": "Warm-start chain, central zero and positions proved for every number of points; an even number returns one value more than asked for (c43_even_violated)."
  },
  {
   "property": "C44",
   "status": "proved",
   "theorems": [
    "Verif.Impacts.c44_warm_start"
   ],
   "note": "Covariance computed for the same frozen parameters as the scan."
  },
  {
   "property": "C45",
   "status": "proved",
   "theorems": [
    "Verif.ParamModels.c45_layout",
    "Verif.ParamModels.c45_partition",
    "Verif.ParamModels.c45_product",
    "Verif.ParamModels.c45_succeeds",
    "Verif.ParamModels.c45_default",
    "Verif.ParamModels.c45_priors",
    "Verif.ParamModels.c45_flag",
    "Verif.ParamModels.c45_linear",
    "Verif.ParamModels.c45_groups",
    "Verif.ParamModels.c45_ones"
   ],
   "note": ""
  },
  {
   "property": "C46",
   "status": "partial",
   "theorems": [
    "Verif.ParamModels.c46_constructs_iff",
    "Verif.ParamModels.c46_evaluates_iff",
    "Verif.ParamModels.c46_stored_order_partial",
    "Verif.ParamModels.c46_named_pair_partial",
    "Verif.ParamModels.c46_sum_constant_iff",
    "Verif.ParamModels.c46_sum_conserved_iff",
    "Verif.ParamModels.c46_order_violated",
    "Verif.ParamModels.c46_sum_violated"
   ],
   "note": "Proved for the constructor and evaluation as written; the mixing weights follow the stored process order, not the order requested, and duplicate pairs break the conserved sum: c46_order_violated, c46_sum_violated."
  },
  {
   "property": "C47",
   "status": "partial",
   "theorems": [
    "Verif.ABCD.c47_region",
    "Verif.ABCD.c47_region_ok_iff",
    "Verif.ABCD.c47_bins_partial",
    "Verif.ABCD.c47_disjoint",
    "Verif.ABCD.c47_region_nodup",
    "Verif.ABCD.c47_relation_partial",
    "Verif.ABCD.c47_evaluates",
    "Verif.ABCD.c47_default",
    "Verif.ABCD.c47_names_partial",
    "Verif.ABCD.c47_extended_partial",
    "Verif.ABCD.c47_isomt",
    "Verif.ABCD.c47_zero_denominator_violated",
    "Verif.ABCD.c47_empty_template_violated",
    "Verif.ABCD.c47_negative_index_violated",
    "Verif.ABCD.c47_flow_violated",
    "Verif.ABCD.c47_negative_index",
    "Verif.ABCD.c47_isomt_extended"
   ],
   "note": "Relation proved for disjoint regions, non-vanishing B parameters and (with yield correction) non-vanishing B and D templates; names proved for bin numbers counted from the front in channels without flow bins. Failing cases: c47_zero_denominator_violated, c47_empty_template_violated, c47_negative_index_violated, c47_flow_violated."
  },
  {
   "property": "C48",
   "status": "partial",
   "theorems": [
    "Verif.SmoothABCD.c48_basis",
    "Verif.SmoothABCD.c48_basis_cos",
    "Verif.SmoothABCD.c48_basis_bounded",
    "Verif.SmoothABCD.c48_positions",
    "Verif.SmoothABCD.c48_unit_map",
    "Verif.SmoothABCD.c48_rates_partial",
    "Verif.SmoothABCD.c48_positive_partial",
    "Verif.SmoothABCD.c48_default_partial",
    "Verif.SmoothABCD.c48_evaluates",
    "Verif.SmoothABCD.c48_region",
    "Verif.SmoothABCD.c48_region_names",
    "Verif.SmoothABCD.c48_names",
    "Verif.SmoothABCD.c48_extended_partial",
    "Verif.SmoothABCD.c48_extended_default",
    "Verif.SmoothABCD.c48_correction_default_violated",
    "Verif.SmoothABCD.c48_other_axis_violated"
   ],
   "note": "Rates, positivity, basis, cell order and names are proved for all constructed models (four and six regions). Hypothesis: the regions are disjoint. Violated: with yield correction the rate of region D at the default parameters is not one; the positions of every region are those of region A's axis even if another region lives in a channel with other edges. Single precision rounding of initial values is not modelled."
  },
  {
   "property": "C49",
   "status": "partial",
   "theorems": [
    "Verif.AxisModels.c49_norm_rates",
    "Verif.AxisModels.c49_norm_names_partial",
    "Verif.AxisModels.c49_norm_evaluates",
    "Verif.AxisModels.c49_norm_default",
    "Verif.AxisModels.c49_norm_start",
    "Verif.AxisModels.c49_positions",
    "Verif.AxisModels.c49_exp_rates",
    "Verif.AxisModels.c49_exp_positive",
    "Verif.AxisModels.c49_exp_default",
    "Verif.AxisModels.c49_exp_names_partial",
    "Verif.AxisModels.c49_bernstein_rates",
    "Verif.AxisModels.c49_bernstein_bounds",
    "Verif.AxisModels.c49_bernstein_default",
    "Verif.AxisModels.c49_bernstein_names_partial",
    "Verif.AxisModels.c49_exp_evaluates",
    "Verif.AxisModels.c49_bernstein_evaluates",
    "Verif.AxisModels.c49_axis_order_violated",
    "Verif.AxisModels.c49_duplicate_process_violated",
    "Verif.AxisModels.c49_flow_violated"
   ],
   "note": "Factors, defaults, evaluation, positivity and bounds proved for all constructed models (first-order Bernstein as in the code). Names proved for axes requested in the order of the channel; violated for another order (labels of other cells). Violated: a process named twice gets additive corrections that can be negative; channels with flow bins are counted without flow bins."
  },
  {
   "property": "C50",
   "status": "proved",
   "theorems": [
    "Verif.Mappings.c50_projection",
    "Verif.Mappings.c50_per_process",
    "Verif.Mappings.c50_total",
    "Verif.Mappings.c50_identity",
    "Verif.Mappings.c50_twice",
    "Verif.Mappings.c50_process_sum",
    "Verif.Mappings.c50_normalize",
    "Verif.Mappings.c50_normalize_per_process",
    "Verif.Mappings.c50_unknown_axis",
    "Verif.Mappings.c50_repeated_axis"
   ],
   "note": ""
  },
  {
   "property": "C51",
   "status": "partial",
   "theorems": [
    "Verif.Mappings.c51_select",
    "Verif.Mappings.c51_per_process",
    "Verif.Mappings.c51_no_loss",
    "Verif.Mappings.c51_labels",
    "Verif.Mappings.c51_order",
    "Verif.Mappings.c51_refuse",
    "Verif.Mappings.c51_parse",
    "Verif.Mappings.c51_step_violated",
    "Verif.Mappings.c51_flow_violated",
    "Verif.Mappings.c51_process_labels_violated",
    "Verif.Mappings.c51_unknown_sum_violated"
   ],
   "note": "Selection, rebinning and sums proved for all channels without flow bins and slices without step. Violated: slices with a step, channels with flow bins, order of process labels, misspelt axis in a sum that is not named last."
  },
  {
   "property": "C52",
   "status": "partial",
   "theorems": [
    "Verif.Workspace.c52_processes",
    "Verif.Workspace.c52_data",
    "Verif.Mappings.c52_value",
    "Verif.Mappings.c52_difference_partial",
    "Verif.Mappings.c52_scale",
    "Verif.Mappings.c52_exchange",
    "Verif.Mappings.c52_labels",
    "Verif.Mappings.c52_refuse",
    "Verif.Mappings.c52_difference_violated"
   ],
   "note": "Ratio, Normratio and Asymmetry proved. Difference proved to be the difference of the normalised histograms; violated for the difference of the histograms as documented. The predictions are requested per process exactly when a selection of processes is given, and data only if both channels have them (c52_processes, c52_data)."
  },
  {
   "property": "C53",
   "status": "partial",
   "theorems": [
    "Verif.Workspace.c53_concat",
    "Verif.Workspace.c53_per_process",
    "Verif.Workspace.c53_mixed_partial",
    "Verif.Workspace.c53_ranges",
    "Verif.Workspace.c53_order_violated",
    "Verif.Workspace.c53_two_violated",
    "Verif.Workspace.c53_duplicate_violated",
    "Verif.Workspace.c53_evaluate_partial",
    "Verif.Workspace.c53_data"
   ],
   "note": "Concatenation proved when no component or every component needs predictions per process, and for one component that does not at the end. Channel ranges proved for distinct composite channel names. Violated: a component without need before one with need (summed predictions silently), two components without need beside one with need (raises), the same mapping twice (histograms shifted). A composite has data exactly if every component has (c53_data)."
  },
  {
   "property": "C54",
   "status": "partial",
   "theorems": [
    "Verif.Workspace.c54_cut",
    "Verif.Workspace.c54_expected",
    "Verif.Workspace.c54_observed",
    "Verif.Workspace.c54_observed_cov",
    "Verif.Workspace.c54_short",
    "Verif.Workspace.c54_reader",
    "Verif.Workspace.c54_flow_violated",
    "Verif.Workspace.c54_key_violated"
   ],
   "note": "Expected and observed histograms, covariance blocks and the ranges of the reader proved. Violated: observed histograms of channels with flow bins; values per mapping of two Select mappings with the same arguments on different channels."
  },
  {
   "property": "C55",
   "status": "partial",
   "theorems": [
    "Verif.Regularization.c55_value",
    "Verif.Regularization.c55_nonneg",
    "Verif.Regularization.c55_zero_iff",
    "Verif.Regularization.c55_multiple",
    "Verif.Regularization.c55_term",
    "Verif.Regularization.c55_refuse",
    "Verif.Regularization.c55_empty_bin_violated"
   ],
   "note": "Proved in one, two and three dimensions (maximum principle on the grid). A constant multiple of the expected spectrum is only unpenalised when no expected bin is empty: the ratio of an empty bin is set to one, see c55_empty_bin_violated."
  },
  {
   "property": "C56",
   "status": "partial",
   "theorems": [
    "Verif.Limits.c56_normal",
    "Verif.Limits.c56_expected",
    "Verif.Limits.c56_level",
    "Verif.Limits.c56_quantile",
    "Verif.Limits.c56_table",
    "Verif.Limits.c56_observed",
    "Verif.Limits.c56_observed_exact",
    "Verif.Limits.c56_negative_violated",
    "Verif.Limits.c56_constraint",
    "Verif.Limits.c56_reading",
    "Verif.Limits.c56_zero_violated",
    "Verif.Limits.c56_model_parameter_violated"
   ],
   "note": "Expected limits, their ordering in level and quantile, and the observed root condition for measurements at or above zero are proved; c56_normal shows that the standard normal distribution meets the hypotheses. Violated for measurements below zero (c56_negative_violated), a squared signal strength with zero best fit (c56_zero_violated) and model parameters that are not of interest (c56_model_parameter_violated)."
  },
  {
   "property": "C57",
   "status": "partial",
   "theorems": [
    "Verif.Driver.c57_fits",
    "Verif.Driver.c57_plain",
    "Verif.Driver.c57_pseudo_partial",
    "Verif.Driver.c57_distinct_partial",
    "Verif.Driver.c57_accumulated_violated",
    "Verif.Driver.c57_repeated_violated",
    "Verif.Driver.c57_underscore_violated",
    "Verif.Driver.c57_negative_violated"
   ],
   "note": "Keys and data of the fits to data, asimov and toys are proved; with pseudo-data the claim holds for fits to data and for the first set of other fits. Violated from the second set of an asimov fit or toy on (c57_accumulated_violated), for toys requested twice (c57_repeated_violated), names with underscores (c57_underscore_violated) and numbers below -1 (c57_negative_violated)."
  },
  {
   "property": "C58",
   "status": "partial",
   "theorems": [
    "Verif.Driver.c58_unknown",
    "Verif.Driver.c58_select",
    "Verif.Driver.c58_datasets",
    "Verif.Driver.c58_variances_violated",
    "Verif.Driver.c58_stored",
    "Verif.Driver.c58_roundtrip"
   ],
   "note": "Proved from add_pseudodata through the file to the data sets of the fit, for every history of calls with distinct channel names. The sets come in the order of the file, not of the request. Violated for stored variances, which are not selected (c58_variances_violated); the writer of this repository stores none."
  },
  {
   "property": "C59",
   "status": "partial",
   "theorems": [
    "Verif.Merge.c59_yields_partial",
    "Verif.Merge.c59_written_partial",
    "Verif.Merge.c59_type_violated",
    "Verif.Merge.c59_negative_violated",
    "Verif.Merge.c59_constraint_violated",
    "Verif.Merge.c59_sparse_raises",
    "Verif.Merge.c59_groups"
   ],
   "note": "c59_yields_partial: whenever the merge tool succeeds on dense tensors of the systematic type it writes, whose templates are not negative and whose shared nuisances agree on being constrained, every input channel reappears with the same observed data, variances, templates, constraint status and - for all values of the nuisances given by name and all rate factors - the same predicted yields per process and in total. c59_written_partial: files written by a dense writer without negative expectations meet the conditions on the inputs. Violations: tensors with additive variations merged with the default log_normal type (c59_type_violated), negative templates clipped (c59_negative_violated), a nuisance constrained in one input only appears twice (c59_constraint_violated). c59_groups: groups of nuisances and nuisances of interest of the merged file are exactly those of the inputs. Sparse tensors raise. Pseudo-data, external terms and covariances are not copied by the tool."
  },
  {
   "property": "C60",
   "status": "partial",
   "theorems": [
    "Verif.Datacard.c60_observations_partial",
    "Verif.Datacard.c60_rates_partial",
    "Verif.Datacard.c60_systematics_partial",
    "Verif.Datacard.c60_directives",
    "Verif.Datacard.c60_nuisance_edit_violated",
    "Verif.Datacard.c60_after_directive_violated",
    "Verif.Datacard.c60_before_rate_violated",
    "Verif.Datacard.c60_type_violated",
    "Verif.Datacard.c60_effects_violated",
    "Verif.Datacard.c60_duplicate_column_violated",
    "Verif.Datacard.c60_columns_violated",
    "Verif.Datacard.c60_observations_violated",
    "Verif.Datacard.c60_order_violated",
    "Verif.Datacard.c60_separator_violated",
    "Verif.Datacard.c60_processes_converted",
    "Verif.Datacard.c60_norm_converted",
    "Verif.Datacard.c60_counting_violated",
    "Verif.Datacard.c60_ignored_violated",
    "Verif.Datacard.c60_bin_violated"
   ],
   "note": "Text is modelled character by character; every text has rows of words (textOf_exists). For a card read without exception: observations, rates (in column order), known systematics between the rate row and the first directive, and directives are proved to be represented under the layout conditions the code silently relies on. Without these the property fails: systematics after a directive or before the rate row, unknown types, wrong number of effects, duplicate columns, extra columns, different numbers of bins and observations, process section at the first row, separator inside the process section, 'nuisance edit'. The converter ignores the rates of processes without shape, gmN, param and group rows and bins without observation."
  },
  {
   "property": "C61",
   "status": "partial",
   "theorems": [
    "Verif.IoTools.c61_pulls",
    "Verif.IoTools.c61_asym_partial",
    "Verif.IoTools.c61_asym_key_violated",
    "Verif.IoTools.c61_asym_order_violated",
    "Verif.IoTools.c61_no_labels",
    "Verif.IoTools.c61_impacts",
    "Verif.IoTools.c61_impacts_asym",
    "Verif.IoTools.c61_flat_violated",
    "Verif.IoTools.c61_together_partial",
    "Verif.IoTools.c61_written",
    "Verif.IoTools.c61_written_asym",
    "Verif.IoTools.c61_total_violated",
    "Verif.IoTools.c61_order_violated",
    "Verif.IoTools.c61_table"
   ],
   "note": "Pulls and constraints, impacts, and both together (sources in the order of the parameters) are proved aligned, and the printed table for every sort order. Violated: asymmetric constraints are read under a key that is never written (c61_asym_key_violated) and assume a scan in parameter order (c61_asym_order_violated); asymmetric impacts with the total are flattened (c61_flat_violated); pulls are not dropped if all parameters but one are sources and the total is added (c61_total_violated); sources in another order (c61_order_violated)."
  },
  {
   "property": "C62",
   "status": "partial",
   "theorems": [
    "Verif.Scans.c62_fit",
    "Verif.Scans.c62_nan_stops",
    "Verif.Scans.c62_early_stopping_partial",
    "Verif.Scans.c62_progress_not_stopped",
    "Verif.Scans.c62_window_violated"
   ],
   "note": "Exception and NaN handling proved for all iteration sequences. Early stopping compares with a single earlier iteration, so it can stop although an iteration inside the window improved (c62_window_violated); for non-increasing losses the claim holds."
  },
  {
   "property": "C63",
   "status": "partial",
   "theorems": [
    "Verif.Impacts.c63_diagonal",
    "Verif.Impacts.c63_nonneg",
    "Verif.Impacts.c63_reorder",
    "Verif.Impacts.c63_zero_partial",
    "Verif.Impacts.c63_frozen_violated",
    "Verif.Impacts.c63_variations",
    "Verif.Impacts.c63_variation_nan"
   ],
   "note": "Non-negativity, reordering and diagonal hold in general. A prediction that depends only on a frozen constrained parameter gets a non-zero variance after a fit: c63_frozen_violated."
  },
  {
   "property": "C64",
   "status": "proved",
   "theorems": [
    "Verif.Storage.c64_slice",
    "Verif.Storage.c64_segment_sum"
   ],
   "note": ""
  },
  {
   "property": "C65",
   "status": "proved",
   "theorems": [
    "Verif.Scans.c65_rows",
    "Verif.Scans.c65_groups",
    "Verif.Scans.c65_sources",
    "Verif.Scans.c65_quadrature",
    "Verif.Scans.c65_warm_start"
   ],
   "note": ""
  },
  {
   "property": "C66",
   "status": "partial",
   "theorems": [
    "Verif.AxisModels.c66_rates",
    "Verif.AxisModels.c66_names_partial",
    "Verif.AxisModels.c66_evaluates",
    "Verif.AxisModels.c66_inclusive_violated",
    "Verif.AxisModels.c66_axis_order_violated"
   ],
   "note": "Factors proved for single-channel projections (the only use, rabbit_fit.py:397-466). Names proved for kept axes in channel order; violated for another order. Violated: a projection onto no axis declares one parameter but raises on evaluation (product of the empty list is a float used as slice bound)."
  },
  {
   "property": "C67",
   "status": "partial",
   "theorems": [
    "Verif.Mappings.c67_value",
    "Verif.Mappings.c67_lamtung",
    "Verif.Mappings.c67_scale",
    "Verif.Mappings.c67_axis",
    "Verif.Mappings.c67_labels",
    "Verif.Mappings.c67_request_violated",
    "Verif.Mappings.c67_process_violated"
   ],
   "note": "Proved for requests that leave the helicity axis alone, channels without flow bins and slices without step. Violated: a request on the helicity axis replaces the unpolarised denominator; a process selection is ignored. Axis objects are copied by the histogram library (trusted)."
  },
  {
   "property": "C68",
   "status": "proved",
   "theorems": [
    "Verif.IoTools.c68_selected",
    "Verif.IoTools.c68_all",
    "Verif.IoTools.c68_refuse"
   ],
   "note": ""
  },
  {
   "property": "C69",
   "status": "partial",
   "theorems": [
    "Verif.IoTools.c69_global_violated",
    "Verif.IoTools.c69_nonprofiled_violated",
    "Verif.IoTools.c69_constraints_violated",
    "Verif.IoTools.c69_size_partial"
   ],
   "note": "The columns are exchanged or have the wrong sign for all three procedures (c69_global_violated, c69_nonprofiled_violated, c69_constraints_violated); only the size used for sorting is right (c69_size_partial)."
  },
  {
   "property": "C70",
   "status": "proved",
   "theorems": [
    "Verif.Chi2.c70_covariance",
    "Verif.Chi2.c70_error",
    "Verif.Chi2.c70_posSemidef",
    "Verif.Chi2.c70_compose",
    "Verif.Chi2.c70_branches",
    "Verif.Chi2.c70_projection",
    "Verif.Chi2.c70_selection"
   ],
   "note": ""
  },
  {
   "property": "C71",
   "status": "partial",
   "theorems": [
    "Verif.Chi2.c71_dependent_violated",
    "Verif.Chi2.c71_difference_violated",
    "Verif.Chi2.c71_overlap_violated",
    "Verif.Chi2.c71_normalize",
    "Verif.Chi2.c71_normratio_violated",
    "Verif.Chi2.c71_nonneg",
    "Verif.Chi2.c71_invariant",
    "Verif.Chi2.c71_projection",
    "Verif.Chi2.c71_normalized",
    "Verif.Chi2.c71_response",
    "Verif.Chi2.c71_gaussian",
    "Verif.Chi2.c71_free_violated"
   ],
   "note": "The quadratic form, its invariance, the Normalize mapping and equality with the minimum of the loss for linear Gaussian models with all parameters constrained are proved. Violations: an unconstrained parameter makes the covariance of the postfit residuals singular (c71_free_violated); outputs with a linear relation that ndf_reduction does not count make the call fail (c71_dependent_violated), which holds for every Difference (c71_difference_violated) and for composites of two projections of a channel (c71_overlap_violated); Normratio subtracts a degree of freedom although its outputs are independent (c71_normratio_violated). The derivatives with respect to the data and the response of non-linear models are covered by C70 and C41 only."
  },
  {
   "property": "C72",
   "status": "partial",
   "theorems": [
    "Verif.SatTest.c72_layout",
    "Verif.SatTest.c72_nested",
    "Verif.SatTest.c72_matches",
    "Verif.SatTest.c72_negative_violated",
    "Verif.SatTest.c72_ndf_violated",
    "Verif.SatTest.c72_freeze_violated"
   ],
   "note": "Layout and nesting hold for every likelihood and all external terms; the match with the data is proved for the Poisson likelihood without bin-by-bin uncertainties. Violations: the test raises when POIs may be negative (c72_negative_violated); the number of degrees of freedom is the number of projected bins also when the fit already scales them (c72_ndf_violated); freeze expressions also match the additional parameters (c72_freeze_violated)."
  },
  {
   "property": "C73",
   "status": "partial",
   "theorems": [
    "Verif.SatTest.c73_accepted",
    "Verif.SatTest.c73_start",
    "Verif.SatTest.c73_scaling_partial",
    "Verif.SatTest.c73_scaling_violated",
    "Verif.SatTest.c73_composite_violated"
   ],
   "note": "Acceptance and start values are proved for all requests (requested values of squared parameters have to be non-negative). Violations: additive systematics are scaled by the rates at the stored square root (c73_scaling_violated; c73_scaling_partial for zero, one or signed POIs); a composite of models refuses every request that does not name parameters of all models (c73_composite_violated)."
  },
  {
   "property": "C74",
   "status": "partial",
   "theorems": [
    "Verif.PostFit.c74_dense",
    "Verif.PostFit.c74_hessfree_partial",
    "Verif.PostFit.c74_hessfree_total",
    "Verif.PostFit.c74_noi_violated",
    "Verif.PostFit.c74_frozen_violated",
    "Verif.PostFit.c74_external_violated",
    "Verif.PostFit.c74_noedm_violated",
    "Verif.PostFit.c74_ndf_partial",
    "Verif.PostFit.c74_ndf_violated"
   ],
   "note": "The dense computation holds for all options and frozen sets; the Hessian-free one equals it when every model parameter is a POI and no reported parameter is frozen, for every solver meeting the contract of conjugate gradients, and does not fail with an ideal one (c74_hessfree_total). Violations: with other model parameters the rows of the nuisance parameters of interest are misplaced (c74_noi_violated); a frozen POI makes the program fail after the fit (c74_frozen_violated); a loaded covariance is not stored and the variances read NaN when the fit is skipped (c74_external_violated); --noEDM alone leaves the prefit covariance for postfit histograms (c74_noedm_violated); parameters with priors and frozen ones are subtracted from the degrees of freedom (c74_ndf_violated)."
  },
  {
   "property": "C75",
   "status": "partial",
   "theorems": [
    "Verif.LCurve.c75_curvature_partial",
    "Verif.LCurve.c75_lbeta_violated",
    "Verif.LCurve.c75_frozen_violated",
    "Verif.LCurve.c75_beta_violated",
    "Verif.LCurve.c75_external_violated",
    "Verif.LCurve.c75_scan",
    "Verif.LCurve.c75_scan_violated",
    "Verif.LCurve.c75_optimize",
    "Verif.LCurve.c75_sign_violated"
   ],
   "note": "Whenever a number is returned it is the curvature of the L-curve, for likelihoods without external terms, bin-by-bin parameters and frozen parameters; the derivative the code takes at fixed parameters suffices because the gradients are parallel at a minimum. Scan and optimisation proved. Violations: without bin-by-bin uncertainties the code raises (c75_lbeta_violated); with them the second derivatives are those at fixed beta (c75_beta_violated); a frozen parameter makes the decomposition fail (c75_frozen_violated); external terms are in the loss and not in the likelihood used (c75_external_violated); after a scan the parameters are not at the minimum for the tau set back (c75_scan_violated); the optimisation stores the negative of the curvature (c75_sign_violated)."
  },
  {
   "property": "C76",
   "status": "partial",
   "theorems": [
    "Verif.Datacard.c76_directive",
    "Verif.Datacard.c76_wildcard_violated",
    "Verif.Datacard.c76_name",
    "Verif.Datacard.c76_histogram",
    "Verif.Datacard.c76_found_partial",
    "Verif.Datacard.c76_depth_violated",
    "Verif.Datacard.c76_nominal_partial",
    "Verif.Datacard.c76_systematic_partial",
    "Verif.Datacard.c76_optional_violated",
    "Verif.Datacard.c76_max_depth"
   ],
   "note": "Directive chosen, name built and lookup proved for all cards whose names contain no '$' and whose patterns are text and variables; every histogram returned is the one of its name (c76_histogram), and it is found if it is at least as deep as the deepest pattern (c76_found_partial); what reaches the writer: c76_nominal_partial, c76_systematic_partial. Violations: a later directive with wildcards replaces a specific one (c76_wildcard_violated); histograms beside directories are lost as soon as any pattern of the card has a directory (c76_depth_violated) and an optional shape then silently becomes a normalisation (c76_optional_violated)."
  },
  {
   "property": "C77",
   "status": "partial",
   "theorems": [
    "Verif.BetaVar.c77_accepts",
    "Verif.BetaVar.c77_written_partial",
    "Verif.BetaVar.c77_fit",
    "Verif.BetaVar.c77_end_to_end_partial",
    "Verif.BetaVar.c77_flow_violated",
    "Verif.BetaVar.c77_binning_violated",
    "Verif.BetaVar.c77_additive_violated"
   ],
   "note": "Proved for histories with distinct channel names and histograms that have the axes of both channels (c77_accepts, c77_written_partial, c77_fit, c77_end_to_end_partial). Violations: flow bins of the source are read for a destination with flow and the file cannot be written (c77_flow_violated); only axis names are compared, other binnings are misassigned silently (c77_binning_violated); the additive type and mode lite ignore the variations silently (c77_additive_violated). Bins with non-positive nominal yield do not follow (bbstat.py:852-854), as c77_fit requires n0 > 0."
  },
  {
   "property": "C78",
   "status": "partial",
   "theorems": [
    "Verif.LimitRun.c78_data",
    "Verif.LimitRun.c78_asimov",
    "Verif.LimitRun.c78_signal_partial",
    "Verif.LimitRun.c78_signal_violated",
    "Verif.LimitRun.c78_toy_violated",
    "Verif.LimitRun.c78_blinding_violated",
    "Verif.LimitRun.c78_frozen_partial",
    "Verif.LimitRun.c78_released_violated",
    "Verif.LimitRun.c78_minimum_partial",
    "Verif.LimitRun.c78_minimum_violated"
   ],
   "note": "Proved: which data each limit is computed from (c78_data, c78_asimov), the frozen set for signals the user did not freeze (c78_frozen_partial), observed limits at a minimum (c78_minimum_partial). Violated: the signal of the background fit is frozen at its default, one, unless an expected signal is given (c78_signal_violated); the observed limit of a toy is that of the data (c78_toy_violated); the blinding offsets are never switched on (c78_blinding_violated); a signal the user froze is released (c78_released_violated); the expected limit is not at a minimum since the constraint centres stay at their defaults (c78_minimum_violated)."
  },
  {
   "property": "C79",
   "status": "partial",
   "theorems": [
    "Verif.DataVar.c79_file",
    "Verif.DataVar.c79_toys_partial",
    "Verif.DataVar.c79_data_violated",
    "Verif.DataVar.c79_covariance",
    "Verif.DataVar.c79_covariance_violated"
   ],
   "note": "Proved: recovery from the file, toys without or with normal randomisation, given covariances. Violated: fits to data take the data as their own variances (c79_data_violated); a covariance fit without covariance fails with AttributeError instead of using the variances (c79_covariance_violated)."
  },
  {
   "property": "C80",
   "status": "partial",
   "theorems": [
    "Verif.Auxiliary.c80_names",
    "Verif.Auxiliary.c80_roundtrip_partial",
    "Verif.Auxiliary.c80_bits_violated",
    "Verif.Auxiliary.c80_empty_violated",
    "Verif.Auxiliary.c80_bytes_violated",
    "Verif.Auxiliary.c80_shape_violated",
    "Verif.Auxiliary.c80_slash_violated"
   ],
   "note": "Proved for simple names, numeric arrays whose only zero is the stored one and non-empty lists of strings (c80_roundtrip_partial, c80_names). Violated: a '/' in a name or key makes the file unreadable (c80_slash_violated); negative zeros become zeros (c80_bits_violated); an empty list of strings is read as an array of floats (c80_empty_violated); bytes are read as their representation (c80_bytes_violated); shapes of arrays of strings are lost (c80_shape_violated)."
  },
  {
   "property": "C81",
   "status": "partial",
   "theorems": [
    "Verif.DebugData.c81_systs",
    "Verif.DebugData.c81_procs",
    "Verif.DebugData.c81_channels",
    "Verif.DebugData.c81_passes_partial",
    "Verif.DebugData.c81_count_violated",
    "Verif.DebugData.c81_extreme_violated",
    "Verif.DebugData.c81_flow_violated"
   ],
   "note": "Queries are exact (c81_systs, c81_procs, c81_channels) and the verdict is exact for what is checked (c81_passes_partial). Violated: the number of bins with few data is the number of axes (c81_count_violated); extreme variations with the up template below and the down template above the nominal are not found (c81_extreme_violated); channels with flow bins shift all later slices (c81_flow_violated)."
  },
  {
   "property": "C82",
   "status": "partial",
   "theorems": [
    "Verif.SelText.c82_text",
    "Verif.SelText.c82_colon",
    "Verif.SelText.c82_select",
    "Verif.SelText.c82_ratio",
    "Verif.SelText.c82_ratio_refused",
    "Verif.SelText.c82_angular_partial",
    "Verif.SelText.c82_angular_violated",
    "Verif.SelText.c82_extra_violated",
    "Verif.SelText.c82_value_violated"
   ],
   "note": "Proved for all texts of the format and for Select and Ratio (c82_text, c82_colon, c82_select, c82_ratio, c82_ratio_refused); for angular coefficients without processes or with processes and a selection (c82_angular_partial). Violated: processes given to AngularCoefficients without a selection are dropped (c82_angular_violated); further arguments of Select are dropped (c82_extra_violated); selections by value are accepted but cannot be applied to predictions (c82_value_violated)."
  },
  {
   "property": "C83",
   "status": "partial",
   "theorems": [
    "Verif.ImpactPrint.c83_rows",
    "Verif.ImpactPrint.c83_pairs",
    "Verif.ImpactPrint.c83_nuisance",
    "Verif.ImpactPrint.c83_parm",
    "Verif.ImpactPrint.c83_bin",
    "Verif.ImpactPrint.c83_sort_violated",
    "Verif.ImpactPrint.c83_asym_violated",
    "Verif.ImpactPrint.c83_gaussian_violated",
    "Verif.ImpactPrint.c83_bins_key"
   ],
   "note": "Proved for symmetric impacts on parameters and bins and for pairs (c83_rows, c83_pairs, c83_nuisance, c83_parm, c83_bin, c83_bins_key). Violated: symmetric impacts are sorted by signed value (c83_sort_violated); asymmetric impacts on a parameter raise because the total is appended to pairs (c83_asym_violated); Gaussian global impacts on bins are read from the global ones (c83_gaussian_violated)."
  },
  {
   "property": "C84",
   "status": "partial",
   "theorems": [
    "Verif.ImpactFrame.c84_groups",
    "Verif.ImpactFrame.c84_groups_nonprofiled",
    "Verif.ImpactFrame.c84_singles",
    "Verif.ImpactFrame.c84_pulls",
    "Verif.ImpactFrame.c84_pairs_partial",
    "Verif.ImpactFrame.c84_constraint_violated",
    "Verif.ImpactFrame.c84_pairs_violated",
    "Verif.ImpactFrame.c84_bin_groups",
    "Verif.ImpactFrame.c84_bin_relative",
    "Verif.ImpactFrame.c84_bin_singles",
    "Verif.ImpactFrame.c84_num",
    "Verif.ImpactFrame.c84_num_violated",
    "Verif.ImpactFrame.c84_channel_partial",
    "Verif.ImpactFrame.c84_channel_violated",
    "Verif.ImpactFrame.c84_file_violated"
   ],
   "note": "Proved for symmetric impacts of groups and single parameters, pulls alone, bins of mappings and relative impacts (c84_groups, c84_groups_nonprofiled, c84_singles, c84_pulls, c84_bin_groups, c84_bin_singles, c84_bin_relative), for asymmetric impacts that are not profiled (c84_pairs_partial) and for ascending order (c84_num). Violated: beside asymmetric global impacts all parameters get the constraints of the first two (c84_constraint_violated); grouped asymmetric impacts with a total give every row the impacts of the first group (c84_pairs_violated); in descending order the smallest impacts are kept (c84_num_violated); a channel whose name is part of the requested one is plotted too (c84_channel_violated); the files of bin plots do not contain the channel (c84_file_violated)."
  },
  {
   "property": "C85",
   "status": "partial",
   "theorems": [
    "Verif.ScanPlot.c85_scan",
    "Verif.ScanPlot.c85_parabola",
    "Verif.ScanPlot.c85_ellipse",
    "Verif.ScanPlot.c85_ellipse_all",
    "Verif.ScanPlot.c85_scaled",
    "Verif.ScanPlot.c85_map_partial",
    "Verif.ScanPlot.c85_map_violated",
    "Verif.ScanPlot.c85_map_refused"
   ],
   "note": "Proved for one-dimensional scans, parabola and ellipse (c85_scan, c85_parabola, c85_ellipse, c85_ellipse_all, c85_scaled, c85_map_refused); two-dimensional maps only for symmetric likelihoods (c85_map_partial). Violated: the map is drawn transposed (c85_map_violated)."
  },
  {
   "property": "C86",
   "status": "partial",
   "theorems": [
    "Verif.CovPlot.c86_channels",
    "Verif.CovPlot.c86_single",
    "Verif.CovPlot.c86_data_partial",
    "Verif.CovPlot.c86_data_violated",
    "Verif.CovPlot.c86_data_axes_violated",
    "Verif.CovPlot.c86_all_axes_violated",
    "Verif.CovPlot.c86_params",
    "Verif.CovPlot.c86_missing",
    "Verif.CovPlot.c86_correlation",
    "Verif.CovPlot.c86_mapping",
    "Verif.CovPlot.c86_default_violated",
    "Verif.CovPlot.c86_file_violated"
   ],
   "note": "Proved for parameters, mappings with one or several channels, correlations and requests (c86_params, c86_missing, c86_channels, c86_single, c86_correlation, c86_mapping); covariances stored per channel only for a single channel (c86_data_partial). Violated: with covariances stored per channel the later channels show the one of the first, or raise (c86_data_violated, c86_data_axes_violated); selecting all axes raises (c86_all_axes_violated); without a request nothing is plotted (c86_default_violated); files of selections lose the key of the mapping (c86_file_violated)."
  },
  {
   "property": "C87",
   "status": "partial",
   "theorems": [
    "Verif.ResultFile.c87_path",
    "Verif.ResultFile.c87_path_ext",
    "Verif.ResultFile.c87_dir",
    "Verif.ResultFile.c87_path_violated",
    "Verif.ResultFile.c87_stored",
    "Verif.ResultFile.c87_groups",
    "Verif.ResultFile.c87_twice",
    "Verif.ResultFile.c87_flow",
    "Verif.ResultFile.c87_category_violated"
   ],
   "note": "Proved for names whose last component has the dots (c87_path, c87_path_ext, c87_dir), for all sequences of dumps and groups (c87_stored, c87_groups, c87_twice) and for flow histograms of channels without axes of names (c87_flow). Violated: a dot only in a directory suppresses the extension and draws the postfix into the directory (c87_path_violated); channels with flow bins and an axis of names cannot be stored (c87_category_violated)."
  },
  {
   "property": "C88",
   "status": "partial",
   "theorems": [
    "Verif.RunOutput.c88_outputs",
    "Verif.RunOutput.c88_complete_partial",
    "Verif.RunOutput.c88_ends",
    "Verif.RunOutput.c88_without_covariance",
    "Verif.RunOutput.c88_dropped_violated",
    "Verif.RunOutput.c88_scan_violated",
    "Verif.RunOutput.c88_pair_violated",
    "Verif.RunOutput.c88_found"
   ],
   "note": "Proved: what is stored is what is asked for, except names that need the covariance when it is not computed (c88_outputs; complete if it is, c88_complete_partial); runs with the covariance end (c88_ends); stored objects are found again if names of pairs are different (c88_found). Violated: impacts asked for without the covariance are left out without a message (c88_dropped_violated); scans without it raise (c88_scan_violated); two pairs of parameters can have one name (c88_pair_violated). Fits inside are parameters; toys are not included."
  },
  {
   "property": "C89",
   "status": "partial",
   "theorems": [
    "Verif.MergeOpts.c89_options_partial",
    "Verif.MergeOpts.c89_odd",
    "Verif.MergeOpts.c89_cut_violated"
   ],
   "note": "Proved: the file with options is the file of the plain merge (C59) of the renamed and clipped inputs, for new names of processes that are not longer than the longest old one (c89_options_partial); odd lists of thresholds are refused (c89_odd). Violated: longer new names of processes are cut by the fixed width of the array, and systematics then fail or the process has a wrong name (c89_cut_violated). A variation that clipping removes from a whole channel is still written as zeros and is excluded."
  },
  {
   "property": "C90",
   "status": "proved",
   "theorems": [
    "Verif.ContourEval.c90_calls",
    "Verif.ContourEval.c90_mode",
    "Verif.ContourEval.c90_interval",
    "Verif.ContourEval.c90_table",
    "Verif.ContourEval.c90_gaussian"
   ],
   "note": "SciPy's minimiser is a parameter: the calls it makes are an arbitrary sequence; that it finds the minimum under the constraint is a hypothesis of c90_interval. Reals for floating point; automatic differentiation enters as the functions grad, hess, hessp."
  },
  {
   "property": "C91",
   "status": "partial",
   "theorems": [
    "Verif.HistPlot.c91_chi2_partial",
    "Verif.HistPlot.c91_base_violated",
    "Verif.HistPlot.c91_automatic_violated",
    "Verif.HistPlot.c91_plotted",
    "Verif.HistPlot.c91_unknown",
    "Verif.HistPlot.c91_default_violated",
    "Verif.HistPlot.c91_prefix_violated",
    "Verif.HistPlot.c91_file_violated",
    "Verif.HistPlot.c91_stack",
    "Verif.HistPlot.c91_stack_filter",
    "Verif.HistPlot.c91_stack_violated",
    "Verif.HistPlot.c91_variations_partial",
    "Verif.HistPlot.c91_groups",
    "Verif.HistPlot.c91_labels",
    "Verif.HistPlot.c91_files_violated",
    "Verif.HistPlot.c91_correlated_violated",
    "Verif.HistPlot.c91_stat_violated",
    "Verif.HistPlot.c91_slices",
    "Verif.HistPlot.c91_slices_bins",
    "Verif.HistPlot.c91_slices_files",
    "Verif.HistPlot.c91_norm",
    "Verif.HistPlot.c91_norm_violated",
    "Verif.HistPlot.c91_band",
    "Verif.HistPlot.c91_diff_violated",
    "Verif.HistPlot.c91_scale_partial",
    "Verif.HistPlot.c91_scale_violated",
    "Verif.HistPlot.c91_sided_violated"
   ],
   "note": "Proved: the requested mappings and channels (c91_plotted), the statistic except for the plots of all bins without profiling (c91_chi2_partial), stack (c91_stack), variations and labels if there are not more files than names (c91_variations_partial, c91_labels), slices and their files (c91_slices, c91_slices_bins, c91_slices_files), normalisation, band and scaling (c91_norm, c91_band, c91_scale_partial). Violated: no statistic for the plots of all bins without profiling (c91_base_violated); 'automatic' shows the saturated one against its documentation (c91_automatic_violated); nothing is plotted by default (c91_default_violated); a request also picks longer keys (c91_prefix_violated); selections share a file (c91_file_violated); mappings with fewer processes fail (c91_stack_violated); labels are shifted with fewer names than files (c91_files_violated); two names that are looked for are never stored (c91_correlated_violated, c91_stat_violated); variations are not scaled to data (c91_norm_violated), the band of differences is not a difference (c91_diff_violated), scaling about data (c91_scale_violated), one-sided entries hide all down curves (c91_sided_violated). Drawing itself is not modelled."
  },
  {
   "property": "C92",
   "status": "partial",
   "theorems": [
    "Verif.AsymTable.c92_mask",
    "Verif.AsymTable.c92_layouts",
    "Verif.AsymTable.c92_selected",
    "Verif.AsymTable.c92_rows",
    "Verif.AsymTable.c92_groups_partial",
    "Verif.AsymTable.c92_gaussian"
   ],
   "note": "Proved: mask and selection (c92_mask, c92_layouts, c92_selected), rows (c92_rows), groups for names that select only themselves as regular expressions (c92_groups_partial), agreement with the covariance (c92_gaussian). Violated for names that are regular expressions for others: the frozen set changes (c41_grouped_violated). The minimiser is a parameter; reals for floating point."
  },
  {
   "property": "C93",
   "status": "partial",
   "theorems": [
    "Verif.Variations.c93_stored",
    "Verif.Variations.c93_refused",
    "Verif.Variations.c93_moved",
    "Verif.Variations.c93_prefit_sum",
    "Verif.Variations.c93_profiled",
    "Verif.Variations.c93_larger_violated"
   ],
   "note": "Proved: what is stored for every channel, bin and parameter (c93_stored), refusal without a covariance (c93_refused), the entries as predictions of moved parameters for linear predictions (c93_moved), the sum of squares before a fit (c93_prefit_sum), the meaning with correlations for quadratic likelihoods (c93_profiled). Violated: after a fit the stored variations ignore correlations, so that one may exceed the whole uncertainty (c93_larger_violated); with correlations parameters without variance give not a number (c63_variation_nan). Derivatives are given; reals for floating point."
  },
  {
   "property": "C94",
   "status": "partial",
   "theorems": [
    "Verif.InputPlot.c94_combinations",
    "Verif.InputPlot.c94_requested",
    "Verif.InputPlot.c94_plots_partial",
    "Verif.InputPlot.c94_split_partial",
    "Verif.InputPlot.c94_slices",
    "Verif.InputPlot.c94_total",
    "Verif.InputPlot.c94_norm",
    "Verif.InputPlot.c94_systs",
    "Verif.InputPlot.c94_procs",
    "Verif.InputPlot.c94_files",
    "Verif.InputPlot.c94_process_files",
    "Verif.InputPlot.c94_channels",
    "Verif.InputPlot.c94_swapped_violated",
    "Verif.InputPlot.c94_processes_violated",
    "Verif.InputPlot.c94_label_violated",
    "Verif.InputPlot.c94_norm_violated",
    "Verif.InputPlot.c94_slices_violated",
    "Verif.InputPlot.c94_number_violated",
    "Verif.InputPlot.c94_files_violated"
   ],
   "note": "Proved: which combinations of axes are made and left by --hists (c94_combinations, c94_requested), contents of all plots of a channel with the solid curve being the one down (c94_plots_partial), plots of single processes except for their label (c94_split_partial), slices add up and all combinations have the same total (c94_slices, c94_total), scaling to data (c94_norm), systematics, labels and processes (c94_systs, c94_procs), names of files without underscores in axes (c94_files). Violated: up and down are swapped, so that with --oneSidedVariations only the down curve is drawn (c94_swapped_violated); with --processes the variations are those of all processes (c94_processes_violated); the label of a single process is one character (c94_label_violated); --normToData without data fails (c94_norm_violated); selecting on axes in another order than the channel has them fails (c94_slices_violated), as do channels with only such axes (c94_number_violated); plots share a file if axes have underscores (c94_files_violated). Drawing itself, ratio panels and bin widths are not modelled."
  },
  {
   "property": "C95",
   "status": "partial",
   "theorems": [
    "Verif.ExpectedScan.c95_table",
    "Verif.ExpectedScan.c95_unknown",
    "Verif.ExpectedScan.c95_name_violated",
    "Verif.ExpectedScan.c95_mapping",
    "Verif.ExpectedScan.c95_parameter_partial",
    "Verif.ExpectedScan.c95_parameter_violated",
    "Verif.ExpectedScan.c95_strength_violated",
    "Verif.ExpectedScan.c95_failed",
    "Verif.ExpectedScan.c95_gaussian_partial",
    "Verif.ExpectedScan.c95_gaussian_violated"
   ],
   "note": "Proved: shape and content of the table, one scan per cell at the right level, state unchanged (c95_table), limits on mappings (c95_mapping), failed searches (c95_failed), unknown names (c95_unknown), parameters fitted at zero (c95_parameter_partial), agreement with the Gaussian mode for quadratic likelihoods fitted at zero and in general up to the fitted value (c95_gaussian_partial). Violated: the number stored for a parameter is the distance from the fitted value, not the value (c95_parameter_violated), so that the two modes disagree for every other fitted value (c95_gaussian_violated); for a strength stored as square root it is a distance of roots (c95_strength_violated); with a mapping a label that is no parameter ends in an IndexError (c95_name_violated). SciPy's minimiser is a parameter."
  },
  {
   "property": "C96",
   "status": "partial",
   "theorems": [
    "Verif.LikelihoodLimit.c96_unpack",
    "Verif.LikelihoodLimit.c96_vectors",
    "Verif.LikelihoodLimit.c96_start",
    "Verif.LikelihoodLimit.c96_different_violated",
    "Verif.LikelihoodLimit.c96_constraint",
    "Verif.LikelihoodLimit.c96_limit",
    "Verif.LikelihoodLimit.c96_gradient_partial",
    "Verif.LikelihoodLimit.c96_gradient_violated",
    "Verif.LikelihoodLimit.c96_objective_violated",
    "Verif.LikelihoodLimit.c96_success_violated",
    "Verif.LikelihoodLimit.c96_unknown"
   ],
   "note": "Proved: packing and unpacking (c96_unpack, c96_vectors), start (c96_start), constraint (c96_constraint), the limit if the search is exact (c96_limit), unknown names (c96_unknown), derivatives if both minima are zero (c96_gradient_partial). Violated: for other minima the derivative of the constraint is that of the root of the likelihood instead of the root of the distance to the minimum (c96_gradient_violated); the derivative of the objective is a thousandth of the true one (c96_objective_violated); different numbers of parameters raise (c96_different_violated); a failed search is reported as a limit (c96_success_violated). The function is not called at this commit (the call is commented out)."
  },
  {
   "property": "C97",
   "status": "partial",
   "theorems": [
    "Verif.Writer.c97_channel",
    "Verif.Writer.c97_pseudo",
    "Verif.Writer.c97_data_partial",
    "Verif.Writer.c97_data_stuck",
    "Verif.Writer.c97_process_partial",
    "Verif.Writer.c97_process_retry",
    "Verif.Writer.c97_process_kind",
    "Verif.Writer.c97_syst_partial",
    "Verif.Writer.c97_norm_partial",
    "Verif.Writer.c97_write",
    "Verif.Writer.c97_data_violated",
    "Verif.Writer.c97_process_violated",
    "Verif.Writer.c97_syst_violated",
    "Verif.Writer.c97_norm_violated"
   ],
   "note": "Proved for all histories: channels (c97_channel), pseudo-data (c97_pseudo), data with acceptable variances (c97_data_partial), templates that do not fit or are there already (c97_process_partial), variations unless a parameter of interest is to enter the data covariance (c97_syst_partial), normalisations with known processes and numbers (c97_norm_partial), write up to the data covariance (c97_write); repeating a refused add_process with the same kind is as if it had not been refused (c97_process_retry). Violated: refused variances leave the data stored, so that the corrected call and every write are refused (c97_data_stuck, c97_data_violated); refused contents leave the name of the process registered, which puts an empty process into the file (c97_process_violated) or, if repeated as the other kind, makes every write raise (c97_process_kind); refused variations and normalisations leave templates behind that enter the file when the name is used again (c97_syst_violated, c97_norm_violated)."
  },
  {
   "property": "C98",
   "status": "partial",
   "theorems": [
    "Verif.Writer.c98_sparse_partial",
    "Verif.Writer.c98_kinds_violated",
    "Verif.Writer.c98_dense_partial",
    "Verif.Writer.c98_covariance_partial",
    "Verif.Writer.c98_needed",
    "Verif.Writer.c98_masked_covariance",
    "Verif.Writer.c98_pseudo_violated",
    "Verif.Writer.c98_axes_violated",
    "Verif.Writer.c98_masked_violated",
    "Verif.Writer.c98_stat_violated",
    "Verif.Writer.c98_sparse_violated",
    "Verif.Writer.c98_refused_violated"
   ],
   "note": "Proved for all histories: complete inputs without nuisances in the data covariance can be written (c98_dense_partial), with such nuisances if no channel is masked, the variances are numbers and a given covariance has the size of the data (c98_covariance_partial); sparse tensors from plain histograms if no call was refused and no nuisance is both constrained and free (c98_sparse_partial), the last condition being needed (c98_kinds_violated); what a written file shows about the input (c98_needed). Violated: automatic names of pseudo-data in two channels (c98_pseudo_violated); histograms with a further axis are accepted (c98_axes_violated); masked channels never go with nuisances in the covariance (c98_masked_covariance, c98_masked_violated); statistical uncertainties in the covariance (c98_stat_violated); sparse tensors with nuisances in the covariance (c98_sparse_violated) and after a refused call (c98_refused_violated)."
  },
  {
   "property": "C99",
   "status": "partial",
   "theorems": [
    "Verif.LinearFit.c99_ones",
    "Verif.LinearFit.c99_saturated",
    "Verif.LinearFit.c99_mu",
    "Verif.LinearFit.c99_composite",
    "Verif.LinearFit.c99_quadratic_partial",
    "Verif.LinearFit.c99_everywhere",
    "Verif.LinearFit.c99_one_step",
    "Verif.LinearFit.c99_select",
    "Verif.LinearFit.c99_project",
    "Verif.LinearFit.c99_lite_violated",
    "Verif.LinearFit.c99_regularised_violated"
   ],
   "note": "Proved with full bin-by-bin parameters or none and with regularizers of affine mappings (c99_everywhere, c99_one_step; Select and Project are affine, c99_select, c99_project); in lite mode where the active processes have a positive sum in every bin (c99_quadratic_partial). The code violates the full claim: the branch of the lite mode for bins without active yield changes the polynomial (c99_lite_violated), and is_linear does not look at the regularizers, whose mapping may be a ratio (c99_regularised_violated). --forceLinear is excluded."
  },
  {
   "property": "C100",
   "status": "partial",
   "theorems": [
    "Verif.Options.c100_runs",
    "Verif.Options.c100_requested",
    "Verif.Options.c100_likelihood",
    "Verif.Options.c100_automatic_violated",
    "Verif.Options.c100_command_line",
    "Verif.Options.c100_derivatives",
    "Verif.Options.c100_derivatives_lower",
    "Verif.Options.c100_case_violated",
    "Verif.Options.c100_tolerances",
    "Verif.Options.c100_default_violated"
   ],
   "note": "Proved: what is run is possible (c100_runs), dense templates get what was asked for (c100_requested), data term, mode and type (c100_likelihood), which command lines are refused (c100_command_line), derivatives (c100_derivatives, c100_derivatives_lower) and limits (c100_tolerances). The code violates the full claim: 'automatic' with one parameter per bin and process is the multiplicative normal type against the text of the option (c100_automatic_violated); without --minimizerGtol the tolerance of the gradient is zero, not SciPy's default (c100_default_violated); names of methods in another case get no derivatives (c100_case_violated)."
  },
  {
   "property": "C101",
   "status": "partial",
   "theorems": [
    "Verif.LinearFit.c101_zero_partial",
    "Verif.LinearFit.c101_minimum",
    "Verif.LinearFit.c101_closure_partial",
    "Verif.LinearFit.c101_domain",
    "Verif.LinearFit.c101_lite_violated"
   ],
   "note": "Proved: the bound and what equality means, everywhere in the domain (c101_minimum); zero at the parameters of the data (c101_zero_partial, c101_closure_partial) where in every fitted bin with one parameter per bin the processes with a statistical uncertainty have a positive sum (or have none), Poisson means are positive with one parameter per process, and the Newton iteration of the gamma type has converged; positive yields are in the domain (c101_domain). The code violates the full claim in bins where only processes of zero yield have a statistical uncertainty, as with --expectSignal 0 (c101_lite_violated). With regularizers the full and the fitted expectation must agree in the fitted bins, which holds unless a parameter model returns other rates for the two."
  },
  {
   "property": "C102",
   "status": "partial",
   "theorems": [
    "Verif.LinearFit.c102_masked",
    "Verif.LinearFit.c102_storage_partial",
    "Verif.LinearFit.c102_sparse_violated",
    "Verif.LinearFit.c102_processes"
   ],
   "note": "Proved: masked bins with dense templates (c102_masked, no regularizers, which read all bins) and the order of the processes for both storage forms with regularizers (c102_processes) without restriction; sparse against dense storage where no bin is masked or the rates are the same in all bins (c102_storage_partial). The code violates the full claim: sparse templates with masked bins and a parameter model with rates per bin raise, the dense ones do not (c102_sparse_violated)."
  },
  {
   "property": "C103",
   "status": "proved",
   "theorems": [
    "Verif.FileFit.c103_likelihood",
    "Verif.FileFit.c103_order"
   ],
   "note": "Dense templates (Spec.file: no call with sparse input, histograms of the size of their channels, distinct channel names), log-normal type, Poisson fit without bin-by-bin parameters, blinding, frozen parameters, regularizers and external terms. The description (Spec.Describes) asks that each nuisance is given at most once per channel and process; without that the code violates the claim (c07_readd_violated), and a nuisance asked for with and without constraint is excluded as well (C05)."
  },
  {
   "property": "C104",
   "status": "proved",
   "theorems": [
    "Verif.CardFile.c104_card",
    "Verif.FileFit.c104_profiled"
   ],
   "note": "As C103 (and for converted cards in the scope of C105, c104_card), with bin-by-bin parameters in lite mode (`--minBBKstat 0`). Points are restricted to those at which the processes with a variance have a positive sum in every bin with a parameter (Spec.present); elsewhere the closed form is not the minimum (c29_inactive_bin_violated)."
  },
  {
   "property": "C105",
   "status": "partial",
   "theorems": [
    "Verif.CardFile.c105_card_partial",
    "Verif.CardFile.c105_text_partial",
    "Verif.CardFile.c105_rate_violated",
    "Verif.CardFile.c105_flat_violated",
    "Verif.CardFile.c105_counting_violated",
    "Verif.CardFile.c105_gamma_violated"
   ],
   "note": "Proved (c105_card_partial, c105_text_partial) for cards with shapes for all processes and rows of type lnN, shape, shapeN, shape? and shapeU (both histograms present), rate parameters of single processes, each nuisance given once per bin and process, histograms of the size of the data (Spec.Describes). The code violates the claim beyond: rate parameters of all processes vary the first one only (c105_rate_violated), lnU rows are constrained like lnN (c105_flat_violated), cards without shapes are filled with the observation (c105_counting_violated), gmN rows are dropped (c105_gamma_violated)."
  },
  {
   "property": "C106",
   "status": "proved",
   "theorems": [
    "Verif.CardFile.c106_card",
    "Verif.CardFile.c106_card_unique",
    "Verif.FileFit.c106_asimov",
    "Verif.FileFit.c106_closure",
    "Verif.FileFit.c106_unique"
   ],
   "note": "As C103 and C105 (default parameter model, without bin-by-bin statistics, blinding, frozen parameters, regularizers and external terms; scope of `Spec.Describes`). Strengths below zero can only be asked for with signed parameters: the code takes the square root otherwise."
  },
  {
   "property": "C107",
   "status": "proved",
   "theorems": [
    "Verif.FileFit.c107_likelihood",
    "Verif.Writer.c107_accepted",
    "Verif.Writer.c107_written",
    "Verif.Writer.c107_refused"
   ],
   "note": "Dense mode. `Spec.wellFormed` is kept by a separate book of names (Spec.Book) that does not use the state of the writer. Pairs of uncertainties of a normalisation are allowed with the symmetrisations average and conservative only, as in the code. The likelihood (c107_likelihood) is in the scope of C103."
  },
  {
   "property": "C108",
   "status": "partial",
   "theorems": [
    "Verif.CardFile.c108_card_partial",
    "Verif.CardFile.c108_text_partial",
    "Verif.CardFile.c108_rate_violated"
   ],
   "note": "Proved (c108_card_partial, c108_text_partial) in the scope of C105 when rate parameters are for bins that have the process (Spec.Complete). The code violates the claim otherwise: a rate parameter of a process in all bins ends the conversion with a KeyError if a bin does not have the process (c108_rate_violated)."
  },
  {
   "property": "C109",
   "status": "proved",
   "theorems": [
    "Verif.CardFile.c109_card",
    "Verif.CardFile.c109_card_unique",
    "Verif.FileFit.c109_asimov",
    "Verif.FileFit.c109_closure",
    "Verif.FileFit.c109_unique"
   ],
   "note": "As C104 and C106 (lite mode, `--minBBKstat 0`), for written files (c109_asimov, c109_closure, c109_unique) and converted cards (c109_card, c109_card_unique). The condition on the requested strengths is needed: with strength zero in a bin of signal only the fit does not close (c101_lite_violated)."
  },
  {
   "property": "C110",
   "status": "partial",
   "theorems": [
    "Verif.UncPlot.c110_breakdown_partial",
    "Verif.UncPlot.c110_share",
    "Verif.UncPlot.c110_colours_partial",
    "Verif.UncPlot.c110_colours_violated",
    "Verif.UncPlot.c110_missing_violated",
    "Verif.UncPlot.c110_total_violated",
    "Verif.UncPlot.c110_file_violated",
    "Verif.UncPlot.c110_files",
    "Verif.UncPlot.c110_selected_violated",
    "Verif.UncPlot.c110_stored"
   ],
   "note": "Proved for histograms with an axis left to draw (c110_breakdown_partial, c110_share), colours up to twenty entries (c110_colours_partial), what a fit stores (c110_stored), absolute and relative files (c110_files). The code violates the claim otherwise: missing impacts give plots without curves (c110_missing_violated); the total is never shown without a grouping and can not be declined (c110_total_violated); both definitions of impacts are written to the same file (c110_file_violated); with all axes selected the run fails (c110_selected_violated); from 21 entries on colours repeat (c110_colours_violated)."
  },
  {
   "property": "C111",
   "status": "partial",
   "theorems": [
    "Verif.FileFit.c111_chisq_partial",
    "Verif.FileFit.c111_empty_violated",
    "Verif.FileFit.c111_covariance_partial",
    "Verif.FileFit.c111_reciprocal_violated",
    "Verif.FileFit.c111_masked_violated",
    "Verif.FileFit.c111_variances_violated"
   ],
   "note": "Proved for the data as their own variances (c111_chisq_partial) and for a covariance given without nuisances booked into it (c111_covariance_partial), without bin-by-bin parameters. The code violates the rest: variances given with the data are not used (c111_variances_violated), bins without events are refused whatever their variance (c111_empty_violated), without a covariance the fit raises AttributeError (c111_reciprocal_violated), and with nuisances in the covariance and a masked channel no written file can be fitted (c111_masked_violated)."
  },
  {
   "property": "C112",
   "status": "partial",
   "theorems": [
    "Verif.FileFit.c112_profile_partial",
    "Verif.FileFit.c112_minimum_partial",
    "Verif.FileFit.c112_default_violated",
    "Verif.FileFit.c112_lognormal_violated",
    "Verif.FileFit.c112_free_violated"
   ],
   "note": "Proved for dense files with normal variations, no masked channels, default signal strengths of one, constrained nuisances and the first file written (c112_profile_partial, c112_minimum_partial). The code violates the rest: with other default strengths the templates of a profiled nuisance are scaled and those in the covariance are not (c112_default_violated), and a nuisance asked for without constraint is constrained in the covariance (c112_free_violated). Log-normal variations are multiplicative when profiled and additive in the covariance (c112_lognormal_violated); masked channels are c111_masked_violated, a second file is c16_twice_violated."
  },
  {
   "property": "C113",
   "status": "partial",
   "theorems": [
    "Verif.FileFit.c113_stored",
    "Verif.FileFit.c113_likelihood_partial",
    "Verif.FileFit.c113_order",
    "Verif.FileFit.c113_empty_violated",
    "Verif.FileFit.c113_default"
   ],
   "note": "Dense templates (as C103), normal type, Poisson fit without bin-by-bin parameters; normalisations as listed factors or as one up/down pair for one process. c113_stored says for all such files what is minimised: variations of a process in bins where it has no nominal content are dropped. Without such variations it is the likelihood of the claim (c113_likelihood_partial). The code violates the rest: a variation that fills an empty bin has no effect (c113_empty_violated). c113_default shows that the scaling by default strengths matters."
  },
  {
   "property": "C114",
   "status": "proved",
   "theorems": [
    "Verif.FileFit.c114_convex",
    "Verif.FileFit.c114_minimum",
    "Verif.FileFit.c114_unique",
    "Verif.FileFit.c114_asymmetric"
   ],
   "note": "Dense templates (as C103), normal type, Poisson fit without bin-by-bin parameters, blinding, frozen parameters, regularizers and external terms; normalisations as listed factors or as one up/down pair for one process. Variations of empty bins are included (C113). c114_unique adds that all minima agree in the constrained nuisances and in the expected events of bins with data. c114_asymmetric shows that pairs that are not symmetrised have to be excluded."
  }
 ]
}