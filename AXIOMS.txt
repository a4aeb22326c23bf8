Axioms of the theorems named in MANIFEST.json, as reported by `#print axioms`.

[none]
Verif.BBB.c31_gamma_covariance_refused
Verif.BBB.c31_automatic_kind
Verif.Workspace.c54_flow_violated
Verif.ResultFile.c87_twice

[propext]
Verif.ParamModels.c46_sum_conserved_iff
Verif.Mappings.c52_refuse
Verif.Workspace.c53_per_process
Verif.Driver.c57_repeated_violated
Verif.Driver.c57_underscore_violated
Verif.Driver.c57_negative_violated
Verif.Driver.c58_variances_violated
Verif.Datacard.c60_bin_violated
Verif.IoTools.c61_asym_key_violated
Verif.IoTools.c61_asym_order_violated
Verif.IoTools.c61_no_labels
Verif.IoTools.c61_total_violated
Verif.IoTools.c61_order_violated
Verif.Scans.c62_progress_not_stopped
Verif.Scans.c62_window_violated
Verif.ImpactPrint.c83_gaussian_violated
Verif.ImpactPrint.c83_bins_key
Verif.CovPlot.c86_missing
Verif.HistPlot.c91_stack_filter
Verif.HistPlot.c91_slices_bins
Verif.InputPlot.c94_systs
Verif.InputPlot.c94_procs
Verif.UncPlot.c110_stored

[propext, Quot.sound]
Verif.c04_digits_value
Verif.c04_split_roundtrip
Verif.Yields.c08_conservative
Verif.Batched.c12_call
Verif.FitParams.c25_selects
Verif.FitParams.c25_order_no_duplicates
Verif.Impacts.c39_global_rows
Verif.Impacts.c39_rows
Verif.Scans.c41_contour
Verif.Scans.c41_global
Verif.ParamModels.c45_groups
Verif.ParamModels.c46_sum_constant_iff
Verif.ABCD.c47_bins_partial
Verif.Mappings.c50_unknown_axis
Verif.Mappings.c50_repeated_axis
Verif.Mappings.c51_parse
Verif.Workspace.c52_data
Verif.Workspace.c53_concat
Verif.Workspace.c53_mixed_partial
Verif.Workspace.c53_evaluate_partial
Verif.Workspace.c53_data
Verif.Workspace.c54_cut
Verif.Workspace.c54_key_violated
Verif.Regularization.c55_value
Verif.Driver.c57_fits
Verif.Driver.c57_plain
Verif.Driver.c57_pseudo_partial
Verif.Driver.c58_select
Verif.Driver.c58_datasets
Verif.IoTools.c61_pulls
Verif.IoTools.c61_asym_partial
Verif.IoTools.c61_table
Verif.Scans.c62_early_stopping_partial
Verif.Scans.c65_rows
Verif.Mappings.c67_axis
Verif.IoTools.c68_selected
Verif.IoTools.c68_all
Verif.IoTools.c69_global_violated
Verif.IoTools.c69_constraints_violated
Verif.IoTools.c69_size_partial
Verif.Datacard.c76_directive
Verif.Datacard.c76_wildcard_violated
Verif.ImpactPrint.c83_rows
Verif.ImpactPrint.c83_pairs
Verif.ImpactPrint.c83_nuisance
Verif.ImpactPrint.c83_bin
Verif.ImpactFrame.c84_num
Verif.ImpactFrame.c84_num_violated
Verif.ImpactFrame.c84_channel_partial
Verif.ScanPlot.c85_scan
Verif.ScanPlot.c85_map_partial
Verif.ScanPlot.c85_map_violated
Verif.ScanPlot.c85_map_refused
Verif.CovPlot.c86_file_violated
Verif.RunOutput.c88_ends
Verif.RunOutput.c88_without_covariance
Verif.RunOutput.c88_scan_violated
Verif.ContourEval.c90_mode
Verif.ContourEval.c90_table
Verif.HistPlot.c91_base_violated
Verif.HistPlot.c91_groups
Verif.HistPlot.c91_scale_partial
Verif.AsymTable.c92_rows
Verif.InputPlot.c94_requested
Verif.Writer.c97_channel
Verif.Writer.c97_data_partial
Verif.Writer.c97_process_partial
Verif.Writer.c97_process_retry

[propext, Classical.choice, Quot.sound]
Verif.Writer.c01_data
Verif.Writer.c01_process_partial
Verif.Writer.c01_readd_violated
Verif.Writer.c02_pseudodata
Verif.Writer.c02_layout_partial
Verif.Writer.c02_order_violated
Verif.Writer.c02_reader_violated
Verif.Writer.c03_order
Verif.Writer.c03_order_independent
Verif.Writer.c03_both_kinds
Verif.Writer.c03_mu
Verif.c04_compare_never_raises
Verif.c04_sorted
Verif.c04_order_independent
Verif.c04_ties_violated
Verif.Writer.c05_weights_partial
Verif.Writer.c05_mixed_violated
Verif.Writer.c06_groups
Verif.Writer.c06_resolves
Verif.Writer.c07_symmetric_flag
Verif.Writer.c07_dense_written
Verif.Writer.c07_calls_nominal
Verif.Writer.c07_calls_pair
Verif.Writer.c07_calls_mirrored
Verif.Writer.c07_calls_local
Verif.Writer.c07_readd_violated
Verif.Yields.c07_log_normal
Verif.Yields.c07_normal_partial
Verif.Yields.c07_normal_rate_violated
Verif.Yields.c07_zero_nominal_violated
Verif.Writer.c08_calls_symmetrised
Verif.Writer.c08_calls_split
Verif.Yields.c08_average
Verif.Yields.c08_linear
Verif.Yields.c08_quadratic
Verif.Yields.c08_none
Verif.Yields.c08_symmetric_unchanged
Verif.Yields.c09_sign
Verif.Yields.c09_floor
Verif.Writer.c10_lookup_partial
Verif.Writer.c10_lookup_violated
Verif.Writer.c10_content_partial
Verif.Writer.c10_calls
Verif.Writer.c10_file_partial
Verif.Writer.c10_complete_partial
Verif.Yields.c10_yields_partial
Verif.Yields.c10_scaled
Verif.Yields.c10_masked_rates_violated
Verif.Writer.c11_canonical
Verif.Batched.c12_loop_partial
Verif.Batched.c12_dense_partial
Verif.Batched.c12_values
Verif.Batched.c12_slices
Verif.Batched.c12_order_violated
Verif.Batched.c12_binning_violated
Verif.Batched.c12_finite_violated
Verif.Batched.c12_empty_violated
Verif.Batched.c12_unlisted_violated
Verif.Batched.c12_names_violated
Verif.Batched.c12_slices_dense
Verif.Storage.c13_roundtrip
Verif.Storage.c13_roundtrip_exact
Verif.Storage.c13_sparse_roundtrip
Verif.Ext.c14_accepted_iff
Verif.Ext.c14_value
Verif.Ext.c14_order_independent
Verif.Ext.c14_dense_eq_sparse
Verif.Ext.c14_duplicate_term_rejected
Verif.Ext.c14_accepted_labels_agree
Verif.Ext.c14_overflow_axes_violated
Verif.Ext.c14_duplicate_in_term_violated
Verif.Writer.c15_lengths
Verif.Writer.c15_listed_partial
Verif.Writer.c15_scalar_violated
Verif.Writer.c15_asymmetric
Verif.Writer.c16_content
Verif.Writer.c16_twice_partial
Verif.Writer.c16_cov_partial
Verif.Writer.c16_twice_violated
Verif.Writer.c16_mcstat_violated
Verif.Writer.c17_stored
Verif.Writer.c17_rejected
Verif.Writer.c17_nonneg
Verif.Interp.c18_odd
Verif.Interp.c18_bounded
Verif.Interp.c18_saturated
Verif.Interp.c18_smooth
Verif.Interp.c18_joints
Verif.Interp.c18_monotone
Verif.Interp.c18_exact_response
Verif.Interp.c18_response_smooth
Verif.c19_nonneg
Verif.c19_zero_iff
Verif.c19_total_zero_iff
Verif.c19_monotone
Verif.FullNll.c20_total_partial
Verif.FullNll.c20_sum_of_parts
Verif.FullNll.c20_data_terms
Verif.FullNll.c20_gamma_normalised
Verif.FullNll.c20_single_process_violated
Verif.FullNll.c20_missing_violated
Verif.FullNll.c20_additive_constant_violated
Verif.c20_poisson_offset
Verif.c20_poisson_full_is_log_pmf
Verif.c20_constraint_offset
Verif.c21_constraint_terms
Verif.c21_free_parameter
Verif.c21_zero_iff
Verif.c21_prior_penalty
Verif.c21_no_prior
Verif.c21_accept_priors
Verif.c21_full_is_gaussian_density
Verif.c22_chisq_is_diagonal_covariance
Verif.c22_set_nobs_guard
Verif.c22_set_nobs_variances
Verif.c22_set_nobs_refuses
Verif.c22_cov_nonneg
Verif.FitParams.c23_last_call_wins
Verif.FitParams.c23_indices_partition
Verif.FitParams.c24_frozen_zero_gradient_partial
Verif.FitParams.c24_frozen_zero_hessian_partial
Verif.FitParams.c24_fit_does_not_move_partial
Verif.FitParams.c24_external_violated
Verif.FitParams.c25_raises_iff
Verif.FitParams.c25_plain_name
Verif.FitParams.c26_offset_values
Verif.FitParams.c26_group_members_share
Verif.FitParams.c26_overlap_raises
Verif.FitParams.c26_offsets_positive
Verif.FitParams.c26_same_likelihood_partial
Verif.FitParams.c26_same_minimum_partial
Verif.FitParams.c26_switch_off
Verif.FitParams.c26_no_blinding
Verif.FitParams.c26_switch_on
Verif.FitParams.c26_external_violated
Verif.FitState.c27_prepare_independent
Verif.FitState.c27_no_accumulation
Verif.FitState.c27_scan_keeps_frozen_partial
Verif.FitState.c27_scan_violated
Verif.FitState.c28_common_values
Verif.FitState.c28_others_kept
Verif.FitState.c28_covariance
Verif.FitState.c28_covariance_absent
Verif.BBB.c29_objective_is_likelihood
Verif.BBB.c29_constraint_strength
Verif.BBB.c29_gamma_lite_poisson_minimises
Verif.BBB.c29_gamma_lite_closed_form
Verif.BBB.c29_inactive_bin_violated
Verif.BBB.c30_normal_mult_lite_poisson_minimises
Verif.BBB.c30_normal_add_lite_poisson_minimises
Verif.BBB.c30_inactive_bin_violated
Verif.BBB.c31_covariance_data_term
Verif.BBB.c31_normal_mult_lite_covariance_minimises
Verif.BBB.c31_normal_add_lite_covariance_minimises
Verif.BBB.c31_masked_bin_correlated_violated
Verif.BBB.c31_gamma_lite_chisq_minimises
Verif.BBB.c31_normal_mult_lite_chisq_minimises
Verif.BBB.c31_normal_add_lite_chisq_minimises
Verif.BBB.c32_normal_mult_full_covariance_minimises
Verif.BBB.c32_normal_add_full_covariance_minimises
Verif.BBB.c32_applied_is_spec
Verif.BBB.c32_objective_is_likelihood
Verif.BBB.c32_normal_mult_full_poisson_minimises
Verif.BBB.c32_normal_mult_full_poisson_empty
Verif.BBB.c32_normal_add_full_poisson_minimises
Verif.BBB.c32_normal_mult_full_chisq_minimises
Verif.BBB.c32_normal_add_full_chisq_minimises
Verif.BBB.c32_empty_bin_violated
Verif.BBB.c33_beta_positive_poisson
Verif.BBB.c33_beta_positive_chisq
Verif.BBB.c33_newton_fixed_point
Verif.BBB.c33_newton_step_bounded
Verif.BBB.c33_stationary_is_global_minimum_poisson
Verif.BBB.c33_empty_bin_minimises
Verif.BBB.c33_stationary_is_global_minimum_chisq
Verif.BBB.c34_full_untouched
Verif.BBB.c34_lite_untouched
Verif.BBB.c34_lite_untouched_additive
Verif.BBB.c34_mask_iff
Verif.Cov.c35_covariance_partial
Verif.Cov.c35_not_positive_definite
Verif.Cov.c35_cpu_gpu
Verif.Cov.c35_frozen_violated
Verif.Cov.c36_derivatives
Verif.Cov.c36_dense_partial
Verif.Cov.c36_frozen_violated
Verif.Cov.c36_cg
Verif.Cov.c36_cg_total
Verif.Impacts.c37_single
Verif.Impacts.c37_groups
Verif.Impacts.c37_constrained_noi_raises
Verif.Impacts.c37_frozen_member_raises
Verif.Cov.c37_statistical
Verif.Impacts.c38_likelihood
Verif.Impacts.c38_likelihood_no_bbb
Verif.Impacts.c38_gaussian
Verif.Impacts.c38_gaussian_uncorrelated
Verif.Impacts.c38_external_violated
Verif.Impacts.c38_groups
Verif.Impacts.c38_processes
Verif.Impacts.c39_traditional
Verif.Impacts.c39_global
Verif.Scans.c40_rows
Verif.Scans.c40_labels_partial
Verif.Scans.c40_labels_violated
Verif.Scans.c40_groups_partial
Verif.Scans.c40_groups_violated
Verif.Scans.c40_envelope
Verif.Scans.c41_scan_partial
Verif.Scans.c41_scan2D_partial
Verif.Scans.c41_grouped_partial
Verif.Scans.c41_scan_violated
Verif.Scans.c41_grouped_violated
Verif.Scans.c42_spiral
Verif.Scans.c42_scan_partial
Verif.Scans.c42_grid_partial
Verif.Scans.c42_even_violated
Verif.Scans.c42_prefit_violated
Verif.Scans.c42_single_violated
Verif.Scans.c43_scan
Verif.Scans.c43_count_partial
Verif.Scans.c43_even_violated
Verif.Impacts.c44_warm_start
Verif.ParamModels.c45_layout
Verif.ParamModels.c45_partition
Verif.ParamModels.c45_product
Verif.ParamModels.c45_succeeds
Verif.ParamModels.c45_default
Verif.ParamModels.c45_priors
Verif.ParamModels.c45_flag
Verif.ParamModels.c45_linear
Verif.ParamModels.c45_ones
Verif.ParamModels.c46_constructs_iff
Verif.ParamModels.c46_evaluates_iff
Verif.ParamModels.c46_stored_order_partial
Verif.ParamModels.c46_named_pair_partial
Verif.ParamModels.c46_order_violated
Verif.ParamModels.c46_sum_violated
Verif.ABCD.c47_region
Verif.ABCD.c47_region_ok_iff
Verif.ABCD.c47_disjoint
Verif.ABCD.c47_region_nodup
Verif.ABCD.c47_relation_partial
Verif.ABCD.c47_evaluates
Verif.ABCD.c47_default
Verif.ABCD.c47_names_partial
Verif.ABCD.c47_extended_partial
Verif.ABCD.c47_isomt
Verif.ABCD.c47_zero_denominator_violated
Verif.ABCD.c47_empty_template_violated
Verif.ABCD.c47_negative_index_violated
Verif.ABCD.c47_flow_violated
Verif.ABCD.c47_negative_index
Verif.ABCD.c47_isomt_extended
Verif.SmoothABCD.c48_basis
Verif.SmoothABCD.c48_basis_cos
Verif.SmoothABCD.c48_basis_bounded
Verif.SmoothABCD.c48_positions
Verif.SmoothABCD.c48_unit_map
Verif.SmoothABCD.c48_rates_partial
Verif.SmoothABCD.c48_positive_partial
Verif.SmoothABCD.c48_default_partial
Verif.SmoothABCD.c48_evaluates
Verif.SmoothABCD.c48_region
Verif.SmoothABCD.c48_region_names
Verif.SmoothABCD.c48_names
Verif.SmoothABCD.c48_extended_partial
Verif.SmoothABCD.c48_extended_default
Verif.SmoothABCD.c48_correction_default_violated
Verif.SmoothABCD.c48_other_axis_violated
Verif.AxisModels.c49_norm_rates
Verif.AxisModels.c49_norm_names_partial
Verif.AxisModels.c49_norm_evaluates
Verif.AxisModels.c49_norm_default
Verif.AxisModels.c49_norm_start
Verif.AxisModels.c49_positions
Verif.AxisModels.c49_exp_rates
Verif.AxisModels.c49_exp_positive
Verif.AxisModels.c49_exp_default
Verif.AxisModels.c49_exp_names_partial
Verif.AxisModels.c49_bernstein_rates
Verif.AxisModels.c49_bernstein_bounds
Verif.AxisModels.c49_bernstein_default
Verif.AxisModels.c49_bernstein_names_partial
Verif.AxisModels.c49_exp_evaluates
Verif.AxisModels.c49_bernstein_evaluates
Verif.AxisModels.c49_axis_order_violated
Verif.AxisModels.c49_duplicate_process_violated
Verif.AxisModels.c49_flow_violated
Verif.Mappings.c50_projection
Verif.Mappings.c50_per_process
Verif.Mappings.c50_total
Verif.Mappings.c50_identity
Verif.Mappings.c50_twice
Verif.Mappings.c50_process_sum
Verif.Mappings.c50_normalize
Verif.Mappings.c50_normalize_per_process
Verif.Mappings.c51_select
Verif.Mappings.c51_per_process
Verif.Mappings.c51_no_loss
Verif.Mappings.c51_labels
Verif.Mappings.c51_order
Verif.Mappings.c51_refuse
Verif.Mappings.c51_step_violated
Verif.Mappings.c51_flow_violated
Verif.Mappings.c51_process_labels_violated
Verif.Mappings.c51_unknown_sum_violated
Verif.Workspace.c52_processes
Verif.Mappings.c52_value
Verif.Mappings.c52_difference_partial
Verif.Mappings.c52_scale
Verif.Mappings.c52_exchange
Verif.Mappings.c52_labels
Verif.Mappings.c52_difference_violated
Verif.Workspace.c53_ranges
Verif.Workspace.c53_order_violated
Verif.Workspace.c53_two_violated
Verif.Workspace.c53_duplicate_violated
Verif.Workspace.c54_expected
Verif.Workspace.c54_observed
Verif.Workspace.c54_observed_cov
Verif.Workspace.c54_short
Verif.Workspace.c54_reader
Verif.Regularization.c55_nonneg
Verif.Regularization.c55_zero_iff
Verif.Regularization.c55_multiple
Verif.Regularization.c55_term
Verif.Regularization.c55_refuse
Verif.Regularization.c55_empty_bin_violated
Verif.Limits.c56_normal
Verif.Limits.c56_expected
Verif.Limits.c56_level
Verif.Limits.c56_quantile
Verif.Limits.c56_table
Verif.Limits.c56_observed
Verif.Limits.c56_observed_exact
Verif.Limits.c56_negative_violated
Verif.Limits.c56_constraint
Verif.Limits.c56_reading
Verif.Limits.c56_zero_violated
Verif.Limits.c56_model_parameter_violated
Verif.Driver.c57_distinct_partial
Verif.Driver.c57_accumulated_violated
Verif.Driver.c58_unknown
Verif.Driver.c58_stored
Verif.Driver.c58_roundtrip
Verif.Merge.c59_yields_partial
Verif.Merge.c59_written_partial
Verif.Merge.c59_type_violated
Verif.Merge.c59_negative_violated
Verif.Merge.c59_constraint_violated
Verif.Merge.c59_sparse_raises
Verif.Merge.c59_groups
Verif.Datacard.c60_observations_partial
Verif.Datacard.c60_rates_partial
Verif.Datacard.c60_systematics_partial
Verif.Datacard.c60_directives
Verif.Datacard.c60_nuisance_edit_violated
Verif.Datacard.c60_after_directive_violated
Verif.Datacard.c60_before_rate_violated
Verif.Datacard.c60_type_violated
Verif.Datacard.c60_effects_violated
Verif.Datacard.c60_duplicate_column_violated
Verif.Datacard.c60_columns_violated
Verif.Datacard.c60_observations_violated
Verif.Datacard.c60_order_violated
Verif.Datacard.c60_separator_violated
Verif.Datacard.c60_processes_converted
Verif.Datacard.c60_norm_converted
Verif.Datacard.c60_counting_violated
Verif.Datacard.c60_ignored_violated
Verif.IoTools.c61_impacts
Verif.IoTools.c61_impacts_asym
Verif.IoTools.c61_flat_violated
Verif.IoTools.c61_together_partial
Verif.IoTools.c61_written
Verif.IoTools.c61_written_asym
Verif.Scans.c62_fit
Verif.Scans.c62_nan_stops
Verif.Impacts.c63_diagonal
Verif.Impacts.c63_nonneg
Verif.Impacts.c63_reorder
Verif.Impacts.c63_zero_partial
Verif.Impacts.c63_frozen_violated
Verif.Impacts.c63_variations
Verif.Impacts.c63_variation_nan
Verif.Storage.c64_slice
Verif.Storage.c64_segment_sum
Verif.Scans.c65_groups
Verif.Scans.c65_sources
Verif.Scans.c65_quadrature
Verif.Scans.c65_warm_start
Verif.AxisModels.c66_rates
Verif.AxisModels.c66_names_partial
Verif.AxisModels.c66_evaluates
Verif.AxisModels.c66_inclusive_violated
Verif.AxisModels.c66_axis_order_violated
Verif.Mappings.c67_value
Verif.Mappings.c67_lamtung
Verif.Mappings.c67_scale
Verif.Mappings.c67_labels
Verif.Mappings.c67_request_violated
Verif.Mappings.c67_process_violated
Verif.IoTools.c68_refuse
Verif.IoTools.c69_nonprofiled_violated
Verif.Chi2.c70_covariance
Verif.Chi2.c70_error
Verif.Chi2.c70_posSemidef
Verif.Chi2.c70_compose
Verif.Chi2.c70_branches
Verif.Chi2.c70_projection
Verif.Chi2.c70_selection
Verif.Chi2.c71_dependent_violated
Verif.Chi2.c71_difference_violated
Verif.Chi2.c71_overlap_violated
Verif.Chi2.c71_normalize
Verif.Chi2.c71_normratio_violated
Verif.Chi2.c71_nonneg
Verif.Chi2.c71_invariant
Verif.Chi2.c71_projection
Verif.Chi2.c71_normalized
Verif.Chi2.c71_response
Verif.Chi2.c71_gaussian
Verif.Chi2.c71_free_violated
Verif.SatTest.c72_layout
Verif.SatTest.c72_nested
Verif.SatTest.c72_matches
Verif.SatTest.c72_negative_violated
Verif.SatTest.c72_ndf_violated
Verif.SatTest.c72_freeze_violated
Verif.SatTest.c73_accepted
Verif.SatTest.c73_start
Verif.SatTest.c73_scaling_partial
Verif.SatTest.c73_scaling_violated
Verif.SatTest.c73_composite_violated
Verif.PostFit.c74_dense
Verif.PostFit.c74_hessfree_partial
Verif.PostFit.c74_hessfree_total
Verif.PostFit.c74_noi_violated
Verif.PostFit.c74_frozen_violated
Verif.PostFit.c74_external_violated
Verif.PostFit.c74_noedm_violated
Verif.PostFit.c74_ndf_partial
Verif.PostFit.c74_ndf_violated
Verif.LCurve.c75_curvature_partial
Verif.LCurve.c75_lbeta_violated
Verif.LCurve.c75_frozen_violated
Verif.LCurve.c75_beta_violated
Verif.LCurve.c75_external_violated
Verif.LCurve.c75_scan
Verif.LCurve.c75_scan_violated
Verif.LCurve.c75_optimize
Verif.LCurve.c75_sign_violated
Verif.Datacard.c76_name
Verif.Datacard.c76_histogram
Verif.Datacard.c76_found_partial
Verif.Datacard.c76_depth_violated
Verif.Datacard.c76_nominal_partial
Verif.Datacard.c76_systematic_partial
Verif.Datacard.c76_optional_violated
Verif.Datacard.c76_max_depth
Verif.BetaVar.c77_accepts
Verif.BetaVar.c77_written_partial
Verif.BetaVar.c77_fit
Verif.BetaVar.c77_end_to_end_partial
Verif.BetaVar.c77_flow_violated
Verif.BetaVar.c77_binning_violated
Verif.BetaVar.c77_additive_violated
Verif.LimitRun.c78_data
Verif.LimitRun.c78_asimov
Verif.LimitRun.c78_signal_partial
Verif.LimitRun.c78_signal_violated
Verif.LimitRun.c78_toy_violated
Verif.LimitRun.c78_blinding_violated
Verif.LimitRun.c78_frozen_partial
Verif.LimitRun.c78_released_violated
Verif.LimitRun.c78_minimum_partial
Verif.LimitRun.c78_minimum_violated
Verif.DataVar.c79_file
Verif.DataVar.c79_toys_partial
Verif.DataVar.c79_data_violated
Verif.DataVar.c79_covariance
Verif.DataVar.c79_covariance_violated
Verif.Auxiliary.c80_names
Verif.Auxiliary.c80_roundtrip_partial
Verif.Auxiliary.c80_bits_violated
Verif.Auxiliary.c80_empty_violated
Verif.Auxiliary.c80_bytes_violated
Verif.Auxiliary.c80_shape_violated
Verif.Auxiliary.c80_slash_violated
Verif.DebugData.c81_systs
Verif.DebugData.c81_procs
Verif.DebugData.c81_channels
Verif.DebugData.c81_passes_partial
Verif.DebugData.c81_count_violated
Verif.DebugData.c81_extreme_violated
Verif.DebugData.c81_flow_violated
Verif.SelText.c82_text
Verif.SelText.c82_colon
Verif.SelText.c82_select
Verif.SelText.c82_ratio
Verif.SelText.c82_ratio_refused
Verif.SelText.c82_angular_partial
Verif.SelText.c82_angular_violated
Verif.SelText.c82_extra_violated
Verif.SelText.c82_value_violated
Verif.ImpactPrint.c83_parm
Verif.ImpactPrint.c83_sort_violated
Verif.ImpactPrint.c83_asym_violated
Verif.ImpactFrame.c84_groups
Verif.ImpactFrame.c84_groups_nonprofiled
Verif.ImpactFrame.c84_singles
Verif.ImpactFrame.c84_pulls
Verif.ImpactFrame.c84_pairs_partial
Verif.ImpactFrame.c84_constraint_violated
Verif.ImpactFrame.c84_pairs_violated
Verif.ImpactFrame.c84_bin_groups
Verif.ImpactFrame.c84_bin_relative
Verif.ImpactFrame.c84_bin_singles
Verif.ImpactFrame.c84_channel_violated
Verif.ImpactFrame.c84_file_violated
Verif.ScanPlot.c85_parabola
Verif.ScanPlot.c85_ellipse
Verif.ScanPlot.c85_ellipse_all
Verif.ScanPlot.c85_scaled
Verif.CovPlot.c86_channels
Verif.CovPlot.c86_single
Verif.CovPlot.c86_data_partial
Verif.CovPlot.c86_data_violated
Verif.CovPlot.c86_data_axes_violated
Verif.CovPlot.c86_all_axes_violated
Verif.CovPlot.c86_params
Verif.CovPlot.c86_correlation
Verif.CovPlot.c86_mapping
Verif.CovPlot.c86_default_violated
Verif.ResultFile.c87_path
Verif.ResultFile.c87_path_ext
Verif.ResultFile.c87_dir
Verif.ResultFile.c87_path_violated
Verif.ResultFile.c87_stored
Verif.ResultFile.c87_groups
Verif.ResultFile.c87_flow
Verif.ResultFile.c87_category_violated
Verif.RunOutput.c88_outputs
Verif.RunOutput.c88_complete_partial
Verif.RunOutput.c88_dropped_violated
Verif.RunOutput.c88_pair_violated
Verif.RunOutput.c88_found
Verif.MergeOpts.c89_options_partial
Verif.MergeOpts.c89_odd
Verif.MergeOpts.c89_cut_violated
Verif.ContourEval.c90_calls
Verif.ContourEval.c90_interval
Verif.ContourEval.c90_gaussian
Verif.HistPlot.c91_chi2_partial
Verif.HistPlot.c91_automatic_violated
Verif.HistPlot.c91_plotted
Verif.HistPlot.c91_unknown
Verif.HistPlot.c91_default_violated
Verif.HistPlot.c91_prefix_violated
Verif.HistPlot.c91_file_violated
Verif.HistPlot.c91_stack
Verif.HistPlot.c91_stack_violated
Verif.HistPlot.c91_variations_partial
Verif.HistPlot.c91_labels
Verif.HistPlot.c91_files_violated
Verif.HistPlot.c91_correlated_violated
Verif.HistPlot.c91_stat_violated
Verif.HistPlot.c91_slices
Verif.HistPlot.c91_slices_files
Verif.HistPlot.c91_norm
Verif.HistPlot.c91_norm_violated
Verif.HistPlot.c91_band
Verif.HistPlot.c91_diff_violated
Verif.HistPlot.c91_scale_violated
Verif.HistPlot.c91_sided_violated
Verif.AsymTable.c92_mask
Verif.AsymTable.c92_layouts
Verif.AsymTable.c92_selected
Verif.AsymTable.c92_groups_partial
Verif.AsymTable.c92_gaussian
Verif.Variations.c93_stored
Verif.Variations.c93_refused
Verif.Variations.c93_moved
Verif.Variations.c93_prefit_sum
Verif.Variations.c93_profiled
Verif.Variations.c93_larger_violated
Verif.InputPlot.c94_combinations
Verif.InputPlot.c94_plots_partial
Verif.InputPlot.c94_split_partial
Verif.InputPlot.c94_slices
Verif.InputPlot.c94_total
Verif.InputPlot.c94_norm
Verif.InputPlot.c94_files
Verif.InputPlot.c94_process_files
Verif.InputPlot.c94_channels
Verif.InputPlot.c94_swapped_violated
Verif.InputPlot.c94_processes_violated
Verif.InputPlot.c94_label_violated
Verif.InputPlot.c94_norm_violated
Verif.InputPlot.c94_slices_violated
Verif.InputPlot.c94_number_violated
Verif.InputPlot.c94_files_violated
Verif.ExpectedScan.c95_table
Verif.ExpectedScan.c95_unknown
Verif.ExpectedScan.c95_name_violated
Verif.ExpectedScan.c95_mapping
Verif.ExpectedScan.c95_parameter_partial
Verif.ExpectedScan.c95_parameter_violated
Verif.ExpectedScan.c95_strength_violated
Verif.ExpectedScan.c95_failed
Verif.ExpectedScan.c95_gaussian_partial
Verif.ExpectedScan.c95_gaussian_violated
Verif.LikelihoodLimit.c96_unpack
Verif.LikelihoodLimit.c96_vectors
Verif.LikelihoodLimit.c96_start
Verif.LikelihoodLimit.c96_different_violated
Verif.LikelihoodLimit.c96_constraint
Verif.LikelihoodLimit.c96_limit
Verif.LikelihoodLimit.c96_gradient_partial
Verif.LikelihoodLimit.c96_gradient_violated
Verif.LikelihoodLimit.c96_objective_violated
Verif.LikelihoodLimit.c96_success_violated
Verif.LikelihoodLimit.c96_unknown
Verif.Writer.c97_pseudo
Verif.Writer.c97_data_stuck
Verif.Writer.c97_process_kind
Verif.Writer.c97_syst_partial
Verif.Writer.c97_norm_partial
Verif.Writer.c97_write
Verif.Writer.c97_data_violated
Verif.Writer.c97_process_violated
Verif.Writer.c97_syst_violated
Verif.Writer.c97_norm_violated
Verif.Writer.c98_sparse_partial
Verif.Writer.c98_kinds_violated
Verif.Writer.c98_dense_partial
Verif.Writer.c98_covariance_partial
Verif.Writer.c98_needed
Verif.Writer.c98_masked_covariance
Verif.Writer.c98_pseudo_violated
Verif.Writer.c98_axes_violated
Verif.Writer.c98_masked_violated
Verif.Writer.c98_stat_violated
Verif.Writer.c98_sparse_violated
Verif.Writer.c98_refused_violated
Verif.LinearFit.c99_ones
Verif.LinearFit.c99_saturated
Verif.LinearFit.c99_mu
Verif.LinearFit.c99_composite
Verif.LinearFit.c99_quadratic_partial
Verif.LinearFit.c99_everywhere
Verif.LinearFit.c99_one_step
Verif.LinearFit.c99_select
Verif.LinearFit.c99_project
Verif.LinearFit.c99_lite_violated
Verif.LinearFit.c99_regularised_violated
Verif.Options.c100_runs
Verif.Options.c100_requested
Verif.Options.c100_likelihood
Verif.Options.c100_automatic_violated
Verif.Options.c100_command_line
Verif.Options.c100_derivatives
Verif.Options.c100_derivatives_lower
Verif.Options.c100_case_violated
Verif.Options.c100_tolerances
Verif.Options.c100_default_violated
Verif.LinearFit.c101_zero_partial
Verif.LinearFit.c101_minimum
Verif.LinearFit.c101_closure_partial
Verif.LinearFit.c101_domain
Verif.LinearFit.c101_lite_violated
Verif.LinearFit.c102_masked
Verif.LinearFit.c102_storage_partial
Verif.LinearFit.c102_sparse_violated
Verif.LinearFit.c102_processes
Verif.FileFit.c103_likelihood
Verif.FileFit.c103_order
Verif.CardFile.c104_card
Verif.FileFit.c104_profiled
Verif.CardFile.c105_card_partial
Verif.CardFile.c105_text_partial
Verif.CardFile.c105_rate_violated
Verif.CardFile.c105_flat_violated
Verif.CardFile.c105_counting_violated
Verif.CardFile.c105_gamma_violated
Verif.CardFile.c106_card
Verif.CardFile.c106_card_unique
Verif.FileFit.c106_asimov
Verif.FileFit.c106_closure
Verif.FileFit.c106_unique
Verif.FileFit.c107_likelihood
Verif.Writer.c107_accepted
Verif.Writer.c107_written
Verif.Writer.c107_refused
Verif.CardFile.c108_card_partial
Verif.CardFile.c108_text_partial
Verif.CardFile.c108_rate_violated
Verif.CardFile.c109_card
Verif.CardFile.c109_card_unique
Verif.FileFit.c109_asimov
Verif.FileFit.c109_closure
Verif.FileFit.c109_unique
Verif.UncPlot.c110_breakdown_partial
Verif.UncPlot.c110_share
Verif.UncPlot.c110_colours_partial
Verif.UncPlot.c110_colours_violated
Verif.UncPlot.c110_missing_violated
Verif.UncPlot.c110_total_violated
Verif.UncPlot.c110_file_violated
Verif.UncPlot.c110_files
Verif.UncPlot.c110_selected_violated
Verif.FileFit.c111_chisq_partial
Verif.FileFit.c111_empty_violated
Verif.FileFit.c111_covariance_partial
Verif.FileFit.c111_reciprocal_violated
Verif.FileFit.c111_masked_violated
Verif.FileFit.c111_variances_violated
Verif.FileFit.c112_profile_partial
Verif.FileFit.c112_minimum_partial
Verif.FileFit.c112_default_violated
Verif.FileFit.c112_lognormal_violated
Verif.FileFit.c112_free_violated
Verif.FileFit.c113_stored
Verif.FileFit.c113_likelihood_partial
Verif.FileFit.c113_order
Verif.FileFit.c113_empty_violated
Verif.FileFit.c113_default
Verif.FileFit.c114_convex
Verif.FileFit.c114_minimum
Verif.FileFit.c114_unique
Verif.FileFit.c114_asymmetric
