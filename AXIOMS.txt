'Direpack.C01_fair_range' depends on axioms: [propext, Classical.choice, Quot.sound] 
'Direpack.C01_fair_eq_one_iff' depends on axioms: [propext, Classical.choice, Quot.sound] 
'Direpack.C01_fair_antitone' depends on axioms: [propext, Classical.choice, Quot.sound] 
'Direpack.C01_fair_strictAnti' depends on axioms: [propext, Classical.choice, Quot.sound] 
'Direpack.C02_huber_correct_partial' depends on axioms: [propext, Classical.choice, Quot.sound] 
'Direpack.C02_huber_range_partial' depends on axioms: [propext, Classical.choice, Quot.sound] 
'Direpack.C02_huber_small_cutoff' depends on axioms: [propext, Classical.choice, Quot.sound] 
'Direpack.C02_huber_violated' depends on axioms: [propext, Classical.choice, Quot.sound] 
'Direpack.C03_hampel_correct_partial' depends on axioms: [propext, Classical.choice, Quot.sound] 
'Direpack.C03_hampel_range_partial' depends on axioms: [propext, Classical.choice, Quot.sound] 
'Direpack.C03_hampel_violated' depends on axioms: [propext, Classical.choice, Quot.sound] 
'Direpack.C04_brokenstick_pos' depends on axioms: [propext, Classical.choice, Quot.sound] 
'Direpack.C04_brokenstick_strictAnti' depends on axioms: [propext, Classical.choice, Quot.sound] 
'Direpack.C04_brokenstick_sum' depends on axioms: [propext, Classical.choice, Quot.sound] 
'Direpack.C04_relcomp_total' depends on axioms: [propext, Classical.choice, Quot.sound] 
'Direpack.C04_sprm_start' depends on axioms: [propext, Classical.choice, Quot.sound] 
'Direpack.C05_median_affine' depends on axioms: [propext, Classical.choice, Quot.sound] 
'Direpack.C05_median_perm' depends on axioms: [propext, Classical.choice, Quot.sound] 
'Direpack.C05_median_between' depends on axioms: [propext, Classical.choice, Quot.sound] 
'Direpack.C05_median_splits' depends on axioms: [propext, Classical.choice, Quot.sound] 
'Direpack.C06_median_breakdown' depends on axioms: [propext, Classical.choice, Quot.sound] 
'Direpack.C06_mad_breakdown' depends on axioms: [propext, Classical.choice, Quot.sound] 
'Direpack.C07_mad_affine' depends on axioms: [propext, Classical.choice, Quot.sound] 
'Direpack.C07_mad_nonneg' depends on axioms: [propext, Classical.choice, Quot.sound] 
'Direpack.C07_mad_perm' depends on axioms: [propext, Classical.choice, Quot.sound] 
'Direpack.C07_mad_zero_iff' depends on axioms: [propext, Classical.choice, Quot.sound] 
'Direpack.C07_mad_value' depends on axioms: [propext, Classical.choice, Quot.sound] 
'Direpack.C08_fit_transform' depends on axioms: [propext, Classical.choice, Quot.sound] 
'Direpack.C08_standardised' depends on axioms: [propext, Classical.choice, Quot.sound] 
'Direpack.C08_entries' depends on axioms: [propext, Classical.choice, Quot.sound] 
'Direpack.C09_no_scale' depends on axioms: [propext, Classical.choice, Quot.sound] 
'Direpack.C09_roundtrip_partial' depends on axioms: [propext, Classical.choice, Quot.sound] 
'Direpack.C09_roundtrip_violated' depends on axioms: [propext, Classical.choice, Quot.sound] 
'Direpack.C09_roundtrip_one_row_violated' depends on axioms: [propext, Classical.choice, Quot.sound] 
'Direpack.C10_rowwise_partial' depends on axioms: [propext, Classical.choice, Quot.sound] 
'Direpack.C10_one_row_violated' depends on axioms: [propext, Classical.choice, Quot.sound] 
'Direpack.C11_trim_zero' depends on axioms: [propext, Quot.sound] 
'Direpack.C11_checkTrimming' depends on axioms: [propext, Quot.sound] 
'Direpack.C11_trim_value' depends on axioms: [propext, Classical.choice, Quot.sound] 
'Direpack.C11_trim_defined_iff' depends on axioms: [propext, Classical.choice, Quot.sound] 
'Direpack.C11_trim_affine' depends on axioms: [propext, Classical.choice, Quot.sound] 
'Direpack.C11_fit_rejects' depends on axioms: [propext, Quot.sound] 
'Direpack.C12_median_missing' depends on axioms: [propext, Classical.choice, Quot.sound] 
'Direpack.C12_mean_missing' depends on axioms: [propext, Classical.choice, Quot.sound] 
'Direpack.C12_std_missing' depends on axioms: [propext, Classical.choice, Quot.sound] 
'Direpack.C12_mad_missing' depends on axioms: [propext, Classical.choice, Quot.sound] 
'Direpack.C12_complete_column' depends on axioms: [propext, Classical.choice, Quot.sound] 
'Direpack.C13_median_minimises' depends on axioms: [propext, Classical.choice, Quot.sound] 
'Direpack.C13_l1median_optimal' depends on axioms: [propext, Classical.choice, Quot.sound] 
'Direpack.C13_l1median_start' depends on axioms: [propext, Classical.choice, Quot.sound] 
'Direpack.C13_l1median_subgradient' depends on axioms: [propext, Classical.choice, Quot.sound] 
'Direpack.C13_l1median_objective' depends on axioms: [propext, Classical.choice, Quot.sound] 
'Direpack.C13_l1median_global' depends on axioms: [propext, Classical.choice, Quot.sound] 
'Direpack.C13_l1median_univariate' depends on axioms: [propext, Classical.choice, Quot.sound] 
'Direpack.C14_lts_bounded' depends on axioms: [propext, Classical.choice, Quot.sound] 
'Direpack.C14_lts_step' depends on axioms: [propext, Classical.choice, Quot.sound] 
'Direpack.C14_lts_result' depends on axioms: [propext, Classical.choice, Quot.sound] 
'Direpack.C14_lts_stops' depends on axioms: [propext, Classical.choice, Quot.sound] 
'Direpack.C14_lts_objective_partial' depends on axioms: [propext, Classical.choice, Quot.sound] 
'Direpack.C14_lts_objective_violated' depends on axioms: [propext, Classical.choice, Quot.sound] 
'Direpack.C15_tau_zero_mad' depends on axioms: [propext, Classical.choice, Quot.sound] 
'Direpack.C15_tau_nonneg' depends on axioms: [propext, Classical.choice, Quot.sound] 
'Direpack.C15_tau_perm' depends on axioms: [propext, Classical.choice, Quot.sound] 
'Direpack.C15_tau_affine' depends on axioms: [propext, Classical.choice, Quot.sound] 
'Direpack.C16_tau_common_factor_partial' depends on axioms: [propext, Classical.choice, Quot.sound] 
'Direpack.C16_tau_columnwise_violated' depends on axioms: [propext, Classical.choice, Quot.sound] 
'Direpack.C17_wrap_tail' depends on axioms: [propext, Classical.choice, Quot.sound] 
'Direpack.C17_wrap_centre' depends on axioms: [propext, Classical.choice, Quot.sound] 
'Direpack.C17_wrap_bounded' depends on axioms: [propext, Classical.choice, Quot.sound] 
'Direpack.C17_wrap_side' depends on axioms: [propext, Classical.choice, Quot.sound] 
'Direpack.C17_wrap_affine' depends on axioms: [propext, Classical.choice, Quot.sound] 
'Direpack.C18_wrapper_train_partial' depends on axioms: [propext, Quot.sound] 
'Direpack.C18_wrapper_predict_violated' depends on axioms: [propext, Classical.choice, Quot.sound] 
'Direpack.C19_gss_weights' depends on axioms: [propext, Classical.choice, Quot.sound] 
'Direpack.C19_ss_weights' depends on axioms: [propext, Classical.choice, Quot.sound] 
'Direpack.C20_gss_centre_kept' depends on axioms: [propext, Classical.choice, Quot.sound] 
'Direpack.C21_gss_bounded' depends on axioms: [propext, Classical.choice, Quot.sound] 
'Direpack.C21_ss_bounded' depends on axioms: [propext, Classical.choice, Quot.sound] 
'Direpack.C21_lr_bounded' depends on axioms: [propext, Classical.choice, Quot.sound] 
'Direpack.C22_gss_perm' depends on axioms: [propext, Classical.choice, Quot.sound] 
'Direpack.C22_gss_scale' depends on axioms: [propext, Classical.choice, Quot.sound] 
'Direpack.C22_ss_scale' depends on axioms: [propext, Classical.choice, Quot.sound] 
'Direpack.C23_gss_defined' depends on axioms: [propext, Classical.choice, Quot.sound] 
'Direpack.C23_gss_quantile' depends on axioms: [propext, Classical.choice, Quot.sound] 
'Direpack.C23_ss_defined' depends on axioms: [propext, Classical.choice, Quot.sound] 
'Direpack.C24_fit_transform_partial' depends on axioms: [propext, Classical.choice, Quot.sound] 
'Direpack.C24_transform_violated' depends on axioms: [propext, Classical.choice, Quot.sound] 
'Direpack.C25_covmat_partial' depends on axioms: [propext, Classical.choice, Quot.sound] 
'Direpack.C25_covmat_violated' depends on axioms: [propext, Classical.choice, Quot.sound] 
'Direpack.C25_covmat_square_violated' depends on axioms: [propext, Classical.choice, Quot.sound] 
'Direpack.C26_shift_partial' depends on axioms: [propext, Classical.choice, Quot.sound] 
'Direpack.C26_scale_mom_partial' depends on axioms: [propext, Classical.choice, Quot.sound] 
'Direpack.C26_scale_com_partial' depends on axioms: [propext, Classical.choice, Quot.sound] 
'Direpack.C26_median_violated' depends on axioms: [propext, Classical.choice, Quot.sound] 
'Direpack.C27_cov_self' depends on axioms: [propext, Classical.choice, Quot.sound] 
'Direpack.C27_var_nonneg' depends on axioms: [propext, Classical.choice, Quot.sound] 
'Direpack.C27_cov_symm' depends on axioms: [propext, Classical.choice, Quot.sound] 
'Direpack.C27_cov_additive' depends on axioms: [propext, Classical.choice, Quot.sound] 
'Direpack.C28_corr_range' depends on axioms: [propext, Classical.choice, Quot.sound] 
'Direpack.C28_corr_scale' depends on axioms: [propext, Classical.choice, Quot.sound] 
'Direpack.C29_median_corr_scale_partial' depends on axioms: [propext, Classical.choice, Quot.sound] 
'Direpack.C29_median_corr_violated' depends on axioms: [propext, Classical.choice, Quot.sound] 
'Direpack.C30_cos_self' depends on axioms: [propext, Classical.choice, Quot.sound] 
'Direpack.C30_cok_self_partial' depends on axioms: [propext, Classical.choice, Quot.sound] 
'Direpack.C30_cok_fisher_violated' depends on axioms: [propext, Classical.choice, Quot.sound] 
'Direpack.C30_skew_kurt_invariant' depends on axioms: [propext, Classical.choice, Quot.sound] 
'Direpack.C30_cos_cok_invariant' depends on axioms: [propext, Classical.choice, Quot.sound] 
'Direpack.C31_var_cov_corrected' depends on axioms: [propext, Classical.choice, Quot.sound] 
'Direpack.C31_var_cov_uncorrected' depends on axioms: [propext, Classical.choice, Quot.sound] 
'Direpack.C31_skew_corrected' depends on axioms: [propext, Classical.choice, Quot.sound] 
'Direpack.C31_kurt_corrected' depends on axioms: [propext, Classical.choice, Quot.sound] 
'Direpack.C31_var_cov_trimmed' depends on axioms: [propext, Classical.choice, Quot.sound] 
'Direpack.C32_continuum_value' depends on axioms: [propext, Classical.choice, Quot.sound] 
'Direpack.C32_continuum_alpha_one' depends on axioms: [propext, Classical.choice, Quot.sound] 
'Direpack.C32_continuum_homogeneous' depends on axioms: [propext, Classical.choice, Quot.sound] 
'Direpack.C33_double_centred' depends on axioms: [propext, Classical.choice, Quot.sound] 
'Direpack.C33_u_centred' depends on axioms: [propext, Classical.choice, Quot.sound] 
'Direpack.C33_symmetric' depends on axioms: [propext, Classical.choice, Quot.sound] 
'Direpack.C33_trimmed_value' depends on axioms: [propext, Classical.choice, Quot.sound] 
'Direpack.C34_dcov_nonneg' depends on axioms: [propext, Classical.choice, Quot.sound] 
'Direpack.C34_dcorr_range' depends on axioms: [propext, Classical.choice, Quot.sound] 
'Direpack.C34_dcorr_self' depends on axioms: [propext, Classical.choice, Quot.sound] 
'Direpack.C35_rigid_motion' depends on axioms: [propext, Classical.choice, Quot.sound] 
'Direpack.C35_permutation' depends on axioms: [propext, Classical.choice, Quot.sound] 
'Direpack.C35_scale' depends on axioms: [propext, Classical.choice, Quot.sound] 
'Direpack.C35_rigid_motion_any' depends on axioms: [propext, Classical.choice, Quot.sound] 
'Direpack.C35_permutation_any' depends on axioms: [propext, Classical.choice, Quot.sound] 
'Direpack.C35_scale_mean_any' depends on axioms: [propext, Classical.choice, Quot.sound] 
'Direpack.C35_scale_median_any' depends on axioms: [propext, Classical.choice, Quot.sound] 
'Direpack.C36_fast_naive_partial' depends on axioms: [propext, Classical.choice, Quot.sound] 
'Direpack.C36_biascorr_violated' depends on axioms: [propext, Classical.choice, Quot.sound] 
'Direpack.C36_y1d_violated' depends on axioms: [propext, Classical.choice, Quot.sound] 
'Direpack.C36_biascorr_cov_partial' depends on axioms: [propext, Classical.choice, Quot.sound] 
'Direpack.C36_biascorr_var' depends on axioms: [propext, Classical.choice, Quot.sound] 
'Direpack.C36_biascorr_corr_partial' depends on axioms: [propext, Classical.choice, Quot.sound] 
'Direpack.C36_other_settings' depends on axioms: [propext, Classical.choice, Quot.sound] 
'Direpack.C37_comoment_partial' depends on axioms: [propext, Classical.choice, Quot.sound] 
'Direpack.C37_order4_violated' depends on axioms: [propext, Classical.choice, Quot.sound] 
'Direpack.C37_moment3_violated' depends on axioms: [propext, Classical.choice, Quot.sound] 
'Direpack.C38_mdd_value' depends on axioms: [propext, Classical.choice, Quot.sound] 
'Direpack.C38_mdd_constant' depends on axioms: [propext, Classical.choice, Quot.sound] 
'Direpack.C38_mdd_class' depends on axioms: [propext, Classical.choice, Quot.sound] 
'Direpack.C38_mdd_trimmed' depends on axioms: [propext, Classical.choice, Quot.sound] 
'Direpack.C39_mddm_partial' depends on axioms: [propext, Classical.choice, Quot.sound] 
'Direpack.C39_mddm_violated' depends on axioms: [propext, Classical.choice, Quot.sound] 
'Direpack.C39_mddm_null_partial' depends on axioms: [propext, Classical.choice, Quot.sound] 
'Direpack.C40_refit_partial' depends on axioms: [propext, Classical.choice, Quot.sound] 
'Direpack.C40_params_partial' depends on axioms: [propext, Classical.choice, Quot.sound] 
'Direpack.C40_center_violated' depends on axioms: [propext, Classical.choice, Quot.sound] 
'Direpack.C41_constructor_partial' depends on axioms: [propext, Classical.choice, Quot.sound] 
'Direpack.C41_constructor_iff' depends on axioms: [propext, Classical.choice, Quot.sound] 
'Direpack.C41_empty_data' depends on axioms: [propext, Classical.choice, Quot.sound] 
'Direpack.C41_second_data' depends on axioms: [propext, Classical.choice, Quot.sound] 
'Direpack.C41_mdc_violated' depends on axioms: [propext, Classical.choice, Quot.sound] 
'Direpack.C41_no_stale_partial' depends on axioms: [propext, Classical.choice, Quot.sound] 
'Direpack.C41_stale_violated' depends on axioms: [propext, Classical.choice, Quot.sound] 
'Direpack.C41_order_zero' depends on axioms: [propext, Classical.choice, Quot.sound] 
'Direpack.C42_scores_orthogonal' depends on axioms: [propext, Classical.choice, Quot.sound] 
'Direpack.C42_scores_nonzero' depends on axioms: [propext, Classical.choice, Quot.sound] 
'Direpack.C43_zero_outside_retained' depends on axioms: [propext, Classical.choice, Quot.sound] 
'Direpack.C43_retained_grow' depends on axioms: [propext, Classical.choice, Quot.sound] 
'Direpack.C44_first_component' depends on axioms: [propext, Classical.choice, Quot.sound] 
'Direpack.C44_eta_zero' depends on axioms: [propext, Classical.choice, Quot.sound] 
'Direpack.C44_antitone' depends on axioms: [propext, Classical.choice, Quot.sound] 
'Direpack.C44_nonempty' depends on axioms: [propext, Classical.choice, Quot.sound] 
'Direpack.C44_one_component_total' depends on axioms: [propext, Classical.choice, Quot.sound] 
'Direpack.C45_normal_equations' depends on axioms: [propext, Classical.choice, Quot.sound] 
'Direpack.C45_residuals' depends on axioms: [propext, Classical.choice, Quot.sound] 
'Direpack.C46_predict_train' depends on axioms: [propext, Classical.choice, Quot.sound] 
'Direpack.C46_predict_affine' depends on axioms: [propext, Classical.choice, Quot.sound] 
'Direpack.C46_original_scale' depends on axioms: [propext, Classical.choice, Quot.sound] 
'Direpack.C47_transform_iff' depends on axioms: [propext, Classical.choice, Quot.sound] 
'Direpack.C47_transform_partial' depends on axioms: [propext, Classical.choice, Quot.sound] 
'Direpack.C47_one_component_partial' depends on axioms: [propext, Classical.choice, Quot.sound] 
'Direpack.C47_transform_violated' depends on axioms: [propext, Classical.choice, Quot.sound] 
'Direpack.C48_rm_weights' depends on axioms: [propext, Classical.choice, Quot.sound] 
'Direpack.C48_sprm_weights' depends on axioms: [propext, Classical.choice, Quot.sound] 
'Direpack.C49_rm_predict_partial' depends on axioms: [propext, Classical.choice, Quot.sound] 
'Direpack.C49_rm_predict_columns' depends on axioms: [propext, Classical.choice, Quot.sound] 
'Direpack.C49_rm_copy_violated' depends on axioms: [propext, Classical.choice, Quot.sound] 
'Direpack.C49_rm_scaled_partial' depends on axioms: [propext, Classical.choice, Quot.sound] 
'Direpack.C49_rm_unscaled_median_violated' depends on axioms: [propext, Classical.choice, Quot.sound] 
'Direpack.C49_rm_scaled_violated' depends on axioms: [propext, Classical.choice, Quot.sound] 
'Direpack.C49_sprm_predict_partial' depends on axioms: [propext, Classical.choice, Quot.sound] 
'Direpack.C49_sprm_columns' depends on axioms: [propext, Classical.choice, Quot.sound] 
'Direpack.C49_sprm_copy_violated' depends on axioms: [propext, Classical.choice, Quot.sound] 
'Direpack.C49_sprm_scaled_partial' depends on axioms: [propext, Classical.choice, Quot.sound] 
'Direpack.C50_loop_stops' depends on axioms: [propext, Classical.choice, Quot.sound] 
'Direpack.C50_rm_fits' depends on axioms: [propext, Classical.choice, Quot.sound] 
'Direpack.C50_rm_minimises' depends on axioms: [propext, Classical.choice, Quot.sound] 
'Direpack.C50_rm_no_iterations' depends on axioms: [propext, Classical.choice, Quot.sound] 
'Direpack.C50_sprm_fits' depends on axioms: [propext, Classical.choice, Quot.sound] 
'Direpack.C50_sprm_no_iterations' depends on axioms: [propext, Classical.choice, Quot.sound] 
'Direpack.C51_params_partial' depends on axioms: [propext, Classical.choice, Quot.sound] 
'Direpack.C51_sequence_partial' depends on axioms: [propext, Classical.choice, Quot.sound] 
'Direpack.C51_scale_violated' depends on axioms: [propext, Classical.choice, Quot.sound] 
'Direpack.C51_columns_partial' depends on axioms: [propext, Classical.choice, Quot.sound] 
'Direpack.C51_columns_violated' depends on axioms: [propext, Classical.choice, Quot.sound] 
'Direpack.C52_robustLoss_fair_symm_partial' depends on axioms: [propext, Classical.choice, Quot.sound] 
'Direpack.C52_robustLoss_negative_full_weight' depends on axioms: [propext, Classical.choice, Quot.sound] 
'Direpack.C52_robustLoss_nonneg_partial' depends on axioms: [propext, Classical.choice, Quot.sound] 
'Direpack.C52_robustLoss_violated' depends on axioms: [propext, Classical.choice, Quot.sound] 
'Direpack.C53_candidates' depends on axioms: [propext, Classical.choice, Quot.sound] 
'Direpack.C54_gridplane_best' depends on axioms: [propext, Classical.choice, Quot.sound] 
'Direpack.C54_gridplane_total' depends on axioms: [propext, Classical.choice, Quot.sound] 
'Direpack.C55_refine_unit' depends on axioms: [propext, Classical.choice, Quot.sound] 
'Direpack.C55_grid_unit' depends on axioms: [propext, Classical.choice, Quot.sound] 
'Direpack.C56_sweep_partial' depends on axioms: [propext, Classical.choice, Quot.sound] 
'Direpack.C56_grid_partial' depends on axioms: [propext, Classical.choice, Quot.sound] 
'Direpack.C56_even_violated' depends on axioms: [propext, Classical.choice, Quot.sound] 
'Direpack.C57_scores' depends on axioms: [propext, Classical.choice, Quot.sound] 
'Direpack.C57_transform_partial' depends on axioms: [propext, Classical.choice, Quot.sound] 
'Direpack.C57_transform_violated' depends on axioms: [propext, Classical.choice, Quot.sound] 
'Direpack.C57_one_block' depends on axioms: [propext, Classical.choice, Quot.sound] 
'Direpack.C58_predict' depends on axioms: [propext, Classical.choice, Quot.sound] 
'Direpack.C58_compressed' depends on axioms: [propext, Classical.choice, Quot.sound] 
'Direpack.C58_compressed_violated' depends on axioms: [propext, Classical.choice, Quot.sound] 
'Direpack.C59_two_variables_violated' depends on axioms: [propext, Classical.choice, Quot.sound] 
'Direpack.C59_succeeds_partial' depends on axioms: [propext, Classical.choice, Quot.sound] 
'Direpack.C59_zero_length_violated' depends on axioms: [propext, Classical.choice, Quot.sound] 
'Direpack.C60_places_distinct' depends on axioms: [propext, Quot.sound] 
'Direpack.C60_weighted_partial' depends on axioms: [propext, Classical.choice, Quot.sound] 
'Direpack.C60_overwritten_violated' depends on axioms: [propext, Classical.choice, Quot.sound] 
'Direpack.C60_evaluated_violated' depends on axioms: [propext, Classical.choice, Quot.sound] 
'Direpack.C60_option_two_violated' depends on axioms: [propext, Classical.choice, Quot.sound] 
'Direpack.C60_all' depends on axioms: [propext, Classical.choice, Quot.sound] 
'Direpack.C60_rejects' depends on axioms: [propext, Classical.choice, Quot.sound] 
'Direpack.C61_labels' depends on axioms: [propext, Classical.choice, Quot.sound] 
'Direpack.C61_sizes' depends on axioms: [propext, Classical.choice, Quot.sound] 
'Direpack.C61_cumulative' depends on axioms: [propext, Classical.choice, Quot.sound] 
'Direpack.C61_one_slice' depends on axioms: [propext, Classical.choice, Quot.sound] 
'Direpack.C61_response' depends on axioms: [propext, Classical.choice, Quot.sound] 
'Direpack.C62_sir_psd' depends on axioms: [propext, Classical.choice, Quot.sound] 
'Direpack.C62_save_psd' depends on axioms: [propext, Classical.choice, Quot.sound] 
'Direpack.C62_sir_between' depends on axioms: [propext, Classical.choice, Quot.sound] 
'Direpack.C62_slice_means' depends on axioms: [propext, Classical.choice, Quot.sound] 
'Direpack.C63_too_few_labels' depends on axioms: [propext, Classical.choice, Quot.sound] 
'Direpack.C63_labels' depends on axioms: [propext, Classical.choice, Quot.sound] 
'Direpack.C63_no_slices' depends on axioms: [propext, Classical.choice, Quot.sound] 
'Direpack.C63_proportions_partial' depends on axioms: [propext, Classical.choice, Quot.sound] 
'Direpack.C63_proportions_violated' depends on axioms: [propext, Classical.choice, Quot.sound] 
'Direpack.C64_best_start_partial' depends on axioms: [propext, Classical.choice, Quot.sound] 
'Direpack.C64_ignores_response_violated' depends on axioms: [propext, Classical.choice, Quot.sound] 
'Direpack.C64_start_violated' depends on axioms: [propext, Classical.choice, Quot.sound] 
'Direpack.C64_discrete_partial' depends on axioms: [propext, Classical.choice, Quot.sound] 
'Direpack.C65_projector' depends on axioms: [propext, Classical.choice, Quot.sound] 
'Direpack.C65_orthogonal' depends on axioms: [propext, Classical.choice, Quot.sound] 
'Direpack.C65_subspace' depends on axioms: [propext, Classical.choice, Quot.sound] 
'Direpack.C66_round_trip' depends on axioms: [propext, Classical.choice, Quot.sound] 
'Direpack.C66_round_trip_vec' depends on axioms: [propext, Classical.choice, Quot.sound] 
'Direpack.C66_constraints' depends on axioms: [propext, Classical.choice, Quot.sound] 
'Direpack.C66_count' depends on axioms: [propext, Classical.choice, Quot.sound] 
'Direpack.C67_refit_partial' depends on axioms: [propext, Classical.choice, Quot.sound] 
'Direpack.C67_refit_violated' depends on axioms: [propext, Classical.choice, Quot.sound] 
'Direpack.C67_stale_scores_violated' depends on axioms: [propext, Classical.choice, Quot.sound] 
'Direpack.C68_selection_partial' depends on axioms: [propext, Classical.choice, Quot.sound] 
'Direpack.C68_cumulative_partial' depends on axioms: [propext, Classical.choice, Quot.sound] 
'Direpack.C68_first_partial' depends on axioms: [propext, Classical.choice, Quot.sound] 
'Direpack.C68_means_violated' depends on axioms: [propext, Classical.choice, Quot.sound] 
'Direpack.C68_pairs_violated' depends on axioms: [propext, Classical.choice, Quot.sound] 
'Direpack.C69_checkInput_idem' depends on axioms: [propext, Quot.sound] 
'Direpack.C69_checkInput_data' depends on axioms: [propext] 
'Direpack.C69_matrix_unchanged' depends on axioms: [propext, Quot.sound] 
'Direpack.C69_other_shapes' depends on axioms: [propext] 
'Direpack.C70_nandot_available' depends on axioms: [propext, Classical.choice, Quot.sound] 
'Direpack.C70_nandot_complete' depends on axioms: [propext, Classical.choice, Quot.sound] 
'Direpack.C70_nanmatdot_transposed_partial' depends on axioms: [propext, Classical.choice, Quot.sound] 
'Direpack.C70_nanmatdot_crossprod_partial' depends on axioms: [propext, Classical.choice, Quot.sound] 
'Direpack.C70_nanmatdot_violated' depends on axioms: [propext, Classical.choice, Quot.sound] 
'Direpack.C71_get_after_set' depends on axioms: [propext, Quot.sound] 
'Direpack.C71_set_get' depends on axioms: [propext, Quot.sound] 
'Direpack.C71_unknown_raises' depends on axioms: [propext, Quot.sound] 
'Direpack.C71_unknown_first_partial' depends on axioms: [propext] 
'Direpack.C71_unknown_violated' depends on axioms: [propext] 
'Direpack.C71_nested' depends on axioms: [propext] 
'Direpack.C71_nested_several' depends on axioms: [propext] 
'Direpack.C71_deep' depends on axioms: [propext, Classical.choice, Quot.sound] 
'Direpack.C72_types' depends on axioms: [propext, Classical.choice, Quot.sound] 
'Direpack.C72_bounds' depends on axioms: [propext, Classical.choice, Quot.sound] 
'Direpack.C72_values' depends on axioms: [propext, Classical.choice, Quot.sound] 
'Direpack.C72_variables' depends on axioms: [propext, Classical.choice, Quot.sound] 
'Direpack.C73_translation' depends on axioms: [propext, Classical.choice, Quot.sound] 
'Direpack.C73_stable' depends on axioms: [propext, Classical.choice, Quot.sound] 
'Direpack.C73_caller_violated' depends on axioms: [propext, Classical.choice, Quot.sound] 
'Direpack.C73_tolerance_violated' depends on axioms: [propext, Classical.choice, Quot.sound] 
'Direpack.C73_tolerance' depends on axioms: [propext, Classical.choice, Quot.sound] 
'Direpack.C73_zero_violated' depends on axioms: [propext, Classical.choice, Quot.sound] 
'Direpack.C73_both_violated' depends on axioms: [propext, Classical.choice, Quot.sound] 
'Direpack.C74_cache_partial' depends on axioms: [propext, Classical.choice, Quot.sound] 
'Direpack.C74_arguments_violated' depends on axioms: [propext, Classical.choice, Quot.sound] 
'Direpack.C74_arguments_example_violated' depends on axioms: [propext, Classical.choice, Quot.sound] 
'Direpack.C74_affine_partial' depends on axioms: [propext, Classical.choice, Quot.sound] 
'Direpack.C74_quadratic_partial' depends on axioms: [propext, Classical.choice, Quot.sound] 
'Direpack.C75_once' depends on axioms: [propext, Classical.choice, Quot.sound] 
'Direpack.C75_class' depends on axioms: [propext, Classical.choice, Quot.sound] 
'Direpack.C75_exclusive' depends on axioms: [propext, Classical.choice, Quot.sound] 
'Direpack.C76_cvScoreTable' depends on axioms: [propext, Quot.sound] 
'Direpack.C76_cvScoreTable_error' depends on axioms: [propext] 
'Direpack.C77_gen_ss_pp_agrees_partial' depends on axioms: [propext, Classical.choice, Quot.sound] 
'Direpack.C77_gen_ss_pp_none_violated' depends on axioms: [propext, Classical.choice, Quot.sound] 
'Direpack.C78_std_sqrt_var_partial' depends on axioms: [propext, Classical.choice, Quot.sound] 
'Direpack.C78_std_biascorr_violated' depends on axioms: [propext, Classical.choice, Quot.sound] 
'Direpack.C78_distance_naive_partial' depends on axioms: [propext, Classical.choice, Quot.sound] 
'Direpack.C78_distance_fast_violated' depends on axioms: [propext, Classical.choice, Quot.sound] 
'Direpack.C79_transform_train' depends on axioms: [propext, Classical.choice, Quot.sound] 
'Direpack.C79_transform_rowwise' depends on axioms: [propext, Classical.choice, Quot.sound] 
'Direpack.C80_weightnewx_range_partial' depends on axioms: [propext, Classical.choice, Quot.sound] 
'Direpack.C80_single_case_violated' depends on axioms: [propext, Classical.choice, Quot.sound] 
'Direpack.C81_order' depends on axioms: [propext, Classical.choice, Quot.sound] 
'Direpack.C81_irrelevant_variables' depends on axioms: [propext, Classical.choice, Quot.sound] 
'Direpack.C82_beats_variables_partial' depends on axioms: [propext, Classical.choice, Quot.sound] 
'Direpack.C82_even_violated' depends on axioms: [propext, Classical.choice, Quot.sound] 
'Direpack.C83_least_squares' depends on axioms: [propext, Classical.choice, Quot.sound] 
'Direpack.C84_whitening_violated' depends on axioms: [propext, Classical.choice, Quot.sound] 
'Direpack.C84_one_variable_violated' depends on axioms: [propext, Classical.choice, Quot.sound] 
'Direpack.C84_one_variable_partial' depends on axioms: [propext, Classical.choice, Quot.sound] 
'Direpack.C85_compression_violated' depends on axioms: [propext, Classical.choice, Quot.sound] 
'Direpack.C85_median_partial' depends on axioms: [propext, Classical.choice, Quot.sound] 
'Direpack.C85_fallback_violated' depends on axioms: [propext, Classical.choice, Quot.sound] 
'Direpack.C85_coef_partial' depends on axioms: [propext, Classical.choice, Quot.sound] 
'Direpack.C85_orthogonal_partial' depends on axioms: [propext, Classical.choice, Quot.sound] 
'Direpack.C85_scores_partial' depends on axioms: [propext, Classical.choice, Quot.sound] 
'Direpack.C85_scale_violated' depends on axioms: [propext, Classical.choice, Quot.sound] 
'Direpack.C85_median_intercept_partial' depends on axioms: [propext, Classical.choice, Quot.sound] 
'Direpack.C85_uncentred_violated' depends on axioms: [propext, Classical.choice, Quot.sound] 
'Direpack.C86_scaling_object_violated' depends on axioms: [propext, Classical.choice, Quot.sound] 
'Direpack.C86_compressed_partial' depends on axioms: [propext, Classical.choice, Quot.sound] 
'Direpack.C87_keyword_partial' does not depend on any axioms 
'Direpack.C87_ols_positional_partial' does not depend on any axioms 
'Direpack.C87_positional_violated' does not depend on any axioms 
'Direpack.C88_ppdire' depends on axioms: [propext, Classical.choice, Quot.sound] 
'Direpack.C88_sudire' depends on axioms: [propext, Classical.choice, Quot.sound] 
'Direpack.C88_capi_partial' depends on axioms: [propext, Classical.choice, Quot.sound] 
'Direpack.C88_capi_violated' depends on axioms: [propext, Classical.choice, Quot.sound] 
'Direpack.C89_slicing' depends on axioms: [propext, Classical.choice, Quot.sound] 
'Direpack.C89_phd' depends on axioms: [propext, Classical.choice, Quot.sound] 
'Direpack.C89_iht' depends on axioms: [propext, Classical.choice, Quot.sound] 
'Direpack.C90_sir_optimal' depends on axioms: [propext, Classical.choice, Quot.sound] 
'Direpack.C91_shift_partial' depends on axioms: [propext, Classical.choice, Quot.sound] 
'Direpack.C91_sign_violated' depends on axioms: [propext, Classical.choice, Quot.sound] 
'Direpack.C92_training_partial' depends on axioms: [propext, Classical.choice, Quot.sound] 
'Direpack.C92_cases' depends on axioms: [propext, Classical.choice, Quot.sound] 
'Direpack.C92_columns' depends on axioms: [propext, Classical.choice, Quot.sound] 
'Direpack.C92_no_copy_violated' depends on axioms: [propext, Classical.choice, Quot.sound] 
'Direpack.C93_training' depends on axioms: [propext, Classical.choice, Quot.sound] 
'Direpack.C93_predict_partial' depends on axioms: [propext, Classical.choice, Quot.sound] 
'Direpack.C93_single_violated' depends on axioms: [propext, Classical.choice, Quot.sound] 
'Direpack.C94_unit_covariance_partial' depends on axioms: [propext, Classical.choice, Quot.sound] 
'Direpack.C94_orthonormal_partial' depends on axioms: [propext, Classical.choice, Quot.sound] 
'Direpack.C94_optimised_partial' depends on axioms: [propext, Classical.choice, Quot.sound] 
'Direpack.C94_median_violated' depends on axioms: [propext, Classical.choice, Quot.sound] 
'Direpack.C95_flat_violated' depends on axioms: [propext, Classical.choice, Quot.sound] 
'Direpack.C96_few_labels_violated' depends on axioms: [propext, Classical.choice, Quot.sound] 
'Direpack.C97_answers_partial' does not depend on any axioms 
'Direpack.C97_reused_violated' depends on axioms: [propext] 
'Direpack.C97_reused_example_violated' depends on axioms: [propext] 
'Direpack.C97_once' depends on axioms: [propext, Classical.choice, Quot.sound] 
'Direpack.C98_points_partial' depends on axioms: [propext, Classical.choice, Quot.sound] 
'Direpack.C98_last_violated' depends on axioms: [propext, Classical.choice, Quot.sound] 
'Direpack.C98_weights_violated' depends on axioms: [propext, Classical.choice, Quot.sound] 
'Direpack.C99_heights_partial' depends on axioms: [propext, Classical.choice, Quot.sound] 
'Direpack.C99_labels_partial' depends on axioms: [propext, Classical.choice, Quot.sound] 
'Direpack.C99_labels_violated' depends on axioms: [propext, Classical.choice, Quot.sound] 
'Direpack.C100_default_partial' depends on axioms: [propext, Classical.choice, Quot.sound] 
'Direpack.C100_own' depends on axioms: [propext, Classical.choice, Quot.sound] 
'Direpack.C100_default_violated' depends on axioms: [propext, Classical.choice, Quot.sound] 
'Direpack.C100_key_violated' depends on axioms: [propext, Classical.choice, Quot.sound] 
'Direpack.C101_dcov_value_partial' depends on axioms: [propext, Classical.choice, Quot.sound] 
'Direpack.C101_mdd_value_partial' depends on axioms: [propext, Classical.choice, Quot.sound] 
'Direpack.C101_dcov_rotation' depends on axioms: [propext, Classical.choice, Quot.sound] 
'Direpack.C101_mdd_rotation' depends on axioms: [propext, Classical.choice, Quot.sound] 
'Direpack.C101_shift' depends on axioms: [propext, Classical.choice, Quot.sound] 
'Direpack.C101_feasible' depends on axioms: [propext, Classical.choice, Quot.sound] 
'Direpack.C101_biascorr_violated' depends on axioms: [propext, Classical.choice, Quot.sound] 
'Direpack.C101_mdd_biascorr_partial' depends on axioms: [propext, Classical.choice, Quot.sound] 
'Direpack.C101_mdd_biascorr_violated' depends on axioms: [propext, Classical.choice, Quot.sound] 
'Direpack.C102_dcov_optimal' depends on axioms: [propext, Classical.choice, Quot.sound] 
'Direpack.C102_mdd_optimal' depends on axioms: [propext, Classical.choice, Quot.sound] 
'Direpack.C103_normal_partial' depends on axioms: [propext, Classical.choice, Quot.sound] 
'Direpack.C103_bound_partial' depends on axioms: [propext, Classical.choice, Quot.sound] 
'Direpack.C103_refused' depends on axioms: [propext, Classical.choice, Quot.sound] 
'Direpack.C103_weighted_violated' depends on axioms: [propext, Classical.choice, Quot.sound] 
'Direpack.C103_weights_violated' depends on axioms: [propext, Classical.choice, Quot.sound] 
'Direpack.C104_forms_partial' depends on axioms: [propext] 
'Direpack.C104_rejected_partial' depends on axioms: [propext] 
'Direpack.C104_sudire_partial' depends on axioms: [propext, Quot.sound] 
'Direpack.C104_ppdire_frame_partial' depends on axioms: [propext, Quot.sound] 
'Direpack.C104_ppdire_frame_violated' depends on axioms: [propext, Quot.sound] 
'Direpack.C104_sudire_frame_violated' depends on axioms: [propext, Quot.sound] 
'Direpack.C104_snipls_violated' depends on axioms: [propext, Quot.sound] 
'Direpack.C105_x_percent_partial' depends on axioms: [propext, Classical.choice, Quot.sound] 
'Direpack.C105_y_percent_partial' depends on axioms: [propext, Classical.choice, Quot.sound] 
'Direpack.C105_y_r2_partial' depends on axioms: [propext, Classical.choice, Quot.sound] 
'Direpack.C105_y_r2_original_partial' depends on axioms: [propext, Classical.choice, Quot.sound] 
'Direpack.C105_x_r2_partial' depends on axioms: [propext, Classical.choice, Quot.sound] 
'Direpack.C105_defined_iff' depends on axioms: [propext, Classical.choice, Quot.sound] 
'Direpack.C105_ev_violated' depends on axioms: [propext, Classical.choice, Quot.sound] 
'Direpack.C106_snipls_units' depends on axioms: [propext, Classical.choice, Quot.sound] 
'Direpack.C106_snipls_units_iff' depends on axioms: [propext, Classical.choice, Quot.sound] 
'Direpack.C107_snipls_order' depends on axioms: [propext, Classical.choice, Quot.sound] 
'Direpack.C107_snipls_order_any' depends on axioms: [propext, Classical.choice, Quot.sound] 
'Direpack.C108_rm_units' depends on axioms: [propext, Classical.choice, Quot.sound] 
'Direpack.C108_rm_units_any_solver' depends on axioms: [propext, Classical.choice, Quot.sound] 
'Direpack.C109_rm_order_any' depends on axioms: [propext, Classical.choice, Quot.sound] 
'Direpack.C109_rm_order' depends on axioms: [propext, Classical.choice, Quot.sound] 
'Direpack.C110_rm_reverse_partial' depends on axioms: [propext, Classical.choice, Quot.sound] 
'Direpack.C110_rm_reverse_violated' depends on axioms: [propext, Classical.choice, Quot.sound] 
'Direpack.C111_self_partial' depends on axioms: [propext, Classical.choice, Quot.sound] 
'Direpack.C111_self_ratio' depends on axioms: [propext, Classical.choice, Quot.sound] 
'Direpack.C111_self_violated' depends on axioms: [propext, Classical.choice, Quot.sound] 
'Direpack.C112_units_partial' depends on axioms: [propext, Classical.choice, Quot.sound] 
'Direpack.C112_quantile_violated' depends on axioms: [propext, Classical.choice, Quot.sound] 
'Direpack.C113_case_order_partial' depends on axioms: [propext, Classical.choice, Quot.sound] 
'Direpack.C113_grid_ols' depends on axioms: [propext, Classical.choice, Quot.sound] 
'Direpack.C113_start_violated' depends on axioms: [propext, Classical.choice, Quot.sound] 
'Direpack.C114_refit_partial' depends on axioms: [propext, Classical.choice, Quot.sound] 
'Direpack.C114_one_block_transform' depends on axioms: [propext, Classical.choice, Quot.sound] 
'Direpack.C114_failed' depends on axioms: [propext, Classical.choice, Quot.sound] 
'Direpack.C114_stale_violated' depends on axioms: [propext, Classical.choice, Quot.sound] 
'Direpack.C115_scaled_partial' depends on axioms: [propext, Classical.choice, Quot.sound] 
'Direpack.C115_unscaled_violated' depends on axioms: [propext, Classical.choice, Quot.sound] 
'Direpack.C115_median_violated' depends on axioms: [propext, Classical.choice, Quot.sound] 
'Direpack.C116_sprm_units_partial' depends on axioms: [propext, Classical.choice, Quot.sound] 
'Direpack.C116_threshold_violated' depends on axioms: [propext, Classical.choice, Quot.sound] 
'Direpack.C117_sprm_order' depends on axioms: [propext, Classical.choice, Quot.sound] 
'Direpack.C118_yyp_partial' depends on axioms: [propext, Classical.choice, Quot.sound] 
'Direpack.C118_mismatch' depends on axioms: [propext, Classical.choice, Quot.sound] 
'Direpack.C118_ppdire' depends on axioms: [propext, Classical.choice, Quot.sound] 
'Direpack.C118_onlyval_violated' depends on axioms: [propext, Classical.choice, Quot.sound] 
'Direpack.C118_stale_violated' depends on axioms: [propext, Classical.choice, Quot.sound] 
'Direpack.C118_failed_violated' depends on axioms: [propext, Classical.choice, Quot.sound] 
'Direpack.C118_no_copy' depends on axioms: [propext, Classical.choice, Quot.sound] 
'Direpack.C118_sprm_partial' depends on axioms: [propext, Classical.choice, Quot.sound] 
'Direpack.C118_sprm_onlyval_violated' depends on axioms: [propext, Classical.choice, Quot.sound] 
'Direpack.C119_projections_partial' depends on axioms: [propext, Classical.choice, Quot.sound] 
'Direpack.C119_sprm_partial' depends on axioms: [propext, Classical.choice, Quot.sound] 
'Direpack.C119_sprm_onlyval_violated' depends on axioms: [propext, Classical.choice, Quot.sound] 
'Direpack.C119_component' depends on axioms: [propext, Classical.choice, Quot.sound] 
'Direpack.C119_onlyval_violated' depends on axioms: [propext, Classical.choice, Quot.sound] 
'Direpack.C120_bars_partial' depends on axioms: [propext, Classical.choice, Quot.sound] 
'Direpack.C120_mode_violated' depends on axioms: [propext, Classical.choice, Quot.sound] 
'Direpack.C120_onlyval_violated' depends on axioms: [propext, Classical.choice, Quot.sound] 
'Direpack.C121_contour_partial' depends on axioms: [propext, Classical.choice, Quot.sound] 
'Direpack.C121_stale_violated' depends on axioms: [propext, Classical.choice, Quot.sound] 
'Direpack.C122_optimal' depends on axioms: [propext, Classical.choice, Quot.sound] 
'Direpack.C122_order_partial' depends on axioms: [propext, Classical.choice, Quot.sound] 
'Direpack.C122_few_slices_violated' depends on axioms: [propext, Classical.choice, Quot.sound] 
'Direpack.C123_response' depends on axioms: [propext, Classical.choice, Quot.sound] 
'Direpack.C124_scores' depends on axioms: [propext, Classical.choice, Quot.sound] 
'Direpack.C124_predict' depends on axioms: [propext, Classical.choice, Quot.sound] 
'Direpack.C124_optimal' depends on axioms: [propext, Classical.choice, Quot.sound] 
'Direpack.C125_order' depends on axioms: [propext, Classical.choice, Quot.sound] 
'Direpack.C125_order_alone' depends on axioms: [propext, Classical.choice, Quot.sound] 
'Direpack.C126_pca' depends on axioms: [propext, Classical.choice, Quot.sound] 
'Direpack.C127_pls' depends on axioms: [propext, Classical.choice, Quot.sound] 
'Direpack.C128_rm_run' depends on axioms: [propext, Classical.choice, Quot.sound] 
'Direpack.C128_sprm_run' depends on axioms: [propext, Classical.choice, Quot.sound] 
'Direpack.C129_grid_partial' depends on axioms: [propext, Classical.choice, Quot.sound] 
'Direpack.C129_grid_one_block_partial' depends on axioms: [propext, Classical.choice, Quot.sound] 
'Direpack.C129_nonneg_partial' depends on axioms: [propext, Classical.choice, Quot.sound] 
'Direpack.C129_reported_optimum' depends on axioms: [propext, Classical.choice, Quot.sound] 
'Direpack.C129_optimiser_violated' depends on axioms: [propext, Classical.choice, Quot.sound] 
'Direpack.C130_coords_partial' depends on axioms: [propext, Classical.choice, Quot.sound] 
'Direpack.C130_coords_iff' depends on axioms: [propext, Classical.choice, Quot.sound] 
'Direpack.C130_value_partial' depends on axioms: [propext, Classical.choice, Quot.sound] 
'Direpack.C130_many_cases_violated' depends on axioms: [propext, Classical.choice, Quot.sound] 
'Direpack.C130_objective_violated' depends on axioms: [propext, Classical.choice, Quot.sound] 
'Direpack.C130_fit_violated' depends on axioms: [propext, Classical.choice, Quot.sound] 
'Direpack.C131_save_optimal' depends on axioms: [propext, Classical.choice, Quot.sound] 
'Direpack.C132_dr_corrected' depends on axioms: [propext, Classical.choice, Quot.sound] 
'Direpack.C132_dr_optimal_partial' depends on axioms: [propext, Classical.choice, Quot.sound] 
'Direpack.C132_dr_optimal_violated' depends on axioms: [propext, Classical.choice, Quot.sound] 
'Direpack.C133_phd_signed' depends on axioms: [propext, Classical.choice, Quot.sound] 
'Direpack.C133_phd_strength_partial' depends on axioms: [propext, Classical.choice, Quot.sound] 
'Direpack.C133_phd_strength_violated' depends on axioms: [propext, Classical.choice, Quot.sound] 
'Direpack.C134_iht_space_partial' depends on axioms: [propext, Classical.choice, Quot.sound] 
'Direpack.C134_iht_space_violated' depends on axioms: [propext, Classical.choice, Quot.sound] 
'Direpack.C134_unscaled_partial' depends on axioms: [propext, Classical.choice, Quot.sound] 
'Direpack.C135_rm_partial' depends on axioms: [propext, Classical.choice, Quot.sound] 
'Direpack.C135_sprm_partial' depends on axioms: [propext, Classical.choice, Quot.sound] 
'Direpack.C135_snipls_partial' depends on axioms: [propext, Classical.choice, Quot.sound] 
'Direpack.C135_ppdire_partial' depends on axioms: [propext, Classical.choice, Quot.sound] 
'Direpack.C135_ppdire_one_block_partial' depends on axioms: [propext, Classical.choice, Quot.sound] 
'Direpack.C135_sudire_partial' depends on axioms: [propext, Classical.choice, Quot.sound] 
'Direpack.C135_snipls_set_violated' depends on axioms: [propext, Classical.choice, Quot.sound] 
'Direpack.C136_ppdire_partial' depends on axioms: [propext, Classical.choice, Quot.sound] 
'Direpack.C136_snipls_partial' depends on axioms: [propext, Classical.choice, Quot.sound] 
'Direpack.C136_rm_partial' depends on axioms: [propext, Classical.choice, Quot.sound] 
'Direpack.C136_sprm_partial' depends on axioms: [propext, Classical.choice, Quot.sound] 
'Direpack.C136_sudire_partial' depends on axioms: [propext, Classical.choice, Quot.sound] 
'Direpack.C136_sudire_violated' depends on axioms: [propext, Classical.choice, Quot.sound] 
'Direpack.C137_ppdire_partial' depends on axioms: [propext, Classical.choice, Quot.sound] 
'Direpack.C137_ppdire_h_violated' depends on axioms: [propext, Classical.choice, Quot.sound] 
'Direpack.C137_ppdire_whiten_violated' depends on axioms: [propext, Classical.choice, Quot.sound] 
'Direpack.C137_unchanged_partial' depends on axioms: [propext, Classical.choice, Quot.sound] 
'Direpack.C137_whiten_violated' depends on axioms: [propext, Classical.choice, Quot.sound] 
'Direpack.C137_solver_violated' depends on axioms: [propext, Classical.choice, Quot.sound] 
'Direpack.C138_last_fit_partial' depends on axioms: [propext, Quot.sound] 
'Direpack.C138_last_fit' depends on axioms: [propext, Classical.choice, Quot.sound] 
'Direpack.C138_transform' depends on axioms: [propext, Quot.sound] 
'Direpack.C138_mixed_violated' depends on axioms: [propext, Classical.choice, Quot.sound] 
'Direpack.C138_fit_transform' depends on axioms: [propext, Quot.sound] 
'Direpack.C138_returns' depends on axioms: [propext, Classical.choice, Quot.sound] 
'Direpack.C138_stored' depends on axioms: [propext, Quot.sound] 
'Direpack.C139_inverse_partial' depends on axioms: [propext, Quot.sound] 
'Direpack.C139_refit_violated' depends on axioms: [propext, Classical.choice, Quot.sound] 
'Direpack.C140_snipls' depends on axioms: [propext, Classical.choice, Quot.sound] 
'Direpack.C140_ppdire' depends on axioms: [propext, Classical.choice, Quot.sound] 
'Direpack.C140_one_block' depends on axioms: [propext, Classical.choice, Quot.sound] 
'Direpack.C140_last_column' depends on axioms: [propext, Classical.choice, Quot.sound] 
'Direpack.C140_sudire' depends on axioms: [propext, Classical.choice, Quot.sound] 
'Direpack.C141_snipls' depends on axioms: [propext, Classical.choice, Quot.sound] 
'Direpack.C141_ppdire' depends on axioms: [propext, Classical.choice, Quot.sound] 
'Direpack.C141_sudire' depends on axioms: [propext, Classical.choice, Quot.sound] 
'Direpack.C142_snipls_partial' depends on axioms: [propext, Classical.choice, Quot.sound] 
'Direpack.C142_snipls_violated' depends on axioms: [propext, Classical.choice, Quot.sound] 
'Direpack.C142_ppdire_partial' depends on axioms: [propext, Classical.choice, Quot.sound] 
'Direpack.C142_sudire' depends on axioms: [propext, Classical.choice, Quot.sound] 
'Direpack.C142_rm_violated' depends on axioms: [propext, Classical.choice, Quot.sound] 
'Direpack.C142_rm_mean_violated' depends on axioms: [propext, Classical.choice, Quot.sound] 
'Direpack.C142_rm_median_violated' depends on axioms: [propext, Classical.choice, Quot.sound] 
'Direpack.C143_snipls_predict' depends on axioms: [propext, Classical.choice, Quot.sound] 
'Direpack.C143_snipls_transform' depends on axioms: [propext, Classical.choice, Quot.sound] 
'Direpack.C143_rm_predict' depends on axioms: [propext, Classical.choice, Quot.sound] 
'Direpack.C143_sprm_predict' depends on axioms: [propext, Classical.choice, Quot.sound] 
'Direpack.C143_sprm_transform' depends on axioms: [propext, Classical.choice, Quot.sound] 
'Direpack.C143_sprm_weights_violated' depends on axioms: [propext, Classical.choice, Quot.sound] 
'Direpack.C143_ppdire_predict_partial' depends on axioms: [propext, Classical.choice, Quot.sound] 
'Direpack.C143_ppdire_transform_partial' depends on axioms: [propext, Classical.choice, Quot.sound] 
'Direpack.C143_ppdire_uncentred_violated' depends on axioms: [propext, Classical.choice, Quot.sound] 
'Direpack.C143_ppdire_compression_violated' depends on axioms: [propext, Classical.choice, Quot.sound] 
'Direpack.C143_sudire_transform' depends on axioms: [propext, Classical.choice, Quot.sound] 
'Direpack.C143_sudire_predict_violated' depends on axioms: [propext, Classical.choice, Quot.sound] 
'Direpack.C144_dvar_zero' depends on axioms: [propext, Classical.choice, Quot.sound] 
'Direpack.C144_dcorr_one' depends on axioms: [propext, Classical.choice, Quot.sound] 
'Direpack.C144_dcorr_one_linear' depends on axioms: [propext, Classical.choice, Quot.sound] 
'Direpack.C145_rm_model_iff' depends on axioms: [propext, Classical.choice, Quot.sound] 
'Direpack.C146_rm_influence_partial' depends on axioms: [propext, Classical.choice, Quot.sound] 
'Direpack.C146_rm_influence_violated' depends on axioms: [propext, Classical.choice, Quot.sound] 
'Direpack.C146_rm_rejected_violated' depends on axioms: [propext, Classical.choice, Quot.sound] 
'Direpack.C147_optimised_data_partial' depends on axioms: [propext, Classical.choice, Quot.sound] 
'Direpack.C147_mean_violated' depends on axioms: [propext, Classical.choice, Quot.sound] 
'Direpack.C147_scaled_violated' depends on axioms: [propext, Classical.choice, Quot.sound] 
'Direpack.C148_l1median' depends on axioms: [propext, Classical.choice, Quot.sound] 
'Direpack.C148_kstepLTS' depends on axioms: [propext, Classical.choice, Quot.sound] 
'Direpack.C148_scaleTau2' depends on axioms: [propext, Classical.choice, Quot.sound] 
'Direpack.C149_direction_partial' depends on axioms: [propext, Classical.choice, Quot.sound] 
'Direpack.C149_first' depends on axioms: [propext, Classical.choice, Quot.sound] 
'Direpack.C149_pls' depends on axioms: [propext, Classical.choice, Quot.sound] 
'Direpack.C149_dropped_violated' depends on axioms: [propext, Classical.choice, Quot.sound] 
'Direpack.C150_counts_partial' depends on axioms: [propext, Classical.choice, Quot.sound] 
'Direpack.C150_together_partial' depends on axioms: [propext, Classical.choice, Quot.sound] 
'Direpack.C150_together_violated' depends on axioms: [propext, Classical.choice, Quot.sound] 
'Direpack.C150_approx_violated' depends on axioms: [propext, Classical.choice, Quot.sound] 
'Direpack.C150_shape' depends on axioms: [propext, Classical.choice, Quot.sound] 
'Direpack.C151_rm' depends on axioms: [propext, Classical.choice, Quot.sound] 
'Direpack.C151_rm_ols' depends on axioms: [propext, Classical.choice, Quot.sound] 
'Direpack.C151_sprm' depends on axioms: [propext, Classical.choice, Quot.sound] 
'Direpack.C151_sprm_fits' depends on axioms: [propext, Classical.choice, Quot.sound] 
'Direpack.C152_scaled' depends on axioms: [propext, Classical.choice, Quot.sound] 
'Direpack.C152_all_components' depends on axioms: [propext, Classical.choice, Quot.sound] 
'Direpack.C152_at_most_rank' depends on axioms: [propext, Classical.choice, Quot.sound] 
'Direpack.C152_ols' depends on axioms: [propext, Classical.choice, Quot.sound] 
'Direpack.C153_white_partial' depends on axioms: [propext, Classical.choice, Quot.sound] 
'Direpack.C153_unit_variance_violated' depends on axioms: [propext, Classical.choice, Quot.sound] 
'Direpack.C154_symmetric_mom' depends on axioms: [propext, Classical.choice, Quot.sound] 
'Direpack.C154_symmetric_skew' depends on axioms: [propext, Classical.choice, Quot.sound] 
'Direpack.C154_symmetric_com' depends on axioms: [propext, Classical.choice, Quot.sound] 
'Direpack.C154_symmetric_cos' depends on axioms: [propext, Classical.choice, Quot.sound] 
'Direpack.C154_kurt_skew' depends on axioms: [propext, Classical.choice, Quot.sound] 
'Direpack.C154_median_violated' depends on axioms: [propext, Classical.choice, Quot.sound] 
'Direpack.C155_value_partial' depends on axioms: [propext, Classical.choice, Quot.sound] 
'Direpack.C155_refit_violated' depends on axioms: [propext, Classical.choice, Quot.sound] 
'Direpack.C155_first' depends on axioms: [propext, Classical.choice, Quot.sound] 
'Direpack.C155_new' depends on axioms: [propext, Classical.choice, Quot.sound] 
'Direpack.C155_twice_violated' depends on axioms: [propext, Classical.choice, Quot.sound] 
'Direpack.C156_complete' depends on axioms: [propext, Classical.choice, Quot.sound] 
'Direpack.C156_blank_case' depends on axioms: [propext, Classical.choice, Quot.sound] 
'Direpack.C156_unlabelled_violated' depends on axioms: [propext, Classical.choice, Quot.sound] 
'Direpack.C157_coef_partial' depends on axioms: [propext, Classical.choice, Quot.sound] 
'Direpack.C157_fitted_partial' depends on axioms: [propext, Classical.choice, Quot.sound] 
'Direpack.C157_shift_violated' depends on axioms: [propext, Classical.choice, Quot.sound] 
'Direpack.C158_predict_partial' depends on axioms: [propext, Classical.choice, Quot.sound] 
'Direpack.C158_missing_violated' depends on axioms: [propext, Classical.choice, Quot.sound] 
'Direpack.C159_return_partial' depends on axioms: [propext, Classical.choice, Quot.sound] 
'Direpack.C159_return_violated' depends on axioms: [propext, Classical.choice, Quot.sound] 
'Direpack.C160_weights' depends on axioms: [propext, Classical.choice, Quot.sound] 
'Direpack.C160_pls' depends on axioms: [propext, Classical.choice, Quot.sound] 
'Direpack.C160_total' depends on axioms: [propext, Classical.choice, Quot.sound] 
'Direpack.C160_uncorrelated' depends on axioms: [propext, Classical.choice, Quot.sound] 
'Direpack.C161_rm_scaled' depends on axioms: [propext, Classical.choice, Quot.sound] 
'Direpack.C161_rm_partial' depends on axioms: [propext, Classical.choice, Quot.sound] 
'Direpack.C161_rm_violated' depends on axioms: [propext, Classical.choice, Quot.sound] 
'Direpack.C161_sprm_partial' depends on axioms: [propext, Classical.choice, Quot.sound] 
'Direpack.C161_sprm_violated' depends on axioms: [propext, Classical.choice, Quot.sound] 
'Direpack.C162_rm_partial' depends on axioms: [propext, Classical.choice, Quot.sound] 
'Direpack.C162_rm_limit' depends on axioms: [propext, Classical.choice, Quot.sound] 
'Direpack.C162_rm_lower' depends on axioms: [propext, Classical.choice, Quot.sound] 
'Direpack.C162_rm_violated' depends on axioms: [propext, Classical.choice, Quot.sound] 
'Direpack.C162_rm_clean' depends on axioms: [propext, Classical.choice, Quot.sound] 
'Direpack.C162_sprm_partial' depends on axioms: [propext, Classical.choice, Quot.sound] 
'Direpack.C162_sprm_limit' depends on axioms: [propext, Classical.choice, Quot.sound] 
'Direpack.C162_sprm_lower' depends on axioms: [propext, Classical.choice, Quot.sound] 
'Direpack.C162_sprm_clean' depends on axioms: [propext, Classical.choice, Quot.sound] 
'Direpack.C163_dcov_zero' depends on axioms: [propext, Classical.choice, Quot.sound] 
'Direpack.C163_dcorr_zero' depends on axioms: [propext, Classical.choice, Quot.sound] 
'Direpack.C163_arithmetic' depends on axioms: [propext, Classical.choice, Quot.sound] 
'Direpack.C163_factorial' depends on axioms: [propext, Classical.choice, Quot.sound] 
'Direpack.C163_arithmetic_converse' depends on axioms: [propext, Classical.choice, Quot.sound] 
'Direpack.C164_mdd_zero' depends on axioms: [propext, Classical.choice, Quot.sound] 
'Direpack.C164_extremes' depends on axioms: [propext, Classical.choice, Quot.sound] 
'Direpack.C165_snipls' depends on axioms: [propext, Classical.choice, Quot.sound] 
'Direpack.C165_snipls_iff' depends on axioms: [propext, Classical.choice, Quot.sound] 
'Direpack.C165_dicomo_arithmetic' depends on axioms: [propext, Classical.choice, Quot.sound] 
'Direpack.C165_dicomo_distance' depends on axioms: [propext, Classical.choice, Quot.sound] 
'Direpack.C165_biascorr_violated' depends on axioms: [propext, Classical.choice, Quot.sound] 
'Direpack.C165_rm' depends on axioms: [propext, Classical.choice, Quot.sound] 
'Direpack.C165_snipls_outcome' depends on axioms: [propext, Classical.choice, Quot.sound] 
'Direpack.C165_sprm_partial' depends on axioms: [propext, Classical.choice, Quot.sound] 
'Direpack.C166_signs' depends on axioms: [propext, Classical.choice, Quot.sound] 
'Direpack.C166_mean' depends on axioms: [propext, Classical.choice, Quot.sound] 
'Direpack.C166_l1median' depends on axioms: [propext, Classical.choice, Quot.sound] 
'Direpack.C166_ltsStep' depends on axioms: [propext, Classical.choice, Quot.sound] 
'Direpack.C166_kstepLTS_partial' depends on axioms: [propext, Classical.choice, Quot.sound] 
'Direpack.C166_kstepLTS_violated' depends on axioms: [propext, Classical.choice, Quot.sound] 
'Direpack.C166_snipls' depends on axioms: [propext, Classical.choice, Quot.sound] 
'Direpack.C166_rm' depends on axioms: [propext, Classical.choice, Quot.sound] 
'Direpack.C166_sprm' depends on axioms: [propext, Classical.choice, Quot.sound] 
'Direpack.C166_median_violated' depends on axioms: [propext, Classical.choice, Quot.sound] 
'Direpack.C166_sparse_violated' depends on axioms: [propext, Classical.choice, Quot.sound] 
'Direpack.C167_exists' depends on axioms: [propext, Classical.choice, Quot.sound] 
'Direpack.C167_objective' depends on axioms: [propext, Classical.choice, Quot.sound] 
'Direpack.C167_unique' depends on axioms: [propext, Classical.choice, Quot.sound] 
'Direpack.C167_mixture' depends on axioms: [propext, Classical.choice, Quot.sound] 
'Direpack.C167_optimal_iff' depends on axioms: [propext, Classical.choice, Quot.sound] 
'Direpack.C167_gradient' depends on axioms: [propext, Classical.choice, Quot.sound] 
'Direpack.C167_follows' depends on axioms: [propext, Classical.choice, Quot.sound] 
'Direpack.C167_l1median' depends on axioms: [propext, Classical.choice, Quot.sound] 
'Direpack.C167_kstepLTS' depends on axioms: [propext, Classical.choice, Quot.sound] 
'Direpack.C167_signs' depends on axioms: [propext, Classical.choice, Quot.sound] 
'Direpack.C167_start_partial' depends on axioms: [propext, Classical.choice, Quot.sound] 
'Direpack.C167_start_violated' depends on axioms: [propext, Classical.choice, Quot.sound] 
'Direpack.C168_idempotent_partial' depends on axioms: [propext, Classical.choice, Quot.sound] 
'Direpack.C168_l1median_violated' depends on axioms: [propext, Classical.choice, Quot.sound] 
'Direpack.C169_snipls_partial' depends on axioms: [propext, Classical.choice, Quot.sound] 
'Direpack.C169_snipls_violated' depends on axioms: [propext, Classical.choice, Quot.sound] 
'Direpack.C169_rm_partial' depends on axioms: [propext, Classical.choice, Quot.sound] 
'Direpack.C169_rm_violated' depends on axioms: [propext, Classical.choice, Quot.sound] 
'Direpack.C169_distance' depends on axioms: [propext, Classical.choice, Quot.sound] 
'Direpack.C169_signs_partial' depends on axioms: [propext, Classical.choice, Quot.sound] 
'Direpack.C169_signs_violated' depends on axioms: [propext, Classical.choice, Quot.sound] 
'Direpack.C169_median' depends on axioms: [propext, Classical.choice, Quot.sound] 
'Direpack.C169_scaled_violated' depends on axioms: [propext, Classical.choice, Quot.sound] 
'Direpack.C170_order' depends on axioms: [propext, Classical.choice, Quot.sound] 
'Direpack.C170_copies' depends on axioms: [propext, Classical.choice, Quot.sound] 
'Direpack.C170_copies_distance' depends on axioms: [propext, Classical.choice, Quot.sound] 
'Direpack.C170_origin' depends on axioms: [propext, Classical.choice, Quot.sound] 
'Direpack.C170_axes' depends on axioms: [propext, Classical.choice, Quot.sound] 
'Direpack.C170_units_partial' depends on axioms: [propext, Classical.choice, Quot.sound] 
'Direpack.C170_units_violated' depends on axioms: [propext, Classical.choice, Quot.sound] 
'Direpack.C171_arguments_partial' depends on axioms: [propext, Classical.choice, Quot.sound] 
'Direpack.C171_second_order' depends on axioms: [propext, Classical.choice, Quot.sound] 
'Direpack.C171_option_violated' depends on axioms: [propext, Classical.choice, Quot.sound] 
'Direpack.C171_order_violated' depends on axioms: [propext, Classical.choice, Quot.sound] 
'Direpack.C171_metric_violated' depends on axioms: [propext, Classical.choice, Quot.sound] 
'Direpack.C171_default_violated' depends on axioms: [propext, Classical.choice, Quot.sound] 
'Direpack.C172_snipls_partial' depends on axioms: [propext, Classical.choice, Quot.sound] 
'Direpack.C172_rm_partial' depends on axioms: [propext, Classical.choice, Quot.sound] 
'Direpack.C172_snipls_violated' depends on axioms: [propext, Classical.choice, Quot.sound] 
'Direpack.C172_rm_violated' depends on axioms: [propext, Classical.choice, Quot.sound] 
'Direpack.C173_arithmetic' depends on axioms: [propext, Classical.choice, Quot.sound] 
'Direpack.C173_values' depends on axioms: [propext, Classical.choice, Quot.sound] 
'Direpack.C173_median' depends on axioms: [propext, Classical.choice, Quot.sound] 
'Direpack.C173_distance_partial' depends on axioms: [propext, Classical.choice, Quot.sound] 
'Direpack.C173_distance_violated' depends on axioms: [propext, Classical.choice, Quot.sound] 
'Direpack.C174_save_sir_partial' depends on axioms: [propext, Classical.choice, Quot.sound] 
'Direpack.C174_save_sir_violated' depends on axioms: [propext, Classical.choice, Quot.sound] 
'Direpack.C175_plane_partial' depends on axioms: [propext, Classical.choice, Quot.sound] 
'Direpack.C175_index' depends on axioms: [propext, Classical.choice, Quot.sound] 
'Direpack.C175_first_plane_partial' depends on axioms: [propext, Classical.choice, Quot.sound] 
'Direpack.C175_space_violated' depends on axioms: [propext, Classical.choice, Quot.sound] 
'Direpack.C176_dr_optimal' depends on axioms: [propext, Classical.choice, Quot.sound] 
'Direpack.C176_dr_sir' depends on axioms: [propext, Classical.choice, Quot.sound] 
'Direpack.C177_snipls_partial' depends on axioms: [propext, Classical.choice, Quot.sound] 
'Direpack.C177_rm_partial' depends on axioms: [propext, Classical.choice, Quot.sound] 
'Direpack.C177_sprm_partial' depends on axioms: [propext, Classical.choice, Quot.sound] 
'Direpack.C177_sprm_units_partial' depends on axioms: [propext, Classical.choice, Quot.sound] 
'Direpack.C177_grid_violated' depends on axioms: [propext, Classical.choice, Quot.sound] 
'Direpack.C178_snipls' depends on axioms: [propext, Classical.choice, Quot.sound] 
'Direpack.C178_sprm' depends on axioms: [propext, Classical.choice, Quot.sound] 
'Direpack.C178_rm_partial' depends on axioms: [propext, Classical.choice, Quot.sound] 
'Direpack.C178_ppdire' depends on axioms: [propext, Classical.choice, Quot.sound] 
'Direpack.C178_rm_violated' depends on axioms: [propext, Classical.choice, Quot.sound] 
'Direpack.C179_snipls_partial' depends on axioms: [propext, Classical.choice, Quot.sound] 
'Direpack.C179_median_violated' depends on axioms: [propext, Classical.choice, Quot.sound] 
'Direpack.C180_mdd_subsamples' depends on axioms: [propext, Classical.choice, Quot.sound] 
'Direpack.C180_mdd_pairings' depends on axioms: [propext, Classical.choice, Quot.sound] 
'Direpack.C180_dcov_subsamples_partial' depends on axioms: [propext, Classical.choice, Quot.sound] 
'Direpack.C180_dcov_fast_violated' depends on axioms: [propext, Classical.choice, Quot.sound] 
'Direpack.C180_dcov_naive_violated' depends on axioms: [propext, Classical.choice, Quot.sound] 
'Direpack.C180_dcov_violated' depends on axioms: [propext, Classical.choice, Quot.sound] 
'Direpack.C181_refit' depends on axioms: [propext, Classical.choice, Quot.sound] 
'Direpack.C181_new_cases' depends on axioms: [propext, Classical.choice, Quot.sound] 
'Direpack.C182_fisher' depends on axioms: [propext, Classical.choice, Quot.sound] 
'Direpack.C183_grows' depends on axioms: [propext, Classical.choice, Quot.sound] 
'Direpack.C183_least_squares' depends on axioms: [propext, Classical.choice, Quot.sound] 
'Direpack.C184_count' depends on axioms: [propext, Classical.choice, Quot.sound] 
'Direpack.C184_complete' depends on axioms: [propext, Classical.choice, Quot.sound] 
'Direpack.C184_space' depends on axioms: [propext, Classical.choice, Quot.sound] 
'Direpack.C184_two_groups' depends on axioms: [propext, Classical.choice, Quot.sound] 
'Direpack.C185_ols' depends on axioms: [propext, Classical.choice, Quot.sound] 
'Direpack.C186_ppdire' depends on axioms: [propext, Classical.choice, Quot.sound] 
'Direpack.C186_ppdire_parts' depends on axioms: [propext, Classical.choice, Quot.sound] 
'Direpack.C186_ppdire_full' depends on axioms: [propext, Classical.choice, Quot.sound] 
'Direpack.C186_ppdire_one_block' depends on axioms: [propext, Classical.choice, Quot.sound] 
'Direpack.C186_snipls_partial' depends on axioms: [propext, Classical.choice, Quot.sound] 
'Direpack.C186_snipls_full_partial' depends on axioms: [propext, Classical.choice, Quot.sound] 
'Direpack.C186_snipls_violated' depends on axioms: [propext, Classical.choice, Quot.sound] 
'Direpack.C187_unique' depends on axioms: [propext, Classical.choice, Quot.sound] 
'Direpack.C187_ppdire' depends on axioms: [propext, Classical.choice, Quot.sound] 
'Direpack.C187_sudire' depends on axioms: [propext, Classical.choice, Quot.sound] 
'Direpack.C187_snipls' depends on axioms: [propext, Classical.choice, Quot.sound] 
'Direpack.C188_best' depends on axioms: [propext, Classical.choice, Quot.sound] 
'Direpack.C188_variance' depends on axioms: [propext, Classical.choice, Quot.sound] 
'Direpack.C188_exists' depends on axioms: [propext, Classical.choice, Quot.sound] 
'Direpack.C189_sir' depends on axioms: [propext, Classical.choice, Quot.sound] 
'Direpack.C189_save' depends on axioms: [propext, Classical.choice, Quot.sound] 
'Direpack.C189_dr' depends on axioms: [propext, Classical.choice, Quot.sound] 
'Direpack.C189_phd' depends on axioms: [propext, Classical.choice, Quot.sound] 
'Direpack.C190_ppdire' depends on axioms: [propext, Classical.choice, Quot.sound] 
'Direpack.C190_snipls' depends on axioms: [propext, Classical.choice, Quot.sound] 
'Direpack.C190_sudire' depends on axioms: [propext, Classical.choice, Quot.sound] 
'Direpack.C191_refit' depends on axioms: [propext, Classical.choice, Quot.sound] 
'Direpack.C191_order' depends on axioms: [propext, Classical.choice, Quot.sound] 
'Direpack.C191_variable' depends on axioms: [propext, Classical.choice, Quot.sound] 
'Direpack.C191_resists' depends on axioms: [propext, Classical.choice, Quot.sound] 
'Direpack.C191_outlier' depends on axioms: [propext, Classical.choice, Quot.sound] 
'Direpack.C191_defined_partial' depends on axioms: [propext, Classical.choice, Quot.sound] 
'Direpack.C191_majority_violated' depends on axioms: [propext, Classical.choice, Quot.sound] 
'Direpack.C192_snipls_partial' depends on axioms: [propext, Classical.choice, Quot.sound] 
'Direpack.C192_rm_partial' depends on axioms: [propext, Classical.choice, Quot.sound] 
'Direpack.C192_sprm_partial' depends on axioms: [propext, Classical.choice, Quot.sound] 
'Direpack.C192_snipls_lost' depends on axioms: [propext, Classical.choice, Quot.sound] 
'Direpack.C192_rm_lost' depends on axioms: [propext, Classical.choice, Quot.sound] 
'Direpack.C192_sprm_lost' depends on axioms: [propext, Classical.choice, Quot.sound] 
'Direpack.C192_snipls_violated' depends on axioms: [propext, Classical.choice, Quot.sound] 
'Direpack.C192_rm_violated' depends on axioms: [propext, Classical.choice, Quot.sound] 
'Direpack.C192_sprm_violated' depends on axioms: [propext, Classical.choice, Quot.sound] 
'Direpack.C192_sprm_transform_violated' depends on axioms: [propext, Classical.choice, Quot.sound] 
'Direpack.C193_median' depends on axioms: [propext, Classical.choice, Quot.sound] 
'Direpack.C193_mean' depends on axioms: [propext, Classical.choice, Quot.sound] 
'Direpack.C193_mad' depends on axioms: [propext, Classical.choice, Quot.sound] 
'Direpack.C193_trimmed_mean' depends on axioms: [propext, Classical.choice, Quot.sound] 
'Direpack.C193_std' depends on axioms: [propext, Classical.choice, Quot.sound] 
'Direpack.C193_fit' depends on axioms: [propext, Classical.choice, Quot.sound] 
'Direpack.C193_standardised' depends on axioms: [propext, Classical.choice, Quot.sound] 
'Direpack.C194_fair' depends on axioms: [propext, Classical.choice, Quot.sound] 
'Direpack.C194_huber_partial' depends on axioms: [propext, Classical.choice, Quot.sound] 
'Direpack.C194_hampel_partial' depends on axioms: [propext, Classical.choice, Quot.sound] 
'Direpack.C194_huber_violated' depends on axioms: [propext, Classical.choice, Quot.sound] 
'Direpack.C195_std' depends on axioms: [propext, Classical.choice, Quot.sound] 
'Direpack.C195_cov' depends on axioms: [propext, Classical.choice, Quot.sound] 
'Direpack.C195_corr' depends on axioms: [propext, Classical.choice, Quot.sound] 
'Direpack.C195_distance_variance' depends on axioms: [propext, Classical.choice, Quot.sound] 
'Direpack.C195_distance_covariance' depends on axioms: [propext, Classical.choice, Quot.sound] 
'Direpack.C195_distance_correlation' depends on axioms: [propext, Classical.choice, Quot.sound] 
'Direpack.C195_mdd' depends on axioms: [propext, Classical.choice, Quot.sound] 
'Direpack.C196_snipls_partial' depends on axioms: [propext, Classical.choice, Quot.sound] 
'Direpack.C196_snipls_mean' depends on axioms: [propext, Classical.choice, Quot.sound] 
'Direpack.C196_snipls_median_violated' depends on axioms: [propext, Classical.choice, Quot.sound] 
'Direpack.C196_ppdire_partial' depends on axioms: [propext, Classical.choice, Quot.sound] 
'Direpack.C196_ppdire_quantile_violated' depends on axioms: [propext, Classical.choice, Quot.sound] 
'Direpack.C197_snipls' depends on axioms: [propext, Classical.choice, Quot.sound] 
'Direpack.C197_ppdire' depends on axioms: [propext, Classical.choice, Quot.sound] 
'Direpack.C197_sudire' depends on axioms: [propext, Classical.choice, Quot.sound] 
'Direpack.C198_snipls' depends on axioms: [propext, Classical.choice, Quot.sound] 
'Direpack.C198_ppdire' depends on axioms: [propext, Classical.choice, Quot.sound] 
'Direpack.C198_sudire_partial' depends on axioms: [propext, Classical.choice, Quot.sound] 
'Direpack.C198_sudire_violated' depends on axioms: [propext, Classical.choice, Quot.sound] 
'Direpack.C199_mean_median' depends on axioms: [propext, Classical.choice, Quot.sound] 
'Direpack.C199_mad_std' depends on axioms: [propext, Classical.choice, Quot.sound] 
'Direpack.C199_l1median' depends on axioms: [propext, Classical.choice, Quot.sound] 
'Direpack.C199_fit' depends on axioms: [propext, Classical.choice, Quot.sound] 
'Direpack.C199_standardised' depends on axioms: [propext, Classical.choice, Quot.sound] 
'Direpack.C200_scaled' depends on axioms: [propext, Classical.choice, Quot.sound] 
'Direpack.C200_axes' depends on axioms: [propext, Classical.choice, Quot.sound] 
'Direpack.C200_pcr' depends on axioms: [propext, Classical.choice, Quot.sound] 
'Direpack.C200_ppdire' depends on axioms: [propext, Classical.choice, Quot.sound] 