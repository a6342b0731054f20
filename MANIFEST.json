{
 "claims": [
  {
   "property": "C01",
   "status": "proved",
   "theorems": [
    "Direpack.C01_fair_range",
    "Direpack.C01_fair_eq_one_iff",
    "Direpack.C01_fair_antitone",
    "Direpack.C01_fair_strictAnti"
   ],
   "note": ""
  },
  {
   "property": "C02",
   "status": "partial",
   "theorems": [
    "Direpack.C02_huber_correct_partial",
    "Direpack.C02_huber_range_partial",
    "Direpack.C02_huber_small_cutoff",
    "Direpack.C02_huber_violated"
   ],
   "note": "Proved part: C02 (partial: the full claim is for every positive cutoff; it is proved for cutoffs at least 1 and refuted below 1 by `C02_huber_violated`). The Huber weights are the textbook ones (distances are nonnegative in RM and SPRM; a negative entry counts as inside). | C02 (partial, see above): weights in (0,1], and farther cases never get larger weights. The code does not have the full property: C02 violated: with cutoff 1/2 the case at distance 0, inside the cutoff, gets weight 1/2 instead of 1, and less than the case at distance 3/5, outside the cutoff."
  },
  {
   "property": "C03",
   "status": "partial",
   "theorems": [
    "Direpack.C03_hampel_correct_partial",
    "Direpack.C03_hampel_range_partial",
    "Direpack.C03_hampel_violated"
   ],
   "note": "Proved part: C03 (partial: the full claim is for all positive ordered cutoffs; proved for `1 \u2264 a`, refuted below by `C03_hampel_violated`). The Hampel weights are the textbook three-part ones (a negative entry counts as inside). | C03 (partial, see above): weights in [0,1], farther cases never get larger weights. The code does not have the full property: C03 violated: with cutoffs 1/2 < 3/4 < 9/10 a case at distance 0 gets weight 0, i.e. is discarded as an outlier, while the case at distance 3/5 keeps a positive weight."
  },
  {
   "property": "C04",
   "status": "proved",
   "theorems": [
    "Direpack.C04_brokenstick_pos",
    "Direpack.C04_brokenstick_strictAnti",
    "Direpack.C04_brokenstick_sum",
    "Direpack.C04_relcomp_total",
    "Direpack.C04_sprm_start"
   ],
   "note": ""
  },
  {
   "property": "C05",
   "status": "proved",
   "theorems": [
    "Direpack.C05_median_affine",
    "Direpack.C05_median_perm",
    "Direpack.C05_median_between",
    "Direpack.C05_median_splits"
   ],
   "note": ""
  },
  {
   "property": "C06",
   "status": "proved",
   "theorems": [
    "Direpack.C06_median_breakdown",
    "Direpack.C06_mad_breakdown"
   ],
   "note": ""
  },
  {
   "property": "C07",
   "status": "proved",
   "theorems": [
    "Direpack.C07_mad_affine",
    "Direpack.C07_mad_nonneg",
    "Direpack.C07_mad_perm",
    "Direpack.C07_mad_zero_iff",
    "Direpack.C07_mad_value"
   ],
   "note": ""
  },
  {
   "property": "C08",
   "status": "proved",
   "theorems": [
    "Direpack.C08_fit_transform",
    "Direpack.C08_standardised",
    "Direpack.C08_entries"
   ],
   "note": ""
  },
  {
   "property": "C09",
   "status": "partial",
   "theorems": [
    "Direpack.C09_no_scale",
    "Direpack.C09_roundtrip_partial",
    "Direpack.C09_roundtrip_violated",
    "Direpack.C09_roundtrip_one_row_violated"
   ],
   "note": "Proved part: C09 (partial). Full claim: `inverse_transform(transform(X)) = X` for every `X` with the training number of columns. Proved: for every `X` with at least two rows, provided that in each column whose estimated scale is zero all entries of `X` equal the estimated location. Refuted otherwise: `C09_roundtrip_violated` and `C09_roundtrip_one_row_violated`. The code does not have the full property: C09 violated: MAD scaling of `exX`; the value 5 in the first column comes back as 1. | C09 violated for one-row matrices: the row `(1, 2)` comes back as a 2 \u00d7 2 matrix."
  },
  {
   "property": "C10",
   "status": "partial",
   "theorems": [
    "Direpack.C10_rowwise_partial",
    "Direpack.C10_one_row_violated"
   ],
   "note": "Proved part: C10 (partial). Full claim: each row of `transform(X)` depends only on the same row of `X`, for every `X` with the training number of columns. Proved for `X` with at least two rows: entry `(i,j)` is the standardised entry `(i,j)` whatever the other rows are. Refuted for one-row matrices: `C10_one_row_violated`. The code does not have the full property: C10 violated: the case `(6, 6)` standardised on its own gives a column `(5, 5)` computed with the location and scale of the *first* variable only; as part of a larger matrix it gives `(5, 2)`."
  },
  {
   "property": "C11",
   "status": "proved",
   "theorems": [
    "Direpack.C11_trim_zero",
    "Direpack.C11_checkTrimming",
    "Direpack.C11_trim_value",
    "Direpack.C11_trim_defined_iff",
    "Direpack.C11_trim_affine",
    "Direpack.C11_fit_rejects"
   ],
   "note": ""
  },
  {
   "property": "C12",
   "status": "proved",
   "theorems": [
    "Direpack.C12_median_missing",
    "Direpack.C12_mean_missing",
    "Direpack.C12_std_missing",
    "Direpack.C12_mad_missing",
    "Direpack.C12_complete_column"
   ],
   "note": ""
  },
  {
   "property": "C13",
   "status": "proved",
   "theorems": [
    "Direpack.C13_median_minimises",
    "Direpack.C13_l1median_optimal",
    "Direpack.C13_l1median_start",
    "Direpack.C13_l1median_subgradient",
    "Direpack.C13_l1median_objective",
    "Direpack.C13_l1median_global",
    "Direpack.C13_l1median_univariate"
   ],
   "note": ""
  },
  {
   "property": "C14",
   "status": "partial",
   "theorems": [
    "Direpack.C14_lts_bounded",
    "Direpack.C14_lts_step",
    "Direpack.C14_lts_result",
    "Direpack.C14_lts_stops",
    "Direpack.C14_lts_objective_partial",
    "Direpack.C14_lts_objective_violated"
   ],
   "note": "Proved part: C14, partial: when there are no ties at the cut-off distance (exactly `h = \u230a(n+1)/2\u230b` cases are kept), a concentration step does not increase the sum of the `h` smallest squared distances. Missing: the case of ties, where the claim is false (`C14_lts_objective_violated`). The code does not have the full property: C14, violated for tied distances: starting at the median of `ltsTies` the sum of the `h = 12` smallest squared distances is 1, and after one concentration step it exceeds 1."
  },
  {
   "property": "C15",
   "status": "proved",
   "theorems": [
    "Direpack.C15_tau_zero_mad",
    "Direpack.C15_tau_nonneg",
    "Direpack.C15_tau_perm",
    "Direpack.C15_tau_affine"
   ],
   "note": ""
  },
  {
   "property": "C16",
   "status": "partial",
   "theorems": [
    "Direpack.C16_tau_common_factor_partial",
    "Direpack.C16_tau_columnwise_violated"
   ],
   "note": "Proved part: C16, partial: within one call all columns get the same multiple of their MAD. Missing: that this multiple is the one the column would get on its own, which is false (`C16_tau_columnwise_violated`). The code does not have the full property: C16, violated: the tau scale of a column of a matrix differs from the tau scale of that column on its own, for every positive value of the consistency denominator."
  },
  {
   "property": "C17",
   "status": "proved",
   "theorems": [
    "Direpack.C17_wrap_tail",
    "Direpack.C17_wrap_centre",
    "Direpack.C17_wrap_bounded",
    "Direpack.C17_wrap_side",
    "Direpack.C17_wrap_affine"
   ],
   "note": ""
  },
  {
   "property": "C18",
   "status": "partial",
   "theorems": [
    "Direpack.C18_wrapper_train_partial",
    "Direpack.C18_wrapper_predict_violated"
   ],
   "note": "Proved part: C18, partial: on data with the training columns the wrapping is the one with the location and scale of the training data. Missing: new data, for which the claim is false (`C18_wrapper_predict_violated`). The code does not have the full property: C18, violated: the result does not depend on the training data at all; the same new case is returned unchanged in one batch and moved to another value in another batch; and a new case on its own gives NaN."
  },
  {
   "property": "C19",
   "status": "proved",
   "theorems": [
    "Direpack.C19_gss_weights",
    "Direpack.C19_ss_weights"
   ],
   "note": ""
  },
  {
   "property": "C20",
   "status": "proved",
   "theorems": [
    "Direpack.C20_gss_centre_kept"
   ],
   "note": ""
  },
  {
   "property": "C21",
   "status": "proved",
   "theorems": [
    "Direpack.C21_gss_bounded",
    "Direpack.C21_ss_bounded",
    "Direpack.C21_lr_bounded"
   ],
   "note": ""
  },
  {
   "property": "C22",
   "status": "proved",
   "theorems": [
    "Direpack.C22_gss_perm",
    "Direpack.C22_gss_scale",
    "Direpack.C22_ss_scale"
   ],
   "note": ""
  },
  {
   "property": "C23",
   "status": "proved",
   "theorems": [
    "Direpack.C23_gss_defined",
    "Direpack.C23_gss_quantile",
    "Direpack.C23_ss_defined"
   ],
   "note": ""
  },
  {
   "property": "C24",
   "status": "partial",
   "theorems": [
    "Direpack.C24_fit_transform_partial",
    "Direpack.C24_transform_violated"
   ],
   "note": "Proved part: C24, partial: `fit_transform(X)`, and `transform(X)` on the training data, are the sign transform of the centred data. Missing: `transform` of other data (`C24_transform_violated`). The code does not have the full property: C24, violated: a fitted pre-processor returns the same matrix whatever it is given; in particular a new case is returned as the training case."
  },
  {
   "property": "C25",
   "status": "partial",
   "theorems": [
    "Direpack.C25_covmat_partial",
    "Direpack.C25_covmat_violated",
    "Direpack.C25_covmat_square_violated"
   ],
   "note": "Proved part: C25, partial: whatever `gen_ss_covmat` returns is symmetric, and for one case of one variable it is the cross product of the transformed cases divided by their number. Missing: everything else, where the code fails or returns something different (`C25_covmat_violated`, `C25_covmat_square_violated`). The code does not have the full property: C25, violated: whenever there are at least two variables and the number of cases is neither one nor the number of variables, the call fails with a `ValueError`; for a single variable the result has one row and column per case instead of one per variable. | C25, violated also for as many cases as variables: the two centred cases (0,1) and (1,0), left alone by `winsor`, have cross product matrix 1/2 times the identity; the code returns the matrix with zero diagonal and 1/2 off the diagonal, which is not even positive semidefinite."
  },
  {
   "property": "C26",
   "status": "partial",
   "theorems": [
    "Direpack.C26_shift_partial",
    "Direpack.C26_scale_mom_partial",
    "Direpack.C26_scale_com_partial",
    "Direpack.C26_median_violated"
   ],
   "note": "Proved part: C26 (partial): every arithmetic statistic of order at least 2, of any mode, with any trimming, bias correction and options, is unchanged when constants are added to the variables. With median centring this is proved under the condition that the shift does not turn two different columns into equal ones or conversely. | C26 (partial): with mean centring, moments of order `k \u2265 2` are homogeneous of degree `k` (the variance of degree 2); any trimming, bias correction and admissible option. | C26 (partial): with mean centring, the co-moment of order `k` in which `y` enters with power `option` and `x` with power `k - option` (both with power 1 for the covariance) scales accordingly. The code does not have the full property: C26 fails with median centring: the \"variance\" of `2x` is twice that of `x` (it is a MAD, not a variance), and shifting `y` so that it coincides with `x` changes their covariance from 1 to 1.4826."
  },
  {
   "property": "C27",
   "status": "proved",
   "theorems": [
    "Direpack.C27_cov_self",
    "Direpack.C27_var_nonneg",
    "Direpack.C27_cov_symm",
    "Direpack.C27_cov_additive"
   ],
   "note": ""
  },
  {
   "property": "C28",
   "status": "proved",
   "theorems": [
    "Direpack.C28_corr_range",
    "Direpack.C28_corr_scale"
   ],
   "note": ""
  },
  {
   "property": "C29",
   "status": "partial",
   "theorems": [
    "Direpack.C29_median_corr_scale_partial",
    "Direpack.C29_median_corr_violated"
   ],
   "note": "Proved part: C29 (partial): what is true of the median correlation: rescaling by positive constants `r`, `r'` multiplies it by `\u221a(r r')`; it is unchanged only if `r r' = 1`. (Columns that do not coincide before or after the rescaling.) The code does not have the full property: C29 fails: multiplying `x` by 4 doubles the median correlation of these two columns, from 1/1.4826 to 2/1.4826, which is not even in [-1,1]."
  },
  {
   "property": "C30",
   "status": "partial",
   "theorems": [
    "Direpack.C30_cos_self",
    "Direpack.C30_cok_self_partial",
    "Direpack.C30_cok_fisher_violated",
    "Direpack.C30_skew_kurt_invariant",
    "Direpack.C30_cos_cok_invariant"
   ],
   "note": "Proved part: C30 (partial): the co-kurtosis of a column with itself is its kurtosis, for the default `Fisher=True`: every option 0..4, every admissible trimming; no bias correction. The code does not have the full property: C30 fails with `Fisher=False` (no bias correction): for every column the co-kurtosis with itself is then 3 more than the kurtosis, which ignores the flag."
  },
  {
   "property": "C31",
   "status": "proved",
   "theorems": [
    "Direpack.C31_var_cov_corrected",
    "Direpack.C31_var_cov_uncorrected",
    "Direpack.C31_skew_corrected",
    "Direpack.C31_kurt_corrected",
    "Direpack.C31_var_cov_trimmed"
   ],
   "note": ""
  },
  {
   "property": "C32",
   "status": "proved",
   "theorems": [
    "Direpack.C32_continuum_value",
    "Direpack.C32_continuum_alpha_one",
    "Direpack.C32_continuum_homogeneous"
   ],
   "note": ""
  },
  {
   "property": "C33",
   "status": "proved",
   "theorems": [
    "Direpack.C33_double_centred",
    "Direpack.C33_u_centred",
    "Direpack.C33_symmetric",
    "Direpack.C33_trimmed_value"
   ],
   "note": ""
  },
  {
   "property": "C34",
   "status": "proved",
   "theorems": [
    "Direpack.C34_dcov_nonneg",
    "Direpack.C34_dcorr_range",
    "Direpack.C34_dcorr_self"
   ],
   "note": ""
  },
  {
   "property": "C35",
   "status": "proved",
   "theorems": [
    "Direpack.C35_rigid_motion",
    "Direpack.C35_permutation",
    "Direpack.C35_scale",
    "Direpack.C35_rigid_motion_any",
    "Direpack.C35_permutation_any",
    "Direpack.C35_scale_mean_any",
    "Direpack.C35_scale_median_any"
   ],
   "note": ""
  },
  {
   "property": "C36",
   "status": "partial",
   "theorems": [
    "Direpack.C36_fast_naive_partial",
    "Direpack.C36_biascorr_violated",
    "Direpack.C36_y1d_violated",
    "Direpack.C36_biascorr_cov_partial",
    "Direpack.C36_biascorr_var",
    "Direpack.C36_biascorr_corr_partial",
    "Direpack.C36_other_settings"
   ],
   "note": "Proved part: C36 (partial): without bias correction and trimming, and for a response given as a matrix, the fast and the naive algorithm return the same variance, covariance and correlation. | C36 (partial, without trimming and with bias correction): on at least four cases, with `U` the unbiased squared distance covariance, the fast algorithm gives `\u221aU`, and NaN (modelled as a failure) if `U` is negative; the naive algorithm gives `\u221a|U|`. So they agree exactly if `U` is not negative. | C36 (partial, without trimming and with bias correction): distance correlations. The fast algorithm fails if the unbiased squared covariance is negative, and otherwise agrees with the naive one. The code does not have the full property: C36 fails with bias correction: for these data the unbiased squared distance covariance is -1/3; the fast algorithm then returns NaN, the naive one \u221a(1/3). | C36 fails for a response passed as a one-dimensional array: the fast algorithm returns the distance covariance, the naive one raises."
  },
  {
   "property": "C37",
   "status": "partial",
   "theorems": [
    "Direpack.C37_comoment_partial",
    "Direpack.C37_order4_violated",
    "Direpack.C37_moment3_violated"
   ],
   "note": "Proved part: C37 (partial): at order 2 the statistic is `\u221a` of the average product of centred distances (C34); at order 3 with option 1 or 2 and at order 4 with option 2 a distance co-moment of two data sets aggregates the requested products `A^(k-option) B^option`. The code does not have the full property: C37 fails at order 4 with option 1: for the data (0, 1) paired with itself the average of `A\u00b3B` is 1/16, so the co-moment should be 1/2; the code returns 0 (the average of `A\u2074B`). | C37 fails for single-variable moments of order 3: for the data (0, 1) the average cube of the centred distances is 0; the code returns `-(1/16)^(1/3)`, from the average fourth power."
  },
  {
   "property": "C38",
   "status": "proved",
   "theorems": [
    "Direpack.C38_mdd_value",
    "Direpack.C38_mdd_constant",
    "Direpack.C38_mdd_class",
    "Direpack.C38_mdd_trimmed"
   ],
   "note": ""
  },
  {
   "property": "C39",
   "status": "partial",
   "theorems": [
    "Direpack.C39_mddm_partial",
    "Direpack.C39_mddm_violated",
    "Direpack.C39_mddm_null_partial"
   ],
   "note": "Proved part: C39 (partial): for at least two predictors (or one case), `MDDM(X,Y)` is computed, symmetric, and its quadratic form in any direction `b` is the (nonnegative) martingale difference divergence of the combination `Y b`; so it is positive semidefinite. | C39 (partial: at least two predictors): a combination of the responses has the same mean at every value of the predictors exactly if it is in the null space of the quadratic form of the divergence matrix. The code does not have the full property: C39 fails for a single predictor: with more than one case `MDDM` raises."
  },
  {
   "property": "C40",
   "status": "partial",
   "theorems": [
    "Direpack.C40_refit_partial",
    "Direpack.C40_params_partial",
    "Direpack.C40_center_violated"
   ],
   "note": "Proved part: C40 (partial): whatever fits (successful or not, with whatever data and arguments) an object made by the constructor has been through, the next fit returns exactly what it would have returned as the first one. | C40 (partial): fits leave `est` and `mode` alone, and `center` for every mode except std, skew, kurt, cos, cok, M3. The code does not have the full property: C40 fails: fitting `dicomo(mode='skew', center='median')` changes the parameter `center` to `mean`, on every data set; a later `set_params(mode='var')` then gives the mean based variance 2/3 of (0,1,2) instead of the median based 1.4826."
  },
  {
   "property": "C41",
   "status": "partial",
   "theorems": [
    "Direpack.C41_constructor_partial",
    "Direpack.C41_constructor_iff",
    "Direpack.C41_empty_data",
    "Direpack.C41_second_data",
    "Direpack.C41_mdc_violated",
    "Direpack.C41_no_stale_partial",
    "Direpack.C41_stale_violated",
    "Direpack.C41_order_zero"
   ],
   "note": "Proved part: C41 (partial): the constructor accepts every documented mode except `mdc` with `est='distance'`, and every one but `mdd` with `est='arithmetic'`; anything outside the lists is rejected. | C41 (partial): for an arithmetic (not mdd, ballcov) or distance estimator a fit that returns a number returns the number computed from its own data and arguments, and stores it; it never returns an earlier result. The code does not have the full property: C41 fails: the documented mode `mdc` is rejected by the constructor, whatever the other arguments. | C41 fails: after an arithmetic fit that stored `v`, `set_params(est='sign')` leads to fits that return `v` for every nonempty data set, computing nothing."
  },
  {
   "property": "C42",
   "status": "proved",
   "theorems": [
    "Direpack.C42_scores_orthogonal",
    "Direpack.C42_scores_nonzero"
   ],
   "note": ""
  },
  {
   "property": "C43",
   "status": "proved",
   "theorems": [
    "Direpack.C43_zero_outside_retained",
    "Direpack.C43_retained_grow"
   ],
   "note": ""
  },
  {
   "property": "C44",
   "status": "proved",
   "theorems": [
    "Direpack.C44_first_component",
    "Direpack.C44_eta_zero",
    "Direpack.C44_antitone",
    "Direpack.C44_nonempty",
    "Direpack.C44_one_component_total"
   ],
   "note": ""
  },
  {
   "property": "C45",
   "status": "proved",
   "theorems": [
    "Direpack.C45_normal_equations",
    "Direpack.C45_residuals"
   ],
   "note": ""
  },
  {
   "property": "C46",
   "status": "proved",
   "theorems": [
    "Direpack.C46_predict_train",
    "Direpack.C46_predict_affine",
    "Direpack.C46_original_scale"
   ],
   "note": ""
  },
  {
   "property": "C47",
   "status": "partial",
   "theorems": [
    "Direpack.C47_transform_iff",
    "Direpack.C47_transform_partial",
    "Direpack.C47_one_component_partial",
    "Direpack.C47_transform_violated"
   ],
   "note": "Proved part: C47 (partial). If every component retains the same variables (in particular with a single component), `transform` of the training data gives `x_scores_`. Missing: the retained set may grow from one component to the next, and then the claim can fail (`C47_transform_violated`). | C47 (partial), one component. The code does not have the full property: C47 (violated). On these data the second component retains a further variable, and `transform` of the training data differs from `x_scores_`."
  },
  {
   "property": "C48",
   "status": "proved",
   "theorems": [
    "Direpack.C48_rm_weights",
    "Direpack.C48_sprm_weights"
   ],
   "note": ""
  },
  {
   "property": "C49",
   "status": "partial",
   "theorems": [
    "Direpack.C49_rm_predict_partial",
    "Direpack.C49_rm_predict_columns",
    "Direpack.C49_rm_copy_violated",
    "Direpack.C49_rm_scaled_partial",
    "Direpack.C49_rm_unscaled_median_violated",
    "Direpack.C49_rm_scaled_violated",
    "Direpack.C49_sprm_predict_partial",
    "Direpack.C49_sprm_columns",
    "Direpack.C49_sprm_copy_violated",
    "Direpack.C49_sprm_scaled_partial"
   ],
   "note": "Proved part: C49 for RM: with `copy=True`, predicting the training data gives `fitted_`, and `residuals_` are the differences. Missing: with `copy=False` the training data are not stored (see `C49_rm_copy_violated`). | C49 for RM with mean centring and a scale estimator other than `'None'`: coefficients and intercept on the original scale describe the same affine function as the scaled ones. Missing: the other choices of centre and scale (see `C49_rm_scaled_violated` and `C49_rm_unscaled_median_violated`). | C49 for SPRM: with `copy=True`, predicting the training data gives `fitted_`; the prediction is an affine function of the variables that are kept. | C49 for SPRM with mean centring and a scale estimator other than `'None'`: the original and the scaled model describe the same affine function. The code does not have the full property: With `copy=False` no fitted model can predict. | With `scale='None'` and a centre other than the mean, `fit` fails on every data set. | The scaled and the original model of an RM fit can describe different functions: with median centring, `intercept_scaled_` is the median over all pairs of cases. | With `copy=False` no fitted model can predict or transform."
  },
  {
   "property": "C50",
   "status": "proved",
   "theorems": [
    "Direpack.C50_loop_stops",
    "Direpack.C50_rm_fits",
    "Direpack.C50_rm_minimises",
    "Direpack.C50_rm_no_iterations",
    "Direpack.C50_sprm_fits",
    "Direpack.C50_sprm_no_iterations"
   ],
   "note": ""
  },
  {
   "property": "C51",
   "status": "partial",
   "theorems": [
    "Direpack.C51_params_partial",
    "Direpack.C51_sequence_partial",
    "Direpack.C51_scale_violated",
    "Direpack.C51_columns_partial",
    "Direpack.C51_columns_violated"
   ],
   "note": "Proved part: C51 for SPRM, part that holds: `fit` leaves the numerical parameters unchanged, except for `scale='scaleTau2'` when a predictor has a zero MAD. Missing: that case (`C51_scale_violated`), and `columns` (`C51_columns_violated`). | After any sequence of fits for which the above holds, the estimator behaves like a fresh one. | `columns` is unchanged when no variable is dropped and it is not the flag `True`. The code does not have the full property: With `scale='scaleTau2'`, one predictor with a zero MAD makes `fit` change the parameter to `'mad'` for good: every later fit uses the MAD, also on data without such a predictor. | When a variable is dropped, `fit` shortens the array of names, so the second fit on the same data fails if a dropped variable comes after the names that are left."
  },
  {
   "property": "C52",
   "status": "partial",
   "theorems": [
    "Direpack.C52_robustLoss_fair_symm_partial",
    "Direpack.C52_robustLoss_negative_full_weight",
    "Direpack.C52_robustLoss_nonneg_partial",
    "Direpack.C52_robustLoss_violated"
   ],
   "note": "Proved part: C52 (partial: proved for the Fair weights; refuted for the default Hampel weights and for Huber by `C52_robustLoss_violated`). Exchanging observed and predicted values - i.e. negating every residual - leaves the robust loss unchanged. | C52 (partial): for residuals that are all nonnegative the weights are the specified ones. The code does not have the full property: C52 violated: negating all residuals changes the robust loss with the default weight function (and with Huber)."
  },
  {
   "property": "C53",
   "status": "proved",
   "theorems": [
    "Direpack.C53_candidates"
   ],
   "note": ""
  },
  {
   "property": "C54",
   "status": "proved",
   "theorems": [
    "Direpack.C54_gridplane_best",
    "Direpack.C54_gridplane_total"
   ],
   "note": ""
  },
  {
   "property": "C55",
   "status": "proved",
   "theorems": [
    "Direpack.C55_refine_unit",
    "Direpack.C55_grid_unit"
   ],
   "note": ""
  },
  {
   "property": "C56",
   "status": "partial",
   "theorems": [
    "Direpack.C56_sweep_partial",
    "Direpack.C56_grid_partial",
    "Direpack.C56_even_violated"
   ],
   "note": "Proved part: C56 (partial: odd numbers of directions; see `C56_even_violated` for even ones, among them the default): a refinement sweep started at a unit direction never decreases the criterion. | C56 (partial, odd numbers of directions): the direction returned by the grid optimiser is at least as good as the direction found by the first stage. The code does not have the full property: C56 is violated for every even number of directions, among them the default 1000: with the sum of squares as index and data in which only the first variable varies, the first stage finds the optimum (criterion 2) and the refinement returns something worse, for every number of iterations."
  },
  {
   "property": "C57",
   "status": "partial",
   "theorems": [
    "Direpack.C57_scores",
    "Direpack.C57_transform_partial",
    "Direpack.C57_transform_violated",
    "Direpack.C57_one_block"
   ],
   "note": "Proved part: C57 (partial: `center_data=True`): transforming the training data gives the scores; scores of new data are a fixed linear function of the standardised variables, case by case. The code does not have the full property: C57 is violated for `center_data=False` and at least two variables: `transform` returns a three-dimensional array, never the score matrix."
  },
  {
   "property": "C58",
   "status": "partial",
   "theorems": [
    "Direpack.C58_predict",
    "Direpack.C58_compressed",
    "Direpack.C58_compressed_violated"
   ],
   "note": "The code does not have the full property: C58 is violated after compression: the residuals are a matrix, with the response of case `r` minus the fitted value of case `c` in row `r` and column `c`; so the entries in the column of a case are the residuals of that case only if all responses are equal."
  },
  {
   "property": "C59",
   "status": "partial",
   "theorems": [
    "Direpack.C59_two_variables_violated",
    "Direpack.C59_succeeds_partial",
    "Direpack.C59_zero_length_violated"
   ],
   "note": "Proved part: C59 (partial: at least three variables, and `ndir - 1` not divisible by 4): the grid optimiser returns a direction for every data matrix, every index and every positive number of iterations. See `C59_zero_length_violated` for the other numbers of directions. The code does not have the full property: C59 is violated: with two variables (or one) the grid optimiser fails, whatever the data, the index and the options. | C59 is violated, for three variables, for every number of directions `4 s + 1` (5, 9, ..., 1001, ...): when the first stage ends on a coordinate axis, the refinement examines a combination of length zero and fails."
  },
  {
   "property": "C60",
   "status": "partial",
   "theorems": [
    "Direpack.C60_places_distinct",
    "Direpack.C60_weighted_partial",
    "Direpack.C60_overwritten_violated",
    "Direpack.C60_evaluated_violated",
    "Direpack.C60_option_two_violated",
    "Direpack.C60_all",
    "Direpack.C60_rejects"
   ],
   "note": "Proved part: C60 (partial: options 'all', or the list 1, or 1,2, or 1,2,3): the index is the weighted sum of the requested co-moments, each exactly once with the weight of its own place, and every place holds its co-moment, or zero if that was not requested. The code does not have the full property: C60 is violated for the options 1 and 3: co-moment (3,3) and co-moment (4,1) share a place, so the index does not depend on the former. | ... although a failure there makes the fit fail, i.e. it is evaluated. | C60 is violated for the option 2 alone: the covariance gets the weight of the first co-skewness and the first place stays empty."
  },
  {
   "property": "C61",
   "status": "proved",
   "theorems": [
    "Direpack.C61_labels",
    "Direpack.C61_sizes",
    "Direpack.C61_cumulative",
    "Direpack.C61_one_slice",
    "Direpack.C61_response"
   ],
   "note": ""
  },
  {
   "property": "C62",
   "status": "proved",
   "theorems": [
    "Direpack.C62_sir_psd",
    "Direpack.C62_save_psd",
    "Direpack.C62_sir_between",
    "Direpack.C62_slice_means"
   ],
   "note": ""
  },
  {
   "property": "C63",
   "status": "partial",
   "theorems": [
    "Direpack.C63_too_few_labels",
    "Direpack.C63_labels",
    "Direpack.C63_no_slices",
    "Direpack.C63_proportions_partial",
    "Direpack.C63_proportions_violated"
   ],
   "note": "Proved part: C63 (partial: as many slices as distinct labels): the slices cover all cases, so their proportions add up to one. The code does not have the full property: C63 is violated when there are more distinct labels than slices: the cases of some label are in no slice, and the proportions add up to less than one."
  },
  {
   "property": "C64",
   "status": "partial",
   "theorems": [
    "Direpack.C64_best_start_partial",
    "Direpack.C64_ignores_response_violated",
    "Direpack.C64_start_violated",
    "Direpack.C64_discrete_partial"
   ],
   "note": "Proved part: C64 (partial: which of the candidates is used): the start value is made of the directions of SAVE with three slices, SIR with six or DR with six, whichever have the largest distance covariance with the response. | C64 (partial: a response that is declared discrete): the start directions are those of the slicing method for that response, mapped to the scale of the data. The code does not have the full property: C64: for a response without ties the start directions do not depend on the response at all. | C64 is violated: there are data with a continuous response for which the SAVE start directions, with three slices, are not the SAVE directions with three slices."
  },
  {
   "property": "C65",
   "status": "proved",
   "theorems": [
    "Direpack.C65_projector",
    "Direpack.C65_orthogonal",
    "Direpack.C65_subspace"
   ],
   "note": ""
  },
  {
   "property": "C66",
   "status": "proved",
   "theorems": [
    "Direpack.C66_round_trip",
    "Direpack.C66_round_trip_vec",
    "Direpack.C66_constraints",
    "Direpack.C66_count"
   ],
   "note": ""
  },
  {
   "property": "C67",
   "status": "partial",
   "theorems": [
    "Direpack.C67_refit_partial",
    "Direpack.C67_refit_violated",
    "Direpack.C67_stale_scores_violated"
   ],
   "note": "Proved part: C67 (partial: methods that are not based on optimisation, `copy=True`): after any sequence of fits, a fit gives what a new object would give. The code does not have the full property: C67 is violated for `dcov-sdr`: fitted again on other data (without scaling), an object gives the subspace of the first data, whatever the new data are: start values, constraints and data are kept from the first fit. So it differs from a new object whenever the two data sets have different subspaces. | C67 is violated by `copy=False`: the scores of an object that was fitted before with `copy=True` are those of the earlier data."
  },
  {
   "property": "C68",
   "status": "partial",
   "theorems": [
    "Direpack.C68_selection_partial",
    "Direpack.C68_cumulative_partial",
    "Direpack.C68_first_partial",
    "Direpack.C68_means_violated",
    "Direpack.C68_pairs_violated"
   ],
   "note": "Proved part: C68 (partial): the dimension returned is one of the candidates, one mean is reported for each of them, and the dimension has the smallest of the reported means. | C68: the mean reported for a dimension is the mean over the bootstrap distances of this and all smaller dimensions. | C68: the mean reported for dimension one is the mean of the distances of dimension one. The code does not have the full property: C68 is violated: with one bootstrap sample and distances 1, 10 and 1/2 for the dimensions one, two and three the means reported are not the means of the distances of each dimension, and the dimension selected is one instead of three. | C68 is violated: the bootstrap distances compare with fits on resampled predictors and the original response, so they are not those of resampled cases whenever resampling the response too makes a difference."
  },
  {
   "property": "C69",
   "status": "proved",
   "theorems": [
    "Direpack.C69_checkInput_idem",
    "Direpack.C69_checkInput_data",
    "Direpack.C69_matrix_unchanged",
    "Direpack.C69_other_shapes"
   ],
   "note": ""
  },
  {
   "property": "C70",
   "status": "partial",
   "theorems": [
    "Direpack.C70_nandot_available",
    "Direpack.C70_nandot_complete",
    "Direpack.C70_nanmatdot_transposed_partial",
    "Direpack.C70_nanmatdot_crossprod_partial",
    "Direpack.C70_nanmatdot_violated"
   ],
   "note": "Proved part: C70 (partial). Full claim: `nanmatdot(X, Y)` is the matrix product on complete data. For `Y` with two or more columns what is returned is its *transpose*: entry `(j,i)` is the inner product of row `i` of `X` and column `j` of `Y`. Refuted as stated by `C70_nanmatdot_violated`. | C70 (partial): for `X\u1d40X` (the only use in the package) the transposition is harmless: the result is the cross-product matrix. The code does not have the full property: C70 violated: for a 1 \u00d7 2 times 2 \u00d7 2 product the result has shape 2 \u00d7 1 (`Fin 2 \u2192 Fin 1 \u2192 \u211a`) and for square factors it is not the product."
  },
  {
   "property": "C71",
   "status": "partial",
   "theorems": [
    "Direpack.C71_get_after_set",
    "Direpack.C71_set_get",
    "Direpack.C71_unknown_raises",
    "Direpack.C71_unknown_first_partial",
    "Direpack.C71_unknown_violated",
    "Direpack.C71_nested",
    "Direpack.C71_nested_several",
    "Direpack.C71_deep"
   ],
   "note": "Proved part: C71 (partial): an unknown key that comes first leaves the object as it was. The code does not have the full property: C71 is violated: an unknown key that comes after a known one leaves the object changed."
  },
  {
   "property": "C72",
   "status": "proved",
   "theorems": [
    "Direpack.C72_types",
    "Direpack.C72_bounds",
    "Direpack.C72_values",
    "Direpack.C72_variables"
   ],
   "note": ""
  },
  {
   "property": "C73",
   "status": "partial",
   "theorems": [
    "Direpack.C73_translation",
    "Direpack.C73_stable",
    "Direpack.C73_caller_violated",
    "Direpack.C73_tolerance_violated",
    "Direpack.C73_tolerance",
    "Direpack.C73_zero_violated",
    "Direpack.C73_both_violated"
   ],
   "note": "The code does not have the full property: C73 is violated: the dictionary of the caller is altered. | C73 is violated: a call with the same dictionary and another tolerance uses the tolerance of the first call. | C73 is violated: the tolerance 0, given as argument, is not used. | C73 is violated: if both `disp` and `print_level` are given, `disp` is handed to Ipopt, which does not know it, and the call fails."
  },
  {
   "property": "C74",
   "status": "partial",
   "theorems": [
    "Direpack.C74_cache_partial",
    "Direpack.C74_arguments_violated",
    "Direpack.C74_arguments_example_violated",
    "Direpack.C74_affine_partial",
    "Direpack.C74_quadratic_partial"
   ],
   "note": "Proved part: C74 (partial: all calls are made with the same arguments): after any sequence of calls, the cached function gives the value at the point asked for. | C74 (partial: one choice of arguments): the forward difference is exact for affine functions, at every point, for every step and after every history. | C74 (partial: one choice of arguments): the central difference is exact for quadratic functions. The code does not have the full property: C74 is violated when the arguments change: the value for the earlier arguments is returned, for every function, point and history with one argument. | A function whose value depends on the argument: the wrong value is returned."
  },
  {
   "property": "C75",
   "status": "proved",
   "theorems": [
    "Direpack.C75_once",
    "Direpack.C75_class",
    "Direpack.C75_exclusive"
   ],
   "note": ""
  },
  {
   "property": "C76",
   "status": "proved",
   "theorems": [
    "Direpack.C76_cvScoreTable",
    "Direpack.C76_cvScoreTable_error"
   ],
   "note": ""
  },
  {
   "property": "C77",
   "status": "partial",
   "theorems": [
    "Direpack.C77_gen_ss_pp_agrees_partial",
    "Direpack.C77_gen_ss_pp_none_violated"
   ],
   "note": "Proved part: C77, partial: the one-pass function and the class give the same result for every location estimator. Missing: the documented option `center='None'` of the function (`C77_gen_ss_pp_none_violated`). The code does not have the full property: C77, violated: with the documented option `center='None'` the one-pass function always fails, while the class with the zero centre transforms the data."
  },
  {
   "property": "C78",
   "status": "partial",
   "theorems": [
    "Direpack.C78_std_sqrt_var_partial",
    "Direpack.C78_std_biascorr_violated",
    "Direpack.C78_distance_naive_partial",
    "Direpack.C78_distance_fast_violated"
   ],
   "note": "Proved part: C78 (partial): without bias correction `std` is the square root of `var` (mean centring, no trimming). | C78 (partial): with the naive algorithm the distance standard deviation is the square root of the distance variance. The code does not have the full property: C78 fails with bias correction: `std` of the column (0, 2) is then 2, but `var` is 2 and its root \u221a2. | C78 fails with the (default) fast algorithm, which returns the distance variance for mode `std`: 1/2 instead of \u221a(1/2) for the data (0, 1)."
  },
  {
   "property": "C79",
   "status": "proved",
   "theorems": [
    "Direpack.C79_transform_train",
    "Direpack.C79_transform_rowwise"
   ],
   "note": ""
  },
  {
   "property": "C80",
   "status": "partial",
   "theorems": [
    "Direpack.C80_weightnewx_range_partial",
    "Direpack.C80_single_case_violated"
   ],
   "note": "Proved part: C80, part that holds: weights of new cases are in [0,1]. Missing: see `C80_single_case_violated`. The code does not have the full property: A single new case never gets a weight: with mean or median centring its score is centred by itself, and the distance is divided by a median of zero. So the weight of a case depends on the other new cases."
  },
  {
   "property": "C81",
   "status": "proved",
   "theorems": [
    "Direpack.C81_order",
    "Direpack.C81_irrelevant_variables"
   ],
   "note": ""
  },
  {
   "property": "C82",
   "status": "partial",
   "theorems": [
    "Direpack.C82_beats_variables_partial",
    "Direpack.C82_even_violated"
   ],
   "note": "Proved part: C82 (partial: odd numbers of directions, at least one sweep): the direction returned by the grid optimiser is at least as good as every single variable. The code does not have the full property: C82 is violated for every even number of directions: the direction returned is worse than the first variable alone."
  },
  {
   "property": "C83",
   "status": "proved",
   "theorems": [
    "Direpack.C83_least_squares"
   ],
   "note": ""
  },
  {
   "property": "C84",
   "status": "partial",
   "theorems": [
    "Direpack.C84_whitening_violated",
    "Direpack.C84_one_variable_violated",
    "Direpack.C84_one_variable_partial"
   ],
   "note": "Proved part: C84 (partial: one variable): a whitened model with one component can be fitted to any variable that is not constant, if the optimiser returns a vector other than zero. The code does not have the full property: C84 is violated: with `whiten_data=True`, at least one component and at least two variables, `fit` raises, whatever the data, the projection index, the optimiser and the other parameters are. | C84 is violated also for one variable, where a whitened model can be fitted: `transform` of the training data multiplies the scores by the norm of the centred variable (up to the sign)."
  },
  {
   "property": "C85",
   "status": "partial",
   "theorems": [
    "Direpack.C85_compression_violated",
    "Direpack.C85_median_partial",
    "Direpack.C85_fallback_violated",
    "Direpack.C85_coef_partial",
    "Direpack.C85_orthogonal_partial",
    "Direpack.C85_scores_partial",
    "Direpack.C85_scale_violated",
    "Direpack.C85_median_intercept_partial",
    "Direpack.C85_uncentred_violated"
   ],
   "note": "Proved part: C85 (partial: `center='median'`): predictions for any number of new cases are one affine function of the variables, with the reported coefficients. | C85 (partial: what the coefficients are): the reported coefficients, applied to the variables, give what the model fitted to the compressed table gives; and that table has the same inner products between cases as the data. | C85 (partial: scores and weights): after compression the score vectors are nonzero and mutually orthogonal and the weight vectors have unit length. | C85 (partial: no scaling, `center='mean'`, no trimming): transforming the training data after compression gives the scores. | C85 (partial: `center='median'`): fitted values and predictions are the reported coefficients applied to the variables, plus the median of the `n\u00b2` differences between the response of any case and the linear part of any case. The code does not have the full property: C85 is violated: with `center='mean'` and no trimming, the fitted values after compression are the mean of the response for every case; and for any trimming, prediction for a number of new cases other than one or the number of training cases raises. | C85 is violated: if a column of the compressed table has a zero median absolute deviation, the announced continuation without compression raises, whatever the data are. | C85 is violated: with `scale_data=True`, transforming the training data after compression does not give the scores. | C85 is violated without centring: after compression with `center_data=False`, `transform` fails for every table, the training data included."
  },
  {
   "property": "C86",
   "status": "partial",
   "theorems": [
    "Direpack.C86_scaling_object_violated",
    "Direpack.C86_compressed_partial"
   ],
   "note": "Proved part: C86 after compression: the published scaling object holds the location and scale of the variables of the data. The code does not have the full property: C86 is violated: with a response, the published scaling object holds the location and scale of the response, one number each, so for two or more variables it cannot be the scaling of the data."
  },
  {
   "property": "C87",
   "status": "partial",
   "theorems": [
    "Direpack.C87_keyword_partial",
    "Direpack.C87_ols_positional_partial",
    "Direpack.C87_positional_violated"
   ],
   "note": "Proved part: C87: which regressions find the variables they need, by how the response is passed. The code does not have the full property: C87 is violated: a positional response with robust or quantile regression fails."
  },
  {
   "property": "C88",
   "status": "partial",
   "theorems": [
    "Direpack.C88_ppdire",
    "Direpack.C88_sudire",
    "Direpack.C88_capi_partial",
    "Direpack.C88_capi_violated"
   ],
   "note": "Proved part: C88 (partial): the same for `capi`, except for the argument `centring`. The code does not have the full property: C88 is violated by `capi`: `centring` is reported as `None`, whatever was passed."
  },
  {
   "property": "C89",
   "status": "proved",
   "theorems": [
    "Direpack.C89_slicing",
    "Direpack.C89_phd",
    "Direpack.C89_iht"
   ],
   "note": ""
  },
  {
   "property": "C90",
   "status": "proved",
   "theorems": [
    "Direpack.C90_sir_optimal"
   ],
   "note": ""
  },
  {
   "property": "C91",
   "status": "partial",
   "theorems": [
    "Direpack.C91_shift_partial",
    "Direpack.C91_sign_violated"
   ],
   "note": "Proved part: C91 (partial: shift of the response only): adding a constant to the response does not change principal Hessian directions. The code does not have the full property: C91 is violated: the direction found for the response with its sign changed is not a multiple of the one found for the response itself, because the directions are taken by the size of the eigenvalues and not by their absolute size."
  },
  {
   "property": "C92",
   "status": "partial",
   "theorems": [
    "Direpack.C92_training_partial",
    "Direpack.C92_cases",
    "Direpack.C92_columns",
    "Direpack.C92_no_copy_violated"
   ],
   "note": "Proved part: C92 (partial: `copy=True`): `transform` of the training data gives the scores of the fit. The code does not have the full property: C92 is violated with `copy=False`: no data can be fitted."
  },
  {
   "property": "C93",
   "status": "partial",
   "theorems": [
    "Direpack.C93_training",
    "Direpack.C93_predict_partial",
    "Direpack.C93_single_violated"
   ],
   "note": "Proved part: C93 (partial: new data none of whose score columns is constant, and a model with a constant term): the prediction for a case is one affine function of its scores. The code does not have the full property: C93 is violated: a single new case with a score that is not zero cannot be predicted by a model with a constant term."
  },
  {
   "property": "C94",
   "status": "partial",
   "theorems": [
    "Direpack.C94_unit_covariance_partial",
    "Direpack.C94_orthonormal_partial",
    "Direpack.C94_optimised_partial",
    "Direpack.C94_median_violated"
   ],
   "note": "Proved part: C94 (partial: `center='mean'`, `scale_data=True`, no whitening, methods that are not based on optimisation): the scores are uncorrelated with unit variance. | C94 (partial) without scaling: the loadings are orthonormal. | C94 (partial: methods based on optimisation, when the solver gives a point that satisfies the constraints): the loadings are orthonormal in the metric of the covariance of the data. The code does not have the full property: C94 is violated with `center='median'`: there are data on which the scores of scaled data do not have unit variance."
  },
  {
   "property": "C95",
   "status": "partial",
   "theorems": [
    "Direpack.C95_flat_violated"
   ],
   "note": "The code does not have the full property: C95 is violated: no table with at least as many variables as cases can be fitted, with or without compression: the inverse root of its covariance matrix, which is singular, is computed before."
  },
  {
   "property": "C96",
   "status": "partial",
   "theorems": [
    "Direpack.C96_few_labels_violated"
   ],
   "note": "The code does not have the full property: C96 is violated: without a start value given, the methods based on optimisation fail for every response with fewer than six different values."
  },
  {
   "property": "C97",
   "status": "partial",
   "theorems": [
    "Direpack.C97_answers_partial",
    "Direpack.C97_reused_violated",
    "Direpack.C97_reused_example_violated",
    "Direpack.C97_once"
   ],
   "note": "Proved part: C97 (partial: no array is changed after it has been passed): all answers are the values at the points asked for. The code does not have the full property: C97 is violated when the caller reuses an array: the value at the earlier contents is returned, whatever the function and the new contents are. | The wrong value."
  },
  {
   "property": "C98",
   "status": "partial",
   "theorems": [
    "Direpack.C98_points_partial",
    "Direpack.C98_last_violated",
    "Direpack.C98_weights_violated"
   ],
   "note": "Proved part: C98 (partial: the names but the last, y against predicted y and score plots): they are drawn at the points of their cases. The code does not have the full property: C98 is violated: the last name is not drawn. | C98 is violated: in the plot of the case weights every name drawn is at the bar of the next case."
  },
  {
   "property": "C99",
   "status": "partial",
   "theorems": [
    "Direpack.C99_heights_partial",
    "Direpack.C99_labels_partial",
    "Direpack.C99_labels_violated"
   ],
   "note": "Proved part: C99 (partial: the heights only; for the labels see `C99_labels_partial` and `C99_labels_violated`): with truncation `t` the bars show half of the fraction `t` of the coefficients, rounded up, at each end. | C99 (partial: the labels, if the variables happen to be in the order of their coefficients; missing: any other order, where the labels can be wrong, see `C99_labels_violated`). The code does not have the full property: C99 is violated: there are coefficients for which truncation labels bars with the wrong variables."
  },
  {
   "property": "C100",
   "status": "partial",
   "theorems": [
    "Direpack.C100_default_partial",
    "Direpack.C100_own",
    "Direpack.C100_default_violated",
    "Direpack.C100_key_violated"
   ],
   "note": "Proved part: C100 (partial: only objects with options given by the user are fitted): the default options are those of the signature, after any number of fits. The code does not have the full property: C100 is violated: after one fit of an object with default options, a new object of the same class has other default options. | C100 is violated for the documented name: after one `sudire` fit the default options of new objects no longer have the key `max_iter`."
  },
  {
   "property": "C101",
   "status": "partial",
   "theorems": [
    "Direpack.C101_dcov_value_partial",
    "Direpack.C101_mdd_value_partial",
    "Direpack.C101_dcov_rotation",
    "Direpack.C101_mdd_rotation",
    "Direpack.C101_shift",
    "Direpack.C101_feasible",
    "Direpack.C101_biascorr_violated",
    "Direpack.C101_mdd_biascorr_partial",
    "Direpack.C101_mdd_biascorr_violated"
   ],
   "note": "Proved part: C101 (partial: no bias correction): the objective of dcov-sdr for a matrix of loadings is minus ten times the distance covariance of the projected data and the response. | C101 (partial: no bias correction): the objective of mdd-sdr is minus ten times the martingale difference divergence of the response given the projected data. | C101 (partial: the bias corrected divergence is not negative): the objective of mdd-sdr with `biascorr=True` is minus ten times the root of the bias corrected martingale difference divergence. The code does not have the full property: C101 is violated by dcov-sdr with `biascorr=True`: the value is not the bias corrected distance covariance, because the option is not used. | C101 is violated by mdd-sdr with `biascorr=True`: there are data for which the objective is not a number."
  },
  {
   "property": "C102",
   "status": "proved",
   "theorems": [
    "Direpack.C102_dcov_optimal",
    "Direpack.C102_mdd_optimal"
   ],
   "note": ""
  },
  {
   "property": "C103",
   "status": "partial",
   "theorems": [
    "Direpack.C103_normal_partial",
    "Direpack.C103_bound_partial",
    "Direpack.C103_refused",
    "Direpack.C103_weighted_violated",
    "Direpack.C103_weights_violated"
   ],
   "note": "Proved part: C103 (partial: `scoring='normal'`): the score is the coefficient of determination of the predictions, for validation data of any size with a response that is not constant. | C103 (partial): this score is at most one, and one exactly for perfect predictions, also when the response is constant. The code does not have the full property: C103 is violated by `scoring='weighted'`: validation data with another number of cases than the training data are refused. | C103 is violated by `scoring='weighted'` also with as many cases as in the training data: the weight of a validation case is that of the training case with the same number, whatever the validation data are."
  },
  {
   "property": "C104",
   "status": "partial",
   "theorems": [
    "Direpack.C104_forms_partial",
    "Direpack.C104_rejected_partial",
    "Direpack.C104_sudire_partial",
    "Direpack.C104_ppdire_frame_partial",
    "Direpack.C104_ppdire_frame_violated",
    "Direpack.C104_sudire_frame_violated",
    "Direpack.C104_snipls_violated"
   ],
   "note": "Proved part: C104: robust M regression, sparse partial robust M regression and SNIPLS use the same values for each form of a response with as many cases as the predictors. | C104: robust M regression and sparse partial robust M regression refuse each form of a response with another number of cases. | C104: sudire and projection pursuit use the same values for a vector, a column and a Series and refuse them when the number of cases is another one. | C104: projection pursuit accepts a DataFrame when the data are centred. The code does not have the full property: C104 is violated by projection pursuit without centring: a DataFrame becomes a single row. | C104 is violated by sudire: every response given as a DataFrame is refused. | C104 is violated by SNIPLS: a response with another number of cases is not refused but made into a single row."
  },
  {
   "property": "C105",
   "status": "partial",
   "theorems": [
    "Direpack.C105_x_percent_partial",
    "Direpack.C105_y_percent_partial",
    "Direpack.C105_y_r2_partial",
    "Direpack.C105_y_r2_original_partial",
    "Direpack.C105_x_r2_partial",
    "Direpack.C105_defined_iff",
    "Direpack.C105_ev_violated"
   ],
   "note": "Proved part: C105. The published `x_ev_` are percentages: each lies in `[0,100]` and together they are at most 100. | C105. The published `y_ev_` are percentages. | C105. Together the `y_ev_` are the coefficient of determination of the model on the standardised data, in percent. | C105. With `centre='mean'` and a response that is not constant this is the usual R squared of `fitted_`, in percent. | C105. When no variable is eliminated, the `x_ev_` together are the share of the predictors that scores and loadings reproduce, in percent. The code does not have the full property: C105 fails for a constant response: the fit succeeds (all coefficients are zero), but `x_ev_` and `y_ev_` are uninitialised memory."
  },
  {
   "property": "C106",
   "status": "proved",
   "theorems": [
    "Direpack.C106_snipls_units",
    "Direpack.C106_snipls_units_iff"
   ],
   "note": ""
  },
  {
   "property": "C107",
   "status": "proved",
   "theorems": [
    "Direpack.C107_snipls_order",
    "Direpack.C107_snipls_order_any"
   ],
   "note": ""
  },
  {
   "property": "C108",
   "status": "proved",
   "theorems": [
    "Direpack.C108_rm_units",
    "Direpack.C108_rm_units_any_solver"
   ],
   "note": ""
  },
  {
   "property": "C109",
   "status": "proved",
   "theorems": [
    "Direpack.C109_rm_order_any",
    "Direpack.C109_rm_order"
   ],
   "note": ""
  },
  {
   "property": "C110",
   "status": "partial",
   "theorems": [
    "Direpack.C110_rm_reverse_partial",
    "Direpack.C110_rm_reverse_violated"
   ],
   "note": "Proved part: C110. Reversing the response (and possibly predictors) reverses the fit, when the data are centred by the median and scaled by the MAD. Missing: other centres or scales, where the claim fails (see `C110_rm_reverse_violated`). The code does not have the full property: C110 fails for `centre='mean'`: an outlier below keeps its full starting weight, and loses weight when the response is reversed. The two fits are not mirror images (the quantile of the normal distribution is 1.645, that of the chi-square 3.84)."
  },
  {
   "property": "C111",
   "status": "partial",
   "theorems": [
    "Direpack.C111_self_partial",
    "Direpack.C111_self_ratio",
    "Direpack.C111_self_violated"
   ],
   "note": "Proved part: C111 (partial): the distance covariance of a data set with itself is its distance variance, for every centre, with trimming or with bias correction. Missing: trimming together with bias correction (see `C111_self_violated`), and a response passed as a one-dimensional array, which the naive algorithm refuses (`C36_y1d_violated`). The code does not have the full property: C111 is false with trimming and bias correction: five numbers, four of them equal, whose distance covariance with themselves is not their distance variance."
  },
  {
   "property": "C112",
   "status": "partial",
   "theorems": [
    "Direpack.C112_units_partial",
    "Direpack.C112_quantile_violated"
   ],
   "note": "Proved part: C112 (partial: OLS and robust regression; with centring and scaling, which are the defaults): for every optimiser and index, a model fitted to data in other units has the same components and scores, its coefficients are converted, and its predictions and scores for new data in the new units are those of the original model, converted. The code does not have the full property: C112 is violated for quantile regression: whatever median regression routine is used, for a response that is exactly `k` times the single predictor the fitted values are `k` times too large (the routine is given the response in its own units, and its coefficients are then multiplied by the scale of the response again)."
  },
  {
   "property": "C113",
   "status": "partial",
   "theorems": [
    "Direpack.C113_case_order_partial",
    "Direpack.C113_grid_ols",
    "Direpack.C113_start_violated"
   ],
   "note": "Proved part: C113: for the grid search (and any optimiser that does not look at the order of the cases), an index and a regression that ignore the order of the cases, a model fitted to reordered cases has the reordered scores and fitted values, and the same coefficients, predictions and scores for new data. The code does not have the full property: C113 is violated for the optimisers that are started at the first case: there is one for which exchanging two cases gives another direction."
  },
  {
   "property": "C114",
   "status": "partial",
   "theorems": [
    "Direpack.C114_refit_partial",
    "Direpack.C114_one_block_transform",
    "Direpack.C114_failed",
    "Direpack.C114_stale_violated"
   ],
   "note": "Proved part: Transforming with the object is transforming with its x-block: a fitted two-block model on a used object. The code does not have the full property: C114 is violated: fitted without a response after a fit with one, `predict` goes on giving the predictions of the earlier fit, whatever the new data are (even for another number of variables than the model now has); a new object fitted to the same data raises."
  },
  {
   "property": "C115",
   "status": "partial",
   "theorems": [
    "Direpack.C115_scaled_partial",
    "Direpack.C115_unscaled_violated",
    "Direpack.C115_median_violated"
   ],
   "note": "Proved part: C115 (partial: centre 'mean' without trimming, with centring and scaling): the scaled coefficients and the scaled intercept give the fitted values after standardising the response. The code does not have the full property: C115 is violated for `scale_data=False` (centre 'mean', no trimming): the scaled intercept is the unscaled one, so the two versions of the model agree only when that is zero. | C115 is violated for the centre 'median', also with scaling: the scaled intercept is computed with the unscaled coefficients. For the three cases (0, 0), (1, 4), (3, 2) the scaled version of the model is off by 2/5 for every case."
  },
  {
   "property": "C116",
   "status": "partial",
   "theorems": [
    "Direpack.C116_sprm_units_partial",
    "Direpack.C116_threshold_violated"
   ],
   "note": "Proved part: C116. Measuring the predictors and the response of an SPRM fit in other units keeps the retained variables, converts the coefficients, leaves case weights and scores alone, and converts fitted values, residuals and predictions; predictors may also be reversed when the starting weights do not use the singular value decomposition. Missing: units that move a variable across the absolute threshold `1e-5` for the scale of near constant variables (see `C116_threshold_violated`). The code does not have the full property: C116 fails for units in which a variable has a scale below `1e-5`: the same data, once in metres and once in thousands of kilometres, once give a fit and once none."
  },
  {
   "property": "C117",
   "status": "proved",
   "theorems": [
    "Direpack.C117_sprm_order"
   ],
   "note": ""
  },
  {
   "property": "C118",
   "status": "partial",
   "theorems": [
    "Direpack.C118_yyp_partial",
    "Direpack.C118_mismatch",
    "Direpack.C118_ppdire",
    "Direpack.C118_onlyval_violated",
    "Direpack.C118_stale_violated",
    "Direpack.C118_failed_violated",
    "Direpack.C118_no_copy",
    "Direpack.C118_sprm_partial",
    "Direpack.C118_sprm_onlyval_violated"
   ],
   "note": "Proved part: C118 (partial: fits with `copy=True`, and new cases when only those are to be drawn): whatever was fitted before, `plot_yyp` of a `ppdire` or `sudire` object draws every training case of the last fit once, in order, at its observed and fitted value (none with `onlyval`), and every new case at its given and predicted value; names are drawn at the points of their cases. | C118 for SPRM (partial: as for `C118_yyp_partial`): every training case of the last fit is drawn once, at its observed and fitted value and in the group of its weight (none with `onlyval`), and so is every new case; names are drawn at the points of their cases. The code does not have the full property: C118 is violated: asked for new cases only but given none, `plot_yyp` draws an empty plot instead of raising. | C118 is violated: after a fit with `copy=False` the observed values drawn are those of the fit before. | C118 is violated: after a fit that failed, the observed values drawn are those of the failed fit, beside the fitted values of the fit before. | C118 is violated for SPRM, too: an empty plot instead of an exception."
  },
  {
   "property": "C119",
   "status": "partial",
   "theorems": [
    "Direpack.C119_projections_partial",
    "Direpack.C119_sprm_partial",
    "Direpack.C119_sprm_onlyval_violated",
    "Direpack.C119_component",
    "Direpack.C119_onlyval_violated"
   ],
   "note": "Proved part: C119: `plot_projections` of a `ppdire` or `sudire` object draws every training case once at its scores on the two components asked for, and every new case at its scores; the names at the points of their cases. | C119 for SPRM (partial: as for `C119_projections_partial`): every training case is drawn once at its scores and in the group of its weight (none with `onlyval`), and so is every new case; names are drawn at the points of their cases. The code does not have the full property: C119 is violated for SPRM, too. | C119 is violated: asked for new cases only but given none, `plot_projections` draws an empty plot instead of raising."
  },
  {
   "property": "C120",
   "status": "partial",
   "theorems": [
    "Direpack.C120_bars_partial",
    "Direpack.C120_mode_violated",
    "Direpack.C120_onlyval_violated"
   ],
   "note": "Proved part: C120: `plot_caseweights` draws the weight of training case `i` (of the kind asked for) as bar number `i` and that of new case `j` as bar number `n + j`. The code does not have the full property: C120 is violated: an unknown mode, for which `ValueError` is announced, ends in an `UnboundLocalError`. | C120 is violated: asked for new cases only but given none, there is an empty plot."
  },
  {
   "property": "C121",
   "status": "partial",
   "theorems": [
    "Direpack.C121_contour_partial",
    "Direpack.C121_stale_violated"
   ],
   "note": "Proved part: C121 (partial: the first plot of an object): the contours are drawn through the settings of the grid search that have a score, no more and no less; with fewer than three of them a message is drawn instead. The code does not have the full property: C121 is violated: once drawn, the plot goes on showing the first results, whatever the grid search has been refitted to."
  },
  {
   "property": "C122",
   "status": "partial",
   "theorems": [
    "Direpack.C122_optimal",
    "Direpack.C122_order_partial",
    "Direpack.C122_few_slices_violated"
   ],
   "note": "Proved part: C122 (partial: methods that are not based on optimisation, slices that cover all cases, no whitening): a fit on the same cases in another order is the same model; the scores of the training data are in the new order. The code does not have the full property: C122 is violated for a discrete response with more different values than slices: only the values met first are used, so another order of the cases gives another subspace."
  },
  {
   "property": "C123",
   "status": "proved",
   "theorems": [
    "Direpack.C123_response"
   ],
   "note": ""
  },
  {
   "property": "C124",
   "status": "proved",
   "theorems": [
    "Direpack.C124_scores",
    "Direpack.C124_predict",
    "Direpack.C124_optimal"
   ],
   "note": ""
  },
  {
   "property": "C125",
   "status": "proved",
   "theorems": [
    "Direpack.C125_order",
    "Direpack.C125_order_alone"
   ],
   "note": ""
  },
  {
   "property": "C126",
   "status": "proved",
   "theorems": [
    "Direpack.C126_pca"
   ],
   "note": ""
  },
  {
   "property": "C127",
   "status": "proved",
   "theorems": [
    "Direpack.C127_pls"
   ],
   "note": ""
  },
  {
   "property": "C128",
   "status": "proved",
   "theorems": [
    "Direpack.C128_rm_run",
    "Direpack.C128_sprm_run"
   ],
   "note": ""
  },
  {
   "property": "C129",
   "status": "partial",
   "theorems": [
    "Direpack.C129_grid_partial",
    "Direpack.C129_grid_one_block_partial",
    "Direpack.C129_nonneg_partial",
    "Direpack.C129_reported_optimum",
    "Direpack.C129_optimiser_violated"
   ],
   "note": "Proved part: C129 (partial: the grid optimiser). With `optimizer='grid'`, `square_pi=True` is the same as using the square of the projection index: the whole fitted model is the same, directions, reported optima and regression, or both fits fail in the same way. Missing: the other optimisers (`C129_optimiser_violated`, `C129_nonneg_partial`). | The same for fits without a response. | C129 (partial: nonnegative indices). An optimiser that solves the problem it is given exactly returns a direction for which also the squared index is the largest, if the index of every direction is nonnegative. The code does not have the full property: C129 is violated by the optimisers other than the grid, however good they are. With the third co-moment as projection index, `square_pi=True` and *any* optimiser that solves the problem that it is given exactly, the fit of these data succeeds, and the square of the index in the direction found is 1/4, whereas it is 4 in the direction of the first variable."
  },
  {
   "property": "C130",
   "status": "partial",
   "theorems": [
    "Direpack.C130_coords_partial",
    "Direpack.C130_coords_iff",
    "Direpack.C130_value_partial",
    "Direpack.C130_many_cases_violated",
    "Direpack.C130_objective_violated",
    "Direpack.C130_fit_violated"
   ],
   "note": "Proved part: C130 (partial: the coordinates, when they are found): the rows of the result have the distances in the table, and row `i` has zeros from column `i` on. | C130 (partial: the objectives, for vectors of the length that they need): for distances of affinely independent cases, the objectives are evaluated on coordinates with these distances: minus ten times the distance covariance with the response, of which the distances are given too, and the martingale difference divergence. The code does not have the full property: C130 is violated: no coordinates are found for the distances of more than `p + 1` cases in `p` variables. | C130 is violated: for a table of distances of any `n \u2265 1` cases, the objectives of MDD-SDR and DCOV-SDR fail at every vector with one value per column of the table and component, which is what a fit starts from. | C130 is violated: no fit to a square table, such as a matrix of distances, succeeds with any method."
  },
  {
   "property": "C131",
   "status": "proved",
   "theorems": [
    "Direpack.C131_save_optimal"
   ],
   "note": ""
  },
  {
   "property": "C132",
   "status": "partial",
   "theorems": [
    "Direpack.C132_dr_corrected",
    "Direpack.C132_dr_optimal_partial",
    "Direpack.C132_dr_optimal_violated"
   ],
   "note": "Proved part: C132 (partial: centred data, slices that cover all cases, and second moments of the slices that average to the metric): the directions of directional regression maximise, one after another, how far the expected squared differences of cases are from those of independent cases. The code does not have the full property: C132 is violated: for these centred and scaled data, whose slices cover all cases, the direction that directional regression returns does not maximise its criterion, because the covariance matrices of the slices (divisor one less than their size) do not average to what the method assumes."
  },
  {
   "property": "C133",
   "status": "partial",
   "theorems": [
    "Direpack.C133_phd_signed",
    "Direpack.C133_phd_strength_partial",
    "Direpack.C133_phd_strength_violated"
   ],
   "note": "Proved part: C133 (partial: the response is nowhere curved downwards): the directions maximise the strength of the curvature, whatever its sign. The code does not have the full property: C133 is violated: the direction returned for these centred and scaled data is not the one in which the response is curved most."
  },
  {
   "property": "C134",
   "status": "partial",
   "theorems": [
    "Direpack.C134_iht_space_partial",
    "Direpack.C134_iht_space_violated",
    "Direpack.C134_unscaled_partial"
   ],
   "note": "Proved part: C134 (partial: scaled data, and the first direction only): the first direction of iterative Hessian transformation is a multiple of the least squares coefficients, so it is in the space of the method. | C134 without scaling (partial: it says what the directions are, not that they are in the space of the method): they are orthonormal, and each of them maximises the sum of the squared products with the vectors `\u03a3^i c` among the unit vectors orthogonal to the earlier ones. The code does not have the full property: C134 is violated: for one of two responses whose space has dimension two, one of the two directions returned is outside that space. The program takes powers of the covariance matrix, which is the identity for scaled data, instead of powers of the Hessian matrix."
  },
  {
   "property": "C135",
   "status": "partial",
   "theorems": [
    "Direpack.C135_rm_partial",
    "Direpack.C135_sprm_partial",
    "Direpack.C135_snipls_partial",
    "Direpack.C135_ppdire_partial",
    "Direpack.C135_ppdire_one_block_partial",
    "Direpack.C135_sudire_partial",
    "Direpack.C135_snipls_set_violated"
   ],
   "note": "Proved part: C135 for `rm`. | C135 for `sprm`: the sparsity parameter is in [0,1), the number of components is positive and at most the number of cases and of variables that are kept, and the cutoffs make sense. | C135 for `snipls`, settings given to the constructor. | C135 for `ppdire` with a response. | C135 for `ppdire` without a response. | C135 for `sudire`. The code does not have the full property: C135 is violated for `snipls` after `set_params`: the range of the sparsity parameter is looked at by the constructor only. With a value of one or more every data set whose variables have a scale gives a model without components, which predicts a constant."
  },
  {
   "property": "C136",
   "status": "partial",
   "theorems": [
    "Direpack.C136_ppdire_partial",
    "Direpack.C136_snipls_partial",
    "Direpack.C136_rm_partial",
    "Direpack.C136_sprm_partial",
    "Direpack.C136_sudire_partial",
    "Direpack.C136_sudire_violated"
   ],
   "note": "Proved part: C136 for `ppdire`: with centring, the locations of the variables and of the response are the statistics asked for; with scaling and without trimming the scales are the standard deviations or median absolute deviations; without scaling they are one. | C136 for `snipls`. | C136 for `rm`. | C136 for `sprm`; the scale `'scaleTau2'` gives way to the median absolute deviation when one of these is zero. | C136 for `sudire`: with centring, the locations are the statistics asked for; with the median, the scales are the median absolute deviations, or one without scaling. Missing: the scales reported with the mean (`C136_sudire_violated`). The code does not have the full property: C136 is violated for `sudire` with the mean: without scaling, `x_sca_` reports standard deviations (with divisor `n - 1`) that have not been used: the result is the same for a fit with scaling."
  },
  {
   "property": "C137",
   "status": "partial",
   "theorems": [
    "Direpack.C137_ppdire_partial",
    "Direpack.C137_ppdire_h_violated",
    "Direpack.C137_ppdire_whiten_violated",
    "Direpack.C137_unchanged_partial",
    "Direpack.C137_whiten_violated",
    "Direpack.C137_solver_violated"
   ],
   "note": "Proved part: C137 (partial: `ppdire` without `whiten_data` and without the argument `h`): `fit` leaves the parameters as they are, also when it raises. | C137 (partial: no whitening, and a method that needs no optimisation): `fit` leaves the parameters of the estimator as they are, including the start value, constraints and arguments of the solver. The code does not have the full property: C137 is violated: the argument `h` of `fit` replaces the number of components for good, also when `fit` raises because there are too many. | C137 is violated: `whiten_data=True` overwrites three parameters, so that the fit (which raises, see C84) leaves `scale_data`, `center_data` and `compression` changed for the next one. | C137 is violated with whitening: afterwards the estimator has `center_data=True` and `scale_data=False`, whatever they were, also when whitening is switched off again. | C137 is violated by the methods that use optimisation: after a fit of an object made without a start value, constraints and arguments for the solver, these parameters have values."
  },
  {
   "property": "C138",
   "status": "partial",
   "theorems": [
    "Direpack.C138_last_fit_partial",
    "Direpack.C138_last_fit",
    "Direpack.C138_transform",
    "Direpack.C138_mixed_violated",
    "Direpack.C138_fit_transform",
    "Direpack.C138_returns",
    "Direpack.C138_stored"
   ],
   "note": "Proved part: C138 (partial: the scale can be estimated wherever the location can): after any history of calls, including calls that raised, the object holds the location and scale of the last data set it was fitted to successfully, and nothing if there is none. The code does not have the full property: C138 is violated when a refit fails after the location has been computed: with `center='median'`, `scale='std'` and `trimming=0.6`, a scaler fitted to three cases and then to five raises in the second fit, and afterwards standardises with the location of the second data set and the scale of the first."
  },
  {
   "property": "C139",
   "status": "partial",
   "theorems": [
    "Direpack.C139_inverse_partial",
    "Direpack.C139_refit_violated"
   ],
   "note": "Proved part: C139 (partial: no fit in between): after `transform(X)` and any number of calls of `predict` and `inverse_transform`, `inverse_transform()` without an argument is `np.multiply(T, scale) + loc` with the location and scale of the object and the table `T` that `transform` returned. So it undoes `transform` whenever `inverse_transform(T)` does (C09). The code does not have the full property: C139 is violated by a fit in between: `inverse_transform()` after `fit(X)`, `transform(X)` and `fit(Y)` uses the old standardised data with the new location and scale, and gives neither `X` nor `Y`."
  },
  {
   "property": "C140",
   "status": "proved",
   "theorems": [
    "Direpack.C140_snipls",
    "Direpack.C140_ppdire",
    "Direpack.C140_one_block",
    "Direpack.C140_last_column",
    "Direpack.C140_sudire"
   ],
   "note": ""
  },
  {
   "property": "C141",
   "status": "proved",
   "theorems": [
    "Direpack.C141_snipls",
    "Direpack.C141_ppdire",
    "Direpack.C141_sudire"
   ],
   "note": ""
  },
  {
   "property": "C142",
   "status": "partial",
   "theorems": [
    "Direpack.C142_snipls_partial",
    "Direpack.C142_snipls_violated",
    "Direpack.C142_ppdire_partial",
    "Direpack.C142_sudire",
    "Direpack.C142_rm_violated",
    "Direpack.C142_rm_mean_violated",
    "Direpack.C142_rm_median_violated"
   ],
   "note": "Proved part: C142 (SNIPLS; partial: as many components as predictors were extracted, a response of nonzero scale, and mean centring, or no centring and no intercept): the slopes and the intercept of the relationship are `coef_` and `intercept_`. | C142 (ppdire; partial: least squares, the mean as centre, no trimming, and as many components as predictors): the slopes and the intercept of the relationship are `coef_` and `intercept_`, for every projection index and every optimiser. The code does not have the full property: C142 is violated by SNIPLS: once the components explain the response without error, asking for more of them, still at most as many as there are predictors or not, gives no model (in the code the further columns, and with them all coefficients, are NaN). | C142 is violated by robust M regression: if the locations of response and predictors satisfy the relationship too, `fit` gives no model, whatever the weight function, its tuning, the scale and the number of iterations. (The residuals of the first weighted least squares fit vanish, and they are divided by the median of the nonzero ones. In the code the weights are then NaN.) | C142 is violated by robust M regression with the mean as centre, for every exact relationship. | C142 is violated by robust M regression with the median as centre (the default), for every exact relationship with a single predictor."
  },
  {
   "property": "C143",
   "status": "partial",
   "theorems": [
    "Direpack.C143_snipls_predict",
    "Direpack.C143_snipls_transform",
    "Direpack.C143_rm_predict",
    "Direpack.C143_sprm_predict",
    "Direpack.C143_sprm_transform",
    "Direpack.C143_sprm_weights_violated",
    "Direpack.C143_ppdire_predict_partial",
    "Direpack.C143_ppdire_transform_partial",
    "Direpack.C143_ppdire_uncentred_violated",
    "Direpack.C143_ppdire_compression_violated",
    "Direpack.C143_sudire_transform",
    "Direpack.C143_sudire_predict_violated"
   ],
   "note": "Proved part: C143: predictions of a `ppdire` model fitted without compression are made case by case. | C143: scores of a `ppdire` model fitted with `center_data=True` and without compression are computed case by case. The code does not have the full property: C143 is violated by the weights `sprm` gives to new cases: they are relative to the other cases of the batch. | C143 is violated by the scores of a `ppdire` model fitted with `center_data=False` to two or more variables: no matrix of scores is returned. | C143 is violated by predictions after compression with the mean as centre: batches of another size than the training data fail. | C143 is violated by the predictions of `sudire`: a single case cannot be predicted although the same case can be predicted together with others (`C93_predict_partial`)."
  },
  {
   "property": "C144",
   "status": "proved",
   "theorems": [
    "Direpack.C144_dvar_zero",
    "Direpack.C144_dcorr_one",
    "Direpack.C144_dcorr_one_linear"
   ],
   "note": ""
  },
  {
   "property": "C145",
   "status": "proved",
   "theorems": [
    "Direpack.C145_rm_model_iff"
   ],
   "note": ""
  },
  {
   "property": "C146",
   "status": "partial",
   "theorems": [
    "Direpack.C146_rm_influence_partial",
    "Direpack.C146_rm_influence_violated",
    "Direpack.C146_rm_rejected_violated"
   ],
   "note": "Proved part: What holds of C146 for one predictor: the influence of case `k`. With the weights of the last fit, which are between `1e-6` and 1, the coefficient differs from the weighted least squares coefficient of the other cases by the weight of the case, times its standardised predictor, times its residual from the fit to the others, divided by the weighted sum of squares of the predictor. (Missing: the claim itself, see `C146_rm_influence_violated`.) The code does not have the full property: C146 is violated by robust M regression with robust location and scale, for every weight function, tuning and number of iterations: the coefficient is not bounded when one of five responses varies. (A rejected case still takes part in the weighted fits, with weight `1e-6`.) | Even with redescending weights, and although the outlying case is reported with weight zero, the coefficient depends on its response without bound: with the default kind of settings (Hampel weights, cutoffs for the response between 1.35 and two million, for the predictor above 2), the four cases on the line have weight 1, the fifth weight 0, and the coefficient is `(6 + 2e-6 M)/(6 + 4e-6)` for every response `M` of the fifth case that is rejected at the start."
  },
  {
   "property": "C147",
   "status": "partial",
   "theorems": [
    "Direpack.C147_optimised_data_partial",
    "Direpack.C147_mean_violated",
    "Direpack.C147_scaled_violated"
   ],
   "note": "Proved part: C147 for the median, and for data that are neither centred nor scaled: the data handed to the optimiser are the given data minus the published location, divided by the published scale (a zero scale leaves the values undivided). Missing: the mean (`C147_mean_violated`, `C147_scaled_violated`). The code does not have the full property: C147: centred at the mean and not scaled, the data handed to the optimiser are the deviations from the (trimmed) mean. The published scale, which is not one, has not been used: the property is violated for every value that differs from the mean in a column whose standard deviation is neither zero nor one. | C147: with the mean and scaling, the data handed to the optimiser are the (centred) data times the inverse square root of their covariance matrix, a change of all the variables at once: the published scales are not used."
  },
  {
   "property": "C148",
   "status": "proved",
   "theorems": [
    "Direpack.C148_l1median",
    "Direpack.C148_kstepLTS",
    "Direpack.C148_scaleTau2"
   ],
   "note": ""
  },
  {
   "property": "C149",
   "status": "partial",
   "theorems": [
    "Direpack.C149_direction_partial",
    "Direpack.C149_first",
    "Direpack.C149_pls",
    "Direpack.C149_dropped_violated"
   ],
   "note": "Proved part: C149: the weights of component `k` are the best direction for the unexplained part of the response, with the penalty `eta` times the largest absolute covariance, if every variable that was retained earlier still has a covariance of at least that size (or none at all); this is so for the first component and for `eta = 0`. Missing: the other components (`C149_dropped_violated`). The code does not have the full property: C149 is violated by later components: a variable that was retained before and whose covariance (not zero) has fallen below the threshold gets a weight of the wrong sign, and the direction without this variable is better."
  },
  {
   "property": "C150",
   "status": "partial",
   "theorems": [
    "Direpack.C150_counts_partial",
    "Direpack.C150_together_partial",
    "Direpack.C150_together_violated",
    "Direpack.C150_approx_violated",
    "Direpack.C150_shape"
   ],
   "note": "Proved part: C150 with a given gradient: the number of calls of the objective function, the number of gradients asked for, the last iteration, and success exactly for status 0. | C150 for an objective function that gives value and gradient (`jac=True`): `nfev` is the number of its calls. The code does not have the full property: C150 is violated for `jac=True`: `njev` is zero however many gradients were asked for. | C150 is violated without a given gradient (as `ppdire` and `sudire` call it): the calls made by the numerical gradient, `k` for each, are not counted."
  },
  {
   "property": "C151",
   "status": "proved",
   "theorems": [
    "Direpack.C151_rm",
    "Direpack.C151_rm_ols",
    "Direpack.C151_sprm",
    "Direpack.C151_sprm_fits"
   ],
   "note": ""
  },
  {
   "property": "C152",
   "status": "proved",
   "theorems": [
    "Direpack.C152_scaled",
    "Direpack.C152_all_components",
    "Direpack.C152_at_most_rank",
    "Direpack.C152_ols"
   ],
   "note": ""
  },
  {
   "property": "C153",
   "status": "partial",
   "theorems": [
    "Direpack.C153_white_partial",
    "Direpack.C153_unit_variance_violated"
   ],
   "note": "Proved part: C153 for centring at the mean without trimming: the whitened data have uncorrelated columns, all with the variance `p / (n - 1)`. Missing: unit variance (`C153_unit_variance_violated`). The code does not have the full property: C153 is violated: unless there is one case more than there are predictors, no column of the whitened data has unit variance (the data are multiplied by the square root of the number of predictors, not of cases)."
  },
  {
   "property": "C154",
   "status": "partial",
   "theorems": [
    "Direpack.C154_symmetric_mom",
    "Direpack.C154_symmetric_skew",
    "Direpack.C154_symmetric_com",
    "Direpack.C154_symmetric_cos",
    "Direpack.C154_kurt_skew",
    "Direpack.C154_median_violated"
   ],
   "note": "The code does not have the full property: C154 is violated for centring at the median: the third moment of symmetric data is then not zero."
  },
  {
   "property": "C155",
   "status": "partial",
   "theorems": [
    "Direpack.C155_value_partial",
    "Direpack.C155_refit_violated",
    "Direpack.C155_first",
    "Direpack.C155_new",
    "Direpack.C155_twice_violated"
   ],
   "note": "Proved part: C155 for centring at the mean, for unscaled co-moments and for `max_degree=2`: after whatever fits, the index is the combination (C60) of co-moments each of which is what a new `dicomo` object gives for the data. Missing: scaled co-moments with the median (`C155_refit_violated`). The code does not have the full property: C155 is violated for scaled co-moments of degree three and more with the median as centre: once the object has been fitted, the covariance is the one about the mean, in this and all later fits, whatever the data. | Fitting the object twice to the same data (a column (0,1,2) and the same response) gives two values: their difference is the weight of the covariance times the difference of the covariances about the median and about the mean."
  },
  {
   "property": "C156",
   "status": "partial",
   "theorems": [
    "Direpack.C156_complete",
    "Direpack.C156_blank_case",
    "Direpack.C156_unlabelled_violated"
   ],
   "note": "The code does not have the full property: C156 is violated by cases without a response: if to any complete data set (centre `mean`, scale `std` or `None`) one adds its cases again without their responses, all coefficients are halved, for every number of components and every sparsity; the predictions are half way between the old ones and the mean response."
  },
  {
   "property": "C157",
   "status": "partial",
   "theorems": [
    "Direpack.C157_coef_partial",
    "Direpack.C157_fitted_partial",
    "Direpack.C157_shift_violated"
   ],
   "note": "Proved part: C157, the part that holds for all patterns of missing cells: constants added to the predictors do not change components and coefficients. Missing: the fitted values (`C157_shift_violated`). | C157 for complete predictors (the responses may be missing): the fitted values are the same as well. The code does not have the full property: C157 is violated by missing predictors: if a retained predictor is missing in the case `i2` and available in `i1`, adding `d` to it changes the difference between the fitted values of both by `d` times the coefficient, so that any `d \u2260 0` changes the fitted values, without bound as `d` grows."
  },
  {
   "property": "C158",
   "status": "partial",
   "theorems": [
    "Direpack.C158_predict_partial",
    "Direpack.C158_missing_violated"
   ],
   "note": "Proved part: C158 for a training case without missing predictors: its prediction is its fitted value. Missing: cases with missing predictors (`C158_missing_violated`). The code does not have the full property: C158 is violated for every training case with a missing predictor, even one that the model does not use: `predict` gives NaN; the fitted value is the number that one gets by putting zeros for the missing cells, whatever the origin of the predictors is."
  },
  {
   "property": "C159",
   "status": "partial",
   "theorems": [
    "Direpack.C159_return_partial",
    "Direpack.C159_return_violated"
   ],
   "note": "Proved part: C159, the part that holds: unless the centre is the median and the data are neither centred, scaled nor whitened, `return_scaling_object` has no influence on the results, the state of the object, or the failure. Missing: `C159_return_violated`. The code does not have the full property: C159 is violated with `center='median'`, `center_data=False`, `scale_data=False`: for all data, if a fit with `return_scaling_object=False` works, the one with the default `True` raises an UnboundLocalError, after the computation has been done."
  },
  {
   "property": "C160",
   "status": "proved",
   "theorems": [
    "Direpack.C160_weights",
    "Direpack.C160_pls",
    "Direpack.C160_total",
    "Direpack.C160_uncorrelated"
   ],
   "note": ""
  },
  {
   "property": "C161",
   "status": "partial",
   "theorems": [
    "Direpack.C161_rm_scaled",
    "Direpack.C161_rm_partial",
    "Direpack.C161_rm_violated",
    "Direpack.C161_sprm_partial",
    "Direpack.C161_sprm_violated"
   ],
   "note": "Proved part: C161 for robust M regression with the mean as centre: the case weights are the weight function at the relative sizes of `residuals_` and at the cases' relative distances from the centre. | C161 for sparse partial robust M regression, as far as it holds: the response weights are the weight function at the relative sizes of differences between the standardised response and the fitted values of the *weighted* data of the last fit, which are the square roots of the weights `w` of that fit times the published linear function, plus a constant. If these weights are one and the centre is the mean, the differences have the same relative sizes as `residuals_`. The code does not have the full property: C161 fails for robust M regression with the default settings: the intercept is the median of the residuals, but the residuals behind the weights have none. Of five cases, all get weight one although the first one's residual is so large that the weight function is below one there. | C161 fails for sparse partial robust M regression beyond the intercept: the nine cases all lie exactly on the published model, all residuals are zero, but the last case has response weight below one. (Any quantile function with the 95% point between 1.6 and 1.7.)"
  },
  {
   "property": "C162",
   "status": "partial",
   "theorems": [
    "Direpack.C162_rm_partial",
    "Direpack.C162_rm_limit",
    "Direpack.C162_rm_lower",
    "Direpack.C162_rm_violated",
    "Direpack.C162_rm_clean",
    "Direpack.C162_sprm_partial",
    "Direpack.C162_sprm_limit",
    "Direpack.C162_sprm_lower",
    "Direpack.C162_sprm_clean"
   ],
   "note": "Proved part: C162 (partial): raising the iteration limit by one either leaves the model as it is, or gives the coefficients of the weighted least squares fit for the case weights published under the lower limit. Missing: the case weights that are published with coefficients need not be the ones of their fit (`C162_rm_violated`). | C162 (partial): raising the iteration limit of sparse partial robust M regression by one either leaves the model as it is, or gives the sparse partial least squares model of the data weighted with the case weights published under the lower limit. Missing: as for `C162_rm_partial`. The code does not have the full property: C162 fails: the published case weights need not be those of the fit that gave the coefficients. Here all five are one, but the slope is smaller than that of the least squares fit, which is one."
  },
  {
   "property": "C163",
   "status": "proved",
   "theorems": [
    "Direpack.C163_dcov_zero",
    "Direpack.C163_dcorr_zero",
    "Direpack.C163_arithmetic",
    "Direpack.C163_factorial",
    "Direpack.C163_arithmetic_converse"
   ],
   "note": ""
  },
  {
   "property": "C164",
   "status": "proved",
   "theorems": [
    "Direpack.C164_mdd_zero",
    "Direpack.C164_extremes"
   ],
   "note": ""
  },
  {
   "property": "C165",
   "status": "partial",
   "theorems": [
    "Direpack.C165_snipls",
    "Direpack.C165_snipls_iff",
    "Direpack.C165_dicomo_arithmetic",
    "Direpack.C165_dicomo_distance",
    "Direpack.C165_biascorr_violated",
    "Direpack.C165_rm",
    "Direpack.C165_snipls_outcome",
    "Direpack.C165_sprm_partial"
   ],
   "note": "Proved part: C165: fitting SPRM to data in which every case is entered `k` times has the same outcome as fitting it to the data themselves: the same failure, or the same coefficients, intercepts, components, locations, scales, retained variables and number of iterations, and for every copy of a case the fitted value, residual, scores and weights of that case. Missing: the starting weights from principal components (`start_X_init='pcapp'`), `scale='scaleTau2'`, and requests for more components than there are cases, where the fit to the data themselves fails the parameter check. The code does not have the full property: C165 (violated with bias correction): the corrected variance of `0, 1` is `1/2`, that of `0, 1, 0, 1` is `1/3`."
  },
  {
   "property": "C166",
   "status": "partial",
   "theorems": [
    "Direpack.C166_signs",
    "Direpack.C166_mean",
    "Direpack.C166_l1median",
    "Direpack.C166_ltsStep",
    "Direpack.C166_kstepLTS_partial",
    "Direpack.C166_kstepLTS_violated",
    "Direpack.C166_snipls",
    "Direpack.C166_rm",
    "Direpack.C166_sprm",
    "Direpack.C166_median_violated",
    "Direpack.C166_sparse_violated"
   ],
   "note": "Proved part: C166: the least trimmed squares location started at corresponding points follows every rotation when the tolerance is zero or negative. Missing: a positive tolerance is compared with the largest change of a single coordinate, which depends on the axes, so that the number of steps can differ. The code does not have the full property: C166 (violated for the least trimmed squares location with a positive tolerance): started at the spatial median of the cases, the iteration stops after one step in the original axes and takes a further step in the rotated axes, so that the location is not the rotated location. (Exact computation with rational numbers.) | C166 (violated for the median): the column-wise median of three points is not the rotated median. | C166 (violated with sparsity): with `eta = 4/5` SNIPLS fits another model after a rotation of the axes, with other fitted values."
  },
  {
   "property": "C167",
   "status": "partial",
   "theorems": [
    "Direpack.C167_exists",
    "Direpack.C167_objective",
    "Direpack.C167_unique",
    "Direpack.C167_mixture",
    "Direpack.C167_optimal_iff",
    "Direpack.C167_gradient",
    "Direpack.C167_follows",
    "Direpack.C167_l1median",
    "Direpack.C167_kstepLTS",
    "Direpack.C167_signs",
    "Direpack.C167_start_partial",
    "Direpack.C167_start_violated"
   ],
   "note": "Proved part: C167: without the keyword `x0` and with an optimiser that finds the minimum, `l1median` returns a spatial median of two or more columns. Missing: the same with a start chosen by the caller. The code does not have the full property: C167 (violated for a start chosen by the caller): with the keyword `x0` no data set of two or more columns has a spatial median, whatever the start."
  },
  {
   "property": "C168",
   "status": "partial",
   "theorems": [
    "Direpack.C168_idempotent_partial",
    "Direpack.C168_l1median_violated"
   ],
   "note": "Proved part: C168: for the locations mean (trimmed or not), median and 'None' and the scales standard deviation (trimmed or not), MAD and 'None', in every combination, `fit_transform` of the result of `fit_transform` is that result. Missing: the spatial median as centre, for which this is false (`C168_l1median_violated`), and the k-step LTS location. The code does not have the full property: C168 (violated for the spatial median): for every optimiser that finds the minimum, the standardised data of these three cases are changed when they are standardised again, because scaling the columns moves the spatial median."
  },
  {
   "property": "C169",
   "status": "partial",
   "theorems": [
    "Direpack.C169_snipls_partial",
    "Direpack.C169_snipls_violated",
    "Direpack.C169_rm_partial",
    "Direpack.C169_rm_violated",
    "Direpack.C169_distance",
    "Direpack.C169_signs_partial",
    "Direpack.C169_signs_violated",
    "Direpack.C169_median",
    "Direpack.C169_scaled_violated"
   ],
   "note": "Proved part: C169: SNIPLS without scaling, with the mean or the median as location, ignores constant predictors. It gives a model for the larger table exactly when it gives one for the smaller; the constant predictors are never retained and have coefficient zero; the other coefficients, the intercept, the retained variables, the scores, the fitted values, the residuals, and the predictions of new cases (whatever their values of the constant predictors) are the same. With scaling see `C169_snipls_violated`. | C169: RM without scaling and with cutoffs that do not refer to the number of predictors ignores constant predictors: the same exception, or the same coefficients, with zeros for the constant predictors, and the same intercepts, fitted values, residuals, case weights and number of iterations. With scaling see `C169_rm_violated`; not covered are the cutoffs of `start_cutoff_mode='specific'`, whose degrees of freedom are the number of columns. | C169: the plain spatial signs of centred data (`fun='ss'`) do not depend on constant columns, whose signs are zero. For the other functions see `C169_signs_violated`. The code does not have the full property: C169 does not hold with scaling: the spread of a constant predictor is zero, the rescaled coefficient is zero divided by zero, and there is never a usable model. | C169 does not hold with scaling: there is never a usable model with a constant predictor. | C169 does not hold for the other functions: they read the distance quantile number `\u230a(n+p+1)/2\u230b`, where `p` counts the constant columns; with a constant column that makes the table wider than long there is no transform. | C169 does not hold with scaling, on an example: two cases and two predictors give a model with standardised variables; with a third predictor that is always 7 there is none."
  },
  {
   "property": "C170",
   "status": "partial",
   "theorems": [
    "Direpack.C170_order",
    "Direpack.C170_copies",
    "Direpack.C170_copies_distance",
    "Direpack.C170_origin",
    "Direpack.C170_axes",
    "Direpack.C170_units_partial",
    "Direpack.C170_units_violated"
   ],
   "note": "Proved part: C170: with `scaling=True` a change of origin and units changes the index only through the covariance, which is not standardised: it has the first weight and is multiplied by both factors. In particular an index whose first weight is zero does not depend on the units. The code does not have the full property: C170 does not hold for the units, although `scaling=True` is meant to give standardised co-moments: doubling a variable changes the index whenever the first weight is not zero (a column (0,1,2) and the same response)."
  },
  {
   "property": "C171",
   "status": "partial",
   "theorems": [
    "Direpack.C171_arguments_partial",
    "Direpack.C171_second_order",
    "Direpack.C171_option_violated",
    "Direpack.C171_order_violated",
    "Direpack.C171_metric_violated",
    "Direpack.C171_default_violated"
   ],
   "note": "Proved part: C171: the mode, the centre, the estimator, the trimming fraction, alpha and the bias correction reach the index: if neither `option` nor `order` is given, the index is the statistic asked for. The code does not have the full property: C171 is violated for `option`: with co-skewness as index, `fit(X, y=y, option=2)` computes CoS(x,x,y) and not CoS(x,y,y). For the scores (-1,0,1) and the response (1,-2,1) the index asked for is 0 and the one computed is not. | C171 is violated for `order`: with `mode='mom'` the index is the variance, also if `order=3` is given; for the scores (0,0,6) the third central moment is 16 and the variance 8. | C171 is violated for the metric: whatever is given, the index gets 'euclidean'. | C171 is violated for the default `pi_arguments={}`: a `dicomo` object made with its defaults computes the variance, `ppdire` with that index and the same defaults raises a KeyError for all data."
  },
  {
   "property": "C172",
   "status": "partial",
   "theorems": [
    "Direpack.C172_snipls_partial",
    "Direpack.C172_rm_partial",
    "Direpack.C172_snipls_violated",
    "Direpack.C172_rm_violated"
   ],
   "note": "Proved part: C172 (partial). SNIPLS with mean centring and as many components as the rank of the predictors: adding a linear function of the predictors and a constant to the response adds it to the fitted values and leaves the residuals as they were. (Missing: fewer components.) | C172 (partial). Robust M regression with mean centring, when neither the response nor the response with the linear function added has outliers. (Missing: data with outliers, for which the claim is false.) The code does not have the full property: C172 (violated for SNIPLS with fewer components than predictors): with one component, adding the second predictor to the response does not add it to the fit. | C172 (violated for robust M regression): there is no model for a response of which more than half of the values are the same, and there is one after adding a linear function of the predictors."
  },
  {
   "property": "C173",
   "status": "partial",
   "theorems": [
    "Direpack.C173_arithmetic",
    "Direpack.C173_values",
    "Direpack.C173_median",
    "Direpack.C173_distance_partial",
    "Direpack.C173_distance_violated"
   ],
   "note": "Proved part: C173. Distance variance and distance covariance with mean centring and trimming fraction `t > 0` are bounded by a number that depends only on the settings and the box of the clean cases as long as the `2kn - k\u00b2` pairs of cases that involve one of `k` outliers are not more than the `int(t n\u00b2)` entries cut on either side. (Missing: the promise for `k = int(t n)` outliers, which is false, see `C173_distance_violated`.) The code does not have the full property: With four cases and a quarter trimmed on each side, `int(t n) = 1` outlier is enough to make the trimmed distance variance as large as one likes, although the trimmed variance of the same data is zero."
  },
  {
   "property": "C174",
   "status": "partial",
   "theorems": [
    "Direpack.C174_save_sir_partial",
    "Direpack.C174_save_sir_violated"
   ],
   "note": "Proved part: C174. Scaled data and slices that cover all cases. If SAVE returns a model, then in every direction of unit variance the variation between the slices, which SIR maximises, is at most `(s - 1) / n` plus the square root of what SAVE maximises; if SAVE sees nothing it is exactly `(s - 1) / n`. (Missing: it should be zero; see `C174_save_sir_violated`.) The code does not have the full property: C174 is violated: the means of the first variable differ between the two slices and SIR finds that direction, but SAVE sees nothing of it and returns a direction in which no means differ. The data meet the hypotheses of `C174_save_sir_partial`."
  },
  {
   "property": "C175",
   "status": "partial",
   "theorems": [
    "Direpack.C175_plane_partial",
    "Direpack.C175_index",
    "Direpack.C175_first_plane_partial",
    "Direpack.C175_space_violated"
   ],
   "note": "Proved part: C175. A search of the plane reaches at least the share `cos\u00b2(\u03c0/(2 ndir))` of the largest value of a criterion that is a nonnegative quadratic form. | C175 (partial: odd numbers of directions, and combinations of the first two variables). The direction returned reaches the share `cos\u00b2(\u03c0/(2 ndir))` of the criterion of every combination of the first two variables. The code does not have the full property: C175 is violated for three variables and every number of directions `4 s + 3`, whatever the number of iterations: for the variance of these data the search returns a direction of variance 50, although another has 81, and the share that the angles of the grid would grant is not reached."
  },
  {
   "property": "C176",
   "status": "proved",
   "theorems": [
    "Direpack.C176_dr_optimal",
    "Direpack.C176_dr_sir"
   ],
   "note": ""
  },
  {
   "property": "C177",
   "status": "partial",
   "theorems": [
    "Direpack.C177_snipls_partial",
    "Direpack.C177_rm_partial",
    "Direpack.C177_sprm_partial",
    "Direpack.C177_sprm_units_partial",
    "Direpack.C177_grid_violated"
   ],
   "note": "Proved part: C177. SNIPLS: two variables with the same content in different units both enter or both stay out, and contribute equally: the coefficients are those of one variable in the two units. Partial, as the property is about all estimators: the grid search of `ppdire` does not have it (`C177_grid_violated`). | C177. Robust M regression: the same for the coefficients. Partial as for SNIPLS. | C177. Sparse partial robust M regression: equal variables are both kept or both dropped, and have equal coefficients. Partial: no change of units; see the next theorem. | C177. Sparse partial robust M regression, for a variable in two units. Partial: starting weights from the distances, and both versions kept (by C116 a version with a scale below `1e-5` is dropped). The code does not have the full property: C177 is violated by the grid search of `ppdire`: with three directions and the variance the first of two equal variables gets weight 1/2, the second \u221a3/2, whatever the number of iterations."
  },
  {
   "property": "C178",
   "status": "partial",
   "theorems": [
    "Direpack.C178_snipls",
    "Direpack.C178_sprm",
    "Direpack.C178_rm_partial",
    "Direpack.C178_ppdire",
    "Direpack.C178_rm_violated"
   ],
   "note": "Proved part: C178, robust M regression: with the mean the residuals sum to zero and the model goes through the point of means that it reports; with any other centre the median of the residuals is zero. Missing: without centring the model has an intercept all the same (`C178_rm_violated`). The code does not have the full property: C178 fails for robust M regression without centring: a model is fitted whose prediction at the origin is not zero, where SNIPLS and SPRM have no intercept with the same setting."
  },
  {
   "property": "C179",
   "status": "partial",
   "theorems": [
    "Direpack.C179_snipls_partial",
    "Direpack.C179_median_violated"
   ],
   "note": "Proved part: C179: SNIPLS with the mean as location, standardised or not, ignores predictors that are uncorrelated with the response and with the other predictors. It gives a model for the larger table exactly when it gives one for the smaller; the additional predictors are never retained and have coefficient zero; the other coefficients, the intercept, the retained variables, the scores, the fitted values, the residuals, and the predictions of new cases (whatever their values of the additional predictors) are the same. With scaling the additional predictors must not be constant. Missing: the median as location (`C179_median_violated`). The code does not have the full property: C179 does not hold with the median: deviations from the medians of uncorrelated variables are not orthogonal, and the uncorrelated predictor enters the model."
  },
  {
   "property": "C180",
   "status": "partial",
   "theorems": [
    "Direpack.C180_mdd_subsamples",
    "Direpack.C180_mdd_pairings",
    "Direpack.C180_dcov_subsamples_partial",
    "Direpack.C180_dcov_fast_violated",
    "Direpack.C180_dcov_naive_violated",
    "Direpack.C180_dcov_violated"
   ],
   "note": "Proved part: C180 (partial: distance covariance by the fast algorithm, where no subsample gives NaN): if `dicomo` gives a number for each subsample of `m` cases, then it gives a number for all the data, and the average of the squares over the subsamples is the square of that number. The code does not have the full property: C180 is violated by the distance covariance of the fast algorithm: for any data, either the covariance is zero for every pairing of the responses with the predictors, or it is NaN for some pairing. | C180 is violated by the distance covariance of the naive algorithm: it always gives a number, but unless it is zero for every pairing, the average over all pairings is positive, as if responses without relation to the predictors depended on them. | The second alternatives do occur: the covariance of these data is not zero for the pairing given."
  },
  {
   "property": "C181",
   "status": "proved",
   "theorems": [
    "Direpack.C181_refit",
    "Direpack.C181_new_cases"
   ],
   "note": ""
  },
  {
   "property": "C182",
   "status": "proved",
   "theorems": [
    "Direpack.C182_fisher"
   ],
   "note": ""
  },
  {
   "property": "C183",
   "status": "proved",
   "theorems": [
    "Direpack.C183_grows",
    "Direpack.C183_least_squares"
   ],
   "note": ""
  },
  {
   "property": "C184",
   "status": "proved",
   "theorems": [
    "Direpack.C184_count",
    "Direpack.C184_complete",
    "Direpack.C184_space",
    "Direpack.C184_two_groups"
   ],
   "note": ""
  },
  {
   "property": "C185",
   "status": "proved",
   "theorems": [
    "Direpack.C185_ols"
   ],
   "note": ""
  },
  {
   "property": "C186",
   "status": "partial",
   "theorems": [
    "Direpack.C186_ppdire",
    "Direpack.C186_ppdire_parts",
    "Direpack.C186_ppdire_full",
    "Direpack.C186_ppdire_one_block",
    "Direpack.C186_snipls_partial",
    "Direpack.C186_snipls_full_partial",
    "Direpack.C186_snipls_violated"
   ],
   "note": "Proved part: C186 for SNIPLS (partial: variables that are retained from the first component on): scores times loadings are the best approximation of the standardised variable. | C186 for SNIPLS with as many components as the rank (partial in the same way): the variable is reproduced exactly. The code does not have the full property: C186 is violated for SNIPLS, even without sparsity: the second variable enters with the second component and its loading on the first is set to zero, although the deflation has used another one. With two components for two variables the table is not reproduced, although combinations of the scores give it exactly."
  },
  {
   "property": "C187",
   "status": "proved",
   "theorems": [
    "Direpack.C187_unique",
    "Direpack.C187_ppdire",
    "Direpack.C187_sudire",
    "Direpack.C187_snipls"
   ],
   "note": ""
  },
  {
   "property": "C188",
   "status": "proved",
   "theorems": [
    "Direpack.C188_best",
    "Direpack.C188_variance",
    "Direpack.C188_exists"
   ],
   "note": ""
  },
  {
   "property": "C189",
   "status": "proved",
   "theorems": [
    "Direpack.C189_sir",
    "Direpack.C189_save",
    "Direpack.C189_dr",
    "Direpack.C189_phd"
   ],
   "note": ""
  },
  {
   "property": "C190",
   "status": "proved",
   "theorems": [
    "Direpack.C190_ppdire",
    "Direpack.C190_snipls",
    "Direpack.C190_sudire"
   ],
   "note": ""
  },
  {
   "property": "C191",
   "status": "partial",
   "theorems": [
    "Direpack.C191_refit",
    "Direpack.C191_order",
    "Direpack.C191_variable",
    "Direpack.C191_resists",
    "Direpack.C191_outlier",
    "Direpack.C191_defined_partial",
    "Direpack.C191_majority_violated"
   ],
   "note": "Proved part: C191, partial: a wrapped value is a number unless the majority of the cases have this value. Missing: a value that the majority shares, which becomes NaN (`C191_majority_violated`). The code does not have the full property: C191 is violated: in every data set a value shared by the majority of the cases, good data for a variable with few distinct values, becomes NaN, while all other values are replaced by it: so a constant variable becomes NaN altogether."
  },
  {
   "property": "C192",
   "status": "partial",
   "theorems": [
    "Direpack.C192_snipls_partial",
    "Direpack.C192_rm_partial",
    "Direpack.C192_sprm_partial",
    "Direpack.C192_snipls_lost",
    "Direpack.C192_rm_lost",
    "Direpack.C192_sprm_lost",
    "Direpack.C192_snipls_violated",
    "Direpack.C192_rm_violated",
    "Direpack.C192_sprm_violated",
    "Direpack.C192_sprm_transform_violated"
   ],
   "note": "Proved part: C192 (`snipls`): an object that has been fitted on `p` columns answers `predict` and `transform` for every new data as before, after any number of refits on data with `p` columns that raise. Missing: refits with another number of columns (`C192_snipls_violated`). | C192 (`rm`): the same for robust M regression, whatever the value of `copy` in the refits. Missing: refits with another number of columns (`C192_rm_violated`). | C192 (`sprm`): predictions are as before after any number of refits on data with `p` columns that raise. Missing: refits with another number of columns (`C192_sprm_violated`), scores (`C192_sprm_transform_violated`), and `start_cutoff_mode='specific'` without `start_X_init='pcapp'`, which raises after the variables used by `predict` have been replaced. The code does not have the full property: C192 is false for `snipls` when the refit has another number of columns: a model that predicts its training data raises `ValueError` for them after a failed refit on two columns with a response of the wrong length. | C192 is false for `rm` when the refit has another number of columns. | C192 is false for `sprm` when the refit has another number of columns. | C192 is false for the scores of `sprm` even when nothing but the data change: a refit on the same number of columns with constant values raises, but the locations and scales used by `transform` have been replaced, and the scores of the same new data are silently different."
  },
  {
   "property": "C193",
   "status": "proved",
   "theorems": [
    "Direpack.C193_median",
    "Direpack.C193_mean",
    "Direpack.C193_mad",
    "Direpack.C193_trimmed_mean",
    "Direpack.C193_std",
    "Direpack.C193_fit",
    "Direpack.C193_standardised"
   ],
   "note": ""
  },
  {
   "property": "C194",
   "status": "partial",
   "theorems": [
    "Direpack.C194_fair",
    "Direpack.C194_huber_partial",
    "Direpack.C194_hampel_partial",
    "Direpack.C194_huber_violated"
   ],
   "note": "Proved part: C194 (Huber), partial: a weight moves by at most the change of the distance divided by the cutoff, for cutoffs of at least 1. Missing: smaller cutoffs (`C194_huber_violated`). | C194 (Hampel), partial: a weight moves by at most the change of the distance times the sum of the inverse first cutoff and the inverse of the distance between the second and the third, for cutoffs of at least 1. Missing: smaller cutoffs. The code does not have the full property: C194 is violated for Huber weights with a cutoff below 1 (`probp1` below 0.84): two cases as close together as one likes, on either side of the cutoff, get weights that differ by more than half of what is missing to 1, and the inner one has the smaller weight."
  },
  {
   "property": "C195",
   "status": "proved",
   "theorems": [
    "Direpack.C195_std",
    "Direpack.C195_cov",
    "Direpack.C195_corr",
    "Direpack.C195_distance_variance",
    "Direpack.C195_distance_covariance",
    "Direpack.C195_distance_correlation",
    "Direpack.C195_mdd"
   ],
   "note": ""
  },
  {
   "property": "C196",
   "status": "partial",
   "theorems": [
    "Direpack.C196_snipls_partial",
    "Direpack.C196_snipls_mean",
    "Direpack.C196_snipls_median_violated",
    "Direpack.C196_ppdire_partial",
    "Direpack.C196_ppdire_quantile_violated"
   ],
   "note": "Proved part: C196 (snipls, any location and scale): the fit without centring and scaling to the data standardised beforehand succeeds; components, scaled coefficients and thereby the retained variables are the same; its predictions for new cases, standardised in the same way, are in the original units those of the model that standardises, up to one constant. Missing: that the constant is zero, which is `C196_snipls_mean` for the mean and false for the median (`C196_snipls_median_violated`). | C196 (ppdire; least squares or robust regression; mean, trimmed mean or median): the fit with `center_data=False` to the data standardised beforehand succeeds; components and scaled coefficients are the same; predictions for new cases standardised in the same way are, in the original units, the predictions of the model that standardises. Missing: quantile regression, for which this is false (`C196_ppdire_quantile_violated`). The code does not have the full property: C196 is violated for snipls about the medians: for these three cases the model that centres predicts 3 at zero; the model of the centred data predicts 0 there, which in the original units is 1. | C196 is violated for quantile regression in ppdire, whatever median regression routine is used: for the response `2 x` the model that standardises predicts `4 x`, the model of the standardised data predicts the response."
  },
  {
   "property": "C197",
   "status": "proved",
   "theorems": [
    "Direpack.C197_snipls",
    "Direpack.C197_ppdire",
    "Direpack.C197_sudire"
   ],
   "note": ""
  },
  {
   "property": "C198",
   "status": "partial",
   "theorems": [
    "Direpack.C198_snipls",
    "Direpack.C198_ppdire",
    "Direpack.C198_sudire_partial",
    "Direpack.C198_sudire_violated"
   ],
   "note": "Proved part: C198 (sudire with as many directions as predictors, partial: the left out case has to be predicted together with the other cases, and no score may be constant). For the prediction of the case alone see `C198_sudire_violated`. The code does not have the full property: C198 is violated by sudire if the left out case is predicted alone: `predict` raises an exception."
  },
  {
   "property": "C199",
   "status": "proved",
   "theorems": [
    "Direpack.C199_mean_median",
    "Direpack.C199_mad_std",
    "Direpack.C199_l1median",
    "Direpack.C199_fit",
    "Direpack.C199_standardised"
   ],
   "note": ""
  },
  {
   "property": "C200",
   "status": "proved",
   "theorems": [
    "Direpack.C200_scaled",
    "Direpack.C200_axes",
    "Direpack.C200_pcr",
    "Direpack.C200_ppdire"
   ],
   "note": ""
  }
 ]
}