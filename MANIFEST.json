{
 "claims": [
  {
   "property": "C01",
   "status": "proved",
   "theorems": [
    "Verif.Constraints.C01_last_constraint_wins",
    "Verif.Constraints.C01_add",
    "Verif.Constraints.C01_remove"
   ],
   "note": ""
  },
  {
   "property": "C02",
   "status": "proved",
   "theorems": [
    "Verif.Constraints.C02_all_parameters_exact",
    "Verif.Constraints.C02_all_parameters_order"
   ],
   "note": ""
  },
  {
   "property": "C03",
   "status": "proved",
   "theorems": [
    "Verif.Constraints.C03_get_central",
    "Verif.Constraints.C03_get_central_unconstrained",
    "Verif.Constraints.C03_get_central_all"
   ],
   "note": ""
  },
  {
   "property": "C04",
   "status": "proved",
   "theorems": [
    "Verif.Constraints.C04_logprob_all",
    "Verif.Constraints.C04_missing_value_raises",
    "Verif.Constraints.C04_missing_value_keyerror"
   ],
   "note": ""
  },
  {
   "property": "C05",
   "status": "proved",
   "theorems": [
    "Verif.Constraints.C05_noninterference"
   ],
   "note": ""
  },
  {
   "property": "C06",
   "status": "partial",
   "theorems": [
    "Verif.Constraints.C06_sharing_is_not_safe",
    "Verif.Constraints.C06_copies_partial"
   ],
   "note": "False of the code: an object shared by two parameters contributes once (C06_sharing_is_not_safe). The partial theorem covers histories without sharing."
  },
  {
   "property": "C07",
   "status": "proved",
   "theorems": [
    "Verif.Constraints.C07_random_respects_correlations",
    "Verif.Constraints.C07_random_succeeds"
   ],
   "note": ""
  },
  {
   "property": "C08",
   "status": "partial",
   "theorems": [
    "Verif.Constraints.C08_yaml_roundtrip_partial",
    "Verif.Constraints.C08_removed_constraint_comes_back",
    "Verif.Constraints.C08_reload_forgets_removals"
   ],
   "note": "False of the code after remove_constraint without re-adding (witness C08_removed_constraint_comes_back; exact behaviour in C08_reload_forgets_removals). Relies on the distribution data round trip (C38)."
  },
  {
   "property": "C09",
   "status": "proved",
   "theorems": [
    "Verif.Constraints.C09_copy_observationally_equal",
    "Verif.Constraints.C09_copy_bisimilar",
    "Verif.Constraints.C09_copy_independent"
   ],
   "note": ""
  },
  {
   "property": "C10",
   "status": "proved",
   "theorems": [
    "Verif.Constraints.C10_set_constraint"
   ],
   "note": ""
  },
  {
   "property": "C11",
   "status": "proved",
   "theorems": [
    "Verif.Constraints.C11_logprob_single",
    "Verif.Constraints.C11_unconstrained"
   ],
   "note": ""
  },
  {
   "property": "C12",
   "status": "proved",
   "theorems": [
    "Verif.Constraints.C12_errors_rightleft",
    "Verif.Constraints.C12_stale_constraint_raises"
   ],
   "note": "Under the hypothesis that the errors of all distributions ever added can be evaluated; C12_stale_constraint_raises shows it is needed."
  },
  {
   "property": "C13",
   "status": "proved",
   "theorems": [
    "Verif.Registry.C13_lookup",
    "Verif.Registry.C13_lookup_error",
    "Verif.Registry.C13_isolation",
    "Verif.Registry.C13_flavio",
    "Verif.Registry.C13_base_instance_breaks_isolation",
    "Verif.Registry.C13_del_unknown"
   ],
   "note": "Hypothesis: NamedInstanceClass itself is never used directly; C13_base_instance_breaks_isolation shows it is needed."
  },
  {
   "property": "C14",
   "status": "proved",
   "theorems": [
    "Verif.Registry.C14_find",
    "Verif.Registry.C14_find_order",
    "Verif.Registry.C14_find_untouched",
    "Verif.Registry.C14_del_untouched"
   ],
   "note": ""
  },
  {
   "property": "C15",
   "status": "partial",
   "theorems": [
    "Verif.Observables.C15_failed_implementation_overwrites",
    "Verif.Observables.C15_failed_implementation_partial",
    "Verif.Observables.C15_failed_prediction"
   ],
   "note": "False for Implementation (witness); holds for Prediction and for all other entries."
  },
  {
   "property": "C16",
   "status": "partial",
   "theorems": [
    "Verif.Observables.C16_show_all_drops",
    "Verif.Observables.C16_show_all_last",
    "Verif.Observables.C16_show_all_partial"
   ],
   "note": "False for quantities with several implementations (witness); exact behaviour proved."
  },
  {
   "property": "C17",
   "status": "partial",
   "theorems": [
    "Verif.Observables.C17_from_function_partial",
    "Verif.Observables.C17_from_function_rejects",
    "Verif.Observables.C17_components_captured",
    "Verif.Observables.C17_name_among_components",
    "Verif.Observables.C17_predict_cases"
   ],
   "note": "Proved when the new name is not among the components; witness shows that it fails otherwise."
  },
  {
   "property": "C18",
   "status": "proved",
   "theorems": [
    "Verif.Observables.C18_tuple_dict_tuple",
    "Verif.Observables.C18_dict_tuple_dict",
    "Verif.Observables.C18_rejects",
    "Verif.Observables.C18_no_arguments",
    "Verif.Observables.C18_dict_without_arguments_as_list"
   ],
   "note": "Python's aliasing of a dictionary input with the returned dictionary is not modelled."
  },
  {
   "property": "C19",
   "status": "proved",
   "theorems": [
    "Verif.Observables.C19_taxonomy",
    "Verif.Observables.C19_idempotent"
   ],
   "note": ""
  },
  {
   "property": "C20",
   "status": "proved",
   "theorems": [
    "Verif.Observables.C20_get_measurements"
   ],
   "note": ""
  },
  {
   "property": "C21",
   "status": "proved",
   "theorems": [
    "Verif.Parse.C21_errors_from_string",
    "Verif.Parse.C21_constraints_from_string",
    "Verif.Parse.C21_digit_groups",
    "Verif.Parse.C21_digit_groups_example"
   ],
   "note": ""
  },
  {
   "property": "C22",
   "status": "proved",
   "theorems": [
    "Verif.Parse.C22_errors_from_string",
    "Verif.Parse.C22_constraints_from_string",
    "Verif.Parse.C22_nonpositive_errors",
    "Verif.Parse.C22_nonpositive_errors_examples"
   ],
   "note": ""
  },
  {
   "property": "C23",
   "status": "proved",
   "theorems": [
    "Verif.Parse.C23_range",
    "Verif.Parse.C23_limit",
    "Verif.Parse.C23_lognormal"
   ],
   "note": ""
  },
  {
   "property": "C24",
   "status": "partial",
   "theorems": [
    "Verif.Parse.C24_all_strings_partial",
    "Verif.Parse.C24_empty_list",
    "Verif.Parse.C24_dict_returned",
    "Verif.Parse.C24_error_dropped"
   ],
   "note": "The claim is false as stated: witnesses C24_empty_list, C24_dict_returned, C24_error_dropped. Proved for all strings: failures are ValueErrors, a list has one central value and is empty only for plus-minus strings with no recognised error, a dict only comes from a unicode-minus number. Float overflow of 10**x not modelled."
  },
  {
   "property": "C25",
   "status": "proved",
   "theorems": [
    "Verif.Citations.C25_collect_scope",
    "Verif.Citations.C25_program_effect",
    "Verif.Citations.C25_reentrant_scope_not_restored"
   ],
   "note": ""
  },
  {
   "property": "C26",
   "status": "proved",
   "theorems": [
    "Verif.Citations.C26_set_is_history",
    "Verif.Citations.C26_register_keyError_iff",
    "Verif.Citations.C26_register_idem_comm",
    "Verif.Citations.C26_nodup"
   ],
   "note": ""
  },
  {
   "property": "C27",
   "status": "partial",
   "theorems": [
    "Verif.Measurements.C27_number",
    "Verif.Measurements.C27_upper_triangle_partial",
    "Verif.Measurements.C27_full_matrix",
    "Verif.Measurements.C27_malformed",
    "Verif.Measurements.C27_tiny_entries_not_symmetrised",
    "Verif.Measurements.C27_mixed_rows_doubled",
    "Verif.Measurements.C27_full_asymmetric"
   ],
   "note": "Proved for a number, for upper triangles with an entry above numpy's tolerance and for full matrices; the claim is false for upper triangles whose entries are all below numpy's allclose tolerance (C27_tiny_entries_not_symmetrised) and rows mixing both styles are doubled (C27_mixed_rows_doubled)."
  },
  {
   "property": "C28",
   "status": "proved",
   "theorems": [
    "Verif.Measurements.C28_list_form",
    "Verif.Measurements.C28_dict_form",
    "Verif.Measurements.C28_correlated_list",
    "Verif.Measurements.C28_correlated_dict",
    "Verif.Measurements.C28_multi"
   ],
   "note": ""
  },
  {
   "property": "C29",
   "status": "proved",
   "theorems": [
    "Verif.Probability.C29_same",
    "Verif.Probability.C29_sum",
    "Verif.Probability.C29_different_centrals",
    "Verif.Probability.C29_order",
    "Verif.Probability.C29_multivariate_same",
    "Verif.Probability.C29_multivariate_sum"
   ],
   "note": ""
  },
  {
   "property": "C30",
   "status": "partial",
   "theorems": [
    "Verif.Probability.C30_deltas_neutral",
    "Verif.Probability.C30_single_normal",
    "Verif.Probability.C30_single_other_partial",
    "Verif.Probability.C30_only_deltas",
    "Verif.Probability.C30_uniform_becomes_numerical",
    "Verif.Probability.C30_sum_with_delta"
   ],
   "note": "Neutral when at least two non-delta distributions, one normal, or only deltas are given; with one non-normal distribution the result is its numerical tabulation, not the distribution (C30_uniform_becomes_numerical)."
  },
  {
   "property": "C31",
   "status": "partial",
   "theorems": [
    "Verif.Probability.C31_returns_or_raises_partial",
    "Verif.Probability.C31_two_numericals_return_none",
    "Verif.Probability.C31_other_class_raises",
    "Verif.Probability.C31_different_centrals",
    "Verif.Probability.C31_array_central_values_raise"
   ],
   "note": "Proved for lists with at most one numerical multivariate distribution (univariate lists: the model's return type is a distribution or an exception). False for two or more numerical multivariate distributions: None is returned (C31_two_numericals_return_none)."
  },
  {
   "property": "C32",
   "status": "proved",
   "theorems": [
    "Verif.Probability.C32_product",
    "Verif.Probability.C32_order",
    "Verif.Probability.C32_bounds",
    "Verif.Probability.C32_incremental",
    "Verif.Probability.C32_multivariate_product",
    "Verif.Probability.C32_multivariate_order"
   ],
   "note": ""
  },
  {
   "property": "C33",
   "status": "proved",
   "theorems": [
    "Verif.Probability.C33_delta_wins",
    "Verif.Probability.C33_conflicting_deltas"
   ],
   "note": ""
  },
  {
   "property": "C34",
   "status": "partial",
   "theorems": [
    "Verif.Probability.C34_normal",
    "Verif.Probability.C34_asymmetric",
    "Verif.Probability.C34_half_normal",
    "Verif.Probability.C34_gaussian_upper_limit",
    "Verif.Probability.C34_lognormal_partial",
    "Verif.Probability.C34_lognormal_negative_support",
    "Verif.Probability.C34_uniform",
    "Verif.Probability.C34_delta",
    "Verif.Probability.C34_discrete_partial",
    "Verif.Probability.C34_discrete_zero_not_checked",
    "Verif.Probability.C34_supports"
   ],
   "note": "Proved except: LogNormalDistribution with a negative central value has a reversed/wrong support (C34_lognormal_negative_support) and DiscreteUniformDistribution with central value 0 is not range-checked (C34_discrete_zero_not_checked)."
  },
  {
   "property": "C35",
   "status": "proved",
   "theorems": [
    "Verif.Probability.C35_normal_density",
    "Verif.Probability.C35_continuous",
    "Verif.Probability.C35_normalised",
    "Verif.Probability.C35_symmetric"
   ],
   "note": ""
  },
  {
   "property": "C36",
   "status": "proved",
   "theorems": [
    "Verif.Probability.C36_mode",
    "Verif.Probability.C36_difference",
    "Verif.Probability.C36_normal",
    "Verif.Probability.C36_multivariate",
    "Verif.Probability.C36_exclude"
   ],
   "note": ""
  },
  {
   "property": "C37",
   "status": "partial",
   "theorems": [
    "Verif.Probability.C37_two_of_three",
    "Verif.Probability.C37_too_few",
    "Verif.Probability.C37_inconsistent",
    "Verif.Probability.C37_stored",
    "Verif.Probability.C37_negative_total_accepted",
    "Verif.Probability.C37_upper_limit_needs_total_and_background",
    "Verif.Probability.C37_upper_limit_partial",
    "Verif.Probability.C37_general_two_of_three",
    "Verif.Probability.C37_general_limit_two_of_three",
    "Verif.Probability.C37_upper_limit_rejects"
   ],
   "note": "Proved for GammaCountingProcess, GeneralGammaCountingProcess and GeneralGammaUpperLimit; false for GammaUpperLimit, which needs both total and background (C37_upper_limit_needs_total_and_background). A negative total is accepted when it is inferred (C37_negative_total_accepted)."
  },
  {
   "property": "C38",
   "status": "partial",
   "theorems": [
    "Verif.DistDict.C38_reload_partial",
    "Verif.DistDict.C38_discrete_partial",
    "Verif.DistDict.C38_numerical_partial",
    "Verif.DistDict.C38_counting_partial",
    "Verif.DistDict.C38_counting_negative_total",
    "Verif.DistDict.C38_general_counting_partial",
    "Verif.DistDict.C38_general_counting_small_std",
    "Verif.DistDict.C38_general_limit_partial",
    "Verif.DistDict.C38_general_limit_small_std",
    "Verif.DistDict.C38_kde_fails",
    "Verif.DistDict.C38_gaussian_kde_fails",
    "Verif.DistDict.C38_general_positive_unusable",
    "Verif.DistDict.C38_mvn_partial",
    "Verif.DistDict.C38_mvnumerical_partial",
    "Verif.DistDict.C38_mvnumerical_default",
    "Verif.DistDict.C38_discrete_empty_range",
    "Verif.DistDict.C38_even_spacing"
   ],
   "note": "Proved: every object of 10 classes, and of the others under the stated conditions on the arguments. False of the code: KernelDensityEstimate and GaussianKDE objects can never be reloaded; GeneralGamma* with a very small background uncertainty, inferred negative totals, empty discrete ranges and the default central value of MultivariateNumericalDistribution (support lost/None) are covered by explicit counter-theorems; GeneralGammaDistributionPositive cannot be instantiated."
  },
  {
   "property": "C39",
   "status": "proved",
   "theorems": [
    "Verif.DistDict.C39_get_subclasses",
    "Verif.DistDict.C39_injective",
    "Verif.DistDict.C39_class_from_string",
    "Verif.DistDict.C39_string_to_class"
   ],
   "note": ""
  },
  {
   "property": "C40",
   "status": "partial",
   "theorems": [
    "Verif.DistDict.C40_same_values_partial",
    "Verif.DistDict.C40_without_arraytolist",
    "Verif.DistDict.C40_unchanged_partial",
    "Verif.DistDict.C40_mvnumerical_repr_breaks"
   ],
   "note": "Proved exactly for all classes but MultivariateNumericalDistribution, and numerically for all; false for MultivariateNumericalDistribution: get_dict(arraytolist=True) replaces the arrays in self.xi by lists and repr() then raises (C40_mvnumerical_repr_breaks)."
  },
  {
   "property": "C41",
   "status": "proved",
   "theorems": [
    "Verif.Probability.C41_nothing_excluded",
    "Verif.Probability.C41_multivariate",
    "Verif.Probability.C41_univariate",
    "Verif.Probability.C41_out_of_range",
    "Verif.Probability.C41_twice",
    "Verif.Probability.C41_wrong_length"
   ],
   "note": "For multivariate normal distributions with positive definite covariance. Negative positions not modelled."
  },
  {
   "property": "C42",
   "status": "partial",
   "theorems": [
    "Verif.Probability.C42_from_correlation_partial",
    "Verif.Probability.C42_from_covariance_partial",
    "Verif.Probability.C42_round_trip",
    "Verif.Probability.C42_nothing_given",
    "Verif.Probability.C42_positive_definite",
    "Verif.Probability.C42_tiny_covariance_not_completed",
    "Verif.Probability.C42_asymmetric_covariance"
   ],
   "note": "Completion of a one-sided matrix proved if some entry exceeds numpy's tolerance 1e-8; false for smaller entries (C42_tiny_covariance_not_completed)."
  },
  {
   "property": "C43",
   "status": "proved",
   "theorems": [
    "Verif.Probability.C43_cdf_table",
    "Verif.Probability.C43_pdf_normalised",
    "Verif.Probability.C43_central_given",
    "Verif.Probability.C43_central_default",
    "Verif.Probability.C43_cdf_of_ppf",
    "Verif.Probability.C43_cdf",
    "Verif.Probability.C43_empty_table",
    "Verif.Probability.C43_length_mismatch"
   ],
   "note": ""
  },
  {
   "property": "C44",
   "status": "proved",
   "theorems": [
    "Verif.Likelihood.C44_from_parameters",
    "Verif.Likelihood.C44_prediction_raises",
    "Verif.Likelihood.C44_sum_over_selected",
    "Verif.Likelihood.C44_missing_prediction_raises",
    "Verif.Likelihood.C44_noninterference"
   ],
   "note": "Under 'at most one selection list' and 'every distribution object used once' (see C45/C06 for what happens otherwise)."
  },
  {
   "property": "C45",
   "status": "partial",
   "theorems": [
    "Verif.Likelihood.C45_selection_partial",
    "Verif.Likelihood.C45_both_lists",
    "Verif.Likelihood.C45_unmeasured_rejected",
    "Verif.Likelihood.C45_empty_exclude_ignores_include"
   ],
   "note": "Proved when at most one of the two lists is given; false when an empty exclude list is combined with an include list (C45_empty_exclude_ignores_include)."
  },
  {
   "property": "C46",
   "status": "proved",
   "theorems": [
    "Verif.Likelihood.C46_number_observations"
   ],
   "note": ""
  },
  {
   "property": "C47",
   "status": "partial",
   "theorems": [
    "Verif.Likelihood.C47_session_partial",
    "Verif.Likelihood.C47_stale_witness",
    "Verif.Likelihood.C47_cache_transparent_partial",
    "Verif.Likelihood.C47_hash_collision_returns_stale_values",
    "Verif.Likelihood.C47_predictions_dict",
    "Verif.Likelihood.C47_integer_hashes"
   ],
   "note": "False of the code: the cache compares hashes only and CPython hashes -1 and -2 alike (C47_hash_collision_returns_stale_values). Proved for arguments without collision."
  },
  {
   "property": "C48",
   "status": "proved",
   "theorems": [
    "Verif.Likelihood.C48_prior",
    "Verif.Likelihood.C48_prior_depends_only_on_fit_parameters",
    "Verif.Likelihood.C48_total",
    "Verif.Likelihood.C48_no_parameters"
   ],
   "note": ""
  },
  {
   "property": "C49",
   "status": "proved",
   "theorems": [
    "Verif.Likelihood.C49_sm_load_reorders",
    "Verif.Likelihood.C49_sm_load_single",
    "Verif.Likelihood.C49_missing_raises",
    "Verif.Likelihood.C49_exp_load_reorders",
    "Verif.Likelihood.C49_sm_save_load_same",
    "Verif.Likelihood.C49_exp_single_not_scalar"
   ],
   "note": ""
  },
  {
   "property": "C50",
   "status": "proved",
   "theorems": [
    "Verif.Likelihood.C50_cache_policy",
    "Verif.Likelihood.C50_stored"
   ],
   "note": ""
  },
  {
   "property": "C51",
   "status": "partial",
   "theorems": [
    "Verif.Functions.C51_combine_ignores_pseudo",
    "Verif.Likelihood.C51_before_make_raises",
    "Verif.Likelihood.C51_ordinary_ignores_pseudo",
    "Verif.Likelihood.C51_make_does_not_disturb",
    "Verif.Likelihood.C51_fast_uses_only_own_partial",
    "Verif.Likelihood.C51_same_name_interferes"
   ],
   "note": "False for two FastLikelihoods of the same name (C51_same_name_interferes); proved for every history that spares the name. The combine_measurements part is C56."
  },
  {
   "property": "C52",
   "status": "partial",
   "theorems": [
    "Verif.Functions.C52_dependency_tracking_partial",
    "Verif.Functions.C52_get_not_tracked",
    "Verif.Functions.C52_conjugate_par_not_tracked",
    "Verif.Functions.C52_copy_of_modified_reverts"
   ],
   "note": "Proved for every prediction program that subscripts, copies and assigns (copies taken before modification). The full statement is false of the code: par.get / items / copies of modified AwareDicts are not tracked (three witness theorems)."
  },
  {
   "property": "C53",
   "status": "proved",
   "theorems": [
    "Verif.Functions.C53_groups_partition",
    "Verif.Functions.C53_budget_entries"
   ],
   "note": ""
  },
  {
   "property": "C54",
   "status": "proved",
   "theorems": [
    "Verif.Functions.C54_pool_eq_serial",
    "Verif.Functions.C54_pool_raises",
    "Verif.Functions.C54_kwargs_equivalent",
    "Verif.Functions.C54_duplicate_argument_accepted_in_parallel",
    "Verif.Functions.C54_no_arguments",
    "Verif.Functions.C54_missing_argument"
   ],
   "note": "For every completion order of the pool; keyword conversion equals the serial binding for every valid call. Witness: an argument given twice is rejected serially but accepted in parallel. likelihood_contour_data ignores a user-supplied pool when threads==1 (noted in DESIGN.md, results unaffected)."
  },
  {
   "property": "C55",
   "status": "proved",
   "theorems": [
    "Verif.Functions.C55_selective_variation"
   ],
   "note": ""
  },
  {
   "property": "C56",
   "status": "proved",
   "theorems": [
    "Verif.Functions.C56_combine",
    "Verif.Functions.C56_raises"
   ],
   "note": ""
  },
  {
   "property": "C57",
   "status": "proved",
   "theorems": [
    "Verif.IO.C57_first_occurrences",
    "Verif.IO.C57_nodup",
    "Verif.IO.C57_identity_on_nodup",
    "Verif.IO.C57_idempotent"
   ],
   "note": ""
  },
  {
   "property": "C58",
   "status": "partial",
   "theorems": [
    "Verif.IO.C58_par_diff_reload_partial",
    "Verif.IO.C58_exact",
    "Verif.IO.C58_reset_to_default_is_lost",
    "Verif.IO.C58_removal_is_lost"
   ],
   "note": "Proved when every parameter the user touched is still constrained and no user constraint equals a default one; exact behaviour for all histories in C58_exact; two witnesses show the full statement is false of the code."
  },
  {
   "property": "C59",
   "status": "proved",
   "theorems": [
    "Verif.IO.Yaml.C59_include_semantics",
    "Verif.IO.Yaml.C59_relative_to_including_file",
    "Verif.IO.Yaml.C59_relative_in_string",
    "Verif.IO.Yaml.C59_missing_include_raises",
    "Verif.IO.Yaml.C59_merge_swallows_nested_errors",
    "Verif.IO.Yaml.C59_merge_non_list"
   ],
   "note": "For every finite acyclic tree whose includes resolve (derivation trees of Expands). C59_merge_swallows_nested_errors states the exact behaviour for a listed file whose own nested include is missing: its name is inserted instead of an error."
  },
  {
   "property": "C60",
   "status": "partial",
   "theorems": [
    "Verif.Optimize.C60_first_success_partial",
    "Verif.Optimize.C60_no_success_partial",
    "Verif.Optimize.C60_never_restarts",
    "Verif.Optimize.C60_maximize"
   ],
   "note": "First-success and give-up behaviour and maximisation proved for all minimisers; the restart part is false of the code: C60_never_restarts proves every call starts at x0 (_x0 is assigned but never used)."
  },
  {
   "property": "C61",
   "status": "proved",
   "theorems": [
    "Verif.Statistics.C61_pull_inverts_delta_chi2",
    "Verif.Statistics.C61_delta_chi2_inverts_pull",
    "Verif.Statistics.C61_one_dof_consistent",
    "Verif.Statistics.C61_confidence_level",
    "Verif.Statistics.C61_monotone"
   ],
   "note": ""
  },
  {
   "property": "C62",
   "status": "proved",
   "theorems": [
    "Verif.Running.C62_composition",
    "Verif.Running.C62_flavours",
    "Verif.Running.C62_edges",
    "Verif.Running.C62_nf_out_ignored",
    "Verif.Running.C62_nf_out_respected",
    "Verif.Running.C62_cache_transparent",
    "Verif.Running.C62_cache_stale_after_config_change"
   ],
   "note": "for every family of flows satisfying the group law (the ODE solver is a parameter); nf_out is shown to be ignored when running up or when its range is not reached; cached results shown transparent for a fixed configuration, stale after a threshold change"
  },
  {
   "property": "C63",
   "status": "proved",
   "theorems": [
    "Verif.Running.C63_one_loop",
    "Verif.Running.C63_group_law",
    "Verif.Running.C63_continuous_at_thresholds",
    "Verif.Running.C63_get_nf",
    "Verif.Running.C63_get_alpha_e",
    "Verif.Running.C63_invalid_scales"
   ],
   "note": "real arithmetic"
  },
  {
   "property": "C64",
   "status": "proved",
   "theorems": [
    "Verif.Eft.C64_legacy_names",
    "Verif.Eft.C64_table_pattern",
    "Verif.Eft.C64_complete",
    "Verif.Eft.C64_sm",
    "Verif.Eft.C64_zero_complex",
    "Verif.Eft.C64_errors",
    "Verif.Eft.C64_initial",
    "Verif.Eft.C64_nf_out_keeps_coefficients",
    "Verif.Eft.C64_flavours",
    "Verif.Eft.C64_requested_sectors"
   ],
   "note": "wcxf.Basis and match_run are parameters; zero values stored as {'Re':0,'Im':0} bypass the short cut (C64_zero_complex)"
  },
  {
   "property": "C65",
   "status": "proved",
   "theorems": [
    "Verif.Ckm.C65_angles_sum",
    "Verif.Ckm.C65_angles_triangle",
    "Verif.Ckm.C65_rephasing",
    "Verif.Ckm.C65_cp",
    "Verif.Ckm.C65_xi_unitarity",
    "Verif.Ckm.C65_xi_value",
    "Verif.Ckm.C65_xi_errors"
   ],
   "note": "ckmutil is external: any 3x3 matrix"
  },
  {
   "property": "C66",
   "status": "proved",
   "theorems": [
    "Verif.Common.C66_conjugate_par",
    "Verif.Common.C66_conjugate_wc",
    "Verif.Common.C66_add_dict",
    "Verif.Common.C66_lambda",
    "Verif.Common.C66_lambda_masses"
   ],
   "note": ""
  },
  {
   "property": "C67",
   "status": "partial",
   "theorems": [
    "Verif.Plots.C67_get_color",
    "Verif.Plots.C67_color_ignored",
    "Verif.Plots.C67_pdf_range_partial",
    "Verif.Plots.C67_pdf_range_zero_ignored",
    "Verif.Plots.C67_pie",
    "Verif.Plots.C67_pie_zero",
    "Verif.Plots.C67_contour",
    "Verif.Plots.C67_contour_data",
    "Verif.Plots.C67_axis",
    "Verif.Plots.C67_bin_plot_points",
    "Verif.Plots.C67_bin_plot_labels",
    "Verif.Plots.C67_bin_plot_errors",
    "Verif.Plots.C67_bin_plot_y_last_only",
    "Verif.Plots.C67_bin_plot_none",
    "Verif.Plots.C67_pie_order",
    "Verif.Plots.C67_point_values"
   ],
   "note": "get_color and pdf_plot clauses are false as documented (witness theorems C67_color_ignored, C67_pdf_range_zero_ignored); the rest is proved"
  },
  {
   "property": "C68",
   "status": "proved",
   "theorems": [
    "Verif.Constraints.C68_parameter_constraint"
   ],
   "note": ""
  },
  {
   "property": "C69",
   "status": "proved",
   "theorems": [
    "Verif.Observables.C69_configured_implementation"
   ],
   "note": ""
  },
  {
   "property": "C70",
   "status": "proved",
   "theorems": [
    "Verif.Parse.C70_errors_round_trip"
   ],
   "note": ""
  },
  {
   "property": "C71",
   "status": "proved",
   "theorems": [
    "Verif.Probability.C71_central_interval",
    "Verif.Probability.C71_limits"
   ],
   "note": ""
  },
  {
   "property": "C72",
   "status": "proved",
   "theorems": [
    "Verif.Probability.C72_normal",
    "Verif.Probability.C72_half_normal",
    "Verif.Probability.C72_uniform",
    "Verif.Probability.C72_gaussian_upper_limit",
    "Verif.Probability.C72_lognormal_shape",
    "Verif.Probability.C72_lognormal"
   ],
   "note": ""
  },
  {
   "property": "C73",
   "status": "proved",
   "theorems": [
    "Verif.Probability.C73_numerical_support"
   ],
   "note": ""
  },
  {
   "property": "C74",
   "status": "proved",
   "theorems": [
    "Verif.Probability.C74_logpdf",
    "Verif.Probability.C74_logpdf_of_constructor",
    "Verif.Probability.C74_support"
   ],
   "note": ""
  },
  {
   "property": "C75",
   "status": "proved",
   "theorems": [
    "Verif.Statistics.C75_actual_gamma_satisfies_assumptions",
    "Verif.Probability.C75_upper_limit"
   ],
   "note": "scipy's Gamma CDF/PPF are parameters assumed strictly increasing and inverse to each other."
  },
  {
   "property": "C76",
   "status": "partial",
   "theorems": [
    "Verif.Probability.C76_gamma",
    "Verif.Probability.C76_positive_two_sided_partial",
    "Verif.Probability.C76_positive_one_sided",
    "Verif.Probability.C76_one_sided_error_overcovers"
   ],
   "note": "Proved for GammaDistribution and for the two-sided case of GammaDistributionPositive; false in the one-sided case with positive central value (C76_one_sided_error_overcovers, for the real Gamma distribution with a = 2). scipy's Gamma functions and brentq are parameters."
  },
  {
   "property": "C77",
   "status": "proved",
   "theorems": [
    "Verif.Likelihood.C77_correlation_counts"
   ],
   "note": ""
  },
  {
   "property": "C78",
   "status": "proved",
   "theorems": [
    "Verif.Likelihood.C78_average_reproduces_chi2",
    "Verif.Likelihood.C78_mean_minimises",
    "Verif.Likelihood.C78_order_irrelevant"
   ],
   "note": ""
  },
  {
   "property": "C79",
   "status": "proved",
   "theorems": [
    "Verif.Angular.C79_distribution_nonneg",
    "Verif.Angular.C79_integrals",
    "Verif.Angular.C79_bounds"
   ],
   "note": "All amplitudes are free inputs; form factors and Wilson coefficients that produce them are not modelled."
  },
  {
   "property": "C80",
   "status": "proved",
   "theorems": [
    "Verif.Angular.C80_distribution_nonneg"
   ],
   "note": "Angular coefficients transcribed term by term; proved through a sum-of-squares representation by lepton-helicity amplitudes."
  },
  {
   "property": "C81",
   "status": "proved",
   "theorems": [
    "Verif.Angular.C81_rate_nonneg",
    "Verif.Angular.C81_afb_fl_ranges",
    "Verif.Angular.C81_flhat_nonpos",
    "Verif.Angular.C81_afb_misses_j6c",
    "Verif.Angular.C81_angular_integrals",
    "Verif.Angular.C81_tensor_amplitudes"
   ],
   "note": "Includes the disagreements found: J6c dropped from AFB, FLhat non-positive."
  },
  {
   "property": "C82",
   "status": "proved",
   "theorems": [
    "Verif.Angular.C82_p_ranges",
    "Verif.Angular.C82_pprime_ranges",
    "Verif.Angular.C82_conventions",
    "Verif.Angular.C82_acp_is_half"
   ],
   "note": "Ranges for real arithmetic; includes the finding that ACP is half the CP asymmetry."
  },
  {
   "property": "C83",
   "status": "proved",
   "theorems": [
    "Verif.Angular.C83_interference",
    "Verif.Angular.C83_phase",
    "Verif.Angular.C83_bs_rate",
    "Verif.Angular.C83_bs_fl",
    "Verif.Angular.C83_cp_parities"
   ],
   "note": "Positivity of the Bs rate is for amplitudes of the CP-conjugate decay without tensors (the code does not exchange the tensor helicities in h_tilde)."
  },
  {
   "property": "C84",
   "status": "proved",
   "theorems": [
    "Verif.Angular.C84_pole_error",
    "Verif.Angular.C84_epsrel_ignored",
    "Verif.Angular.C84_binned_is_average",
    "Verif.Angular.C84_bins_add",
    "Verif.Angular.C84_bs_same",
    "Verif.Angular.C84_binned_ranges",
    "Verif.Angular.C84_ratios"
   ],
   "note": "The integrator is a parameter; exactness is a hypothesis where stated, and the error statement holds for any integrator."
  },
  {
   "property": "C85",
   "status": "proved",
   "theorems": [
    "Verif.Probability.C85_pdf_at_grid",
    "Verif.Probability.C85_tabulation",
    "Verif.Probability.C85_pdf_nonneg",
    "Verif.Probability.C85_product",
    "Verif.Probability.C85_convolution",
    "Verif.Probability.C85_convolution_exists"
   ],
   "note": ""
  },
  {
   "property": "C86",
   "status": "proved",
   "theorems": [
    "Verif.Mixing.C86_eigenstates",
    "Verif.Mixing.C86_relations",
    "Verif.Mixing.C86_positive",
    "Verif.Mixing.C86_rephasing",
    "Verif.Mixing.C86_signed_differences_depend_on_phases",
    "Verif.Mixing.C86_qp_modulus",
    "Verif.Mixing.C86_a_fs",
    "Verif.Mixing.C86_S_range",
    "Verif.Mixing.C86_S_rephasing",
    "Verif.Mixing.C86_S_without_width",
    "Verif.Mixing.C86_cp_conjugate",
    "Verif.Mixing.C86_phi_D_range",
    "Verif.Mixing.C86_phi12_sign_fails",
    "Verif.Mixing.C86_epsK",
    "Verif.Mixing.C86_aligned",
    "Verif.Mixing.C86_x_y",
    "Verif.Mixing.C86_x12Im"
   ],
   "note": "The docstring of phi12 (arg(-M12/Gamma12)) disagrees with the code, which returns arg(M12/Gamma12): C86_phi12_sign_fails. x_D, y_D, DeltaM_12 do depend on the phase convention (C86_signed_differences_depend_on_phases), so they are not among the invariant observables."
  },
  {
   "property": "C87",
   "status": "proved",
   "theorems": [
    "Verif.Mixing.C87_unitarity_choice",
    "Verif.Mixing.C87_configuration",
    "Verif.Mixing.C87_M12_contributions",
    "Verif.Mixing.C87_M12_parity",
    "Verif.Mixing.C87_amplitudes_covariant",
    "Verif.Mixing.C87_observables_rephasing",
    "Verif.Mixing.C87_F_symmetric",
    "Verif.Mixing.C87_F_domain",
    "Verif.Mixing.C87_F_limits",
    "Verif.Mixing.C87_GIM",
    "Verif.Mixing.C87_inami_lim",
    "Verif.Mixing.C87_S0_positive",
    "Verif.Mixing.C87_golden_modes",
    "Verif.Mixing.C87_a_fs_SM",
    "Verif.Mixing.C87_bag_rgi",
    "Verif.Mixing.C87_B_value",
    "Verif.Mixing.C87_D_value"
   ],
   "note": ""
  },
  {
   "property": "C88",
   "status": "proved",
   "theorems": [
    "Verif.Bll.C88_asymmetry_range",
    "Verif.Bll.C88_asymmetry_SM",
    "Verif.Bll.C88_time_integrated",
    "Verif.Bll.C88_effective_lifetime",
    "Verif.Bll.C88_rate",
    "Verif.Bll.C88_coefficients",
    "Verif.Bll.C88_lepton_exchange",
    "Verif.Bll.C88_rephasing",
    "Verif.Bll.C88_flavour_sum",
    "Verif.Bll.C88_sample"
   ],
   "note": ""
  },
  {
   "property": "C89",
   "status": "proved",
   "theorems": [
    "Verif.BVll.C89_transparent",
    "Verif.BVll.C89_once",
    "Verif.BVll.C89_failures_not_cached",
    "Verif.BVll.C89_sample"
   ],
   "note": "External evaluations (form factors, Wilson coefficients, amplitudes) are arbitrary functions of q2 that may fail; dictionary keys compared as real numbers."
  },
  {
   "property": "C90",
   "status": "proved",
   "theorems": [
    "Verif.Angular.C90_kinematics",
    "Verif.Angular.C90_bins",
    "Verif.Angular.C90_binned_ranges",
    "Verif.Angular.C90_neutral_pion",
    "Verif.Angular.C90_lepton_flavour",
    "Verif.Angular.C90_lfv",
    "Verif.Angular.C90_sample"
   ],
   "note": "Integrator (scipy quad) modelled as exact; amplitudes are arbitrary functions of q2."
  },
  {
   "property": "C91",
   "status": "proved",
   "theorems": [
    "Verif.Angular.C91_prefactor",
    "Verif.Angular.C91_parity_amplitudes",
    "Verif.Angular.C91_parity_observables",
    "Verif.Angular.C91_transversity"
   ],
   "note": ""
  },
  {
   "property": "C92",
   "status": "proved",
   "theorems": [
    "Verif.Nunu.C92_rates",
    "Verif.Nunu.C92_ranges",
    "Verif.Nunu.C92_universal_P",
    "Verif.Nunu.C92_no_right_handed",
    "Verif.Nunu.C92_epsilon_eta",
    "Verif.Nunu.C92_scale_independence",
    "Verif.Nunu.C92_no_endpoint_guard",
    "Verif.Nunu.C92_textbook",
    "Verif.Nunu.C92_integrals",
    "Verif.Nunu.C92_values",
    "Verif.Nunu.C92_bins"
   ],
   "note": "q2 = 0 (ZeroDivisionError) excluded; couplings are the ones returned by the EFT layer (C64)."
  },
  {
   "property": "C93",
   "status": "proved",
   "theorems": [
    "Verif.Wilson.C93_total",
    "Verif.Wilson.C93_standard_model",
    "Verif.Wilson.C93_errors",
    "Verif.Wilson.C93_names",
    "Verif.Wilson.C93_charged_current"
   ],
   "note": "tabulated Standard Model values and get_wc are parameters of the model"
  },
  {
   "property": "C94",
   "status": "partial",
   "theorems": [
    "Verif.Plnu.C94_rate_partial",
    "Verif.Plnu.C94_D_wrong_mass",
    "Verif.Plnu.C94_symmetries",
    "Verif.Plnu.C94_range",
    "Verif.Plnu.C94_universality",
    "Verif.Plnu.C94_flavour_violation",
    "Verif.Plnu.C94_massless_limit",
    "Verif.Plnu.C94_kaon_ratio",
    "Verif.Plnu.C94_Bc_lifetime",
    "Verif.Plnu.C94_Bc_bound",
    "Verif.Plnu.C94_width"
   ],
   "note": "false of the code for D+ and Ds: the b quark mass is used in place of the light valence quark mass (C94_D_wrong_mass), so the scalar amplitude is too small; proved for B+, Bc, K+, pi+ and, without scalar coefficients, for D+ and Ds"
  },
  {
   "property": "C95",
   "status": "partial",
   "theorems": [
    "Verif.Tau.C95_rate_nonneg_partial",
    "Verif.Tau.C95_negative_rate",
    "Verif.Tau.C95_GFeff",
    "Verif.Tau.C95_GFeff_domain_error",
    "Verif.Tau.C95_sum",
    "Verif.Tau.C95_standard_model",
    "Verif.Tau.C95_errors",
    "Verif.Tau.C95_normalization"
   ],
   "note": "non-negativity is false of the code: the interference term lacks the factor ml/mtau, the rate is negative for CL = CR at all physical mass ratios (C95_negative_rate) and GFeff raises ValueError (C95_GFeff_domain_error); proved for CR = 0 or Re(CL CR*) <= 0, everything else in full"
  },
  {
   "property": "C96",
   "status": "proved",
   "theorems": [
    "Verif.Tau.C96_amplitudes",
    "Verif.Tau.C96_nonneg",
    "Verif.Tau.C96_massless_vector_negative",
    "Verif.Tau.C96_massless_limit",
    "Verif.Tau.C96_lgamma",
    "Verif.Tau.C96_taupnu",
    "Verif.Tau.C96_crossing",
    "Verif.Tau.C96_lfv_nonneg",
    "Verif.Tau.C96_tauK0",
    "Verif.Tau.C96_massless_vector",
    "Verif.Tau.C96_tauPi0",
    "Verif.Tau.C96_tauV"
   ],
   "note": "for a massless vector the non-dipole couplings give a negative width (C96_massless_vector_negative); no decay of the library has them"
  },
  {
   "property": "C97",
   "status": "proved",
   "theorems": [
    "Verif.Tau3l.C97_squares",
    "Verif.Tau3l.C97_nonneg",
    "Verif.Tau3l.C97_symmetries",
    "Verif.Tau3l.C97_relations",
    "Verif.Tau3l.C97_branching_ratios",
    "Verif.Tau3l.C97_normalization",
    "Verif.Tau3l.C97_errors",
    "Verif.Tau3l.C97_flavour"
   ],
   "note": "the dictionary of a sector is assumed complete"
  },
  {
   "property": "C98",
   "status": "partial",
   "theorems": [
    "Verif.Zpole.C98_colour",
    "Verif.Zpole.C98_colour_diagonal",
    "Verif.Zpole.C98_sm_total_formula",
    "Verif.Zpole.C98_universal",
    "Verif.Zpole.C98_universal_nonvacuous",
    "Verif.Zpole.C98_colour_sectors",
    "Verif.Zpole.C98_universal_shift",
    "Verif.Zpole.C98_sm_total_tabulated",
    "Verif.Zpole.C98_coupling_shifts",
    "Verif.Zpole.C98_mixing_angle",
    "Verif.Zpole.C98_width_flavour_diagonal",
    "Verif.Zpole.C98_width_lower_bound",
    "Verif.Zpole.C98_fcnc",
    "Verif.Zpole.C98_lfv",
    "Verif.Zpole.C98_sm_widths",
    "Verif.Zpole.C98_sm_response",
    "Verif.Zpole.C98_total_width_partial",
    "Verif.Zpole.C98_total_width_omits_lfv",
    "Verif.Zpole.C98_ratios",
    "Verif.Zpole.C98_rq_sum_le_one",
    "Verif.Zpole.C98_sigma_had",
    "Verif.Zpole.C98_asymmetry",
    "Verif.Zpole.C98_afb",
    "Verif.Zpole.C98_asymmetry_sm",
    "Verif.Zpole.C98_sm_total"
   ],
   "note": "Proved except that the total width omits lepton-flavour violating decays (C98_total_width_omits_lfv)."
  },
  {
   "property": "C99",
   "status": "partial",
   "theorems": [
    "Verif.Wdecay.C99_partial_widths",
    "Verif.Wdecay.C99_sum_rules",
    "Verif.Wdecay.C99_sm_limit",
    "Verif.Wdecay.C99_muon_decay_consistency",
    "Verif.Wdecay.C99_universal_operator_violates_flavour",
    "Verif.Wdecay.C99_interference_phase",
    "Verif.Wdecay.C99_w_mass"
   ],
   "note": "Proved except the last two clauses, which are false of the code: C99_universal_operator_violates_flavour, C99_interference_phase."
  },
  {
   "property": "C100",
   "status": "partial",
   "theorems": [
    "Verif.Parameters.C100_group",
    "Verif.Parameters.C100_group_accepted",
    "Verif.Parameters.C100_group_zero_error",
    "Verif.Parameters.C100_groups_failure",
    "Verif.Parameters.C100_group_second_item",
    "Verif.Parameters.C100_values",
    "Verif.Parameters.C100_values_failure",
    "Verif.Parameters.C100_pdg_partial",
    "Verif.Parameters.C100_pdg_order",
    "Verif.Parameters.C100_pdg_missing",
    "Verif.Parameters.C100_pdg_lifetime_errors",
    "Verif.Parameters.C100_pdg_names",
    "Verif.Parameters.C100_pdg_scheme",
    "Verif.Parameters.C100_deviations",
    "Verif.Parameters.C100_group_unknown"
   ],
   "note": "Proved except that the lifetime deviations are not the propagated ones: the code attaches the upper width error to the upper lifetime deviation (C100_pdg_lifetime_errors: right iff the width errors are equal). Also: a second parameter in an entry of a correlated group is silently dropped (C100_group_second_item)."
  },
  {
   "property": "C101",
   "status": "partial",
   "theorems": [
    "Verif.Semilep.C101_rate_partial",
    "Verif.Semilep.C101_tensor",
    "Verif.Semilep.C101_tensor_amplitude",
    "Verif.Semilep.C101_bins",
    "Verif.Semilep.C101_ratios",
    "Verif.Semilep.C101_universal",
    "Verif.Semilep.C101_other_neutrinos"
   ],
   "note": "The rate is the literature one only without tensor coefficients: angular.py's h['T'] is too small by sqrt(2), so the tensor contributes 6 instead of 8 and its interference 6+3 sqrt 2 instead of 12 (C101_tensor gives the exact result of the code, C101_tensor_amplitude that the factor sqrt 2 repairs it)."
  },
  {
   "property": "C102",
   "status": "partial",
   "theorems": [
    "Verif.Semilep.Kaon.C102_rate_partial",
    "Verif.Semilep.Kaon.C102_tensor",
    "Verif.Semilep.Kaon.C102_em",
    "Verif.Semilep.Kaon.C102_totals",
    "Verif.Semilep.Kaon.C102_lnC",
    "Verif.Semilep.Kaon.C102_formfactors",
    "Verif.Semilep.Kaon.C102_RT",
    "Verif.Semilep.Kaon.C102_ff_values"
   ],
   "note": "Rate as in the literature without tensor coefficients (see C101); the K+ electromagnetic corrections are never used and the observables for an unspecified lepton always raise KeyError (C102_em, C102_totals)."
  },
  {
   "property": "C103",
   "status": "proved",
   "theorems": [
    "Verif.Semilep.Vec.C103_bins",
    "Verif.Semilep.Vec.C103_ratios",
    "Verif.Semilep.Vec.C103_fl",
    "Verif.Semilep.Vec.C103_angular_bins",
    "Verif.Semilep.Vec.C103_asymmetries",
    "Verif.Semilep.Vec.C103_rate",
    "Verif.Semilep.Vec.C103_angles"
   ],
   "note": "Rate, angles, bins, polarisation fraction and asymmetries; integrator exact, form factors continuous for the integrated claims."
  },
  {
   "property": "C104",
   "status": "proved",
   "theorems": [
    "Verif.FormFactors.C104_bcl_threshold",
    "Verif.FormFactors.C104_bcl_f0",
    "Verif.FormFactors.C104_bcl_t0zero",
    "Verif.FormFactors.C104_bcl_isgurwise",
    "Verif.FormFactors.C104_lmvd",
    "Verif.FormFactors.C104_bsz",
    "Verif.FormFactors.C104_bcl_constraint",
    "Verif.FormFactors.C104_bcl_violated",
    "Verif.FormFactors.C104_bszV_kinematic",
    "Verif.FormFactors.C104_bszV_parameters",
    "Verif.FormFactors.C104_orders",
    "Verif.FormFactors.C104_lambdab_endpoint",
    "Verif.FormFactors.C104_nonvacuous_P",
    "Verif.FormFactors.C104_nonvacuous_V",
    "Verif.FormFactors.C104_bsz_values",
    "Verif.FormFactors.C104_sse_values",
    "Verif.FormFactors.C104_bszV_values",
    "Verif.FormFactors.C104_lambdab_values",
    "Verif.FormFactors.C104_lmvd_values",
    "Verif.FormFactors.C104_z",
    "Verif.FormFactors.C104_z_nonvacuous",
    "Verif.FormFactors.C104_z_optimal",
    "Verif.FormFactors.C104_recoil",
    "Verif.FormFactors.C104_w_expansion"
   ],
   "note": "bcl with the sign bug is stated as it is (C104_bcl_constraint, C104_bcl_violated)"
  },
  {
   "property": "C105",
   "status": "proved",
   "theorems": [
    "Verif.FormFactors.C105_cln_relations",
    "Verif.FormFactors.C105_clnexp_z",
    "Verif.FormFactors.C105_clnexp",
    "Verif.FormFactors.C105_clnexp_relations",
    "Verif.FormFactors.C105_isgurwise_limit",
    "Verif.FormFactors.C105_isgurwise_jump",
    "Verif.FormFactors.C105_isgurwise_T12",
    "Verif.FormFactors.C105_isgurwise_nonvacuous",
    "Verif.FormFactors.C105_matrix_P",
    "Verif.FormFactors.C105_matrix_VA",
    "Verif.FormFactors.C105_matrix_T",
    "Verif.FormFactors.C105_relations_V",
    "Verif.FormFactors.C105_matrix_T_nonvacuous",
    "Verif.FormFactors.C105_exchange",
    "Verif.FormFactors.C105_zero_recoil",
    "Verif.FormFactors.C105_luke",
    "Verif.FormFactors.C105_heavy_quark_limit",
    "Verif.FormFactors.C105_zero_recoil_continuous",
    "Verif.FormFactors.C105_isgurwise_functions",
    "Verif.FormFactors.C105_parameters"
   ],
   "note": "the failing part (continuity of T23 and T1(0)=T2(0) in isgur_wise) is stated as exact characterizations"
  },
  {
   "property": "C106",
   "status": "proved",
   "theorems": [
    "Verif.Lambdab.C106_bins",
    "Verif.Lambdab.C106_nonvacuous",
    "Verif.Lambdab.C106_cp",
    "Verif.Lambdab.C106_cp_witness",
    "Verif.Lambdab.C106_angular",
    "Verif.Lambdab.C106_longitudinal",
    "Verif.Lambdab.C106_density",
    "Verif.Lambdab.C106_k4_witness",
    "Verif.Lambdab.C106_bounds",
    "Verif.Lambdab.C106_amplitudes",
    "Verif.Lambdab.C106_prefactor",
    "Verif.Lambdab.C106_outside",
    "Verif.Lambdab.C106_ratios",
    "Verif.Lambdab.C106_chirality",
    "Verif.Lambdab.C106_leptons",
    "Verif.Lambdab.C106_normalisation",
    "Verif.Lambdab.C106_endpoint",
    "Verif.Lambdab.C106_shift",
    "Verif.Lambdab.C106_shift_own",
    "Verif.Lambdab.C106_regions",
    "Verif.Lambdab.C106_shift_difference"
   ],
   "note": ""
  },
  {
   "property": "C107",
   "status": "proved",
   "theorems": [
    "Verif.L1520.C107_lattice",
    "Verif.L1520.C107_lattice_witness",
    "Verif.L1520.C107_nonvacuous",
    "Verif.L1520.C107_quark_model_zero",
    "Verif.L1520.C107_quark_model_endpoint",
    "Verif.L1520.C107_momentum",
    "Verif.L1520.C107_density",
    "Verif.L1520.C107_angular",
    "Verif.L1520.C107_longitudinal",
    "Verif.L1520.C107_bounds",
    "Verif.L1520.C107_outside",
    "Verif.L1520.C107_ratios",
    "Verif.L1520.C107_normalisation",
    "Verif.L1520.C107_cp_witness",
    "Verif.L1520.C107_cp_witness'",
    "Verif.L1520.C107_bins",
    "Verif.L1520.C107_photon_universal",
    "Verif.L1520.C107_chirality",
    "Verif.L1520.C107_linear",
    "Verif.L1520.C107_gauss",
    "Verif.L1520.C107_momentum_everywhere"
   ],
   "note": ""
  },
  {
   "property": "C108",
   "status": "proved",
   "theorems": [
    "Verif.Higgs.C108_tables",
    "Verif.Higgs.C108_linear",
    "Verif.Higgs.C108_means",
    "Verif.Higgs.C108_width",
    "Verif.Higgs.C108_branching_sum",
    "Verif.Higgs.C108_registered",
    "Verif.Higgs.C108_sm",
    "Verif.Higgs.C108_factorise",
    "Verif.Higgs.C108_universal",
    "Verif.Higgs.C108_light",
    "Verif.Higgs.C108_negative_witness",
    "Verif.Higgs.C108_width_zero_witness",
    "Verif.Higgs.C108_names"
   ],
   "note": ""
  },
  {
   "property": "C109",
   "status": "proved",
   "theorems": [
    "Verif.Beta.C109_neutron_amplitudes",
    "Verif.Beta.C109_neutron_positive",
    "Verif.Beta.C109_bounds_unpolarised",
    "Verif.Beta.C109_bounds_polarised",
    "Verif.Beta.C109_forbidden",
    "Verif.Beta.C109_bounds_B",
    "Verif.Beta.C109_neutron_sm",
    "Verif.Beta.C109_couplings",
    "Verif.Beta.C109_pcac_witness",
    "Verif.Beta.C109_ft",
    "Verif.Beta.C109_ft_universal",
    "Verif.Beta.C109_tau",
    "Verif.Beta.C109_neutron_ft",
    "Verif.Beta.C109_elements",
    "Verif.Beta.C109_daughters",
    "Verif.Beta.C109_nonvacuous",
    "Verif.Beta.C109_table",
    "Verif.Beta.C109_daughter_errors",
    "Verif.Beta.C109_qec"
   ],
   "note": ""
  },
  {
   "property": "C110",
   "status": "proved",
   "theorems": [
    "Verif.Kll.C110_br_KL",
    "Verif.Kll.C110_br_KS",
    "Verif.Kll.C110_KS_lfv_unbound",
    "Verif.Kll.C110_registry",
    "Verif.Kll.C110_nonneg",
    "Verif.Kll.C110_threshold",
    "Verif.Kll.C110_differences",
    "Verif.Kll.C110_lfv_sum",
    "Verif.Kll.C110_sum_rule",
    "Verif.Kll.C110_helicity",
    "Verif.Kll.C110_phase_convention"
   ],
   "note": ""
  },
  {
   "property": "C111",
   "status": "proved",
   "theorems": [
    "Verif.Kpinunu.C111_branching_ratios",
    "Verif.Kpinunu.C111_grossman_nir",
    "Verif.Kpinunu.C111_standard_model",
    "Verif.Kpinunu.C111_vector_only",
    "Verif.Kpinunu.C111_lfv_adds",
    "Verif.Kpinunu.C111_rephasing",
    "Verif.Kpinunu.C111_scale_dependence",
    "Verif.Kpinunu.C111_charge_error",
    "Verif.Kpinunu.C111_charm"
   ],
   "note": ""
  },
  {
   "property": "C112",
   "status": "proved",
   "theorems": [
    "Verif.Kpipi.C112_operator_identities",
    "Verif.Kpipi.C112_operators",
    "Verif.Kpipi.C112_parity",
    "Verif.Kpipi.C112_isospin2",
    "Verif.Kpipi.C112_CSRL_sign",
    "Verif.Kpipi.C112_isospin0",
    "Verif.Kpipi.C112_amplitude_SM",
    "Verif.Kpipi.C112_split",
    "Verif.Kpipi.C112_epsprime",
    "Verif.Kpipi.C112_linear",
    "Verif.Kpipi.C112_cp",
    "Verif.Kpipi.C112_rephasing",
    "Verif.Kpipi.C112_scale",
    "Verif.Kpipi.C112_interpolation"
   ],
   "note": ""
  },
  {
   "property": "C113",
   "status": "proved",
   "theorems": [
    "Verif.Lambdap.C113_standard_model",
    "Verif.Lambdap.C113_right_handed",
    "Verif.Lambdap.C113_lepton_l",
    "Verif.Lambdap.C113_sectors"
   ],
   "note": ""
  },
  {
   "property": "C114",
   "status": "proved",
   "theorems": [
    "Verif.Quarkonium.C114_lfv_rate",
    "Verif.Quarkonium.C114_lfc_rate",
    "Verif.Quarkonium.C114_photon",
    "Verif.Quarkonium.C114_forbidden",
    "Verif.Quarkonium.C114_lfv_scaling",
    "Verif.Quarkonium.C114_registry"
   ],
   "note": ""
  },
  {
   "property": "C115",
   "status": "proved",
   "theorems": [
    "Verif.Quarkonium.C115_rate",
    "Verif.Quarkonium.C115_scalar_charge",
    "Verif.Quarkonium.C115_pseudoscalar_charge",
    "Verif.Quarkonium.C115_vector_current_finding",
    "Verif.Quarkonium.C115_charge_finding",
    "Verif.Quarkonium.C115_registry"
   ],
   "note": ""
  },
  {
   "property": "C116",
   "status": "proved",
   "theorems": [
    "Verif.Quarkonium.C116_kinematics",
    "Verif.Quarkonium.C116_charge",
    "Verif.Quarkonium.C116_nonneg",
    "Verif.Quarkonium.C116_negative_finding",
    "Verif.Quarkonium.C116_threshold_finding",
    "Verif.Quarkonium.C116_equal_masses",
    "Verif.Quarkonium.C116_reads",
    "Verif.Quarkonium.C116_registry",
    "Verif.Quarkonium.C116_predictions"
   ],
   "note": ""
  },
  {
   "property": "C117",
   "status": "proved",
   "theorems": [
    "Verif.Edm.C117_quark_masses_swapped",
    "Verif.Edm.C117_errors",
    "Verif.Edm.C117_nedm_value",
    "Verif.Edm.C117_nedm_nonneg",
    "Verif.Edm.C117_nedm_zero",
    "Verif.Edm.C117_nedm_reads",
    "Verif.Edm.C117_nedm_scaling",
    "Verif.Edm.C117_charges",
    "Verif.Edm.C117_para_value",
    "Verif.Edm.C117_para_errors",
    "Verif.Edm.C117_para_linear",
    "Verif.Edm.C117_registry"
   ],
   "note": ""
  },
  {
   "property": "C118",
   "status": "proved",
   "theorems": [
    "Verif.MuE.C118_value",
    "Verif.MuE.C118_error",
    "Verif.MuE.C118_nonneg",
    "Verif.MuE.C118_reads",
    "Verif.MuE.C118_scaling",
    "Verif.MuE.C118_rephasing",
    "Verif.MuE.C118_chirality",
    "Verif.MuE.C118_isospin",
    "Verif.MuE.C118_registry"
   ],
   "note": ""
  },
  {
   "property": "C119",
   "status": "proved",
   "theorems": [
    "Verif.MuE.C119_value",
    "Verif.MuE.C119_shift",
    "Verif.MuE.C119_mass_scaling",
    "Verif.MuE.C119_trident_value",
    "Verif.MuE.C119_trident"
   ],
   "note": ""
  },
  {
   "property": "C120",
   "status": "proved",
   "theorems": [
    "Verif.Rge.C120_values",
    "Verif.Rge.C120_signs",
    "Verif.Rge.C120_flavour_blind",
    "Verif.Rge.C120_run_alpha_e_solves"
   ],
   "note": ""
  },
  {
   "property": "C121",
   "status": "proved",
   "theorems": [
    "Verif.Rge.C121_loops",
    "Verif.Rge.C121_identity",
    "Verif.Rge.C121_units",
    "Verif.Rge.C121_round_trip"
   ],
   "note": ""
  },
  {
   "property": "C122",
   "status": "proved",
   "theorems": [
    "Verif.Rge.C122_total",
    "Verif.Rge.C122_linear",
    "Verif.Rge.C122_value",
    "Verif.Rge.C122_jump",
    "Verif.Rge.C122_thresholds",
    "Verif.Rge.C122_nf_out_ignored",
    "Verif.Rge.C122_nf_out_respected"
   ],
   "note": ""
  },
  {
   "property": "C123",
   "status": "proved",
   "theorems": [
    "Verif.Xgamma.C123_colour",
    "Verif.Xgamma.C123_colour_no_dipole",
    "Verif.Xgamma.C123_forms",
    "Verif.Xgamma.C123_cut",
    "Verif.Xgamma.C123_cp",
    "Verif.Xgamma.C123_chirality",
    "Verif.Xgamma.C123_leading_order",
    "Verif.Xgamma.C123_negative_witness",
    "Verif.Xgamma.C123_registry"
   ],
   "note": ""
  },
  {
   "property": "C124",
   "status": "proved",
   "theorems": [
    "Verif.Bvll.C124_low_q2",
    "Verif.Bvll.C124_high_q2",
    "Verif.Bvll.C124_gap",
    "Verif.Bvll.C124_pseudoscalar",
    "Verif.Bvll.C124_cp_ignored",
    "Verif.Bvll.C124_spurious_asymmetry"
   ],
   "note": ""
  },
  {
   "property": "C125",
   "status": "proved",
   "theorems": [
    "Verif.Vgamma.C125_amplitudes",
    "Verif.Vgamma.C125_conversion",
    "Verif.Vgamma.C125_asymmetries",
    "Verif.Vgamma.C125_branching_ratio",
    "Verif.Vgamma.C125_no_right_handed",
    "Verif.Vgamma.C125_needs_strong_phase",
    "Verif.Vgamma.C125_cp_conserving",
    "Verif.Vgamma.C125_spurious_asymmetry",
    "Verif.Vgamma.C125_forbidden",
    "Verif.Vgamma.C125_registry"
   ],
   "note": ""
  },
  {
   "property": "C126",
   "status": "proved",
   "theorems": [
    "Verif.BvllLfv.C126_total",
    "Verif.BvllLfv.C126_nonneg",
    "Verif.BvllLfv.C126_normalisation",
    "Verif.BvllLfv.C126_lepton_exchange",
    "Verif.BvllLfv.C126_registry"
   ],
   "note": ""
  },
  {
   "property": "C127",
   "status": "proved",
   "theorems": [
    "Verif.Xlnu.C127_br",
    "Verif.Xlnu.C127_ratio",
    "Verif.Xlnu.C127_ratio_l",
    "Verif.Xlnu.C127_SM_ratio",
    "Verif.Xlnu.C127_lfv",
    "Verif.Xlnu.C127_registry",
    "Verif.Xlnu.C127_massless_limit",
    "Verif.Xlnu.C127_closed",
    "Verif.Xlnu.C127_crossing",
    "Verif.Xlnu.C127_order",
    "Verif.Xlnu.C127_mono"
   ],
   "note": ""
  },
  {
   "property": "C128",
   "status": "partial",
   "theorems": [
    "Verif.Xlnu.C128_rate_nonneg_partial",
    "Verif.Xlnu.C128_rate_nonneg_massless_partial",
    "Verif.Xlnu.C128_phase_witness",
    "Verif.Xlnu.C128_negative_witness"
   ],
   "note": "Proved for real coefficients at every mass and for all complex coefficients with a massless lepton; the full claim is false of the code: the interference terms lack a complex conjugation (C128_phase_witness, C128_negative_witness)."
  },
  {
   "property": "C129",
   "status": "partial",
   "theorems": [
    "Verif.BxllQed.C129_scale",
    "Verif.BxllQed.C129_scale_rate",
    "Verif.BxllQed.C129_imaginary_witness",
    "Verif.BxllQed.C129_threshold_witness",
    "Verif.BxllQed.C129_domain",
    "Verif.BxllQed.C129_no_jump"
   ],
   "note": "parts (a), (c), (d) are proved; part (b) is false of the code: wem_29_low/high use the real-part function for the imaginary part, and wem_210_HA_low has the squared threshold (witness theorems)."
  },
  {
   "property": "C130",
   "status": "proved",
   "theorems": [
    "Verif.Xll.C130_swap_witness",
    "Verif.Xll.C130_bins",
    "Verif.Xll.C130_bins_outside",
    "Verif.Xll.C130_ratio",
    "Verif.Xll.C130_registry",
    "Verif.Xll.C130_normalisation",
    "Verif.Xll.C130_squares",
    "Verif.Xll.C130_nonneg",
    "Verif.Xll.C130_phase",
    "Verif.Xll.C130_endpoint_witness",
    "Verif.Xll.C130_region",
    "Verif.Xll.C130_average",
    "Verif.Xll.C130_lo_value",
    "Verif.Xll.C130_lo_nonneg",
    "Verif.Xll.C130_swap"
   ],
   "note": ""
  },
  {
   "property": "C131",
   "status": "partial",
   "theorems": [
    "Verif.Xll.C131_lo_value",
    "Verif.Xll.C131_bound",
    "Verif.Xll.C131_threshold_witness",
    "Verif.Xll.C131_keyerror_witness",
    "Verif.Xll.C131_pole_witness",
    "Verif.Xll.C131_boundary",
    "Verif.Xll.C131_bin_witness"
   ],
   "note": "the bound is proved for massless leptons at tree level; for massive leptons, and evaluability everywhere, the claim is false of the code (witness theorems)."
  },
  {
   "property": "C132",
   "status": "partial",
   "theorems": [
    "Verif.Xll.C132_power",
    "Verif.Xll.C132_lambda1",
    "Verif.Xll.C132_lambda1_witness",
    "Verif.Xll.C132_qed_rate",
    "Verif.Xll.C132_qed_afb",
    "Verif.Xll.C132_order_witness"
   ],
   "note": "proved for the asymmetry and for all terms but C1-C7 (QED) and |C10|^2 (power corrections); those two terms are missing in the code (witness theorems)."
  },
  {
   "property": "C133",
   "status": "proved",
   "theorems": [
    "Verif.MatrixElements.C133_domain",
    "Verif.MatrixElements.C133_scale",
    "Verif.MatrixElements.C133_cut",
    "Verif.MatrixElements.C133_zero_momentum",
    "Verif.MatrixElements.C133_massless",
    "Verif.MatrixElements.C133_threshold"
   ],
   "note": ""
  },
  {
   "property": "C134",
   "status": "proved",
   "theorems": [
    "Verif.MatrixElements.C134_domain",
    "Verif.MatrixElements.C134_scale",
    "Verif.MatrixElements.C134_value",
    "Verif.MatrixElements.C134_gim",
    "Verif.MatrixElements.C134_F87_continuous",
    "Verif.MatrixElements.C134_seidel_zero",
    "Verif.MatrixElements.C134_seidel_clamp",
    "Verif.MatrixElements.C134_seidel_scale",
    "Verif.MatrixElements.C134_deltaC7",
    "Verif.MatrixElements.C134_deltaC9"
   ],
   "note": ""
  },
  {
   "property": "C135",
   "status": "partial",
   "theorems": [
    "Verif.Bllgamma.C135_direct_nonneg",
    "Verif.Bllgamma.C135_lepton_pos",
    "Verif.Bllgamma.C135_lepton_witness",
    "Verif.Bllgamma.C135_region",
    "Verif.Bllgamma.C135_above",
    "Verif.Bllgamma.C135_limit_witness",
    "Verif.Bllgamma.C135_soft_limit",
    "Verif.Bllgamma.C135_soft_witness",
    "Verif.Bllgamma.C135_units_witness",
    "Verif.Bllgamma.C135_scaling",
    "Verif.Bllgamma.C135_annihilation",
    "Verif.Bllgamma.C135_negative_witness",
    "Verif.Bllgamma.C135_bins",
    "Verif.Bllgamma.C135_bin_witness",
    "Verif.Bllgamma.C135_names",
    "Verif.Bllgamma.C135_resonances"
   ],
   "note": "full claim false of the code: negative rate when the tensor form factors differ, emission from leptons smaller than the soft-photon theorem requires, density in q2/mB^2 instead of q2, no value at or across the kinematic limit; witness theorems included"
  },
  {
   "property": "C136",
   "status": "proved",
   "theorems": [
    "Verif.Dileptons.C136_partonic",
    "Verif.Dileptons.C136_charges",
    "Verif.Dileptons.C136_symmetry",
    "Verif.Dileptons.C136_hadronic",
    "Verif.Dileptons.C136_standard_model",
    "Verif.Dileptons.C136_quadratic",
    "Verif.Dileptons.C136_scalars",
    "Verif.Dileptons.C136_flavour",
    "Verif.Dileptons.C136_matching",
    "Verif.Dileptons.C136_matching_others",
    "Verif.Dileptons.C136_gim",
    "Verif.Dileptons.C136_bins",
    "Verif.Dileptons.C136_names",
    "Verif.Dileptons.C136_ratio",
    "Verif.Dileptons.C136_ratio_sm",
    "Verif.Dileptons.C136_empty",
    "Verif.Dileptons.C136_energy"
   ],
   "note": ""
  },
  {
   "property": "C137",
   "status": "proved",
   "theorems": [
    "Verif.Dileptons.C137_partonic",
    "Verif.Dileptons.C137_quadratic",
    "Verif.Dileptons.C137_no_interference",
    "Verif.Dileptons.C137_bins",
    "Verif.Dileptons.C137_matching",
    "Verif.Dileptons.C137_hadronic",
    "Verif.Dileptons.C137_standard_model",
    "Verif.Dileptons.C137_ratio",
    "Verif.Dileptons.C137_ratio_sm",
    "Verif.Dileptons.C137_energy"
   ],
   "note": ""
  },
  {
   "property": "C138",
   "status": "partial",
   "theorems": [
    "Verif.Dileptons.Pdf.C138_pdf",
    "Verif.Dileptons.Pdf.C138_install",
    "Verif.Dileptons.Pdf.C138_lumi",
    "Verif.Dileptons.Pdf.C138_history",
    "Verif.Dileptons.Pdf.C138_stale_witness",
    "Verif.Dileptons.Pdf.C138_kept"
   ],
   "note": "full claim false of the code: after a change of the configured PDF set, already used scales and members return the luminosity of the old set (C138_stale_witness); proved for histories that do not change the name, and in general that the luminosity belongs to one of the configured sets"
  },
  {
   "property": "C139",
   "status": "partial",
   "theorems": [
    "Verif.EeWW.C139_total_energies",
    "Verif.EeWW.C139_diff_bins",
    "Verif.EeWW.C139_never_both",
    "Verif.EeWW.C139_sm_one",
    "Verif.EeWW.C139_total_linear",
    "Verif.EeWW.C139_total_fermi",
    "Verif.EeWW.C139_total_signs",
    "Verif.EeWW.C139_threshold_W",
    "Verif.EeWW.C139_total_smooth",
    "Verif.EeWW.C139_total_negative",
    "Verif.EeWW.C139_diff_linear",
    "Verif.EeWW.C139_diff_fermi",
    "Verif.EeWW.C139_diff_mirror",
    "Verif.EeWW.C139_diff_sm_forward",
    "Verif.EeWW.C139_diff_monotone",
    "Verif.EeWW.C139_diff_not_normalised",
    "Verif.EeWW.C139_finding_sum_of_bins",
    "Verif.EeWW.C139_obs_scale"
   ],
   "note": "Proved except the agreement of the summed angular distribution with the total rate and its normalisation to the SM, which are false of the code (C139_finding_sum_of_bins, C139_diff_not_normalised)."
  },
  {
   "property": "C140",
   "status": "partial",
   "theorems": [
    "Verif.Qcdf.C140_nothing_switched_on",
    "Verif.Qcdf.C140_para_additive_linear",
    "Verif.Qcdf.C140_perp_additive_linear",
    "Verif.Qcdf.C140_helicities",
    "Verif.Qcdf.C140_q2_zero",
    "Verif.Qcdf.C140_end_point",
    "Verif.Qcdf.C140_rho_keyError",
    "Verif.Qcdf.C140_o8_isospin",
    "Verif.Qcdf.C140_annihilation",
    "Verif.Qcdf.C140_gim",
    "Verif.Qcdf.C140_rephasing",
    "Verif.Qcdf.C140_no_cp_violation",
    "Verif.Qcdf.C140_phiV",
    "Verif.Qcdf.C140_t_difference",
    "Verif.Qcdf.C140_lB",
    "Verif.Qcdf.C140_finding_limit",
    "Verif.Qcdf.C140_mirror",
    "Verif.Qcdf.C140_b0_integral",
    "Verif.Qcdf.C140_b0_limits",
    "Verif.Qcdf.C140_b0diff_end"
   ],
   "note": "Proved except the two sentences marked false of the code: the rho/omega branches (C140_rho_keyError) and the limit at q2 = 0 (C140_finding_limit)."
  },
  {
   "property": "C141",
   "status": "partial",
   "theorems": [
    "Verif.Qcdf.C141_range",
    "Verif.Qcdf.C141_finding_range",
    "Verif.Qcdf.C141_caller_in_range",
    "Verif.Qcdf.C141_rho_missing",
    "Verif.Qcdf.C141_roundtrip",
    "Verif.Qcdf.C141_linear_between",
    "Verif.Qcdf.C141_end_to_end",
    "Verif.Qcdf.C141_ignores_new_physics",
    "Verif.Qcdf.C141_conjugate_consistent"
   ],
   "note": "Proved except the two parts marked false of the code: availability for all registered decays (C141_rho_missing) and the documented range (C141_finding_range)."
  },
  {
   "property": "C142",
   "status": "proved",
   "theorems": [
    "Verif.DistDict.C142_arguments",
    "Verif.DistDict.C142_default_is_none",
    "Verif.DistDict.C142_support",
    "Verif.DistDict.C142_discrete",
    "Verif.DistDict.C142_counting",
    "Verif.DistDict.C142_gamma",
    "Verif.DistDict.C142_general_positive",
    "Verif.DistDict.C142_kde",
    "Verif.DistDict.C142_numerical",
    "Verif.DistDict.C142_mvn_support",
    "Verif.DistDict.C142_gaussian_limit",
    "Verif.DistDict.C142_not_a_number"
   ],
   "note": ""
  },
  {
   "property": "C143",
   "status": "partial",
   "theorems": [
    "Verif.Auxiliary.C143_nonvacuous",
    "Verif.Auxiliary.C143_evaluates_partial",
    "Verif.Auxiliary.C143_import",
    "Verif.Auxiliary.C143_quantities",
    "Verif.Auxiliary.C143_names",
    "Verif.Auxiliary.C143_order_partial",
    "Verif.Auxiliary.C143_defaults",
    "Verif.Auxiliary.C143_missing_defaults_partial",
    "Verif.Auxiliary.C143_missing_defaults_witness",
    "Verif.Auxiliary.C143_select",
    "Verif.Auxiliary.C143_default_prediction",
    "Verif.Auxiliary.C143_sse3_witness",
    "Verif.Auxiliary.C143_never_witness"
   ],
   "note": "The full claim is false of the code: SSE3 of Lambdab->Lambda has two coefficients, two quantities have no default, five implementations can never be evaluated; all decided exactly."
  },
  {
   "property": "C144",
   "status": "partial",
   "theorems": [
    "Verif.Units.C144_light",
    "Verif.Units.C144_angular_frequency",
    "Verif.Units.C144_electronvolt",
    "Verif.Units.C144_prefixes",
    "Verif.Units.C144_hbarc",
    "Verif.Units.C144_any_unit",
    "Verif.Units.C144_planck_false"
   ],
   "note": "All conversions proved except Planck's relation: the module's h is hbar/(2 pi) instead of 2 pi hbar, so that part of the claim is false of the code (C144_planck_false)."
  },
  {
   "property": "C145",
   "status": "partial",
   "theorems": [
    "Verif.Plots.C145_curve",
    "Verif.Plots.C145_curve_end_missing",
    "Verif.Plots.C145_curve_args",
    "Verif.Plots.C145_rejected",
    "Verif.Plots.C145_band",
    "Verif.Plots.C145_band_args",
    "Verif.Plots.C145_caller_dict_changed",
    "Verif.Plots.C145_boxes",
    "Verif.Plots.C145_zero_width",
    "Verif.Plots.C145_nonvacuous"
   ],
   "note": "Everything proved except two parts that are false of the code: the curve of diff_plot_th stops before x_max (C145_curve_end_missing), and diff_plot_th_err changes the caller's dictionaries (C145_caller_dict_changed)."
  },
  {
   "property": "C146",
   "status": "partial",
   "theorems": [
    "Verif.Plots.C146_bins",
    "Verif.Plots.C146_level_exists",
    "Verif.Plots.C146_content",
    "Verif.Plots.C146_levels_ordered",
    "Verif.Plots.C146_chi2",
    "Verif.Plots.C146_region",
    "Verif.Plots.C146_sorted",
    "Verif.Plots.C146_alphas",
    "Verif.Plots.C146_levelsf",
    "Verif.Plots.C146_scale_ignored",
    "Verif.Plots.C146_band_plot_data",
    "Verif.Plots.C146_band_plot_pre",
    "Verif.Plots.C146_nonvacuous"
   ],
   "note": "All proved except the last clause, which is false of the code in two ways: likelihood_contour ignores the scales (C146_scale_ignored) and band_plot transposes the grid for a non-square pre_calculated_z (C146_band_plot_pre)."
  },
  {
   "property": "C147",
   "status": "partial",
   "theorems": [
    "Verif.Plots.C147_points",
    "Verif.Plots.C147_legend",
    "Verif.Plots.C147_errors",
    "Verif.Plots.C147_style",
    "Verif.Plots.C147_likelihood_plot",
    "Verif.Plots.C147_pvalue_plot",
    "Verif.Plots.C147_pdf_plot",
    "Verif.Plots.C147_box",
    "Verif.Plots.C147_y_last_only",
    "Verif.Plots.C147_nonvacuous"
   ],
   "note": "All proved except that diff_plot_exp returns the values of all points: it returns those of the last measurement only, and raises UnboundLocalError without data (C147_y_last_only, C147_errors)."
  },
  {
   "property": "C148",
   "status": "proved",
   "theorems": [
    "Verif.Parameters.C148_bsz",
    "Verif.Parameters.C148_bsz_accepted",
    "Verif.Parameters.C148_bsz_failure",
    "Verif.Parameters.C148_transitions",
    "Verif.Parameters.C148_unknown_transition",
    "Verif.Parameters.C148_filenames",
    "Verif.Parameters.C148_masses",
    "Verif.Parameters.C148_lattice",
    "Verif.Parameters.C148_lattice_failure",
    "Verif.Parameters.C148_eos_names",
    "Verif.Parameters.C148_lmvd_names",
    "Verif.Parameters.C148_bcl",
    "Verif.Parameters.C148_lmvd",
    "Verif.Parameters.C148_eos",
    "Verif.Parameters.C148_lambda",
    "Verif.Parameters.C148_lambda_failure",
    "Verif.Parameters.C148_nonvacuous"
   ],
   "note": ""
  },
  {
   "property": "C149",
   "status": "partial",
   "theorems": [
    "Verif.Grid.C149_normalised",
    "Verif.Grid.C149_logpdf_grid",
    "Verif.Grid.C149_logpdf_outside",
    "Verif.Grid.C149_logpdf_inside",
    "Verif.Grid.C149_logpdf_affine",
    "Verif.Grid.C149_construct",
    "Verif.Grid.C149_accepted",
    "Verif.Grid.C149_uneven_refused",
    "Verif.Grid.C149_reduce",
    "Verif.Grid.C149_reduce_univariate",
    "Verif.Grid.C149_reduce_arguments",
    "Verif.Grid.C149_reduce_integer_partial",
    "Verif.Grid.C149_nonvacuous",
    "Verif.Grid.C149_log"
   ],
   "note": "All parts proved for every grid; the claim for every exclude is false of the code for the integer 0, which removes nothing (C149_reduce_integer_partial)."
  },
  {
   "property": "C150",
   "status": "partial",
   "theorems": [
    "Verif.Grid.C150_random",
    "Verif.Grid.C150_random_positive_partial",
    "Verif.Grid.C150_zero_density_drawn",
    "Verif.Grid.C150_selection",
    "Verif.Grid.C150_zero_density_witness"
   ],
   "note": "Selection and location proved for every random number; the full claim is false of the code: zero-density points are drawn (C150_zero_density_drawn), probabilities are means of neighbouring weights (C150_selection)."
  },
  {
   "property": "C151",
   "status": "partial",
   "theorems": [
    "Verif.Grid.C151_from_pd",
    "Verif.Grid.C151_combine",
    "Verif.Grid.C151_no_support",
    "Verif.Grid.C151_dispatch",
    "Verif.Grid.C151_recombine",
    "Verif.Grid.C151_witness"
   ],
   "note": "Combination, conversion and dispatch proved for any number of distributions; combining in steps is impossible in the code because the result has no support (C151_recombine)."
  },
  {
   "property": "C152",
   "status": "partial",
   "theorems": [
    "Verif.Grid.C152_convolve",
    "Verif.Grid.C152_covered_partial",
    "Verif.Grid.C152_displaced",
    "Verif.Grid.C152_overlap",
    "Verif.Grid.C152_wide",
    "Verif.Grid.C152_witness",
    "Verif.Grid.C152_wide_witness"
   ],
   "note": "Convolution sum and normalisation proved; the claim on the grid is false of the code unless the central value is in the middle of the axes (C152_displaced), the sum is displaced by half a step (C152_convolve), and can vanish (C152_wide)."
  },
  {
   "property": "C153",
   "status": "partial",
   "theorems": [
    "Verif.Memo.C153_contents",
    "Verif.Memo.C153_bounded",
    "Verif.Memo.C153_recomputed_iff",
    "Verif.Memo.C153_first_use",
    "Verif.Memo.C153_exceptions",
    "Verif.Memo.C153_transparent_partial",
    "Verif.Memo.C153_no_sharing",
    "Verif.Memo.C153_modified_result_is_returned",
    "Verif.Memo.C153_nonvacuous"
   ],
   "note": "Transparency holds unless the caller modified an object returned for the same arguments; C153_modified_result_is_returned shows the full claim is false of the code. LRU contents, recomputation and exception claims are proved in full."
  },
  {
   "property": "C154",
   "status": "partial",
   "theorems": [
    "Verif.Memo.C154_bounds",
    "Verif.Memo.C154_first_time_partial",
    "Verif.Memo.C154_second_time_incomplete",
    "Verif.Memo.C154_delta_C7_C9"
   ],
   "note": "The full claim is false of the code (C154_second_time_incomplete, C154_delta_C7_C9): citations registered inside memoised bodies are lost on cache hits. Bounds and cold-state completeness proved."
  },
  {
   "property": "C155",
   "status": "partial",
   "theorems": [
    "Verif.Running.C155_flavours",
    "Verif.Running.C155_running_mass",
    "Verif.Running.C155_mass_depends_only_on",
    "Verif.Running.C155_light_ratio",
    "Verif.Running.C155_couplings",
    "Verif.Running.C155_conversions",
    "Verif.Running.C155_consistent_flavours_partial",
    "Verif.Running.C155_default_charm_mismatch",
    "Verif.Running.C155_jump",
    "Verif.Running.C155_nonvacuous"
   ],
   "note": "All claims except flavour consistency of the pole-mass conversions proved in full; that one holds iff the mass lies between the thresholds (C155_consistent_flavours_partial) and fails for the default charm mass (C155_default_charm_mismatch)."
  },
  {
   "property": "C156",
   "status": "partial",
   "theorems": [
    "Verif.Wilson.C156_in_place",
    "Verif.Wilson.C156_replaced",
    "Verif.Wilson.C156_same_parameters_partial",
    "Verif.Wilson.C156_stale",
    "Verif.Wilson.C156_side_effect",
    "Verif.Wilson.C156_own_class"
   ],
   "note": "Proved in full if set_option works entirely in place or entirely by replacement; for the mixed variant (options in place, cache replaced) it is false (C156_stale) and holds only for histories with one parameter point. The wilson package itself is not in /repo."
  },
  {
   "property": "C157",
   "status": "partial",
   "theorems": [
    "Verif.DependentWcs.C157_same_prediction",
    "Verif.DependentWcs.C157_exact",
    "Verif.DependentWcs.C157_empty",
    "Verif.DependentWcs.C157_tracked",
    "Verif.DependentWcs.C157_sound_partial",
    "Verif.DependentWcs.C157_adaptive_misses",
    "Verif.DependentWcs.C157_nonvacuous"
   ],
   "note": "Exactness and the empty case are proved for all prediction functions; soundness for pairs of objects for functions whose queries do not depend on the answers (false for adaptive ones: C157_adaptive_misses)."
  },
  {
   "property": "C158",
   "status": "partial",
   "theorems": [
    "Verif.LikelihoodYaml.C158_measurement_likelihood_partial",
    "Verif.LikelihoodYaml.C158_fast_likelihood_partial",
    "Verif.LikelihoodYaml.C158_no_nuisance_becomes_all",
    "Verif.LikelihoodYaml.C158_likelihood_dump_fails",
    "Verif.LikelihoodYaml.C158_parameter_likelihood_partial",
    "Verif.LikelihoodYaml.C158_empty_parameters",
    "Verif.LikelihoodYaml.C158_measurement_likelihood_load",
    "Verif.LikelihoodYaml.C158_likelihood_load",
    "Verif.LikelihoodYaml.C158_null_ignores_include",
    "Verif.LikelihoodYaml.C158_nuisance_all_rejected",
    "Verif.LikelihoodYaml.C158_pseudo_lost",
    "Verif.LikelihoodYaml.C158_empty_exclude",
    "Verif.LikelihoodYaml.C158_no_observables",
    "Verif.LikelihoodYaml.C158_rejects",
    "Verif.LikelihoodYaml.C158_reloaded",
    "Verif.LikelihoodYaml.C158_nonvacuous",
    "Verif.LikelihoodYaml.C158_refused"
   ],
   "note": "Proved for MeasurementLikelihood, ParameterLikelihood and FastLikelihood under the stated conditions (non-empty lists, no pseudo-measurements); false otherwise and for Likelihood (witness theorems)."
  },
  {
   "property": "C159",
   "status": "partial",
   "theorems": [
    "Verif.Joint.C159_new_axes",
    "Verif.Joint.C159_given_axes_partial",
    "Verif.Joint.C159_chain",
    "Verif.Joint.C159_wrong_axes",
    "Verif.Joint.C159_two_plots",
    "Verif.Joint.C159_keeps"
   ],
   "note": "Holds when ax_2d is not given or is the current axes; false otherwise (C159_wrong_axes)."
  },
  {
   "property": "C160",
   "status": "partial",
   "theorems": [
    "Verif.DependentWcs.C160_get_wc",
    "Verif.DependentWcs.C160_get_wcxf_partial",
    "Verif.DependentWcs.C160_direct_access_fails",
    "Verif.DependentWcs.C160_nonvacuous"
   ],
   "note": "for functions using get_wc: proved in full; for get_wcxf: needs that missing coefficients are read as zero and that running maps zero to zero (C160_direct_access_fails is the counterexample otherwise)"
  },
  {
   "property": "C161",
   "status": "partial",
   "theorems": [
    "Verif.Registration.C161_vector",
    "Verif.Registration.C161_vector_equal",
    "Verif.Registration.C161_scalar_partial",
    "Verif.Registration.C161_combined_missing",
    "Verif.Registration.C161_bll",
    "Verif.Registration.C161_nonvacuous",
    "Verif.Registration.C161_example"
   ],
   "note": "false for pseudoscalar and scalar quarkonium: the combined e-mu and e-tau modes are not registered (C161_combined_missing); proved for all other modes"
  },
  {
   "property": "C162",
   "status": "proved",
   "theorems": [
    "Verif.Integrate.C162_weights",
    "Verif.Integrate.C162_spline_unique",
    "Verif.Integrate.C162_bounds",
    "Verif.Integrate.C162_monotone",
    "Verif.Integrate.C162_linear",
    "Verif.Integrate.C162_orientation",
    "Verif.Integrate.C162_cubic",
    "Verif.Integrate.C162_error",
    "Verif.Integrate.C162_complex",
    "Verif.Integrate.C162_nonvacuous"
   ],
   "note": ""
  },
  {
   "property": "C163",
   "status": "proved",
   "theorems": [
    "Verif.Rge.C163_linear",
    "Verif.Rge.C163_superposition",
    "Verif.Rge.C163_zero",
    "Verif.Rge.C163_same_scale",
    "Verif.Rge.C163_conserved",
    "Verif.Rge.C163_nonvacuous"
   ],
   "note": ""
  },
  {
   "property": "C164",
   "status": "partial",
   "theorems": [
    "Verif.MeasFiles.C164_roundtrip_partial",
    "Verif.MeasFiles.C164_unknown_name_keeps_file",
    "Verif.MeasFiles.C164_old_format",
    "Verif.MeasFiles.C164_unreadable_changes_nothing",
    "Verif.MeasFiles.C164_nonvacuous",
    "Verif.MeasFiles.C164_numpy_arguments_unreadable",
    "Verif.MeasFiles.C164_not_atomic",
    "Verif.MeasFiles.C164_spurious_measurement"
   ],
   "note": "The round trip holds for observables and attributes made of standard YAML values and without removed constraints; for NumPy numbers it is false of the code (C164_numpy_arguments_unreadable), reading is not atomic (C164_not_atomic, C164_spurious_measurement)."
  },
  {
   "property": "C165",
   "status": "proved",
   "theorems": [
    "Verif.EnergyUnit.C165_angular",
    "Verif.EnergyUnit.C165_semileptonic",
    "Verif.EnergyUnit.C165_scalar_quarkonium",
    "Verif.EnergyUnit.C165_Lambdab",
    "Verif.EnergyUnit.C165_beta",
    "Verif.EnergyUnit.C165_edm",
    "Verif.EnergyUnit.C165_magnetic",
    "Verif.EnergyUnit.C165_conversion",
    "Verif.EnergyUnit.C165_Z",
    "Verif.EnergyUnit.C165_W",
    "Verif.EnergyUnit.C165_leptonic",
    "Verif.EnergyUnit.C165_lepton_two_body",
    "Verif.EnergyUnit.C165_three_leptons",
    "Verif.EnergyUnit.C165_bll",
    "Verif.EnergyUnit.C165_vll",
    "Verif.EnergyUnit.C165_tau_leptonic",
    "Verif.EnergyUnit.C165_Kpilnu",
    "Verif.EnergyUnit.C165_Kll",
    "Verif.EnergyUnit.C165_Lambda1520",
    "Verif.EnergyUnit.C165_Lambda1520_lattice",
    "Verif.EnergyUnit.C165_Lambda1520_quark_model",
    "Verif.EnergyUnit.C165_mixing",
    "Verif.EnergyUnit.C165_nunu",
    "Verif.EnergyUnit.C165_loops",
    "Verif.EnergyUnit.C165_qcdf"
   ],
   "note": ""
  },
  {
   "property": "C166",
   "status": "proved",
   "theorems": [
    "Verif.Radcorr.C166_light_lepton",
    "Verif.Radcorr.C166_threshold",
    "Verif.Radcorr.C166_leptons",
    "Verif.Radcorr.C166_other_lepton",
    "Verif.Radcorr.C166_unit",
    "Verif.Radcorr.C166_mass_log",
    "Verif.Radcorr.C166_c1_cancels",
    "Verif.Radcorr.C166_continuous"
   ],
   "note": ""
  },
  {
   "property": "C167",
   "status": "proved",
   "theorems": [
    "Verif.Colors.C167_lighten",
    "Verif.Colors.C167_darken",
    "Verif.Colors.C167_proper",
    "Verif.Colors.C167_identity",
    "Verif.Colors.C167_extremes",
    "Verif.Colors.C167_lightness",
    "Verif.Colors.C167_compose",
    "Verif.Colors.C167_mix_white",
    "Verif.Colors.C167_mix_black",
    "Verif.Colors.C167_dual"
   ],
   "note": ""
  },
  {
   "property": "C168",
   "status": "proved",
   "theorems": [
    "Verif.Xll.C168_total",
    "Verif.Xll.C168_universal",
    "Verif.Xll.C168_scale"
   ],
   "note": ""
  },
  {
   "property": "C169",
   "status": "partial",
   "theorems": [
    "Verif.Xll.C169_tau77",
    "Verif.Xll.C169_tau99",
    "Verif.Xll.C169_tau79",
    "Verif.Xll.C169_f7",
    "Verif.Xll.C169_f9",
    "Verif.Xll.C169_tau910",
    "Verif.Xll.C169_tau710_partial",
    "Verif.Xll.C169_tau710_witness"
   ],
   "note": "tau77, tau99, tau79 vanish and f7, f9, tau910 are finite at s=1; tau710 is not (false of the code, C169_tau710_witness): proved with its second term 1/(3(1-3s)) replaced by 1/(3(1-s))"
  },
  {
   "property": "C170",
   "status": "proved",
   "theorems": [
    "Verif.CpConserving.C170_ckm",
    "Verif.CpConserving.C170_mixing",
    "Verif.CpConserving.C170_kaons",
    "Verif.CpConserving.C170_edm",
    "Verif.CpConserving.C170_beta",
    "Verif.CpConserving.C170_radiative",
    "Verif.CpConserving.C170_vector",
    "Verif.CpConserving.C170_pseudoscalar",
    "Verif.CpConserving.C170_triple"
   ],
   "note": ""
  },
  {
   "property": "C171",
   "status": "proved",
   "theorems": [
    "Verif.LfvZero.C171_bll",
    "Verif.LfvZero.C171_kll",
    "Verif.LfvZero.C171_semileptonic",
    "Verif.LfvZero.C171_three_leptons",
    "Verif.LfvZero.C171_two_body",
    "Verif.LfvZero.C171_conversion",
    "Verif.LfvZero.C171_quarkonium",
    "Verif.LfvZero.C171_quarkonium_spin0",
    "Verif.LfvZero.C171_quarkonium_gamma",
    "Verif.LfvZero.C171_Z",
    "Verif.LfvZero.C171_sample"
   ],
   "note": ""
  }
 ]
}