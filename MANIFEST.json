{"claims": [
{"property": "C01", "status": "proved", "theorems": ["Skill.C01_update_info_exact"], "note": ""},
{"property": "C02", "status": "proved", "theorems": ["Skill.C02_accepts_iff"], "note": ""},
{"property": "C03", "status": "proved", "theorems": ["Skill.C03_stages_are_blocks"], "note": ""},
{"property": "C04", "status": "proved", "theorems": ["Skill.C04_options"], "note": ""},
{"property": "C05", "status": "proved", "theorems": ["Skill.C05_index_membership"], "note": ""},
{"property": "C06", "status": "partial", "theorems": ["Skill.C06_index_unique_partial", "Skill.C06_duplicate_labels"], "note": "Proved for factor names without hyphens, spaces and reserved words; C06_duplicate_labels is an accepted model with hyphens in its factor names and a duplicated label."},
{"property": "C07", "status": "proved", "theorems": ["Skill.C07_parsed_values"], "note": "For models whose names can be told apart (GoodNames), see C06 for the others."},
{"property": "C08", "status": "partial", "theorems": ["Skill.C08_anchoring_params_partial", "Skill.C08_swapped_factors", "Skill.C08_name_clash"], "note": "Proved if the anchored factors are listed in the order of the factors; C08_swapped_factors is an accepted model with another order in which a factor gets the scaling factor and constant of another factor."},
{"property": "C09", "status": "proved", "theorems": ["Skill.C09_row_order_irrelevant"], "note": ""},
{"property": "C10", "status": "proved", "theorems": ["Skill.C10_initial_covariances"], "note": ""},
{"property": "C11", "status": "partial", "theorems": ["Skill.C11_selectors_exist_partial", "Skill.C11_empty_selector"], "note": "Proved for models with distinguishable names, latent anchored factors, at least one mixture element, no custom function that reuses the names constant/log_ces, and at least one transition parameter; C11_empty_selector is an accepted model for which a stage constraint selects nothing."},
{"property": "C12", "status": "proved", "theorems": ["Skill.C12_normalizations_enforced", "Skill.constraints_fix_iff"], "note": ""},
{"property": "C13", "status": "proved", "theorems": ["Skill.C13_stage_equality"], "note": ""},
{"property": "C14", "status": "partial", "theorems": ["Skill.C14_bounds_partial", "Skill.C14_bound_off_diagonal"], "note": "Proved for factor names without hyphens; with hyphens an off-diagonal entry can get a bound (counterexample)."},
{"property": "C15", "status": "proved", "theorems": ["Skill.C15_ids"], "note": ""},
{"property": "C16", "status": "partial", "theorems": ["Skill.C16_fixed_within_bounds_partial", "Skill.C16_fixed_below_bound"], "note": "Holds if the bounds distance is not positive or no factor is constant; with default options a constant factor has its shock sd fixed to 0 below the bound 0.001 (counterexample)."},
{"property": "C17", "status": "proved", "theorems": ["Skill.C17_anchoring_flags"], "note": ""},
{"property": "C18", "status": "partial", "theorems": ["Skill.C18_fixes_consistent_partial", "Skill.C18_contradicting_fixes"], "note": "Proved if no intercept is normalized twice with different values; two factors that share a measurement can normalize its intercept to different values (counterexample)."},
{"property": "C63", "status": "proved", "theorems": ["Skill.C63_blocks_line_up"], "note": ""},
{"property": "C24", "status": "proved", "theorems": ["Skill.C24_balanced_panel", "Skill.C24_duplicates_rejected", "Skill.C24_row_order"], "note": ""},
{"property": "C25", "status": "proved", "theorems": ["Skill.C25_controls_complete"], "note": ""},
{"property": "C26", "status": "partial", "theorems": ["Skill.C26_observed_factors_partial", "Skill.C26_counterexample"], "note": "False as stated: a row whose controls are incomplete is deleted completely, including its observed factors. Proved exactly when an observed factor is missing."},
{"property": "C27", "status": "proved", "theorems": ["Skill.C27_data_arrays"], "note": ""},
{"property": "C66", "status": "proved", "theorems": ["Skill.C66_accepts_iff"], "note": ""},
{"property": "C67", "status": "partial", "theorems": ["Skill.C67_only_rows_matter_partial", "Skill.C67_counterexample"], "note": "False if the period level of the index has unused values (e.g. after selecting periods): all values are shifted to later periods. Proved for indices without unused period values."},
{"property": "C28", "status": "proved", "theorems": ["Skill.C28_update_is_kalman_update"], "note": "Over the reals; ValidQR (upper triangular R with R'R = M'M) is all that is assumed about the QR routine, exists_validQR shows that there is one."},
{"property": "C29", "status": "proved", "theorems": ["Skill.C29_qr_convention", "Skill.C29_update", "Skill.C29_loglike"], "note": ""},
{"property": "C19", "status": "proved", "theorems": ["Skill.C19_params_of_reduced_models"], "note": ""},
{"property": "C20", "status": "proved", "theorems": ["Skill.C20_edits_keep_models_valid"], "note": ""},
{"property": "C21", "status": "proved", "theorems": ["Skill.C21_remove_factors", "Skill.C21_remove_nothing", "Skill.C21_extract_factors", "Skill.C21_reduce_n_periods", "Skill.C21_remove_measurements", "Skill.C21_remove_controls"], "note": "If the first removal leaves no control, the second one is a KeyError (C21_remove_controls_key_error)."},
{"property": "C22", "status": "proved", "theorems": ["Skill.C22_switch", "Skill.C22_extended_params"], "note": ""},
{"property": "C23", "status": "proved", "theorems": ["Skill.C23_later_updates_win"], "note": ""},
{"property": "C30", "status": "proved", "theorems": ["Skill.C30_missing_changes_nothing"], "note": ""},
{"property": "C31", "status": "proved", "theorems": ["Skill.C31_order_irrelevant"], "note": ""},
{"property": "C32", "status": "proved", "theorems": ["Skill.C32_weights"], "note": ""},
{"property": "C33", "status": "proved", "theorems": ["Skill.C33_anchoring_keeps_states"], "note": ""},
{"property": "C34", "status": "proved", "theorems": ["Skill.C34_sigma_points"], "note": ""},
{"property": "C35", "status": "proved", "theorems": ["Skill.C35_linear_predict_exact"], "note": ""},
{"property": "C36", "status": "proved", "theorems": ["Skill.C36_predicted_covariance"], "note": ""},
{"property": "C37", "status": "proved", "theorems": ["Skill.C37_anchoring_commutes", "Skill.C37_observed_unchanged"], "note": ""},
{"property": "C38", "status": "partial", "theorems": ["Skill.C38_predict_steps_partial", "Skill.C38_skipped_transitions"], "note": "Holds if every period has at least one update. A period without any update makes the code skip the transitions into and out of it; C38_skipped_transitions is a model the code accepts for which this happens."},
{"property": "C39", "status": "proved", "theorems": ["Skill.C39_individuals_independent"], "note": ""},
{"property": "C40", "status": "proved", "theorems": ["Skill.C40_value_is_sum"], "note": ""},
{"property": "C41", "status": "proved", "theorems": ["Skill.C41_soft_clipping"], "note": ""},
{"property": "C42", "status": "proved", "theorems": ["Skill.C42_exact_likelihood"], "note": "Includes mixtures and missing measurements. The distribution of the data is defined by simulation with independent standard normal draws (Spec/StateSpace.lean)."},
{"property": "C43", "status": "proved", "theorems": ["Skill.C43_mixture_labels"], "note": ""},
{"property": "C44", "status": "partial", "theorems": ["Skill.C44_predict_defined_partial", "Skill.C44_shape_error"], "note": "Holds with one mixture element or without observed factors; with at least two mixture elements and an observed factor the predict step always fails with a TypeError (counterexample theorem)."},
{"property": "C45", "status": "proved", "theorems": ["Skill.C45_rescaling", "Skill.C45_rescaling_anchored"], "note": ""},
{"property": "C46", "status": "proved", "theorems": ["Skill.C46_parameters_by_name", "Skill.C46_linear_length"], "note": ""},
{"property": "C47", "status": "proved", "theorems": ["Skill.C47_nested"], "note": ""},
{"property": "C48", "status": "proved", "theorems": ["Skill.C48_log_ces"], "note": ""},
{"property": "C49", "status": "proved", "theorems": ["Skill.C49_param_names"], "note": ""},
{"property": "C50", "status": "proved", "theorems": ["Skill.C50_combined_function"], "note": ""},
{"property": "C51", "status": "partial", "theorems": ["Skill.C51_filtered_states_partial", "Skill.C51_counterexample_label", "Skill.C51_counterexample_crash"], "note": "Full claim is false: if a period has no measurements the labels of later periods are shifted, or the function crashes if there is an anchoring equation. Proved for models with measurements in every period."},
{"property": "C52", "status": "partial", "theorems": ["Skill.C52_ids_partial", "Skill.C52_counterexample"], "note": "Full claim is false with several mixture elements: the id is the number of the row. Proved for one element (and always for all_contributions)."},
{"property": "C53", "status": "proved", "theorems": ["Skill.C53_state_ranges"], "note": ""},
{"property": "C54", "status": "proved", "theorems": ["Skill.C54_affine", "Skill.C54_anchored_states"], "note": ""},
{"property": "C55", "status": "proved", "theorems": ["Skill.C55_convex"], "note": ""},
{"property": "C56", "status": "proved", "theorems": ["Skill.C56_simulation", "Skill.C56_noise_free"], "note": ""},
{"property": "C57", "status": "partial", "theorems": ["Skill.C57_policy_partial", "Skill.C57_last_period_ignored", "Skill.C57_accepts_iff"], "note": "Full claim is false: a policy for the last period is silently ignored. Proved for all earlier periods."},
{"property": "C68", "status": "partial", "theorems": ["Skill.C57_policy_partial", "Skill.C68_same_period_measurements"], "note": "Full claim is false: a policy shifts the measurements of its own period by loading times effect. Proved: nothing changes in earlier periods."},
{"property": "C69", "status": "proved", "theorems": ["Skill.C69_simulation_matches_likelihood"], "note": ""},
{"property": "C61", "status": "partial", "theorems": ["Skill.C61_value_error_iff_partial", "Skill.C61_value_error_counterexample"], "note": "Proved if no normalization list is longer than the measurements of its factor; otherwise an IndexError can occur (counterexample)."},
{"property": "C62", "status": "partial", "theorems": ["Skill.C62_optional_sections_partial", "Skill.C62_estimation_options_not_optional"], "note": "Holds for all sections except estimation_options, whose removal raises a KeyError."},
{"property": "C64", "status": "partial", "theorems": ["Skill.C64_parse_succeeds_partial", "Skill.C64_one_period", "Skill.C64_names", "Skill.Ex.C64_names_example"], "note": "Proved for models with distinguishable names, clean anchoring, at least two periods and at least one mixture element; an accepted model with one period cannot be parsed (counterexample), and neither can an accepted model with a latent factor whose name has a line break or one single quote (C64_names)."},
{"property": "C65", "status": "proved", "theorems": ["Skill.C65_location"], "note": ""},
{"property": "C58", "status": "proved", "theorems": ["Skill.C58_mask", "Skill.C58_trim"], "note": "With and without trim_heatmap. Rounding as documented by numpy."},
{"property": "C59", "status": "proved", "theorems": ["Skill.C59_score_correlations", "Skill.C72_errors", "Skill.C59_score_noise_free", "Skill.C59_noise_free", "Skill.C59_parameters_needed", "Skill.Ex.C59_parameters_needed_example"], "note": "For parameters with nonzero loadings."},
{"property": "C72", "status": "proved", "theorems": ["Skill.C72_measurement_correlations", "Skill.C72_errors", "Skill.Ex.C72_errors_example"], "note": "Factor names must be valid in a pandas query."},
{"property": "C73", "status": "proved", "theorems": ["Skill.C73_quasi_score_correlations", "Skill.C72_errors", "Skill.C73_units_measurements", "Skill.C73_units_quasi_scores", "Skill.C73_units_scores"], "note": ""},
{"property": "C74", "status": "partial", "theorems": ["Skill.C74_quasi_scores_partial", "Skill.C74_counterexample"], "note": "Full claim is false with several measurements of a factor. Proved for factors with a single dedicated measurement."},
{"property": "C75", "status": "partial", "theorems": ["Skill.C75_color_scale_partial", "Skill.C75_counterexample", "Skill.C75_counterexample_scale"], "note": "Full claim is false for trimmed heatmaps: the maximum is taken below the diagonal of the trimmed table, which fails for two variables. Proved without trimming and without missing correlations."},
{"property": "C70", "status": "proved", "theorems": ["Skill.C70_likelihood_evaluates"], "note": ""},
{"property": "C71", "status": "proved", "theorems": ["Skill.C71_likelihood_of_user_model"], "note": "The statistical model is defined by names in Spec/LabelModel.lean; an example model and dataset that meets all hypotheses is in Props/PipelineExamples.lean."},
{"property": "C60", "status": "proved", "theorems": ["Skill.C60_placement", "Skill.C60_default_orders", "Skill.C60_empty_order"], "note": ""},
{"property": "C76", "status": "partial", "theorems": ["Skill.C76_documented_orders_partial", "Skill.C76_counterexample"], "note": "Full claim is false: the code exchanges the two orders (C60). Proved for cells in which the names of column and row are the same."},
{"property": "C77", "status": "proved", "theorems": ["Skill.C77_fixed_quantiles", "Skill.C77_linear_slope"], "note": ""},
{"property": "C78", "status": "proved", "theorems": ["Skill.C78_keys", "Skill.C78_plots_exist"], "note": ""},
{"property": "C79", "status": "proved", "theorems": ["Skill.C79_averages", "Skill.C79_plots_exist", "Skill.C79_too_few_individuals"], "note": ""},
{"property": "C80", "status": "partial", "theorems": ["Skill.C80_contours_partial", "Skill.C80_transposed", "Skill.Ex.C80_counterexample"], "note": "Full claim is false: the matrix of densities is transposed, so that the plot shows at (x[j], y[i]) the density at (x[i], y[j]). Proved: the pairs, the grid, and the densities on the diagonal of the grid."},
{"property": "C81", "status": "proved", "theorems": ["Skill.C81_surfaces", "Skill.C81_only_frames"], "note": ""},
{"property": "C82", "status": "partial", "theorems": ["Skill.C82_joint_partial", "Skill.Ex.C82_counterexample", "Skill.Ex.C82_counterexample_labels"], "note": "Full claim is false: states and data are put together by position, and rows of the data are selected by their label of the period. Proved if the rows of the data with label t belong to the same individuals in the same order as the states."},
{"property": "C83", "status": "proved", "theorems": ["Skill.C83_figure", "Skill.C83_exists", "Skill.C83_empty_order", "Skill.C83_errors", "Skill.Ex.C83_errors_example"], "note": ""},
{"property": "C84", "status": "partial", "theorems": ["Skill.C84_univariate_latent", "Skill.C84_univariate_partial", "Skill.C84_two_observed", "Skill.Ex.C84_counterexample"], "note": "Full claim is false for two or more observed factors (their columns are stacked and lose their names). Proved for at most one observed factor."},
{"property": "C85", "status": "proved", "theorems": ["Skill.C85_filtered_states"], "note": "The statistical model is that of C71; Ex.linearModel_filtered and Ex.anchoredModel_filtered show cases that meet all hypotheses."},
{"property": "C86", "status": "proved", "theorems": ["Skill.C86_get_filtered_states"], "note": ""},
{"property": "C87", "status": "proved", "theorems": ["Skill.C87_anchored_likelihood"], "note": "Transition functions apply to anchored factors in Spec/LabelModel.lean; Ex.anchoredModel_likelihood shows a model and dataset that meet all hypotheses."},
{"property": "C88", "status": "partial", "theorems": ["Skill.C88_outcomes_partial", "Skill.Ex.outcomes_matter"], "note": "Proved for one mixture element. False for more: the anchoring update leaves states and covariance matrices unchanged but passes on the updated mixture weights; Ex.outcomes_matter is a counterexample with two elements. Outcomes may be missing in one dataset only if all controls are observed (process_data deletes values if a control is missing). Ex.mixModel_same meets all hypotheses."},
{"property": "C89", "status": "partial", "theorems": ["Skill.C89_data_needed_partial", "Skill.Ex.C89_counterexample"], "note": "False: process_data also checks that the anchoring outcomes and all measurements are columns of the data. The partial theorem says exactly when simulate_dataset succeeds; Ex.C89_counterexample is a dataset with all controls and observed factors that is rejected, Ex.C89_example one that is accepted."},
{"property": "C90", "status": "proved", "theorems": ["Skill.C90_simulated_dataset", "Skill.C90_data_required"], "note": "Ex.C90_C91_example (individuals of a dataset, with a policy), Ex.C91_example_numbers (n_obs; log_ces and translog, anchoring, two mixture elements) and Ex.C90_data_required_example meet the hypotheses."},
{"property": "C91", "status": "proved", "theorems": ["Skill.C91_simulation_law"], "note": "The statistical model is modelCells in Spec/SimulatedDataset.lean. Custom transition functions have to be measurable. Ex.C90_C91_example and Ex.C91_example_numbers meet the hypotheses."},
{"property": "C92", "status": "proved", "theorems": ["Skill.C92_simulated_likelihood"], "note": "Ex.C93_example meets all hypotheses."},
{"property": "C93", "status": "proved", "theorems": ["Skill.C93_simulated_data_accepted", "Skill.C93_simulated_data_estimation", "Skill.C93_columns_missing"], "note": "Ex.C93_example and Ex.C93_columns_missing_example meet the hypotheses."},
{"property": "C94", "status": "partial", "theorems": ["Skill.C94_columns_partial", "Skill.Ex.C94_counterexample"], "note": "False for control variables: the columns of the simulated data are exactly the measurements and the variables of the anchoring equations."},
{"property": "C95", "status": "proved", "theorems": ["Skill.C95_layout_kwargs", "Skill.C95_subplot_kwargs", "Skill.C95_no_columns", "Skill.C95_distplot_kwargs", "Skill.C95_contour_kwargs", "Skill.C95_distribution_layout"], "note": "The arguments that are passed to plotly; what plotly does with them is not modelled."},
{"property": "C96", "status": "proved", "theorems": ["Skill.C96_heatmap", "Skill.C96_succeeds", "Skill.C96_given_zmax", "Skill.C96_reserved", "Skill.Ex.heatmap2"], "note": "The default of zmax is the subject of C75."},
{"property": "C97", "status": "proved", "theorems": ["Skill.C97_gradient"], "note": "Differentiation by jax is not modelled: ValidAD (partial derivatives of differentiable functions are returned) is assumed of jax.grad. Ex.anchoredModel_gradient, Ex.cesModel_interior, Ex.constant_interior and Ex.custom_smooth meet the hypotheses; Ex.fderivAD_valid: there are such routines."},
{"property": "C98", "status": "proved", "theorems": ["Skill.C98_jacobian", "Skill.C98_combined", "Skill.C98_errors", "Skill.C98_unknown_type", "Skill.C98_default_type"], "note": "Ex.anchoredModel_gradient meets the hypotheses."},
{"property": "C99", "status": "proved", "theorems": ["Skill.C99_true_parameters_best", "Skill.C99_simulated_data"], "note": "Ex.C99_example (random data with controls, an observed factor and a missing value) and Ex.C99_simulated_example meet all hypotheses."},
{"property": "C100", "status": "proved", "theorems": ["Skill.C100_likelihood_is_density"], "note": "Any transition functions; Ex.nonlinearModel_likelihood (log_ces and a user written function, anchoring, controls, an observed factor, a missing value) meets all hypotheses."},
{"property": "C101", "status": "proved", "theorems": ["Skill.C101_order_does_not_matter", "Skill.C101_simulation"], "note": "Ex.C101_simulation_example meets the hypotheses of the second theorem, Ex.reversedModel_likelihood those of the first one: other order of factors and measurements, another Cholesky factor, a missing value. Models of C71/C87: linear or constant transition functions, one mixture element if there is anchoring."},
{"property": "C102", "status": "proved", "theorems": ["Skill.C102_observational_equivalence", "Skill.C102_same_model"], "note": "C101, C103, C104 and C105 are applications; Ex.reversedModel_likelihood, Ex.anchoredModel_rescaled and Ex.allLinear_likelihood meet all hypotheses of the two theorems."},
{"property": "C103", "status": "proved", "theorems": ["Skill.C103_rescaling", "Skill.C103_anchored_transitions"], "note": "Ex.anchoredModel_rescaled meets all hypotheses: scale and location change over time, one factor is anchored, the other one is constant."},
{"property": "C104", "status": "proved", "theorems": ["Skill.C104_normalizations"], "note": "Ex.normModel_likelihood meets all hypotheses."},
{"property": "C105", "status": "proved", "theorems": ["Skill.C105_constant_is_linear"], "note": "Ex.allLinear_likelihood meets all hypotheses."},
{"property": "C106", "status": "proved", "theorems": ["Skill.C106_same_likelihood_iff"], "note": "Ex.linearModel_intercept_matters meets all hypotheses and uses the theorem to find a dataset that tells two intercepts apart."},
{"property": "C107", "status": "proved", "theorems": ["Skill.C107_filtered_states", "Skill.C107_units", "Skill.C107_constant_is_linear", "Skill.C107_order_does_not_matter"], "note": "Ex.anchoredModel_rescaled_states, Ex.allLinear_states and Ex.reversedModel_states meet all hypotheses; each of them goes through C107_filtered_states."},
{"property": "C108", "status": "proved", "theorems": ["Skill.C108_units", "Skill.C108_same_likelihood"], "note": "Ex.anchoredModel_units (an anchored factor, a policy, other units) and Ex.allLinear_simulations meet all hypotheses."},
{"property": "C109", "status": "proved", "theorems": ["Skill.C109_wrong_parameters", "Skill.C109_simulated_data", "Skill.C109_growing_data"], "note": "Ex.C109_example (controls, an observed factor, a missing value) and Ex.C109_growing_example (two mixture elements) meet all hypotheses."},
{"property": "C110", "status": "proved", "theorems": ["Skill.C110_consistent", "Skill.C110_estimates", "Skill.C110_compact", "Skill.C110_maximum", "Skill.differ_controls"], "note": "Ex.C110_example meets all hypotheses: all intercepts of a model with two mixture elements are estimated consistently, with bounds for the intercepts and the other parameters known. differ_controls shows for all models without anchoring that the data can tell the coefficients of controls apart."},
{"property": "C111", "status": "proved", "theorems": ["Skill.C111_accepted", "Skill.C111_names", "Skill.Ex.C111_example"], "note": "RenamedLabel (Spec/Renaming.lean) says which label of the renamed index corresponds to which one. Factor names must not need quoting in query strings. Ex.C111_example renames a model with a CES function, a custom function, anchoring, a control and an observed factor and exchanges the names of two measurements."},
{"property": "C112", "status": "proved", "theorems": ["Skill.C112_debug", "Skill.C112_filtered", "Skill.C112_simulated", "Skill.Ex.C112_filtered_example", "Skill.Ex.C112_simulated_example"], "note": "Equality of results including errors. RenamingOk and the renamed outputs are in Spec/RenamedOutput.lean. The examples are a nonlinear anchored model with data and a linear model with data and a policy."},
{"property": "C113", "status": "proved", "theorems": ["Skill.C113_own_data", "Skill.C113_filtered_states", "Skill.C113_ids", "Skill.C113_used_columns", "Skill.C113_pooled", "Skill.C113_evaluates", "Skill.Ex.C113_example", "Skill.Ex.C113_ids_example"], "note": "SameHistory (Spec/OwnData.lean) says that two individuals of two datasets have the same data. For data without unused period levels, as C27."},
{"property": "C114", "status": "proved", "theorems": ["Skill.C114_units", "Skill.C114_comparison", "Skill.C114_filtered_states", "Skill.Ex.C114_example"], "note": "UnitsOk, unitParams, UsesObservation and logUnits (Spec/Units.lean) describe the change of units; InteriorValues is the regularity condition of C97. Exact arithmetic; qr is any function that returns a QR decomposition."},
{"property": "C115", "status": "proved", "theorems": ["Skill.C115_fewer_periods", "Skill.C115_data", "Skill.C115_simulation", "Skill.Ex.C115_example", "Skill.Ex.C115_simulation_example", "Skill.Ex.C115_last_period_policy"], "note": "C115_simulation excludes policies in the last period of the reduced model, which simulate_dataset does not apply: C115_last_period_policy shows that the datasets differ with such a policy. Both parameter frames take their values from one table val. Enumerates and updates are the specification of the order of updates (Spec)."},
{"property": "C116", "status": "proved", "theorems": ["Skill.C116_fewer_measurements", "Skill.C116_data", "Skill.C116_simulation", "Skill.Ex.C116_example", "Skill.Ex.C116_simulation_example"], "note": "For individuals without observations of the removed measurements; clipping as in C15."},
{"property": "C117", "status": "proved", "theorems": ["Skill.C117_fewer_controls", "Skill.C117_data", "Skill.C117_simulation", "Skill.Ex.C117_example", "Skill.Ex.C117_simulation_example"], "note": "Individuals for which a removed control is missing are excluded: their measurements become usable without the control."},
{"property": "C118", "status": "proved", "theorems": ["Skill.C118_translog_to_linear", "Skill.C118_linear_to_translog", "Skill.C118_simulation", "Skill.C118_simulation_back", "Skill.Ex.C118_example", "Skill.Ex.C118_example_back", "Skill.Ex.C118_simulation_example", "Skill.Ex.C118_simulation_example_back"], "note": "NoHigherOrderTerms (Spec/Edits.lean) says which parameters are zero. The params filled in by switch_linear_to_translog are 0.05 and not zero, so they have to be set to zero for this to apply."},
{"property": "C119", "status": "proved", "theorems": ["Skill.C119_identified", "Skill.C119_likelihoods_differ", "Skill.C119_consistent", "Skill.Ex.C119_example"], "note": "Ex.C119_example meets all hypotheses: two factors, one of them constant, with a measurement of both factors; all parameters are estimated consistently."},
{"property": "C120", "status": "proved", "theorems": ["Skill.C120_admissible_iff", "Skill.C120_feasible", "Skill.C120_constant_infeasible", "Skill.C120_consistent", "Skill.Ex.C120_example", "Skill.Ex.C120_example_infeasible"], "note": "Meets (Spec/Admissible.lean) says how estimagic reads a constraint; Admissible says which values a model allows. The clause on constant factors is the same disagreement as in C16."},
{"property": "C121", "status": "proved", "theorems": ["Skill.C121_remove_factors", "Skill.C121_data", "Skill.C121_simulation", "Skill.Ex.C121_example", "Skill.Ex.C121_simulation_example"], "note": "NoInfluence (Spec/Separation.lean) is stated in terms of the labels of parameters. Models with anchoring are not covered."},
{"property": "C122", "status": "proved", "theorems": ["Skill.C122_unrelated_factors", "Skill.C122_simulation", "Skill.Ex.C122_example", "Skill.Ex.C122_simulation_example"], "note": "Unrelated (Spec/Separation.lean). With several mixture elements the claim is false: the elements make the groups dependent."},
{"property": "C123", "status": "proved", "theorems": ["Skill.C123_residuals", "Skill.Ex.C123_example"], "note": "One mixture element. The functions residual and sd are determined by the laws in the statement and by the rows of the DataFrames."},
{"property": "C124", "status": "proved", "theorems": ["Skill.C124_smallest_error", "Skill.Ex.C124_example"], "note": "Outcomes of anchoring equations are not among the measurements. The estimates are determined by the rows of the DataFrame."},
{"property": "C125", "status": "proved", "theorems": ["Skill.C125_quadratic_predict", "Skill.Ex.C125_example"], "note": "The predicted covariances are approximations for these transition functions (they are exact for linear ones: C35). With several mixture elements there are no observed factors (otherwise the predict step fails: C44)."},
{"property": "C126", "status": "proved", "theorems": ["Skill.C126_contributions", "Skill.Ex.C126_example"], "note": "For nonlinear transition functions the contributions are densities given the earlier measurements for another distribution of the data (C100)."},
{"property": "C127", "status": "proved", "theorems": ["Skill.C127_post_update_states", "Skill.Ex.C127_example"], "note": "The column id counts pairs of an individual and a mixture element (C52)."},
{"property": "C128", "status": "proved", "theorems": ["Skill.C128_mixture_residuals", "Skill.Ex.C128_example"], "note": "The column id counts pairs of an individual and a mixture element (C52)."},
{"property": "C129", "status": "proved", "theorems": ["Skill.C129_debug_agrees", "Skill.Ex.C129_example", "Skill.Ex.C129_example_fails"], "note": ""},
{"property": "C130", "status": "proved", "theorems": ["Skill.C130_same_data", "Skill.C130_same_likelihood", "Skill.C130_same_filtered_states", "Skill.C130_same_outputs", "Skill.C130_nested", "Skill.C130_higher_maximum", "Skill.Ex.C130_example", "Skill.Ex.C130_example_stages"], "note": ""},
{"property": "C131", "status": "proved", "theorems": ["Skill.C131_only_well_formed", "Skill.C131_accepts_iff", "Skill.C131_typed_model", "Skill.C131_typed_accepted", "Skill.C131_controls_string", "Skill.C131_anchoring_pairs", "Skill.Ex.C131_pairs_example", "Skill.Ex.C131_example", "Skill.Ex.C131_example_rejected", "Skill.Ex.C131_example_string"], "note": "the behaviour of numpy for stagemaps that are not lists or tuples of numbers is an arbitrary parameter"},
{"property": "C132", "status": "proved", "theorems": ["Skill.C132_contributions", "Skill.C132_debug", "Skill.C132_filtered_states", "Skill.Ex.C132_example"], "note": "filtered states: each period has a measurement, as in C51"},
{"property": "C133", "status": "proved", "theorems": ["Skill.C133_no_look_ahead", "Skill.Ex.C133_example"], "note": "random numbers are inputs of the model: the theorem compares simulations in which the random number generator returns the same numbers for the same purpose"},
{"property": "C134", "status": "proved", "theorems": ["Skill.C134_contributions", "Skill.C134_debug", "Skill.C134_filtered_states", "Skill.Ex.C134_example"], "note": "As in C51, each period needs a measurement that is not an anchoring outcome for the filtered states."},
{"property": "C135", "status": "proved", "theorems": ["Skill.C135_policy_effects", "Skill.C135_same_for_everyone", "Skill.C135_add_up", "Skill.Ex.C135_example"], "note": "the difference of two simulations with the same random numbers is cellEffect (totalEffect (policyDifference ...)), a recursion over periods with the transition parameters"},
{"property": "C136", "status": "proved", "theorems": ["Skill.C136_same_likelihood", "Skill.C136_same_filtered_states", "Skill.C136_simulation", "Skill.Ex.C136_example", "Skill.Ex.C136_simulation_example"], "note": "All numbers of mixture elements; weights positive with sum one, as after the conversion of the parameters. The example compares one element with two elements with weights 1/4 and 3/4."},
{"property": "C137", "status": "proved", "theorems": ["Skill.C137_translog", "Skill.C137_translog_maximum", "Skill.C137_controls", "Skill.C137_controls_maximum", "Skill.C137_elements", "Skill.C137_elements_maximum", "Skill.Ex.C137_example_translog", "Skill.Ex.C137_example_controls", "Skill.Ex.C137_example_elements"], "note": "For mixture elements the weights of the simpler model have to be positive (the logarithm of a zero weight is not modelled)."},
{"property": "C138", "status": "proved", "theorems": ["Skill.C138_maximum", "Skill.C138_estimates_exist", "Skill.Ex.C138_example"], "note": ""},
{"property": "C139", "status": "proved", "theorems": ["Skill.C139_missing_measurement", "Skill.C139_no_measurements", "Skill.C139_left_out", "Skill.Ex.C139_example"], "note": "two or more periods; the debug likelihood function; without clipping for the last two"},
{"property": "C140", "status": "proved", "theorems": ["Skill.C140_signs", "Skill.C140_filtered_states", "Skill.C140_no_restriction", "Skill.C140_simulation", "Skill.Ex.C140_example", "Skill.Ex.C140_simulation_example"], "note": "two or more periods; values in the interior of the parameter space up to signs"},
{"property": "C141", "status": "proved", "theorems": ["Skill.C141_monotone", "Skill.Ex.C141_example"], "note": "the derivative of the average state with respect to the measurement is the loading times a variance (Tweedie's formula), for mixtures too"},
{"property": "C142", "status": "proved", "theorems": ["Skill.C142_residual_sds", "Skill.Ex.C142_example"], "note": "The rows of residual_sds are compared by period, measurement, mixture element and value. The column id is the position of the pair of individual and mixture element, see C52."},
{"property": "C143", "status": "proved", "theorems": ["Skill.C143_filtered_states", "Skill.C143_residuals", "Skill.Ex.C143_example", "Skill.Ex.C143_residuals_example"], "note": "Person bundles a dataset, its sorted ids and periods, a position in the ids and the assumptions on the index of the dataset."},
{"property": "C144", "status": "proved", "theorems": ["Skill.C144_phi", "Skill.Ex.C144_example"], "note": "phi = 0 itself is excluded: there the code divides by zero."},
{"property": "C145", "status": "proved", "theorems": ["Skill.C145_scales", "Skill.C145_known_location_and_scale", "Skill.C145_locations", "Skill.C145_linear", "Skill.C145_log_ces_general", "Skill.Ex.C145_example"], "note": "A statement about the transition functions; it does not by itself prove identification of the whole model from data."},
{"property": "C146", "status": "proved", "theorems": ["Skill.C146_locations", "Skill.C146_debug", "Skill.C146_possible_moves", "Skill.C146_not_identified", "Skill.Ex.C146_example"], "note": "for any transition functions; C103 is about changes of location and scale in linear models"},
{"property": "C147", "status": "proved", "theorems": ["Skill.C147_filtered_states", "Skill.C147_anchored_moves", "Skill.Ex.C147_example"], "note": "Spec in Spec/MovedLocations.lean; the weights of mixture elements add up to one after each update for any data (Lemmas/WeightsSum.lean)"},
{"property": "C148", "status": "proved", "theorems": ["Skill.C148_simulation", "Skill.Ex.C148_example"], "note": "Spec in Spec/MovedLocations.lean and Spec/SimulatedDataset.lean; the same draws are used for both simulations"},
{"property": "C149", "status": "proved", "theorems": ["Skill.C149_raising_policies", "Skill.C149_increasing", "Skill.Ex.C149_example", "Skill.Ex.C149_ces", "Skill.Ex.C149_negative_coefficient"], "note": "C149_negative_coefficient shows that the assumption on the transition functions is needed. Spec in Spec/RaisingPolicies.lean and Spec/SimulatedDataset.lean; the same draws are used for both simulations (additional policies are appended to the list)"},
{"property": "C150", "status": "proved", "theorems": ["Skill.C150_policies_add_up", "Skill.Ex.C150_example"], "note": "Spec in Spec/TotalEffects.lean and Spec/SimulatedDataset.lean"}
]}
