"""Writes /verif/MANIFEST.json. One call of c(...) per property."""
import json, os

OUT = []


def c(prop, status, theorems, note=""):
    OUT.append({"property": prop, "status": status,
                "theorems": ["Skill." + t for t in theorems.split()], "note": note})


c("C01", "proved", "C01_update_info_exact")
c("C02", "proved", "C02_accepts_iff")
c("C03", "proved", "C03_stages_are_blocks")
c("C04", "proved", "C04_options")
c("C05", "proved", "C05_index_membership")
c("C06", "partial", "C06_index_unique_partial C06_duplicate_labels",
  "Proved for factor names without hyphens, spaces and reserved words; C06_duplicate_labels is an accepted model with hyphens in its factor names and a duplicated label.")
c("C07", "proved", "C07_parsed_values",
  "For models whose names can be told apart (GoodNames), see C06 for the others.")
c("C08", "partial", "C08_anchoring_params_partial C08_swapped_factors C08_name_clash",
  "Proved if the anchored factors are listed in the order of the factors; C08_swapped_factors is an accepted model with another order in which a factor gets the scaling factor and constant of another factor.")
c("C09", "proved", "C09_row_order_irrelevant")
c("C10", "proved", "C10_initial_covariances")
c("C11", "partial", "C11_selectors_exist_partial C11_empty_selector",
  "Proved for models with distinguishable names, latent anchored factors, at least one mixture element, no custom function that reuses the names constant/log_ces, and at least one transition parameter; C11_empty_selector is an accepted model for which a stage constraint selects nothing.")
c("C12", "proved", "C12_normalizations_enforced constraints_fix_iff")
c("C13", "proved", "C13_stage_equality")
c("C14", "partial", "C14_bounds_partial C14_bound_off_diagonal",
  "Proved for factor names without hyphens; with hyphens an off-diagonal entry can get a bound (counterexample).")
c("C15", "proved", "C15_ids")
c("C16", "partial", "C16_fixed_within_bounds_partial C16_fixed_below_bound",
  "Holds if the bounds distance is not positive or no factor is constant; with default options a constant factor has its shock sd fixed to 0 below the bound 0.001 (counterexample).")
c("C17", "proved", "C17_anchoring_flags")
c("C18", "partial", "C18_fixes_consistent_partial C18_contradicting_fixes",
  "Proved if no intercept is normalized twice with different values; two factors that share a measurement can normalize its intercept to different values (counterexample).")
c("C63", "proved", "C63_blocks_line_up")
c("C24", "proved", "C24_balanced_panel C24_duplicates_rejected C24_row_order")
c("C25", "proved", "C25_controls_complete")
c("C26", "partial", "C26_observed_factors_partial C26_counterexample",
  "False as stated: a row whose controls are incomplete is deleted completely, including its observed factors. Proved exactly when an observed factor is missing.")
c("C27", "proved", "C27_data_arrays")
c("C66", "proved", "C66_accepts_iff")
c("C67", "partial", "C67_only_rows_matter_partial C67_counterexample",
  "False if the period level of the index has unused values (e.g. after selecting periods): all values are shifted to later periods. Proved for indices without unused period values.")
c("C28", "proved", "C28_update_is_kalman_update", "Over the reals; ValidQR (upper triangular R with R'R = M'M) is all that is assumed about the QR routine, exists_validQR shows that there is one.")
c("C29", "proved", "C29_qr_convention C29_update C29_loglike")
c("C19", "proved", "C19_params_of_reduced_models")
c("C20", "proved", "C20_edits_keep_models_valid")
c("C21", "proved", "C21_remove_factors C21_remove_nothing C21_extract_factors C21_reduce_n_periods C21_remove_measurements C21_remove_controls",
  "If the first removal leaves no control, the second one is a KeyError (C21_remove_controls_key_error).")
c("C22", "proved", "C22_switch C22_extended_params")
c("C23", "proved", "C23_later_updates_win")
c("C30", "proved", "C30_missing_changes_nothing")
c("C31", "proved", "C31_order_irrelevant")
c("C32", "proved", "C32_weights")
c("C33", "proved", "C33_anchoring_keeps_states")
c("C34", "proved", "C34_sigma_points")
c("C35", "proved", "C35_linear_predict_exact")
c("C36", "proved", "C36_predicted_covariance")
c("C37", "proved", "C37_anchoring_commutes C37_observed_unchanged")
c("C38", "partial", "C38_predict_steps_partial C38_skipped_transitions",
  "Holds if every period has at least one update. A period without any update makes the code skip "
  "the transitions into and out of it; C38_skipped_transitions is a model the code accepts for which this happens.")
c("C39", "proved", "C39_individuals_independent")
c("C40", "proved", "C40_value_is_sum")
c("C41", "proved", "C41_soft_clipping")
c("C42", "proved", "C42_exact_likelihood", "Includes mixtures and missing measurements. The distribution of the data is defined by simulation with independent standard normal draws (Spec/StateSpace.lean).")
c("C43", "proved", "C43_mixture_labels")
c("C44", "partial", "C44_predict_defined_partial C44_shape_error",
  "Holds with one mixture element or without observed factors; with at least two mixture elements and an observed factor the predict step always fails with a TypeError (counterexample theorem).")
c("C45", "proved", "C45_rescaling C45_rescaling_anchored")
c("C46", "proved", "C46_parameters_by_name C46_linear_length")
c("C47", "proved", "C47_nested")
c("C48", "proved", "C48_log_ces")
c("C49", "proved", "C49_param_names")
c("C50", "proved", "C50_combined_function")
c("C51", "partial", "C51_filtered_states_partial C51_counterexample_label C51_counterexample_crash", "Full claim is false: if a period has no measurements the labels of later periods are shifted, or the function crashes if there is an anchoring equation. Proved for models with measurements in every period.")
c("C52", "partial", "C52_ids_partial C52_counterexample", "Full claim is false with several mixture elements: the id is the number of the row. Proved for one element (and always for all_contributions).")
c("C53", "proved", "C53_state_ranges")
c("C54", "proved", "C54_affine C54_anchored_states")
c("C55", "proved", "C55_convex")
c("C56", "proved", "C56_simulation C56_noise_free")
c("C57", "partial", "C57_policy_partial C57_last_period_ignored C57_accepts_iff", "Full claim is false: a policy for the last period is silently ignored. Proved for all earlier periods.")
c("C68", "partial", "C57_policy_partial C68_same_period_measurements", "Full claim is false: a policy shifts the measurements of its own period by loading times effect. Proved: nothing changes in earlier periods.")
c("C69", "proved", "C69_simulation_matches_likelihood")
c("C61", "partial", "C61_value_error_iff_partial C61_value_error_counterexample",
  "Proved if no normalization list is longer than the measurements of its factor; otherwise an IndexError can occur (counterexample).")
c("C62", "partial", "C62_optional_sections_partial C62_estimation_options_not_optional",
  "Holds for all sections except estimation_options, whose removal raises a KeyError.")
c("C64", "partial", "C64_parse_succeeds_partial C64_one_period C64_names Ex.C64_names_example",
  "Proved for models with distinguishable names, clean anchoring, at least two periods and at least one mixture element; an accepted model with one period cannot be parsed (counterexample), and neither can an accepted model with a latent factor whose name has a line break or one single quote (C64_names).")
c("C65", "proved", "C65_location")
c("C58", "proved", "C58_mask C58_trim", "With and without trim_heatmap. Rounding as documented by numpy.")
c("C59", "proved", "C59_score_correlations C72_errors C59_score_noise_free C59_noise_free C59_parameters_needed Ex.C59_parameters_needed_example", "For parameters with nonzero loadings.")
c("C72", "proved", "C72_measurement_correlations C72_errors Ex.C72_errors_example", "Factor names must be valid in a pandas query.")
c("C73", "proved", "C73_quasi_score_correlations C72_errors C73_units_measurements C73_units_quasi_scores C73_units_scores")
c("C74", "partial", "C74_quasi_scores_partial C74_counterexample", "Full claim is false with several measurements of a factor. Proved for factors with a single dedicated measurement.")
c("C75", "partial", "C75_color_scale_partial C75_counterexample C75_counterexample_scale", "Full claim is false for trimmed heatmaps: the maximum is taken below the diagonal of the trimmed table, which fails for two variables. Proved without trimming and without missing correlations.")
c("C70", "proved", "C70_likelihood_evaluates")
c("C71", "proved", "C71_likelihood_of_user_model", "The statistical model is defined by names in Spec/LabelModel.lean; an example model and dataset that meets all hypotheses is in Props/PipelineExamples.lean.")
c("C60", "proved", "C60_placement C60_default_orders C60_empty_order")
c("C76", "partial", "C76_documented_orders_partial C76_counterexample", "Full claim is false: the code exchanges the two orders (C60). Proved for cells in which the names of column and row are the same.")
c("C77", "proved", "C77_fixed_quantiles C77_linear_slope")
c("C78", "proved", "C78_keys C78_plots_exist")
c("C79", "proved", "C79_averages C79_plots_exist C79_too_few_individuals")

c("C80", "partial", "C80_contours_partial C80_transposed Ex.C80_counterexample", "Full claim is false: the matrix of densities is transposed, so that the plot shows at (x[j], y[i]) the density at (x[i], y[j]). Proved: the pairs, the grid, and the densities on the diagonal of the grid.")
c("C81", "proved", "C81_surfaces C81_only_frames")
c("C82", "partial", "C82_joint_partial Ex.C82_counterexample Ex.C82_counterexample_labels", "Full claim is false: states and data are put together by position, and rows of the data are selected by their label of the period. Proved if the rows of the data with label t belong to the same individuals in the same order as the states.")
c("C83", "proved", "C83_figure C83_exists C83_empty_order C83_errors Ex.C83_errors_example")
c("C84", "partial", "C84_univariate_latent C84_univariate_partial C84_two_observed Ex.C84_counterexample", "Full claim is false for two or more observed factors (their columns are stacked and lose their names). Proved for at most one observed factor.")
c("C85", "proved", "C85_filtered_states", "The statistical model is that of C71; Ex.linearModel_filtered and Ex.anchoredModel_filtered show cases that meet all hypotheses.")
c("C86", "proved", "C86_get_filtered_states")
c("C87", "proved", "C87_anchored_likelihood", "Transition functions apply to anchored factors in Spec/LabelModel.lean; Ex.anchoredModel_likelihood shows a model and dataset that meet all hypotheses.")
c("C88", "partial", "C88_outcomes_partial Ex.outcomes_matter", "Proved for one mixture element. False for more: the anchoring update leaves states and covariance matrices unchanged but passes on the updated mixture weights; Ex.outcomes_matter is a counterexample with two elements. Outcomes may be missing in one dataset only if all controls are observed (process_data deletes values if a control is missing). Ex.mixModel_same meets all hypotheses.")
c("C89", "partial", "C89_data_needed_partial Ex.C89_counterexample", "False: process_data also checks that the anchoring outcomes and all measurements are columns of the data. The partial theorem says exactly when simulate_dataset succeeds; Ex.C89_counterexample is a dataset with all controls and observed factors that is rejected, Ex.C89_example one that is accepted.")
c("C90", "proved", "C90_simulated_dataset C90_data_required", "Ex.C90_C91_example (individuals of a dataset, with a policy), Ex.C91_example_numbers (n_obs; log_ces and translog, anchoring, two mixture elements) and Ex.C90_data_required_example meet the hypotheses.")
c("C91", "proved", "C91_simulation_law", "The statistical model is modelCells in Spec/SimulatedDataset.lean. Custom transition functions have to be measurable. Ex.C90_C91_example and Ex.C91_example_numbers meet the hypotheses.")
c("C92", "proved", "C92_simulated_likelihood", "Ex.C93_example meets all hypotheses.")
c("C93", "proved", "C93_simulated_data_accepted C93_simulated_data_estimation C93_columns_missing", "Ex.C93_example and Ex.C93_columns_missing_example meet the hypotheses.")
c("C94", "partial", "C94_columns_partial Ex.C94_counterexample", "False for control variables: the columns of the simulated data are exactly the measurements and the variables of the anchoring equations.")
c("C95", "proved", "C95_layout_kwargs C95_subplot_kwargs C95_no_columns C95_distplot_kwargs C95_contour_kwargs C95_distribution_layout", "The arguments that are passed to plotly; what plotly does with them is not modelled.")
c("C96", "proved", "C96_heatmap C96_succeeds C96_given_zmax C96_reserved Ex.heatmap2", "The default of zmax is the subject of C75.")
c("C97", "proved", "C97_gradient", "Differentiation by jax is not modelled: ValidAD (partial derivatives of differentiable functions are returned) is assumed of jax.grad. Ex.anchoredModel_gradient, Ex.cesModel_interior, Ex.constant_interior and Ex.custom_smooth meet the hypotheses; Ex.fderivAD_valid: there are such routines.")
c("C98", "proved", "C98_jacobian C98_combined C98_errors C98_unknown_type C98_default_type", "Ex.anchoredModel_gradient meets the hypotheses.")
c("C99", "proved", "C99_true_parameters_best C99_simulated_data", "Ex.C99_example (random data with controls, an observed factor and a missing value) and Ex.C99_simulated_example meet all hypotheses.")
c("C100", "proved", "C100_likelihood_is_density", "Any transition functions; Ex.nonlinearModel_likelihood (log_ces and a user written function, anchoring, controls, an observed factor, a missing value) meets all hypotheses.")
c("C101", "proved", "C101_order_does_not_matter C101_simulation", "Ex.C101_simulation_example meets the hypotheses of the second theorem, Ex.reversedModel_likelihood those of the first one: other order of factors and measurements, another Cholesky factor, a missing value. Models of C71/C87: linear or constant transition functions, one mixture element if there is anchoring.")
c("C102", "proved", "C102_observational_equivalence C102_same_model", "C101, C103, C104 and C105 are applications; Ex.reversedModel_likelihood, Ex.anchoredModel_rescaled and Ex.allLinear_likelihood meet all hypotheses of the two theorems.")
c("C103", "proved", "C103_rescaling C103_anchored_transitions", "Ex.anchoredModel_rescaled meets all hypotheses: scale and location change over time, one factor is anchored, the other one is constant.")
c("C104", "proved", "C104_normalizations", "Ex.normModel_likelihood meets all hypotheses.")
c("C105", "proved", "C105_constant_is_linear", "Ex.allLinear_likelihood meets all hypotheses.")
c("C106", "proved", "C106_same_likelihood_iff", "Ex.linearModel_intercept_matters meets all hypotheses and uses the theorem to find a dataset that tells two intercepts apart.")
c("C107", "proved", "C107_filtered_states C107_units C107_constant_is_linear C107_order_does_not_matter", "Ex.anchoredModel_rescaled_states, Ex.allLinear_states and Ex.reversedModel_states meet all hypotheses; each of them goes through C107_filtered_states.")
c("C108", "proved", "C108_units C108_same_likelihood", "Ex.anchoredModel_units (an anchored factor, a policy, other units) and Ex.allLinear_simulations meet all hypotheses.")
c("C109", "proved", "C109_wrong_parameters C109_simulated_data C109_growing_data", "Ex.C109_example (controls, an observed factor, a missing value) and Ex.C109_growing_example (two mixture elements) meet all hypotheses.")
c("C110", "proved", "C110_consistent C110_estimates C110_compact C110_maximum differ_controls", "Ex.C110_example meets all hypotheses: all intercepts of a model with two mixture elements are estimated consistently, with bounds for the intercepts and the other parameters known. differ_controls shows for all models without anchoring that the data can tell the coefficients of controls apart.")
c("C111", "proved", "C111_accepted C111_names Ex.C111_example", "RenamedLabel (Spec/Renaming.lean) says which label of the renamed index corresponds to which one. Factor names must not need quoting in query strings. Ex.C111_example renames a model with a CES function, a custom function, anchoring, a control and an observed factor and exchanges the names of two measurements.")
c("C112", "proved", "C112_debug C112_filtered C112_simulated Ex.C112_filtered_example Ex.C112_simulated_example", "Equality of results including errors. RenamingOk and the renamed outputs are in Spec/RenamedOutput.lean. The examples are a nonlinear anchored model with data and a linear model with data and a policy.")
c("C113", "proved", "C113_own_data C113_filtered_states C113_ids C113_used_columns C113_pooled C113_evaluates Ex.C113_example Ex.C113_ids_example", "SameHistory (Spec/OwnData.lean) says that two individuals of two datasets have the same data. For data without unused period levels, as C27.")
c("C114", "proved", "C114_units C114_comparison C114_filtered_states Ex.C114_example", "UnitsOk, unitParams, UsesObservation and logUnits (Spec/Units.lean) describe the change of units; InteriorValues is the regularity condition of C97. Exact arithmetic; qr is any function that returns a QR decomposition.")

c("C115", "proved", "C115_fewer_periods C115_data C115_simulation Ex.C115_example Ex.C115_simulation_example Ex.C115_last_period_policy", "C115_simulation excludes policies in the last period of the reduced model, which simulate_dataset does not apply: C115_last_period_policy shows that the datasets differ with such a policy. Both parameter frames take their values from one table val. Enumerates and updates are the specification of the order of updates (Spec).")
c("C116", "proved", "C116_fewer_measurements C116_data C116_simulation Ex.C116_example Ex.C116_simulation_example", "For individuals without observations of the removed measurements; clipping as in C15.")
c("C117", "proved", "C117_fewer_controls C117_data C117_simulation Ex.C117_example Ex.C117_simulation_example", "Individuals for which a removed control is missing are excluded: their measurements become usable without the control.")
c("C118", "proved", "C118_translog_to_linear C118_linear_to_translog C118_simulation C118_simulation_back Ex.C118_example Ex.C118_example_back Ex.C118_simulation_example Ex.C118_simulation_example_back", "NoHigherOrderTerms (Spec/Edits.lean) says which parameters are zero. The params filled in by switch_linear_to_translog are 0.05 and not zero, so they have to be set to zero for this to apply.")
c("C119", "proved", "C119_identified C119_likelihoods_differ C119_consistent Ex.C119_example", "Ex.C119_example meets all hypotheses: two factors, one of them constant, with a measurement of both factors; all parameters are estimated consistently.")
c("C120", "proved", "C120_admissible_iff C120_feasible C120_constant_infeasible C120_consistent Ex.C120_example Ex.C120_example_infeasible", "Meets (Spec/Admissible.lean) says how estimagic reads a constraint; Admissible says which values a model allows. The clause on constant factors is the same disagreement as in C16.")
c("C121", "proved", "C121_remove_factors C121_data C121_simulation Ex.C121_example Ex.C121_simulation_example", "NoInfluence (Spec/Separation.lean) is stated in terms of the labels of parameters. Models with anchoring are not covered.")
c("C122", "proved", "C122_unrelated_factors C122_simulation Ex.C122_example Ex.C122_simulation_example", "Unrelated (Spec/Separation.lean). With several mixture elements the claim is false: the elements make the groups dependent.")
c("C123", "proved", "C123_residuals Ex.C123_example", "One mixture element. The functions residual and sd are determined by the laws in the statement and by the rows of the DataFrames.")
c("C124", "proved", "C124_smallest_error Ex.C124_example", "Outcomes of anchoring equations are not among the measurements. The estimates are determined by the rows of the DataFrame.")
c("C125", "proved", "C125_quadratic_predict Ex.C125_example", "The predicted covariances are approximations for these transition functions (they are exact for linear ones: C35). With several mixture elements there are no observed factors (otherwise the predict step fails: C44).")
c("C126", "proved", "C126_contributions Ex.C126_example", "For nonlinear transition functions the contributions are densities given the earlier measurements for another distribution of the data (C100).")
c("C127", "proved", "C127_post_update_states Ex.C127_example", "The column id counts pairs of an individual and a mixture element (C52).")
c("C128", "proved", "C128_mixture_residuals Ex.C128_example", "The column id counts pairs of an individual and a mixture element (C52).")
c("C129", "proved", "C129_debug_agrees Ex.C129_example Ex.C129_example_fails", "")
c("C130", "proved", "C130_same_data C130_same_likelihood C130_same_filtered_states C130_same_outputs C130_nested C130_higher_maximum Ex.C130_example Ex.C130_example_stages", "")
c("C131", "proved", "C131_only_well_formed C131_accepts_iff C131_typed_model C131_typed_accepted C131_controls_string C131_anchoring_pairs Ex.C131_pairs_example Ex.C131_example Ex.C131_example_rejected Ex.C131_example_string", "the behaviour of numpy for stagemaps that are not lists or tuples of numbers is an arbitrary parameter")
c("C132", "proved", "C132_contributions C132_debug C132_filtered_states Ex.C132_example", "filtered states: each period has a measurement, as in C51")
c("C133", "proved", "C133_no_look_ahead Ex.C133_example", "random numbers are inputs of the model: the theorem compares simulations in which the random number generator returns the same numbers for the same purpose")
c("C134", "proved", "C134_contributions C134_debug C134_filtered_states Ex.C134_example", "As in C51, each period needs a measurement that is not an anchoring outcome for the filtered states.")
c("C135", "proved", "C135_policy_effects C135_same_for_everyone C135_add_up Ex.C135_example", "the difference of two simulations with the same random numbers is cellEffect (totalEffect (policyDifference ...)), a recursion over periods with the transition parameters")
c("C136", "proved", "C136_same_likelihood C136_same_filtered_states C136_simulation Ex.C136_example Ex.C136_simulation_example", "All numbers of mixture elements; weights positive with sum one, as after the conversion of the parameters. The example compares one element with two elements with weights 1/4 and 3/4.")
c("C137", "proved", "C137_translog C137_translog_maximum C137_controls C137_controls_maximum C137_elements C137_elements_maximum Ex.C137_example_translog Ex.C137_example_controls Ex.C137_example_elements", "For mixture elements the weights of the simpler model have to be positive (the logarithm of a zero weight is not modelled).")
c("C138", "proved", "C138_maximum C138_estimates_exist Ex.C138_example", "")
c("C139", "proved", "C139_missing_measurement C139_no_measurements C139_left_out Ex.C139_example", "two or more periods; the debug likelihood function; without clipping for the last two")
c("C140", "proved", "C140_signs C140_filtered_states C140_no_restriction C140_simulation Ex.C140_example Ex.C140_simulation_example", "two or more periods; values in the interior of the parameter space up to signs")
c("C141", "proved", "C141_monotone Ex.C141_example", "the derivative of the average state with respect to the measurement is the loading times a variance (Tweedie's formula), for mixtures too")
c("C142", "proved", "C142_residual_sds Ex.C142_example", "The rows of residual_sds are compared by period, measurement, mixture element and value. The column id is the position of the pair of individual and mixture element, see C52.")
c("C143", "proved", "C143_filtered_states C143_residuals Ex.C143_example Ex.C143_residuals_example", "Person bundles a dataset, its sorted ids and periods, a position in the ids and the assumptions on the index of the dataset.")
c("C144", "proved", "C144_phi Ex.C144_example", "phi = 0 itself is excluded: there the code divides by zero.")
c("C145", "proved", "C145_scales C145_known_location_and_scale C145_locations C145_linear C145_log_ces_general Ex.C145_example", "A statement about the transition functions; it does not by itself prove identification of the whole model from data.")
c("C146", "proved", "C146_locations C146_debug C146_possible_moves C146_not_identified Ex.C146_example", "for any transition functions; C103 is about changes of location and scale in linear models")
c("C147", "proved", "C147_filtered_states C147_anchored_moves Ex.C147_example", "Spec in Spec/MovedLocations.lean; the weights of mixture elements add up to one after each update for any data (Lemmas/WeightsSum.lean)")
c("C148", "proved", "C148_simulation Ex.C148_example", "Spec in Spec/MovedLocations.lean and Spec/SimulatedDataset.lean; the same draws are used for both simulations")
c("C149", "proved", "C149_raising_policies C149_increasing Ex.C149_example Ex.C149_ces Ex.C149_negative_coefficient", "C149_negative_coefficient shows that the assumption on the transition functions is needed. Spec in Spec/RaisingPolicies.lean and Spec/SimulatedDataset.lean; the same draws are used for both simulations (additional policies are appended to the list)")
c("C150", "proved", "C150_policies_add_up Ex.C150_example", "Spec in Spec/TotalEffects.lean and Spec/SimulatedDataset.lean")

path = os.path.join(os.path.dirname(os.path.abspath(__file__)), "..", "MANIFEST.json")
with open(path, "w") as f:
    f.write('{"claims": [\n' + ",\n".join(json.dumps(o) for o in OUT) + "\n]}\n")
