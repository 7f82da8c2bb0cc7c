{"id": "C01", "title": "Update table has exactly one row per Kalman update", "statement": "process_model(model)['update_info'] has exactly one row for each pair (period, variable) where the variable is a listed measurement of some latent factor in that period or the derived anchoring variable outcome_factor of an anchored factor; no row is duplicated; rows are grouped by non-decreasing period; the column of a factor is True in a row exactly when the variable measures (or anchors) that factor in that period.", "quantifier": "every model dictionary accepted by process_model (any number of factors, periods, measurements, shared measurements, anchored factors)", "why_tests_cant": "The table is built by order dependent cell assignments that enlarge a DataFrame; a test looks at one model, while the claim is about all lists of measurements including shared ones and empty periods.", "anchors": ["skillmodels/process_model.py:_get_update_info", "skillmodels/process_model.py:fill_list"]}
{"id": "C02", "title": "process_model accepts exactly the consistent specifications", "statement": "process_model returns a processed model exactly if there is at least one factor, the estimation_options section is present, the stagemap (if given) has length n_periods - 1, its stages are 0..S-1 and consecutive stages stay equal or increase by one, every normalized variable is a measurement of its factor in that period, no loading is normalized to zero, no normalization list is longer than the number of periods and every transition function is a built-in or a registered function. In all other cases it raises an exception.", "quantifier": "every well typed model dictionary", "why_tests_cant": "It is an if-and-only-if over all specifications; tests sample single violations.", "anchors": ["skillmodels/process_model.py:process_model", "skillmodels/check_model.py:check_model", "skillmodels/check_model.py:_check_stagemap", "skillmodels/check_model.py:_check_normalizations"]}
{"id": "C03", "title": "An accepted stagemap splits the transitions into consecutive blocks", "statement": "If process_model accepts a stagemap then it starts at 0, is non-decreasing, changes by at most one from a period to the next, and every stage 0..S-1 owns a non-empty contiguous block of periods; together the blocks cover 0..n_periods-2.", "quantifier": "every stagemap of every length", "why_tests_cant": "Contiguity follows by induction over the length of the list.", "anchors": ["skillmodels/check_model.py:_check_stagemap", "skillmodels/process_model.py:_get_labels"]}
{"id": "C04", "title": "Default options and user options are merged correctly", "statement": "Every estimation option the user sets wins over its default, every option not set has the documented default, and the bounds distance is 0 whenever robust_bounds is False.", "quantifier": "every combination of set and unset options and every value", "why_tests_cant": "The combinations are exponential in the number of options and the values unbounded.", "anchors": ["skillmodels/process_model.py:_process_estimation_options", "skillmodels/process_model.py:_process_anchoring"]}
{"id": "C05", "title": "The parameter index lists exactly the model's parameters", "statement": "A label (category, period, name1, name2) is in params_template.index exactly when the specification implies that parameter: a control coefficient for each update and control, a loading for each update and factor it measures, a measurement sd per update, a shock sd per factor and transition, initial means, mixture weights and lower triangular Cholesky entries per mixture element, and one transition parameter per factor, transition and parameter name.", "quantifier": "every accepted model", "why_tests_cant": "Membership in both directions over models of all sizes.", "anchors": ["skillmodels/params_index.py:get_params_index"]}
{"id": "C06", "title": "No parameter label occurs twice", "statement": "params_template.index has no duplicated label, for any factor names (the documentation allows any string as factor name).", "quantifier": "every accepted model and all names of factors, measurements and controls", "why_tests_cant": "Uniqueness depends on string concatenation being injective on all names, which a test on fac1, fac2, fac3 cannot see.", "anchors": ["skillmodels/params_index.py:get_initial_cholcovs_index_tuples", "skillmodels/params_index.py:get_params_index", "docs/source/how_to_guides/model_specs.rst"]}
{"id": "C07", "title": "Parsed parameter arrays carry each value at the place named by its label", "statement": "For every label of the parameter index, the value the user attached to that label appears in the parsed model quantities exactly at the position the label names: loadings[update, factor] (and 0 for factors the update does not measure), control coefficients[update, control], meas_sds[update], shock_sds[period, factor], initial_states[mixture, factor], the transposed Cholesky factor entry [mixture, column, row], log mixture weight[mixture], transition[factor][period, name].", "quantifier": "every accepted model whose names can be told apart (distinct names of factors, variables and controls, no hyphens, spaces or reserved words in the names of factors; see C06 for the other ones), every parameter vector of the right length", "why_tests_cant": "Position bookkeeping with masks, flat indices and reshapes over arbitrary sizes; one off-by-one is invisible when values coincide.", "anchors": ["skillmodels/parse_params.py:create_parsing_info", "skillmodels/parse_params.py:parse_params"]}
{"id": "C08", "title": "Anchoring scale and constant of a factor come from that factor's anchoring equation", "statement": "anchoring_scaling_factors[t, f] is the loading of factor f on its own anchoring outcome in period t if f is anchored and 1 otherwise (also for observed factors); anchoring_constants[t, f] is the intercept of that equation, or 0 if f is not anchored or ignore_constant_when_anchoring is set.", "quantifier": "every accepted model with any set of anchored factors listed in any order", "why_tests_cant": "The assignment relies on an implicit agreement of two orders (of the outcomes dict and of the factors); single tests use one anchored factor.", "anchors": ["skillmodels/parse_params.py:_get_anchoring_scaling_factors", "skillmodels/parse_params.py:_get_anchoring_constants"]}
{"id": "C09", "title": "The likelihood does not depend on the row order of the params DataFrame", "statement": "loglike(params), gradient(params) and debug_loglike(params) use the same parameter vector for every permutation of the rows of params; they raise ValueError if the set of labels differs from params_template.index.", "quantifier": "every params DataFrame and every permutation of its rows", "why_tests_cant": "Factorially many permutations.", "anchors": ["skillmodels/likelihood_function.py:_get_jnp_params_vec"]}
{"id": "C10", "title": "Initial covariance matrices are valid", "statement": "For every parameter vector the parsed initial upper_chols are upper triangular with the diagonal taken from the f-f entries, hence the implied initial covariance of every mixture element is symmetric and positive semi-definite, and positive definite if the diagonal entries are non-zero.", "quantifier": "every number of factors and mixtures and every parameter vector", "why_tests_cant": "A statement about all real parameter values and dimensions.", "anchors": ["skillmodels/parse_params.py:_get_initial_upper_chols"]}
{"id": "C11", "title": "Every constraint refers to existing parameters", "statement": "Each label (or label prefix) selected by an entry of the constraints list selects at least one row of params_template, and each full label selects exactly one.", "quantifier": "every accepted model", "why_tests_cant": "All combinations of stages, transition functions, normalizations and anchoring options.", "anchors": ["skillmodels/constraints.py:get_constraints", "skillmodels/params_index.py:get_params_index"]}
{"id": "C12", "title": "Normalizations are enforced exactly", "statement": "The constraints fix each normalized loading ('loadings', period, measurement, factor) and each normalized intercept ('controls', period, measurement, 'constant') to exactly the user's value, and fix no other measurement parameter because of normalizations.", "quantifier": "every accepted model with any normalizations", "why_tests_cant": "Pairing of two parallel lists over all factors and periods.", "anchors": ["skillmodels/constraints.py:_get_normalization_constraints", "skillmodels/process_model.py:_process_normalizations"]}
{"id": "C13", "title": "Stage constraints equate two transitions exactly when they are in the same stage", "statement": "For any two different transition periods the constraint list equates their transition parameters (and their shock sds) if and only if the stagemap puts them in the same stage.", "quantifier": "every accepted stagemap", "why_tests_cant": "Pairs of periods over stagemaps of all lengths.", "anchors": ["skillmodels/constraints.py:_get_stage_constraints"]}
{"id": "C14", "title": "Lower bounds are set on exactly the standard deviations", "statement": "params_template has lower bound bounds_distance exactly on the meas_sds, shock_sds and diagonal initial_cholcovs rows and -inf on every other row.", "quantifier": "every accepted model and any factor names", "why_tests_cant": "The diagonal is recognised by splitting a string in the middle; correctness quantifies over all factor names.", "anchors": ["skillmodels/constraints.py:add_bounds", "skillmodels/constraints.py:_is_diagonal_entry"]}
{"id": "C15", "title": "Constraint ids are distinct", "statement": "The id of the i-th constraint is i, hence ids are pairwise distinct.", "quantifier": "every accepted model", "why_tests_cant": "Number of constraints is unbounded.", "anchors": ["skillmodels/constraints.py:get_constraints"]}
{"id": "C16", "title": "Fixed values respect the bounds of the template", "statement": "Whenever the constraints fix a parameter to a value, this value is not below the lower bound params_template assigns to the same parameter.", "quantifier": "every accepted model", "why_tests_cant": "Interaction of two independently generated outputs for all models.", "anchors": ["skillmodels/constraints.py:_get_constant_factors_constraints", "skillmodels/constraints.py:add_bounds"]}
{"id": "C17", "title": "Anchoring flags fix exactly the corresponding parameters", "statement": "With free_constant, free_controls or free_loadings False the constraints fix all intercepts to 0, all non-constant control coefficients to 0, respectively all anchoring loadings to 1 of every anchoring equation in every period; with the flag True the anchoring constraints fix none of them.", "quantifier": "every accepted model and all flag combinations", "why_tests_cant": "All flag combinations times all models.", "anchors": ["skillmodels/constraints.py:_get_anchoring_constraints"]}
{"id": "C18", "title": "Constraints are jointly consistent", "statement": "No parameter label is fixed to two different values by the constraint list.", "quantifier": "every accepted model", "why_tests_cant": "Interaction of five generators for all models.", "anchors": ["skillmodels/constraints.py:get_constraints"]}
{"id": "C19", "title": "Reduced models are nested, so reducing params never fails and keeps values", "statement": "For remove_factors, extract_factors, remove_measurements, remove_controls, switch_translog_to_linear and reduce_n_periods applied to a valid model, the parameter labels of the reduced model are a subset of the labels of the full model; the returned params DataFrame has exactly the reduced model's index in its order and keeps every value.", "quantifier": "every accepted model whose anchoring section (if any) has outcomes, every set of names to remove that leaves a factor with at least one period, params with unique labels that contain all labels of the model; remove_controls needs a controls section", "why_tests_cant": "Nestedness of all parameter labels for all subsets of factors, measurements, controls.", "anchors": ["skillmodels/utilities.py:remove_factors", "skillmodels/utilities.py:remove_measurements", "skillmodels/utilities.py:remove_controls", "skillmodels/utilities.py:_reduce_params"]}
{"id": "C20", "title": "Reduced models are valid models", "statement": "remove_factors (leaving at least one factor), remove_measurements, remove_controls, reduce_n_periods and the switch functions turn a specification accepted by process_model into one accepted by process_model.", "quantifier": "every accepted model whose anchoring section (if any) has outcomes; removals that leave a factor with at least one period; at least one period; remove_controls needs a controls section", "why_tests_cant": "Preservation of validity across all specifications.", "anchors": ["skillmodels/utilities.py", "skillmodels/check_model.py"]}
{"id": "C21", "title": "Model edits compose like set operations", "statement": "remove_factors(A) after remove_factors(B) equals remove_factors(A u B); remove_factors of nothing changes nothing in a model without superfluous periods; extract_factors(F) equals removing the complement; reduce_n_periods(m) after reduce_n_periods(n) equals reduce_n_periods(min(m, n)); removing controls or measurements in sequence equals removing the union.", "quantifier": "all models and all argument sets that leave a factor with at least one period; at least one period; for controls: a control is left after the first removal", "why_tests_cant": "Algebraic laws over all sets.", "anchors": ["skillmodels/utilities.py"]}
{"id": "C22", "title": "Switching linear and translog", "statement": "switch_translog_to_linear leaves no translog factor, changes nothing else, and undoes switch_linear_to_translog for models without translog factors; both switches are idempotent; params extended by switch_linear_to_translog keep all old values and fill exactly the new labels with 0.05.", "quantifier": "all models and params", "why_tests_cant": "Round trip over all models.", "anchors": ["skillmodels/utilities.py:switch_translog_to_linear", "skillmodels/utilities.py:switch_linear_to_translog", "skillmodels/utilities.py:_extend_params"]}
{"id": "C23", "title": "update_parameter_values: later DataFrames win", "statement": "The updated value of a label is the non-missing value of the last DataFrame in the list that has one for this label, or the original value if none has; the labels and their order never change.", "quantifier": "all params, all lists of updates without duplicate labels", "why_tests_cant": "Arbitrary many overlapping updates.", "anchors": ["skillmodels/utilities.py:update_parameter_values"]}
{"id": "C24", "title": "Preprocessed data is a balanced panel with unchanged values", "statement": "pre_process_data returns exactly one row for each individual and model period, sorted by individual and period; rows that exist in the data keep their values, other rows are missing; the result does not depend on the order of the rows of the input.", "quantifier": "every long dataset with unique (id, period) keys whose period index has no unused level values (see C67)", "why_tests_cant": "All unbalanced panels and all row orders.", "anchors": ["skillmodels/process_data.py:pre_process_data"]}
{"id": "C25", "title": "A used measurement always has complete controls", "statement": "After process_data, whenever a measurement of an individual in a period is not missing, all controls of that individual in that period are not missing.", "quantifier": "every dataset and model", "why_tests_cant": "All patterns of missings.", "anchors": ["skillmodels/process_data.py:_handle_controls_with_missings", "skillmodels/process_data.py:process_data"]}
{"id": "C26", "title": "Observed factors passed to the filter are never missing", "statement": "If process_data accepts a dataset then the array of observed factors has no missing entry.", "quantifier": "every dataset and model", "why_tests_cant": "All patterns of missings in controls, measurements and observed factors.", "anchors": ["skillmodels/process_data.py:_check_data", "skillmodels/process_data.py:_handle_controls_with_missings"]}
{"id": "C27", "title": "Data arrays hold the right cell of the data", "statement": "measurements[k, i] is the value of the variable of update k in the period of update k for the i-th individual (unless dropped because of missing controls), controls[t, i, c] and observed_factors[t, i, f] likewise; anchoring variables outcome_factor hold the data of outcome.", "quantifier": "every accepted model whose anchoring names do not clash, every accepted dataset without unused period levels", "why_tests_cant": "Index arithmetic for all panels.", "anchors": ["skillmodels/process_data.py:_generate_measurements_array", "skillmodels/process_data.py:_generate_controls_array", "skillmodels/process_data.py:_generate_observed_factor_array", "skillmodels/process_data.py:_add_copies_of_anchoring_outcome"]}
{"id": "C28", "title": "The square-root update equals the textbook Kalman update", "statement": "For every observed measurement kalman_update returns, for every mixture element, the posterior mean x + P h (y - h'x - c'b) / s and a factor of the posterior covariance P - P h h' P / s with s = h'P h + sd^2, and the log likelihood is the normal log density of the residual with variance s.", "quantifier": "all dimensions, all states, all covariance factors, loadings, controls and sds with s > 0; every QR routine that returns an upper triangular R with R'R = M'M", "why_tests_cant": "Real arithmetic identity in any dimension.", "anchors": ["skillmodels/kalman_filters.py:kalman_update"]}
{"id": "C29", "title": "Results do not depend on the sign convention of the QR decomposition", "statement": "Two correct QR routines (which may differ by signs of rows of R) lead to the same updated states, covariances, mixture weights and log likelihood contributions, and the same predicted states and covariances. In particular the output of loglike is the same.", "quantifier": "all inputs with regular initial Cholesky factors and non-zero standard deviations (the shocks of constant factors may have standard deviation zero), and all pairs of valid QR routines", "why_tests_cant": "Sign patterns are an implementation detail of LAPACK/XLA that a test machine fixes.", "anchors": ["skillmodels/kalman_filters.py:kalman_update", "skillmodels/kalman_filters.py:kalman_predict"]}
{"id": "C30", "title": "A missing measurement changes nothing", "statement": "For an individual whose measurement is not finite, kalman_update leaves the states, the covariance factor and the mixture weights unchanged and contributes zero to the log likelihood, whatever the (possibly missing) controls are.", "quantifier": "all inputs and all missing patterns", "why_tests_cant": "Exponentially many missing patterns.", "anchors": ["skillmodels/kalman_filters.py:kalman_update"]}
{"id": "C31", "title": "Order of measurements within a period is irrelevant", "statement": "Incorporating two measurements of the same period in either order gives the same states, covariances, mixture weights and total log likelihood.", "quantifier": "all states, loadings, sds, controls, measurements (missing or not), any number of mixtures", "why_tests_cant": "Exact arithmetic identity for all reals; floating point tests only compare approximately.", "anchors": ["skillmodels/kalman_filters.py:kalman_update", "skillmodels/likelihood_function.py:_scan_body"]}
{"id": "C32", "title": "Mixture weights stay a probability distribution", "statement": "If the initial mixture weights are positive and sum to one, then after every update of every individual the mixture weights are positive and sum to one, and the contribution of an update is the log of the weighted mixture density of the residuals.", "quantifier": "all histories of updates", "why_tests_cant": "Invariant over histories of any length.", "anchors": ["skillmodels/kalman_filters.py:kalman_update"]}
{"id": "C33", "title": "Anchoring outcomes never move the states", "statement": "Anchoring updates contribute to the likelihood and the mixture weights but leave the states and covariance factors of every individual unchanged.", "quantifier": "all inputs", "why_tests_cant": "A property of all inputs.", "anchors": ["skillmodels/likelihood_function.py:_one_arg_anchoring_update"]}
{"id": "C34", "title": "Sigma points reproduce mean and covariance", "statement": "The sigma weights are non-negative for kappa >= 0, sum to one, and the weighted mean and covariance of the sigma points equal the state mean and covariance.", "quantifier": "all numbers of states, kappa with n + kappa > 0, all means and covariance factors", "why_tests_cant": "All dimensions and reals.", "anchors": ["skillmodels/kalman_filters.py:calculate_sigma_scaling_factor_and_weights", "skillmodels/kalman_filters.py:_calculate_sigma_points"]}
{"id": "C35", "title": "The unscented predict is exact for linear transitions", "statement": "If all transition functions are affine the predicted mean is the transition of the mean and the predicted covariance is A P A' + diag(shock_sds^2) (also with anchoring and observed factors).", "quantifier": "all dimensions and coefficients, kappa >= 0 (one mixture element or no observed factors, because otherwise C44 fails)", "why_tests_cant": "All dimensions and reals.", "anchors": ["skillmodels/kalman_filters.py:kalman_predict", "skillmodels/transition_functions.py:linear"]}
{"id": "C36", "title": "Predicted covariances are valid", "statement": "For any transition functions the predicted covariance is symmetric positive semi-definite, and is at least diag(shock_sds^2).", "quantifier": "all transition functions and inputs", "why_tests_cant": "Quantifies over arbitrary functions.", "anchors": ["skillmodels/kalman_filters.py:kalman_predict"]}
{"id": "C37", "title": "Anchoring commutes with the transition", "statement": "Anchoring the transformed (unanchored) sigma points of the next period gives exactly the transition function applied to the anchored sigma points of the current period; observed factors enter the transition unchanged.", "quantifier": "all transition functions, all non-zero scaling factors, all constants (one mixture element or no observed factors for the second part, because otherwise C44 fails)", "why_tests_cant": "Arbitrary functions and reals.", "anchors": ["skillmodels/kalman_filters.py:transform_sigma_points"]}
{"id": "C38", "title": "There is exactly one predict step between consecutive periods", "statement": "Running the likelihood performs a predict step after the last update of each period except the last, with that period's transition parameters, and no other predict step.", "quantifier": "every accepted model", "why_tests_cant": "All update tables; periods without any measurement are allowed by the documentation.", "anchors": ["skillmodels/likelihood_function.py:get_maximization_inputs"]}
{"id": "C39", "title": "Individuals do not influence each other", "statement": "The contribution, filtered states and weights of an individual depend only on the data of that individual; permuting or dropping other individuals does not change them.", "quantifier": "all datasets and permutations", "why_tests_cant": "All datasets.", "anchors": ["skillmodels/likelihood_function.py:_log_likelihood_jax", "skillmodels/kalman_filters.py"]}
{"id": "C40", "title": "The value is the sum of the contributions", "statement": "loglike(params)['value'] equals the sum over individuals of loglike(params)['contributions'], and debug_loglike gives the same value and contributions.", "quantifier": "all models, data and parameters", "why_tests_cant": "All inputs.", "anchors": ["skillmodels/likelihood_function.py:_log_likelihood_jax"]}
{"id": "C41", "title": "Soft clipping respects its bounds and is monotone", "statement": "With a lower bound every clipped element is at least max(x, lower) and at most max(x, lower) + log(2)/hardness; symmetrically for an upper bound; clipping is strictly increasing in x; with None bounds it is the identity.", "quantifier": "all arrays, bounds, positive hardness", "why_tests_cant": "All reals.", "anchors": ["skillmodels/clipping.py:soft_clipping"]}
{"id": "C42", "title": "The likelihood of a linear model is the exact Gaussian likelihood", "statement": "For a model with linear transitions and no clipping, the sum of contributions of an individual equals the log density of the individual's observed measurements under the linear Gaussian state space model whose initial state is drawn from the mixture of normal distributions.", "quantifier": "all dimensions, mixtures, numbers of periods and measurements, all patterns of missing measurements, all parameters with non-zero meas_sds; no anchoring updates", "why_tests_cant": "Induction over the history and all dimensions.", "anchors": ["skillmodels/likelihood_function.py:_log_likelihood_jax", "skillmodels/kalman_filters.py"]}
{"id": "C43", "title": "Relabelling mixture elements does not change the likelihood", "statement": "Permuting the mixture elements (initial states, covariances and weights) permutes the filtered mixture states and leaves all contributions unchanged.", "quantifier": "all permutations, all histories", "why_tests_cant": "Factorially many permutations.", "anchors": ["skillmodels/kalman_filters.py:kalman_update", "skillmodels/likelihood_function.py:_log_likelihood_jax"]}
{"id": "C44", "title": "Models with observed factors and several mixture elements can be evaluated", "statement": "For every accepted model the predict step is defined, i.e. no shape error occurs.", "quantifier": "all numbers of mixtures, observed and latent factors, observations", "why_tests_cant": "All shape combinations.", "anchors": ["skillmodels/kalman_filters.py:_calculate_sigma_points"]}
{"id": "C45", "title": "Rescaling a factor is not identified", "statement": "In a linear model, multiplying a latent factor by c != 0 and adjusting its initial moments, loadings, shock sds and transition coefficients accordingly leaves the likelihood of every dataset unchanged (which is why normalizations are needed).", "quantifier": "all linear models, all non-zero scale factors", "why_tests_cant": "All reals and dimensions.", "anchors": ["skillmodels/likelihood_function.py", "skillmodels/kalman_filters.py"]}
{"id": "C46", "title": "Transition parameters act on the term that their name says", "statement": "linear, translog, robust_translog, linear_and_squares multiply the parameter named 'f' with factor f, 'f ** 2' with its square, 'a * b' with the product of a and b and add 'constant'; log_ces and log_ces_general use the parameter named f as weight of factor f.", "quantifier": "any number of factors, any states and parameters", "why_tests_cant": "Position of pairs in combinations() for any number of factors.", "anchors": ["skillmodels/transition_functions.py"]}
{"id": "C47", "title": "Transition functions are nested as documented", "statement": "translog with zero square and interaction terms is linear; linear_and_squares is translog with zero interactions; robust_translog equals translog for states within +-1e12; log_ces_general with tfp = 1/phi and all sigmas = phi is log_ces.", "quantifier": "all states and parameters", "why_tests_cant": "All reals and dimensions.", "anchors": ["skillmodels/transition_functions.py"]}
{"id": "C48", "title": "log_ces has known location and scale", "statement": "With positive gammas summing to one and phi != 0, log_ces lies between the smallest and largest state, shifts one-to-one with a common shift of all states, and is increasing in every state.", "quantifier": "all numbers of factors, states and parameters", "why_tests_cant": "All reals and dimensions.", "anchors": ["skillmodels/transition_functions.py:log_ces", "docs/source/explanations/notes_on_factor_scales.rst"]}
{"id": "C49", "title": "Number of parameter names equals number of used parameters", "statement": "For each built-in transition function the list of names has the length the function consumes, names are distinct for distinct well-formed factor names.", "quantifier": "any number of factors", "why_tests_cant": "All sizes.", "anchors": ["skillmodels/transition_functions.py"]}
{"id": "C50", "title": "Custom and built-in functions receive their own parameters and factors by name", "statement": "The combined transition function evaluates, for each latent factor, its function on the states of the current row with the parameters of that factor only; factors requested by name get their own entry of the state vector.", "quantifier": "all factors, functions and states", "why_tests_cant": "Arbitrary functions.", "anchors": ["skillmodels/process_model.py:_get_transition_info", "skillmodels/decorators.py:extract_params"]}
{"id": "C51", "title": "Filtered states are taken after the last measurement of each period", "statement": "get_filtered_states returns for each individual and period the mixture-weighted mean of the states after the last measurement update of that period, labelled with that period.", "quantifier": "all models and data", "why_tests_cant": "All update tables.", "anchors": ["skillmodels/process_debug_data.py:_create_filtered_states"]}
{"id": "C52", "title": "The id column of debug data identifies the individual", "statement": "In residuals, residual_sds and post_update_states of debug_loglike, rows of individual i have id i.", "quantifier": "all models and data, any number of mixtures", "why_tests_cant": "All sizes; tests use one mixture element.", "anchors": ["skillmodels/process_debug_data.py:_process_residuals", "skillmodels/process_debug_data.py:_create_post_update_states"]}
{"id": "C53", "title": "State ranges are tight bounds", "statement": "state_ranges[f] has for each period the minimum and maximum of the filtered states of f over individuals: every state lies in the range and both ends are attained.", "quantifier": "all data", "why_tests_cant": "All data.", "anchors": ["skillmodels/process_debug_data.py:create_state_ranges"]}
{"id": "C54", "title": "Anchored states are the affine image of the states", "statement": "anchor_states_df replaces each latent factor column by constant[t, f] + scale[t, f] * state, leaves all other columns and the column order unchanged, and is the identity for unanchored models.", "quantifier": "all states DataFrames, models and parameters", "why_tests_cant": "All data.", "anchors": ["skillmodels/filtered_states.py:anchor_states_df"]}
{"id": "C55", "title": "Aggregated states are convex combinations", "statement": "Filtered states lie between the smallest and largest mixture-element state of the individual when weights are a probability distribution.", "quantifier": "all data", "why_tests_cant": "All reals.", "anchors": ["skillmodels/process_debug_data.py:_create_filtered_states"]}
{"id": "C56", "title": "Simulation without noise follows the model equations", "statement": "With all draws zero, simulate_dataset produces the next states by the same anchored transition as the filter's predict step, adds the effects of the policies of a period to its states before the transition to the next period, and measurements equal loadings times states plus control coefficients times controls.", "quantifier": "all models and parameters", "why_tests_cant": "All models.", "anchors": ["skillmodels/simulate_data.py:_simulate_dataset", "skillmodels/simulate_data.py:measurements_from_states"]}
{"id": "C57", "title": "Every requested policy is applied", "statement": "Each policy dictionary changes the simulated states of its factor in its period.", "quantifier": "all lists of policies with periods of the model", "why_tests_cant": "All policies including the last period.", "anchors": ["skillmodels/simulate_data.py:_simulate_dataset"]}
{"id": "C58", "title": "The heatmap mask shows exactly the requested triangle", "statement": "A correlation cell is shown if and only if it is strictly below the diagonal, or on the diagonal with show_diagonal, or above it with show_upper_triangle; trimming removes only rows and columns without any shown non-missing cell.", "quantifier": "all matrix sizes and flags", "why_tests_cant": "All sizes.", "anchors": ["skillmodels/correlation_heatmap.py:_get_mask", "skillmodels/correlation_heatmap.py:_process_corr_data_for_plotting"]}
{"id": "C59", "title": "Factor scores recover the factor from noise-free measurements", "statement": "get_scores_corr returns the correlations of factor scores: the score of an individual is the average of (measurement - intercept) / loading over the observed measurements of the factor that do not measure other factors. If these measurements equal intercept + loading * factor, then the table contains the correlations of the factors, whatever the other measurements and missing values are. If params lacks the intercept or the loading of a measurement that is used, there is no result.", "quantifier": "all accepted models, datasets, lists of factors and periods, and parameters with nonzero loadings", "why_tests_cant": "All reals and all patterns of missing values.", "anchors": ["skillmodels/correlation_heatmap.py:get_scores_corr", "skillmodels/correlation_heatmap.py:_get_factor_scores_data_for_single_period"]}
{"id": "C60", "title": "Transition plots are placed in the cell of their factors", "statement": "combine_transition_plots puts the plot of (input, output) in the column of input and the row of output, each requested pair in exactly one cell, and missing pairs stay empty.", "quantifier": "all plot dictionaries and orders", "why_tests_cant": "All sizes and orders.", "anchors": ["skillmodels/visualize_transition_equations.py:combine_transition_plots", "skillmodels/visualize_transition_equations.py:_process_orders"]}
{"id": "C61", "title": "Inconsistent specifications are reported as ValueError", "statement": "If the stagemap or the normalizations of a specification are inconsistent then process_model raises the documented ValueError with a report (and not some other exception).", "quantifier": "every well typed model dictionary with at least one factor and estimation options", "why_tests_cant": "All combinations of violations; checks run in sequence and an early crash hides the report.", "anchors": ["skillmodels/check_model.py:check_model", "skillmodels/check_model.py:_check_normalized_variables_are_present"]}
{"id": "C62", "title": "Optional sections are optional", "statement": "Removing any section other than factors from an accepted specification leaves an accepted specification (the documentation calls all other sections optional).", "quantifier": "every accepted model dictionary and every optional section", "why_tests_cant": "The claim is about all models.", "anchors": ["skillmodels/process_model.py:get_dimensions", "docs/source/how_to_guides/model_specs.rst"]}
{"id": "C63", "title": "Equality constraints between periods line up", "statement": "The rows selected by the entries of a pairwise equality constraint have the same length and carry, position by position, the same category, factor and parameter name, so each transition parameter is only equated with the parameter of the same name of the same factor.", "quantifier": "every accepted model", "why_tests_cant": "The selections are positional blocks of the index; that they are aligned depends on the order in which the whole index is built.", "anchors": ["skillmodels/constraints.py:_get_stage_constraints", "skillmodels/params_index.py:get_params_index"]}
{"id": "C64", "title": "Accepted models can be parsed", "statement": "For every accepted model and every parameter vector of the length of the params template, parsing the parameters raises no error.", "quantifier": "every accepted model, every parameter vector", "why_tests_cant": "Shape errors depend on all dimensions, including the degenerate ones.", "anchors": ["skillmodels/parse_params.py:parse_params", "skillmodels/parse_params.py:create_parsing_info"]}
{"id": "C65", "title": "The location of a factor is not identified", "statement": "In a linear model, adding a constant to a latent factor and adjusting its initial mean, the constants of the transition functions and the intercepts of the measurements accordingly leaves the likelihood of every dataset unchanged (which is why intercepts are normalized).", "quantifier": "all linear models without anchoring, all shifts", "why_tests_cant": "All reals and dimensions.", "anchors": ["skillmodels/likelihood_function.py", "skillmodels/kalman_filters.py"]}
{"id": "C66", "title": "process_data accepts exactly the datasets that meet the documented requirements", "statement": "For the estimation, process_data raises no error if and only if: (id, period) keys are unique, outcomes exist, every control exists and is observed for someone in every period, every measurement exists and does not have exactly one distinct value in its period, and every observed factor exists and is never missing.", "quantifier": "every accepted model whose anchoring names do not clash, every dataset without unused period levels", "why_tests_cant": "All datasets, including those with missing rows, missing columns or no individuals.", "anchors": ["skillmodels/process_data.py:_check_data", "skillmodels/process_data.py:process_data"]}
{"id": "C67", "title": "The processed data depends only on the rows of the dataset", "statement": "Two datasets with the same columns and the same rows, in any order, lead to the same arrays, no matter how the index of the DataFrame was built.", "quantifier": "all pairs of datasets with the same rows", "why_tests_cant": "All datasets, row orders and index representations.", "anchors": ["skillmodels/process_data.py:pre_process_data"]}
{"id": "C68", "title": "Policies act at the end of their period", "statement": "A policy does not change the measurements of its own period, because its shock occurs at the end of the period (documented in simulate_dataset); it changes nothing in earlier periods.", "quantifier": "all lists of policies, models, parameters and draws", "why_tests_cant": "All models and draws.", "anchors": ["skillmodels/simulate_data.py:simulate_dataset", "skillmodels/simulate_data.py:_simulate_dataset"]}
{"id": "C69", "title": "The likelihood is the density of simulated data", "statement": "For models with linear transition functions, the exponential of an individual's log likelihood contribution, as a function of the individual's measurements, is the probability density of the measurements that simulate_dataset generates with the same parameters, for any pattern of missing measurements.", "quantifier": "all linear models without anchoring equations and with measurements in every period, all parameters, any number of mixture elements, factors and periods", "why_tests_cant": "Equality of two probability distributions; simulations can only show closeness up to noise.", "anchors": ["skillmodels/simulate_data.py:simulate_dataset", "skillmodels/likelihood_function.py:_log_likelihood_jax", "skillmodels/kalman_filters.py"]}
{"id": "C70", "title": "The likelihood function can be evaluated for every accepted model", "statement": "For every accepted model and every dataset that meets the documented requirements, get_maximization_inputs succeeds, and the likelihood function it returns can be evaluated for every parameter DataFrame with the labels of the template, in any order. It returns one contribution for each individual, one row of all_contributions for each measurement equation, and the value is the sum of the contributions.", "quantifier": "every accepted model with distinguishable names, at least two periods and either one mixture element or no observed factors; every dataset; all parameter values", "why_tests_cant": "All models and datasets; shape errors depend on combinations of dimensions.", "anchors": ["skillmodels/likelihood_function.py:get_maximization_inputs", "skillmodels/likelihood_function.py:_log_likelihood_jax"]}
{"id": "C71", "title": "The likelihood is the density of the statistical model that the user wrote down", "statement": "For a model dictionary with linear (or constant) transition functions, the log likelihood contribution of an individual in a dataset is the logarithm of the density of the individual's observed measurements in the statistical model described by the dictionary and the labelled parameters: initial factors are a mixture of normals with the labelled means and Cholesky factors, factors follow the labelled transition equations with normal shocks, measurements are linear in the factors they are listed for and in the controls, plus normal errors. This holds from the inputs of the user to the output, for all orders of rows of parameters and data and all patterns of missing measurements.", "quantifier": "every accepted model without anchoring, with linear or constant transition functions and measurements in every period; every dataset, individual and parameter DataFrame", "why_tests_cant": "Equality of the output of the complete pipeline with an integral, for all models and data.", "anchors": ["skillmodels/likelihood_function.py:get_maximization_inputs", "skillmodels/process_model.py", "skillmodels/process_data.py", "skillmodels/parse_params.py", "skillmodels/kalman_filters.py"]}
{"id": "C72", "title": "Correlations of measurements", "statement": "get_measurements_corr returns a table with one row and one column for each measurement of each requested latent factor and each requested observed factor in each requested period, labelled by the name (and the period if there are several). Each entry is the sample correlation of the two variables over the individuals for which both are observed. The table is symmetric, has ones on the diagonal and entries between -1 and 1.", "quantifier": "all accepted models, datasets and arguments", "why_tests_cant": "All models, patterns of missing values and selections of factors and periods.", "anchors": ["skillmodels/correlation_heatmap.py:get_measurements_corr", "skillmodels/correlation_heatmap.py:_get_measurement_data"]}
{"id": "C73", "title": "Correlations do not depend on units", "statement": "get_quasi_scores_corr returns the correlations of averages of standardized measurements. Measuring variables in other units (positive scale and shift, possibly different in each period) does not change the correlations of measurements and of quasi scores; if intercepts and loadings are changed accordingly it does not change the correlations of scores.", "quantifier": "all accepted models, datasets, arguments and changes of units", "why_tests_cant": "All reals.", "anchors": ["skillmodels/correlation_heatmap.py:get_quasi_scores_corr", "skillmodels/correlation_heatmap.py:get_measurements_corr", "skillmodels/correlation_heatmap.py:get_scores_corr"]}
{"id": "C74", "title": "Quasi scores coincide with factor scores for linear models", "statement": "For linear models the correlations of quasi factor scores coincide with the correlations of factor scores (documented in get_quasi_scores_corr).", "quantifier": "all models with linear transition functions, datasets and parameters", "why_tests_cant": "All models and datasets.", "anchors": ["skillmodels/correlation_heatmap.py:get_quasi_scores_corr", "skillmodels/correlation_heatmap.py:get_scores_corr"]}
{"id": "C75", "title": "The color scale of a heatmap ends at the largest correlation shown", "statement": "If no zmax is given the color scale of plot_correlation_heatmap ends at the maximum absolute correlation (documented).", "quantifier": "all tables of correlations and flags", "why_tests_cant": "All sizes and flags.", "anchors": ["skillmodels/correlation_heatmap.py:plot_correlation_heatmap", "skillmodels/correlation_heatmap.py:_get_heatmap_kwargs"]}
{"id": "C76", "title": "The orders of transition plots have their documented meaning", "statement": "In combine_transition_plots, column_order is a list of output factors and row_order is a list of input factors (documented): the plot of (input, output) is in the column of output and the row of input.", "quantifier": "all plot dictionaries and orders", "why_tests_cant": "All sizes and orders.", "anchors": ["skillmodels/visualize_transition_equations.py:combine_transition_plots"]}
{"id": "C77", "title": "Transition plots show the transition equation", "statement": "With quantiles_of_other_factors, get_transition_plots shows for each pair (input, output) one curve per quantile. Its points are evenly spaced between the smallest and largest value of the input factor in the period (or the given limits) and lie on the graph of the transition equation of the output factor with the parameters of this period, where all other factors are fixed at the quantile of their values in the period. For linear transition functions the slope is the parameter of the input factor.", "quantifier": "all accepted models, parameter DataFrames, states, datasets, periods, quantiles and numbers of points", "why_tests_cant": "All models, transition functions and states.", "anchors": ["skillmodels/visualize_transition_equations.py:get_transition_plots", "skillmodels/visualize_transition_equations.py:_prepare_data_for_one_plot_fixed_quantile_2d"]}
{"id": "C78", "title": "There is one transition plot for each pair of factors", "statement": "get_transition_plots returns exactly one plot for each factor as input and each latent factor as output. It raises a ValueError for the last period and succeeds for the other periods if all parameters and values are available.", "quantifier": "all accepted models, parameter DataFrames, states, datasets and periods", "why_tests_cant": "All models and periods.", "anchors": ["skillmodels/visualize_transition_equations.py:get_transition_plots", "skillmodels/visualize_transition_equations.py:_get_dictionary_with_plots"]}
{"id": "C79", "title": "Other factors are averaged out over individuals", "statement": "If no quantiles are given, each transition plot has one curve: the average over the drawn individuals of the transition equation, where the input factor varies and the other factors have the values of the individual. The period must have at least as many individuals as are drawn.", "quantifier": "all accepted models, parameter DataFrames, states, datasets, periods and draws", "why_tests_cant": "All models and random draws.", "anchors": ["skillmodels/visualize_transition_equations.py:get_transition_plots", "skillmodels/visualize_transition_equations.py:_prepare_data_for_one_plot_average_2d"]}
{"id": "C80", "title": "Contour plots show the density estimate", "statement": "bivariate_density_contours returns one plot for each pair of different factors. For each scenario it shows, at each point of an evenly spaced grid between the smallest and largest values of the two factors, the kernel density estimate of the values in the period at this point.", "quantifier": "all accepted models, states, scenarios, periods, factors and numbers of points", "why_tests_cant": "All samples and grids.", "anchors": ["skillmodels/visualize_factor_distributions.py:bivariate_density_contours", "skillmodels/visualize_factor_distributions.py:_calculate_kde_for_3d"]}
{"id": "C81", "title": "Surface plots show the density estimate", "statement": "bivariate_density_surfaces returns one plot for each pair of different factors. It shows exactly the kernel density estimate of the values in the period on an evenly spaced grid between the smallest and largest values; the plot is empty if a value is missing or all values are on one line. States that are not a DataFrame are rejected with a ValueError.", "quantifier": "all accepted models, states, periods, factors and numbers of points", "why_tests_cant": "All samples and grids.", "anchors": ["skillmodels/visualize_factor_distributions.py:bivariate_density_surfaces", "skillmodels/visualize_factor_distributions.py:_calculate_kde_for_3d"]}
{"id": "C82", "title": "Joint densities of latent and observed factors use values of the same individual", "statement": "Bivariate density plots of a latent factor and an observed factor show the joint distribution over individuals: the value of the latent factor and the value of the observed factor in the data belong to the same individual and period.", "quantifier": "all accepted models, states and datasets (in any order of rows, with any labels of periods), periods and factors", "why_tests_cant": "All orders of the rows of datasets.", "anchors": ["skillmodels/visualize_factor_distributions.py:_process_data", "skillmodels/visualize_factor_distributions.py:_get_data_observed_factors"]}
{"id": "C83", "title": "The combined figure of distributions has each plot in its place", "statement": "combine_distribution_plots returns a figure with one row and one column for each factor in the order of the user: densities on the diagonal, the contour plot of the factors of column and row below it, and the surface plot above it if there are surface plots. Only the first cell contributes to the legend, and titles are the names given by the user. It exists if and only if there is at least one factor and all needed plots exist.", "quantifier": "all plot dictionaries, orders and mappings of names", "why_tests_cant": "All sizes, orders and mappings.", "anchors": ["skillmodels/visualize_factor_distributions.py:combine_distribution_plots", "skillmodels/visualize_factor_distributions.py:_process_factor_mapping_dist", "skillmodels/visualize_factor_distributions.py:_get_ordered_factors"]}
{"id": "C84", "title": "There is one univariate density for each factor", "statement": "univariate_densities returns one plot for each factor: the distribution of its values in the period, one curve per scenario. With observed_factors=True the observed factors are plotted, too.", "quantifier": "all accepted models, states, scenarios, datasets, periods and factors", "why_tests_cant": "All models and numbers of observed factors.", "anchors": ["skillmodels/visualize_factor_distributions.py:univariate_densities", "skillmodels/visualize_factor_distributions.py:_get_data_observed_factors"]}
{"id": "C85", "title": "Filtered states are conditional expectations", "statement": "For models with linear and constant transition equations and either one mixture element or no anchoring, the unanchored states returned by get_filtered_states are the conditional expectations of the latent factors of an individual in a period, given the controls and observed factors of the individual and those measurements that are observed up to and including that period. Missing measurements, measurements of later periods and anchoring outcomes play no role. The anchored states are the same expectations in the units of the anchoring outcomes.", "quantifier": "all such models (any number of factors, periods and measurements; any number of mixture elements if there is no anchoring), proper parameter values, datasets, individuals and periods", "why_tests_cant": "All models, parameters and patterns of missing data; the claim is about a probability distribution.", "anchors": ["skillmodels/filtered_states.py:get_filtered_states", "skillmodels/process_debug_data.py:_create_filtered_states", "skillmodels/likelihood_function.py:_log_likelihood_jax", "skillmodels/kalman_filters.py:kalman_update"]}
{"id": "C86", "title": "get_filtered_states returns one row per period and individual, anchored and unanchored", "statement": "get_filtered_states succeeds for accepted models and datasets if each period has a measurement that is not an anchoring outcome and params has a row for each parameter; additional rows of params are ignored. Anchored and unanchored states have one row per period and individual; the anchored state is the unanchored one times the loading of the anchoring outcome plus its constant, states of factors that are not anchored agree, and the ranges are the smallest and largest values per period.", "quantifier": "all models, datasets and parameter DataFrames", "why_tests_cant": "All models, sizes and orders of rows.", "anchors": ["skillmodels/filtered_states.py:get_filtered_states", "skillmodels/filtered_states.py:anchor_states_df", "skillmodels/process_debug_data.py:process_debug_data", "skillmodels/process_debug_data.py:create_state_ranges"]}
{"id": "C87", "title": "The likelihood of models with anchoring", "statement": "For a model dictionary with linear (or constant) transition functions that apply to anchored factors, and one mixture element, the contributions of the measurements of an individual add up to the logarithm of the density of the individual's observed measurements in the statistical model described by the dictionary and the labelled parameters. The contribution of the anchoring outcome of a factor in some period is the logarithm of its conditional density in the same statistical model, given the measurements up to that period, and does not depend on other anchoring outcomes. The contribution of the individual is the sum of these, if clipping is switched off.", "quantifier": "every accepted model with one mixture element, linear or constant transition functions and measurements in every period, with any anchoring section; every dataset, individual and parameter DataFrame", "why_tests_cant": "Equality of the output of the complete pipeline with an integral, for all models and data.", "anchors": ["skillmodels/likelihood_function.py:get_maximization_inputs", "skillmodels/likelihood_function.py:_one_arg_anchoring_update", "skillmodels/process_model.py:_get_update_info", "skillmodels/parse_params.py:_get_anchoring_scaling_factors", "skillmodels/kalman_filters.py:transform_sigma_points"]}
{"id": "C88", "title": "Anchoring outcomes do not change what is learned from measurements", "statement": "Anchoring equations give the factors units; they are no measurements. If two datasets have the same measurements, controls and observed factors and differ in the values of anchoring outcomes only, get_filtered_states returns the same states and state ranges, anchored and unanchored, for the same params, and the likelihood contributions of the measurements are the same.", "quantifier": "all models with anchoring, all pairs of long datasets that differ in anchoring outcomes only, all params, all periods and individuals", "why_tests_cant": "The outcome of one period could leak into the states of all later periods through the state vectors, the covariance matrices or the mixture weights; a test looks at one model with one mixture element.", "anchors": ["skillmodels/likelihood_function.py:_one_arg_anchoring_update", "skillmodels/likelihood_function.py:_scan_body", "skillmodels/filtered_states.py:get_filtered_states"]}
{"id": "C89", "title": "The data that a simulation needs", "statement": "simulate_dataset asks for data with the observed factors and the control variables of the model. Any dataset in the usual long format that has the values of all control variables and observed factors for all individuals and periods is enough to simulate the model, whatever other columns it has or does not have.", "quantifier": "all models, parameters, policies and long datasets with known controls and observed factors", "why_tests_cant": "All models and datasets; the tests simulate with the estimation dataset, which has all columns.", "anchors": ["skillmodels/simulate_data.py:simulate_dataset", "skillmodels/process_data.py:process_data"]}
{"id": "C90", "title": "The output of simulate_dataset", "statement": "With data that process_data accepts, or with n_obs and without data for models without controls and observed factors, simulate_dataset succeeds for every sequence of random numbers. Unanchored states, anchored states and measurements have one row for each individual and period, sorted by individual and period, with the right ids and periods. The anchored states are the unanchored ones in the units of the anchoring outcomes, the state ranges belong to the states, and a measurement is missing exactly in the periods in which it is not in the model. Additional rows of params, the order of its rows, and (with data) n_obs do not matter. Without data, a missing n_obs, control variables or observed factors are errors.", "quantifier": "all models, params, policies, datasets, numbers of individuals and random draws", "why_tests_cant": "All models, sizes and random numbers.", "anchors": ["skillmodels/simulate_data.py:simulate_dataset", "skillmodels/simulate_data.py:_simulate_dataset", "skillmodels/filtered_states.py:anchor_states_df"]}
{"id": "C91", "title": "Simulated data follow the model", "statement": "If the random number generator works as documented, then the latent factors and measurements of each individual in the output of simulate_dataset have the joint distribution of the model that the user described: start values from the mixture of normals, transition functions of anchored factors with normal shocks, policies added to the factors of their period, and measurements that are linear in factors and control variables with normal errors, with the parameter values found under their labels in params and the individual's controls and observed factors. Different individuals are independent.", "quantifier": "all models (any transition functions, anchoring, mixture elements), params, policies, datasets and numbers of individuals", "why_tests_cant": "The claim is about a joint probability distribution, for all models.", "anchors": ["skillmodels/simulate_data.py:simulate_dataset", "skillmodels/simulate_data.py:_simulate_dataset", "skillmodels/simulate_data.py:generate_start_states", "skillmodels/simulate_data.py:measurements_from_states", "skillmodels/simulate_data.py:_get_shock", "skillmodels/parse_params.py:parse_params"]}
{"id": "C92", "title": "simulate_dataset and the likelihood function describe the same model", "statement": "For models with linear or constant transition functions and without anchoring, the measurements of an individual simulated by simulate_dataset have a density (given the individual's controls and observed factors, and for any pattern of missing values), and the contribution of an individual of any dataset to the log likelihood at the same params is the logarithm of this density at the individual's data.", "quantifier": "all such models, params, datasets for the simulation, datasets for the likelihood function, and individuals", "why_tests_cant": "Connects two entry points through a probability distribution, for all models and data.", "anchors": ["skillmodels/simulate_data.py:simulate_dataset", "skillmodels/likelihood_function.py:get_maximization_inputs"]}
{"id": "C93", "title": "A model can be estimated with its simulated data", "statement": "For a model with linear or constant transition functions and without anchoring, controls and observed factors, the simulated measurements of at least two individuals (indexed by id and period) are accepted by get_maximization_inputs with probability one; then the likelihood function can be evaluated at all params of the model (labels), and at proper params the contribution of each individual is the logarithm of the density, with these params, of the simulated values. In general, simulated data are accepted exactly if each measurement has two different values in each period. If the model has controls, observed factors or anchoring outcomes that are no measurements, their columns have to be added before estimation: without them get_maximization_inputs fails.", "quantifier": "all such models, params, numbers of individuals and random draws", "why_tests_cant": "A statement about almost all sequences of random numbers, and all models.", "anchors": ["skillmodels/simulate_data.py:simulate_dataset", "skillmodels/process_data.py:process_data", "skillmodels/likelihood_function.py:get_maximization_inputs"]}
{"id": "C94", "title": "The columns of simulated data", "statement": "The docstring of simulate_dataset promises a dataset with measurements and control variables: each measurement, each variable of an anchoring equation and each control variable is a column of the simulated data.", "quantifier": "all models, params, policies and datasets", "why_tests_cant": "All models and data.", "anchors": ["skillmodels/simulate_data.py:simulate_dataset", "skillmodels/simulate_data.py:_simulate_dataset"]}
{"id": "C95", "title": "Keyword arguments of figures: the user's values win", "statement": "For every keyword argument of a figure (layout, subplots, distribution plots, contours), the value in the user's dictionary of keyword arguments is used if there is one, otherwise the value of the individual argument or the documented default. The default spaces between subplots always leave room for the subplots, and in combined distribution plots exactly the subplots above the diagonal (those of surfaces) are three-dimensional. Without columns of subplots there is an error.", "quantifier": "all dictionaries of keyword arguments, all keys, all numbers of rows and columns", "why_tests_cant": "Every combination of keys, defaults and sizes of the figure.", "anchors": ["skillmodels/utils_plotting.py:get_layout_kwargs", "skillmodels/utils_plotting.py:get_make_subplot_kwargs", "skillmodels/visualize_factor_distributions.py:_process_distplot_kwargs", "skillmodels/visualize_factor_distributions.py:_process_contour_kwargs", "skillmodels/visualize_factor_distributions.py:_process_layout_kwargs_3d"]}
{"id": "C96", "title": "Colors and annotations of correlation heatmaps", "statement": "In the figure of plot_correlation_heatmap the color scale ends at zmax and starts at zmin, by default at -zmax, with the middle zmid, by default 0; values in heatmap_kwargs and layout_kwargs overwrite the individual arguments. With annotate=True each cell of the table has exactly one annotation, with the rounded correlation as text, and no text if the cell is hidden or missing. The arguments z, x and y cannot be passed in heatmap_kwargs.", "quantifier": "all tables of correlations with distinct labels and all arguments of plot_correlation_heatmap", "why_tests_cant": "Every table, every combination of arguments.", "anchors": ["skillmodels/correlation_heatmap.py:plot_correlation_heatmap", "skillmodels/correlation_heatmap.py:_get_heatmap_kwargs", "skillmodels/correlation_heatmap.py:_get_layout_kwargs", "skillmodels/correlation_heatmap.py:_get_annotations"]}
{"id": "C97", "title": "The log likelihood is differentiable and gradient returns its gradient", "statement": "For a valid model and valid data, value and contributions returned by loglike are differentiable functions of the parameters at every point in the interior of the parameter space (no standard deviation is zero, except for shocks of constant factors; regular initial covariances; positive mixture weights; positive weights and non-zero phi of CES functions; differentiable custom functions), although QR decompositions are unique only up to signs. gradient(params) returns one entry per parameter, in the order of the index of params_template, whatever the order of the rows of params: the partial derivatives of the value returned by loglike. They give the rate of change of the value along every differentiable path of parameters, and are the sum of the gradients of the contributions.", "quantifier": "all valid models, data and params in the interior, all valid QR routines, all routines that return partial derivatives of differentiable functions", "why_tests_cant": "A test compares with numerical derivatives at one point; that there are no kinks or jumps (missing data, sign changes of QR, clipping, anchoring) is a statement about all points.", "anchors": ["skillmodels/likelihood_function.py:get_maximization_inputs", "skillmodels/likelihood_function.py:_log_likelihood_jax", "skillmodels/kalman_filters.py:kalman_update", "skillmodels/kalman_filters.py:kalman_predict", "skillmodels/clipping.py:soft_clipping"]}
{"id": "C98", "title": "gradient, jacobian and loglike_and_gradient agree", "statement": "loglike_and_gradient(params) returns exactly the results of loglike(params) and gradient(params), and gradient, jacobian and loglike_and_gradient raise an exception exactly if loglike does, the same one. jacobian(params) is equal to gradient(params) for every supported jacobian_type (the derivative of the scalar log likelihood); the default is jacrev, and unknown types are an AttributeError when the inputs are created.", "quantifier": "all params (also invalid ones), all jacobian types; the equality of jacobian and gradient for all valid models, data and params in the interior", "why_tests_cant": "All params, valid and invalid; two differentiation algorithms.", "anchors": ["skillmodels/likelihood_function.py:get_maximization_inputs"]}
{"id": "C99", "title": "The true params fit best on average", "statement": "If the measurements in a dataset come from the model with some true params (independently for the individuals; any missing values, controls and observed factors), then for all other params the likelihood ratio exp(loglike(params) - loglike(true params)) has mean one, loglike(params) exceeds loglike(true params) by c with probability at most exp(-c), the mean of loglike is at most the one at the true params, and if the means are equal the two values are the same with probability one. The same holds for datasets simulated by simulate_dataset.", "quantifier": "all models with linear or constant transition functions, without anchoring and clipping; all true and other params (positive mixture weights, nonzero standard deviations of measurements); all index structures and patterns of missing values", "why_tests_cant": "A statement about the distribution of the log likelihood, over all random datasets.", "anchors": ["skillmodels/likelihood_function.py:get_maximization_inputs", "skillmodels/simulate_data.py:simulate_dataset"]}
{"id": "C100", "title": "The likelihood is a probability density for all transition functions", "statement": "Also in models where the unscented Kalman filter is only an approximation (nonlinear or user written transition functions, anchoring, several mixture elements), exp of the sum of an individual's log likelihood contributions is a probability density of its observed measurements given its controls and observed factors: it is positive, depends only on what is observed, is one if nothing is observed, has integral one, and treating the last observed measurement as missing gives the marginal density of the other ones. The density depends on the params and on this individual only, not on the rest of the dataset.", "quantifier": "all accepted models and datasets, all params (positive mixture weights, nonzero standard deviations of measurements, finite transition functions), all patterns of missing values", "why_tests_cant": "An integral over all possible data, for arbitrary transition functions.", "anchors": ["skillmodels/likelihood_function.py:get_maximization_inputs", "skillmodels/kalman_filters.py:kalman_update", "skillmodels/kalman_filters.py:kalman_predict"]}
{"id": "C101", "title": "The order of the entries of a model dictionary does not matter", "statement": "In models with linear or constant transition functions the log likelihood does not depend on the order in which the factors, the measurements of a factor, the control variables, the observed factors and the anchoring outcomes are listed in the model dictionary, nor on how the mixture elements are numbered, as long as the params have the same values. For the initial factors only the covariance matrix matters: its Cholesky factor is different for another order of the factors, but any two Cholesky factors of the same covariances lead to the same likelihood. Without clipping the contributions of all individuals and the value are the same; with clipping (which is applied after each update) it is the sum of the unclipped contributions of each individual that is the same. Without policies the simulated measurements of simulate_dataset have the same joint distribution in both models.", "quantifier": "all pairs of accepted models (with one mixture element if there is anchoring) that say the same, all datasets with any pattern of missing measurements, all params", "why_tests_cant": "Compares the likelihood functions of all reorderings of all models at all params and for all datasets.", "anchors": ["skillmodels/likelihood_function.py:get_maximization_inputs", "skillmodels/process_model.py:process_model", "skillmodels/params_index.py:get_params_index", "skillmodels/kalman_filters.py:kalman_update"]}
{"id": "C102", "title": "Observationally equivalent models have the same likelihood", "statement": "If two specifications (models and params; they may have different factors and equations) about the same measurements, controls and observed factors imply the same distribution of the data, then they have the same likelihood for every dataset: the sums of the log likelihood contributions of each individual are equal, and without clipping so are the contributions and the value. Two params of one model that imply the same distribution of the data have exactly the same results of loglike, with any clipping: every single contribution of every update and individual is the same.", "quantifier": "all pairs of models with linear or constant transition functions (one mixture element if there is anchoring), all params (positive mixture weights, nonzero standard deviations of measurements), all datasets with any pattern of missing measurements", "why_tests_cant": "Relates distributions of data to values of the likelihood function, for all datasets.", "anchors": ["skillmodels/likelihood_function.py:get_maximization_inputs", "skillmodels/kalman_filters.py:kalman_update", "skillmodels/kalman_filters.py:kalman_predict"]}
{"id": "C103", "title": "The scale and location of latent factors is not identified; anchored transition functions do not depend on it", "statement": "Change the scale and location of latent factors, in any way in every period, and adjust the params: divide the loadings by the scale, move the locations to the intercepts, multiply initial means, Cholesky factors and the standard deviations of shocks, and express the transition functions in the new units. Then loglike returns the same results for every dataset. The params of transition functions are adjusted for factors without anchoring only: if all factors are anchored, they do not change at all, so they have a meaning that does not depend on the arbitrary scale and location of the factors.", "quantifier": "all models with linear or constant transition functions (one mixture element if there is anchoring), all nonzero scales and all locations (constant over time for factors with constant transition functions and no anchoring; no change of location for anchored factors if constants are ignored), all params and datasets", "why_tests_cant": "All changes of units, all params and all datasets.", "anchors": ["skillmodels/likelihood_function.py:get_maximization_inputs", "skillmodels/kalman_filters.py:transform_sigma_points", "skillmodels/parse_params.py:_get_anchoring_scaling_factors"]}
{"id": "C104", "title": "One normalization per factor and period is no restriction", "statement": "In a model with linear transition functions and no anchoring, fixing one loading and one intercept of each factor in each period (of measurements that measure only this factor) does not restrict the likelihood: for all params with loadings that are not zero and have the signs of the normalized values there are params that satisfy all constraints that fix values, have nonnegative standard deviations and diagonals of Cholesky factors if the first ones have, keep the order of the initial means of mixture elements, and have the same results of loglike for every dataset.", "quantifier": "all models with linear transition functions and at most one normalized loading and intercept per factor and period, all params, all datasets; constraints that set parameters equal within a stage of several periods are not considered", "why_tests_cant": "The existence of other params with the same likelihood for all datasets.", "anchors": ["skillmodels/constraints.py:_get_normalization_constraints", "skillmodels/likelihood_function.py:get_maximization_inputs"]}
{"id": "C105", "title": "The transition function constant is a special case of linear", "statement": "Replace the transition function constant of some factors by linear, with the coefficient one for the factor itself and zero for all other factors and the constant. Then the sum of the log likelihood contributions of each individual is the same, and without clipping the contributions and the value are the same.", "quantifier": "all models with linear or constant transition functions (one mixture element if there is anchoring), all params and datasets", "why_tests_cant": "Compares two different models at all params and for all datasets.", "anchors": ["skillmodels/transition_functions.py:constant", "skillmodels/transition_functions.py:linear", "skillmodels/likelihood_function.py:get_maximization_inputs"]}
{"id": "C106", "title": "Params with the same log likelihood for all datasets imply the same distribution of the data", "statement": "Take two models about the same variables and params for each of them, without clipping. The values of the two log likelihood functions are equal for all datasets if and only if the data have the same distribution in the two statistical models. In particular, whenever two params have different implications for the data, there is a dataset whose log likelihood differs between them.", "quantifier": "all pairs of models without anchoring, with linear or constant transition functions, any number of mixture elements and separate columns for measurements, controls and observed factors; all params", "why_tests_cant": "Quantifies over all datasets on both sides and over probability distributions.", "anchors": ["skillmodels/likelihood_function.py:get_maximization_inputs", "skillmodels/likelihood_function.py:_log_likelihood_jax"]}
{"id": "C107", "title": "Filtered states do not depend on how a model is written down", "statement": "Take two models about the same variables and params for each of them. If the data and a factor of the first model have the same joint distribution as the data and a linear transformation of a factor of the second model, then the filtered states of the two factors are related by the same transformation, for all datasets, individuals and periods. Three consequences: after a change of the units of the factors with adjusted params the filtered states are those in the new units, and the anchored filtered states of anchored factors do not change; replacing the transition function constant by the corresponding linear one does not change filtered states; the order of factors, measurements, controls and mixture elements does not change them.", "quantifier": "all models with linear or constant transition functions (one mixture element if there is anchoring), all params with positive standard deviations and weights, all datasets, individuals, periods and QR decompositions, all changes of units", "why_tests_cant": "Quantifies over all pairs of params with the same implications for the data, over all datasets and over probability distributions.", "anchors": ["skillmodels/filtered_states.py:get_filtered_states", "skillmodels/filtered_states.py:anchor_states_df", "skillmodels/likelihood_function.py:_log_likelihood_jax"]}
{"id": "C108", "title": "Simulated data do not depend on the units of the factors", "statement": "If the units of latent factors change and params and policies are adjusted, then the joint distribution of all cells of the output of simulate_dataset is the old one with factors in the new units. The joint distribution of measurements and anchored factors, in the units of their outcomes, does not change at all, so simulated effects of policies on them do not depend on the units. Likewise, params that the log likelihood cannot tell apart with any dataset lead to simulated measurements with the same joint distribution.", "quantifier": "all models with linear or constant transition functions, all changes of units with positive scales of the factors that are affected by policies, all policies, datasets, numbers of individuals and valid random number generators; the second part for models without anchoring and clipping", "why_tests_cant": "Quantifies over all changes of units, all pairs of params with the same likelihood and over probability distributions.", "anchors": ["skillmodels/simulate_data.py:simulate_dataset", "skillmodels/simulate_data.py:_simulate_dataset", "skillmodels/simulate_data.py:_get_shock", "skillmodels/simulate_data.py:measurements_from_states"]}
{"id": "C109", "title": "With many individuals, wrong params do not have a higher likelihood than the true params", "statement": "Generate data with true params and consider other params with which the data of individuals with covariates c (control variables, observed factors and pattern of missing values) are distributed differently. There is a number less than one, the same for all datasets, such that the probability that the log likelihood is at least as high at the other params as at the true params is at most this number to the power of the number of individuals with covariates c. The same holds for datasets simulated with simulate_dataset; as they grow, the true params almost surely have a higher log likelihood than each of finitely many other params for all but finitely many sizes.", "quantifier": "all models without anchoring and clipping, with linear or constant transition functions and any number of mixture elements; all proper params; all datasets with independent individuals; all numbers of individuals", "why_tests_cant": "Quantifies over all pairs of params, all sizes of datasets and over probability distributions.", "anchors": ["skillmodels/likelihood_function.py:get_maximization_inputs", "skillmodels/simulate_data.py:simulate_dataset"]}
{"id": "C110", "title": "Maximum likelihood estimates are consistent", "statement": "Estimate a model with data from simulate_dataset, with params in a compact set that contains the true params. Almost surely the log likelihood of every simulated dataset with at least two individuals has a maximum in this set. If no other params in the set have the same implications for the data, then all sequences of maxima converge to the true params as the number of individuals grows. In general, all maxima are in any given open set that contains all params with the same implications as the true ones, for all but finitely many sizes. The probability that params with other implications, from a compact set, have a likelihood as high as the true params decreases exponentially with the number of individuals.", "quantifier": "all models without anchoring, clipping, control variables and observed factors, with linear or constant transition functions and any number of mixture elements; all compact sets of proper params; all numbers of individuals; all sequences of maxima", "why_tests_cant": "Quantifies over all sequences of estimates, infinitely many datasets and over probability distributions.", "anchors": ["skillmodels/likelihood_function.py:get_maximization_inputs", "skillmodels/simulate_data.py:simulate_dataset"]}
{"id": "C111", "title": "Names do not matter for the likelihood", "statement": "Give the factors, measurements, controls, observed factors, anchoring outcomes and the columns of the data other names, consistently and without merging two names. get_maximization_inputs accepts the renamed model and data if it accepts the original ones. The index of params of the renamed model has the same length and order, and the labels are the renamed ones. The log likelihood function of the renamed model returns exactly the same contributions and value for the same list of values, or raises the same error.", "quantifier": "all models with names that can be told apart before and after renaming, all one-to-one renamings that keep 'constant' and the form outcome_factor of the names of anchoring equations, all transition functions including custom ones, all data, all values of params", "why_tests_cant": "Quantifies over all renamings of all models; the code sorts, concatenates and looks up names in many places, and a test only sees a few names.", "anchors": ["skillmodels/process_model.py:process_model", "skillmodels/params_index.py:get_params_index", "skillmodels/parse_params.py:parse_params", "skillmodels/likelihood_function.py:get_maximization_inputs"]}
{"id": "C112", "title": "Names do not matter for filtered states, debug output and simulated data", "statement": "Rename the factors, measurements, controls, observed factors, outcomes and columns of a model and its data as in C111; the columns id and period keep their names. With the same values of params, get_filtered_states and debug_loglike return the same numbers, with the new names of factors in the columns and state ranges and the new names of measurements in the rows. With the same random draws, simulate_dataset returns the same numbers under the new names of factors and measurements; the policies refer to the new names of their factors. If the original call fails, the renamed call fails with the same error.", "quantifier": "all models with names that can be told apart before and after renaming, all one-to-one renamings as in C111, all transition functions, all data, all values of params, all draws, all policies", "why_tests_cant": "Quantifies over all renamings of all models and over all random draws.", "anchors": ["skillmodels/filtered_states.py:get_filtered_states", "skillmodels/process_debug_data.py:process_debug_data", "skillmodels/simulate_data.py:simulate_dataset"]}
{"id": "C113", "title": "Only the individual's own data matter", "statement": "The likelihood contribution of an individual (also each entry of the debug output) and its filtered states (anchored or not) depend only on params and on the values of that individual in the columns that the model uses and the periods of the model. So they are the same in every dataset that has an individual with these values, whatever its id, and whichever and however many other individuals there are. The log likelihood of the rows of two datasets with different individuals and the same periods is the sum of both log likelihoods. One-to-one changes of the ids, unused columns, later periods and the order of rows do not change the log likelihood. Whether it can be evaluated for params does not depend on the data, as long as get_maximization_inputs accepts them.", "quantifier": "all accepted models without clashing names of anchoring equations, all pairs of accepted datasets, all transition functions, all params", "why_tests_cant": "Quantifies over all pairs of datasets of different sizes.", "anchors": ["skillmodels/likelihood_function.py:get_maximization_inputs", "skillmodels/process_data.py:process_data", "skillmodels/filtered_states.py:get_filtered_states"]}
{"id": "C114", "title": "The units of measurements and control variables do not matter", "statement": "Suppose each measurement and each control variable is expressed in other units: a value y of a column becomes a * y + b, where a (not zero) and b may differ between columns and periods. Then the data are still accepted and the model has the same parameters. If the loadings, intercepts, coefficients of control variables and measurement standard deviations are expressed in the new units as well, each contribution to the log likelihood decreases by log |a| of its measurement if the measurement is observed and does not change otherwise. Hence, without clipping, the log likelihood changes by a number that does not depend on the parameters, and the comparison of any two parameter vectors (so also the maximum likelihood estimate) does not depend on the units. Filtered states and their ranges, anchored or not, are the same.", "quantifier": "all models and datasets as in C70, all transition functions that are differentiable at the parameters, all changes of units that keep those of anchoring outcomes and observed factors (and, with anchoring, the zeros of control variables), all params with standard deviations that are not zero and mixture weights that are positive and sum to one", "why_tests_cant": "Quantifies over all data, parameters and units.", "anchors": ["skillmodels/likelihood_function.py:get_maximization_inputs", "skillmodels/filtered_states.py:get_filtered_states", "skillmodels/kalman_filters.py:kalman_update"]}
{"id": "C115", "title": "A model for fewer periods gives the same contributions in these periods", "statement": "If a model is reduced to its first n periods (utility for the number of periods) and evaluated with the same data, and both parameter vectors take their values from the same table, the contributions to the log likelihood of the reduced model are, individual by individual and update by update, the contributions of the full model in the first n periods, in the same order. In particular nothing that happens in later periods (data or parameters) influences the contributions of earlier periods. Also, data that the full model accepts are accepted by the reduced model. simulate_dataset with the same random numbers returns the same factors and measurements in the first n periods for both models, unless there is a policy in the last of these periods (simulate_dataset ignores policies in the last period of a model, so the datasets can differ then).", "quantifier": "all models with unambiguous names and at least n periods, n at least two, all transition functions (also custom ones), all accepted data, all parameter values, all functions in place of the QR decomposition", "why_tests_cant": "Quantifies over models, data and parameters; unit tests compare the edited model dictionaries but never evaluate both likelihoods.", "anchors": ["skillmodels/utilities.py:reduce_n_periods", "skillmodels/likelihood_function.py:get_maximization_inputs"]}
{"id": "C116", "title": "Removing measurements is the same as never observing them", "statement": "If measurements are removed from a model such that each period still has a measurement, and an individual has no observed value of the removed measurements, this individual has the same contribution to the log likelihood in both models with the same parameter values (clipped with the same bounds). Its contribution at each remaining update is the same, and the contributions at the removed updates are zero. Also, data that the full model accepts are accepted by the smaller one. In data simulated by simulate_dataset with the same parameters, the latent factors and the remaining measurements of all individuals and periods have the same joint distribution for both models.", "quantifier": "all models with unambiguous names, all lists of measurements, all transition functions, all accepted data, all individuals for which the removed measurements are missing, all parameter values", "why_tests_cant": "Quantifies over models, data and parameters.", "anchors": ["skillmodels/utilities.py:remove_measurements", "skillmodels/likelihood_function.py:get_maximization_inputs", "skillmodels/kalman_filters.py:kalman_update"]}
{"id": "C117", "title": "Removing control variables is the same as setting their coefficients to zero", "statement": "If control variables are removed from a model, and the coefficients of these variables in the full model are zero, each individual for which the removed variables are not missing has the same contributions to the log likelihood in both models, update by update and in total. Also, data that the full model accepts are accepted by the smaller one. simulate_dataset with the same random numbers returns the same dataset (factors, anchored factors and measurements) for both models.", "quantifier": "all models with unambiguous names, all lists of control variables, all transition functions, all accepted data, all parameter values with zeros for the removed variables", "why_tests_cant": "Quantifies over models, data and parameters.", "anchors": ["skillmodels/utilities.py:remove_controls", "skillmodels/likelihood_function.py:get_maximization_inputs"]}
{"id": "C118", "title": "A translog transition function without squares and interactions is linear", "statement": "If all translog transition functions of a model are switched to linear ones, and the parameters of squares and interactions in the full model are zero, each individual has the same contributions to the log likelihood in both models. The same holds if linear functions are switched to translog ones and the additional parameters are zero. In both cases, simulate_dataset with the same random numbers returns the same factors and measurements.", "quantifier": "all models with unambiguous names (also with other transition functions), all accepted data, all parameter values with zeros for the additional parameters", "why_tests_cant": "Quantifies over models, data and parameters.", "anchors": ["skillmodels/utilities.py:switch_translog_to_linear", "skillmodels/utilities.py:switch_linear_to_translog", "skillmodels/transition_functions.py:translog", "skillmodels/transition_functions.py:linear"]}
{"id": "C119", "title": "Normalizations and enough measurements identify the parameters", "statement": "Take a linear model in which each factor has, in each period, three measurements that measure no other factor, where the loading and the intercept of the first of them are normalized and the loadings of the other two are not zero. Assume that the true standard deviations of the shocks to factors that are not constant and the diagonal of the Cholesky factor of the initial covariance matrix are positive. Then all other params that satisfy the normalizations, with standard deviations that are not negative, imply another distribution of the data and another log likelihood for some dataset. Hence maximum likelihood estimates of all params in a compact set of such params converge to the true params as the number of simulated individuals grows.", "quantifier": "all models with linear or constant transition functions and one mixture element, without anchoring, control variables and observed factors, with any number of periods and factors, where other measurements may measure several factors; all true params and all other params that satisfy the normalizations", "why_tests_cant": "Quantifies over all pairs of params of all models and over probability distributions.", "anchors": ["skillmodels/constraints.py:get_constraints", "skillmodels/likelihood_function.py:get_maximization_inputs", "skillmodels/simulate_data.py:simulate_dataset"]}
{"id": "C120", "title": "Constraints and bounds describe exactly the admissible parameters", "statement": "Params satisfy all constraints and lower bounds that get_maximization_inputs returns if and only if: normalized loadings and intercepts have the values of the normalizations; mixture weights are probabilities; transition parameters and standard deviations of shocks are the same in all periods of a stage; constant factors have no shocks; mixture elements are ordered by the mean of the first factor; the shares of CES functions are probabilities; parameters of anchoring equations that are not free are zero or one; standard deviations are not smaller than bounds_distance. If a factor is constant and bounds are robust, no params satisfy all of them. Maximum likelihood estimates among all params that satisfy constraints and bounds (and are not larger than some numbers) converge to the true params for the models of C119.", "quantifier": "all accepted models with unambiguous names (Estimable, see C11), all values of params; for the convergence all models of C119 with a positive bounds_distance", "why_tests_cant": "Quantifies over all values of params of all models, infinitely many datasets and probability distributions.", "anchors": ["skillmodels/constraints.py:get_constraints", "skillmodels/constraints.py:add_bounds", "skillmodels/likelihood_function.py:get_maximization_inputs"]}
{"id": "C121", "title": "Factors without influence on the others can be removed", "statement": "Remove factors from a model with linear or constant transition functions and no anchoring (remove_factors), and keep the values of the parameters of the reduced model. If the removed factors have no influence on the others (zero entries of the initial Cholesky factor and zero transition parameters from removed to remaining factors, zero loadings of shared measurements on removed factors), then for every individual without observed measurements of removed factors alone the contributions of all measurements have the same sum, and without clipping the contribution of the individual and (if it holds for everyone) the value of the log likelihood are unchanged. The removed factors may depend on the remaining ones. Data that are accepted for the model are accepted for the reduced model. In data simulated by simulate_dataset with the same parameters (and policies for remaining factors), the remaining factors and their measurements have the same joint distribution for both models, if both have the same periods.", "quantifier": "all linear models (any number of factors, periods, mixture elements, controls, observed factors), all removed factors, all parameter values without influence, all datasets and all individuals", "why_tests_cant": "the number of states, the positions of all parameters and the Cholesky factors in the filter change with the factors; a test sees single examples", "anchors": ["skillmodels/utilities.py:remove_factors", "skillmodels/utilities.py:extract_factors", "skillmodels/utilities.py:_reduce_params", "skillmodels/likelihood_function.py:_log_likelihood_jax", "skillmodels/kalman_filters.py:kalman_predict"]}
{"id": "C122", "title": "The likelihood of unrelated factors is the sum of their likelihoods", "statement": "Let the factors of a model with linear or constant transition functions, one mixture element and no anchoring form two groups without any relation (initial values are not correlated, no factor depends on a factor of the other group, no measurement measures factors of both groups). Then for every individual the contributions to the log likelihood sum to the contributions to the log likelihoods of the model without the first group (remove_factors) and of the model with only the first group (extract_factors); without clipping the contributions of individuals and the values of the log likelihood add up. So both groups can be estimated jointly or separately. They can also be simulated separately: in data simulated by simulate_dataset without policies, both groups with their measurements are independent, and each group has the same joint distribution as in data simulated with the model of this group.", "quantifier": "all linear models with one mixture element, all groups of factors, all parameter values for which the groups are unrelated, all datasets and individuals (with any pattern of missing values, controls and observed factors)", "why_tests_cant": "the joint filter updates one state vector with all measurements; that the two halves never influence each other has to hold for every order of measurements, every dataset and every parameter vector", "anchors": ["skillmodels/utilities.py:remove_factors", "skillmodels/utilities.py:extract_factors", "skillmodels/likelihood_function.py:_log_likelihood_jax", "skillmodels/kalman_filters.py:kalman_update", "skillmodels/kalman_filters.py:kalman_predict"]}
{"id": "C123", "title": "Residuals are deviations from the best prediction; standardized residuals are independent and standard normal", "statement": "Consider a model with linear or constant transition functions and one mixture element, and parameter values with non-zero standard deviations. In the output of debug_loglike, residuals and residual_sds have one row for each update and individual. A measurement minus its residual only depends on earlier measurements of the individual, and if the data follow the model then it is the conditional expectation of the measurement given these earlier measurements. The residuals of observed measurements divided by the corresponding residual_sds are then independent and standard normal. Both are missing if the measurement is missing. Outcomes of anchoring equations have no influence on the residuals of measurements.", "quantifier": "all linear model dictionaries with one mixture element (with or without anchoring, controls, observed factors), all datasets with missing values, all parameter values, all random experiments with the noise of the model, all updates and individuals", "why_tests_cant": "The claim is about the joint distribution of the residuals in all models and with all patterns of missing values; tests can compare a few numbers for one dataset.", "anchors": ["skillmodels/kalman_filters.py:kalman_update", "skillmodels/likelihood_function.py:_scan_body", "skillmodels/process_debug_data.py:_process_residuals", "skillmodels/process_debug_data.py:_process_residual_sds"]}
{"id": "C124", "title": "Filtered states have the smallest mean squared error; more measurements never hurt", "statement": "Consider a model with linear or constant transition functions and parameter values with non-zero standard deviations, where there is one mixture element or no anchoring. If the data follow the model, the unanchored filtered states in the output of get_filtered_states have the smallest mean squared error among all functions of the measurements of the individual up to the period, and this error is finite. If some of these measurements are missing, then the mean squared error of the filtered states does not become smaller.", "quantifier": "all such model dictionaries, all datasets with missing values, all parameter values, all random experiments with the noise of the model, all competing (measurable) estimators, all sets of additional missing values, all periods, latent factors and individuals", "why_tests_cant": "The claim compares the filtered states with all other estimators and takes expectations over the data; tests can only simulate the errors of some estimators.", "anchors": ["skillmodels/filtered_states.py:get_filtered_states", "skillmodels/kalman_filters.py:kalman_update", "skillmodels/kalman_filters.py:kalman_predict", "skillmodels/process_debug_data.py:process_debug_data"]}
{"id": "C125", "title": "Predicted states are exact for quadratic transition functions", "statement": "If every latent factor has the transition function linear, translog, linear_and_squares or constant, the predict step of the unscented Kalman filter makes no approximation error in the states: for every individual and mixture element the predicted state of a factor is the expectation of the next value of the factor (computed from the anchored values of all factors and then unanchored), under every distribution of the latent factors that has the mean and covariance matrix of the filter, whether it is normal or not.", "quantifier": "all sets of latent and observed factors with distinct names, all such transition functions and parameter values, all states and upper Cholesky factors of the filter, all anchoring constants and scaling factors, all kappa > -(number of latent factors), all distributions of the latent factors with these moments", "why_tests_cant": "The claim is about expectations over all distributions with given moments and all parameters; tests can only compare the sigma point mean with simulations for some of them.", "anchors": ["skillmodels/kalman_filters.py:kalman_predict", "skillmodels/kalman_filters.py:transform_sigma_points", "skillmodels/transition_functions.py:translog", "skillmodels/transition_functions.py:linear_and_squares"]}
{"id": "C126", "title": "All contributions are conditional log densities", "statement": "Consider a model with linear or constant transition functions and parameter values with non-zero standard deviations, where there is one mixture element or no anchoring. In the output of debug_loglike, all_contributions has one row for each update and individual, next to the period and name of the variable. The row contains 0 if the variable is missing for the individual. Otherwise it contains the logarithm of the conditional density of the variable given the observed earlier measurements of the individual (not the anchoring outcomes), evaluated at the data of the individual.", "quantifier": "all such model dictionaries (with controls, observed factors, several mixture elements), all datasets with missing values, all parameter values, all random experiments with the noise of the model, all updates and individuals", "why_tests_cant": "A conditional density is determined by the distribution of all measurements; a test can compare a few contributions with numbers but not show that they are conditional densities for all models and patterns of missing values.", "anchors": ["skillmodels/process_debug_data.py:process_debug_data", "skillmodels/process_debug_data.py:_process_all_contributions", "skillmodels/kalman_filters.py:kalman_update", "skillmodels/likelihood_function.py:_log_likelihood_jax", "skillmodels/likelihood_function.py:_scan_body"]}
{"id": "C127", "title": "Post update states are conditional expectations", "statement": "Consider a model with linear and constant transition functions, with or without anchoring and with any number of mixture elements, and parameters with positive mixture weights and measurement standard deviations. The DataFrame post_update_states in the output of debug_loglike has one row for each update, individual and mixture element, labelled with the mixture element, the period and the name of the variable. The columns of the latent factors contain the conditional expectations of the factors in the period of the update, given the measurements of the individual up to and including this update, among the individuals that belong to the mixture element. Anchoring outcomes and later measurements play no role, and missing measurements are left out.", "quantifier": "all such models, parameters, datasets, individuals, updates and mixture elements, and all random experiments with the noise of the model", "why_tests_cant": "conditional expectations given a continuum of possible data cannot be computed by tests", "anchors": ["skillmodels/process_debug_data.py:_create_post_update_states", "skillmodels/likelihood_function.py:get_maximization_inputs", "skillmodels/kalman_filters.py:kalman_update", "skillmodels/kalman_filters.py:kalman_predict"]}
{"id": "C128", "title": "Residuals of each mixture element are deviations from the best prediction within this element", "statement": "Consider a model with linear or constant transition functions, with any number of mixture elements, with or without anchoring, and parameters with positive mixture weights and standard deviations. In the output of debug_loglike, residuals and residual_sds have one row for each update, individual and mixture element. A measurement minus its residual only depends on earlier measurements; if the data follow the model then, among the individuals that belong to the mixture element, it is the conditional expectation of the measurement given the earlier measurements. Among these individuals, the residuals of observed measurements divided by the corresponding residual_sds are independent and standard normal. Both are missing if the measurement is missing. Outcomes of anchoring equations have no influence on the residuals of measurements.", "quantifier": "all such models, parameters, datasets with missing values, individuals, updates and mixture elements, and all random experiments with the noise of the model", "why_tests_cant": "The claim is about joint distributions within each mixture element; tests use one mixture element and compare a few numbers.", "anchors": ["skillmodels/kalman_filters.py:kalman_update", "skillmodels/likelihood_function.py:_scan_body", "skillmodels/process_debug_data.py:_process_residuals", "skillmodels/process_debug_data.py:_process_residual_sds"]}
{"id": "C129", "title": "debug_loglike agrees with loglike", "statement": "If loglike raises an error for a parameter DataFrame, then debug_loglike raises the same error. If loglike succeeds, then debug_loglike succeeds if and only if there is an update and each period with an update (a measurement or an anchoring equation) has a measurement. If both succeed, then value and contributions are the same. In the output of debug_loglike, the value is the sum of the contributions, and the contribution of each individual is the sum of its clipped entries in all_contributions.", "quantifier": "all model dictionaries whose anchoring outcomes are not measurements, all datasets, all parameter DataFrames (with right or wrong labels)", "why_tests_cant": "tests call both functions for a few models; there are models with an anchored factor and a period without measurements for which loglike succeeds and debug_loglike fails", "anchors": ["skillmodels/likelihood_function.py:get_maximization_inputs", "skillmodels/likelihood_function.py:_log_likelihood_jax", "skillmodels/process_debug_data.py:process_debug_data", "skillmodels/process_debug_data.py:_create_filtered_states"]}
{"id": "C130", "title": "Stages, normalizations and bounds restrict the parameters and change nothing else", "statement": "Two models that differ only in the stagemap, in normalizations, in the flags for free parameters of anchoring equations, or in the options for bounds, have the same parameters, and the same outputs of loglike, debug_loglike, gradient, jacobian, loglike_and_gradient, get_filtered_states, simulate_dataset, transition plots and correlations, for all parameter DataFrames. If the second model has all restrictions of the first model (and possibly more: more normalizations, longer stages, fewer free anchoring parameters, higher bounds), then all values that satisfy its constraints and bounds satisfy those of the first model, so that the maximum likelihood estimates of the first model have a likelihood that is at least as high.", "quantifier": "all pairs of model dictionaries that process_model accepts and that differ only in restrictions, all datasets, all parameter DataFrames", "why_tests_cant": "tests compare values for a few models; a dependence on the stagemap or on normalizations would only show up for pairs of models that tests do not contain", "anchors": ["skillmodels/likelihood_function.py:get_maximization_inputs", "skillmodels/constraints.py:get_constraints", "skillmodels/constraints.py:add_bounds", "skillmodels/process_model.py:process_model", "skillmodels/simulate_data.py:simulate_dataset", "skillmodels/filtered_states.py:get_filtered_states"]}
{"id": "C131", "title": "Specifications with sections of wrong types are rejected", "statement": "Whatever Python value is passed as model specification: if the checks of process_model pass, then factors is a nonempty dictionary of dictionaries, the measurements of each factor are a list of lists of variable names, normalizations (if any) are lists of dictionaries whose keys are measurements of the factor in the same period, no loading is normalized to 0, 0.0 or False, the anchoring section (if it is a dictionary) has a dictionary of outcome names and boolean flags, estimation_options is a dictionary, controls and observed factors have elements, and the stagemap (if it consists of numbers) is valid. If the stagemap and the anchoring section are left out or of these types, exactly these specifications are accepted. (A string as controls is accepted, and its characters become the controls.)", "quantifier": "all Python values made of None, booleans, numbers, strings, tuples, lists, dictionaries and other objects", "why_tests_cant": "tests contain a few wrong specifications; a section that is not checked is only found with the value that is wrong there", "anchors": ["skillmodels/check_model.py:check_model", "skillmodels/check_model.py:_check_measurements", "skillmodels/check_model.py:_check_normalizations", "skillmodels/check_model.py:_check_anchoring", "skillmodels/check_model.py:_is_list_of", "skillmodels/process_model.py:get_dimensions", "skillmodels/process_model.py:_process_anchoring"]}
{"id": "C132", "title": "Results for a period do not depend on later data", "statement": "Two individuals (of one dataset or of two datasets, of any size) have the same data in all periods up to period T, and any data afterwards. Then, for the same model and parameters, they have the same likelihood contributions, residuals, residual standard deviations and post update states at all updates of the periods up to T, and the same filtered states (anchored or not) in these periods.", "quantifier": "all accepted models, parameters, datasets, individuals and periods T", "why_tests_cant": "an error (e.g. the use of covariates of the next period in a predict step, or a wrong period index) shows up only for particular datasets", "anchors": ["skillmodels/likelihood_function.py:_log_likelihood_jax", "skillmodels/likelihood_function.py:_scan_body", "skillmodels/process_data.py:process_data", "skillmodels/process_debug_data.py:process_debug_data", "skillmodels/filtered_states.py:get_filtered_states"]}
{"id": "C133", "title": "Simulated data do not depend on the future and on other individuals", "statement": "What simulate_dataset returns for an individual up to some period (latent factors, anchored factors and measurements) depends only on the parameters, policies, control variables, observed factors and random numbers of this individual up to this period: parameters and policies of later periods, later covariates, and the number, data and random numbers of other individuals do not matter.", "quantifier": "all models, parameters, policies, datasets or numbers of individuals, random numbers, individuals and periods", "why_tests_cant": "two arbitrary simulations have to be compared; a test can change only a few inputs", "anchors": ["skillmodels/simulate_data.py:simulate_dataset", "skillmodels/simulate_data.py:_simulate_dataset", "skillmodels/simulate_data.py:measurements_from_states"]}
{"id": "C134", "title": "Results for a period do not depend on parameters of later periods", "statement": "If two parameter vectors have the same values for all parameters up to period T (loadings, controls and measurement standard deviations of the periods up to T, parameters of the initial distribution, shock standard deviations and transition parameters of the transitions before period T), then the contributions to the likelihood of all updates of the periods up to T, the residuals, residual standard deviations and updated states of the debugging output and the filtered states (anchored and not anchored) of these periods are the same. Parameters of later periods may have any values.", "quantifier": "all accepted models and datasets, all pairs of parameter vectors, all periods T", "why_tests_cant": "unit tests compare results for a few parameter vectors only; an index of a parameter block that is off by one period changes results only for some values", "anchors": ["skillmodels/likelihood_function.py:_log_likelihood_jax", "skillmodels/parse_params.py:parse_params", "skillmodels/filtered_states.py:get_filtered_states", "skillmodels/process_debug_data.py:process_debug_data"]}
{"id": "C135", "title": "Effects of policies in linear models", "statement": "If all transition functions are linear or constant, the difference between two simulated datasets with different policies (and otherwise the same arguments and random numbers) is known: the effects of the policies of a period are added to the factors of that period and handed on to later periods by the transition parameters (in anchored units), a measurement changes according to its loadings. Initial states, shocks, covariates and measurement errors cancel. Hence policies whose effect has the standard deviation 0 change each cell by the same number for all individuals, and the effects of such policies add up.", "quantifier": "All accepted models with linear or constant transition functions (with or without anchoring, observed factors, controls and several mixture elements), parameter vectors, datasets, lists of policies and random numbers.", "why_tests_cant": "Tests simulate one policy in one model and look at the first period; how effects propagate and that they do not depend on the individual is a statement about all periods, models and random numbers.", "anchors": ["skillmodels/simulate_data.py:simulate_dataset", "skillmodels/simulate_data.py:_simulate_dataset", "skillmodels/simulate_data.py:_get_shock"]}
{"id": "C136", "title": "Several equal mixture elements are the same as one", "statement": "Take a model with several mixture elements and a second version of it with another number of elements. If every element of the second version has the initial states and initial covariance of an element of the first one, and the weights of the copies of each element add up to its weight, the log likelihood of every dataset, all contributions and all filtered states are the same; so are simulated datasets if the same random numbers are used and the elements that are drawn are copies of each other. So models with fewer elements are nested in models with more elements, and a model with several equal elements is a model with a single element.", "quantifier": "all models, datasets and parameters, all numbers of elements, all assignments of copies to elements", "why_tests_cant": "the weights are updated with every measurement and normalised on a log scale; a wrong normalisation shows up only after some measurements and for some parameters", "anchors": ["skillmodels/kalman_filters.py:kalman_update", "skillmodels/likelihood_function.py:_log_likelihood_jax", "skillmodels/filtered_states.py:get_filtered_states", "skillmodels/parse_params.py:_get_initial_log_mixture_weights"]}
{"id": "C137", "title": "More general models never fit worse", "statement": "A model with translog instead of linear transition functions, with more controls (that are not missing in the data), or with more mixture elements is at least as general: for all parameters of the simpler model that satisfy its constraints and bounds there are parameters of the general model that satisfy its constraints and bounds and have the same log likelihood. So the maximum of the log likelihood of the general model is at least the log likelihood at all feasible parameters of the simpler model, and likelihood ratio statistics are not negative.", "quantifier": "all models, datasets and feasible parameters; all sets of controls; all numbers of mixture elements", "why_tests_cant": "compares the optima of two models over all feasible parameters", "anchors": ["skillmodels/utilities.py:switch_translog_to_linear", "skillmodels/utilities.py:remove_controls", "skillmodels/constraints.py:get_constraints", "skillmodels/constraints.py:add_bounds", "skillmodels/likelihood_function.py:get_maximization_inputs"]}
{"id": "C138", "title": "Maximum likelihood estimates exist", "statement": "For every dataset that is accepted, the log likelihood function has a maximum among the parameters that satisfy the constraints and lower bounds returned by get_maximization_inputs and whose absolute values are bounded by numbers of the user, if there are such parameters. (One mixture element, polynomial transition functions, a positive bounds_distance, fixed loadings of anchoring equations. In general there is a maximum in every compact set of parameters in the interior of the parameter space.)", "quantifier": "all models, all datasets, all bounds", "why_tests_cant": "the existence of an optimum is a statement about all parameters", "anchors": ["skillmodels/likelihood_function.py:get_maximization_inputs", "skillmodels/constraints.py:add_bounds", "skillmodels/constraints.py:get_constraints"]}
{"id": "C139", "title": "Missing measurements and individuals without measurements do not contribute to the likelihood", "statement": "If a measurement or the outcome of an anchoring equation is missing for an individual, or if one of its control variables is missing in that period, then the entry of all_contributions of the debug likelihood for this measurement and individual is zero. If the clipping of contributions is switched off, an individual without any measurements has the likelihood contribution zero, and leaving such individuals out of the dataset does not change the log likelihood.", "quantifier": "all models and datasets that are accepted, all params, all patterns of missing values, all sets of individuals without measurements", "why_tests_cant": "Tests have one pattern of missing values and compare a single Kalman update; the claim is about all patterns of missing values in complete datasets, including values that are dropped because controls are missing.", "anchors": ["skillmodels/kalman_filters.py:kalman_update", "skillmodels/process_data.py:process_data", "skillmodels/likelihood_function.py:log_likelihood"]}
{"id": "C140", "title": "Signs of standard deviations and of columns of Cholesky factors do not matter", "statement": "The log likelihood, all outputs of the debug likelihood, the filtered states and the datasets that simulate_dataset returns (for the same random numbers) do not change if the signs of any measurement standard deviations, shock standard deviations or whole columns of the Cholesky factors of the initial covariance matrices are changed. So for all values there are values with the same likelihood at which all standard deviations and all diagonal elements of Cholesky factors are nonnegative: the bounds that skillmodels sets on them are no restriction.", "quantifier": "all accepted models and datasets, all params in the interior of the parameter space with any signs of standard deviations and of diagonal elements of Cholesky factors, all QR decompositions with a triangular factor (whatever the signs of its diagonal)", "why_tests_cant": "The signs of a QR decomposition depend on the library, and there are infinitely many parameters and datasets; tests evaluate the likelihood only at positive standard deviations.", "anchors": ["skillmodels/kalman_filters.py:kalman_update", "skillmodels/kalman_filters.py:kalman_predict", "skillmodels/likelihood_function.py:log_likelihood", "skillmodels/filtered_states.py:get_filtered_states", "skillmodels/constraints.py:add_bounds", "skillmodels/simulate_data.py:simulate_dataset"]}
{"id": "C141", "title": "A higher measurement never lowers the filtered state of the factor that it measures", "statement": "Suppose that a column measures only one factor in some period and that its loading is not negative. Two individuals have the same data up to this period, except that one of them has a higher value in this column. Then its filtered state of the factor in this period, as returned by get_filtered_states, is not lower. The same is true of the anchored states if the loading of the anchoring outcome is not negative. Both hold for each transition function and for each number of elements of the mixture distribution, although the weights of the elements change with the measurement.", "quantifier": "all models, datasets, parameter values with nonzero standard deviations of the measurements, periods, measurements and individuals", "why_tests_cant": "tests compare filtered states with reference values for a few measurements", "anchors": ["skillmodels/kalman_filters.py:kalman_update", "skillmodels/filtered_states.py:get_filtered_states", "skillmodels/likelihood_function.py:log_likelihood", "skillmodels/process_debug_data.py:process_debug_data"]}
{"id": "C142", "title": "Standard deviations of residuals do not depend on the values in the data", "statement": "In a model with linear transition functions, take two individuals, in the same dataset or in two datasets, that have missing values at the same places up to period T. Then the table residual_sds in the debug data has the same standard deviations for both individuals in all periods up to T, for every mixture element. The values of measurements, controls and observed factors, the other individuals and everything after period T do not matter.", "quantifier": "every model with linear transition functions, any number of periods, factors, measurements and mixture elements, with or without anchoring, every parameter vector, any two datasets and any two individuals in them, every period T", "why_tests_cant": "A test compares some values in some dataset. The property is about all values and all patterns of missing observations.", "anchors": ["skillmodels/kalman_filters.py:kalman_update", "skillmodels/kalman_filters.py:kalman_predict", "skillmodels/process_debug_data.py:_process_residuals"]}
{"id": "C143", "title": "Filtered states and residuals are affine functions of the data", "statement": "Take three individuals, in the same dataset or in different datasets, and a number a. Up to period T they have missing values at the same places, and each value of the third individual (measurement, anchoring outcome, control or observed factor) is a times the value of the first plus 1 - a times the value of the second. In a model with linear transition functions and one mixture element, each filtered state and each anchored filtered state of the third individual up to period T is a times that of the first plus 1 - a times that of the second. With any number of mixture elements the same is true of the residuals in the debug data, for each mixture element.", "quantifier": "every model with linear transition functions, any number of periods, factors and measurements, with or without anchoring, every parameter vector, any three individuals in any datasets, every number a and every period T", "why_tests_cant": "A test compares some values in some dataset. The property is about all values and all patterns of missing observations.", "anchors": ["skillmodels/kalman_filters.py:kalman_update", "skillmodels/kalman_filters.py:kalman_predict", "skillmodels/filtered_states.py:get_filtered_states", "skillmodels/process_debug_data.py:_process_residuals"]}
{"id": "C144", "title": "The parameter phi of log_ces governs substitution between the factors", "statement": "For fixed factors and weights that are not negative and sum to one, the value of log_ces is a nondecreasing function of phi, on both sides of zero and across it. As phi approaches zero it converges to the linear function with the same weights and constant zero (Cobb-Douglas in logs), as phi grows it converges to the largest factor with a positive weight, and as phi falls it converges to the smallest factor with a positive weight (perfect complements).", "quantifier": "all numbers of factors, all values of the factors, all weights that are not negative and sum to one, all values of phi other than zero", "why_tests_cant": "The interpretation of phi is a statement about inequalities and limits over all real parameters; a test evaluates finitely many of them and cannot take a limit.", "anchors": ["skillmodels/transition_functions.py:log_ces", "skillmodels/transition_functions.py:linear"]}
{"id": "C145", "title": "log_ces fixes the scale of all its inputs relative to its output but no location", "statement": "Suppose a log_ces function with positive weights describes the next value of a factor, and every factor and the next value are then measured with another location and scale. If the system can still be described by some log_ces function, all scales changed by the same factor, the new phi is the old phi divided by it, and the new weights follow from the locations. If the inputs keep location and scale, so does the output (known location and scale) and the parameters are identified. Conversely every common change of scale and every change of the locations of the inputs can be described. linear and log_ces_general can describe any change of any location and any scale, of inputs and output.", "quantifier": "all numbers of factors (at least two for the first claim), all weights, all phi other than zero, all locations and scales", "why_tests_cant": "The documentation says that simulations suggest it and that there is no formal result; tests can only try finitely many rescalings and parameters.", "anchors": ["skillmodels/transition_functions.py:log_ces", "skillmodels/transition_functions.py:log_ces_general", "skillmodels/transition_functions.py:linear", "docs/source/explanations/notes_on_factor_scales.rst"]}
{"id": "C146", "title": "The locations of latent factors are not identified, for any transition functions", "statement": "Two sets of parameters describe the same model up to the locations of the latent factors: in each period each factor is moved by some amount, initial means and intercepts are corrected for it, and the new transition functions are the old ones in terms of moved factors. Then the likelihood function has exactly the same value, the same contributions of individuals and of updates, the same residuals and the same standard deviations of residuals, and the states after each update are moved by these amounts. In models without anchoring and with the functions linear, linear_and_squares, translog, log_ces, log_ces_general and constant, all moves of the first period are possible, and all moves of later periods for factors with the functions linear, linear_and_squares, translog and log_ces_general; weights of CES functions stay positive and those of log_ces add up to one. So one restriction on each of these locations is needed.", "quantifier": "all models in which each period has updates (any transition functions for the invariance, with or without anchoring, any number of mixture elements), all amounts, all parameters, all datasets", "why_tests_cant": "It is about pairs of parameter vectors for which two nonlinear filters agree exactly on every dataset.", "anchors": ["skillmodels/likelihood_function.py:get_maximization_inputs", "skillmodels/kalman_filters.py:kalman_predict", "skillmodels/kalman_filters.py:kalman_update", "skillmodels/transition_functions.py:log_ces", "skillmodels/transition_functions.py:translog"]}
{"id": "C147", "title": "Anchored filtered states do not depend on the locations of latent factors", "statement": "Move the locations of latent factors as in C146. In the DataFrame of states that are not anchored, get_filtered_states moves each factor of each individual in each period by the same amount. In the DataFrame of anchored states the values of anchored factors do not change at all; factors that are not anchored are moved, and if the constants are ignored for anchoring, anchored factors are moved by the amount times the loading. If constants are not ignored, the locations of anchored factors can be moved in each period by any amounts, with corrections of initial means and intercepts only: for all transition functions, also those written by users, parameters of the transition functions stay as they are.", "quantifier": "all models with one mixture element or without observed factors in which each period has measurements, all amounts, all parameters with positive mixture weights that add up to one, all datasets, all transition functions", "why_tests_cant": "a test compares two sets of parameters for one model and one dataset; the property is about all of them", "anchors": ["skillmodels/filtered_states.py:get_filtered_states", "skillmodels/filtered_states.py:anchor_states_df", "skillmodels/process_debug_data.py:_create_filtered_states", "skillmodels/kalman_filters.py:kalman_update"]}
{"id": "C148", "title": "Simulated data and the locations of latent factors", "statement": "Move the locations of latent factors as in C146, and call simulate_dataset with the old and with the new parameters, with the same policies and the same random numbers. Then all simulated measurements are the same, for all individuals and periods. The simulated latent factors are moved in each period by the amounts of the change of locations. Simulated factors that are anchored do not change if the constants of anchoring equations are not ignored.", "quantifier": "all models with at least two periods and updates in each period, all transition functions, all numbers of mixture elements, all amounts, all policies, all datasets or numbers of individuals, all random numbers", "why_tests_cant": "a test compares two sets of parameters for one model and one seed; the property is about all of them", "anchors": ["skillmodels/simulate_data.py:simulate_dataset", "skillmodels/simulate_data.py:_simulate_dataset", "skillmodels/simulate_data.py:measurements_from_states", "skillmodels/filtered_states.py:anchor_states_df"]}
{"id": "C149", "title": "Policies that raise factors do not lower factors, measurements and anchored factors later", "statement": "Call simulate_dataset twice with the same parameters and random numbers, the second time with additional policies that raise latent factors by certain amounts (standard deviation zero). If transition functions are increasing, then in the second dataset no latent factor of any individual is lower in any period. Measurements of factors with loadings that are not negative are not lower either, and neither are anchored factors if the loading of the anchoring equation is not negative. The functions constant, linear with coefficients that are not negative, log_ces with positive weights (also for negative phi) and log_ces_general (positive weights, tfp and sigmas of the same sign) are increasing.", "quantifier": "all models with at least two periods and updates in each period, all increasing transition functions (also those written by users), all numbers of mixture elements, all policies before, all additional policies that raise factors, all datasets or numbers of individuals, all random numbers", "why_tests_cant": "a test has one policy, one seed and one model; the property is about all of them", "anchors": ["skillmodels/simulate_data.py:simulate_dataset", "skillmodels/simulate_data.py:_simulate_dataset", "skillmodels/simulate_data.py:_get_shock", "skillmodels/transition_functions.py:log_ces", "skillmodels/transition_functions.py:log_ces_general", "skillmodels/transition_functions.py:linear"]}
{"id": "C150", "title": "Only the total effects of policies without randomness matter", "statement": "Call simulate_dataset twice with the same parameters and random numbers and with two lists of policies whose standard deviations are zero. If the sum of the effect sizes is the same for each latent factor in each period except the last one, both datasets are the same (factors, anchored factors and measurements). So the order of policies does not matter, the effects of several policies for the same factor and period add up, policies with effect zero and policies in the last period do not matter, and the random numbers that are drawn for these policies do not matter.", "quantifier": "all models with at least two periods and updates in each period, all transition functions, all numbers of mixture elements, all pairs of lists of policies without randomness, all datasets or numbers of individuals, all random numbers", "why_tests_cant": "a test has one list of policies and one seed; the property is about all pairs of lists", "anchors": ["skillmodels/simulate_data.py:simulate_dataset", "skillmodels/simulate_data.py:_simulate_dataset", "skillmodels/simulate_data.py:_get_shock"]}
