# Formal model of skillmodels in Lean 4 — design

## 1. Layout

* `properties.jsonl` – the English properties (C01 …). Generated by `tools/gen_properties.py`.
* `lean/Verif/Model/*.lean` – the model, one file per source file of `/repo/skillmodels`;
  every definition cites file and lines.
* `lean/Verif/Spec/*.lean` – small specifications, written without the model's helpers.
* `lean/Verif/Lemmas/*.lean` – proof material.
* `lean/Verif/Props/*.lean` – the property theorems. `Props/*Examples.lean` and `example`s beside the theorems show
  concrete models, datasets and parameters that meet the hypotheses.
* `MANIFEST.json` – property → theorem names and status. Generated by `tools/gen_manifest.py`.
* `seeded/LOG.jsonl` – the attempts to break theorems by editing the model (`tools/mutate.py`).
  One edit is known not to be caught: `PyVal.index` for dictionaries. No theorem covers measurements of a factor that are given as a dictionary instead of a list.

Source files and model files:

| /repo/skillmodels | Model | Spec |
|---|---|---|
| model specification (docs) | ModelDict | ModelSpec |
| process_model.py, check_model.py | ProcessModel; RawModel (the checks for Python values of any type) | Consistent, ModelSpec, RawModel |
| params_index.py | ParamsIndex | Params |
| transition_functions.py (names; functions), decorators.py | TransitionNames; TransitionFunctions | TransitionFunctions |
| parse_params.py | ParseParams | Params |
| constraints.py | Constraints | Constraints |
| utilities.py | Utilities | ModelSpec, Params |
| process_data.py | ProcessData | Data |
| kalman_filters.py | Kalman | Kalman, Moments |
| likelihood_function.py, clipping.py | Likelihood; Pipeline (from dictionary, data and parameters to the value) | StateSpace, LabelModel |
| process_debug_data.py, filtered_states.py | DebugData; FilteredStates (get_filtered_states as a whole) | Debug, FilteredStates |
| simulate_data.py | Simulate; SimulateDataset (simulate_dataset as a whole) | Simulation, SimulationLaw, SimulatedDataset |
| correlation_heatmap.py | CorrelationHeatmap, PlotKwargs | Correlation, PlotKwargs |
| utils_plotting.py, keyword arguments in visualize_factor_distributions.py | PlotKwargs | PlotKwargs |
| likelihood_function.py: gradient, jacobian, loglike_and_gradient | Gradient | Gradient |
| visualize_transition_equations.py | TransitionPlots | TransitionPlots |
| visualize_factor_distributions.py | DistributionPlots | DistributionPlots |

Not modelled: what plotly does with keyword arguments, colors and line widths of the traces of transition and distribution plots,
warnings, progress bars, file IO, jit caching, how jax computes derivatives, `config.py` (a path), `__init__.py`.

## 2. Modelling conventions (trusted reading of Python / pandas / numpy / jax / plotly)

General

* Names (factors, variables, controls, parameter names) are `String`. pandas also allows `int` and `tuple` names; these are not modelled.
* Some factor names collide with names the program uses itself, and are not modelled: `purpose` (a column of update_info), `states`, `params` and `__next_x__` (nodes of the graph of functions that dags evaluates), and, for factors with the
  transition function `constant`, names that are no Python identifiers (they become names of arguments). The program fails for these names in process_model or later; theorems say nothing about them.
* The sections of the model dictionary have the documented types; only Model/RawModel.lean (C131) has the `isinstance` checks for wrong types, and `C131_typed_model` says that both agree on specifications with the documented types.
* A Python `dict` is a list of key/value pairs in insertion order; where needed the hypothesis "keys are distinct" (always true for a dict) is explicit.
* Exceptions are values (`Except PyErr`); only the kind is kept, not the message. Numpy/jax shape errors are exceptions too.

pandas

* DataFrames are lists of labelled rows; `.loc[key, col] = v` is insert-or-update; `.loc[list]` raises on missing labels; `.reindex` fills with missing values.
* `Series.update` inside a DataFrame changes the DataFrame (pandas < 3, as at the time of the pinned commit).
* The levels of a MultiIndex are sorted and can have unused values after a selection of rows. Ids and period labels of datasets are integers.
* `df.query` with a factor name: names with a quote, backslash, backtick or line break are treated as an error (`querySafe`); other names are compared as they are.
* `df.corr()` is Pearson's correlation over the rows in which both columns are present; a correlation that is not finite is missing.
* `pd.concat([a, b], axis=1)` after `reset_index` puts rows together by position.

Numbers

* Real numbers replace floating point in the numeric part (Kalman filter, transition functions, clipping, plots). Rounding, overflow and underflow are *not* modelled.
* A measurement that is missing (not finite) is `none`. Where a NaN enters an array of numbers (missing controls, missing observed factors,
  values of plots) it is a number `nan` about which nothing is assumed: theorems hold for all values of it, so they say that the NaN is never used.
* A parameter vector has no NaNs: a label that is missing in params is an error in the theorems' hypotheses, not a NaN.
* jax's `jit`, `vmap`, `lax.scan`: `vmap` is pointwise application, `lax.scan` is a left fold, jit is the identity.
* `jax.grad`, `jax.jacrev`, `jax.jacfwd` are parameters of the model (`Model/Gradient.lean`). All that is assumed (`ValidAD`) is that they return the partial derivatives of a function wherever it is differentiable; existence of
  such a routine is proved (`Ex.fderivAD_valid`). The theorems use it only where each step of the program is differentiable and the matrices that are decomposed have full rank.
* QR: `array_qr_jax` calls LAPACK. It is a parameter `qr` of the model, specified only by "R is upper triangular and RᵀR = MᵀM".
  Theorems hold for every such routine, and existence of one is proved (`exists_validQR`).
* Random draws: `multivariate_normal(mean, cov)` of numpy is `mean + root cov *ᵥ z`, where `root cov * (root cov)ᵀ = cov` is all that is assumed about `root`,
  and z are standard normal draws. Theorems on single datasets hold for every z; theorems on distributions (C42, C69, C71, C85, C87, C91, C92, C93, C99, C101, C102, C106, C107, C108, C109, C110, C119, C120, C123, C124, C126, C127, C128) take independent standard normal draws.
* Custom transition functions are functions of the values of their parameters by name. Their source code is not modelled.
* log_ces with phi = 0, with all gammas 0 or with a negative gamma gives infinities or NaN; these cases are excluded by hypotheses.
* `np.round`, quantiles with linear interpolation (pandas), `np.linspace` and `np.mgrid` are modelled by their documented formulas.
* `scipy.stats.gaussian_kde` in two dimensions is the exact formula with Scott's bandwidth; it raises an exception if a value is missing or the covariance matrix is singular.

plotly

* `go.Contour(x, y, z)` shows `z[i][j]` at `(x[j], y[i])`; `go.Surface(x, y, z)` shows the points `(x[i][j], y[i][j], z[i][j])`.
* A figure with subplots is the list of its cells with their traces and titles. `ff.create_distplot` is a parameter.

Other simplifications are stated in the comment of the definition that makes them; among them: `reduce_n_periods` gets a non-negative number,
`period` in plots is not negative, and `state_ranges` in transition plots are looked up by the index of the tables (as the code does; the documentation says a column "period").

## 3. Trusted base

* The Lean 4.33.0 kernel and the axioms `propext`, `Classical.choice`, `Quot.sound` (see section 6). No other axioms, no `sorry`, no `native_decide`, no `bv_decide`.
  Concrete examples use `decide +kernel`, which is evaluation by the kernel.
* The conventions of section 2.
* The correspondence between each definition of the model and the cited lines, which is by reading (the sandbox cannot run the code).

## 4. Plan per property

| id | modelled | proof |
|---|---|---|
| C01 | `_get_update_info`, `fill_list` as upserts on a row list | induction over the upsert sequence |
| C02, C61 | `check_model` with IndexError of out-of-range normalizations | case analysis of the report lists; C61 is false – witness |
| C03 | stagemap check | induction over the stagemap |
| C04, C62 | `_process_estimation_options`, `_process_anchoring`, `process_model` | case analysis; C62 is false for estimation_options – witness |
| C05 | `get_params_index` | membership lemmas |
| C06 | same | injectivity of string concatenation without `-`; false for names with `-` – witness |
| C07, C64 | `create_parsing_info`, `parse_params` on lists | positions of filtered maps, reshape lemmas; C64 is false for one period – witness |
| C08 | `_get_anchoring_*` | same; false if outcomes are listed in another order than factors – witness |
| C09 | `_get_jnp_params_vec` | permutation lemma for label lookup |
| C10 | `_get_initial_upper_chols` | tril lemmas + Mathlib PSD |
| C11 | all of `constraints.py` | membership; false for all-constant models – witness |
| C12–C15, C17, C18, C63 | `constraints.py` | membership/induction; C14, C18 false in general – witnesses |
| C16 | constraints + `add_bounds` | false for constant factors – witness; true otherwise |
| C19–C23 | `utilities.py` | sublist / filter lemmas |
| C24–C27, C66, C67 | `process_data.py` | list/sort lemmas; C26, C67 false – witnesses |
| C28–C33 | `kalman_update` over ℝ | matrix algebra |
| C34–C37 | `kalman_predict` over ℝ | matrix algebra, finite sums |
| C38 | scan inputs | false for periods without updates – witness; true otherwise |
| C39, C40, C43 | likelihood scan | induction over updates |
| C41 | `soft_clipping` | real inequalities |
| C42 | likelihood of linear models | induction: the filter computes conditional distributions of jointly normal variables; change of variables from draws to data |
| C44 | array shapes of `_calculate_sigma_points` | false for ≥2 mixtures and observed factors – witness |
| C45, C65 | linear models | similarity transformation, induction over the scan |
| C46–C50 | `transition_functions.py`, `decorators.py` | list sums, logsumexp inequalities |
| C51–C55 | `process_debug_data.py`, `filtered_states.py` | list lemmas; C51, C52 false in general – witnesses |
| C56, C57, C68 | `simulate_data.py` | unfolding + induction; C57, C68 false – witnesses |
| C69 | simulation and likelihood together | the law of simulated data has the density of C42 |
| C70, C71 | the pipeline from dictionary, data and parameters to the likelihood | existence of all intermediate results; C07, C27, C42 combined with a model written by names |
| C87 | the same for models with anchoring | anchoring updates leave the states unchanged: the contributions are those of data in which outcomes are missing |
| C88 | two datasets that differ in anchoring outcomes (`Spec/AnchoringData.lean`) | both runs of the filter equal the run with missing outcomes; false for more than one mixture element – witness |
| C85, C86 | `get_filtered_states`, `debug_loglike` | joint law of data and final state, conditional expectation of normal mixtures, continuity of the filter; C51, C54, C70 combined |
| C89, C90, C94 | `simulate_dataset` from the model dictionary, params and data to the three DataFrames (`Model/SimulateDataset.lean`) | C66 for the purpose "simulation", parsed parameters by label (as C70), C56, C54, layout by index; C89 and C94 are false – witnesses |
| C91 | the cells of the output as functions of the draws; the user's model in `Spec/SimulatedDataset.lean` | both are images of independent normal vectors with the same Gram matrices, mixture over elements |
| C92, C93 | `simulate_dataset`, `get_maximization_inputs`, `loglike` | C91 and C71 have the same law; DataOk of the simulated data; independent values without atoms differ almost surely |
| C58, C59, C72–C75 | `correlation_heatmap.py` | list lemmas, affine invariance of correlations; C74, C75 false in general – witnesses |
| C95, C96 | keyword arguments of figures, annotations and color scales (`Model/PlotKwargs.lean`) | lookup after `dict.update`, C58 for the shape of the table |
| C97, C98 | the likelihood function is differentiable, gradient and jacobian (`Model/Gradient.lean`, `Spec/Gradient.lean`) | a QR routine that is differentiable at matrices of full rank (`Lemmas/SmoothQR.lean`), induction over the updates (`Lemmas/SmoothFilter.lean`), independence of the QR routine (C29), chain rule |
| C99 | likelihood values at true and other parameters (`Spec/LikelihoodRatio.lean`) | the densities of C71 as a family over the parameters, bounds for the logarithm of the density (`Lemmas/LikelihoodBounds.lean`), finite second moments of the data (`Lemmas/DataMoments.lean`), `log x ≤ x - 1` and Markov's inequality (`Lemmas/LikelihoodRatio.lean`) |
| C100 | likelihood contributions of arbitrary models (`Spec/SequentialDensity.lean`) | the filter for one individual agrees with the filter for the dataset (`Lemmas/OneIndividual.lean`); each update multiplies with a density of the measurement given the earlier ones, whatever the prediction step computes; induction over the updates |
| C101 | two model dictionaries that say the same, with parameters that say the same (`Spec/SameModel.lean`) | the data of an individual have the same distribution in both (`Lemmas/SameLaw.lean`: Gaussian initial factors are determined by means and covariances, sums do not depend on the order), so the two densities of C71/C87 agree almost everywhere after reindexing, and by continuity everywhere; for simulated data the same law is combined with C91 |
| C102, C105 | two models with the same distribution of the observed data (`SameDistribution` in `Spec/Rescaling.lean`) | the densities of C71/C87 are equal almost everywhere, and by continuity everywhere; for one model every single contribution is a difference of log densities of initial parts of the data. C105: the measurements of both models are the same functions of the random numbers |
| C103, C104 | `Rescales` in `Spec/Rescaling.lean`: the parameters in other units of the factors | by induction on periods every factor is `c * x + d` of the old one, so the measurements do not change (`Lemmas/Rescaling.lean`), then C102. C104 chooses the units that satisfy the normalizations |
| C106 | for given covariates and measurements of one individual a dataset with three individuals is built (`Lemmas/BuiltData.lean`); the other two make sure that no measurement is constant | the values of the log likelihood functions agree at this dataset, so the log densities of C71 differ by a constant at almost all points of the reference measure; both densities integrate to one, so the laws are equal. The other direction is C102 |
| C107 | `SameJointDistribution` (`Spec/Rescaling.lean`): the same law of data and factor in two statistical models | C85 says that filtered states are continuous versions of conditional means; conditional means are determined by the joint law almost everywhere (`Lemmas/CondMean.lean`) and everywhere because the data have a positive density (C71); then the joint laws of C103, C105 and C101 are compared |
| C108 | `policiesInUnits`, `cellsInUnits`, `observableCells` (`Spec/SimulationUnits.lean`) | the statistical model of C91 is rescaled cell by cell for the same random numbers; then the laws of single individuals are combined by independence. The second part goes from equal likelihoods to equal laws (C106) and to simulations (C91) |
| C109 | `DataDiffer` (`Spec/Consistency.lean`) | the affinity of two densities (the integral of the root of the product) is less than one if they belong to different distributions; Markov's inequality for the root of the likelihood ratio; Borel–Cantelli for growing datasets (`Lemmas/Affinity.lean`) |
| C110 | `ParamsWith`, `Maximizes` (`Spec/Estimates.lean`) | the density of the Kalman filter is continuous in the parameters and bounded on compact sets (`Lemmas/DensityParameters.lean`); data have light tails (`Lemmas/DataTails.lean`), so that for a small power the integral of the supremum of the densities over a small neighbourhood is less than one; finitely many neighbourhoods cover a compact set (`Lemmas/UniformAffinity.lean`) |
| C111 | `renameModel`, `renameData`, `KeepsReserved`, `RenamedLabel` (`Spec/Renaming.lean`) | every function of the model commutes with renaming, from the processing of the model dictionary and the data (`Lemmas/Renaming.lean`, `Lemmas/RenamedModel.lean`) to the parsing of params, the transition functions and the likelihood (`Lemmas/RenamedParsing.lean`, `Lemmas/RenamedIndex.lean`) |
| C112 | `RenamingOk`, `renameFiltered`, `renameDebug`, `renameSimulated`, `renamePolicy` (`Spec/RenamedOutput.lean`) | as C111, for the post-processing of the filter and for the simulation (`Lemmas/RenamedOutput.lean`) |
| C113 | `UsedColumn`, `SameCells`, `SameHistory` (`Spec/OwnData.lean`) | the data arrays of two datasets agree for individuals with the same data (C27), the parsed parameters differ only in the number of copies of the initial states, and then C39 for both datasets (`Lemmas/OwnData.lean`) |
| C114 | `UnitsOk`, `unitParams`, `UsesObservation`, `logUnits` (`Spec/Units.lean`), `changeUnits` (`Spec/Correlation.lean`) | two runs of the filter side by side: an update with a measurement that is multiplied by s gives the same states, covariances and weights and a contribution that differs by log abs(s) (`Lemmas/Units.lean`); the data arrays in other units (`Lemmas/UnitsData.lean`) |
| C115, C116, C117, C118 | edited models (`Model/Utilities.lean`), `NoHigherOrderTerms` (`Spec/Edits.lean`) | the likelihood of a model is written as one fold over the list of updates with parameters, data and transition functions looked up by name (`Lemmas/LazyScan.lean`, `EditedUpdates.lean`, `Edits.lean`); `EditOf` collects what two models must share so that the folds agree (`Lemmas/Edits2.lean`); fewer periods is a prefix of the fold, a missing measurement is a step that does nothing. Simulated data: all quantities of the simulation are looked up by name, so the datasets of the two models agree cell by cell (`edited_simulation` in `Props/EditsSimulation.lean`). Without some measurements the errors are drawn at other positions, so C116 compares the joint laws of the remaining cells, with C91 (`Props/MeasurementsSimulation.lean`) |
| C119 | `HasOwnMeasurements`, `Normalized`, `NotCollinear` (`Spec/Identification.lean`) | means and covariances of measurements are computed from the linear recursion (`Lemmas/Moments.lean`); three own measurements determine the covariances of factors within and between periods, these determine loadings, transition parameters and, with uniqueness of triangular roots, the initial Cholesky factor (`Lemmas/Identification.lean`); consistency follows with C110 |
| C120 | `Meets`, `WithinBounds`, `Admissible`, `Feasible` (`Spec/Admissible.lean`) | the list of constraints is taken apart (C11–C18, C63): each constraint is met if and only if the condition of the model holds; the admissible values are a closed set, so C119 gives consistency |
| C121, C122 | `NoInfluence`, `Unrelated` (`Spec/Separation.lean`) | the states of the remaining factors and their measurements are the same functions of the random numbers (induction over periods); the density of the data is the density of the observed part (C121) or the product of the densities of two independent parts (C122), `Lemmas/DensitySplit.lean`; the likelihood is this density (C71). Simulated data: the cells of the remaining factors are the same functions of the random numbers, also with policies, so their joint laws agree by C91 (`Props/FactorsSimulation.lean`); for unrelated groups they are functions of disjoint sets of independent random numbers (`Props/UnrelatedSimulation.lean`) |
| C123 | `debug_loglike` (residuals, residual_sds) | the standardized residuals are a triangular transformation of the data that maps the density of the data to independent standard normal numbers (induction over the updates, `Lemmas/Residuals.lean`); its inverse shows that residuals are independent of earlier measurements, so predictions are conditional expectations (`Lemmas/ResidualLaw.lean`); the code computes these residuals (induction over the scan) |
| C124 | `get_filtered_states` | conditional expectations are projections in L² (`Lemmas/BestPrediction.lean`) applied to C85; data with additional missing values are a function of the data |
| C125 | `kalman_predict` | the symmetric sigma points have the mean and covariance matrix of the filter, so their weighted mean is exact for polynomials of degree two (`Lemmas/Quadratic.lean`); the transition functions are such polynomials of the anchored values |
| C126 | `debug_loglike` (all_contributions; `Spec/Contributions.lean`) | the sum of the contributions of some measurements is the logarithm of their joint density (as for C71); the ratio of two joint densities is a conditional density (`Lemmas/CondDensity.lean`) |
| C127 | `debug_loglike` (post_update_states; `Spec/Contributions.lean`) | the filter computes the mean of each mixture element given the data so far (as for C85), independently of the weights and of anchoring outcomes; the noise of the members of a mixture element has the same distribution as the noise of all individuals (`Lemmas/ElementNoise.lean`) |
| C128 | `debug_loglike` (residuals, residual_sds) | as C123, for the members of one mixture element: their noise has the distribution of the noise of everyone, and residuals and states of an element depend neither on the weights nor on anchoring outcomes |
| C129 | `loglike`, `debug_loglike`, `process_debug_data` | both functions call the same likelihood function (`evaluate_factor`); induction over the updates for all_contributions; exact condition under which the filtered states can be extracted |
| C130 | `process_model`, `get_constraints`, `add_bounds`; `withoutRestrictions` removes stagemap, normalizations, free flags and bounds | the processed models differ only in the entries that constraints and bounds are made of, and no other function reads them; nested restrictions by the description of admissible values (C120) |
| C131 | `get_dimensions`, `_get_labels`, `_process_anchoring` and `check_model` on Python values (`PyVal`); numpy on odd stagemaps is an arbitrary function | each check is empty exactly if the section has the documented type; for typed specifications the result (with errors) equals that of the typed model, which justifies the type `ModelDict` |
| C132 | `SameHistoryUpTo` (`Spec/NoLookAhead.lean`) | induction over the scan: the outputs of the first K steps depend on the arguments of these steps and on controls and observed factors of their periods; the updates are sorted by period (C01), and the data arrays agree up to period T (C27) |
| C133 | `SameInputsUpTo`, `ParamUpTo`, `policiesUpTo` (`Spec/SimulationInputs.lean`), `DatasetIs` | the explicit form of the output of C90; induction over periods |
| C134 | `Spec.ParamUpTo` (Spec/SimulationInputs.lean) | both evaluations by label (`evaluate_explicit`); a prefix of the outputs of the scan only depends on the arguments of these steps and the predict steps between them, which lead to periods up to T; tables by filtering rows |
| C135 | `LinearTransitions`, `totalEffect`, `policyDifference`, `cellEffect`, `SameNoise` | closed form of the simulated cells (C90); induction over periods for the difference of the states |
| C136 | `withMixtures`, `Copies` | the carries of the two filters are related by the assignment of the elements: equal states and covariances, weights that add up; the relation is preserved by updates (the contributions are equal because logsumexp groups) and by predictions. Simulated data: the noise of both simulations is the same |
| C137 | `Feasible`, `Maximizes`, `withMixtures` | parameters of the simpler model are extended by zeros (C117, C118) or by copies of the last mixture element (C136); the extension satisfies all constraints (C120) |
| C138 | `Feasible`, `Maximizes`, `InteriorValues` | the value is continuous in the parameters (from C97), the feasible parameters are a compact set (C120) |
| C139 | `Spec.HasValue … none`, `Spec.NoClipping` | `name_run` (the contributions of an individual in terms of names) and `nameUpd_none` (an update with a missing value does nothing); leaving out individuals with `C113_own_data` and sums over ids |
| C140 | `Spec.SameUpToSigns`, `Spec.NonnegativeScales` | the update and the predict step depend on a Cholesky factor only up to a rotation (C41, C42), on a standard deviation only by its square: `kalmanUpdate_sign`, `step_signs`; then induction over the periods. Simulated data: the covariance matrix of the start values and the squared standard deviations are the same |
| C141 | `HigherMeasurement`, `OnlyMeasures` | the log likelihood of the measurements of the period is log-sum-exp of quadratic functions of one measurement; the average state minus its value before is the derivative (Tweedie), and its derivative is the loading times a variance divided by the variance of the error |
| C142 | `SameMissings`, `SamePatternUpTo` | Invariant of the scan: the Cholesky factors of the two individuals agree, although the states differ. The update keeps it because the factor and the standard deviation do not use the value of the measurement, only whether it is missing; the prediction keeps it because the deviations of the transformed sigma points from their mean do not depend on the mean of an affine transition function |
| C143 | `Combines`, `CombinesRows`, `CombinesUpTo`, `Person` | Invariant of the scan for three individuals: the same Cholesky factors (C142) and states that are the combination. The gain of an update depends only on the Cholesky factor; transformed sigma points and their mean are affine. With one mixture element its weight never changes |
| C144 | `logCes`, `linear` of the model, `Tendsto`, `IsGreatest`, `IsLeast` of Mathlib | log_ces is the logarithm of a weighted sum of exponentials divided by phi. Monotone for positive phi by the power mean inequality, for negative phi by reflection, across zero by Jensen; the limit at zero is a derivative, the limits at infinity are squeezed between the extreme factor and the extreme factor plus log(weight)/phi |
| C145 | `logCes`, `linear`, `logCesGeneral` of the model; the hypotheses are about their values at all states | As a function of exp(phi x) the rescaled log_ces is a sum of functions of one factor each and also a power of a weighted sum. Mixed differences leave only the power one (strict convexity of powers); then changing one factor shows that its exponent is one. The converse directions give the parameters explicitly |
| C146 | `MovedLocations`, `MovableTransitions`, `CesWeightsSumToOne` | both filters run in parallel: states differ by the moves, covariances are the same because deviations of sigma points from their mean are the same (weights add up to one); new transition parameters are given explicitly and moves are defined by recursion over periods |
| C147 | `MovedLocations`, `movedIntercepts` | states after each update are moved (C146), the average over mixture elements too because weights add up to one; the intercept of an anchoring equation cancels the move; for anchored factors the transition in the units of outcomes is the same |
| C148 | `simulateDataset`, `MovedLocations` | induction over periods: the states with given shocks are moved; loadings times moves cancel with intercepts of measurements and anchoring equations; measurement errors depend on names and standard deviations only |
| C149 | `simulateDataset`, `IncreasingTransitions` | induction over periods: the states with given shocks do not fall; monotonicity of linear functions and of both CES functions, in the units of anchoring outcomes |
| C150 | `simulateDataset`, `effectSizes` | policies enter the latent factors only by the sum of their effects; without randomness this sum is the total of the effect sizes |
| C60, C76–C79 | `visualize_transition_equations.py` | list lemmas, C07, C27, C46; C76 false – witness |
| C80–C84 | `visualize_factor_distributions.py` | list lemmas, 2×2 matrices; C80, C82, C84 false – witnesses |

## 5. Disagreements between the code and the stated properties

Each entry is a theorem about the model: a concrete accepted input for which the claim fails. The property stays "partial" with the strongest version that holds.

| id | what goes wrong | theorem |
|---|---|---|
| C06 | factor names with hyphens can give the same label of a covariance twice | `C06_duplicate_labels` |
| C08 | the scaling factors of anchored factors are assigned by position; wrong if outcomes are listed in another order than factors. Params cannot be parsed if two anchoring equations have the same variable name | `C08_swapped_factors`, `C08_name_clash` |
| C11 | stage constraints of a model without transition parameters select nothing | `C11_empty_selector` |
| C14 | with hyphens in names an off-diagonal entry of a Cholesky factor gets a lower bound | `C14_bound_off_diagonal` |
| C16 | the shock sd of a constant factor is fixed to 0, below the default bound 0.001 | `C16_fixed_below_bound` |
| C18 | two factors that share a measurement can normalize its intercept to different values | `C18_contradicting_fixes` |
| C26 | a row with measurements but incomplete controls loses its observed factors | `C26_counterexample` |
| C38 | a period without updates removes the transitions into and out of it | `C38_skipped_transitions` |
| C44 | two mixture elements and an observed factor: TypeError in every predict step | `C44_shape_error` |
| C51 | a period without measurements shifts the labels of filtered states, or makes the function fail | `C51_counterexample_label`, `C51_counterexample_crash` |
| C52 | with several mixture elements the id in debug data is the number of the row | `C52_counterexample` |
| C57 | a policy for the last period is ignored | `C57_last_period_ignored` |
| C61 | a list of normalizations that is too long raises an IndexError instead of a ValueError | `C61_value_error_counterexample` |
| C62 | a model dictionary without estimation_options raises a KeyError | `C62_estimation_options_not_optional` |
| C64 | a model with one period is accepted by process_model but its parameters cannot be parsed | `C64_one_period` |
| C64 | the name of a latent factor is put between single quotes in a pandas query, so a model with a factor named "mother's skills" is accepted by process_model but its parameters cannot be parsed | `C64_names`, `Ex.C64_names_example` |
| C67 | unused values in the period level of the index shift all values to later periods | `C67_counterexample` |
| C68 | a policy changes the measurements of its own period | `C68_same_period_measurements` |
| C74 | quasi scores are not factor scores if a factor has several measurements | `C74_counterexample` |
| C75 | the color scale of a trimmed heatmap is too short, or does not exist for two variables | `C75_counterexample_scale`, `C75_counterexample` |
| C76 | column_order and row_order are exchanged compared to the documentation | `C76_counterexample` |
| C80 | densities in contour plots are transposed | `Ex.C80_counterexample` |
| C82 | latent and observed factors are put together by position in the unsorted data, and data are selected by label | `Ex.C82_counterexample`, `Ex.C82_counterexample_labels` |
| C84 | two observed factors: univariate_densities raises a KeyError | `Ex.C84_counterexample` |
| C88 | with two mixture elements anchoring outcomes change the mixture weights and thereby the filtered states of later periods | `Ex.outcomes_matter` |
| C89 | simulate_dataset rejects data without measurement columns or anchoring outcomes, although the docstring only asks for observed factors and controls | `Ex.C89_counterexample` |
| C94 | simulated data do not contain control variables, although the docstring says so | `Ex.C94_counterexample` |
| C131 | not checked: controls and observed factors that are strings (their characters become the names), the type of n_mixtures and of ignore_constant_when_anchoring | `C131_controls_string`, `Ex.C131_example_string` |

Documented defaults of plots that differ from the signatures, and are not properties: plot_correlation_heatmap has the defaults True for show_diagonal, show_upper_triangle and annotate (the docstring says False). The docstrings of the functions that combine plots say that a title is inferred from `quntiles_of_other_factors`, which does not happen. Policies in the last period of a model are accepted by simulate_dataset and ignored; therefore C115 excludes policies in the last period of the smaller model.

## 6. Axioms per theorem

Output of `#print axioms` for the theorems in MANIFEST.json (`python3 tools/gen_axioms.py`):

* propext: C21_remove_controls, C83_empty_order.
* propext, Quot.sound: C04_options, C67_counterexample, C21_remove_factors, C21_extract_factors, C21_reduce_n_periods, C21_remove_measurements, C23_later_updates_win, C76_counterexample.
* propext, Classical.choice, Quot.sound: C01_update_info_exact, C02_accepts_iff, C03_stages_are_blocks, C05_index_membership, C06_index_unique_partial, C06_duplicate_labels, C07_parsed_values, C08_anchoring_params_partial, C08_swapped_factors, C08_name_clash, C09_row_order_irrelevant, C10_initial_covariances, C11_selectors_exist_partial, C11_empty_selector, C12_normalizations_enforced, constraints_fix_iff, C13_stage_equality, C14_bounds_partial, C14_bound_off_diagonal, C15_ids, C16_fixed_within_bounds_partial, C16_fixed_below_bound, C17_anchoring_flags, C18_fixes_consistent_partial, C18_contradicting_fixes, C63_blocks_line_up, C24_balanced_panel, C24_duplicates_rejected, C24_row_order, C25_controls_complete, C26_observed_factors_partial, C26_counterexample, C27_data_arrays, C66_accepts_iff, C67_only_rows_matter_partial, C28_update_is_kalman_update, C29_qr_convention, C29_update, C29_loglike, C19_params_of_reduced_models, C20_edits_keep_models_valid, C21_remove_nothing, C22_switch, C22_extended_params, C30_missing_changes_nothing, C31_order_irrelevant, C32_weights, C33_anchoring_keeps_states, C34_sigma_points, C35_linear_predict_exact, C36_predicted_covariance, C37_anchoring_commutes, C37_observed_unchanged, C38_predict_steps_partial, C38_skipped_transitions, C39_individuals_independent, C40_value_is_sum, C41_soft_clipping, C42_exact_likelihood, C43_mixture_labels, C44_predict_defined_partial, C44_shape_error, C45_rescaling, C45_rescaling_anchored, C46_parameters_by_name, C46_linear_length, C47_nested, C48_log_ces, C49_param_names, C50_combined_function, C51_filtered_states_partial, C51_counterexample_label, C51_counterexample_crash, C52_ids_partial, C52_counterexample, C53_state_ranges, C54_affine, C54_anchored_states, C55_convex, C56_simulation, C56_noise_free, C57_policy_partial, C57_last_period_ignored, C57_accepts_iff, C68_same_period_measurements, C69_simulation_matches_likelihood, C61_value_error_iff_partial, C61_value_error_counterexample, C62_optional_sections_partial, C62_estimation_options_not_optional, C64_parse_succeeds_partial, C64_one_period, C64_names, Ex.C64_names_example, C65_location, C58_mask, C58_trim, C59_score_correlations, C72_errors, C59_score_noise_free, C59_noise_free, C59_parameters_needed, Ex.C59_parameters_needed_example, C72_measurement_correlations, Ex.C72_errors_example, C73_quasi_score_correlations, C73_units_measurements, C73_units_quasi_scores, C73_units_scores, C74_quasi_scores_partial, C74_counterexample, C75_color_scale_partial, C75_counterexample, C75_counterexample_scale, C70_likelihood_evaluates, C71_likelihood_of_user_model, C60_placement, C60_default_orders, C60_empty_order, C76_documented_orders_partial, C77_fixed_quantiles, C77_linear_slope, C78_keys, C78_plots_exist, C79_averages, C79_plots_exist, C79_too_few_individuals, C80_contours_partial, C80_transposed, Ex.C80_counterexample, C81_surfaces, C81_only_frames, C82_joint_partial, Ex.C82_counterexample, Ex.C82_counterexample_labels, C83_figure, C83_exists, C83_errors, Ex.C83_errors_example, C84_univariate_latent, C84_univariate_partial, C84_two_observed, Ex.C84_counterexample, C85_filtered_states, C86_get_filtered_states, C87_anchored_likelihood, C88_outcomes_partial, Ex.outcomes_matter, C89_data_needed_partial, Ex.C89_counterexample, C90_simulated_dataset, C90_data_required, C91_simulation_law, C92_simulated_likelihood, C93_simulated_data_accepted, C93_simulated_data_estimation, C93_columns_missing, C94_columns_partial, Ex.C94_counterexample, C95_layout_kwargs, C95_subplot_kwargs, C95_no_columns, C95_distplot_kwargs, C95_contour_kwargs, C95_distribution_layout, C96_heatmap, C96_succeeds, C96_given_zmax, C96_reserved, Ex.heatmap2, C97_gradient, C98_jacobian, C98_combined, C98_errors, C98_unknown_type, C98_default_type, C99_true_parameters_best, C99_simulated_data, C100_likelihood_is_density, C101_order_does_not_matter, C101_simulation, C102_observational_equivalence, C102_same_model, C103_rescaling, C103_anchored_transitions, C104_normalizations, C105_constant_is_linear, C106_same_likelihood_iff, C107_filtered_states, C107_units, C107_constant_is_linear, C107_order_does_not_matter, C108_units, C108_same_likelihood, C109_wrong_parameters, C109_simulated_data, C109_growing_data, C110_consistent, C110_estimates, C110_compact, C110_maximum, differ_controls, C111_accepted, C111_names, Ex.C111_example, C112_debug, C112_filtered, C112_simulated, Ex.C112_filtered_example, Ex.C112_simulated_example, C113_own_data, C113_filtered_states, C113_ids, C113_used_columns, C113_pooled, C113_evaluates, Ex.C113_example, Ex.C113_ids_example, C114_units, C114_comparison, C114_filtered_states, Ex.C114_example, C115_fewer_periods, C115_data, C115_simulation, Ex.C115_example, Ex.C115_simulation_example, Ex.C115_last_period_policy, C116_fewer_measurements, C116_data, C116_simulation, Ex.C116_example, Ex.C116_simulation_example, C117_fewer_controls, C117_data, C117_simulation, Ex.C117_example, Ex.C117_simulation_example, C118_translog_to_linear, C118_linear_to_translog, C118_simulation, C118_simulation_back, Ex.C118_example, Ex.C118_example_back, Ex.C118_simulation_example, Ex.C118_simulation_example_back, C119_identified, C119_likelihoods_differ, C119_consistent, Ex.C119_example, C120_admissible_iff, C120_feasible, C120_constant_infeasible, C120_consistent, Ex.C120_example, Ex.C120_example_infeasible, C121_remove_factors, C121_data, C121_simulation, Ex.C121_example, Ex.C121_simulation_example, C122_unrelated_factors, C122_simulation, Ex.C122_example, Ex.C122_simulation_example, C123_residuals, Ex.C123_example, C124_smallest_error, Ex.C124_example, C125_quadratic_predict, Ex.C125_example, C126_contributions, Ex.C126_example, C127_post_update_states, Ex.C127_example, C128_mixture_residuals, Ex.C128_example, C129_debug_agrees, Ex.C129_example, Ex.C129_example_fails, C130_same_data, C130_same_likelihood, C130_same_filtered_states, C130_same_outputs, C130_nested, C130_higher_maximum, Ex.C130_example, Ex.C130_example_stages, C131_only_well_formed, C131_accepts_iff, C131_typed_model, C131_typed_accepted, C131_controls_string, C131_anchoring_pairs, Ex.C131_pairs_example, Ex.C131_example, Ex.C131_example_rejected, Ex.C131_example_string, C132_contributions, C132_debug, C132_filtered_states, Ex.C132_example, C133_no_look_ahead, Ex.C133_example, C134_contributions, C134_debug, C134_filtered_states, Ex.C134_example, C135_policy_effects, C135_same_for_everyone, C135_add_up, Ex.C135_example, C136_same_likelihood, C136_same_filtered_states, C136_simulation, Ex.C136_example, Ex.C136_simulation_example, C137_translog, C137_translog_maximum, C137_controls, C137_controls_maximum, C137_elements, C137_elements_maximum, Ex.C137_example_translog, Ex.C137_example_controls, Ex.C137_example_elements, C138_maximum, C138_estimates_exist, Ex.C138_example, C139_missing_measurement, C139_no_measurements, C139_left_out, Ex.C139_example, C140_signs, C140_filtered_states, C140_no_restriction, C140_simulation, Ex.C140_example, Ex.C140_simulation_example, C141_monotone, Ex.C141_example, C142_residual_sds, Ex.C142_example, C143_filtered_states, C143_residuals, Ex.C143_example, Ex.C143_residuals_example, C144_phi, Ex.C144_example, C145_scales, C145_known_location_and_scale, C145_locations, C145_linear, C145_log_ces_general, Ex.C145_example, C146_locations, C146_debug, C146_possible_moves, C146_not_identified, Ex.C146_example, C147_filtered_states, C147_anchored_moves, Ex.C147_example, C148_simulation, Ex.C148_example, C149_raising_policies, C149_increasing, Ex.C149_example, Ex.C149_ces, Ex.C149_negative_coefficient, C150_policies_add_up, Ex.C150_example.

