{"id": "C01", "title": "Last constraint wins", "statement": "After any sequence of add_constraint / remove_constraint calls, the constraint in force for a parameter (what get_central, get_random_all, get_logprobability_all use) is the one from the most recent add_constraint naming it, and there is none if it was never named or was removed afterwards.", "quantifier": "every finite history of add_constraint/remove_constraint calls with any parameter lists and any distribution objects, and every parameter", "why_tests_cant": "histories are unbounded and interleave overwriting of parts of multivariate constraints", "anchors": ["flavio/classes.py: Constraints.add_constraint, remove_constraint, all_parameters"]}
{"id": "C02", "title": "all_parameters has no duplicates and is exactly the constrained set", "statement": "all_parameters never repeats a name, contains exactly the parameters that currently have a constraint, and lists them in the order in which they were most recently constrained.", "quantifier": "every history of constraint operations", "why_tests_cant": "depends on the whole history", "anchors": ["flavio/classes.py: Constraints.all_parameters, add_constraint"]}
{"id": "C03", "title": "get_central returns the parameter's own component", "statement": "For a constrained parameter, get_central returns the scalar central value of a univariate distribution or the entry of a multivariate central value at the position the parameter had in the add_constraint call; for an unconstrained string parameter it raises ValueError.", "quantifier": "every history of constraint operations, every parameter, every central value vector", "why_tests_cant": "all positions of all vectors after all overwrites", "anchors": ["flavio/classes.py: Constraints.get_central, get_central_all"]}
{"id": "C04", "title": "Log-probability sums each live constraint once", "statement": "If every add_constraint call used a fresh distribution object and a list without repeated names, get_logprobability_all returns exactly one entry per distribution that still constrains a non-excluded parameter; its value is the logpdf at the values of those parameters in the order they were added, with exactly the remaining positions excluded.", "quantifier": "every such history, every exclude list, every parameter dictionary", "why_tests_cant": "combination of overwritten, removed and excluded components is unbounded", "anchors": ["flavio/classes.py: Constraints.get_logprobability_all"]}
{"id": "C05", "title": "Excluded and overwritten parameters cannot influence the log-probability", "statement": "get_logprobability_all gives the same result for two parameter dictionaries that agree on all parameters that are constrained and not excluded; values (or absence) of other keys never matter.", "quantifier": "every state reachable by constraint operations, every pair of dictionaries, every exclude list", "why_tests_cant": "non-interference over all pairs of inputs", "anchors": ["flavio/classes.py: Constraints.get_logprobability_all"]}
{"id": "C06", "title": "Sharing one distribution object between parameters is safe", "statement": "Adding the same ProbabilityDistribution object as constraint for two different parameters gives the same log-probability as adding two equal copies.", "quantifier": "every distribution object and pair of parameters", "why_tests_cant": "requires reasoning on object identity over all histories", "anchors": ["flavio/classes.py: Constraints.get_logprobability_all, get_logprobability_single"]}
{"id": "C07", "title": "Random draws respect correlations", "statement": "get_random_all returns a value for exactly the constrained parameters, and all parameters in force from the same distribution take their values from one single draw of that distribution at their own positions (for size=N: column of the N-row draw).", "quantifier": "every reachable state, every size, every random stream", "why_tests_cant": "randomness and all states", "anchors": ["flavio/classes.py: Constraints.get_random_all"]}
{"id": "C08", "title": "Constraint YAML round trip", "statement": "from_yaml_dict(get_yaml_dict()) reproduces the constraints in force: every parameter has the same distribution and position after dumping and loading.", "quantifier": "every history of constraint operations", "why_tests_cant": "depends on every history including removal", "anchors": ["flavio/classes.py: Constraints.get_yaml_dict, from_yaml_dict"]}
{"id": "C09", "title": "copy() is observationally equal and independent", "statement": "copy() of a Constraints object yields an object with the same central values, parameter list and log-probabilities, and later operations on either do not change the other.", "quantifier": "every reachable state and all further operation sequences on original and copy", "why_tests_cant": "unbounded interleavings", "anchors": ["flavio/classes.py: Constraints.copy"]}
{"id": "C10", "title": "set_constraint argument contract", "statement": "set_constraint raises ValueError when both constraint_string and constraint_dict are given, TypeError when none is given, and otherwise puts exactly one distribution, the convolution of those specified, in force for the parameter, leaving all other parameters untouched.", "quantifier": "every state, parameter and argument combination", "why_tests_cant": "all argument combinations in all states", "anchors": ["flavio/classes.py: Constraints.set_constraint"]}
{"id": "C11", "title": "Single-parameter log-probability is the marginal with all other components excluded", "statement": "get_logprobability_single(p, v) evaluates the distribution in force for p at v, for a multivariate distribution with exactly the other positions excluded.", "quantifier": "every reachable state (fresh distribution objects, no repeated names), parameter and value", "why_tests_cant": "all states", "anchors": ["flavio/classes.py: Constraints.get_logprobability_single"]}
{"id": "C12", "title": "1D errors are reported for the right component", "statement": "get_1d_errors_rightleft returns for each constrained parameter the right and left error of its own distribution at its own position.", "quantifier": "every reachable state", "why_tests_cant": "all states, including stale constraints", "anchors": ["flavio/classes.py: Constraints.get_1d_errors_rightleft"]}
{"id": "C13", "title": "Named-instance registry behaves as a map per class", "statement": "For each of Parameter, Observable, AuxiliaryQuantity, Implementation, Measurement: Class[name] returns the most recently created, not deleted instance of that name and raises KeyError otherwise (AttributeError if no instance of the class was ever created); creation, deletion and clear_all on one class never change another class's registry.", "quantifier": "every history of instance creations, deletions and clear_all calls over the classes", "why_tests_cant": "unbounded histories over several classes sharing code through inheritance", "anchors": ["flavio/classes.py: NamedInstanceClass"]}
{"id": "C14", "title": "find returns exactly the matching names in registration order", "statement": "Class.find(regex) returns precisely the names in the registry for which the regex search succeeds, in registration order, without duplicates.", "quantifier": "every registry history and every match predicate", "why_tests_cant": "all registries", "anchors": ["flavio/classes.py: NamedInstanceClass.find"]}
{"id": "C15", "title": "Failed construction leaves the registry unchanged", "statement": "When constructing an Implementation for a non-existing quantity raises ValueError, the registry of implementations is as before the call.", "quantifier": "every registry state, name and quantity", "why_tests_cant": "crash point inside a constructor in every state", "anchors": ["flavio/classes.py: Implementation.__init__, Prediction.__init__"]}
{"id": "C16", "title": "show_all lists all implementations", "statement": "Implementation.show_all() contains every registered implementation name under its quantity with its description.", "quantifier": "every set of registered implementations", "why_tests_cant": "all registries", "anchors": ["flavio/classes.py: Implementation.show_all"]}
{"id": "C17", "title": "from_function composes predictions", "statement": "Observable.from_function(name, observables, f) creates an observable with the common arguments of the components whose prediction, for all Wilson coefficients, parameters and arguments, is f applied to the component predictions in order; if a component is missing, has different arguments or no prediction, it raises and registers nothing.", "quantifier": "every registry state, component list, function, and evaluation point", "why_tests_cant": "all registries and all evaluation points", "anchors": ["flavio/classes.py: Observable.from_function, Prediction"]}
{"id": "C18", "title": "argument_format conversions are mutually inverse", "statement": "For an observable with n arguments, converting a tuple to a dict and back to a tuple (or list) is the identity, converting a well-formed dict to a tuple and back preserves name and argument values, and a tuple with the wrong number of arguments is rejected with ValueError.", "quantifier": "every observable, argument name list without repetitions, and argument values", "why_tests_cant": "all observables and values", "anchors": ["flavio/classes.py: Observable.argument_format"]}
{"id": "C19", "title": "Taxonomy dictionary contains exactly the registered paths", "statement": "After any sequence of add_taxonomy calls, the nested dictionary returned by taxonomy_dict contains a path iff it is a prefix of a path 'A :: B :: ... :: observable name' that was added; adding a taxonomy twice changes nothing.", "quantifier": "every finite sequence of add_taxonomy calls", "why_tests_cant": "unbounded sequences of paths", "anchors": ["flavio/classes.py: Observable.add_taxonomy, taxonomy_dict, tree, dicts"]}
{"id": "C20", "title": "get_measurements lists exactly the measurements constraining the observable", "statement": "Observable.get_measurements returns each registered measurement once, in registry order, iff one of its constrained parameters is the observable's name or a tuple starting with it.", "quantifier": "every measurement registry", "why_tests_cant": "all registries", "anchors": ["flavio/classes.py: Observable.get_measurements"]}
{"id": "C21", "title": "Bracket notation parses to the intended numbers", "statement": "A string 'D.F(e1)(e2)...' with an optional power of ten parses to central value D.F*10^x and one symmetric error per bracket: integer errors count in units of the last digit of the central value, errors with a decimal point are taken literally.", "quantifier": "all digit strings, any number of brackets, any exponent", "why_tests_cant": "infinitely many strings", "anchors": ["flavio/_parse_errors.py: errors_from_string, _pattern_brackets"]}
{"id": "C22", "title": "Plus-minus notation parses to the intended numbers", "statement": "A string 'c ± e1 ± e2 ...' or 'c + r - l' parses to the central value and the symmetric / (right,left) asymmetric errors given, each multiplied by the optional power of ten.", "quantifier": "all digit strings, any number of errors, any exponent", "why_tests_cant": "infinitely many strings", "anchors": ["flavio/_parse_errors.py: errors_from_string, _pattern_plusminus"]}
{"id": "C23", "title": "Range and limit notation", "statement": "'[a, b] e x' gives a uniform distribution whose support is exactly [a,b]*10^x, and raises ValueError if b<a; '< l @ p% CL' gives limit l and confidence level p/100; 'c */ f' gives a log-normal with median c and factor f.", "quantifier": "all digit strings and exponents", "why_tests_cant": "infinitely many strings", "anchors": ["flavio/_parse_errors.py: range_from_string, limit_from_string, lognormal_from_string, constraints_from_string"]}
{"id": "C24", "title": "Every understood constraint string gives a usable non-empty list of distributions", "statement": "constraints_from_string either raises ValueError or returns a non-empty list of ProbabilityDistribution instances which all have the same central value.", "quantifier": "all strings", "why_tests_cant": "infinitely many strings", "anchors": ["flavio/_parse_errors.py: constraints_from_string"]}
{"id": "C25", "title": "Citation scopes are properly nested", "statement": "A `with flavio.citations.collect()` block collects exactly the registered citations made inside it (not in inner blocks), leaves the enclosing citations object untouched, and restores it on exit even when the block raises.", "quantifier": "every properly nested program of register calls, scopes and exceptions", "why_tests_cant": "unbounded nesting and every crash point", "anchors": ["flavio/citations.py: CitationScope, Citations"]}
{"id": "C26", "title": "Citation registry is a set", "statement": "citations.set equals the set of keys registered since the last clear/reset (plus the initial ones unless cleared); registering is idempotent and commutative; unknown keys raise KeyError and change nothing.", "quantifier": "every sequence of register/clear/reset operations", "why_tests_cant": "unbounded sequences; index bookkeeping for every key set", "anchors": ["flavio/citations.py: Citations.register, clear, reset, set"]}
{"id": "C27", "title": "Correlation matrix completion", "statement": "_fix_correlation_matrix applied to upper-triangular rows (or to a number) yields the symmetric matrix with unit diagonal whose entries above the diagonal are those given; malformed input (wrong number of rows, row lengths, diagonal different from 1, not a list) is rejected with an error.", "quantifier": "every dimension and all real entries", "why_tests_cant": "all dimensions and entries", "anchors": ["flavio/measurements.py: _fix_correlation_matrix"]}
{"id": "C28", "title": "Measurement loading attaches every value to its observable", "statement": "Loading measurement data (list or dict form, correlated or not) yields a measurement whose constrained observables are exactly the ones in the data, each with the central value given for it, and total error equal to the quadrature sum of its errors in the correlated case.", "quantifier": "every well-formed data set", "why_tests_cant": "all data sets", "anchors": ["flavio/measurements.py: _load"]}
{"id": "C29", "title": "Convolution of Gaussians", "statement": "convolve_distributions of normal distributions with common central value c is normal with central value c and variance the sum of variances; with central_values='sum' the central value is the sum. The result does not depend on the order.", "quantifier": "every non-empty list of normal distributions", "why_tests_cant": "all lists and real values", "anchors": ["flavio/statistics/probability.py: convolve_distributions, _convolve_gaussians"]}
{"id": "C30", "title": "Delta distributions are neutral in convolution", "statement": "In convolve_distributions with equal central values, delta distributions do not change the result (unless all are delta distributions, when a delta is returned).", "quantifier": "every list of univariate distributions", "why_tests_cant": "all lists", "anchors": ["flavio/statistics/probability.py: _convolve_distributions_univariate"]}
{"id": "C31", "title": "convolve_distributions returns a distribution or raises", "statement": "For every non-empty list of distributions convolve_distributions returns a distribution or raises; it never silently returns nothing.", "quantifier": "every non-empty list of uni- or multivariate distributions of the same dimension", "why_tests_cant": "all lists of classes", "anchors": ["flavio/statistics/probability.py: _convolve_distributions_univariate, _convolve_distributions_multivariate"]}
{"id": "C32", "title": "Combination of Gaussians is the product of the PDFs", "statement": "combine_distributions of normal distributions is the normal distribution whose log-PDF differs from the sum of the individual log-PDFs by a constant; it is independent of order and its variance is at most each individual variance, its central value lies between the smallest and largest input.", "quantifier": "every non-empty list of normal distributions", "why_tests_cant": "all lists and real values", "anchors": ["flavio/statistics/probability.py: combine_distributions, weighted_average, _combine_gaussians"]}
{"id": "C33", "title": "Combination with a delta distribution", "statement": "If the list contains delta distributions the combination is that delta; if two deltas have different central values a ValueError is raised.", "quantifier": "every list of univariate distributions", "why_tests_cant": "all lists", "anchors": ["flavio/statistics/probability.py: _combine_distributions_univariate"]}
{"id": "C34", "title": "Distribution constructors validate and keep their parameters", "statement": "Normal/asymmetric/half-normal/log-normal/uniform/delta/discrete/limit constructors raise ValueError exactly for the documented invalid parameters, otherwise the central value lies in the support interval and the log-PDF is maximal at the central value where documented (mode).", "quantifier": "all real parameters", "why_tests_cant": "all real parameters", "anchors": ["flavio/statistics/probability.py: NormalDistribution, AsymmetricNormalDistribution, HalfNormalDistribution, LogNormalDistribution, UniformDistribution, GaussianUpperLimit"]}
{"id": "C35", "title": "Asymmetric normal PDF is continuous and normalised", "statement": "The PDF of AsymmetricNormalDistribution is continuous at the central value, integrates to 1, and reduces to the normal PDF for equal deviations.", "quantifier": "all central values and positive deviations", "why_tests_cant": "real-valued identity", "anchors": ["flavio/statistics/probability.py: AsymmetricNormalDistribution._logpdf"]}
{"id": "C36", "title": "delta_logpdf vanishes at the centre", "statement": "delta_logpdf(x) = logpdf(x) - logpdf(central value), with excluded components removed from the central value as well; it is zero at the (reduced) central value and non-positive for Gaussian-type distributions.", "quantifier": "all distributions, points, exclude tuples", "why_tests_cant": "all points", "anchors": ["flavio/statistics/probability.py: ProbabilityDistribution.delta_logpdf"]}
{"id": "C37", "title": "Counting-process parameters: any two of three", "statement": "For the counting-process and upper-limit distributions, any two of counts_total, counts_background, counts_signal may be given; the third is inferred so that total = signal + background; inconsistent triples and fewer than two raise ValueError.", "quantifier": "all real counts and all argument subsets", "why_tests_cant": "all subsets and reals", "anchors": ["flavio/statistics/probability.py: GammaCountingProcess, GammaUpperLimit, GeneralGammaCountingProcess, GeneralGammaUpperLimit"]}
{"id": "C38", "title": "Distribution dict round trip", "statement": "dict2dist(dist.get_dict(distribution=True, iterate=True, arraytolist=True)) reconstructs an equal distribution for every distribution class.", "quantifier": "every distribution class and constructor arguments", "why_tests_cant": "all instances of all classes", "anchors": ["flavio/statistics/probability.py: ProbabilityDistribution.get_dict, dict2dist, class_from_string"]}
{"id": "C39", "title": "Class name strings are unique", "statement": "class_from_string contains every distribution class under class_to_string(), and different classes have different strings, so that string_to_class / class_from_string invert class_to_string.", "quantifier": "all distribution classes", "why_tests_cant": "table-level injectivity of a string transformation", "anchors": ["flavio/statistics/probability.py: class_to_string, _camel_to_underscore, class_from_string, string_to_class"]}
{"id": "C40", "title": "get_dict does not modify the distribution", "statement": "Calling get_dict or get_yaml on a distribution leaves it unchanged (same repr, same pdf).", "quantifier": "every distribution and option combination", "why_tests_cant": "aliasing side effects in all states", "anchors": ["flavio/statistics/probability.py: ProbabilityDistribution.get_dict"]}
{"id": "C41", "title": "Dimension reduction keeps the right components", "statement": "reduce_dimension(exclude) of a multivariate normal keeps exactly the means and covariance entries of the non-excluded positions, returns a univariate normal with the right variance if one remains, and composes: reducing twice equals reducing once.", "quantifier": "all dimensions, covariance matrices and exclude tuples", "why_tests_cant": "all dimensions and index sets", "anchors": ["flavio/statistics/probability.py: MultivariateNormalDistribution.reduce_dimension"]}
{"id": "C42", "title": "Covariance and correlation inputs agree", "statement": "Building a multivariate normal from standard deviations and correlation gives covariance sigma_i sigma_j rho_ij; building from that covariance returns the same standard deviations and correlation; a one-sided (upper-triangular) matrix is completed symmetrically.", "quantifier": "all dimensions and real entries", "why_tests_cant": "all dimensions", "anchors": ["flavio/statistics/probability.py: MultivariateNormalDistribution.__init__"]}
{"id": "C43", "title": "Numerical distribution CDF/PPF", "statement": "A NumericalDistribution built from strictly ascending x and positive y has a CDF table that is non-decreasing from 0 to 1, and central value at the largest y unless given; a given central value outside the range is rejected.", "quantifier": "all grids of any length with real entries", "why_tests_cant": "all grid sizes and values", "anchors": ["flavio/statistics/probability.py: NumericalDistribution.__init__"]}
{"id": "C44", "title": "Measurement likelihood is the sum over selected measurements", "statement": "log_likelihood_pred equals the sum over all selected measurements of the log-probabilities of their constraints restricted to the likelihood's observables minus the excluded ones.", "quantifier": "every measurement registry, observable list, include/exclude lists, prediction dict", "why_tests_cant": "all registries and selections", "anchors": ["flavio/statistics/likelihood.py: MeasurementLikelihood.log_likelihood_pred, get_measurements"]}
{"id": "C45", "title": "Measurement selection", "statement": "get_measurements returns exactly the measurements that constrain at least one observable of the likelihood, are not pseudo-measurements (unless requested), and are included / not excluded; giving both lists is rejected with ValueError; observables without any selected measurement are rejected.", "quantifier": "every registry and selection arguments", "why_tests_cant": "all registries", "anchors": ["flavio/statistics/likelihood.py: MeasurementLikelihood.__init__, get_measurements"]}
{"id": "C46", "title": "Number of observations", "statement": "get_number_observations counts the pairs (selected measurement, likelihood observable not excluded, measured by it).", "quantifier": "every registry and selection", "why_tests_cant": "all registries", "anchors": ["flavio/statistics/likelihood.py: MeasurementLikelihood.get_number_observations"]}
{"id": "C47", "title": "Prediction cache is transparent", "statement": "get_predictions_par returns what a fresh computation would return, for any sequence of calls with any arguments.", "quantifier": "every sequence of calls", "why_tests_cant": "unbounded call histories, hash collisions", "anchors": ["flavio/statistics/likelihood.py: MeasurementLikelihood.get_predictions_par"]}
{"id": "C48", "title": "Total likelihood is prior plus experimental part", "statement": "Likelihood.log_likelihood = log_prior_fit_parameters + log_likelihood_exp; the prior only depends on the fit parameters and is 0 if there are none.", "quantifier": "all likelihoods, parameter dictionaries", "why_tests_cant": "all states", "anchors": ["flavio/statistics/likelihood.py: Likelihood, ParameterLikelihood"]}
{"id": "C49", "title": "Covariance load reorders correctly", "statement": "load_dict of SMCovariance / MeasurementCovariance stores, for any ordering and any superset of observables in the file, the matrix whose (i,j) entry is the file's entry for observables i,j of the likelihood; saving and loading into an object with permuted observables gives the permuted matrix; missing observables raise ValueError.", "quantifier": "all observable lists, permutations, supersets and matrices", "why_tests_cant": "all permutations", "anchors": ["flavio/statistics/likelihood.py: SMCovariance.load_dict, MeasurementCovariance.load_dict, save, load"]}
{"id": "C50", "title": "Covariance cache policy", "statement": "get(force=False) returns the stored value if there is one and computes only otherwise; get(force=True) always recomputes; save before compute raises ValueError.", "quantifier": "every sequence of get/load/save calls", "why_tests_cant": "histories", "anchors": ["flavio/statistics/likelihood.py: SMCovariance.get, MeasurementCovariance.get"]}
{"id": "C51", "title": "FastLikelihood pseudo-measurement isolation", "statement": "After make_measurement the FastLikelihood uses only its own pseudo-measurement; pseudo-measurements never enter ordinary likelihoods or combine_measurements; using it before make_measurement raises ValueError.", "quantifier": "every history of measurement creations and FastLikelihood constructions", "why_tests_cant": "histories", "anchors": ["flavio/statistics/likelihood.py: FastLikelihood.make_measurement, likelihood", "flavio/functions.py: combine_measurements"]}
{"id": "C52", "title": "Dependency tracking is sound", "statement": "get_dependent_parameters_sm returns exactly the existing parameters whose values the prediction reads; changing any other parameter value leaves the SM prediction unchanged.", "quantifier": "every prediction program (adaptive reads of the parameter dictionary) and every parameter dictionary", "why_tests_cant": "all programs and inputs", "anchors": ["flavio/functions.py: AwareDict, get_dependent_parameters_sm"]}
{"id": "C53", "title": "Error budget groups partition the dependent parameters", "statement": "sm_error_budget has one entry per distribution constraining dependent parameters; each dependent parameter is in exactly one group and two are in the same group iff they share the same constraint.", "quantifier": "every set of dependent parameters and constraint assignment", "why_tests_cant": "all assignments", "anchors": ["flavio/functions.py: sm_error_budget"]}
{"id": "C54", "title": "Parallel and serial evaluation agree", "statement": "np_uncertainty, sm_covariance and likelihood_contour_data give the same predictions with threads>1 as with threads=1, in the same order, for every scheduling of the worker pool.", "quantifier": "all observables, arguments, samples and schedules", "why_tests_cant": "all schedules", "anchors": ["flavio/functions.py: np_uncertainty, sm_covariance", "flavio/plots/plotfunctions.py: likelihood_contour_data"]}
{"id": "C55", "title": "Selective parameter variation", "statement": "sm_covariance with par_vary=[...] evaluates the predictions at dictionaries where exactly the listed parameters take their random values and all others their central values.", "quantifier": "all parameter sets, par_vary lists, sample sizes", "why_tests_cant": "all subsets", "anchors": ["flavio/functions.py: sm_covariance"]}
{"id": "C56", "title": "combine_measurements combines all and only the relevant measurements", "statement": "combine_measurements(obs) combines one univariate distribution per registered, included, non-pseudo measurement constraining obs (reduced to the right component for multivariate constraints); raises ValueError if there is none; returns the distribution itself if there is exactly one.", "quantifier": "every measurement registry and include list", "why_tests_cant": "all registries", "anchors": ["flavio/functions.py: combine_measurements"]}
{"id": "C57", "title": "Deduplication keeps first occurrences in order", "statement": "list_deduplicate returns the elements in order of first occurrence without repetition; it is idempotent.", "quantifier": "all lists", "why_tests_cant": "all lists", "anchors": ["flavio/io/instanceio.py: list_deduplicate"]}
{"id": "C58", "title": "Parameter diff reload", "statement": "Loading a likelihood whose par_obj was dumped with get_par_diff gives back the same constraints in force for all parameters.", "quantifier": "every history of modifications of a copy of the default parameters", "why_tests_cant": "histories", "anchors": ["flavio/io/instanceio.py: get_par_diff, coerce_par_obj"]}
{"id": "C59", "title": "YAML include semantics", "statement": "!include inserts the content of the named file; !include_merge_list concatenates the lists in order, keeping entries that are not files verbatim; nested includes resolve relative to the including file.", "quantifier": "every finite acyclic file tree", "why_tests_cant": "all file trees", "anchors": ["flavio/io/yaml.py: SafeIncludeLoader"]}
{"id": "C60", "title": "Robust minimisation returns the first success and restarts from the best endpoint", "statement": "minimize_robust returns the result of the first method that reports success, tries methods in the given order up to `tries` times, and uses the endpoint of unsuccessful tries that improved the function as new starting points; maximize_robust returns the negated function value.", "quantifier": "every minimiser behaviour, method list and number of tries", "why_tests_cant": "all behaviours of the external optimiser", "anchors": ["flavio/math/optimize.py: minimize_robust, maximize_robust"]}
{"id": "C61", "title": "pull inverts delta_chi2", "statement": "pull(delta_chi2(n, dof), dof) = n for all n>=0 and dof>=1, and delta_chi2(1 dof) = n^2.", "quantifier": "all n >= 0, dof", "why_tests_cant": "real-valued identity", "anchors": ["flavio/statistics/functions.py: delta_chi2, pull, confidence_level"]}
{"id": "C62", "title": "RG evolution composes across thresholds", "statement": "rg_evolve_sm from scale a to c equals evolving from a to b and then from b to c for any intermediate b, each energy range between quark thresholds being run with its number of flavours; evolution to the same scale is the identity; scales below 0.1 are rejected.", "quantifier": "all scales and all RGE flows", "why_tests_cant": "all reals", "anchors": ["flavio/physics/running/running.py: rg_evolve_sm, _rg_evolve_sm"]}
{"id": "C63", "title": "Running alpha_e is consistent across thresholds", "statement": "run_alpha_e satisfies the group law run(run(a,s1,s2),s2,s3)=run(a,s1,s3), and get_alpha_e is continuous at the thresholds: the values for adjacent numbers of flavours agree at the threshold scale.", "quantifier": "all positive scales and couplings for which the expression is defined", "why_tests_cant": "real-valued identity", "anchors": ["flavio/physics/running/running.py: run_alpha_e, get_alpha_e, get_nf"]}
{"id": "C64", "title": "Wilson coefficient access is complete and SM-neutral", "statement": "get_wc returns a value for every coefficient of the requested sector; all are zero when no (or only zero) initial values are set; legacy sector names give the same result as their WCxf names.", "quantifier": "all sectors, scales, initial values", "why_tests_cant": "all states", "anchors": ["flavio/physics/eft.py: WilsonCoefficients.get_wc, get_wcxf, sectors_flavio2wcxf"]}
{"id": "C65", "title": "CKM angles and combinations", "statement": "For every CKM matrix with non-vanishing entries the angles satisfy alpha+beta+gamma = pi modulo 2 pi; for a unitary matrix, the sum over u,c,t of xi(a,bc) vanishes for b != c and is 1 for b = c.", "quantifier": "all complex 3x3 matrices (non-zero entries / unitary)", "why_tests_cant": "continuum of inputs", "anchors": ["flavio/physics/ckm.py: get_ckmangle_*, xi"]}
{"id": "C66", "title": "Common physics helpers", "statement": "conjugate_par and conjugate_wc are involutions preserving the keys; add_dict adds values key-wise; lambda_K is non-negative, symmetric in its arguments and equals the product form of the Källén function where positive.", "quantifier": "all dictionaries and reals", "why_tests_cant": "all inputs", "anchors": ["flavio/physics/common.py"]}
{"id": "C67", "title": "Plot helper argument handling", "statement": "get_color returns the explicit color if given, else the palette colour of col; pdf_plot uses the given x_min/x_max; error_budget_pie's fractions sum to one; contour rejects z_min above the grid minimum.", "quantifier": "all argument combinations", "why_tests_cant": "all inputs", "anchors": ["flavio/plots/colors.py: get_color", "flavio/plots/plotfunctions.py: pdf_plot, error_budget_pie, contour"]}
{"id": "C68", "title": "Parameter registration with constraints", "statement": "add_constraint(..., is_parameter_constraint=True) has the same effect on the constraints as the plain call and afterwards every named parameter exists as Parameter; existing Parameter instances are kept.", "quantifier": "all states, parameter lists (with or without repetitions) and registries", "why_tests_cant": "needs every combination of existing and new parameters and of previous constraints", "anchors": ["flavio/classes.py: Constraints.add_constraint"]}
{"id": "C69", "title": "Auxiliary quantities evaluate the configured implementation", "statement": "AuxiliaryQuantity.prediction evaluates exactly the implementation named in the configuration for that quantity; it raises KeyError if none is configured or the configured one does not exist.", "quantifier": "all registries, configurations and arguments", "why_tests_cant": "ranges over all registries and configurations", "anchors": ["flavio/classes.py: AuxiliaryQuantity.get_implementation, AuxiliaryQuantity.prediction, Implementation"]}
{"id": "C70", "title": "errors_from_constraints undoes constraints_from_string", "statement": "For every string in bracket or plus-minus notation with positive errors, errors_from_constraints applied to the distributions returned by constraints_from_string gives back the central value, the symmetric errors and the (right, left) asymmetric errors written in the string, in order.", "quantifier": "all bracket and plus-minus strings", "why_tests_cant": "infinitely many strings", "anchors": ["flavio/_parse_errors.py: errors_from_constraints, constraints_from_string"]}
{"id": "C71", "title": "Errors of numerical distributions contain the confidence level", "statement": "For a NumericalDistribution the interval [central - error_left, central + error_right] of the central method contains exactly the requested probability of the distribution, with equal tail probabilities; the limit method returns the value below (above) which the requested probability lies.", "quantifier": "all grids, PDF tables and confidence levels", "why_tests_cant": "all grids of any length and all real levels", "anchors": ["flavio/statistics/probability.py: NumericalDistribution.get_error_left, get_error_right"]}
{"id": "C72", "title": "Closed-form PDFs are normalised", "statement": "The PDFs of the normal, half-normal and uniform distributions and of the Gaussian upper limit integrate to 1 over the real line, and GaussianUpperLimit(limit, confidence_level) has probability confidence_level below the limit.", "quantifier": "all real parameters accepted by the constructors", "why_tests_cant": "integrals over the real line for all parameters", "anchors": ["flavio/statistics/probability.py: NormalDistribution, HalfNormalDistribution, UniformDistribution, GaussianUpperLimit"]}
{"id": "C73", "title": "Support of a numerical convolution", "statement": "If the convolution of at least two numerical distributions succeeds, its central value is the common one (or the sum) and the extension of its support on either side of the central value is the sum of the individual extensions.", "quantifier": "every list of numerical distributions", "why_tests_cant": "all lists and grids", "anchors": ["flavio/statistics/probability.py: _convolve_numerical"]}
{"id": "C74", "title": "Multivariate normal log-PDF", "statement": "logpdf(x) of a MultivariateNormalDistribution is -1/2 (n log 2 pi + log det Sigma + (x-mu)^T Sigma^-1 (x-mu)): the internal rescaling by the standard deviations cancels exactly.", "quantifier": "all dimensions, positive definite covariances and points", "why_tests_cant": "all dimensions and matrices", "anchors": ["flavio/statistics/probability.py: MultivariateNormalDistribution.logpdf"]}
{"id": "C75", "title": "A Gamma upper limit has its confidence level", "statement": "The distribution created by GammaUpperLimit(limit, confidence_level, counts_total, counts_background) has CDF equal to confidence_level at limit.", "quantifier": "all positive limits, confidence levels in (0,1), counts", "why_tests_cant": "all real parameters", "anchors": ["flavio/statistics/probability.py: GammaUpperLimit, GammaDistributionPositive.cdf, GammaDistributionPositive.ppf"]}
{"id": "C76", "title": "Errors of Gamma distributions contain the confidence level", "statement": "The interval [central - error_left, central + error_right] of a GammaDistribution or GammaDistributionPositive contains the requested confidence level of probability.", "quantifier": "all shapes, locations, scales and confidence levels", "why_tests_cant": "all real parameters", "anchors": ["flavio/statistics/probability.py: GammaDistribution.get_error_left, get_error_right, GammaDistributionPositive.get_error_left, get_error_right"]}
{"id": "C77", "title": "Correlation warning counts are exact", "statement": "The warning emitted when a MeasurementLikelihood is built counts, for each pair (observable p outside the likelihood, observable o inside), exactly the selected measurements whose constraint in force on o also mentions p; it is emitted iff the count exceeds one.", "quantifier": "every registry, selection arguments and set iteration order", "why_tests_cant": "ranges over all registries, histories and set orders", "anchors": ["flavio/statistics/likelihood.py: MeasurementLikelihood._warn_meas_corr"]}
{"id": "C78", "title": "Averaged measurement reproduces the sum of chi2", "statement": "The (central value, covariance) pair returned by MeasurementCovariance.compute for several measurements is the weighted average: its chi2 equals the sum of the chi2 of the individual measurements up to a constant, its central value minimises that sum, and the order of the measurements does not matter.", "quantifier": "any number of measurements and observables, all symmetric (positive semidefinite) weights with invertible sum", "why_tests_cant": "continuum of inputs and dimensions", "anchors": ["flavio/statistics/likelihood.py: MeasurementCovariance.compute"]}
{"id": "C79", "title": "B->P l l angular distribution is a non-negative distribution", "statement": "For every set of helicity amplitudes, all lepton masses, every q2 at or above threshold and every lepton angle, the angular distribution described by the coefficients a, b, c of B->P l1 l2 is non-negative; dGdq2 is its integral over the angle and AFB its forward-backward difference; AFB and FH stay in their physical ranges.", "quantifier": "all complex helicity amplitudes, lepton masses, q2 above threshold, angles", "why_tests_cant": "The amplitudes, masses and angles range over continuous domains; tests evaluate a handful of Standard-Model points.", "anchors": ["flavio/physics/bdecays/angular.py: angularcoeffs_general_Gbasis_p, angularcoeffs_general_p", "flavio/physics/bdecays/bpll.py: dGdq2, AFB_num, FH_num, dGdq2_cpaverage"]}
{"id": "C80", "title": "B->V l l angular distribution is non-negative", "statement": "For every set of helicity amplitudes (vector, axial, scalar, pseudoscalar, tensors), all lepton masses, every q2 at or above threshold and all three decay angles, the differential rate built from the twelve angular coefficients J_i returned by the code is non-negative.", "quantifier": "all complex helicity amplitudes, lepton masses, q2 above threshold and angles", "why_tests_cant": "The amplitudes, masses and angles range over continuous domains; tests evaluate a handful of Standard-Model points.", "anchors": ["flavio/physics/bdecays/angular.py: angularcoeffs_general_Gbasis_v, G_to_g, angularcoeffs_general_v"]}
{"id": "C81", "title": "B->V l l rate, A_FB and F_L are what their names say", "statement": "dGdq2 is 9/32pi times the angular distribution integrated over all angles and is never negative (nor is the branching ratio); the forward-backward asymmetry is the forward minus backward integral when J6c vanishes and lies in [-3/4,3/4]; F_L is at most 1, and non-negative without tensor amplitudes; the code never divides by zero in them. (The code's A_FB ignores J6c and FLhat has the wrong sign.)", "quantifier": "all angular coefficients / all helicity amplitudes, masses and q2", "why_tests_cant": "The amplitudes, masses and angles range over continuous domains; tests evaluate a handful of Standard-Model points.", "anchors": ["flavio/physics/bdecays/bvll/observables.py: dGdq2, SA_den, AFB_experiment, AFB_theory, FL, FLhat"]}
{"id": "C82", "title": "Optimised observables, conventions and CP asymmetries of B->V l l", "statement": "Without tensor amplitudes |P1|<=1, |P3|<=1/2, |ATIm|<=1, |P2|<=1/(2 beta), |P4'|,|P8'|<=1/sqrt2, |P5'|,|P6'|<=sqrt2/beta; the experimental convention flips exactly the signs of 4,6s,6c,7,9; exchanging decay and CP conjugate leaves S_i and flips A_i. (The observable ACP is half the direct CP asymmetry.)", "quantifier": "all helicity amplitudes of the decay and its CP conjugate, masses, q2", "why_tests_cant": "The amplitudes, masses and angles range over continuous domains; tests evaluate a handful of Standard-Model points.", "anchors": ["flavio/physics/bdecays/bvll/observables.py: S_experiment, A_experiment, P_den, BVll_ratio, BVll_pprime, dGdq2_diff"]}
{"id": "C83", "title": "Interference coefficients and time-averaged Bs->V l l observables", "statement": "The coefficients of angularcoeffs_h_v are the interference terms between the amplitudes H and e^{i phi} H~, hence bounded by the sum of both rates at every angle; the time-averaged rate of Bs->V l l lies between the CP-averaged rate divided by 1+|y| and by 1-|y| (so is never negative) and reduces to it at y=0; the time-averaged F_L is in [0,1].", "quantifier": "all helicity amplitudes, mixing phases, |y|<1, masses, q2, angles", "why_tests_cant": "The amplitudes, masses and angles range over continuous domains; tests evaluate a handful of Standard-Model points.", "anchors": ["flavio/physics/bdecays/angular.py: angularcoeffs_h_Gbasis_v, angularcoeffs_h_v", "flavio/physics/bdecays/bvll/observables_bs.py: bsvll_obs, dGdq2_ave_Bs, FL_Bs"]}
{"id": "C84", "title": "Binned B->V l l observables are averages of the differential ones", "statement": "nintegrate_pole returns the integral (its error is the integrator's error on the pole-subtracted integrand); a binned observable is the average over the bin of the differential one, which vanishes outside the allowed region; adjacent bins add up; clipping (B) and zero-padding (Bs) agree; bounds on differential ratios carry over to binned ones. (Above 0.1 GeV^2 the requested precision is ignored.)", "quantifier": "all integrands, bins inside, across or outside the allowed region, all integrators", "why_tests_cant": "Tests use a few bins of a few observables.", "anchors": ["flavio/physics/bdecays/bvll/observables.py: nintegrate_pole, BVllObservableBinned, BVll_obs_int, BVll_int_ratio, BVll_dBRdq2_int", "flavio/physics/bdecays/bvll/observables_bs.py: bsvll_obs_int, bsvll_dbrdq2_int"]}
{"id": "C85", "title": "Numerical fallbacks tabulate the true product and convolution", "statement": "When distributions that are not Gaussian are combined or convolved, each is tabulated on 1000 equidistant points over its support with its own PDF and central value; combining returns a distribution on the intersection of the supports whose PDF at the grid points is proportional to the product of the PDFs (ValueError if the intersection is empty), centred where the product is largest; convolving two returns a table whose entries are the Riemann sums of the convolution integral of the PDFs, shifted to the common central value with an error below one grid step; interpolated PDFs reproduce the table, are never negative and vanish outside the support.", "quantifier": "all numerical distributions with non-negative PDF, both treatments of central values", "why_tests_cant": "holds for every table and every pair of distributions; a test fixes a few shapes and compares with a tolerance", "anchors": ["flavio/statistics/probability.py:NumericalDistribution.from_pd", "flavio/statistics/probability.py:_convolve_numerical", "flavio/statistics/probability.py:_combine_numerical"]}
{"id": "C86", "title": "Meson mixing observables are those of the 2x2 mixing Hamiltonian", "statement": "For any mixing amplitudes M12 and Gamma12, DeltaM and DeltaGamma are the mass and width differences of the two eigenstates (1, ±q/p) of the mixing Hamiltonian; DeltaM^2 - DeltaGamma^2/4 = 4|M12|^2 - |Gamma12|^2 and DeltaM·DeltaGamma = -4 Re(M12 Gamma12*); the reported B observables (positive mass difference, DeltaGamma, a_fs, |q/p|, x12, y12, S with consistently rephased amplitudes) do not depend on the phase convention of the meson states; |q/p| > 1 exactly if Im(M12 Gamma12*) > 0; a_fs = Im(Gamma12/M12), it changes sign under CP conjugation, and it agrees with (1-|q/p|^4)/(1+|q/p|^4) up to the factor 1+|Gamma12/M12|^2/4; |S| <= 1 and S = eta sin(arg) in the absence of a width difference; epsilon_K is linear in Im M12.", "quantifier": "all complex mixing amplitudes, decay amplitudes, phases and lifetimes", "why_tests_cant": "the identities hold for every complex amplitude; tests compare a few numbers for one parameter set", "anchors": ["flavio/physics/mesonmixing/common.py:q_over_p", "flavio/physics/mesonmixing/common.py:DeltaM", "flavio/physics/mesonmixing/common.py:DeltaGamma", "flavio/physics/mesonmixing/common.py:a_fs", "flavio/physics/mesonmixing/observables.py:S", "flavio/physics/mesonmixing/observables.py:DeltaGamma_B", "flavio/physics/mesonmixing/observables.py:phi12", "flavio/physics/mesonmixing/observables.py:epsK"]}
{"id": "C87", "title": "Mixing amplitudes: box functions, unitarity, phase conventions, Standard Model relations", "statement": "The box function F_box is symmetric, and its separate formulas for equal and for vanishing arguments are the limits of the general one; S0_box vanishes when a quark is degenerate with the reference quark (GIM), equals the Inami-Lim functions for a massless reference quark and is positive there; with unit QCD factors and a unitary CKM matrix the 'ut' and 'ct' treatments of kaon mixing give the same coefficient, and any other setting raises ValueError; M12 is the SM amplitude minus the sum of Wilson coefficients times matrix elements (affine in the coefficients, symmetric under exchange of chiralities); rephasing the quark fields multiplies M12 and Gamma12 by the same phase so that DeltaM, a_fs, |q/p|, x12, y12, phi12, DeltaGamma and S do not change, CP conjugation conjugates them; in the SM S_psiK = sin(2 beta) when Gamma12 is aligned with M12 and a_fs = 1e-4 a Im(xi_u/xi_t).", "quantifier": "all mass ratios, CKM matrices, parameters, Wilson coefficients and quark phases", "why_tests_cant": "the limits and identities involve all real mass ratios and all complex matrices; tests evaluate single parameter points", "anchors": ["flavio/physics/mesonmixing/wilsoncoefficient.py:F_box", "flavio/physics/mesonmixing/wilsoncoefficient.py:S0_box", "flavio/physics/mesonmixing/wilsoncoefficient.py:cvll_d", "flavio/physics/mesonmixing/amplitude.py:M12", "flavio/physics/mesonmixing/amplitude.py:G12_d_SM", "flavio/physics/mesonmixing/observables.py:get_M12_G12", "flavio/physics/mesonmixing/observables.py:S_BJpsiK"]}
{"id": "C88", "title": "Leptonic B decays: asymmetry, time integration, effective lifetime, coefficient dependence", "statement": "A_DeltaGamma lies in [-1,1] and is 1 for a real pseudoscalar amplitude without scalars; for equal leptons the time-integrated branching ratio is the instantaneous one times the integral over time of the untagged rate divided by the lifetime (ValueError for different leptons); the effective lifetime is the mean decay time of that rate and lies between the two mass-eigenstate lifetimes; the instantaneous branching ratio is non-negative, vanishes at threshold, depends only on the differences C-C', not on C9 for equal leptons, vanishes for massless leptons without (pseudo)scalars, and is invariant under rephasing; exchanging the leptons is the same as changing the sign of C9; the sum over both charge assignments adds the two branching ratios with the coefficients of their own sectors and raises ValueError for equal flavours.", "quantifier": "all masses, lifetimes, width differences |y|<1, CKM matrices and complex Wilson coefficients", "why_tests_cant": "integrals over all times and inequalities for all complex coefficients cannot be settled by evaluating points", "anchors": ["flavio/physics/bdecays/bll.py:br_lifetime_corr", "flavio/physics/bdecays/bll.py:amplitudes", "flavio/physics/bdecays/bll.py:ADeltaGamma", "flavio/physics/bdecays/bll.py:br_inst", "flavio/physics/bdecays/bll.py:br_timeint", "flavio/physics/bdecays/bll.py:bqll_obs_lsum", "flavio/physics/bdecays/bll.py:tau_ll"]}
{"id": "C89", "title": "The caches of a B->Vll observable object are transparent", "statement": "For every sequence of calls to one BVllObservable object (form factors, effective Wilson coefficients, helicity amplitudes, angular coefficients and any function of them, at any q2 values, in any order), each call returns exactly what a fresh object without caches would return; each external evaluation that succeeds is made at most once per q2 for the lifetime of the object, and an evaluation that raised is not remembered and is tried again by the next call.", "quantifier": "all call sequences, all q2 values, all outcomes (value or exception) of the external evaluations", "why_tests_cant": "The statement is over all histories of calls, with failures interleaved at any point.", "anchors": ["flavio/physics/bdecays/bvll/observables.py:BVllObservable", "flavio/physics/bdecays/bvll/observables.py:BVllObservable.ff,wceff,wceff_bar,ha,ha_bar,j,jbar,jfunc"]}
{"id": "C90", "title": "Differential, binned and total B->P l l observables are consistent and within physical ranges", "statement": "For every B->P l l decay: outside the kinematic region (threshold excluded, endpoint included) every observable is exactly 0; a binned branching ratio is the bin average of the differential one, neighbouring bins add up, and any bin covering the allowed region contains the total branching ratio; for arbitrary amplitudes and every bin the binned rate is >= 0, 0 <= F_H <= 3, |A_FB| <= F_H/2, |A_CP| <= 1 and no division by zero occurs; a neutral pion halves branching ratios and nothing else; a lepton-flavour ratio of identical decays is 1 and inverts on exchange; lepton-flavour violating branching ratios vanish when the Wilson coefficients do and the charge-summed one is the sum of both, in either order.", "quantifier": "all amplitudes, masses, q2 and bins (exact integrator)", "why_tests_cant": "Ranges over all amplitudes and bins including those straddling thresholds.", "anchors": ["flavio/physics/bdecays/bpll.py:bpll_obs,bpll_obs_int,bpll_dbrdq2,bpll_dbrdq2_int,bpll_dbrdq2_tot_func,bpll_obs_int_ratio_func,bpll_obs_ratio_func,bpll_obs_int_ratio_leptonflavour,bpll_obs_ratio_leptonflavour", "flavio/physics/bdecays/bpll_lfv.py:bpll_dbrdq2_int,bpll_dbrdq2_tot_func,bpll_dbrdq2_tot_lfv_comb_func"]}
{"id": "C91", "title": "Helicity amplitudes: overall factors enter only through their modulus, and chirality flips act as parity demands", "statement": "For every choice of masses, form factors and effective Wilson coefficients: multiplying the prefactor of the amplitudes by N multiplies every angular coefficient and rate by |N|^2, so an overall phase is unobservable; exchanging every Wilson coefficient with its chirality-flipped partner exchanges the transverse helicities of the vector meson with definite signs and leaves the pseudoscalar amplitudes unchanged except for the sign of one tensor amplitude; without scalar and tensor coefficients this leaves the rate and J1, J2, J3, J4, J7 unchanged and flips J5, J6s, J8, J9; the change from the transversity to the helicity basis preserves the longitudinal, parallel and perpendicular intensities and is injective.", "quantifier": "all masses, q2, form factors, complex Wilson coefficients and prefactors", "why_tests_cant": "The relations are identities over all complex amplitudes; a numerical test checks single points.", "anchors": ["flavio/physics/bdecays/angular.py:helicity_amps_p,helicity_amps_v,transversity_to_helicity"]}
{"id": "C92", "title": "B->P/V nu nubar depends on new physics only through the left/right couplings", "statement": "For B->P nu nubar and B->V nu nubar: the rates depend on the couplings only through sum |CL+CR|^2 (pseudoscalar, perpendicular) and sum |CL-CR|^2 (longitudinal, parallel) over the nine neutrino flavour pairs; branching ratios are non-negative and 0<=F_L<=1; new physics rescales the pseudoscalar spectrum, its bins and its total by one common number; without right-handed currents the vector mode is rescaled by the same number and F_L keeps its SM value; the epsilon-eta relations hold; the SM result does not depend on the value of alpha_e at the low scale; there is no kinematic endpoint guard, so q2 > (mB+mP)^2 gives a positive value.", "quantifier": "all form factors, couplings, q2, bins (any homogeneous integrator)", "why_tests_cant": "Exact functional dependence for arbitrary complex couplings and form-factor functions.", "anchors": ["flavio/physics/bdecays/bpnunu.py", "flavio/physics/bdecays/bvnunu.py", "flavio/physics/bdecays/wilsoncoefficients.py:get_wceff_nunu,CL_SM", "flavio/physics/common.py:lambda_K"]}
{"id": "C93", "title": "Total ΔF=1 Wilson coefficients are the tabulated SM plus new physics", "statement": "For each of the nine flavour-conserving sectors (b->s, b->d, s->d with ee, mumu, tautau), wctot_dict returns for every coefficient name the new physics value plus the tabulated Standard Model value (C10 rescaled by (mt/173.1)^1.53); the effective dipoles C7eff, C8eff are the tabulated ones plus the NP dipoles plus the fixed linear combination of NP C3..C6; in the SM they are exactly the tabulated numbers, C9 and C10 are lepton flavour universal, and the right-handed effective dipole of b->s is ms/mb times the non-effective dipole. Exceptions of get_wc and of the table are passed on, nf != 5 raises NotImplementedError and unknown sectors KeyError.", "quantifier": "all NP dictionaries without effective coefficients, all tables of 15 numbers, all masses, scales and sectors", "why_tests_cant": "the totals are sums over arbitrary complex dictionaries and an arbitrary table; tests sample a single scale", "anchors": ["flavio/physics/bdecays/wilsoncoefficients.py:wctot_dict", "flavio/physics/bdecays/wilsoncoefficients.py:get_C78eff", "flavio/physics/bdecays/wilsoncoefficients.py:fcnclabels", "flavio/physics/common.py:add_dict"]}
{"id": "C94", "title": "Leptonic decays of charged mesons and the Bc lifetime", "statement": "BR(P+ -> l nu) for P = B+, Bc, K+, pi+, D+, Ds is the lifetime times the textbook helicity-suppressed rate, summed incoherently over the three neutrino flavours with the SM amplitude only in the lepton's own neutrino and the scalar amplitude enhanced by mP^2/(ml*(sum of the valence quark masses)); it is non-negative, depends on |V| and on CVL-CVR and CSR-CSL only, is lepton universal up to masses in the SM, is only increased by neutrinos of other flavours and, for massless leptons, tends to the pure pseudoscalar rate. tau_Bc equals the SM lifetime without NP, does not depend on the measured lifetime, and 1/tau is the SM width plus the change of the leptonic widths.", "quantifier": "all parameters, CKM matrices, complex Wilson coefficients, mesons and lepton flavours", "why_tests_cant": "the statements are identities and inequalities over continuous inputs; a wrong quark mass only shows up for scalar NP, which no test samples", "anchors": ["flavio/physics/bdecays/blnu.py:br_plnu_general", "flavio/physics/bdecays/blnu.py:br_blnu", "flavio/physics/ddecays/dlnu.py:br_Dlnu", "flavio/physics/kdecays/klnu.py:br_plnu", "flavio/physics/kdecays/klnu.py:r_plnu", "flavio/physics/bdecays/bc_lifetime.py:tau_Bc"]}
{"id": "C95", "title": "tau -> l nu nu and the effective Fermi constant", "statement": "BR(tau -> l nu nu) is the prefactor times the sum over the nine neutrino flavour combinations of a rate function of (CL, CR), with the SM amplitude (using GFeff) only for nu_tau and the antineutrino of the charged lepton; in the SM it is 8 GF^2 F(ml^2/mtau^2) times the prefactor. GFeff is the measured GF without NP, satisfies GFeff^2 * rate(SM+NP) = GF^2 * rate(SM), and the rate function is non-negative for all coefficients.", "quantifier": "all masses 0 < ml < mtau, all complex coefficients, all dictionaries of Wilson coefficients", "why_tests_cant": "sign and domain of the rate function over the whole complex coefficient space; tests sample the SM and small NP", "anchors": ["flavio/physics/taudecays/taulnunu.py:_BR", "flavio/physics/taudecays/taulnunu.py:GFeff", "flavio/physics/taudecays/taulnunu.py:BR_taulnunu", "flavio/physics/taudecays/taulnunu.py:BR_taulnunu_summed"]}
{"id": "C96", "title": "Two-body widths of charged leptons", "statement": "The generic width of a fermion into a fermion and a scalar or massive vector is the phase space factor times a sum of squared amplitudes over parities and polarizations, so it is non-negative above threshold for all couplings and zero at threshold; with dipole couplings it is continuous at zero vector mass. BR(l1 -> l2 gamma) = tau (m1^2-m2^2)^3/(4 pi m1^3)(|C12|^2+|C21|^2), zero only without dipoles. BR(tau -> P nu) is the lifetime times the textbook rate summed incoherently over neutrinos and is related to P -> mu nu by crossing. The LFV decays tau -> pi0 l, K0 l, rho l, phi l have non-negative branching ratios that vanish in the SM, and scalar and pseudoscalar amplitudes of tau -> K0 l do not interfere.", "quantifier": "all masses, complex couplings and Wilson coefficients", "why_tests_cant": "non-negativity over all complex couplings and masses is not decidable by sampling", "anchors": ["flavio/physics/taudecays/common.py:GammaFvf", "flavio/physics/taudecays/common.py:GammaFsf", "flavio/physics/taudecays/taulgamma.py:BR_llgamma", "flavio/physics/taudecays/taupnu.py:br_taupnu", "flavio/physics/taudecays/taupl.py:br_taupl", "flavio/physics/taudecays/tauvl.py:br_tauvl", "flavio/physics/mudecays/muegamma.py:BR_muegamma"]}
{"id": "C97", "title": "LFV decays into three charged leptons", "statement": "For each of the six tau decays and mu -> 3e the branching ratio is a sum of squared moduli of the effective coefficients (vector coefficients shifted by four times the dipole, a remaining positive dipole weight), hence non-negative for the physical mass hierarchy, zero without new physics, symmetric under exchange of left and right and under a common phase; mu -> 3e has the normalization of the tau decays for the tree-level muon lifetime; any other final state raises KeyError or ValueError, never an unbound variable.", "quantifier": "all complex coefficients, masses with ratio at least nine, flavour strings", "why_tests_cant": "positivity over a 12-dimensional complex space and all strings", "anchors": ["flavio/physics/taudecays/tau3l.py:wc_eff", "flavio/physics/taudecays/tau3l.py:BR_taul1l2l3", "flavio/physics/taudecays/tau3l.py:_BR_tau3mu", "flavio/physics/taudecays/tau3l.py:_BR_taumuee", "flavio/physics/mudecays/mu3e.py:BR_mu3e"]}
{"id": "C98", "title": "Z pole observables", "statement": "The shifts of the Z couplings follow one formula for all fermions (left/right Higgs-current operators, common rescaling, charge times the shift of the mixing angle); partial widths are the SM width plus the change of |gV|^2+|gA|^2; flavour-changing widths are non-negative, equal for both charge combinations and vanish exactly if the two operator combinations do; total, invisible and hadronic widths, R_q, R_l and sigma_had are the sums and ratios they are named after, sigma_had obeys the unitarity bound; asymmetries lie in [-1,1] (AFB in [-3/4,3/4]), equal the left-right asymmetry for real couplings, and are lepton universal for universal operators; the SM parametrisation reproduces its table at the reference point; the total width contains every two-fermion decay.", "quantifier": "all parameter points in the domain, all Wilson coefficients, all fermion pairs", "why_tests_cant": "the coefficient space has dozens of complex dimensions and eight near-identical coupling functions must agree with one formula", "anchors": ["flavio/physics/zdecays/smeftew.py:d_gV", "flavio/physics/zdecays/smeftew.py:d_gA", "flavio/physics/zdecays/smeftew.py:_sinthetahat2", "flavio/physics/zdecays/gammaz.py:GammaZ", "flavio/physics/zdecays/gammaz.py:Gammatot", "flavio/physics/zdecays/gammaz.py:sigmahad", "flavio/physics/zdecays/gammazsm.py:GammaZ_SM", "flavio/physics/zdecays/afbz.py:Af"]}
{"id": "C99", "title": "W decays and the W mass", "statement": "Partial widths are the SM width plus the change of |g|^2 and bounded below; branching ratios and hadronic fraction sum to one, ratios are ratios of branching ratios; in the SM leptonic rates are universal and half the hadronic decays contain charm; shifts of the W couplings and mass leave the muon decay rate, i.e. the input G_F, unchanged at linear order; the W mass responds to its inputs with the right sign and is linear in the coefficients; flavour-universal operators conserve flavour; the interference uses the phase of the CKM element consistently.", "quantifier": "all parameter points in the domain, CKM matrices and Wilson coefficients", "why_tests_cant": "consistency of two independently coded modules for all coefficients; flavour structure for all operators", "anchors": ["flavio/physics/wdecays/gammaw.py:GammaW", "flavio/physics/wdecays/gammaw.py:BRWlnu_fct", "flavio/physics/wdecays/gammaw.py:RWcX", "flavio/physics/wdecays/mw.py:mW", "flavio/physics/zdecays/smeftew.py:d_gW"]}
{"id": "C100", "title": "Reading parameter files and PDG data sets exactly the parameters of the file", "statement": "Reading a file of parameter values with distinct, existing names and readable values succeeds and gives each of these parameters its value and no other parameter anything; a failing entry leaves exactly the entries before it read and reports KeyError for an unknown parameter and the error of the value otherwise. A correlated group gives its parameters, in order, one multivariate normal distribution with the file's central values, quadrature errors and correlations (all times 0.99 if the covariance is otherwise not positive); with positive errors and symmetric correlations it is accepted exactly if the correlation matrix has no quadratic form as low as -1/99. read_pdg gives each particle's mass and lifetime a normal or asymmetric normal distribution independently of the order of the particles and of repetition, with the errors of the width propagated to the lifetime.", "quantifier": "all parameter states, files, correlation matrices of any size, PDG tables and orders of particles", "why_tests_cant": "a test reads the shipped files; the claim is about every file, every failing entry, every correlation matrix, every iteration order of a set", "anchors": ["flavio/parameters.py:_read_yaml_object_values", "flavio/parameters.py:_read_yaml_object_values_correlated", "flavio/parameters.py:FlavioParticle", "flavio/parameters.py:read_pdg"]}
{"id": "C101", "title": "Semi-leptonic B and D decays to a pseudoscalar", "statement": "dBR/dq2 of B/D -> P l nu is the life time times the differential rate of the literature (vector, scalar and tensor operators, complex coefficients, charged lepton mass) summed over the three neutrino flavours, with half of it for a pi0, and zero outside the kinematically allowed region; binned predictions are its integral, bins add up, the total is that of any bin covering the region; the observables for 'l' average e and mu; ratios are quotients (0 when the numerator is 0) and the fraction in a bin lies in [0,1]; leptons of equal mass and couplings have equal rates; new physics with another neutrino flavour never lowers a rate", "quantifier": "all masses, form factor functions, CKM elements, Wilson coefficients, q2 and bins", "why_tests_cant": "tests compare a handful of Standard Model numbers and one or two coefficient choices; the identity with the rate formula for complex coefficients and the additivity of bins need all inputs", "anchors": ["flavio/physics/bdecays/bplnu.py:dBRdq2_lep,BR_binned,BR_tot", "flavio/physics/ddecays/dplnu.py:dBRdq2_lep,BR_tot", "flavio/physics/bdecays/wilsoncoefficients.py:get_wceff_fccc", "flavio/physics/bdecays/angular.py:helicity_amps_p"]}
{"id": "C102", "title": "K -> pi l nu", "statement": "dBR/dq2 of K -> pi l nu is the rate of the literature summed over neutrino flavours times the life time and the isospin and electromagnetic corrections ((1+delta)^2/2 for K+ -> pi0, (1+delta_EM)^2 for KL and KS); the total is its integral; lnC is ln(f0(Delta)/f0(0)) plus the shift by scalar operators, equals the form factor parameter up to G(Delta) in the Standard Model and raises for non-positive arguments; RT is proportional to the real part of the tensor coefficient; f+(0) = f0(0)", "quantifier": "all masses, form factor parameters, Wilson coefficients and q2", "why_tests_cant": "tests compare Standard Model central values at 2-4 percent and one new physics point", "anchors": ["flavio/physics/kdecays/kpilnu.py:dBRdq2,BR_tot,logC,RT", "flavio/physics/kdecays/formfactors.py:ff_dispersive_pole"]}
{"id": "C103", "title": "Semi-leptonic B decays to vector mesons: rates, polarisation, angular distributions and their bins", "statement": "For all masses, form factors and complex Wilson coefficients including scalar and tensor ones, dBR/dq2 of B->V l nu and its longitudinal and transverse parts are the branching ratios of the literature summed over neutrino flavours, and zero outside the allowed region; with an exact integrator binned predictions are the integrals of the differential ones, are non-negative, additive, and give the total when the bin covers the allowed range, in q2 as well as in each of the three angles; the one-angle distributions are the full angular distribution integrated over the other two angles; polarisation fractions lie in [0,1], AFB is the hemisphere asymmetry in [-1,1], I3 lies in [-1,1], FLt in [-2,1]; FLtot, FLttot, AFBtot, I3tot and the differential FL raise KeyError for the lepton 'l'.", "quantifier": "all masses, form factors, Wilson coefficients, q2 values, bins, angles and lepton arguments", "why_tests_cant": "The rate depends on seven form factors and five complex coefficients per neutrino flavour; tests evaluate at a few points.", "anchors": ["flavio/physics/bdecays/bvlnu.py:get_angularcoeff", "flavio/physics/bdecays/bvlnu.py:dBRdq2", "flavio/physics/bdecays/bvlnu.py:FL_diff", "flavio/physics/bdecays/bvlnu.py:AFB_tot_function", "flavio/physics/bdecays/bvlnu.py:BR_binned_costhl_function"]}
{"id": "C104", "title": "Series parametrizations of the form factors", "statement": "The expansion variable z is the conformal map of the cut q2 plane: defined up to the threshold, in [-1,1), strictly decreasing, zero exactly at t0, the default t0 minimises the largest |z| of the decay region; the expansion of (w-1)^n is correct to its order. BCL form factors have the required threshold behaviour; whether f0(0) = f+(0) holds in the parametrization that is meant to impose it is decided exactly (the code violates it unless the unconstrained sum already agrees); BSZ form factors satisfy the kinematic relations T1(0)=T2(0) and 8 mB mV A12(0) = (mB^2-mV^2) A0(0) for all parameters, and their value at q2=0 is the leading parameter; adding a vanishing higher coefficient changes nothing; Lambda_b form factors satisfy the end point relations.", "quantifier": "all masses, coefficients, orders and q2", "why_tests_cant": "relations among functions of q2 and 10-20 real parameters; tests evaluate the central parameters at few q2", "anchors": ["flavio/physics/bdecays/formfactors/common.py:z,w_minus_1_pow_n", "flavio/physics/bdecays/formfactors/b_p/bcl.py:ff", "flavio/physics/bdecays/formfactors/b_p/bcl_lmvd.py:ff", "flavio/physics/bdecays/formfactors/b_p/bsz.py:ff", "flavio/physics/bdecays/formfactors/b_v/bsz.py:ff", "flavio/physics/bdecays/formfactors/b_v/sse.py:ff", "flavio/physics/bdecays/formfactors/lambdab_12/sse.py:ff"]}
{"id": "C105", "title": "Form factors from heavy quark effective theory", "statement": "The form factors of the CLN parametrizations are those of the HQET decomposition of the matrix elements; they satisfy the exact kinematic relations at q2=0 and at the end point; perturbative corrections are symmetric under the exchange of the heavy quarks, continuous at zero recoil and there equal to the known values; Luke's theorem and the heavy quark limit hold for all parameters; CLNexp is the Caprini-Lellouch-Neubert parametrization in the same conformal variable with A0(0) fixed by the kinematic relation; the tensor form factors from the Isgur-Wise relations have an exactly determined limit at q2=0, which is the value returned for q2=0 only without power correction and slopes, and T1(0)=T2(0) holds exactly under a stated condition.", "quantifier": "all masses, recoils w >= 1, mass ratios and HQET parameters", "why_tests_cant": "identities between functions involving dilogarithms, limits w -> 1 and q2 -> 0", "anchors": ["flavio/physics/bdecays/formfactors/hqet.py:CV1,CA1,CT1,omega,xi,Lz,ell", "flavio/physics/bdecays/formfactors/b_p/cln.py:ff,h_to_f", "flavio/physics/bdecays/formfactors/b_v/cln.py:ff,h_to_A", "flavio/physics/bdecays/formfactors/b_v/clnexp.py:ff", "flavio/physics/bdecays/formfactors/b_v/isgurwise.py:isgur_wise"]}
{"id": "C106", "title": "Λb → Λ(→pπ)ℓℓ: rate, longitudinal fraction and asymmetries are those of the helicity-amplitude angular distribution", "statement": "For all Wilson coefficients, form factors and masses the predicted rate and the lepton-side, hadron-side and combined forward-backward asymmetries are the integrals of the (non-negative) angular distribution computed from helicity amplitudes; 0<=FL<=1, |AFBl|<=3/4(1-FL), |AFBh|<=|alpha|/2, |AFBlh|<=3/8|alpha|(1-FL), differentially and in every bin; no ratio ever raises; everything vanishes outside the allowed region; exchanging primed and unprimed coefficients flips AFBl and AFBh, reversing C10 flips AFBl and AFBlh; at the end point FL=1/3; universal subleading shifts act as shifts of C7 or C9.", "quantifier": "all q2, bins, lepton flavours, parameters, Wilson coefficients, form factors", "why_tests_cant": "A test evaluates a few bins at the SM point; the distribution, bounds and absence of exceptions concern every parameter point and bin.", "anchors": ["flavio/physics/bdecays/lambdablambdall.py:get_obs", "flavio/physics/bdecays/lambdablambdall.py:angular_coefficients", "flavio/physics/bdecays/lambdablambdall_subleading.py:transversity_amps_deltaC"]}
{"id": "C107", "title": "Λb → Λ(1520)(→NK)ℓℓ: observables of the spin-3/2 mode are those of its helicity-amplitude angular distribution", "statement": "For all Wilson coefficients, form factors and masses the twelve angular coefficients are those of the non-negative density built from helicity amplitudes of a spin-3/2 baryon; the rate and lepton-side asymmetry are its integrals and the hadron-side asymmetries vanish; 0<=FL<=1, |AFBl|<=3/4(1-FL), all S_i and A_i are bounded by 1, differentially and in every bin; no ratio raises; observables vanish outside the allowed region; the lattice form factors exist below the end point and give the expected helicity amplitudes; the quark-model form factors satisfy the kinematic relations at q2=0 and the rotational relations at the end point.", "quantifier": "all q2, bins, lepton flavours, parameters, Wilson coefficients, form factors", "why_tests_cant": "A test evaluates a few bins at the SM point; positivity, bounds, limits and absence of exceptions concern every parameter point and bin.", "anchors": ["flavio/physics/bdecays/lambdablambda1520ll.py:get_obs", "flavio/physics/bdecays/lambdablambda1520ll.py:angular_coefficients", "flavio/physics/bdecays/formfactors/lambdab_32/LatticeQCD.py:ff_equiv", "flavio/physics/bdecays/formfactors/lambdab_32/QuarkModel_MCN.py:ff_equiv"]}
{"id": "C108", "title": "Higgs signal strengths: SM normalisation, linear response, factorisation and a consistent total width", "statement": "All 54 signal strengths are exactly 1 in the SM; every production and decay factor is linear in the real parts of the Wilson coefficients with the tabulated response; Vh and VV modes are weighted means lying between the W and Z modes; the width is the SM-BR weighted sum plus a positive light-quark term, so branching ratios of the frequent modes add up to less than 1 whenever the width is positive; production and decay factorise; fermion universality and e-mu symmetry; first-generation Yukawas suppress all signal strengths by one common factor decreasing to 0; the linearised width may vanish (ZeroDivisionError) and signal strengths may be negative.", "quantifier": "all Wilson coefficient dictionaries, all modes, all nonzero GF", "why_tests_cant": "A test checks a few points; linearity, factorisation and the sum rule are identities over the whole parameter space.", "anchors": ["flavio/physics/higgs/signalstrength.py:higgs_signalstrength", "flavio/physics/higgs/decay.py:h_bb", "flavio/physics/higgs/production.py:hv", "flavio/physics/higgs/width.py:Gamma_h"]}
{"id": "C109", "title": "Beta decay: correlation coefficients, Ft values and the neutron lifetime follow from helicity amplitudes", "statement": "For all complex couplings the neutron's a, b, A, B, D are those of the helicity amplitudes, so the decay distribution of polarised neutrons is never negative; a^2+b^2<=1, |b|<=gamma, |A|,|D|,|R|<=1 in every allowed transition and forbidden spin changes raise ValueError; without scalar/tensor couplings the textbook formulas, lambda_AB=lambda and 1+A=B+a, aB=A+A^2 hold; Ft and tau_n never raise for <m_e/E><1 and equal closed formulas; all Ft agree without scalar couplings; Vud drops out of ln2 f_n(1+delta) tau_n (1+3 lambda^2)=2Ft; element symbols and charges are inverse and daughters correct.", "quantifier": "all couplings, nuclei, spins, electron energies, directions, polarisations", "why_tests_cant": "Tests check SM central values; positivity, bounds and identities concern every coupling and direction.", "anchors": ["flavio/physics/betadecays/ft.py:Ft_superallowed", "flavio/physics/betadecays/ft.py:Neutron_corr", "flavio/physics/betadecays/common.py:wc_eff", "flavio/physics/elements.py:symbol", "flavio/physics/edms/common.py:proton_charges"]}
{"id": "C110", "title": "K0 -> l+ l-: K_L/K_S rates", "statement": "For all physical parameters and Wilson coefficients the predictions BR(KL->ll), BR(KS->ll) and BR(KL->emu,mue) are the two-body rate of the real/imaginary parts of the short-distance amplitudes plus the two-photon amplitude (equal flavours only); they are non-negative, vanish at threshold, raise ValueError below it, depend only on differences C-C' (C9 only for unequal flavours), the flavour-violating sum is symmetric and zero in the SM, the short-distance K_L and K_S rates add up to the rate of the complex amplitudes, pure axial interactions are helicity suppressed, and the K_L/K_S split follows the CKM phase convention. BR(KS->emu,mue) is registered but can never be computed (UnboundLocalError).", "quantifier": "every parameter point, CKM matrix, Wilson-coefficient assignment, meson and lepton names", "why_tests_cant": "tests evaluate a few numbers at the default parameters; the identities hold for all inputs and the failing observable is never evaluated by the tests", "anchors": ["flavio/physics/kdecays/kll.py: br_kll, amplitudes_eff, get_wc", "flavio/physics/kdecays/wilsoncoefficients.py: wilsoncoefficients_sm_sl"]}
{"id": "C111", "title": "K -> pi nu nubar: flavour sums and the Grossman-Nir bound", "statement": "For all parameters without a division by zero and all Wilson coefficients, BR(K+->pinunu) and BR(KL->pinunu) are the sums over the nine neutrino-flavour combinations of the squared modulus / squared imaginary part of one amplitude containing the SM (top and charm) for equal flavours only; they are non-negative and satisfy the Grossman-Nir bound; in the SM they are three times one flavour and BR(KL) vanishes without CP violation; only CL+CR matters; flavour-violating coefficients only increase the rates; BR(K+) is invariant under all quark rephasings; the SM charm term, unlike the top term, depends on the renormalization scale through alpha_e.", "quantifier": "every parameter point, CKM matrix and Wilson-coefficient assignment", "why_tests_cant": "tests compare two SM numbers; the bound and the invariances are statements over all new-physics points", "anchors": ["flavio/physics/kdecays/kpinunu.py: kpinunu_amplitude, kappa_nu_tilde, br_kplus_pinunu_summed, br_klong_pinunu_summed"]}
{"id": "C112", "title": "epsilon'/epsilon: isospin, parity, linearity", "statement": "The prediction epsp/eps is the explicit combination of the isospin amplitudes; SM matrix elements obey the exact operator identities for both isospins; the SM amplitude is GF/sqrt2 sum_j <Q_j>(z_j lambda_u - y_j lambda_t), so only penguin coefficients give CP violation in the usual phase convention; new-physics amplitudes depend only on differences between coefficients of parity-conjugate operators (same 32 operators for both isospins) and are real-linear; isospin-2 matrix elements of u and d operators are opposite and Fierz related - except CSRL, whose sign contradicts the Fierz identity; epsp/eps vanishes without phases, is rephasing invariant, raises ValueError at any scale other than 1.3; the SM coefficients interpolate the table exactly.", "quantifier": "every parameter point, CKM matrix, Wilson-coefficient assignment, alpha_s and scale", "why_tests_cant": "tests check one SM number and a few NP coefficients; identities between matrix elements and linearity are universally quantified", "anchors": ["flavio/physics/kdecays/kpipi.py: epsprime, Kpipi_amplitudes_SM, Kpipi_amplitudes_NP, Kpipi_matrixelements_SM, Kpipi_matrixelements_NP", "flavio/physics/kdecays/wilsoncoefficients.py: wilsoncoefficients_sm_fourquark"]}
{"id": "C113", "title": "g1/f1 in Lambda -> p l nu", "statement": "Without new physics the prediction for e and mu is exactly the ratio of the form factors at zero; right-handed currents multiply it by Re(VL-VR)/Re(VL+VR), scalar and tensor coefficients are irrelevant; a vanishing vector form factor is a ZeroDivisionError. The registered observable g1/f1(Lambda->plnu) asks for a non-existent sector and always raises KeyError.", "quantifier": "every Wilson-coefficient instance, parameter values, lepton", "why_tests_cant": "the test only evaluates the electron mode in the SM", "anchors": ["flavio/physics/kdecays/lambdaplnu.py: g1_f1, g1_f1_fct", "flavio/physics/bdecays/wilsoncoefficients.py: get_wceff_fccc_std", "flavio/physics/eft.py: WilsonCoefficients.get_wc"]}
{"id": "C114", "title": "Leptonic decays of vector quarkonium", "statement": "BR(V->l l') of the five vector quarkonia is lifetime times two-body phase space times a sum over helicities: never negative at a physical point whatever the Wilson coefficients, zero above threshold, equal for the two charge assignments of a flavour-violating channel (so the combined observable is exactly twice the single one), quadratic in the flavour-violating coefficients and zero without them; without contributions beyond photon exchange the flavour-conserving one is the van Royen-Weisskopf formula; ratios divide by the e+e- branching ratio.", "quantifier": "all parameter values, Wilson coefficients, mesons, lepton pairs, registered names", "why_tests_cant": "positivity and the charge symmetry hold for all complex coefficients and masses; a test samples points", "anchors": ["flavio/physics/quarkonium/Vll.py:Vll_br", "flavio/physics/quarkonium/Vll.py:getVT_lfv", "flavio/physics/quarkonium/Vll.py:getVT_lfc"]}
{"id": "C115", "title": "Leptonic decays of scalar and pseudoscalar quarkonium", "statement": "BR(P->l l') and BR(S->l l') are the rates of a spin-zero meson with the amplitude (SR P_R + SL P_L): never negative at a physical point; for scalars the two charge assignments agree when the user arguments are exchanged accordingly; for pseudoscalars they agree when only scalar or only vector coefficients are present, and differ in general (also for real couplings); a purely vectorial lepton current gives SL = -SR although the Dirac equation gives SL = SR; the combined e-mu and e-tau observables are never registered, mu-tau is registered three times.", "quantifier": "all parameter values, Wilson coefficients, user arguments, mesons, lepton pairs", "why_tests_cant": "positivity and symmetry hold for all complex coefficients; a test samples points", "anchors": ["flavio/physics/quarkonium/Pll.py:Pll_br", "flavio/physics/quarkonium/Pll.py:getS_lfv", "flavio/physics/quarkonium/Sll.py:Sll_br", "flavio/physics/quarkonium/Sll.py:getS_lfv"]}
{"id": "C116", "title": "Radiative leptonic decays of vector quarkonium", "statement": "The kinematic functions of V->l l' gamma are the integrals of the dilepton spectrum, non-negative and zero at the closing of phase space, except Fhat_P which is 1/12 too small; exchanging the leptons with the flavour indices of the arguments leaves the branching ratio unchanged; the branching ratio is non-negative unless the P-Ptilde interference is positive, where it can become negative inside the physical region; equal lepton masses raise an error; tensor and dipole coefficients do not contribute; the registry covers every meson and pair with distinct names.", "quantifier": "all parameter values, Wilson coefficients, complex user arguments, mesons, lepton pairs", "why_tests_cant": "the integral identities and the positivity of the quadratic form hold for all masses and couplings; a test samples points", "anchors": ["flavio/physics/quarkonium/Vllgamma.py:Vllgamma_br", "flavio/physics/quarkonium/Vllgamma.py:getWC_lfv", "flavio/physics/quarkonium/Vllgamma.py:Fhat_P"]}
{"id": "C117", "title": "Electric dipole moments: CP violation, values and masses", "statement": "The neutron EDM prediction d_n is non-negative, vanishes whenever the dipole coefficients are real and the Weinberg coefficient is zero, reads only the imaginary parts of the six dipole coefficients and CGtilde, and scales with |t| when all coefficients are scaled by a real t; the paramagnetic shifts (omega_YbF, omega_HfF, omega_ThO, d_Tl) are linear in the coefficients, vanish for real ones, and evaluate each system with its own parameters. Each value is given in closed form, with the quark masses the code actually uses (up and down are exchanged in get_m) and the exact error behaviour for unknown EFTs, fermions, systems and massless quarks.", "quantifier": "all parameter values, coefficients, running masses, EFT names, fermion names, systems", "why_tests_cant": "the statement ranges over all complex coefficient values and parameters; a test fixes a few numbers", "anchors": ["flavio/physics/edms/common.py:get_m", "flavio/physics/edms/common.py:edm_f", "flavio/physics/edms/neutronedm.py:nedm", "flavio/physics/edms/paraedm.py:omega_para"]}
{"id": "C118", "title": "mu-e conversion: positivity, symmetries and what enters the rate", "statement": "CR(mu->e, N) for N in Au, Al, Ti equals 4 m_mu^5 (|L|^2+|R|^2)/Gamma_capture with the overlap integrals of that nucleus: it is non-negative, independent of GF, zero without lepton-flavour violation, quadratic in the coefficients, invariant under lepton rephasing, under exchange of the electron chiralities and under isospin exchange (u<->d with p<->n); strange vector and tensor coefficients never enter; only vanishing quark masses raise (ZeroDivisionError).", "quantifier": "all coefficients, parameters and nuclei", "why_tests_cant": "symmetries and closed forms hold for all coefficient values, a test samples one point", "anchors": ["flavio/physics/mudecays/mueconversion.py:CR_mue", "flavio/physics/edms/common.py:proton_charges"]}
{"id": "C119", "title": "Lepton g-2 and neutrino tridents", "statement": "a_e, a_mu, a_tau equal the SM parameter plus m^2 GF/(sqrt2 pi^2) Re C7 evaluated at the scale and EFT of that lepton: SM value without new physics, no effect of imaginary dipoles, additive contributions, sign of Re C7, mass-squared scaling, KeyError for a missing scale. R_trident never raises, is non-negative, is 1 in the SM, at least 1 when only neutrino-flavour-changing couplings are present (1 only if they vanish), symmetric between nu_e and nu_tau, and 0 exactly at L = 1/2 + s2w, R = s2w with no flavour change.", "quantifier": "all coefficients, weak mixing angles, scales", "why_tests_cant": "the zero, the lower bound and the closed form quantify over all complex coefficients", "anchors": ["flavio/physics/mdms/al.py:al", "flavio/physics/neutrinos/trident.py:R_trident"]}
{"id": "C120", "title": "QCD and QED beta functions: signs, flavour dependence, consistency with run_alpha_e", "statement": "For 3, 4 or 5 flavours, positive alpha_s and any alpha_e the QCD beta function is negative (alpha_s decreases with the scale), and the QED one is positive for positive couplings; both equal fixed polynomials in alpha/4pi; mu = 0 raises ZeroDivisionError. run_alpha_e with five flavours is the exact solution of the leading-order QED equation; the QED beta function ignores the number of flavours, so it agrees with run_alpha_e only for five flavours.", "quantifier": "all couplings, scales and flavour numbers", "why_tests_cant": "signs and the differential equation hold for all couplings and scales; a test evaluates a few points", "anchors": ["flavio/physics/running/betafunctions.py:beta_qcd", "flavio/physics/running/betafunctions.py:beta_qed", "flavio/physics/running/running.py:run_alpha_e"]}
{"id": "C121", "title": "Kinetic-scheme masses: MS-bar to kinetic and back", "statement": "Converting an MS-bar quark mass to the kinetic scheme and back at the same coupling and cutoff is the identity up to O(alpha_s^2) at one loop and O(alpha_s^3) at two or more loops, for every positive mass and cutoff; it is the exact identity without loops or without coupling; more than three loops changes nothing; rescaling mass and cutoff together rescales the result.", "quantifier": "all masses, cutoffs, flavour numbers, loop orders, couplings tending to zero", "why_tests_cant": "an asymptotic order statement cannot be established by finitely many numerical checks", "anchors": ["flavio/physics/running/masses.py:mKS2mMS", "flavio/physics/running/masses.py:mMS2mKS"]}
{"id": "C122", "title": "Transverse decay constants: running through thresholds", "statement": "get_f_perp always returns a number, proportional to the input, positive for positive input; without nf_out it is the chain of leading-order factors through the charm, bottom and top thresholds, continuous at the thresholds; nf_out is respected above the corresponding threshold, ignored at or below m_c and at 2 GeV; at exactly 2 GeV the input is returned although the neighbouring values tend to a different limit (jump) unless the 3- and 4-flavour runnings between m_c and 2 GeV compensate.", "quantifier": "all couplings as functions of scale, thresholds, scales, flavour numbers", "why_tests_cant": "continuity and the threshold case split range over all scales", "anchors": ["flavio/physics/running/running.py:get_f_perp", "flavio/physics/running/running.py:_rg_factor_f_perp"]}
{"id": "C123", "title": "Inclusive radiative decays B -> X_q gamma", "statement": "BR(B->Xsgamma), BR(B->Xdgamma) and ACP(B->Xgamma): only the photon cut 1.6 GeV is accepted, every other cut raises ValueError; the branching ratio is unchanged and the asymmetry changes sign under complex conjugation of all coefficients and CKM elements, and the asymmetry vanishes when they are real; exchanging the two chiralities changes neither and they do not interfere; without strong coupling the rate factor is |C7|^2+|C7'|^2; the numerical tables are symmetric (rate) and antisymmetric (asymmetry), so the real/imaginary parts taken discard nothing; the expression is not positive: for realistic couplings some coefficients give arbitrarily negative branching ratios.", "quantifier": "all Wilson coefficients, CKM elements, couplings, parameters, cuts", "why_tests_cant": "holds for all complex coefficient vectors; a finite sample cannot show positivity or its failure", "anchors": ["flavio/physics/bdecays/bxgamma.py:PE0_BR_BXgamma", "flavio/physics/bdecays/bxgamma.py:PE0_ACP_BXgamma", "flavio/physics/bdecays/bxgamma.py:BRBXgamma", "flavio/physics/bdecays/bxgamma.py:ACPBXgamma"]}
{"id": "C124", "title": "Assembly of B->V ll and B->P ll amplitudes with subleading corrections", "statement": "Up to q2=9 the subleading correction to B->V ll is an effective shift, linear in q2, of C7 in the 0 and - vector amplitudes and of C7' in the + amplitude; above 14 a constant shift of C9 per helicity; between (14 included) nothing; spectator scattering enters below 8.9 only; Bs->K*0 gets spectator scattering only; pairs without registered quantities raise KeyError; axial, scalar, tensor amplitudes are never changed. In B->P ll it is a shift of C9 of all amplitudes. The correction ignores CP conjugation (its CKM factor is not conjugated) except in the alternative C7 implementation of B->P, so the moduli of an amplitude and its CP conjugate differ by 4xy(Im xi_t)^2 without any strong phase.", "quantifier": "all coefficients, form factors, parameters, q2, meson names", "why_tests_cant": "amplitudes are functions of q2 and of arbitrary complex coefficients; the region split is over all q2", "anchors": ["flavio/physics/bdecays/bvll/amplitudes.py:helicity_amps", "flavio/physics/bdecays/bvll/amplitudes.py:get_subleading", "flavio/physics/bdecays/bvll/subleading.py:fct_deltaC7C7p_polynomial", "flavio/physics/bdecays/bpll_subleading.py:fct_deltaC9_polynomial", "flavio/physics/bdecays/bpll.py:helicity_amps"]}
{"id": "C125", "title": "Radiative decays B->V gamma", "statement": "For physical inputs the two amplitudes are those of C7 and C7' shifted by the subleading corrections plus spectator scattering, chiralities exchanged in the CP-conjugate mode; |ACP|<=1 and S^2+A_DeltaGamma^2 <= |q/p|^2 (1-ACP^2) for all amplitudes; the branching ratio is tau/2 times the sum of the squared moduli and not negative, the time-integrated one is (1-A y)/(1-y^2) times it; S and A_DeltaGamma vanish without right-handed contributions; ACP vanishes without strong phases from the factorisable part and for CP-conserving inputs; the conversion factor from B->V ll amplitudes contains no CKM factor; the subleading correction is not CP conjugated, giving a spurious asymmetry 4xy(Im xi_t)^2; a forbidden decay raises ValueError; the registered names and the ratio are as they say.", "quantifier": "all amplitudes, coefficients, CKM factors, masses, q/p", "why_tests_cant": "inequalities over all complex amplitudes", "anchors": ["flavio/physics/bdecays/bvgamma.py:amps", "flavio/physics/bdecays/bvgamma.py:ACP", "flavio/physics/bdecays/bvgamma.py:S_A_complex", "flavio/physics/bdecays/bvgamma.py:BR_timeint"]}
{"id": "C126", "title": "Lepton flavour violating B->V l l'", "statement": "BR(B->V l l') is the lifetime times the differential rate integrated from threshold to endpoint; exactly 0 when all coefficients are below 1e-12 in modulus and when the threshold lies above the endpoint; rate and branching ratio are never negative; the rate is proportional to GF^2 alpha^2 |xi_t|^2, independent of the CKM phase; exchanging the leptons equals a sign flip of C9 and C9'; thirty observables with distinct names, none summed over charges.", "quantifier": "all coefficients, form factors, masses, exact integrators", "why_tests_cant": "positivity and integrals over all q2 and coefficients", "anchors": ["flavio/physics/bdecays/bvll/lfv.py:BR_tot", "flavio/physics/bdecays/bvll/lfv.py:bvlilj_obs", "flavio/physics/bdecays/wilsoncoefficients.py:get_wceff_lfv"]}
{"id": "C127", "title": "Inclusive B→X_cℓν: phase space, ratios and the massless limit", "statement": "The four phase-space functions used for B→X_cℓν are, for all allowed masses, the standard closed forms (Källén root and two rapidity logarithms), symmetric under exchange of charm quark and lepton where they should be; they are positive, ordered (gLR<g), strictly decreasing in the lepton mass and go over continuously into the separate zero-mass branch. The branching ratio is a flavour-universal factor times an incoherent sum over neutrino flavours; lepton-flavour ratios do not depend on lifetimes, Vcb, GF or QCD corrections, and in the SM the heavier lepton is always rarer (0<R<1). LFV channels vanish exactly without new physics.", "quantifier": "all charm, lepton and b masses in the kinematic region, all coefficients and parameters", "why_tests_cant": "the functions are 25-term expressions with complex logarithms whose equality to the closed form, monotonicity and limits concern a continuum of masses", "anchors": ["flavio/physics/bdecays/bxlnu.py:g", "flavio/physics/bdecays/bxlnu.py:gLR", "flavio/physics/bdecays/bxlnu.py:gVS", "flavio/physics/bdecays/bxlnu.py:gVSp", "flavio/physics/bdecays/bxlnu.py:BR_tot_leptonflavour"]}
{"id": "C128", "title": "Inclusive B→X_cℓν: the rate is never negative and depends only on relative phases", "statement": "For every set of Wilson coefficients (left/right vector, scalar, tensor) and all allowed masses the predicted B→X_cℓν branching ratio is non-negative and unchanged when all coefficients are multiplied by a common phase.", "quantifier": "all complex Wilson coefficients, all allowed charm and lepton masses", "why_tests_cant": "positivity of a five-dimensional quadratic form whose entries are transcendental functions of two masses cannot be sampled", "anchors": ["flavio/physics/bdecays/bxlnu.py:_BR_BXclnu", "flavio/physics/bdecays/bxlnu.py:gVS", "flavio/physics/bdecays/bxlnu.py:gVSp"]}
{"id": "C129", "title": "Collinear photon corrections to B→Xsℓℓ: renormalisation-scale dependence is consistent, and imaginary parts/thresholds are the right ones", "statement": "A user who evaluates the log-enhanced QED corrections of B→X_sℓℓ relies on (a) the scale dependence of the corrections for the total rate, H_L, H_T and H_A being exactly the one obtained by the shift C9 → C9 + (8/9) log(μ/5 GeV) C2, (b) the interference entries having the imaginary part given by the fitted imaginary-part function, switching on at the charm threshold sh = 4mc²/mb², (c) entries shared by the two sh regions not jumping at sh = 1/2, and (d) requests for the angular observables above sh = 1/2 failing with an error, not a number.", "quantifier": "all dilepton masses sh, all quark and lepton masses, all scales, all complex Wilson coefficients", "why_tests_cant": "a functional identity in a continuous scale parameter over polynomials with ten-digit fitted coefficients; a unit test would fix a handful of scales", "anchors": ["flavio/physics/bdecays/bxll_qed.py:wem", "flavio/physics/bdecays/bxll_qed.py:wem_29_low", "flavio/physics/bdecays/bxll_qed.py:wem_210_HA_low"]}
{"id": "C130", "title": "B→X_qℓℓ rate: tree-level positivity, kinematic limits, parity, normalisation and bins", "statement": "The leading-order B→X_qℓℓ rate is a sum of squared amplitudes (never negative) for all complex Wilson coefficients including primed, scalar and pseudoscalar ones; only relative phases matter; exchanging primed and unprimed coefficients leaves it unchanged; it vanishes outside 4mℓ² ≤ q² ≤ mb²; the differential rate is normalised to the measured semileptonic rate with the documented fudge factors; \"ℓ\" is the e/μ average; binned rates are additive and vanish outside the physical region; the lepton ratios are quotients of binned rates.", "quantifier": "all complex Wilson coefficients, all q², all lepton and quark masses, all bins", "why_tests_cant": "positivity of a ten-parameter Hermitian form at every q² and mass cannot be sampled", "anchors": ["flavio/physics/bdecays/bxll.py:f_ll", "flavio/physics/bdecays/bxll.py:_bxll_dbrdq2", "flavio/physics/bdecays/bxll.py:bxll_br_int_ratio_func"]}
{"id": "C131", "title": "Inclusive forward-backward asymmetry is bounded and can be evaluated throughout the physical region", "statement": "The normalised forward-backward asymmetry of B→X_qℓℓ is bounded by 3/4 (times the fudge factor) for all Wilson coefficients, and can be evaluated for every q² inside the physical region and every bin; numerator and denominator contain the same corrections.", "quantifier": "all Wilson coefficients, all q² in (4mℓ², mb²), all lepton masses", "why_tests_cant": "the bound is a Cauchy–Schwarz inequality over a ten-dimensional complex space; evaluability must hold at every q²", "anchors": ["flavio/physics/bdecays/bxll.py:bxll_afb", "flavio/physics/bdecays/bxll.py:_bxll_afb_num", "flavio/physics/bdecays/bxll.py:tau710"]}
{"id": "C132", "title": "B→X_qℓℓ corrections: four-quark coefficients enter the QED logs as C2 + 4/3 C1, kinetic-energy correction is universal", "statement": "The log-enhanced QED corrections depend on C1 and C2 only through C2 + (4/3) C1, for the rate and for the asymmetry; the 1/mb² correction from the kinetic-energy parameter λ1 multiplies the whole tree-level massless rate by 1 + λ1/(2mb²) (reparametrisation invariance), for all Wilson coefficients.", "quantifier": "all complex Wilson coefficients, all q², all masses and couplings", "why_tests_cant": "identities between Hermitian forms with q²-dependent entries; one numerical point does not reveal a missing interference term", "anchors": ["flavio/physics/bdecays/bxll.py:Phill_logqed", "flavio/physics/bdecays/bxll.py:Phill_pc_mb2"]}
{"id": "C133", "title": "Quark-loop function h(s,m,mu): branches, running, cut", "statement": "flavio.physics.bdecays.matrixelements.h raises ValueError exactly for s = m = 0; otherwise it changes by 8/9 log(mu/mu') when the scale changes, in every branch; its imaginary part is zero below s = 4 m^2 and the two-particle phase space above; its special branches (s = 0, m = 0) are the limits of the general expression, which is continuous at the threshold.", "quantifier": "all s, m, mu (s>0 and m>0 for the limits)", "why_tests_cant": "Limits, thresholds and running are statements about a continuum of arguments; a test samples points and cannot compare a special branch with a limit.", "anchors": ["flavio/physics/bdecays/matrixelements.py:h", "flavio/physics/bdecays/matrixelements.py:h0"]}
{"id": "C134", "title": "Four-quark contributions Y, Yu, delta_C7, delta_C9", "statement": "Y and Yu can be evaluated for every non-zero q2 (ValueError at q2 = 0); a scale change multiplies the one-loop mixing combination of C1..C6 by 8/9 log, Yu is scale independent and vanishes for massless charm; F_87 and SeidelA have no jump at q2 = 0, SeidelA runs with 208/243 log mu and is frozen above 0.999 mb^2; delta_C7 and delta_C9 have charm loops multiplied by 1 - lambda_u/lambda_t and light loops by lambda_u/lambda_t, and delta_C9 raises ValueError exactly at q2 = 0.", "quantifier": "all q2, masses, scales, Wilson coefficients and tabulated two-loop functions", "why_tests_cant": "The relations are identities and limits over all arguments.", "anchors": ["flavio/physics/bdecays/matrixelements.py:Y", "flavio/physics/bdecays/matrixelements.py:Yu", "flavio/physics/bdecays/matrixelements.py:SeidelA", "flavio/physics/bdecays/matrixelements.py:delta_C7", "flavio/physics/bdecays/matrixelements.py:delta_C9"]}
{"id": "C135", "title": "B -> l l gamma", "statement": "The differential branching ratio dBR/dq2(B->llgamma) is zero up to the threshold 4 ml^2 and finite and non-negative in the whole phase space, behaves towards the soft-photon end as the universal soft factor times BR(B->ll), is a density in q2 (rescaling units rescales it), and binned values are its mean over the bin; a common phase of the Wilson coefficients drops out and the weak annihilation term does not depend on C7.", "quantifier": "all q2 and bins, all masses, decay constants, form factor parameters, resonance parameters and complex Wilson coefficients", "why_tests_cant": "Positivity, limits at the end of the phase space and integrals over arbitrary bins are statements about all real arguments.", "anchors": ["flavio/physics/bdecays/bllgamma.py:B10", "flavio/physics/bdecays/bllgamma.py:dG1dsMN", "flavio/physics/bdecays/bllgamma.py:bllg_dbrdq2", "flavio/physics/bdecays/bllgamma.py:bllg_dbrdq2_int_func", "flavio/physics/bdecays/formfactors/b_gamma/bgamma.py"]}
{"id": "C136", "title": "pp -> l l", "statement": "The partonic cross section is the angular integral of the squared helicity amplitudes for every set of contact coefficients, refuses quarks of different charge and is symmetric under exchange of the quark flavours for Hermitian coefficients; the hadronic one sums over all quark-antiquark pairs of the same charge in both protons; the SM part is photon plus Z exchange, the SMEFT part the expansion of the gauge-invariant operators in mass eigenstates. R_13(pp->ll) is one without new physics, non-negative, a quadratic polynomial in a common factor of the coefficients, at least one for scalars and tensors, independent of lepton-flavour violating and right-handed top coefficients; adjacent bins add up and an empty bin raises ZeroDivisionError.", "quantifier": "all parameters, CKM matrices, SMEFT coefficients, luminosities, bins and (exact) integrators", "why_tests_cant": "Sums over flavours and integrals with arbitrary complex coefficients and luminosity functions cannot be enumerated.", "anchors": ["flavio/physics/dileptons/ppll.py:sigma_qqll_partonic", "flavio/physics/dileptons/ppll.py:wceff_qqll_np", "flavio/physics/dileptons/ppll.py:dsigma_dtau_qqll", "flavio/physics/dileptons/ppll.py:R_sigma_qqll_int"]}
{"id": "C137", "title": "pp -> l nu", "statement": "For every bin in the transverse mass the partonic cross section is the angular integral of the squared helicity amplitudes over the part of the sphere with m_T in the bin, summed over neutrinos; the hadronic one contains both charges and all pairs of quarks; the SM part is W exchange with the CKM matrix, the SMEFT part the expansion (or Hermitian conjugate) of the gauge-invariant operators. R_13(pp->lnu) is one without new physics, non-negative, a quadratic polynomial in a common factor of the coefficients, at least one if nothing interferes with the SM, and adjacent bins add up.", "quantifier": "all parameters, CKM matrices, SMEFT coefficients, luminosities, bins and (exact) integrators", "why_tests_cant": "The analytic integration over the transverse mass must be right for all bins and energies and all complex coefficients.", "anchors": ["flavio/physics/dileptons/pplnu.py:dsigma_dtau_qqlnu_partial", "flavio/physics/dileptons/pplnu.py:wceff_qqlnu_np", "flavio/physics/dileptons/pplnu.py:R_sigma_qqlnu_int"]}
{"id": "C138", "title": "Parton distributions and their caches", "statement": "After every history of calls, installations, failed calls and configuration changes get_pdf returns the requested member of the requested set, reports missing sets and members without remembering the failure, and get_parton_lumi returns the luminosity of the configured PDF set at the requested scale and member.", "quantifier": "all histories of operations, all sets, members and scales", "why_tests_cant": "The caches make results depend on the history of the session.", "anchors": ["flavio/physics/dileptons/partondist.py:get_pdf", "flavio/physics/dileptons/partondist.py:get_parton_lumi"]}
{"id": "C139", "title": "W pair production at LEP2: where it is defined, linearity, the Fermi constant and the angular bins", "statement": "R(ee->WW) is defined at exactly the ten tabulated energies and <dR/dtheta>(ee->WW) at exactly the four tabulated energies in the ten bins of width 0.2 in the cosine; anything else raises ValueError, and no energy is accepted by both. Without new physics R is exactly 1. Both are a constant plus a linear function of the real parts of eight Warsaw coefficients at the configured scale; phil3_22 and ll_1221 enter only in the combination phil3_22 - ll_1221/2 (up to the rounding of the tables); the effect of phie_11 is the same in mirrored bins; the distribution in the SM rises from bin to bin. The summed distribution agrees with the total rate: this is false of the code (phiWB, a factor five), and the distribution is not normalised to the SM as described.", "quantifier": "every energy, every pair of bin edges, every value of the eight complex coefficients", "why_tests_cant": "The unit tests check the SM value, one value of each coefficient and a tolerance of 0.25 that hides a factor of five; the claims are for all coefficients, all energies and all bin edges, including those that must be refused.", "anchors": ["flavio/physics/scattering/ee_ww.py:ee_WW", "flavio/physics/scattering/ee_ww.py:ee_WW_diff", "flavio/physics/scattering/ee_ww.py:ee_WW_obs"]}
{"id": "C140", "title": "QCD factorisation corrections to B -> V l l: additivity, linearity, helicities and unitarity", "statement": "The QCDF corrections are the sum of the weak annihilation, chromomagnetic and four-quark contributions that are switched on (ValueError if none is), and each is linear in the Wilson coefficients. They affect only the vector amplitudes of negative and zero helicity, and only the combination of CKM elements xi_u/xi_t enters; with C1, C2 only they vanish for degenerate up-type loops weighted by unitarity. The transverse chromomagnetic part is the same for charged and neutral mesons, annihilation of neutral modes needs penguin coefficients, and without the up-quark term decay and conjugate decay agree. The distribution amplitude is normalised for all Gegenbauer moments. q2 = 0 and the end point raise ZeroDivisionError. The functions are defined for the rho and omega branches they contain, and the q2 = 0 branch is the limit of the generic one: both are false of the code.", "quantifier": "all parameters, Wilson coefficients, dilepton masses, scales, quadrature rules and switches, for the four decays B0 -> K*0, B+ -> K*+, Bs -> phi, Bs -> K*0", "why_tests_cant": "The tests compare a few numbers at fixed kinematics; additivity, linearity and the limits concern all inputs.", "anchors": ["flavio/physics/bdecays/bvll/qcdf.py:T_perp", "flavio/physics/bdecays/bvll/qcdf.py:T_para", "flavio/physics/bdecays/bvll/qcdf.py:helicity_amps_qcdf", "flavio/physics/bdecays/bvll/nonfactorizable.py"]}
{"id": "C141", "title": "Interpolated QCDF corrections: range, round trip and consistency with the calculation", "statement": "The interpolated spectator scattering amplitudes are defined exactly for 1e-6 <= q2 <= 8.900001 GeV2 (ValueError outside), and the rate of B -> V l l never asks for a value outside. At the nodes they reproduce the amplitudes the data were written from, between the nodes they are linear in q2 times the transverse and sqrt(q2) times the longitudinal amplitude, and for all q2 the contribution 'all' is the sum of 'WA', 'O8' and 'QSS' and has no positive helicity part. They are available for every registered decay and for the documented range 0 to 9 GeV2: both are false of the code.", "quantifier": "all data files, amplitudes, dilepton masses, decays, contributions and both CP parities", "why_tests_cant": "The tests compare interpolated with exact values at one q2; the range and the behaviour between nodes concern all q2.", "anchors": ["flavio/physics/bdecays/bvll/qcdf_interpolate.py:get_data", "flavio/physics/bdecays/bvll/qcdf_interpolate.py:helicity_amps_qcdf", "flavio/physics/bdecays/bvll/_qcdf_interpolate_write.py", "flavio/physics/bdecays/bvll/nonfactorizable.py:get_ss"]}
{"id": "C142", "title": "Constructing distributions: arguments, errors and attributes", "statement": "A distribution called with keyword arguments raises TypeError for an unknown argument, for a missing required one and for a value that is not a number; an optional argument left out is the same as None. The object carries the documented attributes: the support (range, six standard deviations, or six powers of the factor), the mode of a Gamma distribution, shape N+1, location -b and scale of a counting process with the deduced third count, the truncated midpoint of a discrete uniform distribution, the number of bins of a kernel density estimate, the first and last point of a numerical one.", "quantifier": "all classes, keyword arguments and values", "why_tests_cant": "The tests construct a few objects of each class; the errors and attributes concern all arguments.", "anchors": ["flavio/statistics/probability.py:ProbabilityDistribution", "flavio/statistics/probability.py:GammaCountingProcess", "flavio/statistics/probability.py:KernelDensityEstimate"]}
{"id": "C143", "title": "Registered implementations of auxiliary quantities", "statement": "Importing the library registers every auxiliary quantity and implementation without error and without overwriting; every implementation belongs to a registered quantity; implementations of form factors are named after the process they compute, and the number in the name is the number of series coefficients; the default configuration names, for every quantity, a registered implementation of that quantity; setting the configuration entry of a quantity selects exactly that implementation and leaves the other quantities alone; every registered series implementation returns a value for all physical parameters. (Exceptions decided exactly: SSE3 of Lambdab->Lambda, the default, uses two coefficients; two quantities have no default and always raise; five implementations raise KeyError for all inputs.)", "quantifier": "all registered implementations and quantities, configurations, parameter values and q2", "why_tests_cant": "statements about every implementation of the library for all parameter values and q2, including the ones no test evaluates", "anchors": ["flavio/physics/bdecays/formfactors/b_p/btop.py:ff_function", "flavio/physics/bdecays/formfactors/b_v/btov.py:ff_function", "flavio/physics/bdecays/formfactors/lambdab_12/lambdab.py", "flavio/physics/ddecays/formfactors/__init__.py", "flavio/classes.py:AuxiliaryQuantity,Implementation", "flavio/data/config.yml:implementation", "flavio/physics/bdecays/bvll/nonfactorizable.py"]}
{"id": "C144", "title": "Unit constants form one consistent system of natural units", "statement": "Converting any SI quantity with the constants of flavio.physics.units gives its value in natural units with c = 1 and hbar = 1: a length x*meter and a time t*s are equal exactly when light travels x metres in t seconds, an energy E*J equals hbar times an angular frequency w/s exactly when E = hbar w in SI, E*J equals V*eV exactly when E joule are V electronvolt, prefixed units are the decimal multiples their names say, and Planck's relation E = h nu holds with the constant h.", "quantifier": "all real SI values and all integer powers of joule, metre and second", "why_tests_cant": "A test checks single conversions; the consistency must hold for every value and every combination of units.", "anchors": ["flavio/physics/units.py:J", "flavio/physics/units.py:s", "flavio/physics/units.py:meter", "flavio/physics/units.py:h"]}
{"id": "C145", "title": "Theory plots show the predictions over the requested range", "statement": "diff_plot_th and diff_plot_th_err draw a curve from x_min to x_max in equidistant steps whose values are scale_factor times the central prediction (SM without, NP with Wilson coefficients), with a band of plus/minus the uncertainty; bin_plot_th draws one box per different bin spanning the bin and central value ± uncertainty (divided by the bin width on request), labelling only the first; keyword arguments are handed on, defaults are used only if the user gave none, the caller's dictionaries are left alone, and observables with the wrong number of arguments are rejected.", "quantifier": "all ranges, numbers of steps, observables, Wilson coefficients, bins, scale factors and keyword arguments", "why_tests_cant": "The points and boxes must be right for every range, step count, list of bins and argument dictionary, not for the few a test draws.", "anchors": ["flavio/plots/plotfunctions.py:diff_plot_th", "flavio/plots/plotfunctions.py:diff_plot_th_err", "flavio/plots/plotfunctions.py:bin_plot_th"]}
{"id": "C146", "title": "Density contours enclose the asked-for content; contour levels and grids are consistent", "statement": "density_contour(_data) draws, for each number of standard deviations in ascending order, the contour whose inside is the set of grid points with density above the level containing the corresponding confidence level, on a chi2 scale with minimum 0 at the mode; contour fills every point below the highest level with one strictly decreasing positive opacity per level; the scales given to likelihood_contour and the shape of the values given to band_plot are respected.", "quantifier": "all densities, numbers of standard deviations, sample sizes, levels, grid values and scales", "why_tests_cant": "Levels, opacities and regions must be right for every density and any list of levels; tests look at one picture.", "anchors": ["flavio/plots/plotfunctions.py:density_contour_data", "flavio/plots/plotfunctions.py:contour", "flavio/plots/plotfunctions.py:likelihood_contour", "flavio/plots/plotfunctions.py:band_plot"]}
{"id": "C147", "title": "Experimental points and one-dimensional curves are drawn as given", "statement": "diff_plot_exp draws exactly the wanted points of the included measurements, scaled, in the colour of their experiment, and labels each experiment once; it returns the values and positions of all points drawn. likelihood_plot, pvalue_plot and pdf_plot draw the given curve (or the density on equidistant points of the range, normalised to its maximum on request), fill exactly the region inside the given boundaries, and let the user's style arguments take precedence.", "quantifier": "all lists of measurements, filters, scale factors, colour assignments, curves, boundaries and style arguments", "why_tests_cant": "The selection, the legend and the filled region must be right for every set of measurements and every curve.", "anchors": ["flavio/plots/plotfunctions.py:diff_plot_exp", "flavio/plots/plotfunctions.py:likelihood_plot", "flavio/plots/plotfunctions.py:pvalue_plot", "flavio/plots/plotfunctions.py:pdf_plot", "flavio/plots/plotfunctions.py:flavio_box"]}
{"id": "C148", "title": "Form-factor parameters read from files get exactly the file's central values and covariance, under the right names", "statement": "Loading the form-factor parameters of a transition (BSZ files for B->P and B->V, lattice files for B->V and Lambda_b->Lambda, BCL, LMVD and EOS files) makes every independent coefficient of the file a registered parameter (EOS files excepted) that is a component of one multivariate normal distribution whose central values and covariance are those of the file; the coefficients fixed by kinematic relations get no distribution; the names are converted as documented; resonance masses get the tabulated values for exactly the transitions that were asked for; no other parameter is changed. A load that fails reports an error; for lattice (B->V), BCL, LMVD and EOS files nothing has then changed.", "quantifier": "all file contents (central values, uncertainties, correlations, missing entries), all states of the parameter constraints, all lists of transitions", "why_tests_cant": "Tests load the shipped files; the claim is about every file content, order of entries, missing entry and prior state of the constraints.", "anchors": ["flavio/physics/bdecays/formfactors/b_p/bsz_parameters.py", "flavio/physics/bdecays/formfactors/b_v/bsz_parameters.py", "flavio/physics/bdecays/formfactors/b_v/lattice_parameters.py", "flavio/physics/bdecays/formfactors/lambdab_12/lattice_parameters.py", "flavio/physics/bdecays/formfactors/b_p/bcl_parameters.py", "flavio/physics/bdecays/formfactors/b_p/bcl_parameters_lmvd.py"]}
{"id": "C149", "title": "Multivariate numerical distributions are normalised tables with piecewise linear log-PDF", "statement": "MultivariateNumericalDistribution(xi, y[, central_value]) accepts ascending equidistant axes with a table of matching shape (a pair of numbers stands for equidistant points), refuses an axis whose steps differ by more than a per mille, and represents the table normalised so that the sum of the PDF times the bin volume is one; logpdf is the logarithm of the normalised value at grid points (-1e100 where it is zero), multilinear between neighbouring grid points (within the values at the corners of the cell), and -inf outside; the central value is the one given, else the first grid point with the largest value (and then there is no support). reduce_dimension(exclude) and logpdf(x, exclude) remove the given dimensions by taking the maximum of the PDF over them (profile), for every exclude.", "quantifier": "every grid of any dimension, every table with non-negative values not all zero, every point, every set of excluded dimensions", "why_tests_cant": "Normalisation, interpolation and profiling must be right for arbitrary dimension, shape, table and point; tests use a two- or three-dimensional example with a few points.", "anchors": ["flavio/statistics/probability.py:MultivariateNumericalDistribution.__init__", "flavio/statistics/probability.py:MultivariateNumericalDistribution.logpdf", "flavio/statistics/probability.py:MultivariateNumericalDistribution.reduce_dimension"]}
{"id": "C150", "title": "Random numbers of a multivariate numerical distribution are drawn near grid points according to the table", "statement": "get_random of a multivariate numerical distribution returns a point that lies within half a step, in every coordinate, of a grid point; the grid point is one whose PDF value is that selected by the cumulative sum for a uniform random number; points with zero PDF are not drawn, and each grid point is drawn with its weight.", "quantifier": "every grid, table, and every value of the uniform random numbers", "why_tests_cant": "A sampling test compares a few moments with a tolerance; it cannot see which points are selected for every value of the random number, in particular in regions of zero density.", "anchors": ["flavio/statistics/probability.py:MultivariateNumericalDistribution.get_random", "flavio/statistics/probability.py:MultivariateNumericalDistribution._get_random"]}
{"id": "C151", "title": "Combining multivariate distributions multiplies the PDFs on the intersection of the supports", "statement": "combine_distributions of multivariate distributions: one distribution is returned unchanged, normal ones only give the weighted normal distribution, otherwise the (combined) normal one is converted to a grid of 100 points per axis within six standard deviations and combined with the numerical ones: on 200 equidistant points per axis of the intersection of all supports the log-PDF is the sum of the log-PDFs plus a constant; supports that do not overlap are refused. Combining in steps gives the same as combining at once.", "quantifier": "every number of distributions, dimension, table, support", "why_tests_cant": "The grid, the product and the refusal must be right for arbitrary numbers of distributions, dimensions and supports, and for results of earlier combinations.", "anchors": ["flavio/statistics/probability.py:combine_distributions", "flavio/statistics/probability.py:_combine_distributions_multivariate", "flavio/statistics/probability.py:_combine_multivariate_numerical", "flavio/statistics/probability.py:MultivariateNumericalDistribution.from_pd"]}
{"id": "C152", "title": "Convolving a multivariate numerical with a normal distribution gives the discretised convolution on a grid covering it", "statement": "convolve_distributions of a multivariate normal and a multivariate numerical distribution gives a normalised numerical distribution: on at least 200 equidistant points per axis, reaching six standard deviations of the normal distribution beyond the axes of the numerical one, the value at a grid point is proportional to the sum over the grid points of the numerical PDF times the centred normal PDF at the difference of the points; with central_values='sum' the axes are displaced by the central value of the normal distribution.", "quantifier": "every dimension, numerical distribution, covariance and central values", "why_tests_cant": "Where the grid lies and which differences enter the sum depends on all inputs; tests check a symmetric example.", "anchors": ["flavio/statistics/probability.py:_convolve_multivariate_gaussian_numerical"]}
{"id": "C153", "title": "Memoised functions behave like the functions themselves", "statement": "Calling one of flavio's cached functions gives the same value, or the same exception, as computing it anew, whatever was called before; the cache holds exactly the maxsize most recently used argument lists; a result is recomputed only when at least maxsize other argument lists were used since; exceptions are not remembered; results for different arguments never share memory.", "quantifier": "all functions, cache sizes (including 0 and None), and histories of calls and in-place modifications", "why_tests_cant": "The value depends on the whole history of calls, evictions and modifications of earlier results", "anchors": ["flavio/physics/ckm.py:ckm_tree", "flavio/physics/bdecays/matrixelements.py:F_17", "flavio/physics/running/running.py:run_alpha_e", "flavio/statistics/functions.py:confidence_level"]}
{"id": "C154", "title": "Theory citations do not depend on what was computed before", "statement": "Observable.theory_citations returns all the papers the prediction rests on, whatever was computed before in the same process, and no others.", "quantifier": "all predictions made of memoised calls and direct registrations, all reachable cache states", "why_tests_cant": "Depends on the state of the caches, i.e. on every prediction made earlier in the process", "anchors": ["flavio/classes.py:Observable.theory_citations", "flavio/physics/bdecays/matrixelements.py:F_17", "flavio/physics/bdecays/matrixelements.py:SeidelA", "flavio/physics/bdecays/matrixelements.py:delta_C7"]}
{"id": "C155", "title": "Running couplings and quark masses use the right parameter, scale and number of flavours", "statement": "get_mq and its relatives run the quark's own mass parameter to the asked scale with the requested or the active number of flavours, depend on nothing but that mass and alpha_s, and raise KeyError for anything that is not u, d, s, c, b; get_alpha gives both couplings with the same number of flavours; pole, kinetic and 1S masses use alpha_s at the scale of the mass with the number of flavours the conversion is made for.", "quantifier": "all thresholds, scales, parameter values, flavour requests, and external running functions", "why_tests_cant": "Holds for every scale on both sides of every threshold, and for every parameter value drawn in an uncertainty estimate", "anchors": ["flavio/physics/running/running.py:get_mq", "flavio/physics/running/running.py:get_alpha", "flavio/physics/running/running.py:get_mc_pole", "flavio/physics/running/running.py:get_mb_pole", "flavio/physics/running/running.py:get_mt_mt"]}
{"id": "C156", "title": "Predictions with one Wilson object do not depend on earlier predictions", "statement": "np_prediction called with a wilson.Wilson object and CKM parameters p is based on the Wilson coefficients computed with the CKM parameters p, whatever predictions (with whatever parameters) and direct match_run calls were made with the same object before.", "quantifier": "all Wilson objects, all finite histories of predictions and direct match_run calls with one object, all parameter points and requested (scale, EFT, basis, sectors) tuples", "why_tests_cant": "A test checks a few histories; a stale cache shows only after a specific order of predictions with different parameters, and depends on whether the two objects share their option and cache containers.", "anchors": ["flavio/physics/eft.py:WilsonCoefficients.from_wilson", "flavio/classes.py:Prediction.get_par", "flavio/functions.py:np_prediction"]}
{"id": "C157", "title": "get_dependent_wcs is exact and sound", "statement": "get_dependent_wcs returns exactly the (scale, EFT, basis, sectors) arguments of the match_run calls made by the NP prediction; two Wilson coefficient objects with non-zero values whose running results agree on these arguments give the same prediction, and an empty result means that the prediction is the same for all objects including the SM.", "quantifier": "all prediction functions (including adaptive ones), all results of running and matching, all pairs of Wilson coefficient objects", "why_tests_cant": "Quantifies over all prediction programs, all Wilson coefficient values and all behaviours of the running package.", "anchors": ["flavio/functions.py:get_dependent_wcs", "flavio/functions.py:AwareWilson", "flavio/physics/eft.py:WilsonCoefficients.get_wc"]}
{"id": "C158", "title": "Likelihoods survive export to and import from YAML", "statement": "For MeasurementLikelihood, ParameterLikelihood, Likelihood and FastLikelihood, load(dump()) gives an object with the same observables, parameters and selected measurements, and the same likelihood function; files in any accepted notation of observables are imported as written; malformed files are rejected.", "quantifier": "all likelihood objects, all registries of observables and measurements, all combinations of present, missing, null and empty keys", "why_tests_cant": "All combinations of optional keys, observables and registries; a test checks one file.", "anchors": ["flavio/io/instanceio.py:YAMLLoadable.get_yaml_dict", "flavio/io/instanceio.py:YAMLLoadable.load_dict", "flavio/statistics/likelihood.py:MeasurementLikelihood", "flavio/statistics/likelihood.py:ParameterLikelihood", "flavio/statistics/likelihood.py:Likelihood", "flavio/statistics/likelihood.py:FastLikelihood"]}
{"id": "C159", "title": "Joint density plots draw into the given axes", "statement": "density_contour_joint draws the 2D contours into ax_2d, the histogram of x into ax_x and the flipped histogram of y into ax_y, making new axes for those not given, and returns these axes; any number of distributions can be overlaid by passing the returned axes on.", "quantifier": "all histories of plots, all data, all choices of given axes and of the current axes", "why_tests_cant": "Which axes are drawn into depends on the global state left by any earlier plotting commands.", "anchors": ["flavio/plots/plotfunctions.py:density_contour_joint"]}
{"id": "C160", "title": "Without new physics, predictions are those of the Standard Model", "statement": "np_prediction with an object without Wilson coefficients, or with only vanishing ones, returns the same value (or raises the same exception) as sm_prediction.", "quantifier": "all prediction functions, all Wilson coefficient objects without non-zero value, all behaviours of the running package (for functions using get_wcxf: those that map zero to zero)", "why_tests_cant": "Quantifies over all prediction programs and all behaviours of the running package.", "anchors": ["flavio/functions.py:sm_prediction", "flavio/functions.py:np_prediction", "flavio/physics/eft.py:WilsonCoefficients.get_wc", "flavio/physics/eft.py:WilsonCoefficients.get_wcxf"]}
{"id": "C161", "title": "Every leptonic mode of quarkonium and Bq mesons is registered under its own name", "statement": "After import, for every meson of the tables and every pair of lepton flavours there are observables BR(M->l1l2) and BR(M->l1l2,l2l1) (and ratios and radiative modes for vectors), and the prediction found under each name is that of the meson and leptons in the name, the combined ones being the sum over both charge combinations.", "quantifier": "all tables of mesons (names without arrow), all mesons in them, all pairs of leptons, all values of the branching ratios", "why_tests_cant": "Quantifies over all meson tables and over all values of the underlying branching ratio functions; a missing or misassigned registration only shows for the particular name.", "anchors": ["flavio/physics/quarkonium/Vll.py:_define_obs_V_ll", "flavio/physics/quarkonium/Vllgamma.py:_define_obs_V_ll_gamma", "flavio/physics/quarkonium/Pll.py:_define_obs_P_ll", "flavio/physics/quarkonium/Sll.py:_define_obs_S_ll", "flavio/physics/bdecays/bll.py:bqll_obs_function_lsum"]}
{"id": "C162", "title": "Fast numerical integration respects order, linearity and orientation", "statement": "nintegrate_fast (with the default number of points) returns a weighted mean of the integrand with positive weights times the length of the interval: it is linear and monotone in the integrand, never leaves the range of the integrand (no overshooting of the spline), changes sign with the orientation, is exact for affine integrands and has the trapezoidal error for cubics; nintegrate_complex is the complex integral.", "quantifier": "all integrands, all intervals, all spline coefficients", "why_tests_cant": "Quantifies over all integrands and all intervals.", "anchors": ["flavio/math/integrate.py:nintegrate_fast", "flavio/math/integrate.py:nintegrate_complex"]}
{"id": "C163", "title": "RG evolution of Wilson coefficients is one linear map", "statement": "get_wilson, with the derivative of make_wilson_rge_derivative(adm) and an exact solver, returns U c for a complex-linear map U that depends on the couplings, the scales and the flavour numbers but not on the initial coefficients c, across any number of quark thresholds in either direction; so results superpose, zero stays zero, nothing happens between equal scales, and a combination of coefficients annihilated by the anomalous dimension matrix is the same at both scales.", "quantifier": "every continuous anomalous dimension matrix of every size, every exact solver, every vector of coefficients, every pair of positive scales and nf_out, every thresholds, as long as the couplings themselves can be run", "why_tests_cant": "the statement is about solutions of a differential equation for all initial values, and needs uniqueness of solutions; a test compares a few numbers", "anchors": ["flavio/physics/running/running.py:make_wilson_rge_derivative", "flavio/physics/running/running.py:get_wilson", "flavio/physics/running/running.py:rg_evolve_sm"]}
{"id": "C164", "title": "Measurement files survive writing and reading", "statement": "After write_file(filename, measurements) (instances or names), read_file(filename) returns the names in order and registers measurements with the same attributes and the same constraints on the same observables, leaving all other measurements alone; an unknown name or an unreadable file changes nothing.", "quantifier": "every list of measurements with distinct names, every registry at the time of writing and of reading, every history of constraints and attributes", "why_tests_cant": "all registries, histories and attribute values; a test reads back two measurements", "anchors": ["flavio/measurements.py:write_file", "flavio/measurements.py:read_file", "flavio/measurements.py:_load_new", "flavio/classes.py:Constraints.get_yaml_dict", "flavio/classes.py:Constraints.from_yaml_dict"]}
{"id": "C165", "title": "Predictions do not depend on the unit of energy", "statement": "If every dimensionful input is expressed in another unit of energy (masses, decay constants and q2 multiplied by the appropriate power of the conversion factor, lifetimes, the Fermi constant and dimensionful Wilson coefficients divided by it), branching ratios, ratios, asymmetries and mixing phases do not change; widths, mass differences and mixing amplitudes scale as energies, lifetimes as inverse energies, differential rates in q2 as inverse squared energies, and their integrals over a bin not at all; the same exceptions are raised", "quantifier": "every conversion factor x > 0, all parameter values, Wilson coefficients, form factors, mesons, leptons and q2 > 0, for the leptonic decays of charged mesons, the two- and three-body lepton decays, tau to l nu nu and the effective Fermi constant, B to l l, K to l l, V, P and S to l l of quarkonium, the angular coefficients of B to P l l, B to V l l, Lambda_b to Lambda l l and Lambda_b to Lambda(1520) l l (with both sets of form factors of the latter), B to P nu nu and B to V nu nu, the semileptonic decays including K to pi l nu, the couplings, widths and asymmetries of the Z and W, the mixing of B0, Bs and K0, the beta decays (Ft values, correlation coefficients and the neutron lifetime), electric and magnetic dipole moments and mu to e conversion in nuclei, and the quark loops and QCD factorisation amplitudes of B to V l l", "why_tests_cant": "tests fix the unit (GeV) and one parameter point; a wrong power of a mass shows up only as a different number", "anchors": ["flavio/physics/bdecays/blnu.py:br_plnu_general", "flavio/physics/bdecays/bll.py:br_inst", "flavio/physics/bdecays/angular.py:angularcoeffs_general_v", "flavio/physics/taudecays/common.py:GammaFvf", "flavio/physics/taudecays/tau3l.py:BR_taul1l2l3", "flavio/physics/quarkonium/Vll.py:Vll_br", "flavio/physics/mesonmixing/amplitude.py:M12", "flavio/physics/bdecays/bplnu.py:dBRdq2", "flavio/physics/taudecays/taulnunu.py:BR_taulnunu", "flavio/physics/kdecays/kpilnu.py:dBRdq2", "flavio/physics/kdecays/kll.py:br_kll", "flavio/physics/wdecays/gammaw.py:GammaW", "flavio/physics/zdecays/smeftew.py:d_gV", "flavio/physics/quarkonium/Pll.py:Pll_br", "flavio/physics/bdecays/lambdablambdall.py:angular_coefficients", "flavio/physics/bdecays/bpnunu.py:bpnunu_dbrdq2_summed", "flavio/physics/bdecays/bvnunu.py:bvnunu_dbrdq2_summed", "flavio/physics/bdecays/lambdablambda1520ll.py:transversity_amps", "flavio/physics/betadecays/ft.py:Ft_superallowed", "flavio/physics/bdecays/matrixelements.py:h", "flavio/physics/bdecays/bvll/qcdf.py:transversity_amps_qcdf", "flavio/physics/mudecays/mueconversion.py:CR_mue"]}
{"id": "C166", "title": "Radiative corrections of K -> l nu and pi -> l nu", "statement": "The correction delta_Plnu(par, P, lep) used by BR(K+->lnu), BR(pi+->lnu) and their ratios depends on the masses only through their ratios (not on the unit of energy), exists for the electron and the muon only (any other lepton is an UnboundLocalError), and as the lepton mass goes to zero has exactly one mass logarithm, with coefficient alpha/pi (3 - 2 c2t mP^2/mrho^2), and a finite rest in which c3 and c4 do not appear. The one-loop function F(z) tends to 3/2 log z + 13/8 - pi^2/3 as z -> 0 (the value of Marciano and Sirlin), is continuous for 0 < z < 1, and its poles at z = 1 cancel: it tends to -3/4 there. The constant c1 drops out of the difference of the corrections for two leptons.", "quantifier": "all masses, all constants c1, c2, c3, c4, c2t, all mesons and leptons; limits in the lepton mass", "why_tests_cant": "F has a logarithmic singularity at z=0, cancelling poles at z=1 and a dilogarithm; tests evaluate it at four physical masses and cannot see a wrong limit or a unit dependence", "anchors": ["flavio/physics/kdecays/klnu.py:delta_Plnu", "flavio/physics/kdecays/klnu.py:F", "flavio/math/functions.py:li2"]}
{"id": "C167", "title": "Lightening and darkening a colour", "statement": "lighten_color(color, amount) multiplies the distance of the lightness from 1 by amount and darken_color multiplies the lightness by amount, keeping hue and saturation: every channel keeps its place relative to the lightness in units of the room there is at that lightness. Hence for every colour: amount 1 changes nothing; amount 0 gives white, respectively black; an amount between 0 and 1 gives a proper colour with channels between 0 and 1; applying the function twice multiplies the amounts; for colours at least half light lightening is mixing with white, and for colours at most half light darkening multiplies every channel; darkening is lightening of the complementary colour.", "quantifier": "all colours (three channels between 0 and 1, in every order, grey included), all amounts", "why_tests_cant": "the conversion to hue, lightness and saturation branches on which channel is largest, on the lightness and on the hue: a test covers a few colours", "anchors": ["flavio/plots/colors.py:lighten_color", "flavio/plots/colors.py:darken_color"]}
{"id": "C168", "title": "Collinear photon logarithms cancel in the total B -> Xq l l rate", "statement": "Integrated over the whole phase space 0 < q2/mb^2 < 1, the log-enhanced QED correction to the B -> Xq l l rate does not depend on the lepton mass for the vector and axial-vector coefficients C9, C10 nor for the interference of C7 with C9: photons collinear with a lepton only move events in q2 (Kinoshita, Lee, Nauenberg). Only |C7|^2 keeps a dependence, from the photon pole, with the exact coefficient 8 alpha/pi (5/4 - pi^2/3) log(mb^2/ml^2). Hence without the dipole and four-quark operators the total correction is the same for electrons and muons. The renormalisation-scale dependence of the interference of the four-quark operator with C9 (real part) and with C7 cancels in the total as well.", "quantifier": "all masses, couplings, scales and complex Wilson coefficients; the integral over the whole phase space", "why_tests_cant": "the cancellation is between the low- and the high-q2 region and involves logarithms and poles at both ends; a test evaluates bins", "anchors": ["flavio/physics/bdecays/bxll_qed.py:wem_99_low", "flavio/physics/bdecays/bxll_qed.py:wem_79_low", "flavio/physics/bdecays/bxll_qed.py:wem_77_low", "flavio/physics/bdecays/bxll_qed.py:wem", "flavio/physics/bdecays/bxll.py:Phill_logqed"]}
{"id": "C169", "title": "The QCD corrections to B→Xq ll are regular at the end of the phase space", "statement": "The functions tau77, tau99, tau79, tau710, tau910 that bxll.py multiplies the squares and interferences of the Wilson coefficients with are written with poles at s = 1, where the leptons take all the energy. The poles cancel: as s tends to 1 from below the corrections to the rate vanish, and f7, f9 and the corrections to the asymmetry stay finite.", "quantifier": "every s in a left neighbourhood of 1 (limits)", "why_tests_cant": "near s = 1 the functions are differences of huge floating-point numbers, so no test value distinguishes a residual pole from rounding; a limit is a statement about all s", "anchors": ["flavio/physics/bdecays/bxll.py: tau77, tau99, tau79, tau710, tau910, f7, f9 (230-243)"]}
{"id": "C170", "title": "Without CP violation there are no CP asymmetries", "statement": "If the CKM matrix and all Wilson coefficients are real, every observable that measures CP violation vanishes: the sines of the angles of the unitarity triangle, epsilon_K, the flavour-specific asymmetries and phases of meson mixing, the mixing-induced asymmetries of B to psi K and Bs to psi phi, epsilon'/epsilon, K_L to pi0 nu nu, the direct asymmetries of B to X gamma and B to V gamma, all CP asymmetries of B to V l l and B to P l l, the electric dipole moments, the correlations D and R of beta decay, and the triple products J7, J8, J9 of B to V l nu", "quantifier": "every real CKM matrix, all real Wilson coefficients, all values of all other parameters, every meson, both configurations of kaon unitarity, all q2, transitions and nuclei", "why_tests_cant": "tests use the measured CKM matrix, in which everything is complex; a missing or misplaced conjugation changes a number but no test knows which", "anchors": ["flavio/physics/mesonmixing/observables.py:epsK", "flavio/physics/mesonmixing/common.py:a_fs", "flavio/physics/mesonmixing/observables.py:S_BJpsiK", "flavio/physics/kdecays/kpinunu.py:br_klong_pinunu", "flavio/physics/kdecays/kpipi.py:epsprime", "flavio/physics/bdecays/bxgamma.py:ACPBXgamma", "flavio/physics/bdecays/bvgamma.py:ACP", "flavio/physics/bdecays/bvll/observables.py:A_theory", "flavio/physics/edms/neutronedm.py:nedm", "flavio/physics/betadecays/ft.py:D_xi", "flavio/physics/bdecays/bvlnu.py:get_angularcoeff"]}
{"id": "C171", "title": "Lepton-flavour-violating rates are quadratic in lepton-flavour-violating couplings", "statement": "Decay rates into final states that violate lepton flavour (B0/Bs/KL/KS -> l l', tau -> 3l, mu -> 3e, l -> l' gamma, tau -> l pi0/K0/V, mu -> e conversion, vector (with and without a photon) and spin-zero quarkonia -> l l', Z -> f f') contain no Standard Model part: multiplying all coefficients of the sector by a real number multiplies the prediction by its square (and leaves errors as they are), so that they vanish exactly without such couplings. For B -> P l l' and B -> V l l' the prediction is exactly zero when the couplings are. The width of Z -> f f' vanishes with the couplings between the two generations, whatever the flavour-diagonal ones are.", "quantifier": "every value of the parameters and coefficients, every real factor, every pair of different leptons (or fermions), every numerical integrator", "why_tests_cant": "tests compare single numbers for single new-physics points; a Standard Model or flavour-diagonal contribution leaking into a flavour-violating mode, or a term linear in the couplings, shows only when the whole coefficient space is quantified over", "anchors": ["flavio/physics/bdecays/bll.py:br_inst,bqll_obs,bqll_obs_lsum", "flavio/physics/kdecays/kll.py:br_kll,get_wc", "flavio/physics/bdecays/bvll/lfv.py:BR_tot_function", "flavio/physics/bdecays/bpll_lfv.py", "flavio/physics/taudecays/tau3l.py", "flavio/physics/mudecays/mu3e.py", "flavio/physics/taudecays/taulgamma.py", "flavio/physics/taudecays/taupl.py", "flavio/physics/taudecays/tauvl.py", "flavio/physics/mudecays/mueconversion.py:CR_mue", "flavio/physics/quarkonium/Vll.py", "flavio/physics/quarkonium/Pll.py", "flavio/physics/quarkonium/Sll.py", "flavio/physics/zdecays/gammaz.py"]}
