{
 "C06": {
  "status": "partial",
  "note": "False of the code: an object shared by two parameters contributes once (C06_sharing_is_not_safe). The partial theorem covers histories without sharing."
 },
 "C08": {
  "status": "partial",
  "note": "False of the code after remove_constraint without re-adding (witness C08_removed_constraint_comes_back; exact behaviour in C08_reload_forgets_removals). Relies on the distribution data round trip (C38)."
 },
 "C12": {
  "status": "proved",
  "note": "Under the hypothesis that the errors of all distributions ever added can be evaluated; C12_stale_constraint_raises shows it is needed."
 },
 "C13": {
  "status": "proved",
  "note": "Hypothesis: NamedInstanceClass itself is never used directly; C13_base_instance_breaks_isolation shows it is needed."
 },
 "C15": {
  "status": "partial",
  "note": "False for Implementation (witness); holds for Prediction and for all other entries."
 },
 "C16": {
  "status": "partial",
  "note": "False for quantities with several implementations (witness); exact behaviour proved."
 },
 "C17": {
  "status": "partial",
  "note": "Proved when the new name is not among the components; witness shows that it fails otherwise."
 },
 "C18": {
  "status": "proved",
  "note": "Python's aliasing of a dictionary input with the returned dictionary is not modelled."
 },
 "C24": {
  "status": "partial",
  "note": "The claim is false as stated: witnesses C24_empty_list, C24_dict_returned, C24_error_dropped. Proved for all strings: failures are ValueErrors, a list has one central value and is empty only for plus-minus strings with no recognised error, a dict only comes from a unicode-minus number. Float overflow of 10**x not modelled."
 },
 "C27": {
  "status": "partial",
  "note": "Proved for a number, for upper triangles with an entry above numpy's tolerance and for full matrices; the claim is false for upper triangles whose entries are all below numpy's allclose tolerance (C27_tiny_entries_not_symmetrised) and rows mixing both styles are doubled (C27_mixed_rows_doubled)."
 },
 "C34": {
  "status": "partial",
  "note": "Proved except: LogNormalDistribution with a negative central value has a reversed/wrong support (C34_lognormal_negative_support) and DiscreteUniformDistribution with central value 0 is not range-checked (C34_discrete_zero_not_checked)."
 },
 "C30": {
  "status": "partial",
  "note": "Neutral when at least two non-delta distributions, one normal, or only deltas are given; with one non-normal distribution the result is its numerical tabulation, not the distribution (C30_uniform_becomes_numerical)."
 },
 "C31": {
  "status": "partial",
  "note": "Proved for lists with at most one numerical multivariate distribution (univariate lists: the model's return type is a distribution or an exception). False for two or more numerical multivariate distributions: None is returned (C31_two_numericals_return_none)."
 },
 "C42": {
  "status": "partial",
  "note": "Completion of a one-sided matrix proved if some entry exceeds numpy's tolerance 1e-8; false for smaller entries (C42_tiny_covariance_not_completed)."
 },
 "C41": {
  "status": "proved",
  "note": "For multivariate normal distributions with positive definite covariance. Negative positions not modelled."
 },
 "C37": {
  "status": "partial",
  "note": "Proved for GammaCountingProcess, GeneralGammaCountingProcess and GeneralGammaUpperLimit; false for GammaUpperLimit, which needs both total and background (C37_upper_limit_needs_total_and_background). A negative total is accepted when it is inferred (C37_negative_total_accepted)."
 },
 "C76": {
  "status": "partial",
  "note": "Proved for GammaDistribution and for the two-sided case of GammaDistributionPositive; false in the one-sided case with positive central value (C76_one_sided_error_overcovers, for the real Gamma distribution with a = 2). scipy's Gamma functions and brentq are parameters."
 },
 "C75": {
  "status": "proved",
  "note": "scipy's Gamma CDF/PPF are parameters assumed strictly increasing and inverse to each other."
 },
 "C38": {
  "status": "partial",
  "note": "Proved: every object of 10 classes, and of the others under the stated conditions on the arguments. False of the code: KernelDensityEstimate and GaussianKDE objects can never be reloaded; GeneralGamma* with a very small background uncertainty, inferred negative totals, empty discrete ranges and the default central value of MultivariateNumericalDistribution (support lost/None) are covered by explicit counter-theorems; GeneralGammaDistributionPositive cannot be instantiated."
 },
 "C40": {
  "status": "partial",
  "note": "Proved exactly for all classes but MultivariateNumericalDistribution, and numerically for all; false for MultivariateNumericalDistribution: get_dict(arraytolist=True) replaces the arrays in self.xi by lists and repr() then raises (C40_mvnumerical_repr_breaks)."
 },
 "C44": {
  "status": "proved",
  "note": "Under 'at most one selection list' and 'every distribution object used once' (see C45/C06 for what happens otherwise)."
 },
 "C45": {
  "status": "partial",
  "note": "Proved when at most one of the two lists is given; false when an empty exclude list is combined with an include list (C45_empty_exclude_ignores_include)."
 },
 "C47": {
  "status": "partial",
  "note": "False of the code: the cache compares hashes only and CPython hashes -1 and -2 alike (C47_hash_collision_returns_stale_values). Proved for arguments without collision."
 },
 "C51": {
  "status": "partial",
  "note": "False for two FastLikelihoods of the same name (C51_same_name_interferes); proved for every history that spares the name. The combine_measurements part is C56."
 },
 "C52": {
  "status": "partial",
  "note": "Proved for every prediction program that subscripts, copies and assigns (copies taken before modification). The full statement is false of the code: par.get / items / copies of modified AwareDicts are not tracked (three witness theorems)."
 },
 "C54": {
  "status": "proved",
  "note": "For every completion order of the pool; keyword conversion equals the serial binding for every valid call. Witness: an argument given twice is rejected serially but accepted in parallel. likelihood_contour_data ignores a user-supplied pool when threads==1 (noted in DESIGN.md, results unaffected)."
 },
 "C58": {
  "status": "partial",
  "note": "Proved when every parameter the user touched is still constrained and no user constraint equals a default one; exact behaviour for all histories in C58_exact; two witnesses show the full statement is false of the code."
 },
 "C59": {
  "status": "proved",
  "note": "For every finite acyclic tree whose includes resolve (derivation trees of Expands). C59_merge_swallows_nested_errors states the exact behaviour for a listed file whose own nested include is missing: its name is inserted instead of an error."
 },
 "C60": {
  "status": "partial",
  "note": "First-success and give-up behaviour and maximisation proved for all minimisers; the restart part is false of the code: C60_never_restarts proves every call starts at x0 (_x0 is assigned but never used)."
 },
 "C62": {
  "status": "proved",
  "note": "for every family of flows satisfying the group law (the ODE solver is a parameter); nf_out is shown to be ignored when running up or when its range is not reached; cached results shown transparent for a fixed configuration, stale after a threshold change"
 },
 "C63": {
  "status": "proved",
  "note": "real arithmetic"
 },
 "C64": {
  "status": "proved",
  "note": "wcxf.Basis and match_run are parameters; zero values stored as {'Re':0,'Im':0} bypass the short cut (C64_zero_complex)"
 },
 "C65": {
  "status": "proved",
  "note": "ckmutil is external: any 3x3 matrix"
 },
 "C66": {
  "status": "proved",
  "note": ""
 },
 "C67": {
  "status": "partial",
  "note": "get_color and pdf_plot clauses are false as documented (witness theorems C67_color_ignored, C67_pdf_range_zero_ignored); the rest is proved"
 },
 "C79": {
  "status": "proved",
  "note": "All amplitudes are free inputs; form factors and Wilson coefficients that produce them are not modelled."
 },
 "C80": {
  "status": "proved",
  "note": "Angular coefficients transcribed term by term; proved through a sum-of-squares representation by lepton-helicity amplitudes."
 },
 "C81": {
  "status": "proved",
  "note": "Includes the disagreements found: J6c dropped from AFB, FLhat non-positive."
 },
 "C82": {
  "status": "proved",
  "note": "Ranges for real arithmetic; includes the finding that ACP is half the CP asymmetry."
 },
 "C83": {
  "status": "proved",
  "note": "Positivity of the Bs rate is for amplitudes of the CP-conjugate decay without tensors (the code does not exchange the tensor helicities in h_tilde)."
 },
 "C84": {
  "status": "proved",
  "note": "The integrator is a parameter; exactness is a hypothesis where stated, and the error statement holds for any integrator."
 },
 "C86": {
  "status": "proved",
  "note": "The docstring of phi12 (arg(-M12/Gamma12)) disagrees with the code, which returns arg(M12/Gamma12): C86_phi12_sign_fails. x_D, y_D, DeltaM_12 do depend on the phase convention (C86_signed_differences_depend_on_phases), so they are not among the invariant observables."
 },
 "C88": {
  "status": "proved",
  "note": ""
 },
 "C89": {
  "status": "proved",
  "note": "External evaluations (form factors, Wilson coefficients, amplitudes) are arbitrary functions of q2 that may fail; dictionary keys compared as real numbers."
 },
 "C90": {
  "status": "proved",
  "note": "Integrator (scipy quad) modelled as exact; amplitudes are arbitrary functions of q2."
 },
 "C91": {
  "status": "proved",
  "note": ""
 },
 "C92": {
  "status": "proved",
  "note": "q2 = 0 (ZeroDivisionError) excluded; couplings are the ones returned by the EFT layer (C64)."
 },
 "C93": {
  "status": "proved",
  "note": "tabulated Standard Model values and get_wc are parameters of the model"
 },
 "C94": {
  "status": "partial",
  "note": "false of the code for D+ and Ds: the b quark mass is used in place of the light valence quark mass (C94_D_wrong_mass), so the scalar amplitude is too small; proved for B+, Bc, K+, pi+ and, without scalar coefficients, for D+ and Ds"
 },
 "C95": {
  "status": "partial",
  "note": "non-negativity is false of the code: the interference term lacks the factor ml/mtau, the rate is negative for CL = CR at all physical mass ratios (C95_negative_rate) and GFeff raises ValueError (C95_GFeff_domain_error); proved for CR = 0 or Re(CL CR*) <= 0, everything else in full"
 },
 "C96": {
  "status": "proved",
  "note": "for a massless vector the non-dipole couplings give a negative width (C96_massless_vector_negative); no decay of the library has them"
 },
 "C97": {
  "status": "proved",
  "note": "the dictionary of a sector is assumed complete"
 },
 "C98": {
  "status": "partial",
  "note": "Proved except that the total width omits lepton-flavour violating decays (C98_total_width_omits_lfv)."
 },
 "C99": {
  "status": "partial",
  "note": "Proved except the last two clauses, which are false of the code: C99_universal_operator_violates_flavour, C99_interference_phase."
 },
 "C100": {
  "status": "partial",
  "note": "Proved except that the lifetime deviations are not the propagated ones: the code attaches the upper width error to the upper lifetime deviation (C100_pdg_lifetime_errors: right iff the width errors are equal). Also: a second parameter in an entry of a correlated group is silently dropped (C100_group_second_item)."
 },
 "C101": {
  "status": "partial",
  "note": "The rate is the literature one only without tensor coefficients: angular.py's h['T'] is too small by sqrt(2), so the tensor contributes 6 instead of 8 and its interference 6+3 sqrt 2 instead of 12 (C101_tensor gives the exact result of the code, C101_tensor_amplitude that the factor sqrt 2 repairs it)."
 },
 "C102": {
  "status": "partial",
  "note": "Rate as in the literature without tensor coefficients (see C101); the K+ electromagnetic corrections are never used and the observables for an unspecified lepton always raise KeyError (C102_em, C102_totals)."
 },
 "C103": {
  "status": "proved",
  "note": "Rate, angles, bins, polarisation fraction and asymmetries; integrator exact, form factors continuous for the integrated claims."
 },
 "C104": {
  "status": "proved",
  "note": "bcl with the sign bug is stated as it is (C104_bcl_constraint, C104_bcl_violated)"
 },
 "C105": {
  "status": "proved",
  "note": "the failing part (continuity of T23 and T1(0)=T2(0) in isgur_wise) is stated as exact characterizations"
 },
 "C128": {
  "status": "partial",
  "note": "Proved for real coefficients at every mass and for all complex coefficients with a massless lepton; the full claim is false of the code: the interference terms lack a complex conjugation (C128_phase_witness, C128_negative_witness)."
 },
 "C129": {
  "status": "partial",
  "note": "parts (a), (c), (d) are proved; part (b) is false of the code: wem_29_low/high use the real-part function for the imaginary part, and wem_210_HA_low has the squared threshold (witness theorems)."
 },
 "C131": {
  "status": "partial",
  "note": "the bound is proved for massless leptons at tree level; for massive leptons, and evaluability everywhere, the claim is false of the code (witness theorems)."
 },
 "C132": {
  "status": "partial",
  "note": "proved for the asymmetry and for all terms but C1-C7 (QED) and |C10|^2 (power corrections); those two terms are missing in the code (witness theorems)."
 },
 "C135": {
  "status": "partial",
  "note": "full claim false of the code: negative rate when the tensor form factors differ, emission from leptons smaller than the soft-photon theorem requires, density in q2/mB^2 instead of q2, no value at or across the kinematic limit; witness theorems included"
 },
 "C138": {
  "status": "partial",
  "note": "full claim false of the code: after a change of the configured PDF set, already used scales and members return the luminosity of the old set (C138_stale_witness); proved for histories that do not change the name, and in general that the luminosity belongs to one of the configured sets"
 },
 "C139": {
  "status": "partial",
  "note": "Proved except the agreement of the summed angular distribution with the total rate and its normalisation to the SM, which are false of the code (C139_finding_sum_of_bins, C139_diff_not_normalised)."
 },
 "C140": {
  "status": "partial",
  "note": "Proved except the two sentences marked false of the code: the rho/omega branches (C140_rho_keyError) and the limit at q2 = 0 (C140_finding_limit)."
 },
 "C141": {
  "status": "partial",
  "note": "Proved except the two parts marked false of the code: availability for all registered decays (C141_rho_missing) and the documented range (C141_finding_range)."
 },
 "C143": {
  "status": "partial",
  "note": "The full claim is false of the code: SSE3 of Lambdab->Lambda has two coefficients, two quantities have no default, five implementations can never be evaluated; all decided exactly."
 },
 "C144": {
  "status": "partial",
  "note": "All conversions proved except Planck's relation: the module's h is hbar/(2 pi) instead of 2 pi hbar, so that part of the claim is false of the code (C144_planck_false)."
 },
 "C145": {
  "status": "partial",
  "note": "Everything proved except two parts that are false of the code: the curve of diff_plot_th stops before x_max (C145_curve_end_missing), and diff_plot_th_err changes the caller's dictionaries (C145_caller_dict_changed)."
 },
 "C146": {
  "status": "partial",
  "note": "All proved except the last clause, which is false of the code in two ways: likelihood_contour ignores the scales (C146_scale_ignored) and band_plot transposes the grid for a non-square pre_calculated_z (C146_band_plot_pre)."
 },
 "C147": {
  "status": "partial",
  "note": "All proved except that diff_plot_exp returns the values of all points: it returns those of the last measurement only, and raises UnboundLocalError without data (C147_y_last_only, C147_errors)."
 },
 "C149": {
  "status": "partial",
  "note": "All parts proved for every grid; the claim for every exclude is false of the code for the integer 0, which removes nothing (C149_reduce_integer_partial)."
 },
 "C150": {
  "status": "partial",
  "note": "Selection and location proved for every random number; the full claim is false of the code: zero-density points are drawn (C150_zero_density_drawn), probabilities are means of neighbouring weights (C150_selection)."
 },
 "C151": {
  "status": "partial",
  "note": "Combination, conversion and dispatch proved for any number of distributions; combining in steps is impossible in the code because the result has no support (C151_recombine)."
 },
 "C152": {
  "status": "partial",
  "note": "Convolution sum and normalisation proved; the claim on the grid is false of the code unless the central value is in the middle of the axes (C152_displaced), the sum is displaced by half a step (C152_convolve), and can vanish (C152_wide)."
 },
 "C153": {
  "status": "partial",
  "note": "Transparency holds unless the caller modified an object returned for the same arguments; C153_modified_result_is_returned shows the full claim is false of the code. LRU contents, recomputation and exception claims are proved in full."
 },
 "C154": {
  "status": "partial",
  "note": "The full claim is false of the code (C154_second_time_incomplete, C154_delta_C7_C9): citations registered inside memoised bodies are lost on cache hits. Bounds and cold-state completeness proved."
 },
 "C155": {
  "status": "partial",
  "note": "All claims except flavour consistency of the pole-mass conversions proved in full; that one holds iff the mass lies between the thresholds (C155_consistent_flavours_partial) and fails for the default charm mass (C155_default_charm_mismatch)."
 },
 "C156": {
  "status": "partial",
  "note": "Proved in full if set_option works entirely in place or entirely by replacement; for the mixed variant (options in place, cache replaced) it is false (C156_stale) and holds only for histories with one parameter point. The wilson package itself is not in /repo."
 },
 "C157": {
  "status": "partial",
  "note": "Exactness and the empty case are proved for all prediction functions; soundness for pairs of objects for functions whose queries do not depend on the answers (false for adaptive ones: C157_adaptive_misses)."
 },
 "C158": {
  "status": "partial",
  "note": "Proved for MeasurementLikelihood, ParameterLikelihood and FastLikelihood under the stated conditions (non-empty lists, no pseudo-measurements); false otherwise and for Likelihood (witness theorems)."
 },
 "C159": {
  "status": "partial",
  "note": "Holds when ax_2d is not given or is the current axes; false otherwise (C159_wrong_axes)."
 },
 "C160": {
  "status": "partial",
  "note": "for functions using get_wc: proved in full; for get_wcxf: needs that missing coefficients are read as zero and that running maps zero to zero (C160_direct_access_fails is the counterexample otherwise)"
 },
 "C161": {
  "status": "partial",
  "note": "false for pseudoscalar and scalar quarkonium: the combined e-mu and e-tau modes are not registered (C161_combined_missing); proved for all other modes"
 },
 "C164": {
  "status": "partial",
  "note": "The round trip holds for observables and attributes made of standard YAML values and without removed constraints; for NumPy numbers it is false of the code (C164_numpy_arguments_unreadable), reading is not atomic (C164_not_atomic, C164_spurious_measurement)."
 },
 "C169": {
  "status": "partial",
  "note": "tau77, tau99, tau79 vanish and f7, f9, tau910 are finite at s=1; tau710 is not (false of the code, C169_tau710_witness): proved with its second term 1/(3(1-3s)) replaced by 1/(3(1-s))"
 }
}