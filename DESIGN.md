# A Lean 4 model of flav-io/flavio

Source: `/repo` (pinned commit, read as text only).  Model and proofs: `/verif/lean/Verif`.

## 1. Trusted base

* Lean 4.33.0's kernel (every module is replayed by the gate), and Mathlib's *statements* where a
  theorem mentions Mathlib notions (`Real.exp`, `Real.log`, `Complex`, `Matrix`, `MeasureTheory`).
* Axioms: at most `propext`, `Classical.choice`, `Quot.sound`. No own axioms, no compiled-code
  tactics. Section 5 (end of this file) lists the axioms per theorem family.
* The reading of the Python source. The code is never run: the only tie between model and code is
  the comment `/repo/<file>:<lines>` on each definition.
* Real numbers stand for floats wherever arithmetic matters (rounding, overflow, NaN are NOT
  modelled); where a value is only passed around it is an opaque type variable.
* numpy/scipy/PyYAML/pandas/multiprocessing/wilson/ckmutil/rundec are external: each call becomes a
  parameter of the model (a function argument), and the assumption made about it is stated in the
  theorem as a hypothesis or recorded here.

## 2. Modelling conventions

* A Python function that can raise is a Lean function into `Except PyErr _` (`Verif/Py/Basic.lean`),
  and in-place mutation returns the new state. Where an exception leaves a half-updated state, the
  model returns `state × result` so the half-update is visible.
* `dict`/`OrderedDict` is an association list with Python's insertion-order rule (`Verif/Py/Dict.lean`).
* Object identity (`is`, hash by id) is modelled with reference types carrying `DecidableEq`
  (two references are equal iff they are the same object); attributes are looked up in a heap.
* Each area has `Model.lean` (code), `Spec.lean` (independent vocabulary of the property, if any is
  needed) and `Theorems.lean` (property theorems and, directly below, non-vacuity examples).

## 3. Per property: model and proof plan

| id | plan |
|----|------|
| C01,C02 | `Constraints` as state machine over histories of add/remove; spec = scan of the history from the end ("last op naming p"); refinement by induction over the history |
| C03 | get_central after any history, central value looked up by reference |
| C04,C05,C06,C11 | get_logprobability_all/_single as written (dict keyed by object); theorem for fresh-object histories; noninterference for all histories; negation witness for shared objects |
| C07 | get_random_all with a draw function per distribution |
| C08,C09 | yaml dump = list of (parameters, object); reload = add_constraint replay; negation witness after remove_constraint |
| C10 | set_constraint with parser/convolution as parameters |
| C12 | 1D errors |
| C13-C15 | class objects with own/inherited attribute `instances` (attribute lookup along the MRO), all histories |
| C16,C17,C19,C20 | registries of observables/predictions/implementations; prediction functions are Lean functions |
| C18 | argument_format over a small Python value type |
| C21-C24 | a backtracking matcher for Python's `re` (greedy, captures) with the actual patterns; strings rendered from numerals parse back |
| C25,C26 | stack machine of citation scopes, programs with nested `with` blocks and raising |
| C27,C28 | matrix rows as lists of rationals; loader over a YAML value type |
| C29-C34,C36,C37,C41,C42 | distributions as data with real parameters; decision logic of convolve/combine; algebra over the reals |
| C35 | improper integral via Mathlib's Gaussian integral |
| C38-C40 | per-class constructor and get_dict tables over Python values |
| C43 | trapezoid cumulative sum over lists |
| C44-C48,C51 | likelihood over registry of measurements; built on the `Constraints` model |
| C47 | cache state machine with arbitrary hash function; correct iff no collision |
| C49,C50 | lists of observables, matrix as function of indices |
| C52 | prediction = adaptive reading program (decision tree over dict reads) |
| C53,C55,C56 | lists of parameters, grouping by id |
| C54 | worker pool as a permutation of completion events; results placed by index |
| C57,C58,C59 | list functions; file tree with include nodes |
| C60 | oracle minimiser as a function of call index |
| C61 | chi2 cdf/ppf abstract strictly monotone bijection (hypothesis), dof=1 special case proved from the definition |
| C62 | evolution = abstract flow per number of flavours (group law as a hypothesis on the ODE solver) |
| C63,C65,C66 | real/complex arithmetic |
| C64 | finite tables + abstract wcxf value access |
| C67 | decision logic |

### Extension table (properties appended while the model grew)

| id | plan |
|----|------|
| C68 | parameter registration: state of parameter registry and constraints after `_read_yaml_*`-style registration |
| C69 | `AuxiliaryQuantity` → configured implementation; dictionaries as association lists, the implementation as a function |
| C70 | composition of the parser model (C21-C24) with the distribution errors |
| C71, C73, C85 | tables of the numerical distributions as lists over an ordered field; interpolation lemma per interval, induction over the table |
| C72, C75, C76 | Mathlib integrals (Gaussian, Gamma) of the closed-form PDFs |
| C74 | matrices over the reals, determinant/inverse as in the code |
| C77, C78 | counting by induction; completing the square for the weighted average |
| C79-C83 | polynomial identities and Cauchy-Schwarz over arbitrary complex amplitudes |
| C84, C90 | the integrator is the exact integral (`nintegrate` error not modelled); bins via `setIntegral` |
| C86, C87 | 2x2 complex matrices; loop functions as real functions with the code's branches |
| C88 | closed forms of the time integrals by the fundamental theorem of calculus |
| C89 | caches as state machine over histories with failing evaluations |
| C91, C92 | identities over complex amplitudes; sums over the nine flavour pairs |
| C93 | `wctot_dict` over dictionaries with the tables as parameters; case analysis over the sectors by kernel evaluation, arithmetic for all tables |
| C94-C97 | decay rates as functions of complex coefficients; equality with a separate textbook rate, calculus for the phase space functions |
| C100 | parameter files and PDG tables read into a constraints state with a heap of distributions; loop invariants; positive definiteness of the 0.99-shrunk covariance by quadratic forms |
| C101 | B/D → P ℓ ν on top of the C79 amplitudes; identity with the Sakaki et al. rate by expanding complex squares; bins by interval integrals with an exact integrator |
| C102 | K → π ℓ ν on top of C101; dispersive form factors; ln C and R_T in closed form with error cases |
| C103 | B → V ℓ ν: model in V.lean; rate against the literature's formula; one-angle distributions as integrals of the full one; bins by integrability of continuous form factors; asymmetries from positivity of the distribution |
| C104 | z expansion form factors: model of common.py, bcl.py, bcl_lmvd.py, bsz.py, sse.py in FormFactors/; conformal map by monotonicity of roots, relations by algebra on the coefficient lists |
| C105 | HQET form factors: model of hqet.py, cln.py, clnexp.py, isgurwise.py; dilogarithm as the integral SciPy documents, inversion formula by differentiation; the limits w → 1 and q² → 0 by derivatives; the matrix elements as specification |
| C106 | Λb→Λℓℓ (`Physics/Lambdab`): the amplitudes and coefficients are modelled; specification is the helicity density with Wigner d functions; its iterated integrals are computed and compared; Cauchy–Schwarz for the bounds; piecewise continuity gives integrability for the bins. |
| C107 | Λb→Λ(1520)ℓℓ (`Physics/L1520`): helicity and transversity amplitudes, the twelve coefficients, observables and both form-factor sets are modelled; the specification is the spin-3/2 helicity density; integrals computed exactly, Cauchy–Schwarz for bounds, limits at the end point from continuity. |
| C108 | Higgs (`Physics/Higgs`): all production, decay, width and signal-strength functions with their registration loops; specification by response tables; linearity by induction over tables; limits by filters. |
| C109 | Beta decays (`Physics/Beta`): all correlation functions, Ft, neutron lifetime, effective couplings, element table; the specification is a 2x2 spin density from explicit two-component spinors; positivity by Cauchy–Schwarz on the Gram matrix and on 3-vectors. |
| C110 | K0→ℓℓ (`Physics/Kdecays/Kll`): all functions of kll.py and `wilsoncoefficients_sm_sl` with parameters and WCs as functions of their names; specification is the explicit rate with λ_t, λ_c amplitudes; proofs by unfolding, Källén factorization and algebra. |
| C111 | K→πνν̄ (`Physics/Kdecays/Kpinunu`): all functions of kpinunu.py; specification is the flavour sum of |amp|² and (Im amp)²; α_e at two scales and X_t are inputs. |
| C112 | K→ππ (`Physics/Kdecays/Kpipi`): all functions of kpipi.py and the four-quark SM coefficients (table, interpolation); operator tables as association lists; parity by permutation of keys; m_s and CKM are inputs. |
| C113 | Λ→pℓν (`Physics/Kdecays/Lambdaplnu`) on top of the model of `get_wc`. |
| C114 | Model `getVT_lfv`, `getVT_lfc`, `Vll_br`, the combined and ratio predictions and the registry loop; prove the squared amplitude equals a sum of helicity squares (ring identity on real and imaginary parts), the coupling tables, charge symmetry, the QED limit, thresholds. |
| C115 | Model `getS_lfv`/`Pll_br`/`Sll_br` and both registry loops including the stale loop variables; prove the parity decomposition, positivity, charge symmetry (scalars) and its failure (pseudoscalars). |
| C116 | Model `getWC_lfv`, the seven kinematic functions, `Vllgamma_br`, the predictions and the registry; prove the integral representations (explicit antiderivatives), a log inequality by monotonicity, positivity of the quadratic form by completing the square under the integral. |
| C117 | Model edms/common.py, neutronedm.py, slcouplings.py, paraedm.py over inputs (parameters, coefficients, running masses, alpha_e); closed form by stepping the do-blocks, consequences (CP, scaling, linearity) from the closed form. |
| C118 | Model mueconversion.py on top of proton_charges; prove equality with an independent amplitude formula, then rephasing, chirality and isospin symmetries, positivity and the exact set of coefficients read. |
| C119 | Model mdms/al.py (configuration scales as a partial map) and neutrinos/trident.py; closed forms and sign/zero characterisations. |
| C120 | Model betafunctions.py as double sums over the coefficient matrices; polynomial closed form, signs by nlinarith, the LO solution by HasDerivAt of run_alpha_e. |
| C121 | Model masses.py (positive arguments) including Python slice semantics of nl; asymptotics of three fixed-point iterations via local Lipschitz bounds and IsBigO. |
| C122 | Model the loop of get_f_perp over an external positive alpha_s; induction over the flavour list, closed chain, continuity via Continuous.if_le. |
| C123 | Model `Verif/Physics/Inclusive/Xgamma.lean`: the three numerical 8x8 tables verbatim, the quadratic forms over complex vectors, the branching ratio, the asymmetry and the registry. Proved: the tables are (anti)symmetric so the forms are real/imaginary; behaviour under complex conjugation; exchange of chiralities; leading-order value; ValueError for other cuts. Strong coupling, coefficients (`wctot_dict`) and CKM factors are inputs. |
| C124 | Model `Verif/Physics/Bvll/Assembly.lean`: prefactor, subleading corrections (all implementations), registration lists, gating in q2, sum of the contributions for B->V and B->P on top of the amplitudes of C91. Proved by linearity of the amplitudes in the coefficients. Inputs: form factors, effective coefficients, spectator scattering amplitudes. |
| C125 | Model `Verif/Physics/Bvll/Vgamma.lean`: prefactors with the square-root domain error, factorisable, spectator and subleading amplitudes (the last through the model of C124), observables, registry. Proved: closed form of the amplitudes, Cauchy-Schwarz bound of the asymmetries, positivity, limits. Inputs: couplings, `T1(0)`, coefficients and `delta_C7`, spectator scattering amplitudes, `q/p`. |
| C126 | Model `Verif/Physics/Bvll/Lfv.lean` on top of the general amplitudes and angular coefficients (C81, C91). The integrator is a parameter, `Exact` its specification. Proved: the integral form, positivity from C81, normalisation from the scaling lemma, lepton exchange by computing the total rate as 6 G000. |
| C127 | Model: `Physics/Inclusive/Xlnu.lean` (all of bxlnu.py, term by term, principal complex log and sqrt). Proof: in the allowed region all arguments of log and sqrt are positive reals; the three logarithms are related by polynomial identities modulo the Källén root; the functions are then ∫(t−l)²w(t)φ(t)dt in closed form (XlnuFun.lean), which gives sign, order and monotonicity by the mean value theorem. |
| C128 | Proof for CP-conserving coefficients: the quadratic form is shown to be the integral over q² of a sum of squared helicity amplitudes (spin 0, spin 1 with tensor interference), by exhibiting the primitive and a boundary term. Complex coefficients: proved for a massless lepton. |
| C129 | Physics/Inclusive/XllQed.lean: every wem_* function of bxll_qed.py transcribed mechanically (exact decimal coefficients), the two dictionaries and wem. Theorems: the L and T quadratic forms at scale mu equal those at 5 GeV with shifted C9 (C129_scale), entry-wise for the rate and A (C129_scale_rate), KeyError outside sh<1/2 (C129_domain), shared entries (C129_no_jump). |
| C130 | Physics/Inclusive/Xll.lean models every function of bxll.py; four-quark matrix elements, running quantities and the Wilson coefficient dictionary are fields of Env; math domain errors of log(1-s), the KeyErrors of wem and ZeroDivisionErrors of tau710 are modelled. Specification loRate is an explicit sum of squares. |
| C131 | XllAfb.lean: tree-level massless bound (C131_bound) from interf_le; exact tree-level numerator (C131_lo_value); QED switch at 14 GeV^2 (C131_boundary). |
| C132 | XllCorr.lean: the 11x11 arrays are modelled with their assignments in source order (dot_upd computes the resulting form); explicit forms in C132_power, C132_qed_rate, C132_qed_afb; C132_lambda1. |
| C133 | Verif/Physics/MatrixElements/Model.lean models h, h0, hs0 over Complex numbers with log(0) raising; limits by Taylor bounds of arctan and squeeze arguments, cut by splitting on 4m^2/s. |
| C134 | Verif/Physics/MatrixElements: Y, Yu, F_87, F_89, SeidelA, SeidelC, delta_C7, delta_C9; SeidelB and the interpolated tables F_17..F_29 are arbitrary functions (Env). |
| C135 | Model (Physics/Bllgamma) of every function of bllgamma.py and of the KM form factors of b_gamma/bgamma.py: prefactor, resonances, F1/F2, the three pieces of the rate (direct emission, emission from the leptons, interference), the q2 guards, bins with the quadrature as a parameter. Proved: values and zero below threshold for all q2 below the limit, sign of the two pieces, soft-photon limit, invariance under common phases, independence of the annihilation term from C7, bins. |
| C136 | Model (Physics/Dileptons/Model) of every function of ppll.py with luminosity, integrator, CKM matrix and SMEFT arrays as parameters. Separate Spec.lean: helicity amplitudes with flux, spin and colour factors; doublets, Pauli matrices and mass eigenstates. Proofs: polynomial integral over the angle, unfolding the loops over quark names, continuity and positivity of the SM cross section (the imaginary part from the Z width never vanishes), bilinearity of the squared amplitudes. |
| C137 | Model of every function of pplnu.py (Physics/Dileptons/Model). The factors prefac1/prefac2 are shown to be the integral of the helicity spec over the angles with umin <= tau sin^2 <= umax (cut_integral); ratio, quadratic dependence, bins and matching as for pp -> l l. |
| C138 | State machine (Physics/Dileptons/Partondist): configured name, installed sets, bounded LRU cache of PDFs, unbounded cache of luminosities; invariant over all histories: every cached value comes from the contents of a set that was configured. |
| C139 | The two tables are copied from the source by a script (10 energies; 4 x 10 bins, with eight coefficients each) as rationals; the functions are lookups followed by a linear combination. The lookup theorems quantify over all rationals; table facts are decided by the kernel over the whole table, and lifted to statements for all complex coefficients by the linearity theorem. |
| C140 | qcdf.py statement by statement as Except-valued functions over R and C with the special functions (dilogarithm, exponential integral) as abstract arguments and the integral replaced by an arbitrary finite quadrature rule (so the results hold for every rule, including the Gauss rule used); value lemmas give the closed form of each of the three contributions, from which additivity, linearity, helicity structure, unitarity and rephasing are read off. |
| C141 | The interpolation (scipy's linear interp1d with its bounds error) over the grid written by the script, the file's arrays as an abstract function of the name and the index, and the list of shipped names; the writer is modelled as well, so that write-read round trips and end-to-end statements can be proved. |
| C142 | Uses the model of the constructors of C38 (Dict/Model.lean). The required and optional names of each class are given by a separate table; the attribute theorems are stated through the number an argument stands for (int or float). |
| C143 | Auxiliary/Model.lean: the sequence of constructor calls of all modules (with the leftover loop variable), the registries, the implementation section of config.yml, the look-ups of a prediction and, for the series form factors, the functions of FormFactors/Series.lean. Auxiliary/Theorems.lean: facts about the registered names are decided in the kernel over the complete registry and combined with universally quantified statements about configurations, parameters and q2; Auxiliary/Evaluate.lean: totality of every series implementation in the physical region from the value theorems of C104. |
| C144 | Whole module as real constants; the SI definitions of 2019 are restated as exact fractions; each physical law (x = ct, E = ħω, E = eV) is an equivalence over all reals; every product of integer powers by zpow algebra; numerical check of ħc with bounds on π. |
| C145 | The three functions as functions from abstract predictions (which may raise) to the data handed to matplotlib, over real numbers; np.arange by its definition with the ceiling; interp1d abstract with its interpolation property as hypothesis; dictionary arguments as finite maps including in-place changes of the caller's dictionary. Grids by exact arithmetic, boxes by induction over the loop with the keyword dictionary as state. |
| C146 | The smoothed histogram is an input (any non-negative array); brentq is an abstract root finder with its sign-change guarantee as hypothesis and its ValueError modelled; content of super-level sets is antitone, so the sign change brackets the confidence level; monotonicity of log gives the region; opacities and filling levels by order arithmetic; grids of likelihood_contour and band_plot from the model of C67. |
| C147 | The loop over measurements as a fold with state (labelled experiments, positions, calls, last values); invariant: calls = error bars of the contributing measurements, from which points, colours and first-occurrence labels follow by induction. Curves by list and finite-map lemmas. |
| C148 | Verif/Parameters/FormFactors*.lean models the loaders on file contents (floats are reals or nan) and on the existing parameter store; the theorems give for each loader the components, covariance, registered names, frame and the failure behaviour, and the name conversions on lists of characters. |
| C149 | Arrays are a shape plus a function on index tuples (any dimension); constructor, interpolation (scipy's RegularGridInterpolator, linear), reduce_dimension and logpdf modelled in Probability/Grid.lean over the reals; theorems by induction over the axes. Partial: exclude given as the integer 0. |
| C150 | The random numbers are arguments of the model; the grid point selected is characterised by closeness of the cumulative sum; partial because zero-density points are drawn and the probabilities are not the weights. |
| C151 | Supports, grids, products and dispatch modelled for any number of distributions; combination theorem stated by greatest lower and least upper ends; no float underflow (exp(-1e100) is positive in the model). Partial because of combinations in steps. |
| C152 | fftconvolve(mode='same') modelled as the exact convolution sum cut out of the middle; the theorem rewrites it as a sum over grid points of numerical PDF times normal PDF at the difference; partial because of the displaced grid, the half step and wide normal distributions. |
| C153 | Model: one lru_cache as a state machine (Verif/Memo/Model.lean): cache list of (key, address), heap of result objects, events call/write. Proof: invariant by induction over histories that the cached keys are the truncation of the recency list (foldl touch = dedup.reverse), that cached addresses are valid, pairwise different and were handed out for their key. Status partial: transparency needs that no object returned for the same arguments was modified in place (C153_modified_result_is_returned shows the failure). |
| C154 | Model: predictions as sequences of memoised calls and direct registrations over per-function caches; theory_citations through the model of Citations. Proof: bounds in every state, completeness in the cold state, and the exact answer for a repeated evaluation (from the recency lemma of C153). Status partial because the claim is false of the code: C154_second_time_incomplete and C154_delta_C7_C9. |
| C155 | Model: dispatch, parameter lookup, choice of nf and conversions with the external packages qcd and rundec as uninterpreted functions. Proof: case analysis; specification flavours = 3 + number of thresholds passed. Partial: the coupling passed to the pole-mass conversions has the number of active flavours at the mass, which is not always the one the conversion is for. |
| C156 | Model (Verif/Wilson): a memory of option and cache containers; a Wilson object refers to one of each; `from_wilson` copies the references (`__dict__` sharing) and calls `set_option` when the CKM parameters differ. The wilson package is not in /repo, so `Sem` has one switch each for whether `set_option` changes the option container in place and whether it clears the cache in place; the theorems say what holds for each variant. Induction over the history with an invariant on the shared cache. |
| C157 | Model (Verif/Functions/DependentWcs): prediction functions as trees of `get_wc`/`get_wcxf` calls (with exceptions), run with a plain or a recording object on top of the model of eft.py (C64). Induction over the tree; `Calls` and `NonAdaptive` are independent inductive specifications. |
| C158 | Model (Verif/IO/LikelihoodYaml): attribute dictionaries, the input and output schemas of the four classes with the voluptuous validators as functions, the removal of None and empty lists, and the constructors, on top of the models of argument_format (C18), get_par_diff (C58), list_deduplicate (C57) and measurement selection (C45). The YAML library is assumed to reproduce plain data. Proof: round trip of single observables by C18, lists by Forall2, dictionaries by case analysis on the presence of each key, selection by membership. |
| C159 | Model (Verif/Plots/Joint): pyplot state with numbered axes, current axes and a list of drawings; the function as a state transformer. Induction over the number of overlaid distributions. |
| C160 | Prediction functions are the interaction trees of C157 (a program that may call get_wc and get_wcxf any number of times, adaptively). Induction over the program: for get_wc both objects take the SM branch and the results are equal without any assumption; for get_wcxf the SM object gives an empty coefficient object while an object with zero values is run, so equality needs that running maps zero to zero and that the program reads missing coefficients as zero. |
| C161 | The module-level loops are modelled with Python scoping: the loop variables l1, l2 are part of the state and keep their last values. The names are strings; the proof needs that names determine meson and final state (split at the first >), that later registrations with the same name overwrite (last wins), and that the table of one meson is functional. |
| C162 | scipy interpolation is an argument specified as the not-a-knot cubic spline through five points (C162_spline_unique: it exists and is unique, so the specification is not empty); the twenty trapezoids are summed symbolically in scaled coordinates, which gives explicit rational weights 22201/260642, 42960/130321, 22200/130321 from which order, linearity, orientation and error statements follow. The integral is the Mathlib interval integral. |
| C163 | model of the derivative (coefficients as complex vectors, 3-loop beta functions for the couplings) and of get_wilson on top of the model of the evolution across thresholds; uniqueness of solutions (Groenwall) gives that the couplings do not depend on the coefficients and that one step is linear; a relational induction over the loop over flavour numbers gives linearity of the whole evolution |
| C164 | model of write_file, read_file with its fallback to the old reader, get_yaml_dict and from_yaml_dict of measurements, on a registry of measurements and files as data; the round trip combines the theorem on constraints (C08) with a lookup argument for attributes, by induction over the documents |
| C165 | Rescaled inputs are defined as a specification (power of the unit for each parameter by its name; for each Wilson coefficient by its operator), for x > 0 the predictions of the existing models are evaluated on them and compared. The quantities that are limited to a fixed unit by construction are left out: the D0 mixing parameters (inverse picoseconds with a conversion constant in GeV) fits to numbers in GeV (the Standard Model widths of the Z, the W mass; the top mass in K to l l stays in GeV in the specification), and the q2 boundaries 9 and 14 GeV2 of the subleading amplitudes of Lambda_b decays. |
| C166 | Model `F` and `delta_Plnu` over the reals with the dilogarithm as the integral `spence` of Physics/FormFactors/HqetTheorems; prove Li2(1)=pi^2/6 by integrating the geometric series term by term (zeta(2)), continuity of the dilogarithm on [0,1], and get both limits of `F` from a continuous function of (z, z log z, remainder, log(1-z), Li2). |
| C167 | Model both functions and the two `colorsys` conversions of the Python standard library they call (matplotlib colour names are resolved before); the specification `relight` moves each channel affinely; prove the round trip by the six orders of the channels and periodicity of the hue; corollaries for the amounts 0 and 1, composition and duality. |
| C168 | On the model of C129/C132 (`phiQed`, `wem`): the coefficient of the collinear logarithm times the phase space is a polynomial plus polynomials times log s and log(1-s); integrate term by term over (0,1) (integrals of s^n log s), and the photon pole by Li2(1). |
| C169 | expansions to second order in 1-√s closed under sums and products, Euler's reflection formula for the dilogarithm proved from its derivative, L'Hôpital for Li2 at 0 (Physics/Inclusive/XllEnd.lean) |
| C170 | Verif/Physics/CpConserving.lean, on the existing models of ckm.py, mesonmixing, kpinunu, kpipi, bxgamma, bvgamma, bvll, bpll, bvlnu, edms and betadecays: 'real' is closed under the arithmetic of the functions (z = conj z), so the amplitudes are real (or have a common phase) and every imaginary part or difference of CP-conjugate rates is zero; all exceptions are allowed for. |
| C171 | Scaling relation between two runs of the existing models: the monadic predictions with all coefficients multiplied by t give the same result or error with the value multiplied by t² (lemma on binds), then t = 0. Verif/Physics/LfvZero.lean. |
| C98, C99 | Z and W couplings, widths, ratios and masses as functions of named Wilson coefficients; identities in the trigonometric functions of the mixing angle |
| C93... | see the header comment of each module; same technique (function of the code, independent specification, identity or inequality for all inputs) |

## 4. Findings: where the code does not do what its documentation or the plain property says

Each is either proved as a theorem about the model (name in brackets) or, if marked (reading), only observed.

* **classes.py** - `Constraints._constraints` keeps removed constraints, so a YAML dump resurrects them (C08/C09 witnesses); one
  distribution object constrained under two parameters contributes once (C04-C06 witnesses); `get_central` of an unconstrained tuple
  raises `TypeError`; using the registry class itself shares registries (C13-C15); an `Implementation` registers before its arguments
  are validated; `Measurement`/`Parameter` lists are stored by reference (reading).
* **citations.py** - re-entering one and the same `CitationScope` object inside itself does not restore the outer scope (C25/C26).
* **_parse_errors.py** - a Unicode minus sign turns a number into a dictionary; `1.0 - 0.5` gives an empty list; `1.0 ± 0.1 + 0.2`
  silently drops a term; a zero error raises `ValueError`; `1.67+-0.310^-3` is parsed as `0.3 × 10^-3`.
* **measurements.py** - tiny upper triangles are not symmetrised; mixtures of full and triangular rows double entries.
* **probability.py** - wrong support for a negative log-normal centre; `DiscreteUniformDistribution` skips its range check for
  `central_value=0`; a delta distribution combined with a single non-Gaussian becomes numerical; convolving two or more multivariate
  numericals returns `None`; several distributions cannot be reloaded from their own `get_dict` (KDE, GeneralGammaUpperLimit with a
  small width, …); `MultivariateNumericalDistribution.get_dict` mutates the object; the numerical convolution may shift its result
  by up to one grid step (C85).
* **likelihood.py** - the prediction cache is keyed by a hash only and `hash(-1) == hash(-2)` gives stale predictions (C47);
  `exclude_measurements=[]` overrides an include list (C45); two `FastLikelihood`s of one name share their pseudo-measurement (C51).
* **functions.py** - reads through `.get`, `in`, `.items()` are not tracked by `AwareDict` (C52); the parallel `np_uncertainty`
  accepts duplicate arguments (C54).
* **io** - reset-to-default and removal are lost on a parameter-diff reload (C58); a nested missing include is swallowed (C59).
* **math/optimize.py** - the restart from the best endpoint never happens (C60_never_restarts); empty method lists raise
  `UnboundLocalError`.
* **running.py / eft.py** - `nf_out` ignored when running up (C62_nf_out_ignored); the cache key lacks the thresholds
  (C62_cache_stale_after_config_change); `{'Re':0,'Im':0}` bypasses the SM short-cut (C64_zero_complex); `nf_out` keeps the coefficient
  list of the other EFT (C64_nf_out_keeps_coefficients).
* **plots** - explicit colours and a lower limit of 0 are ignored, only the last measurement's y is returned (C67_*).
* **bvll** - `ACP` is half the CP rate asymmetry (C82_acp_is_half); `AFB` ignores `J6c` (C81_afb_misses_j6c); `FLhat` has the wrong sign
  (C81_flhat_nonpos); `nintegrate_pole` drops `epsrel` (C84_epsrel_ignored).
* **mesonmixing** - the docstring sign of `phi12` (C86_phi12_sign_fails); `x_D`, `y_D` depend on the phase convention (C86); `F_box` raises
  at the removable singularity (C87_F_domain).
* **bpll / bpnunu** - threshold excluded in one mode and included in the other (C90_kinematics); no endpoint guard for the neutrino
  modes (C92_no_endpoint_guard).
* **wilsoncoefficients.py** - the SM right-handed effective dipole of b→s is `ms/mb` times the *non-effective* dipole
  (C93_standard_model).
* **dlnu.py** - `D+ → ℓν`, `Ds → ℓν` use `m_b + m_c` in place of the valence quark masses: scalar contributions are too small
  (C94_D_wrong_mass).
* **taulnunu.py** - the interference of `CVLL` and `CVLR` lacks the factor `m_ℓ/m_τ`: negative branching ratios
  (C95_negative_rate), and `GFeff` raises `ValueError` (C95_GFeff_domain_error).
* **gammaz.py** - the total Z width omits `Z → ℓℓ'` (C98_total_width_omits_lfv), although it includes flavour-changing quark and
  neutrino decays; the conjugation `if i > j` in smeftew.py is dead code after `sorted`.
* **smeftew.py / gammaw.py** - flavour-universal operators give `W → e ν_μ` and, without CKM factors, `W → u s`
  (C99_universal_operator_violates_flavour); the interference uses `V` where `V*` is needed (C99_interference_phase).
* **parameters.py** - `flavio_tau` attaches the upper error of the width to the upper deviation of the lifetime, although the lifetime
  falls with the width (C100_pdg_lifetime_errors); a second parameter in one entry of a correlated group is silently dropped
  (C100_group_second_item).

* **angular.py** - `h['T']` of `helicity_amps_p` has `1/(2(m_B+m_P))` where `1/(√2(m_B+m_P))` is needed: in `M → P ℓ ν` the squared
  tensor coefficient enters with 6 instead of 8, its interference with 6 + 3√2 instead of 12 (C101_tensor, C101_tensor_amplitude).
* **kpilnu.py** - `K+e3 delta_EM` and `K+mu3 delta_EM` are never used: `P == 'pi0'` returns before (C102_em); `BR(K..->pilnu)`,
  `lnC(K->pilnu)` for the unspecified lepton are registered but always raise `KeyError` (C102_totals).
* **bvlnu.py** - `FL`, `FLtot`, `FLttot`, `AFBtot`, `I3tot` for the lepton `l` (mean of e and mu) are registered but always raise
  `KeyError` for the missing parameter `m_l` (C103_fl, C103_asymmetries).
* **b_p/bcl.py** - the constraint that should fix the last coefficient of `f0` by `f+(0) = f0(0)` has the wrong sign: the code gets
  `f0(0) = 2 S - f+(0)`, `S` the sum without that coefficient (C104_bcl_constraint, C104_bcl_violated).
* **b_v/isgurwise.py** - the branch for `q2 == 0` drops the power correction `1 + a_T23` and the slopes of A0, A12: `T23` jumps at
  `q2 = 0` (C105_isgurwise_limit, C105_isgurwise_jump); `T1(0) = T2(0)` is not guaranteed (C105_isgurwise_T12).
- C106: `angular_coefficients` takes imaginary instead of real parts for `K_4sc` and `K_4s` (these coefficients are not used by any observable); `fct_deltaC9_constant` ignores `cp_conjugate`; the ratios are 0 exactly at the end point of the spectrum where their limit (e.g. FL → 1/3) is not.
- C107: `cp_conjugate` conjugates only the parameters, never the Wilson coefficients, so new weak phases give no CP asymmetry (C107_cp_witness); both form-factor implementations divide by zero exactly at the end point q²=(m_Λb−m_Λ*)², which `get_obs` admits (C107_lattice_witness).
- C108: signal strengths and the width are only linearised: a signal strength can be negative (C108_negative_witness) and the width can vanish, giving a ZeroDivisionError for all modes (C108_width_zero_witness); the charm interference enters h→cc but not the width.
- C109: `proton_charges` has gP = (mp+mn)/(mu+md) + gA instead of the PCAC value gA (mp+mn)/(mu+md) (C109_pcac_witness; gP is not used by any beta-decay observable).
- C110: `BR(KS->emu,mue)` is registered but every evaluation raises UnboundLocalError, because `amplitudes_eff` assigns `Peff`, `Seff` for K_S only if l1 == l2 (C110_KS_lfv_unbound, C110_registry); the long-distance part divides by `m_KL`/`m_KS` where the rest of the code uses `m_K0`.
- C111: the SM top term is scale independent, the charm term is multiplied by α_e(μ)/α_e(m_Z) (C111_scale_dependence), so the prediction changes with the renormalization scale option by more than the amplitude does.
- C112: the isospin-2 matrix element of CSRL_sddd/CSRL_sduu has the opposite sign of what the Fierz identity (used two lines below for CSRLt) and isospin give for the CVLRt operator (C112_CSRL_sign); `epsprime` works at the scale 1.3 only.
- C113: `g1/f1(Lambda->plnu)` is registered but always raises KeyError, because the sector `sulnul` does not exist (C113_lepton_l; hypothesis: the WCxf basis has no such sector).
- C115: Pll.py: (a) the loop over combined channels uses `l1, l2` left over from the previous loop, so `BR(eta_c(1S)->emu,mue)`, `…etau,taue` etc. do not exist and `mutau,taumu` is registered three times (same in Sll.py) — `C115_registry`; (b) the vector-current term of `SL` has the wrong relative sign with respect to `SR` (a vector lepton current yields `SL=-SR`, Dirac equation: `SL=SR`) — `C115_vector_current_finding`; (c) in consequence (and for lack of the conjugation that Vll has) the two charge modes differ even for real couplings — `C115_charge_finding`.
- C116: Vllgamma.py: `Fhat_P` lacks the constant `1/12` (it is `-1/12` instead of `0` at the kinematic limit, `Fhat_S` adds the constant separately), so branching ratios can be negative inside the physical region — `C116_kinematics`, `C116_negative_finding`, `C116_threshold_finding`; equal lepton masses end in an UnboundLocalError after the printed message.
- C117: common.get_m returns the running down mass for f='u' and the up mass for f='d' (swapped), so quark EDM contributions to d_n carry the wrong light-quark mass; the tex labels of omega_YbF and omega_ThO are those of HfF.
- C120: beta_qed and the QED terms of beta_qcd are those of five flavours for every nf (the code's FIXME); run_alpha_e uses flavour-dependent coefficients, so the two runnings of alpha_e disagree for nf != 5.
- C122: get_f_perp is discontinuous at scale = 2 GeV: the early return gives the 3-flavour input although neighbouring scales are evaluated with four flavours through m_c; nf_out is ignored at or below m_c.
- C123: B -> X_q gamma: the rate is a truncated expansion in alpha_s and not a square; for alpha_s/4pi >= 1/1000 there are C5, C7 for which `BR(B->Xsgamma)` is below any bound (`C123_negative_witness`).
- C124: Subleading corrections and CP conjugation: `bvll/subleading.py` never uses `cp_conjugate`, and `bpll_subleading.py` computes the conjugated parameters but passes the unconjugated ones in both `deltaC9` implementations (the defaults), so the CKM factor of the correction is not conjugated in the CP-conjugate amplitude; `C124_spurious_asymmetry` gives the resulting asymmetry in the absence of strong phases.
- C125: B -> V gamma: the subleading correction enters the CP-conjugate amplitude with an unconjugated CKM factor (`C125_spurious_asymmetry`).
- C126: B -> V l l prime: `BR_tot_function_leptonsum` is defined but no charge-summed observable is registered (unlike B -> P l l prime).
- C128: FINDING: the interference terms in `r_WC` are written `(wc['VL']*wc['VR']).real` etc., without complex conjugation of one factor. A common phase of all coefficients changes the prediction, and for a massive lepton complex coefficients can make the branching ratio negative (C128_phase_witness, C128_negative_witness). The correct expression is `(wc['VL']*wc['VR'].conjugate()).real`.
- C129: FINDING: wem_29_low and wem_29_high return re + i*re: the fitted imaginary-part functions wem_29_im_low/high are never used (C129_imaginary_witness). wem_210_HA_low switches on its imaginary part at (4mc^2/mb^2)^2 instead of 4mc^2/mb^2 (C129_threshold_witness). Part (b) of the claim is therefore false of the code.
- C130: FINDING: with the bremsstrahlung functions positivity fails next to the end of the spectrum for every alpha_s > 0 (C130_endpoint_witness). FINDING: power corrections use unprimed coefficients only, so the parity symmetry of the rate is lost with the default flags (C130_swap_witness). At q2 = mb^2 exactly the functions raise ValueError (C130_region).
- C131: FINDING: for massive leptons the asymmetry is unbounded near threshold, since only the denominator has the phase-space factor (C131_threshold_witness). FINDING: for mb^2/2 <= q2 < 14 GeV^2 (about 11.5..14) AFB and its bins raise KeyError (C131_keyerror_witness, C131_bin_witness). FINDING: tau710 has a pole at s = 1/3, AFB at q2 = mb^2/3 raises ZeroDivisionError (C131_pole_witness).
- C132: FINDING: e[1,7] = 4/3*e[2,7] is evaluated before e[2,7] is set, so the C1-C7 interference is missing (C132_order_witness). FINDING: the power corrections of the rate have no (10,10) entry, so reparametrisation invariance fails for C10 (C132_lambda1_witness).
- C134: Y, Yu and delta_C9 raise ValueError at q2 = 0, although h, F_19 and F_29 have explicit q2 = 0 branches.
- C135: Partial because the full claim is false of the code: (a) the C7-C9 interference in F1 uses the axial tensor form factor, so the rate can be negative; (b) the emission from the leptons is not the integral of the squared bremsstrahlung amplitude (spec stated separately) and violates the soft-photon theorem when compared with BR(B->ll) of the same package; (c) the observables called dBR/dq2 are differential in q2/mB^2 (the number does not change under a change of units); (d) at q2 = mB^2 the value is infinite, bins reaching it have no value, and a form factor pole just above the limit may give ZeroDivisionError.
- C138: The cache of get_parton_lumi is keyed by scale and member only: after config[PDF set][dileptons][name] is changed, scales already used keep the luminosity of the old set while new scales use the new one.
- C139: The observable `<dR/dtheta>(ee->WW)` is described as normalised to the SM but is the cross section in pb (`C139_diff_not_normalised`); the sum of its bins responds to phiWB five times less than R(ee->WW) does at the same energy (`C139_finding_sum_of_bins`); R becomes negative for coefficients of 10 TeV^-2 (`C139_total_negative`).
- C140: the branches for the rho and the omega are unreachable: the spectator charge table has no entry for them (KeyError, `C140_rho_keyError`); the q2 = 0 branch of the transverse loop function neglects the mass of the vector meson and is not the limit of the generic branch (`C140_finding_limit`).
- C141: the grid ends at 8.900001 and starts at 1e-6 although it is described as 0 to 9 (`C141_finding_range`); B -> rho is registered but has no data (`C141_rho_missing`); the interpolated corrections ignore new physics and parameters (`C141_ignores_new_physics`).
- C142: `GeneralGammaDistributionPositive` cannot be instantiated directly: AttributeError for all admissible arguments (`C142_general_positive`).
- C143: The implementation 'Lambdab->Lambda SSE3', the default, is registered with n=2 and never uses the third coefficients (C143_sse3_witness); 'B->K BCL4-LMVD', 'B->D BCL4-LMVD', 'B->rho SSE', 'B->omega SSE', 'B->D* SSE' raise KeyError for every input (C143_never_witness); 'B0->rho0ll spectator scattering' and 'B+->rho+ll spectator scattering' have no default implementation (C143_missing_defaults_witness).
- C144: units.h is ħ/(2π) instead of 2πħ, so E = h ν fails by (2π)² (units.py line 30; theorem C144_planck_false).
- C145: diff_plot_th never draws the end point x_max (np.arange excludes it; lines 90-99; C145_curve_end_missing). diff_plot_th_err changes non-empty plot_args / fill_args dictionaries of the caller (lines 155-160; C145_caller_dict_changed).
- C146: likelihood_contour silently ignores xscale/yscale (lines 571-597, contour swallows unknown keywords; C146_scale_ignored). band_plot with a non-square pre_calculated_z builds a transposed grid (lines 616-621; C146_band_plot_pre).
- C147: diff_plot_exp returns the values of only the last measurement but the positions of all (line 402; C147_y_last_only), and fails with UnboundLocalError when no measurement has data (C147_errors).
- C148: a BSZ load or a Lambda_b->Lambda load that fails has already removed the constraints of the parameters (C148_bsz_failure, C148_lambda_failure), whereas the other loaders leave everything as it was; a missing central value silently becomes nan while a missing uncertainty or correlation makes the load fail; a covariance pair that a lattice file lists in both orders counts twice (C148_lattice); EOS files do not register parameters (C148_eos).
- C149: Finding: reduce_dimension(exclude=0) and logpdf(x, exclude=0): the integer zero is falsy, so nothing is removed (C149_reduce_integer_partial); [0] or (0,) works.
- C150: Finding: nearest value of the cumulative sum (argmin |cdf - r|) selects a grid point with the mean of its own weight and that of the next one (C150_selection), and if the PDF vanishes at the first grid point, points with zero PDF are drawn (C150_zero_density_drawn, C150_zero_density_witness); all points with the same PDF value are exchanged for each other.
- C151: Finding: the result of a combination (or convolution) has no support attribute value (None), so combining it with anything else fails, although combining all at once works (C151_recombine, C151_witness).
- C152: Findings: the grid is displaced by (mean of the axis - central value), so that the region around the mode can be lost (C152_displaced, C152_witness); for an even number of points (the default 200) the result is displaced by half a step (C152_convolve); a normal distribution much wider than the numerical one makes the sum vanish at every grid point, so that the code divides zero by zero (C152_wide).
- C153: ckm_tree & co. and _rg_evolve_sm return the cached array itself: a caller that modifies the matrix returned by get_ckm(par) changes all later predictions with the same parameters.
- C154: F_17, F_19, F_27, F_29, SeidelA and SeidelB register their papers inside lru_cache-decorated bodies, so theory_citations omits Greub:2008cy (and for C7 Seidel:2004jh) when the same prediction was evaluated before in the process.
- C155: With the default thresholds (mc = 1.275) and default m_c = 1.273, get_mc_pole passes the three-flavour alpha_s to the four-flavour conversion; random m_b below 4.18 pass the four-flavour coupling to the five-flavour conversion, so the pole masses jump as functions of the parameters; get_mt and get_mt_mt pass the five-flavour coupling to the six-flavour conversion below 173.21 GeV.
- C156: If `set_option` updates the options in place but assigns a new cache dictionary, changing the CKM parameters between predictions with one Wilson object gives stale coefficients (C156_stale); a prediction changes the options of the object the user passed (C156_side_effect); flavio.WilsonCoefficients instances never receive the CKM parameters of the prediction (C156_own_class).
- C157: For a prediction function that decides from the values of some coefficients which others to ask for, the returned set can miss sectors (C157_adaptive_misses); the docstring promises that all coefficients are contained.
- C158: Likelihood.dump raises AttributeError for every object (the output schema has get_par_diff under fit_parameters) (C158_likelihood_dump_fails); a FastLikelihood without nuisance parameters becomes one with all parameters as nuisance parameters (C158_no_nuisance_becomes_all); nuisance_parameters: all is rejected in files (C158_nuisance_all_rejected); exclude_measurements: null in a Likelihood file makes include_measurements ineffective (C158_null_ignores_include); include_pseudo_measurements is lost (C158_pseudo_lost); an empty list of parameters makes an imported ParameterLikelihood unusable (C158_empty_parameters).
- C159: density_contour draws into the current axes, not into ax_2d: with given axes that are not current, the contours end up elsewhere (C159_wrong_axes, C159_two_plots).
- C160: get_wcxf has no SM branch for an object with vanishing values; programs that index the result (mw.py:51, gammaw.py:48, gammaz.py:21, afbz.py:21, signalstrength.py:93, ee_ww.py:112) rely on the external wcxf.WC.__getitem__ returning 0 for a missing key; a program reading the plain dictionary directly would raise KeyError for the SM object only (C160_direct_access_fails).
- C161: Pll.py:100-105 and Sll.py:93-98 loop over ll but use l1, l2 left over from the previous loop: BR(eta_c(1S)->emu,mue), BR(eta_c(1S)->etau,taue) and the like are never registered and the mu tau modes are registered three times (C161_combined_missing). A static comparison of all 2000 registrations of flavio/physics found no other repeated name.
- C162: nintegrate_fast is not exact for quadratic integrands: the spline is, but it is then integrated with the trapezoidal rule on 20 points (C162_cubic gives the error).
- C163: running.py:293 and 314 use np.complex, which numpy removed in version 1.24; with such a version get_wilson always fails (the model is of the behaviour with an older numpy, where np.complex is complex)
- C164: observables whose arguments are NumPy numbers (bins from linspace) are written with Python tags that read_file cannot read; read_file hides the reason of a failure behind the exception of the reader of the old format, leaves measurements of a broken file registered, and for a broken file with a single document registers a measurement called 'arguments'
- C169: tau710 has 1/(3(1-3s)) where regularity needs 1/(3(1-s)): as written it diverges to -infinity at s = 1 (C169_tau710_witness), besides the pole at s = 1/3 (C131)

## 5. Axioms

Every theorem listed in MANIFEST.json depends on a subset of `propext`, `Classical.choice`, `Quot.sound` (checked by the gate over all
declarations; `lake env lean` on a file with `#print axioms` gives the list per theorem). There is no `axiom`, no opaque constant and no
`partial`/`unsafe` definition in `/verif/lean/Verif`.

## 6. Coverage of /repo (generated by tools/mkdesign.py from the citations)

For each source file: the functions with at least one cited line, and those with none. "Cited" means that a definition of the model names these lines; what is simplified there is said in that comment.

| file | modelled | not modelled |
|---|---|---|
| flavio/_parse_errors.py | errors_from_string, limit_from_string, lognormal_from_string, range_from_string, errors_from_constraints, constraints_from_string | - |
| flavio/citations.py | CitationScope.__enter__, Citations.__init__, Citations.__iter__, Citations.__str__, Citations.set, Citations.string, Citations.register, Citations.clear, Citations.reset | CitationScope.__exit__ |
| flavio/classes.py | NamedInstanceMetaclass.__getitem__, NamedInstanceMetaclass.__delitem__, NamedInstanceClass.__init__, NamedInstanceClass.get_instance, NamedInstanceClass.del_instance, NamedInstanceClass.clear_all, NamedInstanceClass.find, Constraints.__init__, Constraints.all_parameters, Constraints.add_constraint, Constraints.set_constraint, Constraints.remove_constraint, Constraints.remove_constraints, Constraints.get_central, Constraints.get_central_all, Constraints.get_random_all, Constraints.get_1d_errors_rightleft, Constraints.get_logprobability_single, Constraints.get_logprobability_all, Constraints.copy, Constraints.get_yaml_dict, Constraints.from_yaml_dict, ParameterConstraints.read_default, tree, dicts, Observable.__init__, Observable.argument_format, Observable.prediction_central, Observable.prediction_par, Observable.add_taxonomy, Observable.taxonomy_dict, Observable.from_function, Observable.get_measurements, Observable.theory_citations, AuxiliaryQuantity.__init__, AuxiliaryQuantity.get_implementation, AuxiliaryQuantity.prediction_central, AuxiliaryQuantity.prediction, Prediction.__init__, Prediction.get_central, Prediction.get_par, Implementation.show_all, Implementation.__init__, Implementation.get, Measurement.__init__ | NamedInstanceClass.set_description, Parameter.__init__, Parameter.__repr__, Parameter._repr_markdown_, Constraints.get_1d_errors, Constraints.get_1d_errors_random, Constraints.get_yaml, Constraints.from_yaml, ParameterConstraints.__init__, WilsonCoefficientPriors.__init__, Observable.__repr__, Observable._repr_markdown_, Observable.set_prediction, Implementation.get_central, Implementation.get_random, Measurement.__repr__, Measurement._repr_markdown_ |
| flavio/functions.py | np_prediction, sm_prediction, np_uncertainty, sm_uncertainty, AwareDict.__init__, AwareDict.__getitem__, AwareDict.__copy__, AwareDict.copy, AwareWilson.__init__, AwareWilson.match_run, get_dependent_parameters_sm, get_dependent_wcs, sm_error_budget, sm_covariance, combine_measurements | _obs_prediction_par, _get_prediction_array_sm |
| flavio/io/instanceio.py | YAMLLoadable.input_schema, YAMLLoadable.output_schema, YAMLLoadable.load_dict, YAMLLoadable.get_yaml_dict, coerce_observable_tuple, coerce_observable_dict, coerce_par_obj, ensurelist, get_par_diff, list_deduplicate | YAMLLoadable.load, YAMLLoadable.dump |
| flavio/io/yaml.py | represent_dict_order, dict_constructor, SafeIncludeLoader.__init__, SafeIncludeLoader.include, SafeIncludeLoader.include_merge_list, SafeIncludeLoader._get_filename, load_include | - |
| flavio/math/functions.py | zeta, li2, normal_logpdf, normal_pdf | ei |
| flavio/math/integrate.py | nintegrate, nintegrate_fast, nintegrate_complex | nintegrate_quadrature |
| flavio/math/optimize.py | minimize_robust, maximize_robust | MinuitFunction.__init__, MinuitFunction.__call__, minimize_migrad |
| flavio/measurements.py | _load, _load_new, _fix_correlation_matrix, write_file, read_file | read_url, load, read_default |
| flavio/parameters.py | _read_yaml_object_values, _read_yaml_object_values_correlated, read_file_values, FlavioParticle.flavio_name, FlavioParticle.flavio_m, FlavioParticle.flavio_tau, read_pdg | _read_yaml_object_metadata, read_file_metadata, _read_yaml_object_new, read_file, read_file_values_correlated, write_file, FlavioParticle.from_flavio_name, FlavioParticle.flavio_all, FlavioParticle.latex_name_simplified |
| flavio/physics/__init__.py | module level | - |
| flavio/physics/bdecays/angular.py | transversity_to_helicity, helicity_amps_v, angularcoeffs_general_Gbasis_v, angularcoeffs_h_Gbasis_v, G_to_g, angularcoeffs_general_v, angularcoeffs_h_v, helicity_amps_p, angularcoeffs_general_Gbasis_p, angularcoeffs_general_p | _Re, _Im, _Co |
| flavio/physics/bdecays/bc_lifetime.py | tau_Bc | - |
| flavio/physics/bdecays/bll.py | br_lifetime_corr, amplitudes, ADeltaGamma, br_inst, br_timeint, bqll_obs, bqll_obs_lsum, bqll_obs_function, bqll_obs_function_lsum, tau_ll | tau_ll_func, ADG_func, ADeltaGamma_func |
| flavio/physics/bdecays/bllgamma.py | prefactor, getfft, getF1, getF2, B10, B12, B120, dG1dsMN, dG2dsMN, dG12dsMN, dGdsMN, bllg_dbrdq2, bllg_dbrdq2_func, bllg_dbrdq2_int, bllg_dbrdq2_int_func | _Re, _Im, _Co, get_ff |
| flavio/physics/bdecays/blnu.py | br_plnu_general, br_blnu, _br_blnu | br_blnu_fct |
| flavio/physics/bdecays/bpll.py | get_subleading, helicity_amps_ff, helicity_amps, helicity_amps_bar, bpll_obs, dGdq2, AFB_num, FH_num, dGdq2_cpaverage, dGdq2_cpdiff, AFB_cpaverage_num, FH_cpaverage_num, bpll_obs_int, bpll_dbrdq2, bpll_dbrdq2_int, bpll_dbrdq2_tot_func, bpll_dbrdq2_Belle_func, bpll_dbrdq2_func, bpll_obs_int_ratio_func, bpll_obs_int_ratio_leptonflavour, bpll_obs_ratio_leptonflavour, bpll_obs_ratio_func | prefactor, get_ff, bpll_dbrdq2_int_func |
| flavio/physics/bdecays/bpll_lfv.py | bpll_obs, bpll_dbrdq2, bpll_dbrdq2_int, bpll_dbrdq2_tot_func, bpll_dbrdq2_tot_lfv_comb_func | helicity_amps, dGdq2, _define_obs_B_Mll |
| flavio/physics/bdecays/bpll_subleading.py | _helicity_amps_deltaC, helicity_amps_deltaC7_polynomial, helicity_amps_deltaC9_polynomial, helicity_amps_deltaC9_constant | helicity_amps_deltaC7, helicity_amps_deltaC9, fct_deltaC7_polynomial, fct_deltaC9_polynomial, fct_deltaC9_constant |
| flavio/physics/bdecays/bplnu.py | prefactor, get_ff, get_angularcoeff, _get_angularcoeff, dBRdq2_lep, dBRdq2, BR_binned, BR_binned_leptonflavour, _BR_tot, BR_tot, BR_binned_tot_function, BR_tot_leptonflavour | dGdq2, dBRdq2_function, BR_binned_function, BR_binned_leptonflavour_function, BR_tot_function, BR_tot_leptonflavour_function |
| flavio/physics/bdecays/bpnunu.py | prefactor, get_ff, helicity_amps, bpnunu_obs, bpnunu_dbrdq2_summed, bpnunu_dbrdq2_int_summed, bpnunu_BRtot_summed | BRtot_summed, dbrdq2_int_summed, dbrdq2_summed |
| flavio/physics/bdecays/bvgamma.py | prefactor, prefactor_helicityamps, amps_ff, amps_ss, amps_subleading, amps, amps_bar, get_a_abar, Gamma, Gamma_CPaverage, BR, ACP, S_A_complex, S, A_DeltaGamma, BR_timeint, BVgamma_ratio_function | BVgamma_function |
| flavio/physics/bdecays/bvll/_qcdf_interpolate_write.py | module level | - |
| flavio/physics/bdecays/bvll/amplitudes.py | prefactor, get_ff, helicity_amps_ff, get_ss, get_subleading, helicity_amps, helicity_amps_bar | - |
| flavio/physics/bdecays/bvll/lfv.py | prefactor, helicity_amps, bvlilj_obs, bvlilj_obs_int, BR_tot, BR_tot_function_leptonsum | BR_tot_function |
| flavio/physics/bdecays/bvll/nonfactorizable.py | ha_qcdf_function, ha_qcdf_interpolate_function | - |
| flavio/physics/bdecays/bvll/observables.py | dGdq2, dGdq2_ave, dGdq2_diff, SA_den, P_den, S_theory, S_theory_num, A_theory, A_theory_num, S_experiment, S_experiment_num, A_experiment, A_experiment_num, AFB_experiment, AFB_experiment_num, AFB_theory, AFB_theory_num, FL, FL_num, FLhat, FLhat_num, BVllObservable.__init__, BVllObservable.ff, BVllObservable.wceff, BVllObservable.wceff_bar, BVllObservable.helicity_amps_ff, BVllObservable.ha, BVllObservable.ha_bar, BVllObservable.j, BVllObservable.jbar, BVllObservable.jfunc, BVllObservableDifferential.__init__, BVll_dBRdq2.__call__, BVll_obs.__init__, BVll_obs.__call__, BVll_ratio.__init__, BVll_pprime.__init__, BVll_pprime.func_2s, BVll_pprime.func_2c, BVll_pprime.__call__, BVll_dBRdq2_int.__init__, BVll_dBRdq2_int.obs, BVll_dBRdq2_int.__call__, BVll_obs_int.__init__, BVll_obs_int.obs, BVll_obs_int.__call__, BVll_int_ratio.__init__, BVll_int_ratio.obs_num, BVll_int_ratio.obs_den, BVll_int_ratio.__call__, BVll_int_pprime.__init__, BVll_int_pprime.obs_num, nintegrate_pole, bvll_obs_int_ratio_leptonflavour | BVllObservableBinned.__init__, BVll_dBRdq2.__init__, BVll_ratio.__call__, BVll_int_pprime.obs_2s, BVll_int_pprime.obs_2c, BVll_int_pprime.__call__, bvll_obs_ratio_leptonflavour, make_metadata_binned, make_metadata_differential, make_obs, make_obs_p, make_obs_pprime, make_obs_br, make_obs_lfur, diff |
| flavio/physics/bdecays/bvll/observables_bs.py | bsvll_obs, S_theory_num_Bs, S_experiment_num_Bs, dGdq2_ave_Bs, SA_den_Bs, FL_Bs, FL_num_Bs, bsvll_obs_int, bsvll_dbrdq2_int | S_experiment_Bs, bsvll_dbrdq2, bsvll_dbrdq2_int_func, bsvll_dbrdq2_func, bsvll_obs_int_ratio_func, bsvll_obs_int_ratio_leptonflavour, bsvll_obs_ratio_func, bsvll_dbrdq2_19_func |
| flavio/physics/bdecays/bvll/qcdf.py | get_input, Cq34, T_para_minus_WA, T_perp_WA_PowC_1, T_perp_WA_PowC_2, T_perp_plus_O8, T_para_minus_O8, T_perp_plus_QSS, T_para_plus_QSS, T_para_minus_QSS, En_V, t_perp, t_para, B0diffBFS, B0, i1_bfs, L1, phiV, lB_minus, lB_plus, T_para, T_perp, transversity_amps_qcdf, helicity_amps_qcdf | - |
| flavio/physics/bdecays/bvll/qcdf_interpolate.py | helicity_amps_qcdf | - |
| flavio/physics/bdecays/bvll/subleading.py | HelicityAmpsDeltaC.ha_deltaC, HelicityAmpsDeltaC_77p_polynomial.__call__, HelicityAmpsDeltaC_9_shift.__call__ | HelicityAmpsDeltaC.__init__, HelicityAmpsDeltaC_77p_polynomial.__init__, HelicityAmpsDeltaC_9_shift.__init__, fct_deltaC7C7p_polynomial, fct_deltaC9_constant |
| flavio/physics/bdecays/bvlnu.py | get_ff, prefactor, get_angularcoeff, _get_angularcoeff, dGdq2, dGdq2_L, dGdq2_T, dG_dq2_dcosthl, dG_dq2_dcosthV, dG_dq2_dphi, _cos_angle_diff, _cos_angle_int, _angle_diff, _angle_int, obs_q2int, kinem_allowed, FL_diff, FL_binned, Itot_norm, dBR_dq2_dcosthl_binned, BR_binned_costhl, dBR_dq2_dcosthl, dBR_dcosthl, dBR_dq2_dcosthV_binned, BR_binned_costhV, dBR_dq2_dcosthV, dBR_dcosthV, dBR_dq2_dphi_binned, BR_binned_phi, dBR_dq2_dphi, dBR_dphi, BRfac, dBRdq2_lep, dBRdq2, dBRdq2_function, BR_binned, BR_binned_function, BR_binned_tot_function, FL_function, FL_tot_function, FLt_tot_function, AFB_tot_function, I3_tot_function, BR_binned_costhl_function, BR_binned_costhV_function, BR_binned_phi_function, dBR_dcosthl_function, dBR_dcosthV_function, dBR_dphi_function, _BR_tot, BR_tot, BR_binned_leptonflavour, BR_tot_leptonflavour | FL_binned_function, BR_tot_function, BR_tot_leptonflavour_function, BR_binned_leptonflavour_function |
| flavio/physics/bdecays/bvnunu.py | helicity_amps, bvnunu_obs, bvnunu_dbrdq2_summed, bvnunu_fl_num_summed, bvnunu_fl_summed, bvnunu_fl_int_summed | prefactor, get_ff, bvnunu_dbrdq2_int_summed, bvnunu_fl_num_int_summed, bvnunu_BRtot_summed, BRtot_summed, dbrdq2_int_summed, dbrdq2_summed, fl_int_summed, fl_summed |
| flavio/physics/bdecays/bxgamma.py | BRBXgamma, PE0_BR_BXgamma, PE0_ACP_BXgamma, ACPBXgamma | - |
| flavio/physics/bdecays/bxll.py | bxll_parameters, bxll_br_prefactor, inclusive_wc, _bxll_dbrdq2_unnorm, _bxll_dbrdq2, bxll_dbrdq2, _bxll_afb_num, bxll_afb_num, bxll_afb_den, bxll_afb, f_ll, f_ll_ha, sigma9, sigma7, sigma, tau77, tau99, tau79, tau710, tau910, f7, f9, Phill_pc_mb2, Phill_logqed, sigma77_T, sigma79_T, sigma99_T, sigma77_L, sigma79_L, sigma99_L, sigma710_A, sigma910_A, sigmaij_I, f_u, bxll_br_int, bxll_br_int_func, bxll_br_int_ratio_func, bxll_afb_num_int, bxll_afb_den_int, bxll_afb_int_func | bxll_dbrdq2_func, bxll_afb_func |
| flavio/physics/bdecays/bxll_qed.py | wem_22_HL_low, wem_22_HT_low, wem_27_HL_low, wem_27_HL_low_im, wem_27_HL_low_re, wem_27_HT_low, wem_27_HT_low_im, wem_27_HT_low_re, wem_29_HL_low, wem_29_HL_low_im, wem_29_HL_low_re, wem_29_HT_low, wem_29_HT_low_im, wem_29_HT_low_re, wem_77_HL_low, wem_77_HT_low, wem_79_HL_low, wem_79_HT_low, wem_99_HL_low, wem_99_HT_low, unit_step, wem_210_HA_low, wem_710_HA_low, wem_910_HA_low, wem_22_high, wem_22_low, wem_27_high, wem_27_re_high, wem_27_im_high, wem_27_low, wem_27_im_low, wem_27_re_low, wem_29_high, wem_29_re_high, wem_29_im_high, wem_29_im_low, wem_29_low, wem_29_re_low, wem_77_high, wem_99_high, wem_79_high, wem_99_low, wem_77_low, wem_79_low, wem | wem_99_low |
| flavio/physics/bdecays/bxlnu.py | BR_BXclnu, _BR_BXclnu, g, gLR, gVS, gVSp, d, pc1, pc2, BR_tot_function, BR_tot_leptonflavour, BR_tot_leptonflavour_function | - |
| flavio/physics/bdecays/common.py | module level | beta_l |
| flavio/physics/bdecays/formfactors/__init__.py | module level | - |
| flavio/physics/bdecays/formfactors/b_gamma/bgamma.py | ff | - |
| flavio/physics/bdecays/formfactors/b_p/bcl.py | pole, param_fplusT, param_f0, ff, ff_isgurwise | - |
| flavio/physics/bdecays/formfactors/b_p/bcl_lmvd.py | param_fplusT, param_f0, ff | pole |
| flavio/physics/bdecays/formfactors/b_p/bcl_parameters.py | load_parameters | - |
| flavio/physics/bdecays/formfactors/b_p/bcl_parameters_lmvd.py | load_parameters | - |
| flavio/physics/bdecays/formfactors/b_p/bsz.py | zs, ff | pole |
| flavio/physics/bdecays/formfactors/b_p/bsz_parameters.py | get_ffpar, load_parameters, gkvd_load, load_ffs_eos | - |
| flavio/physics/bdecays/formfactors/b_p/btop.py | ff_function | - |
| flavio/physics/bdecays/formfactors/b_p/cln.py | h_to_f, ff | - |
| flavio/physics/bdecays/formfactors/b_v/bsz.py | pole, ff | zs |
| flavio/physics/bdecays/formfactors/b_v/bsz_parameters.py | get_ffpar, load_parameters, transition_filename, bsz_load, gkvd_load | bsz_load_v1_lcsr, bsz_load_v1_combined, bsz_load_v2_lcsr, bsz_load_v2_combined |
| flavio/physics/bdecays/formfactors/b_v/btov.py | module level | ff_function |
| flavio/physics/bdecays/formfactors/b_v/cln.py | h_to_A, ff | - |
| flavio/physics/bdecays/formfactors/b_v/clnexp.py | ff | - |
| flavio/physics/bdecays/formfactors/b_v/isgurwise.py | isgur_wise | - |
| flavio/physics/bdecays/formfactors/b_v/lattice_parameters.py | csv_to_dict, load_parameters | lattice_load |
| flavio/physics/bdecays/formfactors/b_v/sse.py | zs, ff | pole |
| flavio/physics/bdecays/formfactors/common.py | z, w_minus_1_pow_n | - |
| flavio/physics/bdecays/formfactors/hqet.py | get_hqet_parameters, xi, Lz, ell_i, ell, r, omega_plus, omega_minus, omega, CV1, CV2, CV3, CA1, CA2, CA3, CT1, CT2, CT3 | CP |
| flavio/physics/bdecays/formfactors/lambdab_12/lambdab.py | module level | ff_function |
| flavio/physics/bdecays/formfactors/lambdab_12/lattice_parameters.py | csv_to_dict, translate_parameters, load_parameters | lattice_load_nominal, lattice_load_ho |
| flavio/physics/bdecays/formfactors/lambdab_12/sse.py | zs, pole, ff | - |
| flavio/physics/bdecays/formfactors/lambdab_32/LatticeQCD.py | omega_fct, ff_formula, formfactors, ff_equiv | - |
| flavio/physics/bdecays/formfactors/lambdab_32/QuarkModel_MCN.py | lambda_momentum, F, formfactors, ff_equiv | lambda_mass, alpha_lambda_lambdaprime |
| flavio/physics/bdecays/lambdablambda1520ll.py | helicity_amps, transversity_amps, angular_coefficients, prefactor, get_ff, get_transversity_amps_ff, get_transversity_amps, get_obs, dGdq2, S, A, FL_num, AFBl_num, AFBh, AFBlh, obs_int, dbrdq2_int_func, dbrdq2_func, obs_ratio_func, obs_int_ratio_func | - |
| flavio/physics/bdecays/lambdablambdall.py | helicity_amps, transverity_amps, angular_coefficients, get_ff, prefactor, get_transverity_amps_ff, get_subleading, get_transverity_amps, get_obs, dGdq2, FL_num, AFBl_num, AFBh_num, AFBlh_num, dbrdq2, dbrdq2_int, obs_int, obs_ratio_func, obs_int_ratio_func | dbrdq2_int_func, dbrdq2_func |
| flavio/physics/bdecays/lambdablambdall_subleading.py | _transversity_amps_deltaC, transversity_amps_deltaC7, transversity_amps_deltaC9, transversity_amps_deltaC7_polynomial, fct_deltaC7_polynomial, fct_deltaC9_constant | transversity_amps_deltaC9_constant |
| flavio/physics/bdecays/matrixelements.py | h, Y, Yu, F_17, F_19, F_27, F_29, F_89, F_87, acot, SeidelA, SeidelB, SeidelC, Fu_17, Fu_27, Fu_19, Fu_29, delta_C7, delta_C9 | - |
| flavio/physics/bdecays/wilsoncoefficients.py | CL_SM, wctot_dict, get_C78eff, get_wceff, get_wceff_lfv, get_wceff_nunu, get_CVLSM, get_wceff_fccc, get_wceff_fccc_std | - |
| flavio/physics/betadecays/common.py | wc_eff | - |
| flavio/physics/betadecays/ft.py | xi, a_xi, a, b_xi, dl, la, A_xi, B_xi, D_xi, R_xi, b, A, B, D, R, K, Ft_superallowed, NeutronObservable.__init__, NeutronObservable.xi, NeutronObservable.a, NeutronObservable.b, NeutronObservable.A, NeutronObservable.B, NeutronObservable.D, NeutronObservable.R, Neutron_tau.__init__, Neutron_tau.__call__, Neutron_corr.__call__, get_daughter | Neutron_corr.__init__, Ft_fct, make_obs_neutron_corr |
| flavio/physics/ckm.py | ckm_standard, tree_to_wolfenstein, ckm_wolfenstein, ckm_tree, ckm_beta_gamma, _func_standard, _func_tree, _func_wolfenstein, _func_beta_gamma, get_ckm, get_ckmangle_beta, get_ckmangle_alpha, get_ckmangle_gamma, xi_kl_ij, xi | - |
| flavio/physics/common.py | conjugate_par, conjugate_wc, add_dict, lambda_K | - |
| flavio/physics/ddecays/dlnu.py | br_Dlnu, _br_Dlnu | br_Dlnu_fct |
| flavio/physics/ddecays/dplnu.py | prefactor, get_ff, get_angularcoeff, _get_angularcoeff, dBRdq2_lep, dBRdq2, BR_binned, BR_binned_leptonflavour, _BR_tot, BR_tot, BR_binned_tot_function, BR_tot_leptonflavour | dGdq2, dBRdq2_function, BR_binned_function, BR_binned_leptonflavour_function, BR_tot_function, BR_tot_leptonflavour_function |
| flavio/physics/ddecays/formfactors/__init__.py | ff_function | - |
| flavio/physics/ddecays/formfactors/bcl.py | ff | - |
| flavio/physics/ddecays/formfactors/bsz.py | ff | - |
| flavio/physics/dileptons/partondist.py | get_pdf, get_parton_lumi | - |
| flavio/physics/dileptons/ppll.py | F_qqll_SM, wceff_qqll_sm, wceff_qqll_np, sigma_qqll_partonic, dsigma_dtau_qqll, sigma_qqll_int, R_sigma_qqll_int, R_sigma_qqll_int_fct_lhc13 | - |
| flavio/physics/dileptons/pplnu.py | F_qqlnu_SM, wceff_qqlnu_sm, wceff_qqlnu_np, dsigma_dtau_qqlnu_partial, dsigma_dtau_qqlnu, sigma_qqlnu_int, R_sigma_qqlnu_int, R_sigma_qqlnu_int_fct_lhc13 | - |
| flavio/physics/edms/common.py | get_m, edm_f, cedm_f, proton_charges | - |
| flavio/physics/edms/neutronedm.py | nedm_wceff, nedm | - |
| flavio/physics/edms/paraedm.py | de, omega_para, d_para | make_obs_d, make_obs_omega |
| flavio/physics/edms/slcouplings.py | CS | - |
| flavio/physics/eft.py | WilsonCoefficients.__init__, WilsonCoefficients.set_initial, WilsonCoefficients.set_initial_wcxf, WilsonCoefficients.get_initial_wcxf, WilsonCoefficients.from_wilson, WilsonCoefficients.get_wcxf, WilsonCoefficients.get_wc | WilsonCoefficients.run_wcxf |
| flavio/physics/elements.py | symbol, Z | - |
| flavio/physics/higgs/decay.py | h_gg, h_gaga, h_ww, h_zz, h_vv, h_zga, h_bb, h_cc, h_tautau, h_mumu | - |
| flavio/physics/higgs/production.py | ggF, hw, hz, hv, tth, vv_h | - |
| flavio/physics/higgs/signalstrength.py | higgs_signalstrength, make_obs_higgs | - |
| flavio/physics/higgs/width.py | Gamma_rel_ff, Gamma_h | - |
| flavio/physics/kdecays/formfactors.py | fp0_dispersive, fT_pole, ff_dispersive_pole | - |
| flavio/physics/kdecays/kll.py | amplitudes, amplitudes_LD, amplitudes_eff, get_wc, br_kll, br_kll_fct, br_kll_fct_lsum | - |
| flavio/physics/kdecays/klnu.py | br_plnu, _br_plnu, r_plnu, gamma_plnu, delta_Plnu, F | br_plnu_fct, r_plnu_fct_p, gamma_plnu_fct, r_plnu_fct_l |
| flavio/physics/kdecays/kpilnu.py | get_ff, get_angularcoeff, _get_angularcoeff, dBRdq2, BR_binned, BR_tot, BR_tot_function, logC, RT, logC_function | dGdq2, RT_function |
| flavio/physics/kdecays/kpinunu.py | kpinunu_amplitude, kpinunu_charm, kappa_nu_tilde, br_kplus_pinunu, br_klong_pinunu, br_kplus_pinunu_summed, br_klong_pinunu_summed | - |
| flavio/physics/kdecays/kpipi.py | Kpipi_matrixelements_SM, Kpipi_matrixelements_NP, Kpipi_amplitudes_SM, Kpipi_amplitudes_NP, epsprime_SM, epsprime_NP, epsprime | - |
| flavio/physics/kdecays/lambdaplnu.py | g1_f1, g1_f1_fct | - |
| flavio/physics/kdecays/wilsoncoefficients.py | wilsoncoefficients_sm_fourquark, wilsoncoefficients_sm_sl | - |
| flavio/physics/mdms/al.py | al, ae, amu, atau, make_observable | - |
| flavio/physics/mesonmixing/amplitude.py | matrixelements, M12_d_SM, M12, G12_d_SM, G12_d, G12_u_SM, M12_u_SM | G12_u |
| flavio/physics/mesonmixing/common.py | bag_msbar2rgi, DeltaM, DeltaGamma, q_over_p, a_fs | - |
| flavio/physics/mesonmixing/observables.py | get_M12_G12, DeltaM_12, DeltaM_positive, DeltaGamma_B, x, y, x12, y12, x12Im, phi12, epsK, amplitude_BJpsiK, amplitude_Bspsiphi, S, S_BJpsiK, S_Bspsiphi | a_fs, q_over_p, DeltaGamma_12 |
| flavio/physics/mesonmixing/wilsoncoefficient.py | F_box, S0_box, cvll_d | - |
| flavio/physics/mudecays/mu3e.py | BR_mu3e | - |
| flavio/physics/mudecays/mueconversion.py | CR_mue, CR_mueAu, CR_mueAl, CR_mueTi | - |
| flavio/physics/neutrinos/trident.py | R_trident | - |
| flavio/physics/quarkonium/Pll.py | getS_lfv, Pll_br, Pll_br_comb_func | Pll_br_func, _define_obs_P_ll |
| flavio/physics/quarkonium/Sll.py | getS_lfv, Sll_br, Sll_br_comb_func | Sll_br_func, _define_obs_S_ll |
| flavio/physics/quarkonium/Vll.py | getVT_lfv, getVT_lfc, Vll_br, Vll_br_func, Vll_br_comb_func, Vll_ratio_func, Vll_ratio_comb_func, _define_obs_V_ll, _define_obs_V_ll_ratio | - |
| flavio/physics/quarkonium/Vllgamma.py | getWC_lfv, F_A, F_S, Ftilde_S, Fhat_P, Fhat_S, F_PA, Ftilde_PA, Vllgamma_br, Vllgamma_br_func, Vllgamma_br_comb_func, Vllgamma_ratio_func, Vllgamma_ratio_comb_func | _define_obs_V_ll_gamma, _define_obs_V_ll_gamma_ratio |
| flavio/physics/running/betafunctions.py | beta_qcd, beta_qed, beta_qcd_qed, betafunctions_qcd_qed_nf | - |
| flavio/physics/running/masses.py | fKsFromMs1, fKsFromMs2, fKsFromMs3, mKS2mMS, mMS2mKS | - |
| flavio/physics/running/running.py | _thresholds, rg_evolve_sm, _rg_evolve_sm, run_alpha_e, get_nf, get_alpha_e, get_alpha_s, get_alpha, get_mb, get_mc, get_mu, get_md, get_ms, get_mq, get_mc_pole, _get_mc_pole, get_mc_KS, _get_mc_KS, get_mb_pole, _get_mb_pole, get_mb_KS, _get_mb_KS, get_mb_1S, _get_mb_1S, get_mt, _get_mt, get_mt_mt, _get_mt_mt, make_wilson_rge_derivative, get_wilson, get_f_perp, _rg_factor_f_perp | rg_evolve |
| flavio/physics/scattering/ee_ww.py | ee_WW, ee_WW_obs, ee_WW_diff, ee_WW_diff_obs | - |
| flavio/physics/taudecays/common.py | GammaFvf, GammaFsf, Gamma | - |
| flavio/physics/taudecays/tau3l.py | _BR_taumuee, _BR_tau3mu, _BR_taumuemu, wc_eff, BR_taul1l2l3, br_taul1l2l3_fct | - |
| flavio/physics/taudecays/taulgamma.py | BR_llgamma | BR_taulgamma, br_taulgamma_fct |
| flavio/physics/taudecays/taulnunu.py | F, G, _BR, GFeff, BR_taulnunu, BR_taulnunu_summed | br_taulnunu |
| flavio/physics/taudecays/taupl.py | br_taupl | br_taupl_fct |
| flavio/physics/taudecays/taupnu.py | _br_taupnu, br_taupnu | br_taupnu_fct |
| flavio/physics/taudecays/tauvl.py | br_tauvl | get_wcs, br_tauvl_fct |
| flavio/physics/wdecays/gammaw.py | gWl_SM, gWq_SM, gWf_SM, GammaWq_SM, GammaWl_SM, GammaW_SM, GammaW_NP, GammaW, Gammalep, Gammahad, Gammatot, BRWlnu_fct, RWlnu_fct, RWcX | - |
| flavio/physics/wdecays/mw.py | mW_SM, dmW_SMEFT, mW | - |
| flavio/physics/zdecays/afbz.py | Af, AFBf, get_gV_gA, Af_fct, AFBf_fct | - |
| flavio/physics/zdecays/gammaz.py | GammaZ_NP, GammaZ, BRZ_fct_av, GammaZnu, Gammal, Gammahad, sigmahad, Gammatot, Rl, Rq, Rq1q2, Remutau | GammaZ_fct, BRZ_fct |
| flavio/physics/zdecays/gammazsm.py | Zobs, GammaZ_SM | - |
| flavio/physics/zdecays/smeftew.py | d_GF, _sinthetahat2, d_sh2, d_mZ2, d_gZb, gV_SM, gA_SM, d_gVl, d_gVnu, d_gVu, d_gVd, d_gAl, d_gAnu, d_gAu, d_gAd, d_gV, d_gA, d_gWl, d_gWq, d_gW | - |
| flavio/plots/colors.py | lighten_color, darken_color, get_color | - |
| flavio/plots/plotfunctions.py | error_budget_pie, diff_plot_th, diff_plot_th_err, bin_plot_th, bin_plot_exp, diff_plot_exp, density_contour_data, likelihood_contour_data, likelihood_contour, band_plot, contour, flavio_box, pdf_plot, likelihood_plot, pvalue_plot, density_contour_joint | density_contour, flavio_branding, smooth_histogram |
| flavio/statistics/functions.py | confidence_level, delta_chi2, pull, pvalue | - |
| flavio/statistics/likelihood.py | MeasurementLikelihood.__init__, MeasurementLikelihood._warn_meas_corr, MeasurementLikelihood.get_measurements, MeasurementLikelihood.get_predictions_par, MeasurementLikelihood.get_number_observations, MeasurementLikelihood.log_likelihood_pred, MeasurementLikelihood.log_likelihood_par, ParameterLikelihood.__init__, ParameterLikelihood.log_likelihood_par, Likelihood.__init__, Likelihood.log_prior_fit_parameters, Likelihood.log_likelihood, SMCovariance.__init__, SMCovariance.compute, SMCovariance.get, SMCovariance.save, SMCovariance.load, SMCovariance.load_dict, MeasurementCovariance.compute, MeasurementCovariance.get, MeasurementCovariance.save, MeasurementCovariance.load, MeasurementCovariance.load_dict, FastLikelihood.__init__, FastLikelihood.make_measurement, FastLikelihood.likelihood, FastLikelihood.log_likelihood | ParameterLikelihood.get_central, ParameterLikelihood.get_random, Likelihood.log_likelihood_exp, MeasurementCovariance.__init__ |
| flavio/statistics/probability.py | _camel_to_underscore, string_to_class, ProbabilityDistribution.__init__, ProbabilityDistribution.get_subclasses, ProbabilityDistribution.get_central, ProbabilityDistribution.error_left, ProbabilityDistribution.error_right, ProbabilityDistribution.class_to_string, ProbabilityDistribution.get_dict, ProbabilityDistribution.get_yaml, ProbabilityDistribution.delta_logpdf, UniformDistribution.__init__, UniformDistribution.__repr__, UniformDistribution.get_random, UniformDistribution._logpdf, UniformDistribution.logpdf, UniformDistribution.get_error_left, UniformDistribution.get_error_right, DiscreteUniformDistribution.__init__, DiscreteUniformDistribution.__repr__, DiscreteUniformDistribution.get_random, DiscreteUniformDistribution._logpdf, DiscreteUniformDistribution.logpdf, DiscreteUniformDistribution.get_error_left, DiscreteUniformDistribution.get_error_right, DeltaDistribution.__init__, DeltaDistribution.__repr__, DeltaDistribution.get_random, DeltaDistribution.logpdf, DeltaDistribution.get_error_left, DeltaDistribution.get_error_right, NormalDistribution.__init__, NormalDistribution.__repr__, NormalDistribution.get_random, NormalDistribution.logpdf, NormalDistribution.pdf, NormalDistribution.cdf, NormalDistribution.ppf, NormalDistribution.get_error_left, NormalDistribution.get_error_right, LogNormalDistribution.__init__, LogNormalDistribution.__repr__, LogNormalDistribution.get_random, LogNormalDistribution.logpdf, LogNormalDistribution.pdf, LogNormalDistribution.cdf, LogNormalDistribution.ppf, LogNormalDistribution.get_error_left, LogNormalDistribution.get_error_right, AsymmetricNormalDistribution.__init__, AsymmetricNormalDistribution.__repr__, AsymmetricNormalDistribution.get_random, AsymmetricNormalDistribution._get_random, AsymmetricNormalDistribution._logpdf, AsymmetricNormalDistribution.logpdf, AsymmetricNormalDistribution.get_error_left, AsymmetricNormalDistribution.get_error_right, HalfNormalDistribution.__init__, HalfNormalDistribution.__repr__, HalfNormalDistribution.get_random, HalfNormalDistribution._logpdf, HalfNormalDistribution.logpdf, HalfNormalDistribution.cdf, HalfNormalDistribution.ppf, HalfNormalDistribution.get_error_left, HalfNormalDistribution.get_error_right, GaussianUpperLimit.__init__, GaussianUpperLimit.__repr__, GaussianUpperLimit.get_standard_deviation, GammaDistribution.__init__, GammaDistribution.__repr__, GammaDistribution.get_random, GammaDistribution.cdf, GammaDistribution.ppf, GammaDistribution.logpdf, GammaDistribution._find_error_cdf, GammaDistribution.get_error_left, GammaDistribution.get_error_right, GammaDistributionPositive.__init__, GammaDistributionPositive.__repr__, GammaDistributionPositive.get_random, GammaDistributionPositive._get_random, GammaDistributionPositive.cdf, GammaDistributionPositive.ppf, GammaDistributionPositive.logpdf, GammaDistributionPositive._find_error_cdf, GammaDistributionPositive.get_error_left, GammaDistributionPositive.get_error_right, GammaCountingProcess.__init__, GammaCountingProcess.__repr__, GammaUpperLimit.__init__, GammaUpperLimit.__repr__, NumericalDistribution.__init__, NumericalDistribution.__repr__, NumericalDistribution.get_random, NumericalDistribution.ppf, NumericalDistribution.cdf, NumericalDistribution.pdf, NumericalDistribution.logpdf, NumericalDistribution._find_error_cdf, NumericalDistribution.get_error_left, NumericalDistribution.get_error_right, NumericalDistribution.from_pd, GeneralGammaDistributionPositive.__init__, GeneralGammaDistributionPositive.__repr__, GeneralGammaDistributionPositive._get_xy, GeneralGammaCountingProcess.__init__, GeneralGammaCountingProcess.__repr__, GeneralGammaUpperLimit.__init__, GeneralGammaUpperLimit.__repr__, KernelDensityEstimate.__init__, KernelDensityEstimate.__repr__, GaussianKDE.__init__, GaussianKDE.__repr__, MultivariateNormalDistribution.__init__, MultivariateNormalDistribution.__repr__, MultivariateNormalDistribution.get_random, MultivariateNormalDistribution.reduce_dimension, MultivariateNormalDistribution.logpdf, MultivariateNormalDistribution.get_error_left, MultivariateNormalDistribution.get_error_right, MultivariateNumericalDistribution.__init__, MultivariateNumericalDistribution.__repr__, MultivariateNumericalDistribution._get_random, MultivariateNumericalDistribution.reduce_dimension, MultivariateNumericalDistribution.logpdf, MultivariateNumericalDistribution.from_pd, convolve_distributions, _convolve_distributions_univariate, _convolve_distributions_multivariate, _convolve_gaussians, _convolve_multivariate_gaussians, _convolve_numerical, _convolve_multivariate_gaussian_numerical, combine_distributions, _combine_distributions_univariate, weighted_average, _combine_gaussians, _combine_numerical, _combine_distributions_multivariate, _combine_multivariate_gaussians, _combine_multivariate_numerical, dict2dist | MultivariateNumericalDistribution.get_random, MultivariateNumericalDistribution.get_error_left, MultivariateNumericalDistribution.get_error_right |

Files with no modelled line (in total 433 lines): __init__.py, _version.py, config.py, data/update_citations.py, io/__init__.py, math/__init__.py, physics/bdecays/__init__.py, physics/bdecays/bvll/__init__.py, physics/bdecays/formfactors/b_gamma/__init__.py, physics/bdecays/formfactors/b_p/__init__.py, physics/bdecays/formfactors/b_p/isgurwise.py, physics/bdecays/formfactors/b_v/__init__.py, physics/bdecays/formfactors/lambdab_12/__init__.py, physics/bdecays/formfactors/lambdab_32/__init__.py, physics/bdecays/formfactors/lambdab_32/lambdab.py, physics/bdecays/lambdablambdagamma.py, physics/betadecays/__init__.py, physics/ddecays/__init__.py, physics/dileptons/__init__.py, physics/edms/__init__.py, physics/higgs/__init__.py, physics/kdecays/__init__.py, physics/mdms/__init__.py, physics/mesonmixing/__init__.py, physics/mudecays/__init__.py, physics/mudecays/muegamma.py, physics/neutrinos/__init__.py, physics/quarkonium/__init__.py, physics/running/__init__.py, physics/scattering/__init__.py, physics/taudecays/__init__.py, physics/units.py, physics/wdecays/__init__.py, physics/zdecays/__init__.py, plots/__init__.py, plots/config.py, statistics/__init__.py, util.py.
