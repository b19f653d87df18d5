import Verif.Dict.Theorems4
import Verif.Probability.MultivariateTheorems2
import Mathlib.Algebra.Order.Star.Real
/-!
# C38 and C40: the statements
-/
set_option linter.unusedSectionVars false
set_option linter.unusedSimpArgs false
set_option linter.unusedVariables false
namespace Verif.DistDict
open Verif.Py Verif.Probability

/-- Classes for which every object can be reloaded. (Specification.) -/
def AlwaysReloads : List Cls :=
  [.uniform, .delta, .normal, .logNormal, .asymmetricNormal, .halfNormal, .gaussianUpperLimit, .gamma,
   .gammaPositive, .gammaUpperLimit]

/-- **C38 (partial: these classes, all arguments)**: any object that the constructor accepts is recovered from its
dictionary. -/
theorem C38_reload_partial (E : Env) (c : Cls) (hc : c ∈ AlwaysReloads) (kw : Dict String PVal) (o : Obj)
    (h : construct E c kw = .ok o) : ∃ o', roundTrip E o = .ok [o'] ∧ Same o o' := by
  obtain ⟨args, _, hb, rfl⟩ := construct_ok h
  obtain ⟨c, a⟩ := o
  simp only at hc hb
  simp only [AlwaysReloads, List.mem_cons, List.not_mem_nil, or_false] at hc
  rcases hc with rfl | rfl | rfl | rfl | rfl | rfl | rfl | rfl | rfl | rfl
  · exact build_uniform E hb
  · exact build_delta E hb
  · exact build_normal E hb
  · exact build_logNormal E hb
  · exact build_asymmetricNormal E hb
  · exact build_halfNormal E hb
  · exact build_gaussianUpperLimit E hb
  · exact build_gamma E hb
  · exact build_gammaPositive E hb
  · exact build_gammaUpperLimit E hb

/-- Non-trivial case: a normal distribution given with an int. -/
example (E : Env) : ∃ o, construct E .normal [("central_value", .int 2), ("standard_deviation", .float 3)] = .ok o := by
  refine ⟨⟨.normal, uniAttrs (.normal 2 3) [("central_value", .int 2), ("standard_deviation", .float 3)]⟩, ?_⟩
  have : build E .normal [.int 2, .float 3] = .ok (uniAttrs (.normal 2 3) [("central_value", .int 2), ("standard_deviation", .float 3)]) := by
    show bNormal _ _ = _
    simp [bNormal, num, mkNormal]
    rw [if_neg (by norm_num)]; rfl
  have h2 := construct_zip E .normal [.int 2, .float 3] rfl
  rw [this] at h2
  exact h2

/-- The keyword arguments of a call, in order, `None` for those omitted. -/
theorem construct_args {E : Env} {c : Cls} {kw : Dict String PVal} {o : Obj} (h : construct E c kw = .ok o) :
    build E c ((params c).map fun p => (Dict.get? kw p.1).getD .none) = .ok o.attrs ∧ o.cls = c := by
  obtain ⟨args, h1, h2, h3⟩ := construct_ok h
  refine ⟨?_, h3⟩
  have : args = (params c).map fun p => (Dict.get? kw p.1).getD .none := by
    rw [mapM_ok_iff] at h1
    clear h2 h3 h
    generalize params c = ps at h1 ⊢
    induction h1 with
    | nil => rfl
    | cons h _ ih =>
      rw [List.map_cons, ← ih]
      congr 1
      unfold bindArg at h
      split at h
      · rename_i v hv; cases h; rw [hv]; rfl
      · rename_i hv
        split at h
        · cases h; rw [hv]; rfl
        · cases h
  rw [← this]; exact h2

/-- Shorthand: the value of an argument. (Specification.) -/
def arg (kw : Dict String PVal) (k : String) : PVal := (Dict.get? kw k).getD .none

/-- **C38** `DiscreteUniformDistribution` with a non-empty range. -/
theorem C38_discrete_partial (E : Env) (kw : Dict String PVal) (o : Obj) (lo hi : ℝ)
    (h : construct E .discreteUniform kw = .ok o) (hlo : num (arg kw "lowest_value") = .ok lo)
    (hhi : num (arg kw "highest_value") = .ok hi) (hle : lo ≤ hi) : ∃ o', roundTrip E o = .ok [o'] ∧ Same o o' := by
  obtain ⟨hb, hc⟩ := construct_args h
  obtain ⟨c, a⟩ := o
  simp only at hc; subst hc
  exact build_discrete E hb hlo hhi hle

/-- **C38** `NumericalDistribution` with an ascending grid. -/
theorem C38_numerical_partial (E : Env) (kw : Dict String PVal) (o : Obj) (x : List ℝ)
    (h : construct E .numerical kw = .ok o) (hx : vec (arg kw "x") = .ok x) (hs : x.Pairwise (· ≤ ·)) :
    ∃ o', roundTrip E o = .ok [o'] ∧ Same o o' := by
  obtain ⟨hb, hc⟩ := construct_args h
  obtain ⟨c, a⟩ := o
  simp only at hc; subst hc
  exact build_numerical E hb hx hs

/-- **C38** `GammaCountingProcess` with a total count that is not negative. -/
theorem C38_counting_partial (E : Env) (kw : Dict String PVal) (o : Obj) (tot : ℝ)
    (h : construct E .gammaCounting kw = .ok o) (ht : Dict.get? o.attrs "counts_total" = some (.float tot))
    (h0 : 0 ≤ tot) : ∃ o', roundTrip E o = .ok [o'] ∧ Same o o' := by
  obtain ⟨hb, hc⟩ := construct_args h
  obtain ⟨c, a⟩ := o
  simp only at hc; subst hc
  refine build_gammaCounting E hb fun x hx => ?_
  rw [ht] at hx; cases hx; exact h0

/-- **C38 fails** for a `GammaCountingProcess` whose total has been inferred to be negative: `ValueError`. -/
theorem C38_counting_negative_total (E : Env) (kw : Dict String PVal) (o : Obj) (tot : ℝ)
    (h : construct E .gammaCounting kw = .ok o) (ht : Dict.get? o.attrs "counts_total" = some (.float tot))
    (h0 : tot < 0) : roundTrip E o = .error .valueError := by
  obtain ⟨hb, hc⟩ := construct_args h
  obtain ⟨c, a⟩ := o
  simp only at hc; subst hc
  replace hb : bCounting _ _ _ _ = .ok a := hb
  unfold bCounting at hb
  obtain ⟨sf', _, hb⟩ := bind_eq_ok hb
  obtain ⟨t', _, hb⟩ := bind_eq_ok hb
  obtain ⟨b', _, hb⟩ := bind_eq_ok hb
  obtain ⟨s', _, hb⟩ := bind_eq_ok hb
  obtain ⟨p, hp, hb⟩ := bind_eq_ok hb
  cases hb
  have htot : p.counts.total = tot := by
    have : some (PVal.float p.counts.total) = some (.float tot) := ht
    injection this with this; injection this
  obtain ⟨hsf, _, h1, _, _⟩ := mkCounting_ok hp
  rw [roundTrip_eq E _ [.float p.scaleFactor, .float p.counts.total, .float p.counts.background,
    .float p.counts.signal] rfl]
  · show bCounting (thru (.float p.scaleFactor)) (thru (.float p.counts.total)) (thru (.float p.counts.background))
      (thru (.float p.counts.signal)) >>= _ = _
    simp only [bCounting, num_thru, optNum_thru, num_float, optNum_float, ok_bind_eq, mkCounting, h1]
    rw [if_neg (not_le.2 hsf)]
    unfold resolveCounts
    rw [if_pos ⟨_, rfl, by rw [htot]; exact h0⟩]
    rfl
  · simp only [List.mem_cons, List.not_mem_nil, or_false]
    rintro v (rfl | rfl | rfl | rfl) <;> exact float_notDist _

/-- Both cases occur: 3 counts with background 1; background 1 and signal -5. -/
example (E : Env) : (∃ a, build E .gammaCounting [.int 1, .int 3, .int 1, .none] = .ok a ∧
      Dict.get? a "counts_total" = some (.float 3)) ∧
    ∃ a, build E .gammaCounting [.int 1, .none, .int 1, .int (-5)] = .ok a ∧
      Dict.get? a "counts_total" = some (.float (-5 + 1)) := by
  constructor
  · have h : resolveCounts (some 3) (some 1) none = .ok ⟨3, 1, 3 - 1⟩ := by
      unfold resolveCounts
      rw [if_neg, if_neg, if_neg, if_neg]
      · simp [countNone]
      · simp [badTriple]
      · rintro ⟨x, hx, hl⟩; cases hx; norm_num at hl
      · rintro ⟨x, hx, hl⟩; cases hx; norm_num at hl
    have h2 := mkCounting_of (sf := 1) one_pos h (by norm_num)
    refine ⟨countAttrs ⟨1, ⟨3, 1, 3 - 1⟩, ⟨3 + 1, -1 * 1, 1⟩⟩, ?_, rfl⟩
    show bCounting _ _ _ _ = _
    simp only [bCounting, num_int, optNum_int, optNum, ok_bind_eq, Int.cast_one, Int.cast_ofNat, h2]
  · have h : resolveCounts none (some 1) (some (-5)) = .ok ⟨-5 + 1, 1, -5⟩ := by
      unfold resolveCounts
      rw [if_neg, if_neg, if_neg, if_neg]
      · simp [countNone]
      · simp [badTriple]
      · rintro ⟨x, hx, hl⟩; cases hx; norm_num at hl
      · rintro ⟨x, hx, hl⟩; cases hx
    have h2 := mkCounting_of (sf := 1) one_pos h (by norm_num)
    refine ⟨countAttrs ⟨1, ⟨-5 + 1, 1, -5⟩, ⟨-5 + 1 + 1, -1 * 1, 1⟩⟩, ?_, rfl⟩
    show bCounting _ _ _ _ = _
    simp only [bCounting, num_int, optNum_int, optNum, ok_bind_eq, Int.cast_one, Int.cast_neg, Int.cast_ofNat, h2]

/-- **C38** `GeneralGammaCountingProcess` whose background uncertainty is zero or not "very small". -/
theorem C38_general_counting_partial (E : Env) (kw : Dict String PVal) (o : Obj) (d tot : ℝ)
    (h : construct E .generalGammaCounting kw = .ok o) (hd : num (arg kw "background_std") = .ok d)
    (ht : Dict.get? o.attrs "counts_total" = some (.float tot)) (h0 : 0 ≤ tot)
    (hs : d = 0 ∨ 1 / 100 ≤ d / Real.sqrt (tot + 1)) : ∃ o', roundTrip E o = .ok [o'] ∧ Same o o' := by
  obtain ⟨hb, hc⟩ := construct_args h
  obtain ⟨c, a⟩ := o
  simp only at hc; subst hc
  exact build_generalGammaCounting E hb hd ht h0 (hs.imp_right not_lt.2)

/-- **C38 fails** for a very small, non-zero background uncertainty: the reloaded PDF is tabulated with the
uncertainty 0, the original one with the given value. -/
theorem C38_general_counting_small_std (E : Env) (kw : Dict String PVal) (o : Obj) (d tot : ℝ)
    (h : construct E .generalGammaCounting kw = .ok o) (hd : num (arg kw "background_std") = .ok d)
    (ht : Dict.get? o.attrs "counts_total" = some (.float tot)) (h0 : 0 ≤ tot)
    (hs : d / Real.sqrt (tot + 1) < 1 / 100) :
    ∃ (sf loc : ℝ) (n : Num ℝ), E.getXY (tot + 1) loc sf d = .ok n ∧
      Dict.get? o.attrs "y_norm" = some (ofVec n.yNorm) ∧
      ∀ n', E.getXY (tot + 1) loc sf 0 = .ok n' → ∃ o', roundTrip E o = .ok [o'] ∧
        Dict.get? o'.attrs "y_norm" = some (ofVec n'.yNorm) := by
  obtain ⟨hb, hc⟩ := construct_args h
  obtain ⟨c, a⟩ := o
  simp only at hc; subst hc
  obtain ⟨sf, loc, n, h1, h2, h3⟩ := genCounting_small E hb hd ht h0 hs
  have h6 : ∃ p : GeneralCounting (Num ℝ), a = genAttrs p := by
    replace hb : bGenCounting E _ _ _ _ _ = .ok a := hb
    unfold bGenCounting at hb
    obtain ⟨sf', _, hb⟩ := bind_eq_ok hb
    obtain ⟨t', _, hb⟩ := bind_eq_ok hb
    obtain ⟨b', _, hb⟩ := bind_eq_ok hb
    obtain ⟨s', _, hb⟩ := bind_eq_ok hb
    obtain ⟨d', hd', hb⟩ := bind_eq_ok hb
    obtain ⟨p, hp, hb⟩ := bind_eq_ok hb
    cases hb; exact ⟨p, rfl⟩
  obtain ⟨p, rfl⟩ := h6
  have h7 : numAttrs p.num = numAttrs n := h2
  refine ⟨sf, loc, n, h1, ?_, ?_⟩
  · show Dict.get? (_ :: _ :: _ :: _ :: _ :: _ :: numAttrs p.num) "y_norm" = _
    rw [h7]; rfl
  · intro n' hn'
    exact ⟨_, h3 n' hn', rfl⟩

/-- **C38** `GeneralGammaUpperLimit` whose background uncertainty is zero or not "very small". -/
theorem C38_general_limit_partial (E : Env) (kw : Dict String PVal) (o : Obj) (d tot : ℝ)
    (h : construct E .generalGammaUpperLimit kw = .ok o)
    (hd : Dict.get? o.attrs "background_variance" = some (.float d))
    (ht : Dict.get? o.attrs "counts_total" = some (.float tot)) (h0 : 0 ≤ tot)
    (hs : d = 0 ∨ 1 / 100 ≤ d / Real.sqrt (tot + 1)) : ∃ o', roundTrip E o = .ok [o'] ∧ Same o o' := by
  obtain ⟨hb, hc⟩ := construct_args h
  obtain ⟨c, a⟩ := o
  simp only at hc; subst hc
  exact build_generalGammaUpperLimit E hb hd ht h0 (hs.imp_right not_lt.2)

/-- **C38 fails** for `GeneralGammaUpperLimit` with a very small, non-zero background uncertainty: reloading raises
`ValueError`. -/
theorem C38_general_limit_small_std (E : Env) (kw : Dict String PVal) (o : Obj) (d tot : ℝ)
    (h : construct E .generalGammaUpperLimit kw = .ok o)
    (hd : Dict.get? o.attrs "background_variance" = some (.float d))
    (ht : Dict.get? o.attrs "counts_total" = some (.float tot)) (hne : d ≠ 0)
    (hs : d / Real.sqrt (tot + 1) < 1 / 100) : roundTrip E o = .error .valueError := by
  obtain ⟨hb, hc⟩ := construct_args h
  obtain ⟨c, a⟩ := o
  simp only at hc; subst hc
  exact genLimit_small E hb hd ht hne hs

/-- **C38 fails** for every `KernelDensityEstimate`. -/
theorem C38_kde_fails (E : Env) (kw : Dict String PVal) (o : Obj) (h : construct E .kernelDensityEstimate kw = .ok o) :
    raises (roundTrip E o) := by
  obtain ⟨hb, hc⟩ := construct_args h
  obtain ⟨c, a⟩ := o
  simp only at hc; subst hc
  exact kde_fails E hb

/-- **C38 fails** for every `GaussianKDE`: `TypeError`. -/
theorem C38_gaussian_kde_fails (E : Env) (kw : Dict String PVal) (o : Obj) (h : construct E .gaussianKDE kw = .ok o) :
    roundTrip E o = .error .typeError := by
  obtain ⟨hb, hc⟩ := construct_args h
  obtain ⟨c, a⟩ := o
  simp only at hc; subst hc
  exact gaussianKDE_fails E hb

/-- Kernel density estimates exist (if the convolution succeeds), so that the two theorems above are not void. -/
example (E : Env) (n : Num ℝ) (hE : ∀ l o k, E.kde l o k = .ok n) :
    ∃ o, construct E .gaussianKDE [("data", ofVec [1, 2, 4]), ("bandwidth", .float 1)] = .ok o := by
  have h1 : bNormal (.int 0) (.float 1) = .ok (uniAttrs (.normal 0 1) [("central_value", .int 0), ("standard_deviation", .float 1)]) := by
    simp [bNormal, num, mkNormal]
    rw [if_neg (by norm_num)]; rfl
  have h2 : (params .gaussianKDE).mapM (bindArg [("data", ofVec [1, 2, 4]), ("bandwidth", .float 1)]) =
      .ok [ofVec [1, 2, 4], .float 1, .none] := by
    simp [params, bindArg, Dict.get?, List.mapM_cons]
  have h3 : ∃ a, bGaussianKDE E (ofVec [1, 2, 4]) (.float 1) .none = .ok a := by
    simp only [bGaussianKDE, vec_ofVec, ok_bind_eq, optNum_float, Option.getD_some, h1]
    have : Dict.get? (uniAttrs (.normal 0 1) [("central_value", .int 0), ("standard_deviation", .float 1)]) "central_value" =
      some (.int 0) := rfl
    simp only [bKDE, this, vec_ofVec, bins, ok_bind_eq, hE]
    rw [if_neg (by simp [norm])]
    exact ⟨_, rfl⟩
  obtain ⟨a, ha⟩ := h3
  refine ⟨⟨.gaussianKDE, a⟩, ?_⟩
  unfold construct
  rw [if_pos (by decide), h2, ok_bind_eq]
  show bGaussianKDE E _ _ _ >>= _ = _
  rw [ha]; rfl

/-- `GeneralGammaDistributionPositive` cannot be instantiated at all (`self.counts_total` does not exist). -/
theorem C38_general_positive_unusable (E : Env) (kw : Dict String PVal) :
    raises (construct E .generalGammaPositive kw) := by
  cases h : construct E .generalGammaPositive kw with
  | error e => exact ⟨e, rfl⟩
  | ok o =>
    exfalso
    obtain ⟨hb, hc⟩ := construct_args h
    replace hb : bGenPositive E _ _ _ _ = .ok o.attrs := hb
    unfold bGenPositive at hb
    obtain ⟨a', _, hb⟩ := bind_eq_ok hb
    obtain ⟨l', _, hb⟩ := bind_eq_ok hb
    obtain ⟨s', _, hb⟩ := bind_eq_ok hb
    obtain ⟨d', _, hb⟩ := bind_eq_ok hb
    split at hb
    · cases hb
    · obtain ⟨_, _, hb⟩ := bind_eq_ok hb
      cases hb

/-- **C38** `MultivariateNormalDistribution` given by a covariance, or by positive standard deviations and a
symmetric correlation matrix with unit diagonal (or a number). -/
theorem C38_mvn_partial (E : Env) (kw : Dict String PVal) (o : Obj) (h : construct E .multivariateNormal kw = .ok o)
    (ha : MVNArgs (arg kw "covariance") (arg kw "standard_deviation") (arg kw "correlation")) :
    ∃ o', roundTrip E o = .ok [o'] ∧ Same o o' := by
  obtain ⟨hb, hc⟩ := construct_args h
  obtain ⟨c, a⟩ := o
  simp only at hc; subst hc
  exact build_multivariateNormal E hb ha

/-- A two-dimensional case: unit variances, correlation 0. -/
example (E : Env) : ∃ a, build E .multivariateNormal [ofVec [1, 2], ofMat [[1, 0], [0, 1]], .none, .none] = .ok a := by
  have h1 : fnOf 2 [1, 2] = .ok fun i => ([1, 2] : List ℝ).getD i 0 := by unfold fnOf; rw [if_pos (by rfl)]
  have hm : (Matrix.of fun (i j : Fin 2) => (([[1, 0], [0, 1]] : List (List ℝ)).getD i []).getD j 0 : Matrix (Fin 2) (Fin 2) ℝ) = 1 := by
    ext i j; fin_cases i <;> fin_cases j <;> simp
  have h2 : matOf 2 [[1, 0], [0, 1]] = .ok (1 : Matrix (Fin 2) (Fin 2) ℝ) := by
    unfold matOf; rw [if_pos (by simp), hm]
  have h3 := mkMVNCov_posDef (c := fun i : Fin 2 => ([1, 2] : List ℝ).getD i 0) (arr := true)
    (cov := (1 : Matrix (Fin 2) (Fin 2) ℝ)) Matrix.PosDef.one
  refine ⟨mvnAttrs (n := 2) (ofVec [1, 2]) (mvnOfCov (fun i : Fin 2 => ([1, 2] : List ℝ).getD i 0) true (1 : Matrix (Fin 2) (Fin 2) ℝ)), ?_⟩
  show bMVN _ _ _ _ = _
  have h4 : optMat 2 (ofMat [[1, 0], [0, 1]]) = .ok (some (1 : Matrix (Fin 2) (Fin 2) ℝ)) := by
    show (mat (ofMat [[1, 0], [0, 1]]) >>= fun l => matOf 2 l >>= fun m => .ok (some m)) = _
    rw [mat_ofMat, ok_bind_eq, h2]; rfl
  unfold bMVN
  rw [vec_ofVec, ok_bind_eq]
  show (fnOf 2 [1, 2] >>= _) = _
  rw [h1, ok_bind_eq]
  show (optMat 2 (ofMat [[1, 0], [0, 1]]) >>= _) = _
  rw [h4, ok_bind_eq]
  show (mkMVNCov (fun i : Fin 2 => ([1, 2] : List ℝ).getD i 0) true 1 >>= _) = _
  rw [h3]; rfl

/-- **C38** `MultivariateNumericalDistribution` with a given central value. -/
theorem C38_mvnumerical_partial (E : Env) (kw : Dict String PVal) (o : Obj)
    (h : construct E .multivariateNumerical kw = .ok o) (hy : ∃ b l, arg kw "y" = .seq b l)
    (hc : arg kw "central_value" ≠ .none) : ∃ o', roundTrip E o = .ok [o'] ∧ Same o o' := by
  obtain ⟨hb, hcl⟩ := construct_args h
  obtain ⟨c, a⟩ := o
  simp only at hcl; subst hcl
  obtain ⟨b, l, hy⟩ := hy
  exact build_multivariateNumerical E hb (by show NotDist (arg kw "y"); rw [hy]; exact seq_notDist _ _) hc

/-- **C38** without a given central value: everything is recovered except the support, which was `None`. -/
theorem C38_mvnumerical_default (E : Env) (kw : Dict String PVal) (o : Obj)
    (h : construct E .multivariateNumerical kw = .ok o) (hy : ∃ b l, arg kw "y" = .seq b l)
    (hc : arg kw "central_value" = .none) :
    Dict.get? o.attrs "support" = some .none ∧ ∃ o', roundTrip E o = .ok [o'] ∧
      (∀ k, k ≠ "support" → (Dict.get? o'.attrs k).map norm = (Dict.get? o.attrs k).map norm) ∧
      ∃ s, Dict.get? o'.attrs "support" = some s ∧ s ≠ .none := by
  obtain ⟨hb, hcl⟩ := construct_args h
  obtain ⟨c, a⟩ := o
  simp only at hcl; subst hcl
  obtain ⟨b, l, hy⟩ := hy
  replace hb : build E .multivariateNumerical [arg kw "xi", arg kw "y", arg kw "central_value"] = .ok a := hb
  rw [hc] at hb
  exact mvnum_default_central E hb (by rw [hy]; exact seq_notDist _ _)

/-- **C38 fails** for a discrete uniform distribution with an empty range, e.g. from 3 to 1: the default central value
2 is rejected when it is given explicitly. -/
theorem C38_discrete_empty_range (E : Env) : ∃ o,
    construct E .discreteUniform [("lowest_value", .int 3), ("highest_value", .int 1)] = .ok o ∧
    roundTrip E o = .error .valueError := by
  have t3 : trunc 3 = 3 := by exact_mod_cast trunc_intCast 3
  have t1 : trunc 1 = 1 := by exact_mod_cast trunc_intCast 1
  have t2 : trunc ((3 + 1) / 2) = 2 := by
    have : ((3:ℝ) + 1) / 2 = ((2 : ℤ) : ℝ) := by norm_num
    rw [this, trunc_intCast]
  refine ⟨⟨.discreteUniform, [("lowest_value", .int 3), ("highest_value", .int 1), ("central_value", .int 2)]⟩, ?_, ?_⟩
  · unfold construct
    have h2 : (params .discreteUniform).mapM (bindArg [("lowest_value", .int 3), ("highest_value", .int 1)]) =
        .ok [.int 3, .int 1, .none] := by
      simp [params, bindArg, Dict.get?, List.mapM_cons]
    rw [if_pos (by decide), h2, ok_bind_eq]
    show bDiscrete (.int 3) (.int 1) .none >>= _ = _
    simp only [bDiscrete, num_int, ok_bind_eq, optNum, Int.cast_ofNat, Int.cast_one, t3, t1, t2]
  · rw [roundTrip_eq E _ [.int 3, .int 1, .int 2] rfl]
    · show bDiscrete (thru (.int 3)) (thru (.int 1)) (thru (.int 2)) >>= _ = _
      simp only [bDiscrete, num_thru, optNum_thru, num_int, optNum_int, ok_bind_eq]
      rw [if_pos]
      · rfl
      · norm_num
    · simp only [List.mem_cons, List.not_mem_nil, or_false]
      rintro v (rfl | rfl | rfl) <;> exact int_notDist _

/-! ## C40 -/

/-- A value that `get_dict` does not modify in place. (Specification.) -/
def Plain (v : PVal) : Prop := sideEffect v = v

theorem norm_sideEffect (v : PVal) : norm (sideEffect v) = norm v := by
  cases v with
  | seq b l =>
    cases b with
    | false => simp only [sideEffect, norm, map_norm_tolist]
    | true => rfl
  | _ => rfl

/-- The object after the call. -/
theorem getDict_obj {a b c : Bool} {o o' : Obj} {d : Dict String PVal} (h : getDict a b c o = .ok (d, o')) :
    o' = if c then { o with attrs := o.attrs.map fun e =>
              if e.1 ∈ (params o.cls).map Prod.fst then (e.1, sideEffect e.2) else e } else o := by
  unfold getDict at h
  obtain ⟨od, _, h⟩ := bind_eq_ok h
  obtain ⟨od2, _, h⟩ := bind_eq_ok h
  injection h with h
  injection h with h1 h2
  exact h2.symm

/-- **C40 (partial: numerically)** After `get_dict` with any options, all attributes of the distribution have the
same numerical values as before. -/
theorem C40_same_values_partial (a b c : Bool) (o o' : Obj) (d : Dict String PVal)
    (h : getDict a b c o = .ok (d, o')) : Same o o' := by
  rw [getDict_obj h]
  split
  · refine ⟨rfl, ?_⟩
    simp only [normD_eq, List.map_map]
    apply List.map_congr_left
    intro e he
    simp only [Function.comp]
    split
    · rw [norm_sideEffect]
    · rfl
  · exact ⟨rfl, rfl⟩

/-- Without `arraytolist`, nothing at all changes. -/
theorem C40_without_arraytolist (a b : Bool) (o o' : Obj) (d : Dict String PVal)
    (h : getDict a b false o = .ok (d, o')) : o' = o := getDict_obj h

theorem plain_num {v : PVal} {r : ℝ} (h : num v = .ok r) : Plain v := by
  cases v with
  | seq b l => cases h
  | _ => rfl
theorem plain_float (r : ℝ) : Plain (.float r) := rfl
theorem plain_int (r : ℤ) : Plain (.int r) := rfl
theorem plain_arr (l : List PVal) : Plain (.seq true l) := rfl
theorem plain_ofVec (l : List ℝ) : Plain (ofVec l) := rfl
theorem plain_ofMat (l : List (List ℝ)) : Plain (ofMat l) := rfl
theorem plain_pair (p : ℝ × ℝ) : Plain (pair p) := rfl
theorem plain_dist (c : Cls) (a) : Plain (.dist c a) := rfl
theorem plain_vec {v : PVal} {r : List ℝ} (h : vec v = .ok r) : Plain v := by
  cases v with
  | seq b l =>
    cases b with
    | true => rfl
    | false =>
      have : l.map tolist = l := by
        replace h : l.mapM num = .ok r := h
        rw [mapM_ok_iff] at h
        induction h with
        | nil => rfl
        | cons h1 _ ih =>
          rw [List.map_cons, ih]
          congr 1
          rename_i x _ _ _ _
          cases x with
          | seq b l => cases h1
          | _ => rfl
      show PVal.seq false (l.map tolist) = _
      rw [this]
  | _ => rfl

/-- (Specification.) -/
def AllPlain (a : Dict String PVal) : Prop := ∀ e ∈ a, Plain e.2

theorem allPlain_nil : AllPlain [] := by intro e he; simp at he
theorem allPlain_cons {k : String} {v : PVal} {a : Dict String PVal} (h : Plain v) (ha : AllPlain a) :
    AllPlain ((k, v) :: a) := by
  intro e he
  rcases List.mem_cons.1 he with rfl | he
  · exact h
  · exact ha e he
theorem allPlain_append {a b : Dict String PVal} (ha : AllPlain a) (hb : AllPlain b) : AllPlain (a ++ b) := by
  intro e he
  rcases List.mem_append.1 he with he | he
  · exact ha e he
  · exact hb e he

theorem allPlain_numTable (d : Num ℝ) : AllPlain (numTable d) :=
  allPlain_cons rfl (allPlain_cons rfl (allPlain_cons rfl allPlain_nil))
theorem allPlain_numAttrs (d : Num ℝ) : AllPlain (numAttrs d) :=
  allPlain_cons rfl (allPlain_cons rfl (allPlain_cons rfl (allPlain_numTable d)))
theorem allPlain_uniAttrs {d : UDist} {ps : List (String × PVal)} (h : AllPlain ps) : AllPlain (uniAttrs d ps) :=
  allPlain_append h (allPlain_cons rfl allPlain_nil)
theorem allPlain_countAttrs (c : CountingProcess) : AllPlain (countAttrs c) := by
  intro e he
  simp only [countAttrs, List.mem_cons, List.not_mem_nil, or_false] at he
  rcases he with rfl | rfl | rfl | rfl | rfl | rfl | rfl | rfl <;> rfl
theorem allPlain_genAttrs (c : GeneralCounting (Num ℝ)) : AllPlain (genAttrs c) := by
  refine allPlain_append ?_ (allPlain_numAttrs _)
  intro e he
  simp only [List.mem_cons, List.not_mem_nil, or_false] at he
  rcases he with rfl | rfl | rfl | rfl | rfl | rfl <;> rfl

theorem allPlain_bKDE {E : Env} {d k n : PVal} {a : Dict String PVal} (h : bKDE E d k n = .ok a) : AllPlain a := by
  cases k with
  | dist c ka =>
    simp only [bKDE] at h
    split at h
    · cases h
    split at h
    · cases h
    obtain ⟨l, hl, h⟩ := bind_eq_ok h
    obtain ⟨nb, hn, h⟩ := bind_eq_ok h
    obtain ⟨d', hd, h⟩ := bind_eq_ok h
    cases h
    refine allPlain_append (allPlain_cons (plain_vec hl) (allPlain_cons rfl (allPlain_cons ?_ allPlain_nil))) (allPlain_numAttrs _)
    cases n with
    | none => cases hn; rfl
    | int k => cases hn; rfl
    | _ => cases hn
  | _ => cases h

theorem allPlain_build {E : Env} {c : Cls} {args : List PVal} {a : Dict String PVal} (h : build E c args = .ok a)
    (hc : c ≠ .multivariateNumerical) : AllPlain a := by
  match c, args, h, hc with
  | .uniform, [c, w], h, _ =>
    replace h : bUniform c w = .ok a := h
    obtain ⟨_, h1, h⟩ := bind_eq_ok h
    obtain ⟨_, h2, h⟩ := bind_eq_ok h
    obtain ⟨_, _, h⟩ := bind_eq_ok h
    cases h
    exact allPlain_uniAttrs (allPlain_cons (plain_num h1) (allPlain_cons (plain_num h2) allPlain_nil))
  | .discreteUniform, [lo, hi, c], h, _ =>
    replace h : bDiscrete lo hi c = .ok a := h
    obtain ⟨_, h1, h⟩ := bind_eq_ok h
    obtain ⟨_, h2, h⟩ := bind_eq_ok h
    obtain ⟨c', _, h⟩ := bind_eq_ok h
    cases c' with
    | none => cases h; exact allPlain_cons rfl (allPlain_cons rfl (allPlain_cons rfl allPlain_nil))
    | some c' =>
      simp only at h
      split at h
      · cases h
      · cases h; exact allPlain_cons rfl (allPlain_cons rfl (allPlain_cons rfl allPlain_nil))
  | .delta, [c], h, _ =>
    replace h : bDelta c = .ok a := h
    obtain ⟨_, h1, h⟩ := bind_eq_ok h
    obtain ⟨_, _, h⟩ := bind_eq_ok h
    cases h
    exact allPlain_uniAttrs (allPlain_cons (plain_num h1) allPlain_nil)
  | .normal, [c, s], h, _ =>
    replace h : bNormal c s = .ok a := h
    obtain ⟨_, h1, h⟩ := bind_eq_ok h
    obtain ⟨_, h2, h⟩ := bind_eq_ok h
    obtain ⟨_, _, h⟩ := bind_eq_ok h
    cases h
    exact allPlain_uniAttrs (allPlain_cons (plain_num h1) (allPlain_cons (plain_num h2) allPlain_nil))
  | .logNormal, [c, s], h, _ =>
    replace h : bLogNormal c s = .ok a := h
    obtain ⟨_, h1, h⟩ := bind_eq_ok h
    obtain ⟨_, h2, h⟩ := bind_eq_ok h
    obtain ⟨_, _, h⟩ := bind_eq_ok h
    cases h
    exact allPlain_uniAttrs (allPlain_cons (plain_num h1) (allPlain_cons (plain_num h2) allPlain_nil))
  | .asymmetricNormal, [c, r, l], h, _ =>
    replace h : bAsym c r l = .ok a := h
    obtain ⟨_, h1, h⟩ := bind_eq_ok h
    obtain ⟨_, h2, h⟩ := bind_eq_ok h
    obtain ⟨_, h3, h⟩ := bind_eq_ok h
    obtain ⟨_, _, h⟩ := bind_eq_ok h
    cases h
    exact allPlain_uniAttrs (allPlain_cons (plain_num h1) (allPlain_cons (plain_num h2)
      (allPlain_cons (plain_num h3) allPlain_nil)))
  | .halfNormal, [c, s], h, _ =>
    replace h : bHalf c s = .ok a := h
    obtain ⟨_, h1, h⟩ := bind_eq_ok h
    obtain ⟨_, h2, h⟩ := bind_eq_ok h
    obtain ⟨_, _, h⟩ := bind_eq_ok h
    cases h
    exact allPlain_uniAttrs (allPlain_cons (plain_num h1) (allPlain_cons (plain_num h2) allPlain_nil))
  | .gaussianUpperLimit, [l, cl], h, _ =>
    replace h : bLimit E l cl = .ok a := h
    obtain ⟨_, h1, h⟩ := bind_eq_ok h
    obtain ⟨_, h2, h⟩ := bind_eq_ok h
    obtain ⟨d, _, h⟩ := bind_eq_ok h
    cases d with
    | gaussianLimit x y s =>
      cases h
      exact allPlain_uniAttrs (allPlain_cons rfl (allPlain_cons rfl
        (allPlain_cons (plain_num h1) (allPlain_cons (plain_num h2) allPlain_nil))))
    | _ => cases h
  | .gamma, [x, l, s], h, _ =>
    replace h : bGamma x l s = .ok a := h
    obtain ⟨_, h1, h⟩ := bind_eq_ok h
    obtain ⟨_, h2, h⟩ := bind_eq_ok h
    obtain ⟨_, h3, h⟩ := bind_eq_ok h
    obtain ⟨_, _, h⟩ := bind_eq_ok h
    cases h
    exact allPlain_cons rfl (allPlain_cons (plain_num h1) (allPlain_cons (plain_num h2)
      (allPlain_cons (plain_num h3) allPlain_nil)))
  | .gammaPositive, [x, l, s], h, _ =>
    replace h : bGammaPos x l s = .ok a := h
    obtain ⟨_, h1, h⟩ := bind_eq_ok h
    obtain ⟨_, h2, h⟩ := bind_eq_ok h
    obtain ⟨_, h3, h⟩ := bind_eq_ok h
    obtain ⟨_, _, h⟩ := bind_eq_ok h
    cases h
    exact allPlain_cons rfl (allPlain_cons (plain_num h1) (allPlain_cons (plain_num h2)
      (allPlain_cons (plain_num h3) allPlain_nil)))
  | .gammaCounting, [sf, t, b, s], h, _ =>
    replace h : bCounting sf t b s = .ok a := h
    obtain ⟨_, _, h⟩ := bind_eq_ok h
    obtain ⟨_, _, h⟩ := bind_eq_ok h
    obtain ⟨_, _, h⟩ := bind_eq_ok h
    obtain ⟨_, _, h⟩ := bind_eq_ok h
    obtain ⟨_, _, h⟩ := bind_eq_ok h
    cases h
    exact allPlain_countAttrs _
  | .gammaUpperLimit, [l, cl, t, b, s], h, _ =>
    replace h : bGammaLimit E l cl t b s = .ok a := h
    obtain ⟨_, _, h⟩ := bind_eq_ok h
    obtain ⟨_, _, h⟩ := bind_eq_ok h
    obtain ⟨_, _, h⟩ := bind_eq_ok h
    obtain ⟨_, _, h⟩ := bind_eq_ok h
    obtain ⟨_, _, h⟩ := bind_eq_ok h
    obtain ⟨_, _, h⟩ := bind_eq_ok h
    cases h
    exact allPlain_cons rfl (allPlain_cons rfl (allPlain_countAttrs _))
  | .numerical, [x, y, c], h, _ =>
    replace h : bNumerical x y c = .ok a := h
    obtain ⟨_, h1, h⟩ := bind_eq_ok h
    obtain ⟨_, h2, h⟩ := bind_eq_ok h
    obtain ⟨_, _, h⟩ := bind_eq_ok h
    obtain ⟨_, _, h⟩ := bind_eq_ok h
    cases h
    exact allPlain_cons (plain_vec h1) (allPlain_cons (plain_vec h2) (allPlain_cons rfl (allPlain_numTable _)))
  | .generalGammaPositive, [x, l, s, d], h, _ =>
    replace h : bGenPositive E x l s d = .ok a := h
    obtain ⟨_, _, h⟩ := bind_eq_ok h
    obtain ⟨_, _, h⟩ := bind_eq_ok h
    obtain ⟨_, _, h⟩ := bind_eq_ok h
    obtain ⟨_, _, h⟩ := bind_eq_ok h
    split at h
    · cases h
    · obtain ⟨_, _, h⟩ := bind_eq_ok h
      cases h
  | .generalGammaCounting, [sf, t, b, s, d], h, _ =>
    replace h : bGenCounting E sf t b s d = .ok a := h
    obtain ⟨_, _, h⟩ := bind_eq_ok h
    obtain ⟨_, _, h⟩ := bind_eq_ok h
    obtain ⟨_, _, h⟩ := bind_eq_ok h
    obtain ⟨_, _, h⟩ := bind_eq_ok h
    obtain ⟨_, _, h⟩ := bind_eq_ok h
    obtain ⟨_, _, h⟩ := bind_eq_ok h
    cases h
    exact allPlain_genAttrs _
  | .generalGammaUpperLimit, [l, cl, t, b, s, d, v], h, _ =>
    obtain ⟨_, _, _, _, _, _, _, _, _, p, _, _, _, _, _, rfl⟩ := genLimit_decomp E h
    exact allPlain_cons rfl (allPlain_cons rfl (allPlain_cons rfl (allPlain_genAttrs _)))
  | .kernelDensityEstimate, [d, k, n], h, _ => exact allPlain_bKDE (show bKDE E d k n = .ok a from h)
  | .gaussianKDE, [d, b, n], h, _ =>
    replace h : bGaussianKDE E d b n = .ok a := h
    obtain ⟨_, _, h⟩ := bind_eq_ok h
    obtain ⟨_, _, h⟩ := bind_eq_ok h
    obtain ⟨_, _, h⟩ := bind_eq_ok h
    obtain ⟨_, h1, h⟩ := bind_eq_ok h
    cases h
    exact allPlain_cons rfl (allPlain_bKDE h1)
  | .multivariateNormal, [c, cov, sd, corr], h, _ =>
    obtain ⟨c', cf, cov', sd', corr', d, h1, _, _, _, _, _, rfl⟩ := bMVN_decomp (show bMVN c cov sd corr = .ok a from h)
    exact allPlain_cons (plain_vec h1) (allPlain_cons rfl (allPlain_cons rfl (allPlain_cons rfl
      (allPlain_cons rfl allPlain_nil))))
  | .multivariateNumerical, _, _, hc => exact absurd rfl hc

/-- **C40 (partial: all classes but one)** For every distribution except a `MultivariateNumericalDistribution`,
`get_dict` with any options leaves the object exactly as it was. -/
theorem C40_unchanged_partial (E : Env) (c : Cls) (kw : Dict String PVal) (o o' : Obj) (d : Dict String PVal)
    (x y z : Bool) (hc : c ≠ .multivariateNumerical) (h : construct E c kw = .ok o)
    (hg : getDict x y z o = .ok (d, o')) : o' = o := by
  obtain ⟨args, _, hb, rfl⟩ := construct_ok h
  have hp := allPlain_build hb hc
  rw [getDict_obj hg]
  split
  · obtain ⟨c, a⟩ := o
    simp only [Obj.mk.injEq, true_and]
    conv_rhs => rw [← List.map_id a]
    apply List.map_congr_left
    intro e he
    split
    · have := hp e he
      unfold Plain at this
      rw [this]; rfl
    · rfl
  · rfl

/-- `get_dict` works for every constructed object without nested distributions: see `getDict_eq`; here for
the multivariate numerical distribution. -/
theorem mvnum_getDict (E : Env) (kw : Dict String PVal) (o : Obj) (h : construct E .multivariateNumerical kw = .ok o) :
    ∃ xs : List (List ℝ), Dict.get? o.attrs "xi" = some (.seq false (xs.map ofVec)) ∧ o.cls = .multivariateNumerical ∧
      (∀ i j k, ∀ d o', getDict i j k o = .ok (d, o') → k = true →
        Dict.get? o'.attrs "xi" = some (.seq false ((xs.map ofVec).map tolist))) := by
  obtain ⟨hb, hc⟩ := construct_args h
  obtain ⟨c, a⟩ := o
  simp only at hc; subst hc
  obtain ⟨xs, xs', c', r, h1, h2, h3, h4, h5, h6, h7⟩ := mvnum_decomp (show bMVNumerical E _ _ _ = .ok a from hb)
  refine ⟨xs', by rw [h7]; rfl, rfl, ?_⟩
  intro i j k d o' hg hk
  rw [getDict_obj hg, hk, h7]
  simp only [if_true, List.cons_append, List.map_cons, List.nil_append]
  rw [if_pos (by decide)]
  rfl

/-- **C40 fails** for every `MultivariateNumericalDistribution`: `repr` works before the call
`get_dict(arraytolist=True)` and raises `AttributeError` after it. -/
theorem C40_mvnumerical_repr_breaks (E : Env) (kw : Dict String PVal) (o o' : Obj) (d : Dict String PVal) (x y : Bool)
    (h : construct E .multivariateNumerical kw = .ok o) (hne : ∃ v, Dict.get? o.attrs "xi" = some v ∧ mat v ≠ .ok [])
    (hg : getDict x y true o = .ok (d, o')) :
    reprMVNumerical o = .ok () ∧ reprMVNumerical o' = .error .attributeError := by
  obtain ⟨xs, h1, _, h3⟩ := mvnum_getDict E kw o h
  have h2 := h3 x y true d o' hg rfl
  obtain ⟨v, hv, hne⟩ := hne
  rw [h1] at hv; cases hv
  have hxs : xs ≠ [] := by
    rintro rfl; exact hne rfl
  constructor
  · unfold reprMVNumerical
    simp only [Dict.getItem, h1, ok_bind_eq]
    have : ∃ us : List Unit, (xs.map ofVec).mapM reprAxis = .ok us := by
      apply mapM_ok_of_forall
      intro v hv
      obtain ⟨l, _, rfl⟩ := List.mem_map.1 hv
      exact ⟨(), rfl⟩
    obtain ⟨us, hus⟩ := this
    rw [hus]; rfl
  · unfold reprMVNumerical
    simp only [Dict.getItem, h2, ok_bind_eq]
    cases xs with
    | nil => exact absurd rfl hxs
    | cons l r =>
      simp only [List.map_cons, List.mapM_cons]
      simp only [ofVec, tolist, reprAxis, error_bind_eq]

end Verif.DistDict
