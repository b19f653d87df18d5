import Verif.Math.Cdf
import Verif.Probability.GammaTheorems
import Mathlib.MeasureTheory.Function.Jacobian
import Mathlib.Analysis.SpecialFunctions.Gamma.Basic
import Mathlib.MeasureTheory.Function.JacobianOneDim

/-!
# Model of `flavio.statistics.functions` and property theorems (C61)

`scipy.stats.norm` and `scipy.stats.chi2` are the actual distributions (real numbers instead of
floating point): see `Verif.Math.Cdf`.
-/
set_option linter.unusedVariables false
set_option linter.unusedSectionVars false
namespace Verif.Statistics
open MeasureTheory ProbabilityTheory Filter Topology Set Verif.Cdf

/-- `confidence_level`.  /repo/flavio/statistics/functions.py:7-14. -/
noncomputable def confidenceLevel (nsigma : ℝ) : ℝ := (Phi nsigma - 1 / 2) * 2

/-- `scipy.stats.chi2(dof).cdf`: the Gamma distribution with shape `dof/2` and scale 2.
(Used for `pull`, /repo/flavio/statistics/functions.py:28-40.) -/
noncomputable def chi2Cdf (dof x : ℝ) : ℝ := gammaCdf (dof / 2) (1 / 2) x

/-- `scipy.stats.chi2(dof).ppf`. (Used for `deltaChi2`, /repo/flavio/statistics/functions.py:16-26.) -/
noncomputable def chi2Ppf (dof q : ℝ) : ℝ := gammaPpf (dof / 2) (1 / 2) q

/-- `delta_chi2`.  /repo/flavio/statistics/functions.py:16-26. -/
noncomputable def deltaChi2 (nsigma dof : ℝ) : ℝ :=
  if dof = 1 then nsigma ^ 2 else chi2Ppf dof (confidenceLevel nsigma)

/-- `pull`.  /repo/flavio/statistics/functions.py:28-40. -/
noncomputable def pull (dchi2 dof : ℝ) : ℝ :=
  if dof = 1 then √|dchi2| else PhiInv (1 / 2 + chi2Cdf dof dchi2 / 2)

/-- `pvalue`.  /repo/flavio/statistics/functions.py:42-45. -/
noncomputable def pvalue (chi2 dof : ℝ) : ℝ := 1 - chi2Cdf dof chi2

theorem confidenceLevel_nonneg {n : ℝ} (hn : 0 ≤ n) : 0 ≤ confidenceLevel n := by
  unfold confidenceLevel
  have := Phi_strictMono.monotone hn
  rw [Phi_zero] at this
  linarith

theorem confidenceLevel_lt_one (n : ℝ) : confidenceLevel n < 1 := by
  unfold confidenceLevel
  have := Phi_lt_one n
  linarith

/-- **C61.** `pull` inverts `delta_chi2`: for all `n ≥ 0` and all positive (also non-integer) numbers
of degrees of freedom. -/
theorem C61_pull_inverts_delta_chi2 (n dof : ℝ) (hn : 0 ≤ n) (hd : 0 < dof) :
    pull (deltaChi2 n dof) dof = n := by
  unfold pull deltaChi2
  by_cases h1 : dof = 1
  · rw [if_pos h1, if_pos h1, abs_of_nonneg (sq_nonneg n), Real.sqrt_sq hn]
  · rw [if_neg h1, if_neg h1]
    unfold chi2Cdf chi2Ppf
    rw [(gammaCdf_ppf (by linarith) (by norm_num) (confidenceLevel_nonneg hn)
      (confidenceLevel_lt_one n)).1]
    unfold confidenceLevel
    rw [show (1 : ℝ) / 2 + (Phi n - 1 / 2) * 2 / 2 = Phi n by ring, PhiInv_Phi]

/-- **C61.** The converse: `delta_chi2` inverts `pull` on `[0, ∞)`. -/
theorem C61_delta_chi2_inverts_pull (x dof : ℝ) (hx : 0 ≤ x) (hd : 0 < dof) :
    deltaChi2 (pull x dof) dof = x := by
  unfold pull deltaChi2
  by_cases h1 : dof = 1
  · rw [if_pos h1, if_pos h1, abs_of_nonneg hx, Real.sq_sqrt hx]
  · rw [if_neg h1, if_neg h1]
    unfold confidenceLevel chi2Cdf chi2Ppf
    have hF0 := gammaCdf_nonneg (a := dof / 2) (r := 1 / 2) (by linarith) (by norm_num) x
    have hF1 := gammaCdf_lt_one (a := dof / 2) (r := 1 / 2) (by linarith) (by norm_num) x
    rw [Phi_PhiInv (by linarith) (by linarith)]
    rw [show ((1 : ℝ) / 2 + gammaCdf (dof / 2) (1 / 2) x / 2 - 1 / 2) * 2 =
      gammaCdf (dof / 2) (1 / 2) x by ring]
    exact gammaPpf_cdf (by linarith) (by norm_num) hx

/-! ### The shortcut for one degree of freedom -/

theorem gamma_half_Ioc (n : ℝ) (hn : 0 ≤ n) :
    gammaMeasure (1 / 2) (1 / 2) (Ioc 0 (n ^ 2)) = 2 * stdNormal (Ioc 0 n) := by
  have himg : (fun t : ℝ => t ^ 2) '' (Ioc 0 n) = Ioc 0 (n ^ 2) := by
    ext y
    simp only [mem_image, mem_Ioc]
    constructor
    · rintro ⟨t, ⟨h0, h1⟩, rfl⟩
      exact ⟨by positivity, by gcongr⟩
    · rintro ⟨h0, h1⟩
      refine ⟨√y, ⟨Real.sqrt_pos.2 h0, ?_⟩, Real.sq_sqrt h0.le⟩
      rw [Real.sqrt_le_left hn]; exact h1
  unfold gammaMeasure stdNormal
  rw [withDensity_apply _ measurableSet_Ioc, ← himg]
  rw [lintegral_image_eq_lintegral_abs_deriv_mul (f' := fun t => 2 * t) measurableSet_Ioc
    (fun t _ => by simpa using (hasDerivAt_pow 2 t).hasDerivWithinAt)
    (fun s hs t ht h => by
      have h' : s ^ 2 = t ^ 2 := h
      exact (pow_left_inj₀ hs.1.le ht.1.le (by norm_num)).1 h')]
  rw [gaussianReal_of_var_ne_zero 0 one_ne_zero, withDensity_apply _ measurableSet_Ioc,
    ← lintegral_const_mul _ (measurable_gaussianPDF 0 1)]
  apply setLIntegral_congr_fun measurableSet_Ioc
  intro t ht
  have ht0 : 0 < t := ht.1
  simp only
  rw [gammaPDF_of_nonneg (by positivity), gaussianPDF, ← ENNReal.ofReal_mul (abs_nonneg _),
    show (2 : ENNReal) = ENNReal.ofReal 2 by simp, ← ENNReal.ofReal_mul (by norm_num)]
  congr 1
  rw [abs_of_pos (by positivity), Real.Gamma_one_half_eq, gaussianPDFReal]
  have h1 : (t ^ 2) ^ ((1 : ℝ) / 2 - 1) = t⁻¹ := by
    rw [← Real.rpow_natCast t 2, ← Real.rpow_mul ht0.le, ← Real.rpow_neg_one]
    norm_num
  have h2 : ((1 : ℝ) / 2) ^ ((1 : ℝ) / 2) = (√2)⁻¹ := by
    rw [← Real.sqrt_eq_rpow, one_div, Real.sqrt_inv]
  rw [h1, h2]
  have h3 : √(2 * Real.pi * ((1 : NNReal) : ℝ)) = √2 * √Real.pi := by
    simp
  rw [h3]
  have h4 : -(1 / 2 * t ^ 2) = -(t - 0) ^ 2 / (2 * ((1 : NNReal) : ℝ)) := by
    simp; ring
  rw [h4]
  have : √2 ≠ 0 := by positivity
  have : √Real.pi ≠ 0 := by positivity
  field_simp

/-- **C61.** The shortcut for one degree of freedom is the general formula:
`chi2(1).ppf(confidence_level(n)) = n²`. -/
theorem C61_one_dof_consistent (n : ℝ) (hn : 0 ≤ n) :
    chi2Ppf 1 (confidenceLevel n) = n ^ 2 ∧ chi2Cdf 1 (n ^ 2) = confidenceLevel n := by
  have hcdf : chi2Cdf 1 (n ^ 2) = confidenceLevel n := by
    have : IsProbabilityMeasure (gammaMeasure (1 / 2) (1 / 2)) :=
      isProbabilityMeasure_gammaMeasure (by norm_num) (by norm_num)
    unfold chi2Cdf gammaCdf confidenceLevel Phi
    have h1 := (cdf (gammaMeasure (1 / 2) (1 / 2))).measure_Ioc 0 (n ^ 2)
    have h2 := (cdf stdNormal).measure_Ioc 0 n
    rw [measure_cdf] at h1 h2
    rw [gamma_half_Ioc n hn, h2, show (2 : ENNReal) = ENNReal.ofReal 2 by simp,
      ← ENNReal.ofReal_mul (by norm_num)] at h1
    have hm1 := monotone_cdf stdNormal hn
    have hm2 := monotone_cdf (gammaMeasure (1 / 2) (1 / 2)) (sq_nonneg n)
    have h3 := (ENNReal.ofReal_eq_ofReal_iff (by linarith) (by linarith)).1 h1
    have h4 : cdf (gammaMeasure (1 / 2) (1 / 2)) 0 = 0 :=
      gammaCdf_nonpos (a := 1 / 2) (r := 1 / 2) (by norm_num) (by norm_num) le_rfl
    have h5 : cdf stdNormal 0 = 1 / 2 := Phi_zero
    rw [h4, h5] at h3
    linarith
  refine ⟨?_, hcdf⟩
  rw [← hcdf]
  unfold chi2Ppf chi2Cdf
  exact gammaPpf_cdf (by norm_num) (by norm_num) (sq_nonneg n)

/-- **C61.** `confidence_level(n)` is the probability of `[-n, n]` under the normal distribution. -/
theorem C61_confidence_level (n : ℝ) (hn : 0 ≤ n) :
    confidenceLevel n = (stdNormal (Icc (-n) n)).toReal := by
  have h2 := (cdf stdNormal).measure_Ioc (-n) n
  rw [measure_cdf] at h2
  have h3 : stdNormal (Icc (-n) n) = stdNormal (Ioc (-n) n) := by
    rw [← Ioc_union_left (by linarith : -n ≤ n)]
    rw [measure_union₀ (by simp) (by
      apply Disjoint.aedisjoint
      simp)]
    rw [stdNormal_singleton, add_zero]
  rw [h3, h2, ENNReal.toReal_ofReal (by
    have := monotone_cdf stdNormal (by linarith : -n ≤ n)
    linarith)]
  have : cdf stdNormal (-n) = 1 - Phi n := Phi_neg n
  rw [this]
  unfold confidenceLevel Phi
  ring

/-- **C61.** `delta_chi2`, `pull` are strictly increasing and `pvalue` strictly decreasing on `[0, ∞)`,
and `pvalue(delta_chi2(n, dof), dof) = 1 - confidence_level(n)`. -/
theorem C61_monotone (dof : ℝ) (hd : 0 < dof) :
    StrictMonoOn (fun n => deltaChi2 n dof) (Ici 0) ∧ StrictMonoOn (fun x => pull x dof) (Ici 0) ∧
    StrictAntiOn (fun x => pvalue x dof) (Ici 0) ∧
    ∀ n, 0 ≤ n → pvalue (deltaChi2 n dof) dof = 1 - confidenceLevel n := by
  have hp : StrictMonoOn (fun x => pull x dof) (Ici 0) := by
    intro x hx y hy hxy
    have hx0 : (0 : ℝ) ≤ x := hx
    show pull x dof < pull y dof
    unfold pull
    by_cases h1 : dof = 1
    · rw [if_pos h1, if_pos h1, abs_of_nonneg hx0, abs_of_nonneg (hx0.trans hxy.le)]
      exact Real.sqrt_lt_sqrt hx0 hxy
    · rw [if_neg h1, if_neg h1]
      have hF0 := gammaCdf_nonneg (a := dof / 2) (r := 1 / 2) (by linarith) (by norm_num)
      have hF1 := gammaCdf_lt_one (a := dof / 2) (r := 1 / 2) (by linarith) (by norm_num)
      have hlt := gammaCdf_strictMonoOn (a := dof / 2) (r := 1 / 2) (by linarith) (by norm_num) hx hy hxy
      unfold chi2Cdf
      rw [← Phi_strictMono.lt_iff_lt, Phi_PhiInv (by linarith [hF0 x]) (by linarith [hF1 x]),
        Phi_PhiInv (by linarith [hF0 y]) (by linarith [hF1 y])]
      linarith
  have hd0 : ∀ n, 0 ≤ n → 0 ≤ deltaChi2 n dof := by
    intro n hn
    unfold deltaChi2
    split
    · positivity
    · exact (gammaCdf_ppf (by linarith) (by norm_num) (confidenceLevel_nonneg hn)
        (confidenceLevel_lt_one n)).2
  refine ⟨?_, hp, ?_, ?_⟩
  · intro x hx y hy hxy
    have h := C61_pull_inverts_delta_chi2 x dof hx hd
    have h' := C61_pull_inverts_delta_chi2 y dof hy hd
    by_contra hcon
    have : pull (deltaChi2 y dof) dof ≤ pull (deltaChi2 x dof) dof :=
      hp.monotoneOn (hd0 y hy) (hd0 x hx) (not_lt.1 hcon)
    rw [h, h'] at this
    linarith
  · intro x hx y hy hxy
    show pvalue y dof < pvalue x dof
    unfold pvalue chi2Cdf
    have := gammaCdf_strictMonoOn (a := dof / 2) (r := 1 / 2) (by linarith) (by norm_num) hx hy hxy
    linarith
  · intro n hn
    unfold pvalue deltaChi2
    by_cases h1 : dof = 1
    · rw [if_pos h1, h1, (C61_one_dof_consistent n hn).2]
    · rw [if_neg h1]
      unfold chi2Cdf chi2Ppf
      rw [(gammaCdf_ppf (by linarith) (by norm_num) (confidenceLevel_nonneg hn)
        (confidenceLevel_lt_one n)).1]

/-- Outside the stated range the inversion fails: a negative `n` with one degree of freedom comes back
as its absolute value. -/
example : pull (deltaChi2 (-2) 1) 1 = 2 := by
  unfold pull deltaChi2
  rw [if_pos rfl, if_pos rfl]
  rw [show |((-2 : ℝ)) ^ 2| = 2 ^ 2 by norm_num, Real.sqrt_sq (by norm_num)]

/-! ## The assumptions of the Gamma properties (C75, C76) hold for the actual Gamma distribution -/

/-- The standard Gamma distribution. (Specification.) -/
noncomputable def realGamma : Probability.StdGamma where
  cdf a x := gammaCdf a 1 x
  ppf a q := gammaPpf a 1 q
  logpdf a x := Real.log (gammaPDFReal a 1 x)

/-- **C75/C76.** What the properties of the Gamma-based distributions assume about
`scipy.stats.gamma` is satisfied by the actual Gamma distribution, for every positive shape. -/
theorem C75_actual_gamma_satisfies_assumptions (a : ℝ) (ha : 0 < a) : realGamma.Ok a where
  cdf_ppf q h0 h1 := (gammaCdf_ppf ha one_pos h0 h1).1
  ppf_nonneg q h0 h1 := (gammaCdf_ppf ha one_pos h0 h1).2
  cdf_nonneg x := gammaCdf_nonneg ha one_pos x
  cdf_lt_one x := gammaCdf_lt_one ha one_pos x
  cdf_mono := gammaCdf_strictMonoOn ha one_pos

end Verif.Statistics
