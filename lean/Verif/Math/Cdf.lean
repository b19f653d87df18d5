import Mathlib.Probability.CDF
import Mathlib.Probability.Distributions.Gamma
import Mathlib.Probability.Distributions.Gaussian.Real

/-!
# Cumulative distribution functions and quantiles of the normal and Gamma distributions

Facts about the actual distributions (Mathlib's measures), used to discharge what other modules assume
about `scipy.stats.norm`, `scipy.stats.gamma` and `scipy.stats.chi2`.
-/
set_option linter.unusedVariables false
set_option linter.unusedSectionVars false
set_option linter.style.haveILetI false
namespace Verif.Cdf
open MeasureTheory ProbabilityTheory Filter Topology Set

/-- The quantile function (`ppf`): the least `x` with `q ≤ F x`. (Specification.) -/
noncomputable def quantile (μ : Measure ℝ) (q : ℝ) : ℝ := sInf {x | q ≤ cdf μ x}

variable (μ : Measure ℝ) [IsProbabilityMeasure μ]

theorem continuous_cdf (h : ∀ x, μ {x} = 0) : Continuous (cdf μ) := by
  rw [continuous_iff_continuousAt]
  intro x
  rw [(monotone_cdf μ).continuousAt_iff_leftLim_eq_rightLim, (cdf μ).rightLim_eq]
  apply le_antisymm
  · exact (monotone_cdf μ).leftLim_le le_rfl
  · have h1 := (cdf μ).measure_singleton x
    rw [measure_cdf, h x] at h1
    have := ENNReal.ofReal_eq_zero.1 h1.symm
    linarith

theorem cdf_lt {x y : ℝ} (h : μ (Ioc x y) ≠ 0) : cdf μ x < cdf μ y := by
  have h1 := (cdf μ).measure_Ioc x y
  rw [measure_cdf] at h1
  by_contra hcon
  apply h
  rw [h1, ENNReal.ofReal_eq_zero]
  linarith

/-- If all smaller points have a smaller CDF, the quantile of the CDF value is the point itself. -/
theorem quantile_cdf {x : ℝ} (h : ∀ y, y < x → cdf μ y < cdf μ x) : quantile μ (cdf μ x) = x := by
  unfold quantile
  have : {y | cdf μ x ≤ cdf μ y} = Ici x := by
    ext y
    simp only [mem_ofPred_eq, mem_Ici]
    constructor
    · intro hy
      by_contra hlt
      exact absurd (h y (not_le.1 hlt)) (not_lt.2 hy)
    · intro hy; exact monotone_cdf μ hy
  rw [this, csInf_Ici]

theorem exists_cdf_eq (hc : Continuous (cdf μ)) {q : ℝ} (h0 : 0 < q) (h1 : q < 1) :
    ∃ x, cdf μ x = q := by
  have hb := (tendsto_cdf_atBot μ).eventually (gt_mem_nhds h0)
  have ht := (tendsto_cdf_atTop μ).eventually (lt_mem_nhds h1)
  obtain ⟨a, ha⟩ := hb.exists
  obtain ⟨b, hb⟩ := ht.exists
  have hab : a ≤ b := by
    by_contra hcon
    have := monotone_cdf μ (not_le.1 hcon).le
    linarith
  obtain ⟨x, -, hx⟩ := intermediate_value_Icc hab hc.continuousOn ⟨ha.le, hb.le⟩
  exact ⟨x, hx⟩

/-! ## Normal distribution -/

/-- The standard normal distribution. (Specification.) -/
noncomputable def stdNormal : Measure ℝ := gaussianReal 0 1

instance : IsProbabilityMeasure stdNormal := by unfold stdNormal; infer_instance

theorem stdNormal_singleton (x : ℝ) : stdNormal {x} = 0 :=
  gaussianReal_absolutelyContinuous 0 one_ne_zero (by simp)

theorem stdNormal_Ioc {x y : ℝ} (h : x < y) : stdNormal (Ioc x y) ≠ 0 := by
  intro h0
  have := gaussianReal_absolutelyContinuous' 0 (v := 1) one_ne_zero h0
  rw [Real.volume_Ioc, ENNReal.ofReal_eq_zero] at this
  linarith

/-- `scipy.stats.norm.cdf`. (Specification.) -/
noncomputable def Phi (x : ℝ) : ℝ := cdf stdNormal x

theorem Phi_strictMono : StrictMono Phi := fun _ _ h => cdf_lt stdNormal (stdNormal_Ioc h)

theorem Phi_continuous : Continuous Phi := continuous_cdf stdNormal stdNormal_singleton

theorem Phi_pos (x : ℝ) : 0 < Phi x :=
  lt_of_le_of_lt (cdf_nonneg stdNormal (x - 1)) (Phi_strictMono (by linarith))

theorem Phi_lt_one (x : ℝ) : Phi x < 1 :=
  lt_of_lt_of_le (Phi_strictMono (by linarith : x < x + 1)) (cdf_le_one stdNormal (x + 1))

/-- `scipy.stats.norm.ppf`. (Specification.) -/
noncomputable def PhiInv (q : ℝ) : ℝ := quantile stdNormal q

theorem PhiInv_Phi (x : ℝ) : PhiInv (Phi x) = x :=
  quantile_cdf stdNormal fun _ h => Phi_strictMono h

theorem Phi_PhiInv {q : ℝ} (h0 : 0 < q) (h1 : q < 1) : Phi (PhiInv q) = q := by
  obtain ⟨x, hx⟩ := exists_cdf_eq stdNormal Phi_continuous h0 h1
  have hx' : Phi x = q := hx
  rw [← hx', PhiInv_Phi]

/-- Symmetry of the normal distribution. -/
theorem Phi_neg (x : ℝ) : Phi (-x) = 1 - Phi x := by
  unfold Phi
  rw [cdf_eq_real, cdf_eq_real]
  have hmap : stdNormal.map (fun y : ℝ => -y) = stdNormal := by
    unfold stdNormal
    rw [gaussianReal_map_neg]
    simp
  have h1 : stdNormal.real (Iic (-x)) = stdNormal.real (Ici x) := by
    conv_lhs => rw [← hmap]
    rw [measureReal_def, Measure.map_apply measurable_neg measurableSet_Iic, measureReal_def]
    congr 2
    ext y; simp
  have h2 : stdNormal.real (Ici x) = stdNormal.real (Ioi x) := by
    rw [measureReal_def, measureReal_def]
    congr 1
    rw [← Ioi_union_left, measure_union₀ (by simp) (by
      apply Disjoint.aedisjoint
      simp)]
    rw [stdNormal_singleton, add_zero]
  rw [h1, h2, ← compl_Iic, probReal_compl_eq_one_sub measurableSet_Iic]

theorem Phi_zero : Phi 0 = 1 / 2 := by
  have := Phi_neg 0
  rw [neg_zero] at this
  linarith

/-! ## Gamma distribution -/

theorem gamma_Iic_zero (a r : ℝ) : gammaMeasure a r (Iic 0) = 0 := by
  unfold gammaMeasure
  rw [withDensity_apply _ measurableSet_Iic]
  have : ∫⁻ y in Iic (0 : ℝ), gammaPDF a r y = ∫⁻ y in Iio (0 : ℝ), gammaPDF a r y :=
    setLIntegral_congr Iio_ae_eq_Iic.symm
  rw [this, lintegral_gammaPDF_of_nonpos le_rfl]

theorem gamma_singleton (a r x : ℝ) : gammaMeasure a r {x} = 0 :=
  withDensity_absolutelyContinuous _ _ (by simp)

theorem gamma_Ioc {a r x y : ℝ} (ha : 0 < a) (hr : 0 < r) (hx : 0 ≤ x) (h : x < y) :
    gammaMeasure a r (Ioc x y) ≠ 0 := by
  unfold gammaMeasure
  rw [withDensity_apply _ measurableSet_Ioc]
  intro h0
  have hm : Measurable (gammaPDF a r) := (measurable_gammaPDFReal a r).ennreal_ofReal
  rw [lintegral_eq_zero_iff hm] at h0
  have h1 : ∀ᵐ z ∂(volume.restrict (Ioc x y)), False := by
    filter_upwards [h0, ae_restrict_mem measurableSet_Ioc] with z hz hmem
    have : 0 < gammaPDFReal a r z := gammaPDFReal_pos ha hr (lt_of_le_of_lt hx hmem.1)
    simp only [gammaPDF, Pi.zero_apply, ENNReal.ofReal_eq_zero] at hz
    linarith
  rw [ae_iff] at h1
  simp only [not_false_eq_true, ofPred_true, Measure.restrict_apply_univ, Real.volume_Ioc,
    ENNReal.ofReal_eq_zero] at h1
  linarith

/-- `scipy.stats.gamma(a, scale=1/r).cdf`. (Specification.) -/
noncomputable def gammaCdf (a r x : ℝ) : ℝ := cdf (gammaMeasure a r) x

/-- `scipy.stats.gamma(a, scale=1/r).ppf` (scipy returns the lower end of the support, 0, for `q = 0`).
(Specification.) -/
noncomputable def gammaPpf (a r q : ℝ) : ℝ := if q = 0 then 0 else quantile (gammaMeasure a r) q

section
variable {a r : ℝ} (ha : 0 < a) (hr : 0 < r)
include ha hr

theorem gammaCdf_nonpos {x : ℝ} (hx : x ≤ 0) : gammaCdf a r x = 0 := by
  haveI := isProbabilityMeasure_gammaMeasure ha hr
  unfold gammaCdf
  rw [cdf_eq_real, measureReal_def]
  have : gammaMeasure a r (Iic x) = 0 :=
    measure_mono_null (Iic_subset_Iic.2 hx) (gamma_Iic_zero a r)
  rw [this]; rfl

theorem gammaCdf_strictMonoOn : StrictMonoOn (gammaCdf a r) (Ici 0) := by
  haveI := isProbabilityMeasure_gammaMeasure ha hr
  intro x hx y _ h
  exact cdf_lt _ (gamma_Ioc ha hr hx h)

theorem gammaCdf_continuous : Continuous (gammaCdf a r) := by
  haveI := isProbabilityMeasure_gammaMeasure ha hr
  exact continuous_cdf _ (gamma_singleton a r)

theorem gammaCdf_nonneg (x : ℝ) : 0 ≤ gammaCdf a r x := by
  haveI := isProbabilityMeasure_gammaMeasure ha hr
  exact cdf_nonneg _ _

theorem gammaCdf_pos {x : ℝ} (hx : 0 < x) : 0 < gammaCdf a r x := by
  rw [← gammaCdf_nonpos ha hr le_rfl]
  exact gammaCdf_strictMonoOn ha hr (by simp) hx.le hx

theorem gammaCdf_lt_one (x : ℝ) : gammaCdf a r x < 1 := by
  haveI := isProbabilityMeasure_gammaMeasure ha hr
  rcases le_or_gt x 0 with hx | hx
  · rw [gammaCdf_nonpos ha hr hx]; exact one_pos
  · exact lt_of_lt_of_le (gammaCdf_strictMonoOn ha hr hx.le (by
      show (0 : ℝ) ≤ x + 1; linarith) (by linarith : x < x + 1)) (cdf_le_one _ _)

theorem gammaPpf_cdf {x : ℝ} (hx : 0 ≤ x) : gammaPpf a r (gammaCdf a r x) = x := by
  haveI := isProbabilityMeasure_gammaMeasure ha hr
  unfold gammaPpf
  rcases hx.eq_or_lt with rfl | hx'
  · rw [gammaCdf_nonpos ha hr le_rfl, if_pos rfl]
  · rw [if_neg (gammaCdf_pos ha hr hx').ne']
    apply quantile_cdf
    intro y hy
    rcases le_or_gt y 0 with h | h
    · have h1 := gammaCdf_nonpos ha hr h
      have h2 := gammaCdf_pos ha hr hx'
      unfold gammaCdf at h1 h2
      rw [h1]; exact h2
    · exact gammaCdf_strictMonoOn ha hr h.le hx hy

theorem gammaCdf_ppf {q : ℝ} (h0 : 0 ≤ q) (h1 : q < 1) :
    gammaCdf a r (gammaPpf a r q) = q ∧ 0 ≤ gammaPpf a r q := by
  haveI := isProbabilityMeasure_gammaMeasure ha hr
  rcases h0.eq_or_lt with rfl | h0'
  · unfold gammaPpf
    rw [if_pos rfl]
    exact ⟨gammaCdf_nonpos ha hr le_rfl, le_rfl⟩
  · obtain ⟨x, hx⟩ := exists_cdf_eq (gammaMeasure a r) (gammaCdf_continuous ha hr) h0' h1
    have hx0 : 0 ≤ x := by
      by_contra hcon
      have h2 := gammaCdf_nonpos ha hr (not_le.1 hcon).le
      unfold gammaCdf at h2
      linarith
    have hx' : gammaCdf a r x = q := hx
    rw [← hx', gammaPpf_cdf ha hr hx0]
    exact ⟨rfl, hx0⟩

end

end Verif.Cdf
