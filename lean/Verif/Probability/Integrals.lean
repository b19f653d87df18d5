import Verif.Probability.Constructors
import Mathlib.Analysis.SpecialFunctions.Gaussian.GaussianIntegral
import Mathlib.MeasureTheory.Integral.IntervalIntegral.Basic
import Mathlib.MeasureTheory.Integral.IntegralEqImproper
import Mathlib.Topology.Order.IntermediateValue
/-!
# C35, C72: the PDFs are continuous and normalised; upper limits have their confidence level
-/
set_option linter.unusedSectionVars false
set_option linter.unusedSimpArgs false
set_option linter.unusedVariables false
namespace Verif.Probability
open Verif.Py MeasureTheory Set

/-- The unnormalised Gaussian. (Specification.) -/
noncomputable def bell (s z : ℝ) : ℝ := Real.exp (-(1 / (2 * s ^ 2)) * z ^ 2)

theorem exp_normalLogpdf {s : ℝ} (hs : 0 < s) (x c : ℝ) :
    Real.exp (normalLogpdf x c s) = bell s (x - c) / (Real.sqrt (2 * Real.pi) * s) := by
  unfold normalLogpdf bell
  rw [Real.exp_sub, Real.exp_log (mul_pos sqrt2pi_pos hs)]
  congr 2
  field_simp

theorem bell_neg (s z : ℝ) : bell s (-z) = bell s z := by unfold bell; congr 1; ring

theorem bell_integrable {s : ℝ} (hs : 0 < s) : Integrable (bell s) :=
  integrable_exp_neg_mul_sq (by positivity)

theorem bell_Ioi {s : ℝ} (hs : 0 < s) : ∫ z in Ioi 0, bell s z = Real.sqrt (2 * Real.pi) * s / 2 := by
  unfold bell
  rw [integral_gaussian_Ioi]
  congr 1
  rw [show Real.pi / (1 / (2 * s ^ 2)) = (2 * Real.pi) * s ^ 2 by field_simp,
    Real.sqrt_mul (by positivity), Real.sqrt_sq hs.le]

theorem bell_Iic {s : ℝ} (hs : 0 < s) : ∫ z in Iic 0, bell s z = Real.sqrt (2 * Real.pi) * s / 2 := by
  rw [← bell_Ioi hs]
  have := integral_comp_neg_Ioi 0 (bell s)
  simp only [neg_zero, bell_neg] at this
  exact this.symm

theorem bell_integral {s : ℝ} (hs : 0 < s) : ∫ z, bell s z = Real.sqrt (2 * Real.pi) * s := by
  rw [← intervalIntegral.integral_Iic_add_Ioi (b := (0 : ℝ)) (bell_integrable hs).integrableOn
    (bell_integrable hs).integrableOn, bell_Ioi hs, bell_Iic hs]
  ring

/-- **C72 (normal)** The normal PDF integrates to 1. -/
theorem C72_normal (c s : ℝ) (hs : 0 < s) : ∫ x, expP ((UDist.normal c s).logpdf x) = 1 := by
  have h : ∀ x, expP ((UDist.normal c s).logpdf x) =
      (fun z => bell s z / (Real.sqrt (2 * Real.pi) * s)) (x - c) := fun x => exp_normalLogpdf hs x c
  simp only [h]
  rw [integral_sub_right_eq_self (fun z => bell s z / (Real.sqrt (2 * Real.pi) * s)) c,
    integral_div, bell_integral hs, div_self (ne_of_gt (mul_pos sqrt2pi_pos hs))]

/-! ## C35 -/

/-- The PDF of the asymmetric normal distribution. (Specification.) -/
noncomputable def asymPdf (c r l x : ℝ) : ℝ := expP ((UDist.asym c r l).logpdf x)

theorem asymPdf_eq {c r l : ℝ} (hr : 0 < r) (hl : 0 < l) (x : ℝ) :
    asymPdf c r l x = if x < c then 2 / ((r + l) * Real.sqrt (2 * Real.pi)) * bell l (x - c)
      else 2 / ((r + l) * Real.sqrt (2 * Real.pi)) * bell r (x - c) := by
  have h2 := sqrt2pi_pos
  show Real.exp (asymLogpdf c r l x) = _
  rw [asymLogpdf_eq hr hl]
  split
  · rw [Real.exp_add, Real.exp_log (by positivity), exp_normalLogpdf hl]
    field_simp
  · rw [Real.exp_add, Real.exp_log (by positivity), exp_normalLogpdf hr]
    field_simp

theorem asymPdf_left {c r l : ℝ} (hr : 0 < r) (hl : 0 < l) {x : ℝ} (hx : x ≤ c) :
    asymPdf c r l x = 2 / ((r + l) * Real.sqrt (2 * Real.pi)) * bell l (x - c) := by
  rw [asymPdf_eq hr hl]
  split
  · rfl
  · rename_i h
    have : x = c := le_antisymm hx (not_lt.1 h)
    subst this
    simp [bell]

theorem asymPdf_right {c r l : ℝ} (hr : 0 < r) (hl : 0 < l) {x : ℝ} (hx : c ≤ x) :
    asymPdf c r l x = 2 / ((r + l) * Real.sqrt (2 * Real.pi)) * bell r (x - c) := by
  rw [asymPdf_eq hr hl, if_neg (not_lt.2 hx)]

theorem bell_continuous (s : ℝ) : Continuous (bell s) := by unfold bell; fun_prop

/-- **C35 (continuity)** The PDF is continuous everywhere (in particular at the central value). -/
theorem C35_continuous (c r l : ℝ) (hr : 0 < r) (hl : 0 < l) : Continuous (asymPdf c r l) := by
  have h : asymPdf c r l = fun x => if x ≤ c then 2 / ((r + l) * Real.sqrt (2 * Real.pi)) * bell l (x - c)
      else 2 / ((r + l) * Real.sqrt (2 * Real.pi)) * bell r (x - c) := by
    funext x
    split
    · rename_i h; exact asymPdf_left hr hl h
    · rename_i h; exact asymPdf_right hr hl (not_le.1 h).le
  rw [h]
  refine Continuous.if_le ?_ ?_ continuous_id continuous_const ?_
  · exact continuous_const.mul ((bell_continuous l).comp (continuous_id.sub continuous_const))
  · exact continuous_const.mul ((bell_continuous r).comp (continuous_id.sub continuous_const))
  · intro x hx
    subst hx
    simp [bell]

/-- **C35 (normalisation)** The PDF integrates to 1. -/
theorem C35_normalised (c r l : ℝ) (hr : 0 < r) (hl : 0 < l) : ∫ x, asymPdf c r l x = 1 := by
  have hshift : ∀ x, asymPdf c r l x = asymPdf 0 r l (x - c) := by
    intro x
    rw [asymPdf_eq hr hl, asymPdf_eq hr hl]
    simp only [sub_zero, sub_neg]
  simp only [hshift]
  rw [integral_sub_right_eq_self (asymPdf 0 r l) c]
  have hL : EqOn (asymPdf 0 r l) (fun z => 2 / ((r + l) * Real.sqrt (2 * Real.pi)) * bell l z) (Iic 0) := by
    intro z hz; simp only [asymPdf_left hr hl (mem_Iic.1 hz), sub_zero]
  have hR : EqOn (asymPdf 0 r l) (fun z => 2 / ((r + l) * Real.sqrt (2 * Real.pi)) * bell r z) (Ioi 0) := by
    intro z hz; simp only [asymPdf_right hr hl (mem_Ioi.1 hz).le, sub_zero]
  have iL : IntegrableOn (asymPdf 0 r l) (Iic 0) :=
    (((bell_integrable hl).const_mul _).integrableOn).congr_fun hL.symm measurableSet_Iic
  have iR : IntegrableOn (asymPdf 0 r l) (Ioi 0) :=
    (((bell_integrable hr).const_mul _).integrableOn).congr_fun hR.symm measurableSet_Ioi
  rw [← intervalIntegral.integral_Iic_add_Ioi iL iR, setIntegral_congr_fun measurableSet_Iic hL,
    setIntegral_congr_fun measurableSet_Ioi hR, integral_const_mul, integral_const_mul, bell_Iic hl, bell_Ioi hr]
  have h2 := sqrt2pi_pos
  field_simp
  ring

/-- **C35 (reduction)** With equal deviations it is the normal distribution. -/
theorem C35_symmetric (c s x : ℝ) (hs : 0 < s) :
    (UDist.asym c s s).logpdf x = (UDist.normal c s).logpdf x := by
  show ((asymLogpdf c s s x : ℝ) : LogP) = ((normalLogpdf x c s : ℝ) : LogP)
  rw [asymLogpdf_eq hs hs, show 2 * s / (s + s) = 1 by field_simp; norm_num, Real.log_one]
  simp

/-! ## Half-normal, uniform, Gaussian upper limit -/

/-- **C72 (half-normal, positive standard deviation)** The probability between the central value and any
`c + b` is twice the Gaussian one; in total it is 1. -/
theorem half_eq {s : ℝ} (hs : 0 < s) (c x : ℝ) (hx : c ≤ x) :
    expP (halfLogpdf c s x) = 2 * (bell s (x - c) / (Real.sqrt (2 * Real.pi) * s)) := by
  unfold halfLogpdf npSign
  rw [if_neg (not_lt.2 hs.le), if_neg (ne_of_gt hs), one_mul, if_neg (by linarith)]
  show Real.exp _ = _
  rw [Real.exp_add, Real.exp_log (by norm_num), abs_of_pos hs, exp_normalLogpdf hs]

theorem half_zero {s : ℝ} (hs : 0 < s) (c x : ℝ) (hx : x < c) : expP (halfLogpdf c s x) = 0 := by
  unfold halfLogpdf npSign
  rw [if_neg (not_lt.2 hs.le), if_neg (ne_of_gt hs), one_mul, if_pos (by linarith)]
  rfl

/-- Mirror symmetry of the half-normal distribution. -/
theorem half_neg (c s x : ℝ) (hs : s ≠ 0) : halfLogpdf c (-s) x = halfLogpdf (-c) s (-x) := by
  unfold halfLogpdf
  have h1 : npSign (-s) * (x - c) = npSign s * (-x - -c) := by
    unfold npSign
    rcases lt_or_gt_of_ne hs with h | h
    · rw [if_neg (by linarith), if_neg (by simpa using hs), if_pos h]; ring
    · rw [if_pos (by linarith), if_neg (by linarith), if_neg hs]; ring
  rw [h1, abs_neg]
  have : normalLogpdf x c |s| = normalLogpdf (-x) (-c) |s| := by
    unfold normalLogpdf
    congr 3
    ring
  rw [this]

theorem half_normalised_pos (c s : ℝ) (hs : 0 < s) : ∫ x, expP (halfLogpdf c s x) = 1 := by
  have hshift : ∀ x, expP (halfLogpdf c s x) = (fun z => expP (halfLogpdf 0 s z)) (x - c) := by
    intro x
    simp only
    by_cases h : x < c
    · rw [half_zero hs _ _ h, half_zero hs _ _ (by linarith)]
    · rw [half_eq hs _ _ (not_lt.1 h), half_eq hs _ _ (by linarith), sub_zero]
  simp only [hshift]
  rw [integral_sub_right_eq_self (fun z => expP (halfLogpdf 0 s z)) c]
  have hR : EqOn (fun z => expP (halfLogpdf 0 s z)) (fun z => 2 / (Real.sqrt (2 * Real.pi) * s) * bell s z) (Ioi 0) := by
    intro z hz
    simp only
    rw [half_eq hs _ _ (mem_Ioi.1 hz).le, sub_zero]; ring
  have hL : EqOn (fun z => expP (halfLogpdf 0 s z)) (fun z => 0) (Iio 0) := by
    intro z hz
    exact half_zero hs _ _ (mem_Iio.1 hz)
  have iR : IntegrableOn (fun z => expP (halfLogpdf 0 s z)) (Ioi 0) :=
    (((bell_integrable hs).const_mul _).integrableOn).congr_fun hR.symm measurableSet_Ioi
  have iL : IntegrableOn (fun z => expP (halfLogpdf 0 s z)) (Iic 0) := by
    rw [integrableOn_Iic_iff_integrableOn_Iio]
    exact (integrableOn_zero).congr_fun hL.symm measurableSet_Iio
  rw [← intervalIntegral.integral_Iic_add_Ioi iL iR, setIntegral_congr_fun measurableSet_Ioi hR,
    integral_Iic_eq_integral_Iio, setIntegral_congr_fun measurableSet_Iio hL, integral_const_mul, bell_Ioi hs]
  have h2 := sqrt2pi_pos
  simp only [integral_zero, zero_add]
  field_simp

/-- **C72 (half-normal)** The half-normal PDF integrates to 1 for both signs of the standard deviation. -/
theorem C72_half_normal (c s : ℝ) (hs : s ≠ 0) : ∫ x, expP ((UDist.half c s).logpdf x) = 1 := by
  show ∫ x, expP (halfLogpdf c s x) = 1
  rcases lt_or_gt_of_ne hs with h | h
  · have h1 : ∀ x, expP (halfLogpdf c s x) = (fun z => expP (halfLogpdf (-c) (-s) z)) (-x) := by
      intro x
      have := half_neg c (-s) x (by simpa using hs)
      rw [neg_neg] at this
      simp only [this]
    simp only [h1]
    rw [integral_neg_eq_self (fun z => expP (halfLogpdf (-c) (-s) z))]
    exact half_normalised_pos _ _ (by linarith)
  · exact half_normalised_pos c s h

/-- **C72 (uniform)** -/
theorem C72_uniform (c h : ℝ) (hh : 0 < h) : ∫ x, expP ((UDist.uniform c h).logpdf x) = 1 := by
  have h1 := ((C34_uniform c h).2 hh).2.2
  have h2 : (fun x => expP ((UDist.uniform c h).logpdf x)) =
      (Ico (c - h) (c + h)).indicator (fun _ => 1 / (2 * h)) := by
    funext x
    rw [h1]
    simp only [indicator, mem_Ico]
  rw [h2, integral_indicator measurableSet_Ico, setIntegral_const]
  simp only [Measure.real, Real.volume_Ico, smul_eq_mul]
  rw [ENNReal.toReal_ofReal (by linarith)]
  field_simp
  ring

/-- The standard normal CDF. (Specification.) -/
noncomputable def Phi (z : ℝ) : ℝ := ∫ t in Iic z, bell 1 t / Real.sqrt (2 * Real.pi)

theorem Phi_zero : Phi 0 = 1 / 2 := by
  unfold Phi
  rw [integral_div, bell_Iic one_pos]
  have := sqrt2pi_pos
  field_simp

/-- **C72 (Gaussian upper limit)** The probability to be below the limit is the confidence level, if
`scipy.stats.norm.ppf` is the inverse of the normal CDF and positive above 1/2. -/
theorem C72_gaussian_upper_limit (ppf : ℝ → ℝ) (hpos : ∀ p, 1 / 2 < p → p < 1 → 0 < ppf p)
    (hinv : ∀ p, 1 / 2 < p → p < 1 → Phi (ppf p) = p) (limit cl : ℝ) (hl : 0 < limit) (h0 : 0 < cl) (h1 : cl < 1)
    (d : UDist) (h : mkGaussianLimit ppf limit cl = .ok d) :
    ∫ x in Iic limit, expP (d.logpdf x) = cl := by
  have hp := hpos (0.5 + cl / 2) (by norm_num; linarith) (by norm_num; linarith)
  unfold mkGaussianLimit at h
  rw [if_neg (by rintro (h | h) <;> linarith), if_neg (by linarith), if_neg (ne_of_gt (div_pos hl hp))] at h
  injection h with h
  subst h
  have hinv' := hinv (0.5 + cl / 2) (by norm_num; linarith) (by norm_num; linarith)
  generalize hq : ppf (0.5 + cl / 2) = q at *
  have hs : 0 < limit / q := div_pos hl hp
  show ∫ x in Iic limit, expP (halfLogpdf 0 (limit / q) x) = cl
  set s := limit / q with hsdef
  have hls : limit = s * q := by rw [hsdef]; field_simp
  -- split at zero
  have hL : EqOn (fun z => expP (halfLogpdf 0 s z)) (fun z => 0) (Iio 0) :=
    fun z hz => half_zero hs _ _ (mem_Iio.1 hz)
  have hR : EqOn (fun z => expP (halfLogpdf 0 s z)) (fun z => 2 / (Real.sqrt (2 * Real.pi) * s) * bell s z)
      (Ioc 0 limit) := by
    intro z hz
    simp only
    rw [half_eq hs _ _ hz.1.le, sub_zero]; ring
  have hdisj : Disjoint (Iic (0 : ℝ)) (Ioc 0 limit) := by
    rw [Set.disjoint_left]; intro a ha hb; exact absurd hb.1 (not_lt.2 ha)
  have iL : IntegrableOn (fun z => expP (halfLogpdf 0 s z)) (Iic 0) := by
    rw [integrableOn_Iic_iff_integrableOn_Iio]
    exact (integrableOn_zero).congr_fun hL.symm measurableSet_Iio
  have iR : IntegrableOn (fun z => expP (halfLogpdf 0 s z)) (Ioc 0 limit) :=
    (((bell_integrable hs).const_mul _).integrableOn).congr_fun hR.symm measurableSet_Ioc
  rw [← Iic_union_Ioc_eq_Iic hl.le, setIntegral_union hdisj measurableSet_Ioc iL iR,
    integral_Iic_eq_integral_Iio, setIntegral_congr_fun measurableSet_Iio hL,
    setIntegral_congr_fun measurableSet_Ioc hR, integral_const_mul]
  simp only [integral_zero, zero_add]
  -- substitution z = s t
  have hsub : ∫ z in Ioc 0 limit, bell s z = s * ∫ t in Ioc 0 q, bell 1 t := by
    rw [← intervalIntegral.integral_of_le hl.le, ← intervalIntegral.integral_of_le hp.le]
    have e : ∀ z, bell s z = bell 1 (z / s) := by
      intro z; unfold bell; congr 1; field_simp
    simp only [e]
    rw [intervalIntegral.integral_comp_div (fun t => bell 1 t) (ne_of_gt hs), smul_eq_mul, zero_div]
    congr 2
    rw [hls]; field_simp
  have hPhi : ∫ t in Ioc 0 q, bell 1 t = Real.sqrt (2 * Real.pi) * (cl / 2) := by
    have hu : Phi q = Phi 0 + ∫ t in Ioc 0 q, bell 1 t / Real.sqrt (2 * Real.pi) := by
      unfold Phi
      rw [← Iic_union_Ioc_eq_Iic hp.le, setIntegral_union (by
        rw [Set.disjoint_left]; intro a ha hb; exact absurd hb.1 (not_lt.2 ha)) measurableSet_Ioc
        ((bell_integrable one_pos).div_const _).integrableOn ((bell_integrable one_pos).div_const _).integrableOn]
    rw [hinv', Phi_zero, integral_div] at hu
    have h2 := sqrt2pi_pos
    have h3 : (∫ t in Ioc 0 q, bell 1 t) / Real.sqrt (2 * Real.pi) = cl / 2 := by
      have : (0.5 : ℝ) = 1 / 2 := by norm_num
      linarith
    rw [div_eq_iff (ne_of_gt h2)] at h3
    rw [h3, mul_comm]
  rw [hsub, hPhi]
  have h2 := sqrt2pi_pos
  field_simp

theorem Phi_eq {z : ℝ} (hz : 0 ≤ z) : Phi z = 1 / 2 + ∫ t in (0 : ℝ)..z, bell 1 t / Real.sqrt (2 * Real.pi) := by
  rw [← Phi_zero, intervalIntegral.integral_of_le hz]
  unfold Phi
  rw [← Iic_union_Ioc_eq_Iic hz, setIntegral_union (by
    rw [Set.disjoint_left]; intro a ha hb; exact absurd hb.1 (not_lt.2 ha)) measurableSet_Ioc
    ((bell_integrable one_pos).div_const _).integrableOn ((bell_integrable one_pos).div_const _).integrableOn]

/-- The hypotheses of `C72_gaussian_upper_limit` are met by the actual quantile function. -/
theorem exists_quantile : ∃ ppf : ℝ → ℝ, (∀ p, 1 / 2 < p → p < 1 → 0 < ppf p) ∧
    (∀ p, 1 / 2 < p → p < 1 → Phi (ppf p) = p) := by
  have key : ∀ p : ℝ, 1 / 2 < p → p < 1 → ∃ z, 0 < z ∧ Phi z = p := by
    intro p h1 h2
    set F : ℝ → ℝ := fun z => 1 / 2 + ∫ t in (0 : ℝ)..z, bell 1 t / Real.sqrt (2 * Real.pi) with hF
    have hint := (bell_integrable one_pos).div_const (Real.sqrt (2 * Real.pi))
    have hcont : Continuous F :=
      continuous_const.add (intervalIntegral.continuous_primitive (fun a b => hint.intervalIntegrable) 0)
    have hlim : Filter.Tendsto F Filter.atTop (nhds 1) := by
      have := (intervalIntegral_tendsto_integral_Ioi 0 hint.integrableOn Filter.tendsto_id).const_add (1 / 2 : ℝ)
      rw [integral_div, bell_Ioi one_pos] at this
      have h2 := sqrt2pi_pos
      have e : (1 / 2 : ℝ) + Real.sqrt (2 * Real.pi) * 1 / 2 / Real.sqrt (2 * Real.pi) = 1 := by
        field_simp; norm_num
      rw [e] at this
      exact this
    obtain ⟨b, hb, hb0⟩ := ((hlim.eventually (lt_mem_nhds h2)).and (Filter.eventually_gt_atTop 0)).exists
    have h0 : F 0 = 1 / 2 := by simp [hF]
    obtain ⟨z, hz, hzp⟩ := intermediate_value_Ioo hb0.le hcont.continuousOn ⟨by rw [h0]; exact h1, hb⟩
    exact ⟨z, hz.1, by rw [Phi_eq hz.1.le]; exact hzp⟩
  classical
  refine ⟨fun p => if h : 1 / 2 < p ∧ p < 1 then (key p h.1 h.2).choose else 0, fun p h1 h2 => ?_, fun p h1 h2 => ?_⟩
  · simp only [dif_pos (And.intro h1 h2)]; exact (key p h1 h2).choose_spec.1
  · simp only [dif_pos (And.intro h1 h2)]; exact (key p h1 h2).choose_spec.2

end Verif.Probability
