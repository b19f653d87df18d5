import Verif.Physics.Qcdf.Claims
import Mathlib.Analysis.SpecialFunctions.Trigonometric.ArctanDeriv
import Mathlib.Analysis.SpecialFunctions.Complex.Arctan
import Mathlib.MeasureTheory.Integral.IntervalIntegral.FundThmCalculus
/-!
# The two-point function of the quark loops (`B0`, `B0diffBFS` of `flavio/physics/bdecays/bvll/qcdf.py`)
-/
set_option linter.unusedVariables false
set_option linter.unusedSimpArgs false
namespace Verif.Qcdf
open Verif.Py Complex

/-- Below threshold, without the small imaginary part, the value is real. -/
theorem b0_below (F : Fn) (s m : ℝ) (hF : F.eps = 0) (hs : 0 < s) (ht : s < 4 * m ^ 2) :
    b0 F s m = ((-2 * (√(4 * m ^ 2 / s - 1) * Real.arctan (1 / √(4 * m ^ 2 / s - 1))) : ℝ) : ℂ) := by
  have h1 : 1 < 4 * m ^ 2 / s := (one_lt_div hs).2 ht
  unfold b0
  rw [if_neg hs.ne', if_neg h1.ne']
  have e : (4 * (((m ^ 2 : ℝ) : ℂ) - (F.eps : ℂ) * I) / (s : ℂ) - 1) = ((4 * m ^ 2 / s - 1 : ℝ) : ℂ) := by
    rw [hF]; push_cast; ring
  simp only [e]
  rw [csqrt_pos _ (by linarith)]
  push_cast
  ring

/-- **C140 (two-point function).** Below threshold the closed form is the Feynman-parameter integral of the two-point function,
with the constant chosen in the code. -/
theorem C140_b0_integral (F : Fn) (s m : ℝ) (hF : F.eps = 0) (hs : 0 < s) (ht : s < 4 * m ^ 2) :
    b0 F s m = ((-2 - ∫ x in (0 : ℝ)..1, Real.log (1 - x * (1 - x) * s / m ^ 2) : ℝ) : ℂ) := by
  rw [b0_below F s m hF hs ht]
  have hm : 0 < m ^ 2 := by nlinarith
  have hm0 : m ≠ 0 := fun h => by rw [h] at hm; norm_num at hm
  have hr0 : 0 < 4 * m ^ 2 / s - 1 := by have := (one_lt_div hs).2 ht; linarith
  set r := √(4 * m ^ 2 / s - 1) with hr
  have hrp : 0 < r := Real.sqrt_pos.2 hr0
  have hr2 : r ^ 2 = 4 * m ^ 2 / s - 1 := Real.sq_sqrt hr0.le
  have hq : ∀ x : ℝ, 1 - x * (1 - x) * s / m ^ 2 = s / m ^ 2 * ((x - 1 / 2) ^ 2 + r ^ 2 / 4) := fun x => by
    rw [hr2]; field_simp; ring
  have hpos : ∀ x : ℝ, 0 < (x - 1 / 2) ^ 2 + r ^ 2 / 4 := fun x => by positivity
  have hqp : ∀ x : ℝ, 0 < 1 - x * (1 - x) * s / m ^ 2 := fun x => by rw [hq]; have := hpos x; positivity
  have h := intervalIntegral.integral_eq_sub_of_hasDerivAt (a := (0 : ℝ)) (b := 1)
    (f := fun x => (x - 1 / 2) * Real.log (1 - x * (1 - x) * s / m ^ 2) - 2 * x + r * Real.arctan ((2 * x - 1) / r))
    (f' := fun x => Real.log (1 - x * (1 - x) * s / m ^ 2)) (fun x _ => by
      have d0 : HasDerivAt (fun x : ℝ => 1 - x * (1 - x) * s / m ^ 2) ((2 * x - 1) * s / m ^ 2) x := by
        have := ((((hasDerivAt_id' x).mul ((hasDerivAt_id' x).const_sub 1)).mul_const s).div_const (m ^ 2)).const_sub 1
        refine this.congr_deriv ?_
        field_simp; ring
      have d1 := d0.log (hqp x).ne'
      have d2 := (((hasDerivAt_id' x).const_mul 2).sub_const 1).div_const r
      have d3 := d2.arctan
      have := ((((hasDerivAt_id' x).sub_const (1 / 2)).mul d1).sub ((hasDerivAt_id' x).const_mul 2)).add (d3.const_mul r)
      refine this.congr_deriv ?_
      rw [hq x]
      have hp := (hpos x).ne'
      have hp2 : 1 + ((2 * x - 1) / r) ^ 2 ≠ 0 := by positivity
      have e2 : 1 + ((2 * x - 1) / r) ^ 2 = 4 / r ^ 2 * ((x - 1 / 2) ^ 2 + r ^ 2 / 4) := by field_simp; ring
      rw [e2]
      generalize hg : (x - 1 / 2) ^ 2 + r ^ 2 / 4 = g at hp
      have hs' := hs.ne'
      have hr' := hrp.ne'
      field_simp
      linear_combination 16 * hg)
    (ContinuousOn.intervalIntegrable (ContinuousOn.log (by fun_prop) fun x _ => (hqp x).ne'))
  rw [h]
  have a1 : Real.arctan ((2 * 0 - 1) / r) = -Real.arctan (1 / r) := by rw [← Real.arctan_neg]; congr 1; ring
  have a2 : (2 * 1 - 1) / r = 1 / r := by ring
  rw [a1, a2]
  norm_num
  ring_nf

open Filter Topology in
/-- **C140 (limits of the two-point function).** The special values at `s = 0` and at threshold are the limits: the function is
continuous there. -/
theorem C140_b0_limits (F : Fn) (m : ℝ) (hF : F.eps = 0) (hm : m ≠ 0) :
    Tendsto (fun s => b0 F s m) (𝓝[>] 0) (𝓝 (b0 F 0 m)) ∧ Tendsto (fun s => b0 F s m) (𝓝[<] (4 * m ^ 2)) (𝓝 (b0 F (4 * m ^ 2) m)) := by
  have hm2 : 0 < m ^ 2 := by positivity
  have z0 : b0 F 0 m = ((-2 * 1 : ℝ) : ℂ) := by simp [b0]
  have z1 : b0 F (4 * m ^ 2) m = ((-2 * 0 : ℝ) : ℂ) := by
    unfold b0
    rw [if_neg (by positivity), if_pos (div_self (by positivity))]
    simp
  constructor
  · rw [z0]
    have hr : Tendsto (fun s : ℝ => √(4 * m ^ 2 / s - 1)) (𝓝[>] 0) atTop := by
      refine Real.tendsto_sqrt_atTop.comp (tendsto_atTop_add_const_right _ (-1) ?_)
      have := tendsto_inv_nhdsGT_zero.const_mul_atTop (show (0 : ℝ) < 4 * m ^ 2 by positivity)
      exact this.congr fun s => (div_eq_mul_inv _ _).symm
    have ha : Tendsto (fun t : ℝ => Real.arctan t / t) (𝓝[>] 0) (𝓝 1) := by
      have h := (hasDerivAt_iff_tendsto_slope.1 (Real.hasDerivAt_arctan 0)).mono_left (nhdsWithin_mono 0 (fun u (hu : u ∈ Set.Ioi (0 : ℝ)) => ne_of_gt hu))
      norm_num at h
      refine h.congr fun u => ?_
      rw [slope_def_field, Real.arctan_zero, sub_zero, sub_zero]
    have hb := (ha.comp (tendsto_inv_atTop_nhdsGT_zero.comp hr)).const_mul (-2)
    refine ((Complex.continuous_ofReal.tendsto _).comp hb).congr' ?_
    have hlt : ∀ᶠ s in 𝓝[>] (0 : ℝ), s < 4 * m ^ 2 := mem_nhdsWithin_of_mem_nhds (gt_mem_nhds (by positivity))
    filter_upwards [hlt, self_mem_nhdsWithin] with s h1 h0
    rw [b0_below F s m hF h0 h1]
    simp only [Function.comp, one_div, div_inv_eq_mul, mul_comm]
  · rw [z1]
    have hr : Tendsto (fun s : ℝ => √(4 * m ^ 2 / s - 1)) (𝓝[<] (4 * m ^ 2)) (𝓝 0) := by
      have hc : ContinuousAt (fun s : ℝ => √(4 * m ^ 2 / s - 1)) (4 * m ^ 2) :=
        (Real.continuous_sqrt.continuousAt).comp ((continuousAt_const.div continuousAt_id (show (4 * m ^ 2 : ℝ) ≠ 0 by positivity)).sub continuousAt_const)
      have := hc.tendsto
      rw [div_self (by positivity), sub_self, Real.sqrt_zero] at this
      exact this.mono_left nhdsWithin_le_nhds
    have hb : Tendsto (fun s : ℝ => √(4 * m ^ 2 / s - 1) * Real.arctan (1 / √(4 * m ^ 2 / s - 1))) (𝓝[<] (4 * m ^ 2)) (𝓝 0) := by
      rw [tendsto_zero_iff_norm_tendsto_zero]
      refine squeeze_zero (fun _ => norm_nonneg _) (g := fun s => √(4 * m ^ 2 / s - 1) * (Real.pi / 2)) (fun s => ?_) (by simpa using hr.mul_const (Real.pi / 2))
      rw [norm_mul, Real.norm_of_nonneg (Real.sqrt_nonneg _), Real.norm_eq_abs]
      refine mul_le_mul_of_nonneg_left (abs_le.2 ⟨(Real.neg_pi_div_two_lt_arctan _).le, (Real.arctan_lt_pi_div_two _).le⟩) (Real.sqrt_nonneg _)
    refine ((Complex.continuous_ofReal.tendsto _).comp (hb.const_mul (-2))).congr' ?_
    have hgt : ∀ᶠ s in 𝓝[<] (4 * m ^ 2), 0 < s := mem_nhdsWithin_of_mem_nhds (lt_mem_nhds (by positivity))
    filter_upwards [hgt, self_mem_nhdsWithin] with s h0 h1
    rw [b0_below F s m hF h0 h1]
    rfl

/-- **C140 (end of the phase space).** At `u = 1` the two arguments of the two-point function coincide and their difference
vanishes, for massive and for massless quarks. -/
theorem C140_b0diff_end (F : Fn) (q2 m mB : ℝ) (h : m ≠ 0 ∨ q2 ≠ 0) : b0diff F q2 1 m mB = .ok 0 := by
  unfold b0diff
  by_cases hm : m = 0
  · have hq := h.resolve_left (not_not.2 hm)
    rw [if_pos hm, if_neg hq]
    simp
  · rw [if_neg hm]
    simp

end Verif.Qcdf
