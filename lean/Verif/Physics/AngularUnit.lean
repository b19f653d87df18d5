import Verif.Physics.EnergyUnit
import Verif.Physics.Angular.Amps
import Verif.Physics.Semilep.P
import Verif.Physics.Semilep.V
import Mathlib.MeasureTheory.Integral.IntervalIntegral.Basic
/-!
# The unit of energy: angular distributions and semileptonic decays

Continues `EnergyUnit.lean`: `flavio/physics/bdecays/angular.py`, `bplnu.py`, `ddecays/dplnu.py`.
-/
set_option linter.unusedVariables false
set_option linter.unusedSimpArgs false
set_option linter.unusedSectionVars false
namespace Verif.EnergyUnit
open Verif.Common Verif.Angular Complex

theorem lambdaK_scale {x : ℝ} (hx : 0 < x) (a b c : ℝ) :
    lambdaK (x ^ 2 * a) (x ^ 2 * b) (x ^ 2 * c) = x ^ 4 * lambdaK a b c := by
  have h4 : 0 < x ^ 4 := by positivity
  unfold lambdaK
  simp only [kallen_scale]
  by_cases h : kallen a b c < 0
  · rw [if_pos h, if_pos (mul_neg_of_pos_of_neg h4 h), mul_zero]
  · rw [if_neg h, if_neg]
    exact not_lt.2 (mul_nonneg h4.le (not_lt.1 h))

theorem sqrt4 {x : ℝ} (hx : 0 < x) (a : ℝ) : Real.sqrt (x ^ 4 * a) = x ^ 2 * Real.sqrt a := by
  rw [Real.sqrt_mul (by positivity), show x ^ 4 = (x ^ 2) ^ 2 by ring, Real.sqrt_sq (by positivity)]

theorem sqrt2 {x : ℝ} (hx : 0 < x) (a : ℝ) : Real.sqrt (x ^ 2 * a) = x * Real.sqrt a := by
  rw [Real.sqrt_mul (by positivity), Real.sqrt_sq hx.le]

theorem laGa_scale {x : ℝ} (hx : 0 < x) (q2 m1 m2 : ℝ) : laGa (x ^ 2 * q2) (x * m1) (x * m2) = x ^ 4 * laGa q2 m1 m2 := by
  unfold laGa; rw [mul_pow, mul_pow, lambdaK_scale hx]

theorem laB_scale {x : ℝ} (hx : 0 < x) (q2 mB mV : ℝ) :
    lambdaK ((x * mB) ^ 2) ((x * mV) ^ 2) (x ^ 2 * q2) = x ^ 4 * lambdaK (mB ^ 2) (mV ^ 2) q2 := by
  rw [mul_pow, mul_pow, lambdaK_scale hx]

theorem energy_scale {x : ℝ} (hx : 0 < x) (q2 m1 m2 m : ℝ) :
    energy (x ^ 2 * q2) (x * m1) (x * m2) (x * m) = x * energy q2 m1 m2 m := by
  have hx' := hx.ne'
  unfold energy
  rw [laGa_scale hx, ← sqrt2 hx]
  congr 1
  rw [show 4 * (x ^ 2 * q2) = x ^ 2 * (4 * q2) by ring, show x ^ 4 * laGa q2 m1 m2 = x ^ 2 * (x ^ 2 * laGa q2 m1 m2) by ring,
    mul_div_mul_left _ _ (pow_ne_zero 2 hx')]
  ring

theorem phaseSpace_scale {x : ℝ} (hx : 0 < x) (c q2 mB mV m1 m2 : ℝ) :
    phaseSpace c (x ^ 2 * q2) (x * mB) (x * mV) (x * m1) (x * m2) = x⁻¹ * phaseSpace c q2 mB mV m1 m2 := by
  have hx' := hx.ne'
  unfold phaseSpace
  rw [laB_scale hx, laGa_scale hx, sqrt4 hx, sqrt4 hx,
    show c * (x * mB) ^ 3 * (x ^ 2 * q2) = x ^ 4 * (x * (c * mB ^ 3 * q2)) by ring]
  generalize Real.sqrt (lambdaK (mB ^ 2) (mV ^ 2) q2) = a
  generalize Real.sqrt (laGa q2 m1 m2) = b
  rw [show x ^ 2 * a * (x ^ 2 * b) = x ^ 4 * (a * b) by ring, mul_div_mul_left _ _ (pow_ne_zero 4 hx'), div_mul_eq_div_div,
    div_right_comm, div_eq_mul_inv (a * b / _), mul_comm]

theorem angularP_unit {x : ℝ} (hx : 0 < x) (h : AmpP) (q2 mB mP m1 m2 : ℝ) (hq : 0 < q2) :
    angularP h (x ^ 2 * q2) (x * mB) (x * mP) (x * m1) (x * m2) = (angularP h q2 mB mP m1 m2).scale x := by
  have hx' := hx.ne'
  have hs : Real.sqrt q2 ≠ 0 := (Real.sqrt_pos.2 hq).ne'
  have h0 : gbasisP0 h (x ^ 2 * q2) (x * m1) (x * m2) =
      ⟨x ^ 2 * (gbasisP0 h q2 m1 m2).g0, x ^ 2 * (gbasisP0 h q2 m1 m2).g1, x ^ 2 * (gbasisP0 h q2 m1 m2).g2⟩ := by
    unfold gbasisP0
    simp only [laGa_scale hx, energy_scale hx, sqrt4 hx, sqrt2 hx, GP.mk.injEq]
    generalize laGa q2 m1 m2 = la
    generalize energy q2 m1 m2 m1 = E1
    generalize energy q2 m1 m2 m2 = E2
    refine ⟨?_, ?_, ?_⟩
    · field_simp
    · rw [show (x * m1 + x * m2) / (x * Real.sqrt q2) = (m1 + m2) / Real.sqrt q2 by field_simp,
        show (x * m1 - x * m2) / (x * Real.sqrt q2) = (m1 - m2) / Real.sqrt q2 by field_simp]
      ring
    · field_simp
  unfold angularP gbasisP
  simp only [h0, phaseSpace_scale hx, JP.scale, JP.mk.injEq]
  refine ⟨?_, ?_, ?_⟩ <;> field_simp

theorem helicityP_unit {x : ℝ} (hx : 0 < x) (q2 mB mP mqh mql m1 m2 : ℝ) (ff : FFP) (wc : Wc) (N : ℂ) (hq : 0 < q2) :
    helicityP (x ^ 2 * q2) (x * mB) (x * mP) (x * mqh) (x * mql) (x * m1) (x * m2) ff wc (N / x ^ 2)
      = (helicityP q2 mB mP mqh mql m1 m2 ff wc N).scale ((x⁻¹ : ℝ) : ℂ) := by
  have hx' := hx.ne'
  have hxc : (x : ℂ) ≠ 0 := by exact_mod_cast hx'
  have hs : Real.sqrt q2 ≠ 0 := (Real.sqrt_pos.2 hq).ne'
  unfold helicityP helP1 AmpP.scale
  simp only [laB_scale hx, sqrt4 hx, sqrt2 hx, ← mul_add, ← mul_sub, AmpP.mk.injEq]
  generalize Real.sqrt (lambdaK (mB ^ 2) (mP ^ 2) q2) = la
  generalize mqh - mql = M
  generalize mB + mP = B
  generalize m1 + m2 = mp
  generalize m1 - m2 = mm
  have e1 : ∀ s b : ℝ, x ^ 2 * la / (2 * (x * s)) = x * (la / (2 * s)) := fun s b => by field_simp
  have e2 : 2 * (x * mqh) / (x * B) = 2 * mqh / B := by
    rw [show 2 * (x * mqh) = x * (2 * mqh) by ring, mul_div_mul_left _ _ hx']
  have e3 : ((x * mB) ^ 2 - (x * mP) ^ 2) / 2 * ff.f0 = x ^ 2 * ((mB ^ 2 - mP ^ 2) / 2 * ff.f0) := by ring
  have e4 : ∀ a : ℝ, x * a / (x ^ 2 * q2) = x⁻¹ * (a / q2) := fun a => by field_simp
  have e5 : ∀ z : ℂ, z / ((x * M : ℝ) : ℂ) = (x : ℂ)⁻¹ * (z / (M : ℂ)) := fun z => by
    push_cast; rw [div_mul_eq_div_div, div_right_comm, div_eq_mul_inv (z / (M : ℂ)), mul_comm]
  rw [e1 (Real.sqrt q2) 0, e1 B 0, e2, e3, e4, e4, e5, e5]
  refine ⟨?_, ?_, ?_, ?_, ?_, ?_⟩ <;> simp only [ofReal_mul, ofReal_inv, ofReal_pow]
  · generalize ((2 * mqh / B : ℝ) : ℂ) = r; generalize ((la / (2 * Real.sqrt q2) : ℝ) : ℂ) = r'
    field_simp
  · field_simp
  · generalize (wc.s + wc.sp) / (M : ℂ) = r; generalize ((mm / q2 : ℝ) : ℂ) = r'
    generalize ((mB ^ 2 - mP ^ 2) / 2 : ℝ) = r''
    field_simp
  · generalize (wc.p + wc.pp) / (M : ℂ) = r; generalize ((mp / q2 : ℝ) : ℂ) = r'
    generalize ((mB ^ 2 - mP ^ 2) / 2 : ℝ) = r''
    field_simp
  · field_simp
  · field_simp

theorem angularV_unit {x : ℝ} (hx : 0 < x) (H : AmpV) (q2 mB mV m1 m2 : ℝ) (hq : 0 < q2) :
    angularV H (x ^ 2 * q2) (x * mB) (x * mV) (x * m1) (x * m2) = (angularV H q2 mB mV m1 m2).scale x := by
  have hx' := hx.ne'
  have hxc : (x : ℂ) ≠ 0 := by exact_mod_cast hx'
  have hs : Real.sqrt q2 ≠ 0 := (Real.sqrt_pos.2 hq).ne'
  have hsc : ((Real.sqrt q2 : ℝ) : ℂ) ≠ 0 := by exact_mod_cast hs
  have hqc : (q2 : ℂ) ≠ 0 := by exact_mod_cast hq.ne'
  have h0 : gbasisV0 H (x ^ 2 * q2) (x * m1) (x * m2) = (gbasisV0 H q2 m1 m2).scale (x ^ 2) := by
    unfold gbasisV0 GV.scale
    simp only [laGa_scale hx, energy_scale hx, GV.mk.injEq]
    generalize laGa q2 m1 m2 = la
    generalize energy q2 m1 m2 m1 = E1
    generalize energy q2 m1 m2 m2 = E2
    have d1 : x ^ 4 * la / (4 * (x ^ 2 * q2)) = x ^ 2 * (la / (4 * q2)) := by field_simp
    have d2 : (x * m1 + x * m2) / (x * Real.sqrt q2) = (m1 + m2) / Real.sqrt q2 := by field_simp
    have d3 : (x * m1 - x * m2) / (x * Real.sqrt q2) = (m1 - m2) / Real.sqrt q2 := by field_simp
    refine ⟨?_, ?_, ?_, ?_, ?_, ?_, ?_, ?_, ?_⟩
    · unfold g000; rw [d1]; ring
    · unfold g010; rw [sqrt4 hx, sqrt2 hx, d3, d2]
      rw [show 2 * (x * m1 + x * m2) / (x * Real.sqrt q2) = 2 * (m1 + m2) / Real.sqrt q2 by field_simp,
        show Real.sqrt 2 * (x * m1 - x * m2) / (x * Real.sqrt q2) = Real.sqrt 2 * (m1 - m2) / Real.sqrt q2 by field_simp,
        show 2 * Real.sqrt 2 / (x ^ 2 * q2) * ((x * m1) ^ 2 - (x * m2) ^ 2) = 2 * Real.sqrt 2 / q2 * (m1 ^ 2 - m2 ^ 2) by field_simp]
      ring
    · unfold g020; field_simp
    · unfold g200; rw [d1]; ring
    · unfold g210; rw [sqrt4 hx, sqrt2 hx]
      rw [show 2 * (x * m1 + x * m2) / (x * Real.sqrt q2) = 2 * (m1 + m2) / Real.sqrt q2 by field_simp,
        show 2 * (x * m1 - x * m2) / (x * Real.sqrt q2) = 2 * (m1 - m2) / Real.sqrt q2 by field_simp,
        show Real.sqrt 2 * (x * m1 - x * m2) / (x * Real.sqrt q2) = Real.sqrt 2 * (m1 - m2) / Real.sqrt q2 by field_simp,
        show 2 * Real.sqrt 2 * ((x * m1) ^ 2 - (x * m2) ^ 2) / (x ^ 2 * q2) = 2 * Real.sqrt 2 * (m1 ^ 2 - m2 ^ 2) / q2 by field_simp]
      ring
    · unfold g220; field_simp
    · unfold g211; rw [sqrt4 hx, sqrt2 hx, d3, d2,
        show 2 * Real.sqrt 2 * ((x * m1) ^ 2 - (x * m2) ^ 2) / (x ^ 2 * q2) = 2 * Real.sqrt 2 * (m1 ^ 2 - m2 ^ 2) / q2 by field_simp,
        show (4 / Real.sqrt 3 * (x ^ 2 * Real.sqrt la) : ℝ) = x ^ 2 * (4 / Real.sqrt 3 * Real.sqrt la) by ring]
      have c : ∀ k : ℂ, ∀ u : ℝ, k * ((x * u : ℝ) : ℂ) / ((x * Real.sqrt q2 : ℝ) : ℂ) = k * (u : ℂ) / ((Real.sqrt q2 : ℝ) : ℂ) := by
        intro k u; push_cast; field_simp
      rw [← mul_add, ← mul_sub, c, c]
      simp only [ofReal_mul (x ^ 2)]
      rw [mul_assoc]
    · unfold g221
      rw [show (4 / 3 * (x ^ 4 * la) / (x ^ 2 * q2) : ℝ) = x ^ 2 * (4 / 3 * la / q2) by field_simp, ofReal_mul (x ^ 2), mul_assoc]
    · unfold g222
      rw [show (-8 / 3 * (x ^ 4 * la) / (x ^ 2 * q2) : ℝ) = x ^ 2 * (-8 / 3 * la / q2) by field_simp, ofReal_mul (x ^ 2), mul_assoc]
  unfold angularV gbasisV
  rw [h0, phaseSpace_scale hx]
  have : ∀ u : ℝ, x⁻¹ * u * x ^ 2 = x * u := fun u => by field_simp
  have t : ((gbasisV0 H q2 m1 m2).scale (x ^ 2)).scale (x⁻¹ * phaseSpace (2 ^ 9 * Real.pi ^ 3) q2 mB mV m1 m2)
      = ((gbasisV0 H q2 m1 m2).scale (phaseSpace (2 ^ 9 * Real.pi ^ 3) q2 mB mV m1 m2)).scale x := by
    simp only [GV.scale, GV.mk.injEq]
    refine ⟨?_, ?_, ?_, ?_, ?_, ?_, ?_, ?_, ?_⟩ <;> push_cast <;> field_simp
  rw [t]
  simp only [GV.scale, gToG, signflip, JV.scale, JV.mk.injEq, re_ofReal_mul, im_ofReal_mul]
  refine ⟨?_, ?_, ?_, ?_, ?_, ?_, ?_, ?_, ?_, ?_, ?_, ?_⟩ <;> ring

theorem helicityV_unit {x : ℝ} (hx : 0 < x) (q2 mB mV mqh mql m1 m2 : ℝ) (ff : FFV) (wc : Wc) (N : ℂ) (hq : 0 < q2) :
    helicityV (x ^ 2 * q2) (x * mB) (x * mV) (x * mqh) (x * mql) (x * m1) (x * m2) ff wc (N / x ^ 2)
      = (helicityV q2 mB mV mqh mql m1 m2 ff wc N).scale ((x⁻¹ : ℝ) : ℂ) := by
  have hx' := hx.ne'
  have hxc : (x : ℂ) ≠ 0 := by exact_mod_cast hx'
  have hs : Real.sqrt q2 ≠ 0 := (Real.sqrt_pos.2 hq).ne'
  have r2 : Real.sqrt 2 ≠ 0 := by positivity
  have tr : ∀ sg c cp, transAmp sg (x ^ 2 * q2) (x * mB) (x * mV) ff c cp = x * transAmp sg q2 mB mV ff c cp := by
    intro sg c cp
    unfold transAmp
    rw [laB_scale hx, sqrt4 hx, ← mul_add]
    generalize mB + mV = B
    rw [mul_pow, show 2 * (x * B) = x * (2 * B) by ring, ofReal_mul x, ofReal_mul (x ^ 2), ofReal_mul (x ^ 2), ofReal_pow]
    generalize ((2 * B : ℝ) : ℂ) = b
    field_simp
  have di : ∀ sg c cp, dipAmp sg (x ^ 2 * q2) (x * mB) (x * mV) (x * mqh) ff c cp = x * dipAmp sg q2 mB mV mqh ff c cp := by
    intro sg c cp
    unfold dipAmp
    rw [laB_scale hx, sqrt4 hx, show x * mqh / (x ^ 2 * q2) = x⁻¹ * (mqh / q2) by field_simp, mul_pow, mul_pow, ← mul_sub,
      ofReal_mul (x⁻¹), ofReal_mul (x ^ 2), ofReal_mul (x ^ 2), ofReal_pow, ofReal_inv]
    generalize ((mqh / q2 : ℝ) : ℂ) = b
    field_simp
  have te : ∀ sg a b, tenAmp sg (x ^ 2 * q2) (x * mB) (x * mV) ff a b = x ^ 2 * tenAmp sg q2 mB mV ff a b := by
    intro sg a b
    unfold tenAmp
    rw [laB_scale hx, sqrt4 hx, mul_pow, mul_pow, ← mul_sub, ofReal_mul (x ^ 2), ofReal_mul (x ^ 2), ofReal_pow]
    ring
  unfold helicityV helV1 AmpV.scale
  simp only [tr, di, te]
  simp only [laB_scale hx, sqrt4 hx, sqrt2 hx, ← mul_add, ← mul_sub, AmpV.mk.injEq]
  generalize Real.sqrt (lambdaK (mB ^ 2) (mV ^ 2) q2) = la
  generalize mqh + mql = M
  generalize mB + mV = B
  generalize m1 + m2 = mp
  generalize m1 - m2 = mm
  have e1 : x * mB * (x * mV) / (x * Real.sqrt q2 * (x * B)) = mB * mV / (Real.sqrt q2 * B) := by
    rw [show x * mB * (x * mV) = x ^ 2 * (mB * mV) by ring, show x * Real.sqrt q2 * (x * B) = x ^ 2 * (Real.sqrt q2 * B) by ring,
      mul_div_mul_left _ _ (pow_ne_zero 2 hx')]
  have e2 : x * mB * (x * mV) / (x * Real.sqrt q2) = x * (mB * mV / Real.sqrt q2) := by field_simp
  have e3 : x ^ 2 * la / 2 = x ^ 2 * (la / 2) := by ring
  have e4 : ∀ a : ℝ, x * a / (x ^ 2 * q2) = x⁻¹ * (a / q2) := fun a => by field_simp
  have e5 : ∀ z : ℂ, z / ((x * M : ℝ) : ℂ) = (x : ℂ)⁻¹ * (z / (M : ℂ)) := fun z => by
    push_cast; rw [div_mul_eq_div_div, div_right_comm, div_eq_mul_inv (z / (M : ℂ)), mul_comm]
  have e6 : 2 * Real.sqrt 2 * (x * mB) * (x * mV) / (x * B) = x * (2 * Real.sqrt 2 * mB * mV / B) := by
    rw [show 2 * Real.sqrt 2 * (x * mB) * (x * mV) = x * (x * (2 * Real.sqrt 2 * mB * mV)) by ring, mul_div_mul_left _ _ hx', mul_div_assoc]
  have e7 : 2 * (x * mB) * (x * mV) / (x * B) = x * (2 * mB * mV / B) := by
    rw [show 2 * (x * mB) * (x * mV) = x * (x * (2 * mB * mV)) by ring, mul_div_mul_left _ _ hx', mul_div_assoc]
  have e8 : 1 / (Real.sqrt 2 * (x * Real.sqrt q2)) = x⁻¹ * (1 / (Real.sqrt 2 * Real.sqrt q2)) := by field_simp
  have e9 : 1 / (2 * (x * Real.sqrt q2)) = x⁻¹ * (1 / (2 * Real.sqrt q2)) := by field_simp
  rw [e1, e2, e3, e4, e4, e5, e5, e6, e7, e8, e9]
  generalize mB * mV / (Real.sqrt q2 * B) = k1
  generalize mB * mV / Real.sqrt q2 = k2
  generalize la / 2 = k3
  generalize mp / q2 = k4
  generalize mm / q2 = k5
  generalize 2 * Real.sqrt 2 * mB * mV / B = k6
  generalize 2 * mB * mV / B = k7
  generalize 1 / (Real.sqrt 2 * Real.sqrt q2) = k8
  generalize 1 / (2 * Real.sqrt q2) = k9
  generalize (wc.p - wc.pp) / (M : ℂ) = k10
  generalize (wc.s - wc.sp) / (M : ℂ) = k11
  refine ⟨?_, ?_, ?_, ?_, ?_, ?_, ?_, ?_, ?_, ?_, ?_, ?_, ?_, ?_⟩ <;>
    simp only [ofReal_mul, ofReal_inv, ofReal_pow] <;> field_simp

/-- **C165 (angular coefficients).** For `B → P l1 l2` and `B → V l1 l2` (and the charged-current decays, which use the same
functions): for all masses, form factors, coefficients and every `q2`, the angular coefficients, and so the differential
rate, are inverse energies when the normalisation of the amplitude is an inverse squared energy. -/
theorem C165_angular {x : ℝ} (hx : 0 < x) (q2 mB m mqh mql m1 m2 : ℝ) (fp : FFP) (fv : FFV) (wc : Wc) (N : ℂ) (hq : 0 < q2) :
    angularP (helicityP (x ^ 2 * q2) (x * mB) (x * m) (x * mqh) (x * mql) (x * m1) (x * m2) fp wc (N / x ^ 2))
        (x ^ 2 * q2) (x * mB) (x * m) (x * m1) (x * m2)
      = (angularP (helicityP q2 mB m mqh mql m1 m2 fp wc N) q2 mB m m1 m2).scale x⁻¹ ∧
    angularV (helicityV (x ^ 2 * q2) (x * mB) (x * m) (x * mqh) (x * mql) (x * m1) (x * m2) fv wc (N / x ^ 2))
        (x ^ 2 * q2) (x * mB) (x * m) (x * m1) (x * m2)
      = (angularV (helicityV q2 mB m mqh mql m1 m2 fv wc N) q2 mB m m1 m2).scale x⁻¹ := by
  have hx' := hx.ne'
  have hn : ‖((x⁻¹ : ℝ) : ℂ)‖ ^ 2 = (x ^ 2)⁻¹ := by
    rw [Complex.norm_real, Real.norm_eq_abs, sq_abs, inv_pow]
  constructor
  · rw [helicityP_unit hx _ _ _ _ _ _ _ _ _ _ hq, angularP_unit hx _ _ _ _ _ _ hq, angularP_scale, hn]
    simp only [JP.scale, JP.mk.injEq]
    refine ⟨?_, ?_, ?_⟩ <;> field_simp
  · rw [helicityV_unit hx _ _ _ _ _ _ _ _ _ _ hq, angularV_unit hx _ _ _ _ _ _ hq, angularV_scale, hn]
    simp only [JV.scale, JV.mk.injEq]
    refine ⟨?_, ?_, ?_, ?_, ?_, ?_, ?_, ?_, ?_, ?_, ?_, ?_⟩ <;> field_simp

/-! ## Semileptonic decays into a pseudoscalar meson -/

/-- The inputs in the new unit (specification). -/
noncomputable def semi (x : ℝ) (d : Semilep.Inp) : Semilep.Inp where
  mM := x * d.mM
  mP := x * d.mP
  tau := d.tau / x
  pi0 := d.pi0
  mq := x * d.mq
  mlight := x * d.mlight
  GF := d.GF / x ^ 2
  V := d.V
  ff q2 := d.ff (q2 / x ^ 2)
  m l := x * d.m l
  csm := d.csm
  wc := d.wc

theorem jOne_unit {x : ℝ} (hx : 0 < x) (d : Semilep.Inp) (l : Fin 3) (q2 : ℝ) (n : Fin 3) (hq : 0 < q2) :
    Semilep.jOne (semi x d) l (x ^ 2 * q2) n = (Semilep.jOne d l q2 n).scale x⁻¹ := by
  have hx' := hx.ne'
  have hxc : (x : ℂ) ≠ 0 := by exact_mod_cast hx'
  have hp : Semilep.prefactor (semi x d) l (x ^ 2 * q2) = Semilep.prefactor d l q2 / x ^ 2 := by
    unfold Semilep.prefactor
    have hi : x ^ 2 * q2 ≤ (semi x d).m l ^ 2 ↔ q2 ≤ d.m l ^ 2 := by
      show x ^ 2 * q2 ≤ (x * d.m l) ^ 2 ↔ _
      rw [mul_pow, mul_le_mul_iff_right₀ (by positivity : (0 : ℝ) < x ^ 2)]
    by_cases h : q2 ≤ d.m l ^ 2
    · rw [if_pos h, if_pos (hi.2 h)]; simp
    · rw [if_neg h, if_neg (fun c => h (hi.1 c))]
      show ((4 * (d.GF / x ^ 2) / Real.sqrt 2 : ℝ) : ℂ) * d.V = _
      push_cast; ring
  have hf : (semi x d).ff (x ^ 2 * q2) = d.ff q2 := by
    show d.ff (x ^ 2 * q2 / x ^ 2) = _
    rw [mul_div_cancel_left₀ _ (pow_ne_zero 2 hx')]
  have hc : Semilep.wcEff (Semilep.cSM (semi x d) l n) ((semi x d).wc l n) = Semilep.wcEff (Semilep.cSM d l n) (d.wc l n) := rfl
  have := (C165_angular hx q2 d.mM d.mP d.mq d.mlight (d.m l) 0 (d.ff q2) ⟨0, 0, 0, 0, 0, 0, 0⟩
    (Semilep.wcEff (Semilep.cSM d l n) (d.wc l n)) (Semilep.prefactor d l q2) hq).1
  rw [show (x * 0 : ℝ) = 0 from mul_zero x] at this
  unfold Semilep.jOne
  rw [hp, hf, hc]
  split_ifs
  · simp [JP.scale]
  · exact this

theorem dbr_unit {x : ℝ} (hx : 0 < x) (d : Semilep.Inp) (a : Semilep.LArg) (q2 : ℝ) (hq : 0 < q2) :
    Semilep.dbr (semi x d) a (x ^ 2 * q2) = Semilep.dbr d a q2 / x ^ 2 := by
  have hx' := hx.ne'
  have h2 : (0 : ℝ) < x ^ 2 := by positivity
  have key : ∀ l, Semilep.dbrLep (semi x d) l (x ^ 2 * q2) = Semilep.dbrLep d l q2 / x ^ 2 := by
    intro l
    have hj : dGdq2P (Semilep.jSum (semi x d) l (x ^ 2 * q2)) = x⁻¹ * dGdq2P (Semilep.jSum d l q2) := by
      unfold Semilep.jSum
      simp only [jOne_unit hx d l q2 _ hq, JP.scale, ← Finset.mul_sum, dGdq2P]
      ring
    unfold Semilep.dbrLep
    rw [hj]
    have hi : (x ^ 2 * q2 < (semi x d).m l ^ 2 ∨ ((semi x d).mM - (semi x d).mP) ^ 2 < x ^ 2 * q2)
        ↔ (q2 < d.m l ^ 2 ∨ (d.mM - d.mP) ^ 2 < q2) := by
      show (x ^ 2 * q2 < (x * d.m l) ^ 2 ∨ (x * d.mM - x * d.mP) ^ 2 < x ^ 2 * q2) ↔ _
      rw [← mul_sub, mul_pow, mul_pow, mul_lt_mul_iff_right₀ h2, mul_lt_mul_iff_right₀ h2]
    by_cases h : q2 < d.m l ^ 2 ∨ (d.mM - d.mP) ^ 2 < q2
    · rw [if_pos h, if_pos (hi.2 h), zero_div]
    · rw [if_neg h, if_neg (fun c => h (hi.1 c))]
      show (if d.pi0 = true then d.tau / x * _ / 2 else d.tau / x * _) = _
      split_ifs <;> field_simp
  unfold Semilep.dbr
  cases a with
  | one l => exact key l
  | l => dsimp only; rw [key, key]; ring

/-- The inputs of `M → V l nu` in the new unit (specification). -/
noncomputable def semiV (x : ℝ) (d : Semilep.Vec.VInp) : Semilep.Vec.VInp where
  mM := x * d.mM
  mV := x * d.mV
  tau := d.tau / x
  neutral := d.neutral
  mb := x * d.mb
  mlight := x * d.mlight
  GF := d.GF / x ^ 2
  V := d.V
  ff q2 := d.ff (q2 / x ^ 2)
  m l := x * d.m l
  csm := d.csm
  wc := d.wc

theorem jOneV_unit {x : ℝ} (hx : 0 < x) (d : Semilep.Vec.VInp) (l : Fin 3) (q2 : ℝ) (n : Fin 3) (hq : 0 < q2) :
    Semilep.Vec.jOneV (semiV x d) l (x ^ 2 * q2) n = (Semilep.Vec.jOneV d l q2 n).scale x⁻¹ := by
  have hx' := hx.ne'
  have hxc : (x : ℂ) ≠ 0 := by exact_mod_cast hx'
  have hp : Semilep.Vec.prefV (semiV x d) l (x ^ 2 * q2) = Semilep.Vec.prefV d l q2 / x ^ 2 := by
    unfold Semilep.Vec.prefV
    have hi : x ^ 2 * q2 ≤ (semiV x d).m l ^ 2 ↔ q2 ≤ d.m l ^ 2 := by
      show x ^ 2 * q2 ≤ (x * d.m l) ^ 2 ↔ _
      rw [mul_pow, mul_le_mul_iff_right₀ (by positivity : (0 : ℝ) < x ^ 2)]
    by_cases h : q2 ≤ d.m l ^ 2
    · rw [if_pos h, if_pos (hi.2 h)]; simp
    · rw [if_neg h, if_neg (fun c => h (hi.1 c))]
      show ((4 * (d.GF / x ^ 2) / Real.sqrt 2 : ℝ) : ℂ) * d.V = _
      push_cast; ring
  have hf : (semiV x d).ff (x ^ 2 * q2) = d.ff q2 := by
    show d.ff (x ^ 2 * q2 / x ^ 2) = _
    rw [mul_div_cancel_left₀ _ (pow_ne_zero 2 hx')]
  have hc : Semilep.wcEff (Semilep.Vec.csmV (semiV x d) l n) ((semiV x d).wc l n) = Semilep.wcEff (Semilep.Vec.csmV d l n) (d.wc l n) := rfl
  have := (C165_angular hx q2 d.mM d.mV d.mb d.mlight (d.m l) 0 ⟨0, 0, 0⟩ (d.ff q2)
    (Semilep.wcEff (Semilep.Vec.csmV d l n) (d.wc l n)) (Semilep.Vec.prefV d l q2) hq).2
  rw [show (x * 0 : ℝ) = 0 from mul_zero x] at this
  unfold Semilep.Vec.jOneV
  rw [hp, hf, hc]
  split_ifs
  · simp [JV.scale, Semilep.Vec.JV.zero]
  · exact this

theorem dObs_unit {x : ℝ} (hx : 0 < x) (d : Semilep.Vec.VInp) (F : JV → ℝ) (hF : ∀ y J, F (JV.scale y J) = y * F J) (l : Fin 3)
    (q2 : ℝ) (hq : 0 < q2) : Semilep.Vec.dObs (semiV x d) F l (x ^ 2 * q2) = Semilep.Vec.dObs d F l q2 / x ^ 2 := by
  have hx' := hx.ne'
  have h2 : (0 : ℝ) < x ^ 2 := by positivity
  have hj : Semilep.Vec.jSumV (semiV x d) l (x ^ 2 * q2) = (Semilep.Vec.jSumV d l q2).scale x⁻¹ := by
    unfold Semilep.Vec.jSumV
    simp only [jOneV_unit hx d l q2 _ hq, JV.scale, ← Finset.mul_sum]
  have hi : Semilep.Vec.forbidden (semiV x d) l (x ^ 2 * q2) ↔ Semilep.Vec.forbidden d l q2 := by
    unfold Semilep.Vec.forbidden
    show (x ^ 2 * q2 < (x * d.m l) ^ 2 ∨ (x * d.mM - x * d.mV) ^ 2 < x ^ 2 * q2) ↔ _
    rw [← mul_sub, mul_pow, mul_pow, mul_lt_mul_iff_right₀ h2, mul_lt_mul_iff_right₀ h2]
  unfold Semilep.Vec.dObs
  rw [hj, hF]
  by_cases h : Semilep.Vec.forbidden d l q2
  · rw [if_pos h, if_pos (hi.2 h), zero_div]
  · rw [if_neg h, if_neg (fun c => h (hi.1 c))]
    show d.tau / x * _ * Semilep.Vec.brFac d = _
    field_simp

theorem dbrV_unit {x : ℝ} (hx : 0 < x) (d : Semilep.Vec.VInp) (A : Semilep.Vec.Pol) (a : Semilep.LArg) (q2 : ℝ) (hq : 0 < q2) :
    Semilep.Vec.dbrV (semiV x d) A a (x ^ 2 * q2) = Semilep.Vec.dbrV d A a q2 / x ^ 2 := by
  have hF : ∀ y J, Semilep.Vec.polF A (JV.scale y J) = y * Semilep.Vec.polF A J := by
    intro y J
    cases A <;> simp only [Semilep.Vec.polF, dGdq2, Semilep.Vec.dGL, Semilep.Vec.dGT, JV.scale] <;> ring
  unfold Semilep.Vec.dbrV
  cases a with
  | one l => exact dObs_unit hx d _ hF l q2 hq
  | l => dsimp only; rw [dObs_unit hx d _ hF 0 q2 hq, dObs_unit hx d _ hF 1 q2 hq]; ring

/-- A density that is an inverse squared energy integrates to a pure number. -/
theorem bin_unit {x : ℝ} (hx : 0 < x) (f g : ℝ → ℝ) (h : ∀ q2, 0 < q2 → f (x ^ 2 * q2) = g q2 / x ^ 2) (lo hi : ℝ)
    (hlo : 0 ≤ lo) (hhi : 0 ≤ hi) : ∫ q2 in (x ^ 2 * lo)..(x ^ 2 * hi), f q2 = ∫ q2 in lo..hi, g q2 := by
  have h1 := intervalIntegral.mul_integral_comp_mul_left (f := f) (a := lo) (b := hi) (c := x ^ 2)
  rw [← h1, ← intervalIntegral.integral_const_mul]
  refine intervalIntegral.integral_congr_ae (Filter.Eventually.of_forall fun q2 hq => ?_)
  have hq0 : 0 < q2 := lt_of_le_of_lt (le_min hlo hhi) hq.1
  rw [h q2 hq0]
  have := hx.ne'
  field_simp

/-- **C165 (semileptonic decays).** The differential branching ratios of `M → P l nu` and of `M → V l nu` (and those into
longitudinal and transverse vectors) are inverse squared energies, and their integrals over any bin are pure numbers. -/
theorem C165_semileptonic {x : ℝ} (hx : 0 < x) (d : Semilep.Inp) (e : Semilep.Vec.VInp) (a : Semilep.LArg) (A : Semilep.Vec.Pol) :
    (∀ q2, 0 < q2 → Semilep.dbr (semi x d) a (x ^ 2 * q2) = Semilep.dbr d a q2 / x ^ 2) ∧
    (∀ q2, 0 < q2 → Semilep.Vec.dbrV (semiV x e) A a (x ^ 2 * q2) = Semilep.Vec.dbrV e A a q2 / x ^ 2) ∧
    (∀ lo hi, 0 ≤ lo → 0 ≤ hi →
      (∫ q2 in (x ^ 2 * lo)..(x ^ 2 * hi), Semilep.dbr (semi x d) a q2 = ∫ q2 in lo..hi, Semilep.dbr d a q2) ∧
      (∫ q2 in (x ^ 2 * lo)..(x ^ 2 * hi), Semilep.Vec.dbrV (semiV x e) A a q2 = ∫ q2 in lo..hi, Semilep.Vec.dbrV e A a q2)) :=
  ⟨fun q2 hq => dbr_unit hx d a q2 hq, fun q2 hq => dbrV_unit hx e A a q2 hq, fun lo hi hlo hhi =>
    ⟨bin_unit hx _ _ (fun q2 hq => dbr_unit hx d a q2 hq) lo hi hlo hhi,
      bin_unit hx _ _ (fun q2 hq => dbrV_unit hx e A a q2 hq) lo hi hlo hhi⟩⟩

end Verif.EnergyUnit
