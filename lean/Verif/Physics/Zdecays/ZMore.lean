import Verif.Physics.Zdecays.ZTheorems
/-!
# C98: colour factors, the universal shift of the Z couplings and the parametrised total width
-/
set_option linter.unusedVariables false
set_option linter.unusedSimpArgs false
namespace Verif.Zpole
open Fm

/-- Number of colours: three for quarks, one for leptons.  (Specification.) -/
def colours : Fm → ℝ
  | u | c | d | s | b => 3
  | _ => 1

/-- **C98 (colour).** With the same couplings a pair of quarks has three times the width of a pair of leptons: the width of
`Z → f₁ f̄₂` for different fermions, and the change of a flavour-conserving one. -/
theorem C98_colour_sectors (p : Par) (C : WC) (f1 f2 : Fm) (hs : f1.sec = f2.sec) :
    (f1 ≠ f2 → 0 < p.GF → 0 < p.mZ → gammaZ p C f1 f2 = colours f1 * (p.mZ ^ 3 / (24 * Real.sqrt 2 * Real.pi * p.GF) *
      (‖leftC C f1 (min f1.gen f2.gen) (max f1.gen f2.gen)‖ ^ 2 + ‖rightC C f1 (min f1.gen f2.gen) (max f1.gen f2.gen)‖ ^ 2))) ∧
    gammaZ p C f1 f1 - gammaSM p f1 = colours f1 * (Real.sqrt 2 * p.GF * p.mZ ^ 3 / (3 * Real.pi) *
      (‖(gVSM f1 p : ℂ) + dgV f1 f1 p C‖ ^ 2 + ‖(gASM f1 : ℂ) + dgA f1 f1 p C‖ ^ 2 - gVSM f1 p ^ 2 - gASM f1 ^ 2)) := by
  have hn : f1.nc = colours f1 := by cases f1 <;> rfl
  constructor
  · intro h hG hm
    rw [width_fcnc p C f1 f2 hs h hG.ne', hn]; ring
  · rw [(C98_width_flavour_diagonal p C f1).1, hn]; ring

/-- **C98 (universal shift).** For the input scheme `{α, m_Z, G_F}` the contributions of `C_phiWB` to the universal shift of the Z
couplings cancel: it is `-(C_phiD + 2 (C_phil3_11 + C_phil3_22 - C_ll_1221/2))/(4 √2 G_F)`. -/
theorem C98_universal_shift (p : Par) (C : WC) (hG : 0 < p.GF) (hZ : 0 < p.mZ) (ha : 0 ≤ p.alphaE)
    (h : 4 * Real.pi * p.alphaE / (Real.sqrt 2 * p.GF * p.mZ ^ 2) ≤ 1) :
    dgZb p C = -(C "phiD" + 2 * (C "phil3_11" + C "phil3_22" - C "ll_1221" / 2)) / (4 * Real.sqrt 2 * p.GF : ℝ) := by
  have hpi := Real.pi_pos
  obtain ⟨h1, h2, h3⟩ := C98_mixing_angle p h (by positivity)
  have hsc : Real.sqrt (sh2 p) * Real.sqrt (1 - sh2 p) = Real.sqrt (Real.pi * p.alphaE) / Real.sqrt (Real.sqrt 2 * p.GF * p.mZ ^ 2) := by
    rw [← Real.sqrt_mul h2, h1, Real.sqrt_div (by positivity)]
  have h20 : (0 : ℝ) < Real.sqrt 2 := by positivity
  have hq : Real.sqrt (Real.sqrt 2 * p.GF * p.mZ ^ 2) = (2 : ℝ) ^ (1 / 4 : ℝ) * Real.sqrt p.GF * p.mZ := by
    rw [Real.sqrt_mul (by positivity), Real.sqrt_mul (by positivity), Real.sqrt_sq hZ.le]
    congr 2
    rw [Real.sqrt_eq_rpow, Real.sqrt_eq_rpow, ← Real.rpow_mul (by norm_num)]
    norm_num
  have hq2 : (2 : ℝ) ^ (1 / 4 : ℝ) * (2 : ℝ) ^ (1 / 4 : ℝ) = Real.sqrt 2 := by
    rw [← Real.rpow_add (by norm_num), Real.sqrt_eq_rpow]; norm_num
  have hg : p.GF ^ (3 / 2 : ℝ) = p.GF * Real.sqrt p.GF := by
    rw [Real.sqrt_eq_rpow]
    nth_rewrite 2 [← Real.rpow_one p.GF]
    rw [← Real.rpow_add hG]; norm_num
  have hr : (0 : ℝ) < (2 : ℝ) ^ (1 / 4 : ℝ) := by positivity
  have hsg : 0 < Real.sqrt p.GF := Real.sqrt_pos.2 hG
  have key : Real.sqrt (sh2 p) * Real.sqrt (1 - sh2 p) / (Real.sqrt 2 * p.GF) =
      (2 : ℝ) ^ (1 / 4 : ℝ) * Real.sqrt (Real.pi * p.alphaE) * p.mZ / p.GF ^ (3 / 2 : ℝ) / (2 * p.mZ ^ 2) := by
    rw [hsc, hq, hg]
    generalize Real.sqrt (Real.pi * p.alphaE) = A
    rw [div_div, div_div, div_eq_div_iff (by positivity) (by positivity)]
    have h22 : Real.sqrt 2 * Real.sqrt 2 = 2 := Real.mul_self_sqrt (by norm_num)
    calc A * (p.GF * Real.sqrt p.GF * (2 * p.mZ ^ 2)) = A * (p.GF * Real.sqrt p.GF * ((Real.sqrt 2 * Real.sqrt 2) * p.mZ ^ 2)) := by rw [h22]
      _ = A * (p.GF * Real.sqrt p.GF * ((((2 : ℝ) ^ (1 / 4 : ℝ) * (2 : ℝ) ^ (1 / 4 : ℝ)) * Real.sqrt 2) * p.mZ ^ 2)) := by rw [hq2]
      _ = _ := by ring
  unfold dgZb
  simp only [key]
  unfold dGF dmZ2 muon
  have e1 : (1 / (Real.sqrt 2 * p.GF) * Real.sqrt 2 / 2 : ℝ) = 1 / (2 * p.GF) := by field_simp
  rw [e1]
  generalize (2 : ℝ) ^ (1 / 4 : ℝ) * Real.sqrt (Real.pi * p.alphaE) * p.mZ / p.GF ^ (3 / 2 : ℝ) = X
  have hZc : (p.mZ : ℂ) ≠ 0 := by exact_mod_cast hZ.ne'
  have hGc : (p.GF : ℂ) ≠ 0 := by exact_mod_cast hG.ne'
  have h2c : ((Real.sqrt 2 : ℝ) : ℂ) ≠ 0 := by exact_mod_cast h20.ne'
  push_cast
  field_simp
  ring

/-- The hypotheses are met at the reference point (see the example in `ZTheorems`). -/
example : 0 < pRef.GF ∧ 0 < pRef.mZ ∧ 0 ≤ pRef.alphaE := by simp only [pRef]; norm_num

/-- The tabulated parametrisation of the total width itself (in MeV), which the code contains but does not use.
/repo/flavio/physics/zdecays/gammazsm.py:28.  (Specification.) -/
noncomputable def totalTabulated (LH Dt Das DZ : ℝ) : ℝ :=
  2494.24 - 2.0 * LH + 19.7 * Dt + 58.60 * Das - 4.0 * Das ^ 2 + 8.0 * Das * Dt + 9267 * DZ

/-- **C98 (the total width as a function of the inputs).** For all Higgs, top and Z masses and strong couplings the sum of the
parametrised partial widths is the separately tabulated total width up to the rounding of the coefficients. -/
theorem C98_sm_total_tabulated (p : Par) (hd : ∀ k, p.delta k = 0) :
    |gammaTot p noNP * 1000 - totalTabulated (Real.log (p.mh / 125.7)) ((p.mt / 173.2) ^ 2 - 1) (p.alphas / 0.1184 - 1) (p.mZ / 91.1876 - 1)| ≤
      0.001 + 0.035 * |Real.log (p.mh / 125.7)| + 0.02 * |(p.mt / 173.2) ^ 2 - 1| + 0.02 * |p.alphas / 0.1184 - 1| + 0.1 * (p.alphas / 0.1184 - 1) ^ 2 +
        0.4 * |(p.alphas / 0.1184 - 1) * ((p.mt / 173.2) ^ 2 - 1)| + |p.mZ / 91.1876 - 1| := by
  have z : ∀ f1 f2, f1 ≠ f2 → gammaZ p noNP f1 f2 = 0 := by
    intro f1 f2 h
    simp [gammaZ, h, gammaNP, shifts_noNP]
  have w : ∀ f, gammaZ p noNP f f = gammaSM p f := fun f => (C98_width_flavour_diagonal p noNP f).2
  obtain ⟨b1, b2, b3⟩ := C98_total_width_partial p noNP
  simp only [z u c (by decide), z c u (by decide), z d s (by decide), z s d (by decide), z d b (by decide), z b d (by decide),
    z s b (by decide), z b s (by decide), z nue numu (by decide), z numu nue (by decide), z nue nutau (by decide),
    z nutau nue (by decide), z numu nutau (by decide), z nutau numu (by decide), w] at b1 b2 b3
  rw [b3, b1, b2]
  simp only [gammaSM, rowOf, zobs, cdict, hd, totalTabulated]
  generalize Real.log (p.mh / 125.7) = L
  generalize (p.mt / 173.2) ^ 2 - 1 = T
  generalize p.alphas / 0.1184 - 1 = A
  generalize p.mZ / 91.1876 - 1 = Z
  simp [Matrix.cons_val_zero, Matrix.cons_val_one]
  have hL := abs_le.1 (le_refl |L|)
  have hT := abs_le.1 (le_refl |T|)
  have hA := abs_le.1 (le_refl |A|)
  have hZ := abs_le.1 (le_refl |Z|)
  have hAT := abs_le.1 (le_refl (|A * T|))
  have hAA := sq_nonneg A
  rw [← abs_mul] at *
  rw [abs_le]
  constructor <;> nlinarith

end Verif.Zpole
