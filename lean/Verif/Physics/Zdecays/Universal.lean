import Verif.Physics.Zdecays.ZTheorems
/-!
# The universal part of the shifts of the Z couplings
-/
set_option linter.unusedVariables false
namespace Verif.Zpole
open Fm

/-- **C98**: the universal shifts in terms of the Wilson coefficients.  With `s²`, `c² = 1 - s²` the solution of `s² c² = π α/(√2 G_F m_Z²)`, `s² ≤ 1/2`: the normalisation of all neutral currents
changes by `-(C_φD + 2 (C_φl3_11 + C_φl3_22 - C_ll/2))/(4√2 G_F)`, the contribution of `C_φWB` cancels between the shift of the Z mass and the kinetic mixing; the weak angle changes by
`s c/(√2 G_F (c² - s²)) (s c/2 (C_φD + 2 (…)) + C_φWB)`. -/
theorem C98_universal (p : Par) (C : WC) (hG : 0 < p.GF) (hm : 0 < p.mZ) (ha : 0 < p.alphaE)
    (h : 4 * Real.pi * p.alphaE / (Real.sqrt 2 * p.GF * p.mZ ^ 2) < 1) :
    ∃ s c : ℝ, 0 < s ∧ s < c ∧ s ^ 2 + c ^ 2 = 1 ∧ s ^ 2 * c ^ 2 = Real.pi * p.alphaE / (Real.sqrt 2 * p.GF * p.mZ ^ 2) ∧
      dgZb p C = -(C "phiD" + 2 * (C "phil3_11" + C "phil3_22" - C "ll_1221" / 2)) / (4 * Real.sqrt 2 * p.GF : ℝ) ∧
      dsh2 p C = (s * c / (Real.sqrt 2 * p.GF * (c ^ 2 - s ^ 2)) : ℝ) *
        ((s * c / 2 : ℝ) * (C "phiD" + 2 * (C "phil3_11" + C "phil3_22" - C "ll_1221" / 2)) + C "phiWB") := by
  have hpi := Real.pi_pos
  have h2 : 0 < Real.sqrt 2 := by positivity
  have h0 : 0 < 4 * Real.pi * p.alphaE / (Real.sqrt 2 * p.GF * p.mZ ^ 2) := by positivity
  obtain ⟨e1, e2, e3⟩ := C98_mixing_angle p h.le h0.le
  have hpos : 0 < Real.pi * p.alphaE / (Real.sqrt 2 * p.GF * p.mZ ^ 2) := by positivity
  have hs0 : 0 < sh2 p := by
    rcases e2.lt_or_eq with h' | h'
    · exact h'
    · rw [← h'] at e1; rw [← e1] at hpos; simp at hpos
  have hslt : sh2 p < 1 / 2 := by
    rcases e3.lt_or_eq with h' | h'
    · exact h'
    · rw [h'] at e1
      have : 4 * Real.pi * p.alphaE / (Real.sqrt 2 * p.GF * p.mZ ^ 2) = 4 * (Real.pi * p.alphaE / (Real.sqrt 2 * p.GF * p.mZ ^ 2)) := by ring
      rw [this, ← e1] at h
      norm_num at h
  have q1 : Real.sqrt (sh2 p) ^ 2 = sh2 p := Real.sq_sqrt hs0.le
  have q2 : Real.sqrt (1 - sh2 p) ^ 2 = 1 - sh2 p := Real.sq_sqrt (by linarith)
  have hsc : Real.sqrt (sh2 p) < Real.sqrt (1 - sh2 p) := Real.sqrt_lt_sqrt hs0.le (by linarith)
  have hs : 0 < Real.sqrt (sh2 p) := Real.sqrt_pos.2 hs0
  have hc : 0 < Real.sqrt (1 - sh2 p) := hs.trans hsc
  have hq : Real.sqrt (sh2 p) ^ 2 * Real.sqrt (1 - sh2 p) ^ 2 = Real.pi * p.alphaE / (Real.sqrt 2 * p.GF * p.mZ ^ 2) := by rw [q1, q2, e1]
  have hr : (2:ℝ) ^ (1 / 4 : ℝ) * Real.sqrt (Real.pi * p.alphaE) * p.mZ / p.GF ^ (3 / 2 : ℝ) / (2 * p.mZ ^ 2) =
      Real.sqrt (sh2 p) * Real.sqrt (1 - sh2 p) / (Real.sqrt 2 * p.GF) := by
    have k1 : ((2:ℝ) ^ (1 / 4 : ℝ)) ^ 2 = Real.sqrt 2 := by
      rw [← Real.rpow_natCast, ← Real.rpow_mul (by norm_num), Real.sqrt_eq_rpow]; norm_num
    have k2 : (p.GF ^ (3 / 2 : ℝ)) ^ 2 = p.GF ^ 3 := by
      rw [← Real.rpow_natCast, ← Real.rpow_mul hG.le, ← Real.rpow_natCast]; norm_num
    have k3 : Real.sqrt (Real.pi * p.alphaE) ^ 2 = Real.pi * p.alphaE := Real.sq_sqrt (by positivity)
    have k4 : 0 < p.GF ^ (3 / 2 : ℝ) := Real.rpow_pos_of_pos hG _
    have k5 : (0:ℝ) < 2 ^ (1 / 4 : ℝ) := Real.rpow_pos_of_pos (by norm_num) _
    have k6 : Real.sqrt 2 ^ 2 = 2 := Real.sq_sqrt (by norm_num)
    refine (sq_eq_sq₀ (by positivity) (by positivity)).1 ?_
    rw [div_pow, div_pow, mul_pow, mul_pow, k1, k2, k3, div_pow (Real.sqrt (sh2 p) * _), mul_pow (Real.sqrt (sh2 p)), hq]
    generalize Real.sqrt 2 = r at *
    field_simp
    linear_combination (r ^ 2 + 2) * k6
  refine ⟨Real.sqrt (sh2 p), Real.sqrt (1 - sh2 p), hs, hsc, by rw [q1, q2]; ring, hq, ?_, ?_⟩
  · have key : dmZ2 p C / (2 * p.mZ ^ 2 : ℝ) = C "phiD" / (4 * Real.sqrt 2 * p.GF : ℝ) +
        ((Real.sqrt (sh2 p) * Real.sqrt (1 - sh2 p) / (Real.sqrt 2 * p.GF) : ℝ) : ℂ) * C "phiWB" := by
      rw [← hr]
      unfold dmZ2
      have : ((p.mZ : ℝ) : ℂ) ≠ 0 := by exact_mod_cast hm.ne'
      have : ((p.GF : ℝ) : ℂ) ≠ 0 := by exact_mod_cast hG.ne'
      have : ((Real.sqrt 2 : ℝ) : ℂ) ≠ 0 := by exact_mod_cast h2.ne'
      generalize (2:ℝ) ^ (1 / 4 : ℝ) * Real.sqrt (Real.pi * p.alphaE) * p.mZ / p.GF ^ (3 / 2 : ℝ) = x
      generalize Real.sqrt 2 = r at *
      push_cast
      field_simp
      ring
    unfold dgZb
    simp only
    rw [key]
    unfold dGF muon
    have : ((p.GF : ℝ) : ℂ) ≠ 0 := by exact_mod_cast hG.ne'
    have : ((Real.sqrt 2 : ℝ) : ℂ) ≠ 0 := by exact_mod_cast h2.ne'
    generalize ((Real.sqrt (sh2 p) * Real.sqrt (1 - sh2 p) / (Real.sqrt 2 * p.GF) : ℝ) : ℂ) = y
    generalize Real.sqrt 2 = r at *
    push_cast
    field_simp
    ring
  · unfold dsh2 muon
    simp only
    have hd : Real.sqrt (1 - sh2 p) ^ 2 - Real.sqrt (sh2 p) ^ 2 ≠ 0 := by rw [q1, q2]; intro h'; linarith
    generalize Real.sqrt (1 - sh2 p) = c at *
    generalize Real.sqrt (sh2 p) = s at *
    have : ((p.GF : ℝ) : ℂ) ≠ 0 := by exact_mod_cast hG.ne'
    have : ((Real.sqrt 2 : ℝ) : ℂ) ≠ 0 := by exact_mod_cast h2.ne'
    have : (c : ℂ) ^ 2 - (s : ℂ) ^ 2 ≠ 0 := by exact_mod_cast hd
    generalize Real.sqrt 2 = r at *
    push_cast
    field_simp
    ring

/-- **C98** (non-vacuity): with the measured values of the constants. -/
theorem C98_universal_nonvacuous : ∃ p : Par, 0 < p.GF ∧ 0 < p.mZ ∧ 0 < p.alphaE ∧
    4 * Real.pi * p.alphaE / (Real.sqrt 2 * p.GF * p.mZ ^ 2) < 1 := by
  refine ⟨{ GF := 1.1663787e-5, mZ := 91.1876, alphaE := 1 / 128, s2w := 0.23, mh := 125, mt := 173, alphas := 0.118, tauZ := 1, delta := fun _ => 0 },
    by norm_num, by norm_num, by norm_num, ?_⟩
  have h1 := Real.pi_lt_d2
  have h2 : (1.4 : ℝ) < Real.sqrt 2 := Real.lt_sqrt_of_sq_lt (by norm_num)
  rw [div_lt_one (by positivity)]
  simp only
  nlinarith

/-- Non-vacuity: units with `GF = mZ = 1` and a small coupling. -/
example : 4 * Real.pi * (1/100) / (Real.sqrt 2 * 1 * 1 ^ 2) < 1 := by
  have h2 : (1:ℝ) ≤ Real.sqrt 2 := by rw [show (1:ℝ) = Real.sqrt 1 by simp]; exact Real.sqrt_le_sqrt (by norm_num)
  rw [div_lt_one (by positivity)]
  have := Real.pi_lt_four
  nlinarith

end Verif.Zpole
