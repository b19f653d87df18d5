import Verif.Physics.Angular.Nunu
/-!
# C92: the textbook spectra of `B → P ν ν̄` and `B → V ν ν̄` in the Standard Model, and their integrals
-/
set_option linter.unusedVariables false
set_option linter.unusedSimpArgs false
namespace Verif.Nunu
open Verif.Common Verif.Angular Complex MeasureTheory Set

/-- The factor for a meson that is half `u ū` and half `d d̄`.  (Specification.) -/
noncomputable def isospin (b : Bool) : ℝ := bif b then 1 / 2 else 1

theorem pref_sq (d : Inp) : ‖prefactor d‖ ^ 2 = (4 * d.GF) ^ 2 / 2 * ‖d.xit‖ ^ 2 * (d.alpha / (4 * Real.pi)) ^ 2 := by
  unfold prefactor
  rw [norm_mul, norm_mul, Complex.norm_real, Complex.norm_real, Real.norm_eq_abs, Real.norm_eq_abs, mul_pow, mul_pow, sq_abs, sq_abs, div_pow,
    Real.sq_sqrt (by norm_num)]

/-- **C92 (absolute normalisation).** The Standard Model spectra are the ones of the literature: with `λ` the Källén function,
`dBR(B → P ν ν̄)/dq² = τ G_F² α(m_Z)² X_t² |ξ_t|² / (256 π⁵ m_B³ s_w⁴) · λ^{3/2} f_+²`, and
`dBR(B → V ν ν̄)/dq² = τ G_F² α(m_Z)² X_t² |ξ_t|² / (64 π⁵ m_B³ s_w⁴) · λ^{1/2} (16 m_B² m² A_12² + q²(m_B+m)² A_1²/2 + q² λ V²/(2 (m_B+m)²))`,
with half of it for the neutral light mesons. -/
theorem C92_textbook (d : Inp) (fp : ℝ → FFP) (fv : ℝ → FFV) (q2 : ℝ) (hq : 0 < q2) (hB : 0 < d.mB) (hm : 0 ≤ d.m) (ha : d.alpha ≠ 0)
    (hs : d.s2w ≠ 0) (hk : 0 ≤ kallen (d.mB ^ 2) (d.m ^ 2) q2) :
    dbrP d fp Cpl.SM q2 = isospin d.half * d.tauB * (d.GF ^ 2 * d.alphaZ ^ 2 * d.Xt ^ 2 * ‖d.xit‖ ^ 2 / (256 * Real.pi ^ 5 * d.mB ^ 3 * d.s2w ^ 2)) *
      (Real.sqrt (kallen (d.mB ^ 2) (d.m ^ 2) q2) * kallen (d.mB ^ 2) (d.m ^ 2) q2 * (fp q2).fp ^ 2) ∧
    dbrV d fv Cpl.SM q2 = isospin d.half * d.tauB * (d.GF ^ 2 * d.alphaZ ^ 2 * d.Xt ^ 2 * ‖d.xit‖ ^ 2 / (64 * Real.pi ^ 5 * d.mB ^ 3 * d.s2w ^ 2)) *
      (Real.sqrt (kallen (d.mB ^ 2) (d.m ^ 2) q2) * (16 * d.mB ^ 2 * d.m ^ 2 * (fv q2).A12 ^ 2 + q2 * (d.mB + d.m) ^ 2 * (fv q2).A1 ^ 2 / 2 +
        q2 * kallen (d.mB ^ 2) (d.m ^ 2) q2 * (fv q2).V ^ 2 / (2 * (d.mB + d.m) ^ 2))) := by
  have hM : d.mB + d.m ≠ 0 := by positivity
  have hpi := Real.pi_pos.ne'
  obtain ⟨r1, r2, _⟩ := C92_rates d fp fv Cpl.SM q2 hq hM
  obtain ⟨s1, s2⟩ := sums_SM d
  have hl : lambdaK (d.mB ^ 2) (d.m ^ 2) q2 = kallen (d.mB ^ 2) (d.m ^ 2) q2 := by
    unfold lambdaK; rw [if_neg (not_lt.2 hk)]
  have hps : phaseSpace (2 ^ 9 * Real.pi ^ 3) q2 d.mB d.m 0 0 = Real.sqrt (kallen (d.mB ^ 2) (d.m ^ 2) q2) / (2 ^ 9 * Real.pi ^ 3 * d.mB ^ 3) := by
    unfold phaseSpace
    rw [laGa0, Real.sqrt_sq hq.le, hl]
    field_simp
  have hBne := hB.ne'
  have hP : phiP d fp q2 * (3 * clSM d.Xt d.s2w d.alphaZ d.alpha ^ 2) = (d.GF ^ 2 * d.alphaZ ^ 2 * d.Xt ^ 2 * ‖d.xit‖ ^ 2 / (256 * Real.pi ^ 5 * d.mB ^ 3 * d.s2w ^ 2)) *
      (Real.sqrt (kallen (d.mB ^ 2) (d.m ^ 2) q2) * kallen (d.mB ^ 2) (d.m ^ 2) q2 * (fp q2).fp ^ 2) := by
    unfold phiP clSM
    rw [hps, hl, pref_sq]
    field_simp
    ring
  have hV : (phi0 d fv q2 + phiPar d fv q2) * (3 * clSM d.Xt d.s2w d.alphaZ d.alpha ^ 2) + phiPerp d fv q2 * (3 * clSM d.Xt d.s2w d.alphaZ d.alpha ^ 2) =
      (d.GF ^ 2 * d.alphaZ ^ 2 * d.Xt ^ 2 * ‖d.xit‖ ^ 2 / (64 * Real.pi ^ 5 * d.mB ^ 3 * d.s2w ^ 2)) *
      (Real.sqrt (kallen (d.mB ^ 2) (d.m ^ 2) q2) * (16 * d.mB ^ 2 * d.m ^ 2 * (fv q2).A12 ^ 2 + q2 * (d.mB + d.m) ^ 2 * (fv q2).A1 ^ 2 / 2 +
        q2 * kallen (d.mB ^ 2) (d.m ^ 2) q2 * (fv q2).V ^ 2 / (2 * (d.mB + d.m) ^ 2))) := by
    unfold phi0 phiPar phiPerp clSM
    rw [hps, hl, pref_sq]
    field_simp
    ring
  rw [s1] at r1
  rw [s1, s2] at r2
  constructor
  · unfold dbrP
    rw [r1, hP]
    cases d.half <;> simp [isospin] <;> ring
  · unfold dbrV
    rw [r2, hV]
    cases d.half <;> simp [isospin] <;> ring

/-- The hypotheses are met for `B → K ν ν̄` at `q² = 5 GeV²`. -/
example : (0 : ℝ) ≤ kallen (5.28 ^ 2) (0.5 ^ 2) 5 := by unfold kallen; norm_num

/-- **C92 (integrals).** With an exact integrator a binned branching ratio times the width of the bin is the integral over the bin,
and the total branching ratio is the integral from zero to the end point `(m_B - m)²`: so the widths times the values of two
adjacent bins that cover the range add up to the total. -/
theorem C92_integrals (nint : Nint) (he : Exact nint) (d : Inp) (f : ℝ → ℝ) (a : ℝ) (ha : 0 < a) (hb : a < (d.mB - d.m) ^ 2)
    (hf : IntervalIntegrable f volume 0 ((d.mB - d.m) ^ 2)) :
    binned nint f 0 a * (a - 0) = ∫ x in (0 : ℝ)..a, f x ∧
    total nint d f = ∫ x in (0 : ℝ)..((d.mB - d.m) ^ 2), f x ∧
    binned nint f 0 a * (a - 0) + binned nint f a ((d.mB - d.m) ^ 2) * ((d.mB - d.m) ^ 2 - a) = total nint d f := by
  have h1 : IntervalIntegrable f volume 0 a := hf.mono_set (by rw [uIcc_of_le ha.le, uIcc_of_le (ha.trans hb).le]; exact Icc_subset_Icc_right hb.le)
  have h2 : IntervalIntegrable f volume a ((d.mB - d.m) ^ 2) :=
    hf.mono_set (by rw [uIcc_of_le hb.le, uIcc_of_le (ha.trans hb).le]; exact Icc_subset_Icc_left ha.le)
  have e1 : binned nint f 0 a * (a - 0) = ∫ x in (0 : ℝ)..a, f x := by
    unfold binned
    rw [he _ _ _ _ h1, div_mul_cancel₀ _ (by simpa using ha.ne')]
  have e2 : total nint d f = ∫ x in (0 : ℝ)..((d.mB - d.m) ^ 2), f x := he _ _ _ _ hf
  refine ⟨e1, e2, ?_⟩
  rw [e1, e2]
  unfold binned
  rw [he _ _ _ _ h2, div_mul_cancel₀ _ (sub_ne_zero.2 hb.ne'), intervalIntegral.integral_add_adjacent_intervals h1 h2]

end Verif.Nunu
