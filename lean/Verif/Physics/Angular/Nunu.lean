import Verif.Physics.Angular.Amps
import Verif.Physics.Angular.Bins
import Mathlib.Algebra.BigOperators.Fin
/-!
# `B → P ν ν̄` and `B → V ν ν̄` (`flavio/physics/bdecays/bpnunu.py`, `bvnunu.py`)

Neutrino flavours are `Fin 3`; the Wilson coefficients returned by `get_wc` are `CL i j`, `CR i j`.
-/
set_option linter.unusedVariables false
set_option linter.unusedSimpArgs false
namespace Verif.Nunu
open Verif.Common Verif.Angular Complex ComplexConjugate MeasureTheory Set

/-- `CL_SM`: `-Xt/s2w * alpha_e_mZ/alpha_e_scale`.
/repo/flavio/physics/bdecays/wilsoncoefficients.py:34-58. -/
noncomputable def clSM (Xt s2w alphaZ alpha : ℝ) : ℝ := -Xt / s2w * alphaZ / alpha

/-- What the predictions read: meson masses, life time, `G_F`, `xi_t`, `alpha_e` at the scale and at `m_Z`, `X_t`, `s2w`;
`half` says that the meson is `pi0` (`rho0`).  /repo/flavio/physics/bdecays/bpnunu.py:8-60. -/
structure Inp where
  mB : ℝ
  m : ℝ
  tauB : ℝ
  half : Bool
  GF : ℝ
  xit : ℂ
  alpha : ℝ
  alphaZ : ℝ
  Xt : ℝ
  s2w : ℝ

/-- The new-physics Wilson coefficients `CL_<qiqj><nu1><nu2>` and `CR_…`.
/repo/flavio/physics/bdecays/bpnunu.py:22-25. -/
structure Cpl where
  CL : Fin 3 → Fin 3 → ℂ
  CR : Fin 3 → Fin 3 → ℂ

/-- No new physics. (Specification.) -/
def Cpl.SM : Cpl := ⟨fun _ _ => 0, fun _ _ => 0⟩

/-- `prefactor`.  /repo/flavio/physics/bdecays/bpnunu.py:8-14, bvnunu.py:9-15. -/
noncomputable def prefactor (d : Inp) : ℂ := (4 * d.GF / Real.sqrt 2 : ℝ) * d.xit * (d.alpha / (4 * Real.pi) : ℝ)

/-- `wc['CL_'+label]` after the SM contribution has been added for equal flavours.
/repo/flavio/physics/bdecays/bpnunu.py:24-25, bvnunu.py:25-26. -/
noncomputable def clTot (d : Inp) (c : Cpl) (i j : Fin 3) : ℂ :=
  if i = j then c.CL i j + (clSM d.Xt d.s2w d.alphaZ d.alpha : ℝ) else c.CL i j

/-- `get_wceff_nunu`.  /repo/flavio/physics/bdecays/wilsoncoefficients.py:178-198. -/
def wcNu (cl cr : ℂ) : Wc := ⟨0, 0, cl, cr, -cl, -cr, 0, 0, 0, 0, 0, 0⟩

/-- `angularcoeffs_general_p` of one neutrino-flavour combination (`mb = 4`, all light masses 0).
/repo/flavio/physics/bdecays/bpnunu.py:20-43. -/
noncomputable def jP (d : Inp) (ff : ℝ → FFP) (c : Cpl) (q2 : ℝ) (i j : Fin 3) : JP :=
  angularP (helicityP q2 d.mB d.m 4 0 0 0 (ff q2) (wcNu (clTot d c i j) (c.CR i j)) (prefactor d)) q2 d.mB d.m 0 0

/-- `angularcoeffs_general_v` of one neutrino-flavour combination.
/repo/flavio/physics/bdecays/bvnunu.py:21-44. -/
noncomputable def jV (d : Inp) (ff : ℝ → FFV) (c : Cpl) (q2 : ℝ) (i j : Fin 3) : JV :=
  angularV (helicityV q2 d.mB d.m 4 0 0 0 (ff q2) (wcNu (clTot d c i j) (c.CR i j)) (prefactor d)) q2 d.mB d.m 0 0

/-- `bpnunu_dbrdq2_summed`.  /repo/flavio/physics/bdecays/bpnunu.py:45-55. -/
noncomputable def dbrP (d : Inp) (ff : ℝ → FFP) (c : Cpl) (q2 : ℝ) : ℝ :=
  if d.half then d.tauB * (∑ i, ∑ j, dGdq2P (jP d ff c q2 i j)) / 2 else d.tauB * ∑ i, ∑ j, dGdq2P (jP d ff c q2 i j)

/-- `bvnunu_dbrdq2_summed`.  /repo/flavio/physics/bdecays/bvnunu.py:46-55. -/
noncomputable def dbrV (d : Inp) (ff : ℝ → FFV) (c : Cpl) (q2 : ℝ) : ℝ :=
  if d.half then d.tauB * (∑ i, ∑ j, dGdq2 (jV d ff c q2 i j)) / 2 else d.tauB * ∑ i, ∑ j, dGdq2 (jV d ff c q2 i j)

/-- `bvnunu_fl_num_summed`.  /repo/flavio/physics/bdecays/bvnunu.py:57-61. -/
noncomputable def flNumV (d : Inp) (ff : ℝ → FFV) (c : Cpl) (q2 : ℝ) : ℝ := ∑ i, ∑ j, -(jV d ff c q2 i j).j2c

/-- `bvnunu_fl_summed`.  /repo/flavio/physics/bdecays/bvnunu.py:63-71. -/
noncomputable def flV (d : Inp) (ff : ℝ → FFV) (c : Cpl) (q2 : ℝ) : ℝ :=
  if (∑ i, ∑ j, dGdq2 (jV d ff c q2 i j)) = 0 then 0
  else flNumV d ff c q2 / ∑ i, ∑ j, dGdq2 (jV d ff c q2 i j)

/-- `bpnunu_dbrdq2_int_summed`, `bvnunu_dbrdq2_int_summed`.
/repo/flavio/physics/bdecays/bpnunu.py:57-60, bvnunu.py:73-76. -/
noncomputable def binned (nint : Nint) (f : ℝ → ℝ) (a b : ℝ) : ℝ := nint f a b (5 / 1000) / (b - a)

/-- `bpnunu_BRtot_summed`, `bvnunu_BRtot_summed`.
/repo/flavio/physics/bdecays/bpnunu.py:62-69, bvnunu.py:91-98. -/
noncomputable def total (nint : Nint) (d : Inp) (f : ℝ → ℝ) : ℝ := nint f 0 ((d.mB - d.m) ^ 2) (5 / 1000)

/-- `bvnunu_fl_int_summed`.  /repo/flavio/physics/bdecays/bvnunu.py:83-89. -/
noncomputable def flBin (nint : Nint) (d : Inp) (ff : ℝ → FFV) (c : Cpl) (a b : ℝ) : ℝ :=
  if binned nint (dbrV d ff c) a b / d.tauB = 0 then 0
  else binned nint (flNumV d ff c) a b / (binned nint (dbrV d ff c) a b / d.tauB)

/-! ## Specification -/

/-- An integrator that is homogeneous and only looks at the inside of the interval. (Specification.) -/
def Homog (nint : Nint) : Prop :=
  ∀ (k : ℝ) (f g : ℝ → ℝ) (a b e : ℝ), (∀ x ∈ Ioo a b, f x = k * g x) → nint f a b e = k * nint g a b e

/-- `Σ |C_L + C_R|²` over the nine flavour combinations, `C_L` including the Standard Model. (Specification.) -/
noncomputable def sumPlus (d : Inp) (c : Cpl) : ℝ := ∑ i, ∑ j, ‖clTot d c i j + c.CR i j‖ ^ 2
/-- `Σ |C_L - C_R|²`. (Specification.) -/
noncomputable def sumMinus (d : Inp) (c : Cpl) : ℝ := ∑ i, ∑ j, ‖clTot d c i j - c.CR i j‖ ^ 2

/-- Rate per `|C_L + C_R|²` of the pseudoscalar mode. (Specification.) -/
noncomputable def phiP (d : Inp) (ff : ℝ → FFP) (q2 : ℝ) : ℝ :=
  4 / 3 * phaseSpace (2 ^ 9 * Real.pi ^ 3) q2 d.mB d.m 0 0 * lambdaK (d.mB ^ 2) (d.m ^ 2) q2 * ‖prefactor d‖ ^ 2 * (ff q2).fp ^ 2

/-- Longitudinal rate per `|C_L - C_R|²` of the vector mode. (Specification.) -/
noncomputable def phi0 (d : Inp) (ff : ℝ → FFV) (q2 : ℝ) : ℝ :=
  16 / 3 * phaseSpace (2 ^ 9 * Real.pi ^ 3) q2 d.mB d.m 0 0 * ‖prefactor d‖ ^ 2 * (16 * (d.mB * d.m) ^ 2 * (ff q2).A12 ^ 2)
/-- Parallel rate per `|C_L - C_R|²` of the vector mode. (Specification.) -/
noncomputable def phiPar (d : Inp) (ff : ℝ → FFV) (q2 : ℝ) : ℝ :=
  16 / 3 * phaseSpace (2 ^ 9 * Real.pi ^ 3) q2 d.mB d.m 0 0 * ‖prefactor d‖ ^ 2 * (q2 * (d.mB + d.m) ^ 2 * (ff q2).A1 ^ 2 / 2)
/-- Perpendicular rate per `|C_L + C_R|²` of the vector mode. (Specification.) -/
noncomputable def phiPerp (d : Inp) (ff : ℝ → FFV) (q2 : ℝ) : ℝ :=
  16 / 3 * phaseSpace (2 ^ 9 * Real.pi ^ 3) q2 d.mB d.m 0 0 * ‖prefactor d‖ ^ 2
    * (q2 * lambdaK (d.mB ^ 2) (d.m ^ 2) q2 * (ff q2).V ^ 2 / (2 * (d.mB + d.m) ^ 2))

theorem laGa0 (q2 : ℝ) : laGa q2 0 0 = q2 ^ 2 := by
  unfold laGa lambdaK kallen
  norm_num
  intro h; nlinarith [sq_nonneg q2]

theorem energy0 (q2 : ℝ) (hq : 0 < q2) : energy q2 0 0 0 * energy q2 0 0 0 = q2 / 4 := by
  unfold energy
  rw [Real.mul_self_sqrt]
  · rw [laGa0]; field_simp; ring
  · rw [laGa0]; positivity

theorem lambdaK_nn (a b c : ℝ) : 0 ≤ lambdaK a b c := by
  unfold lambdaK; split_ifs with h
  · exact le_rfl
  · exact not_lt.mp h

theorem ps_nn (d : Inp) (q2 : ℝ) (hB : 0 < d.mB) (hq : 0 < q2) :
    0 ≤ phaseSpace (2 ^ 9 * Real.pi ^ 3) q2 d.mB d.m 0 0 :=
  phaseSpace_nonneg _ _ _ _ _ _ (by have := Real.pi_pos; positivity) hB hq

/-- **C92 (rates).** In terms of the couplings alone: the pseudoscalar rate is proportional to `Σ|C_L+C_R|²`; the
vector rate has a longitudinal and a parallel part proportional to `Σ|C_L-C_R|²` and a perpendicular part proportional
to `Σ|C_L+C_R|²`; the numerator of `F_L` is the longitudinal part. -/
theorem C92_rates (d : Inp) (fp : ℝ → FFP) (fv : ℝ → FFV) (c : Cpl) (q2 : ℝ) (hq : 0 < q2) (hM : d.mB + d.m ≠ 0) :
    (∑ i, ∑ j, dGdq2P (jP d fp c q2 i j)) = phiP d fp q2 * sumPlus d c ∧
    (∑ i, ∑ j, dGdq2 (jV d fv c q2 i j))
      = (phi0 d fv q2 + phiPar d fv q2) * sumMinus d c + phiPerp d fv q2 * sumPlus d c ∧
    flNumV d fv c q2 = phi0 d fv q2 * sumMinus d c := by
  have hs : Real.sqrt q2 ^ 2 = q2 := Real.sq_sqrt hq.le
  have hs0 : Real.sqrt q2 ≠ 0 := (Real.sqrt_pos.mpr hq).ne'
  have hl : Real.sqrt (lambdaK (d.mB ^ 2) (d.m ^ 2) q2) ^ 2 = lambdaK (d.mB ^ 2) (d.m ^ 2) q2 :=
    Real.sq_sqrt (lambdaK_nn _ _ _)
  have P1 : ∀ i j, dGdq2P (jP d fp c q2 i j) = phiP d fp q2 * ‖clTot d c i j + c.CR i j‖ ^ 2 := by
    intro i j
    set cl := clTot d c i j
    set cr := c.CR i j
    have e0 : dGdq2P (jP d fp c q2 i j) = 16 / 3 * phaseSpace (2 ^ 9 * Real.pi ^ 3) q2 d.mB d.m 0 0 * q2 *
        ‖(helicityP q2 d.mB d.m 4 0 0 0 (fp q2) (wcNu cl cr) (prefactor d)).V‖ ^ 2 := by
      show dGdq2P (angularP (helicityP q2 d.mB d.m 4 0 0 0 (fp q2) (wcNu cl cr) (prefactor d)) q2 d.mB d.m 0 0) = _
      have hA : (helicityP q2 d.mB d.m 4 0 0 0 (fp q2) (wcNu cl cr) (prefactor d)).A
          = -(helicityP q2 d.mB d.m 4 0 0 0 (fp q2) (wcNu cl cr) (prefactor d)).V := by
        simp only [helicityP, helP1, AmpP.scale, wcNu]; push_cast; ring
      have hSPT : (helicityP q2 d.mB d.m 4 0 0 0 (fp q2) (wcNu cl cr) (prefactor d)).S = 0 ∧
          (helicityP q2 d.mB d.m 4 0 0 0 (fp q2) (wcNu cl cr) (prefactor d)).P = 0 ∧
          (helicityP q2 d.mB d.m 4 0 0 0 (fp q2) (wcNu cl cr) (prefactor d)).T = 0 ∧
          (helicityP q2 d.mB d.m 4 0 0 0 (fp q2) (wcNu cl cr) (prefactor d)).Tt = 0 := by
        simp [helicityP, helP1, AmpP.scale, wcNu]
      obtain ⟨s1, s2, s3, s4⟩ := hSPT
      simp only [dGdq2P, angularP, gbasisP, gbasisP0, hA, s1, s2, s3, s4, norm_neg, norm_zero, map_zero, mul_zero,
        zero_im, laGa0, energy0 q2 hq]
      field_simp
      ring
    have e1 : ‖(helicityP q2 d.mB d.m 4 0 0 0 (fp q2) (wcNu cl cr) (prefactor d)).V‖ ^ 2
        = ‖prefactor d‖ ^ 2 * (lambdaK (d.mB ^ 2) (d.m ^ 2) q2 / (4 * q2)) * ‖cl + cr‖ ^ 2 * (fp q2).fp ^ 2 := by
      simp only [helicityP, helP1, AmpP.scale, wcNu, add_zero, mul_zero, zero_mul, zero_add, norm_mul, mul_pow, norm_real,
        Real.norm_eq_abs, sq_abs, div_pow]
      rw [hs, hl]; ring
    rw [e0, e1, phiP]
    field_simp
    ring
  have V1 : ∀ i j, dGdq2 (jV d fv c q2 i j) = (phi0 d fv q2 + phiPar d fv q2) * ‖clTot d c i j - c.CR i j‖ ^ 2
        + phiPerp d fv q2 * ‖clTot d c i j + c.CR i j‖ ^ 2 ∧
      -(jV d fv c q2 i j).j2c = phi0 d fv q2 * ‖clTot d c i j - c.CR i j‖ ^ 2 := by
    intro i j
    set cl := clTot d c i j
    set cr := c.CR i j
    set H := helicityV q2 d.mB d.m 4 0 0 0 (fv q2) (wcNu cl cr) (prefactor d) with hH
    have a1 : H.plA = -H.plV := by
      simp only [hH, helicityV, helV1, AmpV.scale, wcNu, transAmp, dipAmp]; push_cast; ring
    have a2 : H.miA = -H.miV := by
      simp only [hH, helicityV, helV1, AmpV.scale, wcNu, transAmp, dipAmp]; push_cast; ring
    have a3 : H.zeA = -H.zeV := by
      simp only [hH, helicityV, helV1, AmpV.scale, wcNu]; push_cast
      have : ((Real.sqrt q2 : ℝ) : ℂ) ≠ 0 := by exact_mod_cast hs0
      have h2 : (d.mB + d.m : ℂ) ≠ 0 := by exact_mod_cast hM
      field_simp
      ring
    have hz : H.S = 0 ∧ H.P = 0 ∧ H.plT = 0 ∧ H.miT = 0 ∧ H.zeT = 0 ∧ H.plTt = 0 ∧ H.miTt = 0 ∧ H.zeTt = 0 := by
      simp [hH, helicityV, helV1, AmpV.scale, wcNu, tenAmp]
    obtain ⟨z1, z2, z3, z4, z5, z6, z7, z8⟩ := hz
    have e0 : dGdq2 (angularV H q2 d.mB d.m 0 0) = 16 / 3 * phaseSpace (2 ^ 9 * Real.pi ^ 3) q2 d.mB d.m 0 0 * q2 *
        (‖H.plV‖ ^ 2 + ‖H.miV‖ ^ 2 + ‖H.zeV‖ ^ 2) := by
      simp only [dGdq2, angularV, signflip, gToG, gbasisV, GV.scale, gbasisV0, g000, g020, g200, g220, a1, a2, a3, z1, z2,
        z3, z4, z5, z6, z7, z8, norm_neg, norm_zero, map_zero, mul_zero, zero_im, laGa0, mul_assoc, energy0 q2 hq]
      field_simp
      ring
    have e2 : -(angularV H q2 d.mB d.m 0 0).j2c = 16 / 3 * phaseSpace (2 ^ 9 * Real.pi ^ 3) q2 d.mB d.m 0 0 * q2 *
        ‖H.zeV‖ ^ 2 := by
      simp only [dGdq2, angularV, signflip, gToG, gbasisV, GV.scale, gbasisV0, g000, g020, g200, g220, a1, a2, a3, z1, z2,
        z3, z4, z5, z6, z7, z8, norm_neg, norm_zero, map_zero, mul_zero, zero_im, laGa0, mul_assoc, energy0 q2 hq]
      field_simp
      ring
    have n0 : ‖H.zeV‖ ^ 2 = ‖prefactor d‖ ^ 2 * (16 * (d.mB * d.m) ^ 2 / q2 * (fv q2).A12 ^ 2) * ‖cl - cr‖ ^ 2 := by
      simp only [hH, helicityV, helV1, AmpV.scale, wcNu, add_zero, mul_zero, zero_mul, sub_zero, norm_mul, mul_pow, norm_real,
        Real.norm_eq_abs, sq_abs, div_pow, norm_I, hs]
      norm_num
      field_simp
    have nt : ‖H.plV‖ ^ 2 + ‖H.miV‖ ^ 2 = ‖prefactor d‖ ^ 2 * ((d.mB + d.m) ^ 2 * (fv q2).A1 ^ 2 / 2 * ‖cl - cr‖ ^ 2
        + lambdaK (d.mB ^ 2) (d.m ^ 2) q2 * (fv q2).V ^ 2 / (2 * (d.mB + d.m) ^ 2) * ‖cl + cr‖ ^ 2) := by
      have par : ∀ x y : ℂ, ‖x - y‖ ^ 2 + ‖-x - y‖ ^ 2 = 2 * (‖x‖ ^ 2 + ‖y‖ ^ 2) := by
        intro x y; simp only [Complex.sq_norm, normSq_apply, neg_re, neg_im, sub_re, sub_im]; ring
      have f1 : H.plV = prefactor d * (I / (2 * (d.mB + d.m) : ℝ)) *
          ((cl + cr) * (Real.sqrt (lambdaK (d.mB ^ 2) (d.m ^ 2) q2) : ℝ) * ((fv q2).V : ℝ)
            - ((d.mB + d.m) ^ 2 : ℝ) * (cl - cr) * ((fv q2).A1 : ℝ)) := by
        simp only [hH, helicityV, helV1, AmpV.scale, wcNu, transAmp, dipAmp]; push_cast; ring
      have f2 : H.miV = prefactor d * (I / (2 * (d.mB + d.m) : ℝ)) *
          (-((cl + cr) * (Real.sqrt (lambdaK (d.mB ^ 2) (d.m ^ 2) q2) : ℝ) * ((fv q2).V : ℝ))
            - ((d.mB + d.m) ^ 2 : ℝ) * (cl - cr) * ((fv q2).A1 : ℝ)) := by
        simp only [hH, helicityV, helV1, AmpV.scale, wcNu, transAmp, dipAmp]; push_cast; ring
      rw [f1, f2, norm_mul, norm_mul (prefactor d * _), mul_pow, mul_pow, ← mul_add, par]
      simp only [norm_mul, norm_div, norm_I, norm_real, Real.norm_eq_abs, mul_pow, div_pow, sq_abs, hl]
      field_simp
      ring
    refine ⟨?_, ?_⟩
    · show dGdq2 (angularV H q2 d.mB d.m 0 0) = _
      rw [e0, nt, n0, phi0, phiPar, phiPerp]
      field_simp
      ring
    · show -(angularV H q2 d.mB d.m 0 0).j2c = _
      rw [e2, n0, phi0]
      field_simp
  refine ⟨?_, ?_, ?_⟩
  · simp only [P1, sumPlus, Finset.mul_sum]
  · simp only [fun i j => (V1 i j).1, sumPlus, sumMinus, Finset.mul_sum, Finset.sum_add_distrib]
  · unfold flNumV
    simp only [fun i j => (V1 i j).2, sumMinus, Finset.mul_sum]

theorem phi_nn (d : Inp) (fp : ℝ → FFP) (fv : ℝ → FFV) (q2 : ℝ) (hB : 0 < d.mB) (hq : 0 < q2) :
    0 ≤ phiP d fp q2 ∧ 0 ≤ phi0 d fv q2 ∧ 0 ≤ phiPar d fv q2 ∧ 0 ≤ phiPerp d fv q2 := by
  have h := ps_nn d q2 hB hq
  have l := lambdaK_nn (d.mB ^ 2) (d.m ^ 2) q2
  unfold phiP phi0 phiPar phiPerp
  refine ⟨?_, ?_, ?_, ?_⟩ <;> positivity

theorem sums_nn (d : Inp) (c : Cpl) : 0 ≤ sumPlus d c ∧ 0 ≤ sumMinus d c :=
  ⟨Finset.sum_nonneg fun i _ => Finset.sum_nonneg fun j _ => sq_nonneg _,
    Finset.sum_nonneg fun i _ => Finset.sum_nonneg fun j _ => sq_nonneg _⟩

/-- The Standard Model value of the sums: three flavours, `|C_L^SM|²` each. -/
theorem sums_SM (d : Inp) : sumPlus d Cpl.SM = 3 * clSM d.Xt d.s2w d.alphaZ d.alpha ^ 2 ∧
    sumMinus d Cpl.SM = 3 * clSM d.Xt d.s2w d.alphaZ d.alpha ^ 2 := by
  constructor
  all_goals
    simp only [sumPlus, sumMinus, clTot, Cpl.SM, Fin.sum_univ_three, zero_add, add_zero, sub_zero]
    simp [norm_real, Real.norm_eq_abs, sq_abs]
    ring

/-- **C92 (ranges).** Every differential branching ratio is non-negative and `0 ≤ F_L ≤ 1`. -/
theorem C92_ranges (d : Inp) (fp : ℝ → FFP) (fv : ℝ → FFV) (c : Cpl) (q2 : ℝ) (hq : 0 < q2) (hB : 0 < d.mB) (hm : 0 ≤ d.m)
    (ht : 0 ≤ d.tauB) :
    0 ≤ dbrP d fp c q2 ∧ 0 ≤ dbrV d fv c q2 ∧ 0 ≤ flV d fv c q2 ∧ flV d fv c q2 ≤ 1 := by
  obtain ⟨r1, r2, r3⟩ := C92_rates d fp fv c q2 hq (by linarith)
  obtain ⟨p1, p2, p3, p4⟩ := phi_nn d fp fv q2 hB hq
  obtain ⟨s1, s2⟩ := sums_nn d c
  have g1 : 0 ≤ ∑ i, ∑ j, dGdq2P (jP d fp c q2 i j) := by rw [r1]; positivity
  have g2 : 0 ≤ ∑ i, ∑ j, dGdq2 (jV d fv c q2 i j) := by rw [r2]; positivity
  refine ⟨?_, ?_, ?_, ?_⟩
  · unfold dbrP; split_ifs <;> positivity
  · unfold dbrV; split_ifs <;> positivity
  · unfold flV; split_ifs with h
    · exact le_rfl
    · rw [r3]; positivity
  · unfold flV; split_ifs with h
    · norm_num
    · refine div_le_one_of_le₀ ?_ g2
      rw [r3, r2]
      have := mul_nonneg p3 s2
      have := mul_nonneg p4 s1
      nlinarith

/-- **C92 (pseudoscalar mode).** New physics rescales the `B → P ν ν̄` spectrum by one number, the same for every q²,
every bin and the total: `Σ|C_L+C_R|² / (3 |C_L^SM|²)`. -/
theorem C92_universal_P (nint : Nint) (hh : Homog nint) (d : Inp) (fp : ℝ → FFP) (c : Cpl) (hM : d.mB + d.m ≠ 0)
    (hsm : clSM d.Xt d.s2w d.alphaZ d.alpha ≠ 0) :
    let R := sumPlus d c / (3 * clSM d.Xt d.s2w d.alphaZ d.alpha ^ 2)
    (∀ q2, 0 < q2 → dbrP d fp c q2 = R * dbrP d fp Cpl.SM q2) ∧
    (∀ a b, 0 ≤ a → binned nint (dbrP d fp c) a b = R * binned nint (dbrP d fp Cpl.SM) a b) ∧
    total nint d (dbrP d fp c) = R * total nint d (dbrP d fp Cpl.SM) := by
  intro R
  have key : ∀ q2, 0 < q2 → dbrP d fp c q2 = R * dbrP d fp Cpl.SM q2 := by
    intro q2 hq
    have e1 := (C92_rates d fp (fun _ => ⟨0,0,0,0,0,0,0⟩) c q2 hq hM).1
    have e2 := (C92_rates d fp (fun _ => ⟨0,0,0,0,0,0,0⟩) Cpl.SM q2 hq hM).1
    have e3 : (∑ i, ∑ j, dGdq2P (jP d fp c q2 i j)) = R * ∑ i, ∑ j, dGdq2P (jP d fp Cpl.SM q2 i j) := by
      rw [e1, e2, (sums_SM d).1]
      show _ = sumPlus d c / _ * _
      field_simp
    unfold dbrP
    rw [e3]
    split_ifs <;> ring
  refine ⟨key, fun a b ha => ?_, ?_⟩
  · unfold binned
    rw [hh R _ _ a b _ (fun x hx => key x (lt_of_le_of_lt ha hx.1))]; ring
  · unfold total
    exact hh R _ _ _ _ _ (fun x hx => key x hx.1)

/-- **C92 (no right-handed currents).** If all `C_R` vanish, the vector mode is rescaled by the same number as the
pseudoscalar mode, for every q², bin and the total, and `F_L` keeps its Standard Model value everywhere: a deviation
needs right-handed currents. -/
theorem C92_no_right_handed (nint : Nint) (hh : Homog nint) (d : Inp) (fv : ℝ → FFV) (c : Cpl) (hM : d.mB + d.m ≠ 0)
    (hsm : clSM d.Xt d.s2w d.alphaZ d.alpha ≠ 0) (hR : ∀ i j, c.CR i j = 0) (h0 : sumPlus d c ≠ 0) :
    let R := sumPlus d c / (3 * clSM d.Xt d.s2w d.alphaZ d.alpha ^ 2)
    (∀ q2, 0 < q2 → dbrV d fv c q2 = R * dbrV d fv Cpl.SM q2 ∧ flV d fv c q2 = flV d fv Cpl.SM q2) ∧
    (∀ a b, 0 ≤ a → binned nint (dbrV d fv c) a b = R * binned nint (dbrV d fv Cpl.SM) a b ∧
      flBin nint d fv c a b = flBin nint d fv Cpl.SM a b) ∧
    total nint d (dbrV d fv c) = R * total nint d (dbrV d fv Cpl.SM) := by
  intro R
  have hpm : sumMinus d c = sumPlus d c := by
    unfold sumMinus sumPlus; simp only [hR, sub_zero, add_zero]
  have hRv : R ≠ 0 := div_ne_zero h0 (by positivity)
  have k1 : ∀ q2, 0 < q2 → (∑ i, ∑ j, dGdq2 (jV d fv c q2 i j)) = R * ∑ i, ∑ j, dGdq2 (jV d fv Cpl.SM q2 i j) := by
    intro q2 hq
    rw [(C92_rates d (fun _ => ⟨0,0,0⟩) fv c q2 hq hM).2.1, (C92_rates d (fun _ => ⟨0,0,0⟩) fv Cpl.SM q2 hq hM).2.1,
      hpm, (sums_SM d).1, (sums_SM d).2]
    show _ = sumPlus d c / _ * _
    field_simp
  have k2 : ∀ q2, 0 < q2 → flNumV d fv c q2 = R * flNumV d fv Cpl.SM q2 := by
    intro q2 hq
    rw [(C92_rates d (fun _ => ⟨0,0,0⟩) fv c q2 hq hM).2.2, (C92_rates d (fun _ => ⟨0,0,0⟩) fv Cpl.SM q2 hq hM).2.2,
      hpm, (sums_SM d).2]
    show _ = sumPlus d c / _ * _
    field_simp
  have k3 : ∀ q2, 0 < q2 → dbrV d fv c q2 = R * dbrV d fv Cpl.SM q2 := by
    intro q2 hq; unfold dbrV; rw [k1 q2 hq]; split_ifs <;> ring
  have k4 : ∀ a b, 0 ≤ a → binned nint (dbrV d fv c) a b = R * binned nint (dbrV d fv Cpl.SM) a b := by
    intro a b ha; unfold binned
    rw [hh R _ _ a b _ (fun x hx => k3 x (lt_of_le_of_lt ha hx.1))]; ring
  have k5 : ∀ a b, 0 ≤ a → binned nint (flNumV d fv c) a b = R * binned nint (flNumV d fv Cpl.SM) a b := by
    intro a b ha; unfold binned
    rw [hh R _ _ a b _ (fun x hx => k2 x (lt_of_le_of_lt ha hx.1))]; ring
  refine ⟨fun q2 hq => ⟨k3 q2 hq, ?_⟩, fun a b ha => ⟨k4 a b ha, ?_⟩, hh R _ _ _ _ _ (fun x hx => k3 x hx.1)⟩
  · unfold flV
    rw [k1 q2 hq, k2 q2 hq]
    by_cases h : (∑ i, ∑ j, dGdq2 (jV d fv Cpl.SM q2 i j)) = 0
    · rw [if_pos (by rw [h, mul_zero]), if_pos h]
    · rw [if_neg (mul_ne_zero hRv h), if_neg h, mul_div_mul_left _ _ hRv]
  · unfold flBin
    rw [k4 a b ha, k5 a b ha, mul_div_assoc]
    by_cases h : binned nint (dbrV d fv Cpl.SM) a b / d.tauB = 0
    · rw [if_pos (by rw [h, mul_zero]), if_pos h]
    · rw [if_neg (mul_ne_zero hRv h), if_neg h, mul_div_mul_left _ _ hRv]

/-- **C92 (the ε–η relation).** For flavour-universal, flavour-diagonal couplings `C_L` (total) and `C_R`, with
`ε² = (|C_L|²+|C_R|²)/|C_L^SM|²` and `η = -Re(C_L C_R*)/(|C_L|²+|C_R|²)`: the pseudoscalar rate is `(1-2η) ε²` times the
Standard Model one, and the vector rate is linear in `η` with a coefficient between -2 and 2 that does not depend on
the couplings. -/
theorem C92_epsilon_eta (d : Inp) (fp : ℝ → FFP) (fv : ℝ → FFV) (q2 : ℝ) (hq : 0 < q2) (hB : 0 < d.mB)
    (hm : 0 ≤ d.m) (hsm : clSM d.Xt d.s2w d.alphaZ d.alpha ≠ 0) :
    ∃ k, |k| ≤ 2 ∧ ∀ l r : ℂ, 0 < ‖l‖ ^ 2 + ‖r‖ ^ 2 →
    let c : Cpl := ⟨fun i j => if i = j then l - (clSM d.Xt d.s2w d.alphaZ d.alpha : ℝ) else 0, fun i j => if i = j then r else 0⟩
    let eps2 := (‖l‖ ^ 2 + ‖r‖ ^ 2) / clSM d.Xt d.s2w d.alphaZ d.alpha ^ 2
    let eta := -(l * conj r).re / (‖l‖ ^ 2 + ‖r‖ ^ 2)
    dbrP d fp c q2 = (1 - 2 * eta) * eps2 * dbrP d fp Cpl.SM q2 ∧
    dbrV d fv c q2 = (1 + k * eta) * eps2 * dbrV d fv Cpl.SM q2 := by
  obtain ⟨p1, p2, p3, p4⟩ := phi_nn d fp fv q2 hB hq
  obtain ⟨k, hk, hkV⟩ : ∃ k, |k| ≤ 2 ∧ ∀ e : ℝ, (phi0 d fv q2 + phiPar d fv q2) * (1 + 2 * e) + phiPerp d fv q2 * (1 - 2 * e)
      = (1 + k * e) * (phi0 d fv q2 + phiPar d fv q2 + phiPerp d fv q2) := by
    by_cases hz : phi0 d fv q2 + phiPar d fv q2 + phiPerp d fv q2 = 0
    · refine ⟨0, by norm_num, fun e => ?_⟩
      have z1 : phi0 d fv q2 + phiPar d fv q2 = 0 := by linarith
      have z2 : phiPerp d fv q2 = 0 := by linarith
      rw [z1, z2]; ring
    · refine ⟨2 * (phi0 d fv q2 + phiPar d fv q2 - phiPerp d fv q2) / (phi0 d fv q2 + phiPar d fv q2 + phiPerp d fv q2), ?_,
        fun e => ?_⟩
      · have hp : 0 < phi0 d fv q2 + phiPar d fv q2 + phiPerp d fv q2 :=
          lt_of_le_of_ne (by positivity) (Ne.symm hz)
        rw [abs_div, abs_of_pos hp, div_le_iff₀ hp, abs_le]
        constructor <;> linarith
      · field_simp; ring
  refine ⟨k, hk, ?_⟩
  intro l r hlr c eps2 eta
  have hM : d.mB + d.m ≠ 0 := by linarith
  have hcl : ∀ i j, clTot d c i j = if i = j then l else 0 := by
    intro i j; unfold clTot; by_cases h : i = j <;> simp [c, h]
  have sp : sumPlus d c = 3 * ‖l + r‖ ^ 2 := by
    unfold sumPlus; simp only [hcl, c, Fin.sum_univ_three]; simp; ring
  have sm : sumMinus d c = 3 * ‖l - r‖ ^ 2 := by
    unfold sumMinus; simp only [hcl, c, Fin.sum_univ_three]; simp; ring
  have np : ‖l + r‖ ^ 2 = (1 - 2 * eta) * (‖l‖ ^ 2 + ‖r‖ ^ 2) := by
    show _ = (1 - 2 * (-(l * conj r).re / (‖l‖ ^ 2 + ‖r‖ ^ 2))) * (‖l‖ ^ 2 + ‖r‖ ^ 2)
    have : ‖l + r‖ ^ 2 = ‖l‖ ^ 2 + ‖r‖ ^ 2 + 2 * (l * conj r).re := by
      simp only [Complex.sq_norm]; exact normSq_add l r
    rw [this]; field_simp; ring
  have nm : ‖l - r‖ ^ 2 = (1 + 2 * eta) * (‖l‖ ^ 2 + ‖r‖ ^ 2) := by
    show _ = (1 + 2 * (-(l * conj r).re / (‖l‖ ^ 2 + ‖r‖ ^ 2))) * (‖l‖ ^ 2 + ‖r‖ ^ 2)
    have : ‖l - r‖ ^ 2 = ‖l‖ ^ 2 + ‖r‖ ^ 2 - 2 * (l * conj r).re := by
      simp only [Complex.sq_norm]; exact normSq_sub l r
    rw [this]; field_simp; ring
  obtain ⟨r1, r2, _⟩ := C92_rates d fp fv c q2 hq hM
  obtain ⟨t1, t2, _⟩ := C92_rates d fp fv Cpl.SM q2 hq hM
  have he : (‖l‖ ^ 2 + ‖r‖ ^ 2) = eps2 * clSM d.Xt d.s2w d.alphaZ d.alpha ^ 2 := by
    show _ = (‖l‖ ^ 2 + ‖r‖ ^ 2) / _ * _; field_simp
  constructor
  · have : (∑ i, ∑ j, dGdq2P (jP d fp c q2 i j)) = (1 - 2 * eta) * eps2 * ∑ i, ∑ j, dGdq2P (jP d fp Cpl.SM q2 i j) := by
      rw [r1, t1, sp, np, (sums_SM d).1, he]; ring
    unfold dbrP; rw [this]; split_ifs <;> ring
  · have : (∑ i, ∑ j, dGdq2 (jV d fv c q2 i j)) = (1 + k * eta) * eps2 * ∑ i, ∑ j, dGdq2 (jV d fv Cpl.SM q2 i j) := by
      rw [r2, t2, sp, sm, np, nm, (sums_SM d).1, (sums_SM d).2, he]
      linear_combination 3 * eps2 * clSM d.Xt d.s2w d.alphaZ d.alpha ^ 2 * hkV eta
    unfold dbrV; rw [this]; split_ifs <;> ring

/-- **C92 (scale independence).** Without new physics the branching ratios do not depend on the value of the running
`alpha_e` at the renormalization scale. -/
theorem C92_scale_independence (d : Inp) (fp : ℝ → FFP) (fv : ℝ → FFV) (q2 alpha' : ℝ) (hq : 0 < q2)
    (hM : d.mB + d.m ≠ 0) (h1 : d.alpha ≠ 0) (h2 : alpha' ≠ 0) :
    dbrP { d with alpha := alpha' } fp Cpl.SM q2 = dbrP d fp Cpl.SM q2 ∧
    dbrV { d with alpha := alpha' } fv Cpl.SM q2 = dbrV d fv Cpl.SM q2 := by
  have hk : ∀ a : ℝ, a ≠ 0 → ‖prefactor { d with alpha := a }‖ ^ 2 * clSM d.Xt d.s2w d.alphaZ a ^ 2
      = ‖prefactor { d with alpha := 1 }‖ ^ 2 * clSM d.Xt d.s2w d.alphaZ 1 ^ 2 := by
    intro a ha
    simp only [prefactor, norm_mul, norm_real, Real.norm_eq_abs, mul_pow, sq_abs, clSM, div_pow]
    field_simp
  have hk' := (hk alpha' h2).trans (hk d.alpha h1).symm
  have e1 : { d with alpha := d.alpha } = d := rfl
  rw [e1] at hk'
  have r := C92_rates { d with alpha := alpha' } fp fv Cpl.SM q2 hq hM
  have t := C92_rates d fp fv Cpl.SM q2 hq hM
  constructor
  · unfold dbrP
    rw [r.1, t.1, (sums_SM _).1, (sums_SM d).1]
    have : phiP { d with alpha := alpha' } fp q2 * (3 * clSM d.Xt d.s2w d.alphaZ alpha' ^ 2)
        = phiP d fp q2 * (3 * clSM d.Xt d.s2w d.alphaZ d.alpha ^ 2) := by
      unfold phiP
      linear_combination (4 / 3 * phaseSpace (2 ^ 9 * Real.pi ^ 3) q2 d.mB d.m 0 0 * lambdaK (d.mB ^ 2) (d.m ^ 2) q2
        * (fp q2).fp ^ 2 * 3) * hk'
    simp only [this]
  · unfold dbrV
    rw [r.2.1, t.2.1, (sums_SM _).1, (sums_SM d).1, (sums_SM _).2, (sums_SM d).2]
    have : (phi0 { d with alpha := alpha' } fv q2 + phiPar { d with alpha := alpha' } fv q2)
          * (3 * clSM d.Xt d.s2w d.alphaZ alpha' ^ 2)
          + phiPerp { d with alpha := alpha' } fv q2 * (3 * clSM d.Xt d.s2w d.alphaZ alpha' ^ 2)
        = (phi0 d fv q2 + phiPar d fv q2) * (3 * clSM d.Xt d.s2w d.alphaZ d.alpha ^ 2)
          + phiPerp d fv q2 * (3 * clSM d.Xt d.s2w d.alphaZ d.alpha ^ 2) := by
      unfold phi0 phiPar phiPerp
      linear_combination (16 / 3 * phaseSpace (2 ^ 9 * Real.pi ^ 3) q2 d.mB d.m 0 0 * 3
        * (16 * (d.mB * d.m) ^ 2 * (fv q2).A12 ^ 2 + q2 * (d.mB + d.m) ^ 2 * (fv q2).A1 ^ 2 / 2
          + q2 * lambdaK (d.mB ^ 2) (d.m ^ 2) q2 * (fv q2).V ^ 2 / (2 * (d.mB + d.m) ^ 2))) * hk'
    simp only [this]

/-- A concrete Standard Model input. -/
noncomputable def sample : Inp := ⟨5, 1, 1, false, 1, 1, 1, 1, 1, 1⟩

/-- **C92 (no kinematic guard).** Unlike the charged-lepton modes, nothing stops q² above the kinematic endpoint:
between the endpoint and `(m_B+m_P)²` the result is 0, above it the function returns a positive "branching ratio". -/
theorem C92_no_endpoint_guard :
    (∀ (d : Inp) (fp : ℝ → FFP) (c : Cpl) (q2 : ℝ), 0 < q2 → 0 ≤ d.m → 0 < d.mB → (d.mB - d.m) ^ 2 ≤ q2 → q2 ≤ (d.mB + d.m) ^ 2 →
      dbrP d fp c q2 = 0) ∧
    0 < dbrP sample (fun _ => ⟨1, 1, 1⟩) Cpl.SM 49 ∧ (sample.mB - sample.m) ^ 2 < 49 := by
  refine ⟨?_, ?_, by norm_num [sample]⟩
  · intro d fp c q2 hq hm hB h1 h2
    have hl : lambdaK (d.mB ^ 2) (d.m ^ 2) q2 = 0 := by
      unfold lambdaK
      split_ifs with h
      · rfl
      · have e : kallen (d.mB ^ 2) (d.m ^ 2) q2 = (q2 - (d.mB - d.m) ^ 2) * (q2 - (d.mB + d.m) ^ 2) := by
          unfold kallen; ring
        rw [e] at h ⊢
        nlinarith
    have := (C92_rates d fp (fun _ => ⟨0,0,0,0,0,0,0⟩) c q2 hq (by linarith)).1
    unfold dbrP
    rw [this]
    unfold phiP; rw [hl]; simp
  · have := (C92_rates sample (fun _ => ⟨1,1,1⟩) (fun _ => ⟨0,0,0,0,0,0,0⟩) Cpl.SM 49 (by norm_num) (by norm_num [sample])).1
    unfold dbrP
    rw [this, (sums_SM _).1]
    have hl : lambdaK ((5:ℝ) ^ 2) (1 ^ 2) 49 = 429 := by unfold lambdaK kallen; norm_num
    have hf : 0 < phaseSpace (2 ^ 9 * Real.pi ^ 3) 49 5 1 0 0 := by
      unfold phaseSpace
      rw [laGa0, hl]
      have := Real.pi_pos
      positivity
    have hp : prefactor sample ≠ 0 := by
      unfold prefactor sample
      have := Real.pi_pos
      refine mul_ne_zero (mul_ne_zero ?_ one_ne_zero) ?_
      · rw [ofReal_ne_zero]; positivity
      · rw [ofReal_ne_zero]; positivity
    have hn : 0 < ‖prefactor sample‖ := norm_pos_iff.mpr hp
    have hc : clSM sample.Xt sample.s2w sample.alphaZ sample.alpha = -1 := by simp [clSM, sample]
    rw [hc]
    simp only [phiP]
    have e1 : lambdaK (sample.mB ^ 2) (sample.m ^ 2) 49 = 429 := hl
    have e2 : phaseSpace (2 ^ 9 * Real.pi ^ 3) 49 sample.mB sample.m 0 0 = phaseSpace (2 ^ 9 * Real.pi ^ 3) 49 5 1 0 0 := rfl
    rw [e1, e2]
    simp only [sample, Bool.false_eq_true, if_false] at hn ⊢
    positivity

/-- Non-vacuity: the integral is a homogeneous integrator, and there are couplings with the hypotheses of the theorems. -/
example : Homog (fun f a b _ => ∫ x in Ioo a b, f x) ∧
    clSM sample.Xt sample.s2w sample.alphaZ sample.alpha ≠ 0 ∧
    sumPlus sample ⟨fun _ _ => 1, fun _ _ => 0⟩ ≠ 0 := by
  refine ⟨fun k f g a b e h => ?_, by norm_num [clSM, sample], ?_⟩
  · show ∫ x in Ioo a b, f x = k * ∫ x in Ioo a b, g x
    rw [setIntegral_congr_fun measurableSet_Ioo (fun x hx => h x hx), integral_const_mul]
  · simp [sumPlus, clTot, clSM, sample, Fin.sum_univ_three]
    norm_num

end Verif.Nunu
