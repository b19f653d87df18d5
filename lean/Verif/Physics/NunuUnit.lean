import Verif.Physics.AngularUnit
import Verif.Physics.Angular.Nunu
import Mathlib.Tactic.FieldSimp
import Mathlib.Tactic.Positivity
/-!
# The unit of energy: `B → P ν ν̄` and `B → V ν ν̄`

Continues `AngularUnit.lean`: `flavio/physics/bdecays/bpnunu.py`, `bvnunu.py`. These functions pass a hard-coded `mb = 4` (GeV) to the
angular coefficients, so it is not immediate that their results do not depend on the unit.
-/
set_option linter.unusedVariables false
set_option linter.unusedSimpArgs false
namespace Verif.EnergyUnit
open Verif.Common Verif.Angular Complex

/-- The inputs in the new unit (specification). -/
noncomputable def nunu (x : ℝ) (d : Nunu.Inp) : Nunu.Inp where
  mB := x * d.mB
  m := x * d.m
  tauB := d.tauB / x
  half := d.half
  GF := d.GF / x ^ 2
  xit := d.xit
  alpha := d.alpha
  alphaZ := d.alphaZ
  Xt := d.Xt
  s2w := d.s2w

/-- Form factors as functions of `q2` in the new unit (specification). -/
noncomputable def ffUnit {F : Type} (x : ℝ) (ff : ℝ → F) : ℝ → F := fun q2 => ff (q2 / x ^ 2)

theorem ffUnit_eq {F : Type} {x : ℝ} (hx : 0 < x) (ff : ℝ → F) (q2 : ℝ) : ffUnit x ff (x ^ 2 * q2) = ff q2 := by
  unfold ffUnit; rw [mul_div_cancel_left₀ _ (pow_ne_zero 2 hx.ne')]

theorem nunu_prefactor {x : ℝ} (hx : 0 < x) (d : Nunu.Inp) :
    ‖Nunu.prefactor (nunu x d)‖ ^ 2 = ‖Nunu.prefactor d‖ ^ 2 / x ^ 4 := by
  have h : Nunu.prefactor (nunu x d) = Nunu.prefactor d / ((x ^ 2 : ℝ) : ℂ) := by
    unfold Nunu.prefactor nunu
    push_cast; ring
  rw [h, norm_div, Complex.norm_real, Real.norm_eq_abs, abs_of_pos (by positivity), div_pow]
  ring

theorem ps0 {x : ℝ} (hx : 0 < x) (c q2 a b : ℝ) :
    phaseSpace c (x ^ 2 * q2) (x * a) (x * b) 0 0 = x⁻¹ * phaseSpace c q2 a b 0 0 := by
  have := phaseSpace_scale hx c q2 a b 0 0
  simpa using this

theorem phi_unit {x : ℝ} (hx : 0 < x) (d : Nunu.Inp) (fp : ℝ → FFP) (fv : ℝ → FFV) (q2 : ℝ) (hM : d.mB + d.m ≠ 0) :
    Nunu.phiP (nunu x d) (ffUnit x fp) (x ^ 2 * q2) = x⁻¹ * Nunu.phiP d fp q2 ∧
    Nunu.phi0 (nunu x d) (ffUnit x fv) (x ^ 2 * q2) = x⁻¹ * Nunu.phi0 d fv q2 ∧
    Nunu.phiPar (nunu x d) (ffUnit x fv) (x ^ 2 * q2) = x⁻¹ * Nunu.phiPar d fv q2 ∧
    Nunu.phiPerp (nunu x d) (ffUnit x fv) (x ^ 2 * q2) = x⁻¹ * Nunu.phiPerp d fv q2 := by
  have hx' := hx.ne'
  have e1 : (nunu x d).mB = x * d.mB := rfl
  have e2 : (nunu x d).m = x * d.m := rfl
  refine ⟨?_, ?_, ?_, ?_⟩
  · unfold Nunu.phiP; rw [ffUnit_eq hx, nunu_prefactor hx, e1, e2, ps0 hx, laB_scale hx]; field_simp
  · unfold Nunu.phi0; rw [ffUnit_eq hx, nunu_prefactor hx, e1, e2, ps0 hx]; field_simp
  · unfold Nunu.phiPar; rw [ffUnit_eq hx, nunu_prefactor hx, e1, e2, ps0 hx]; field_simp
  · unfold Nunu.phiPerp; rw [ffUnit_eq hx, nunu_prefactor hx, e1, e2, ps0 hx, laB_scale hx]
    rw [show x * d.mB + x * d.m = x * (d.mB + d.m) by ring]
    generalize d.mB + d.m = M at hM
    field_simp

/-- **C165 (B → P ν ν̄, B → V ν ν̄).** The differential branching ratios summed over the neutrinos are inverse squared
energies, the longitudinal fraction is a pure number, and so are the integrals of the branching ratios over a bin: the
hard-coded `mb = 4` in the source has no effect. -/
theorem C165_nunu {x : ℝ} (hx : 0 < x) (d : Nunu.Inp) (fp : ℝ → FFP) (fv : ℝ → FFV) (c : Nunu.Cpl) (hM : d.mB + d.m ≠ 0) :
    (∀ q2, 0 < q2 →
      Nunu.dbrP (nunu x d) (ffUnit x fp) c (x ^ 2 * q2) = Nunu.dbrP d fp c q2 / x ^ 2 ∧
      Nunu.dbrV (nunu x d) (ffUnit x fv) c (x ^ 2 * q2) = Nunu.dbrV d fv c q2 / x ^ 2 ∧
      Nunu.flV (nunu x d) (ffUnit x fv) c (x ^ 2 * q2) = Nunu.flV d fv c q2) ∧
    (∀ lo hi, 0 ≤ lo → 0 ≤ hi →
      (∫ q2 in (x ^ 2 * lo)..(x ^ 2 * hi), Nunu.dbrP (nunu x d) (ffUnit x fp) c q2) = ∫ q2 in lo..hi, Nunu.dbrP d fp c q2) ∧
    (∀ lo hi, 0 ≤ lo → 0 ≤ hi →
      (∫ q2 in (x ^ 2 * lo)..(x ^ 2 * hi), Nunu.dbrV (nunu x d) (ffUnit x fv) c q2) = ∫ q2 in lo..hi, Nunu.dbrV d fv c q2) := by
  have hx' := hx.ne'
  have hM' : (nunu x d).mB + (nunu x d).m ≠ 0 := by
    show x * d.mB + x * d.m ≠ 0
    rw [← mul_add]; exact mul_ne_zero hx' hM
  have hp : Nunu.sumPlus (nunu x d) c = Nunu.sumPlus d c := rfl
  have hm : Nunu.sumMinus (nunu x d) c = Nunu.sumMinus d c := rfl
  have key : ∀ q2, 0 < q2 →
      Nunu.dbrP (nunu x d) (ffUnit x fp) c (x ^ 2 * q2) = Nunu.dbrP d fp c q2 / x ^ 2 ∧
      Nunu.dbrV (nunu x d) (ffUnit x fv) c (x ^ 2 * q2) = Nunu.dbrV d fv c q2 / x ^ 2 ∧
      Nunu.flV (nunu x d) (ffUnit x fv) c (x ^ 2 * q2) = Nunu.flV d fv c q2 := by
    intro q2 hq
    obtain ⟨r1, r2, r3⟩ := Nunu.C92_rates d fp fv c q2 hq hM
    obtain ⟨s1, s2, s3⟩ := Nunu.C92_rates (nunu x d) (ffUnit x fp) (ffUnit x fv) c (x ^ 2 * q2) (by positivity) hM'
    obtain ⟨p1, p2, p3, p4⟩ := phi_unit hx d fp fv q2 hM
    rw [p1, hp] at s1
    rw [p2, p3, p4, hp, hm] at s2
    rw [p2, hm] at s3
    have t2 : (∑ i, ∑ j, dGdq2 (Nunu.jV (nunu x d) (ffUnit x fv) c (x ^ 2 * q2) i j))
        = x⁻¹ * ∑ i, ∑ j, dGdq2 (Nunu.jV d fv c q2 i j) := by rw [s2, r2]; ring
    refine ⟨?_, ?_, ?_⟩
    · unfold Nunu.dbrP
      rw [s1, r1]
      show (if d.half = true then d.tauB / x * _ / 2 else d.tauB / x * _) = _
      split_ifs <;> field_simp
    · unfold Nunu.dbrV
      rw [t2]
      show (if d.half = true then d.tauB / x * _ / 2 else d.tauB / x * _) = _
      split_ifs <;> field_simp
    · unfold Nunu.flV
      rw [t2, s3, r3]
      by_cases h : (∑ i, ∑ j, dGdq2 (Nunu.jV d fv c q2 i j)) = 0
      · rw [if_pos h, if_pos (by rw [h, mul_zero])]
      · rw [if_neg h, if_neg (mul_ne_zero (inv_ne_zero hx') h), mul_assoc, mul_div_mul_left _ _ (inv_ne_zero hx')]
  exact ⟨key, fun lo hi hlo hhi => bin_unit hx _ _ (fun q2 hq => (key q2 hq).1) lo hi hlo hhi,
    fun lo hi hlo hhi => bin_unit hx _ _ (fun q2 hq => (key q2 hq).2.1) lo hi hlo hhi⟩

end Verif.EnergyUnit
