import Mathlib.Analysis.Real.Pi.Bounds
import Mathlib.Tactic.FieldSimp
import Mathlib.Tactic.Linarith

/-!
# `flavio/physics/units.py`

The unit constants of flavio as real numbers (floating-point rounding is not
modelled).  The whole module is modelled, line by line.
-/

namespace Verif.Units

noncomputable section

/-- `flavio/physics/units.py` line 6: the elementary charge in coulomb. (Specification.) -/
def e_SI : ℝ := 1.602176634e-19
/-- `flavio/physics/units.py` line 7: Planck's constant in joule seconds. (Specification.) -/
def h_SI : ℝ := 6.62607015e-34
/-- `flavio/physics/units.py` line 8: the speed of light in metre per second. (Specification.) -/
def c_SI : ℝ := 299792458

/-- `flavio/physics/units.py` line 11. (Specification.) -/
def T : ℝ := 1e12
/-- `flavio/physics/units.py` line 12. (Specification.) -/
def G : ℝ := 1e9
/-- `flavio/physics/units.py` line 13. (Specification.) -/
def M : ℝ := 1e6
/-- `flavio/physics/units.py` line 14. (Specification.) -/
def k : ℝ := 1e3
/-- `flavio/physics/units.py` line 15. (Specification.) -/
def milli : ℝ := 1e-3
/-- `flavio/physics/units.py` line 16. (Specification.) -/
def micro : ℝ := 1e-6
/-- `flavio/physics/units.py` line 17. (Specification.) -/
def n : ℝ := 1e-9
/-- `flavio/physics/units.py` line 18. (Specification.) -/
def p : ℝ := 1e-12
/-- `flavio/physics/units.py` line 19. (Specification.) -/
def f : ℝ := 1e-15

/-- `flavio/physics/units.py` line 23. (Specification.) -/
def GeV : ℝ := 1
/-- `flavio/physics/units.py` line 24. (Specification.) -/
def eV : ℝ := GeV / G
/-- `flavio/physics/units.py` line 25. (Specification.) -/
def keV : ℝ := k * eV
/-- `flavio/physics/units.py` line 26. (Specification.) -/
def MeV : ℝ := M * eV
/-- `flavio/physics/units.py` line 27. (Specification.) -/
def TeV : ℝ := T * eV

/-- `flavio/physics/units.py` line 29. (Specification.) -/
def hbar : ℝ := 1
/-- `flavio/physics/units.py` line 30. (Specification.) -/
def h : ℝ := hbar / (2 * Real.pi)

/-- `flavio/physics/units.py` line 33: one joule in GeV. (Specification.) -/
def J : ℝ := eV / e_SI
/-- `flavio/physics/units.py` line 35: one second in 1/GeV. (Specification.) -/
def s : ℝ := 1 / (J * h_SI / (2 * Real.pi))
/-- `flavio/physics/units.py` line 37: one metre in 1/GeV. (Specification.) -/
def meter : ℝ := s / c_SI

/-- `flavio/physics/units.py` line 39. (Specification.) -/
def ms : ℝ := milli * s
/-- `flavio/physics/units.py` line 40. (Specification.) -/
def ns : ℝ := n * s
/-- `flavio/physics/units.py` line 41. (Specification.) -/
def ps : ℝ := p * s

/-- `flavio/physics/units.py` line 43. (Specification.) -/
def mm : ℝ := milli * meter
/-- `flavio/physics/units.py` line 44. (Specification.) -/
def nm : ℝ := n * meter
/-- `flavio/physics/units.py` line 45. (Specification.) -/
def pm : ℝ := p * meter
/-- `flavio/physics/units.py` line 46. (Specification.) -/
def fm : ℝ := f * meter

/-! ## Specification

A quantity is measured in SI units as a number times a product of powers of
joule, metre and second; the same quantity in natural units (ħ = c = 1, powers
of GeV) must satisfy the same physical laws with ħ and c replaced by one. -/

/-- The 2019 SI values (CODATA): elementary charge, Planck's constant, speed of
light.  Written independently of the model, as exact fractions. (Specification.) -/
def eSpec : ℝ := 1602176634 / 10 ^ 28
/-- see `eSpec` (Specification.) -/
def hSpec : ℝ := 662607015 / 10 ^ 42
/-- see `eSpec` (Specification.) -/
def cSpec : ℝ := 299792458

theorem e_eq : e_SI = eSpec := by unfold e_SI eSpec; norm_num
theorem h_eq : h_SI = hSpec := by unfold h_SI hSpec; norm_num
theorem c_eq : c_SI = cSpec := rfl

theorem eSpec_pos : 0 < eSpec := by unfold eSpec; norm_num
theorem hSpec_pos : 0 < hSpec := by unfold hSpec; norm_num
theorem cSpec_pos : 0 < cSpec := by unfold cSpec; norm_num

theorem J_pos : 0 < J := by
  unfold J eV GeV G e_SI; norm_num

theorem s_pos : 0 < s := by
  unfold s
  have := Real.pi_pos
  have := J_pos
  have := hSpec_pos
  rw [h_eq]; positivity

theorem meter_pos : 0 < meter := by
  unfold meter
  have := s_pos
  have := cSpec_pos
  rw [c_eq]; positivity

theorem J_s : J * s * hSpec = 2 * Real.pi := by
  unfold s
  have := Real.pi_pos.ne'
  have := J_pos.ne'
  have := hSpec_pos.ne'
  rw [h_eq]; field_simp

/-- **C144 (light).** A distance of `x` metres is travelled by light in `t`
seconds exactly when the two converted values are equal: `c = 1`. -/
theorem C144_light (x t : ℝ) : x = cSpec * t ↔ x * meter = t * s := by
  have hs := s_pos.ne'
  have hc := cSpec_pos.ne'
  unfold meter
  rw [c_eq]
  constructor
  · rintro rfl; field_simp
  · intro hx
    field_simp at hx
    linarith

/-- **C144 (angular frequency).** An energy of `E` joule belongs to an angular
frequency (or a decay width to a rate) of `w` per second exactly when the
converted values are equal: `E = ħ ω` with `ħ = 1`. -/
theorem C144_angular_frequency (E w : ℝ) :
    E = hSpec / (2 * Real.pi) * w ↔ E * J = hbar * (w / s) := by
  have hs := s_pos.ne'
  have hp := Real.pi_pos.ne'
  have hh := hSpec_pos.ne'
  have key := J_s
  have hJ : J = 2 * Real.pi / (s * hSpec) := by
    field_simp; linarith
  unfold hbar
  rw [hJ]
  constructor
  · rintro rfl; field_simp
  · intro hx
    field_simp at hx ⊢
    linarith

/-- **C144 (electronvolt).** `E` joule are `V` electronvolt exactly when the
converted values agree. -/
theorem C144_electronvolt (E V : ℝ) : E = eSpec * V ↔ E * J = V * eV := by
  have he := eSpec_pos.ne'
  have hv : eV ≠ 0 := by unfold eV GeV G; norm_num
  unfold J
  rw [e_eq]
  constructor
  · rintro rfl; field_simp
  · intro hx
    field_simp at hx
    linarith

/-- **C144 (prefixes).** The prefixed units are the decimal multiples of the
electronvolt, the second and the metre that their names say, and the energy
unit is the GeV. -/
theorem C144_prefixes :
    GeV = 1 ∧ eV = GeV / 10 ^ 9 ∧ keV = 10 ^ 3 * eV ∧ MeV = 10 ^ 6 * eV
      ∧ GeV = 10 ^ 9 * eV ∧ TeV = 10 ^ 12 * eV
      ∧ 10 ^ 3 * ms = s ∧ 10 ^ 9 * ns = s ∧ 10 ^ 12 * ps = s
      ∧ 10 ^ 3 * mm = meter ∧ 10 ^ 9 * nm = meter ∧ 10 ^ 12 * pm = meter
      ∧ 10 ^ 15 * fm = meter
      ∧ T * p = 1 ∧ G * n = 1 ∧ M * micro = 1 ∧ k * milli = 1 ∧ 10 ^ 15 * f = 1 := by
  refine ⟨rfl, ?_, ?_, ?_, ?_, ?_, ?_, ?_, ?_, ?_, ?_, ?_, ?_, ?_, ?_, ?_, ?_, ?_⟩
  case refine_1 => unfold eV G; norm_num
  case refine_2 => unfold keV k; norm_num
  case refine_3 => unfold MeV M; norm_num
  case refine_4 => unfold eV GeV G; norm_num
  case refine_5 => unfold TeV T; norm_num
  case refine_6 => unfold ms milli; ring
  case refine_7 => unfold ns n; ring
  case refine_8 => unfold ps p; ring
  case refine_9 => unfold mm milli; ring
  case refine_10 => unfold nm n; ring
  case refine_11 => unfold pm p; ring
  case refine_12 => unfold fm f; ring
  case refine_13 => unfold T p; norm_num
  case refine_14 => unfold G n; norm_num
  case refine_15 => unfold M micro; norm_num
  case refine_16 => unfold k milli; norm_num
  case refine_17 => unfold f; norm_num

theorem fm_eq : fm = 1602176634 * 2 * Real.pi * 10 ^ 8 / (662607015 * 299792458) := by
  unfold fm meter s J eV GeV G f
  rw [e_eq, h_eq, c_eq]
  unfold eSpec hSpec cSpec
  have := Real.pi_pos.ne'
  field_simp
  norm_num

/-- **C144 (the familiar number).** ħc is 197.327 MeV fm and ħ is
6.582 · 10⁻²² MeV s, to the digits given. -/
theorem C144_hbarc :
    (197.3269 * MeV * fm < 1 ∧ 1 < 197.3270 * MeV * fm)
      ∧ (6.5821e-22 * MeV * s < 1 ∧ 1 < 6.5822e-22 * MeV * s) := by
  have h1 := Real.pi_gt_d20
  have h2 := Real.pi_lt_d20
  have hM : MeV = 1 / 1000 := by unfold MeV M eV GeV G; norm_num
  have hs : s = fm * (299792458 * 10 ^ 15) := by
    unfold fm meter f
    rw [c_eq]; unfold cSpec
    ring
  rw [hs, hM, fm_eq]
  refine ⟨⟨?_, ?_⟩, ?_, ?_⟩
  all_goals
    norm_num
    linarith

/-- **C144 (any unit).** Converting is consistent for every product of powers:
two SI expressions `x J^a m^b s^c` and `y J^a' m^b' s^c'` that agree as
multiples of the same natural power of GeV up to the SI values of ħ and c agree
after conversion.  Here: `J^a m^b s^c` in natural units is
`J^(a-b-c) · (ħ_SI)^(b+c) · c_SI^(-b)`. -/
theorem C144_any_unit (a b c : ℤ) :
    J ^ a * meter ^ b * s ^ c
      = J ^ (a - b - c) * (2 * Real.pi / hSpec) ^ (b + c) * cSpec ^ (-b) := by
  have hs := s_pos.ne'
  have hJ := J_pos.ne'
  have hp := Real.pi_pos.ne'
  have hh := hSpec_pos.ne'
  have hc := cSpec_pos.ne'
  have e1 : s = J⁻¹ * (2 * Real.pi / hSpec) := by
    have := J_s
    field_simp; linarith
  have hq : 2 * Real.pi / hSpec ≠ 0 := by positivity
  unfold meter
  rw [c_eq, div_zpow, e1, mul_zpow, mul_zpow, zpow_sub₀ hJ, zpow_sub₀ hJ, zpow_add₀ hq,
    zpow_neg, inv_zpow, inv_zpow]
  field_simp

/-- The claim for Planck's constant that would complete the property: `E = h ν`
with the constant `h` of the module. (Specification.) -/
def PlanckClaim : Prop := ∀ E nu : ℝ, E = hSpec * nu ↔ E * J = h * (nu / s)

/-- **C144 (Planck's constant, finding).** The constant `h` of the module is
ħ/(2π) instead of 2πħ: `E = h ν` does not hold with it.  The energy of every
quantum with ν ≠ 0 is too small by exactly (2π)². -/
theorem C144_planck_false :
    ¬ PlanckClaim ∧ ∀ E nu : ℝ, E = hSpec * nu → E * J = (2 * Real.pi) ^ 2 * (h * (nu / s)) := by
  have hs := s_pos.ne'
  have hp := Real.pi_pos.ne'
  have hh := hSpec_pos.ne'
  have gen : ∀ E nu : ℝ, E = hSpec * nu →
      E * J = (2 * Real.pi) ^ 2 * (h * (nu / s)) := by
    rintro E nu rfl
    have key := J_s
    unfold h hbar
    have hJ : J = 2 * Real.pi / (s * hSpec) := by
      field_simp; linarith
    rw [hJ]; field_simp
  refine ⟨fun hc => ?_, gen⟩
  have h1 := (hc (hSpec * 1) 1).1 rfl
  have h2 := gen (hSpec * 1) 1 rfl
  rw [h1] at h2
  have h3 : h * (1 / s) ≠ 0 := by unfold h hbar; positivity
  have h4 : (2 * Real.pi) ^ 2 = 1 :=
    mul_right_cancel₀ h3 (h2.symm.trans (one_mul _).symm)
  nlinarith [Real.pi_gt_three]

/-- A concrete case: light needs one second for 299792458 metres. -/
example : (299792458 : ℝ) * meter = 1 * s :=
  (C144_light _ _).1 (by unfold cSpec; norm_num)

end

end Verif.Units
