import Verif.Physics.EnergyUnit
import Verif.Physics.Beta.Model
import Mathlib.Tactic.FieldSimp
import Mathlib.Tactic.Positivity
/-!
# The unit of energy: beta decay

Continues `EnergyUnit.lean`: `flavio/physics/betadecays/ft.py`, `flavio/physics/edms/common.py` (`proton_charges`).
-/
set_option linter.unusedVariables false
set_option linter.unusedSimpArgs false
namespace Verif.EnergyUnit
open Verif.Py Verif.Running Verif.Beta Complex

/-- The parameters in the new unit. `ddNSE` multiplies tabulated energies, which the source gives in a fixed unit, and is left
as it is. (Specification.) -/
noncomputable def betaPar (x : ℝ) (p : Beta.Par) : Beta.Par := { p with me := x * p.me, GF := p.GF / x ^ 2 }

theorem pyDiv_scale_left (k a b : ℝ) : pyDiv (k * a) b = (pyDiv a b).map (k * ·) := by
  unfold pyDiv
  split_ifs
  · rfl
  · show Except.ok _ = Except.ok _
    rw [mul_div_assoc]

theorem pyDiv_scale_right {k : ℝ} (hk : k ≠ 0) (a b : ℝ) : pyDiv a (k * b) = (pyDiv a b).map (k⁻¹ * ·) := by
  unfold pyDiv
  by_cases hb : b = 0
  · rw [if_pos hb, if_pos (by rw [hb, mul_zero])]; rfl
  · rw [if_neg hb, if_neg (mul_ne_zero hk hb)]
    show Except.ok _ = Except.ok _
    congr 1
    field_simp

theorem map_bind {A B C : Type} (v : Except PyErr A) (g : A → B) (f : B → Except PyErr C) : (v.map g >>= f) = v >>= fun a => f (g a) := by
  cases v <;> rfl

theorem fK_unit {x : ℝ} (hx : 0 < x) (me : ℝ) : fK (x * me) = (fK me).map ((x ^ 5)⁻¹ * ·) := by
  unfold fK
  rw [mul_pow, pyDiv_scale_right (pow_ne_zero 5 hx.ne')]

theorem betaPre_unit {x : ℝ} (hx : 0 < x) (p : Beta.Par) :
    ‖(((betaPar x p).GF / Real.sqrt 2 : ℝ) : ℂ) * (betaPar x p).Vud‖ ^ 2
      = (x ^ 4)⁻¹ * ‖((p.GF / Real.sqrt 2 : ℝ) : ℂ) * p.Vud‖ ^ 2 := by
  show ‖((p.GF / x ^ 2 / Real.sqrt 2 : ℝ) : ℂ) * p.Vud‖ ^ 2 = _
  simp only [norm_mul, mul_pow, Complex.norm_real, Real.norm_eq_abs, sq_abs]
  ring

theorem bind_scaled {A B C : Type} (v : Except PyErr A) (h : A → Except PyErr B) (g : B → C) (f : A → Except PyErr C)
    (hf : ∀ a, f a = (h a).map g) : (v >>= f) = (v >>= h).map g := by
  cases v with
  | error e => rfl
  | ok a => exact hf a

/-- **C165 (beta decay).** The corrected `Ft` values and the neutron lifetime are inverse energies, with the same exceptions;
the correlation coefficients of the neutron do not depend on the unit at all, and neither do the charges of the nucleon (a
ratio of hadron to quark masses). -/
theorem C165_beta {x : ℝ} (hx : 0 < x) (p : Beta.Par) (C : Coup) :
    (∀ name, ftSuper (betaPar x p) C name = (ftSuper p C name).map (· / x)) ∧
    (∀ meE, nTau (betaPar x p) C meE = (nTau p C meE).map (· / x)) ∧
    (∀ meE coeff, nCorr (betaPar x p) C meE coeff = nCorr p C meE coeff) ∧
    (∀ a s tu td mp mn mu md, protonCharges a s tu td (x * mp) (x * mn) (x * mu) (x * md) = protonCharges a s tu td mp mn mu md) := by
  have hx' := hx.ne'
  have h4 : (x ^ 4)⁻¹ ≠ 0 := inv_ne_zero (pow_ne_zero 4 hx')
  have E : ((x ^ 5)⁻¹ * ((x ^ 4)⁻¹)⁻¹ : ℝ) = x⁻¹ := by field_simp
  refine ⟨fun name => ?_, fun meE => ?_, fun meE coeff => rfl, fun a s tu td mp mn mu md => ?_⟩
  · unfold ftSuper
    cases hn : nuclei.lookup name with
    | none => rfl
    | some ZE =>
      obtain ⟨Z, meE⟩ := ZE
      simp only
      refine bind_scaled _ _ _ _ fun B => ?_
      cases hq : qEC.lookup name with
      | none => rfl
      | some q =>
        simp only
        rw [show (betaPar x p).me = x * p.me from rfl, fK_unit hx, map_bind]
        refine bind_scaled _ _ _ _ fun k => ?_
        rw [show (1 + (betaPar x p).ddRp * Z ^ 2 + (betaPar x p).ddNSA + (betaPar x p).ddNSE * q) * ((x ^ 5)⁻¹ * k)
          = (x ^ 5)⁻¹ * ((1 + p.ddRp * Z ^ 2 + p.ddNSA + p.ddNSE * q) * k) by
            show (1 + p.ddRp * Z ^ 2 + p.ddNSA + p.ddNSE * q) * _ = _
            ring, pyDiv_scale_left, map_bind]
        refine bind_scaled _ _ _ _ fun r1 => ?_
        rw [mul_assoc, pyDiv_scale_left, map_bind]
        refine bind_scaled _ _ _ _ fun r2 => ?_
        rw [betaPre_unit hx, pyDiv_scale_left, pyDiv_scale_right h4]
        cases pyDiv r2 (‖((p.GF / Real.sqrt 2 : ℝ) : ℂ) * p.Vud‖ ^ 2) with
        | error e => rfl
        | ok v =>
          show Except.ok ((x ^ 5)⁻¹ * ((x ^ 4)⁻¹⁻¹ * v)) = Except.ok (v / x)
          rw [← mul_assoc, E, inv_mul_eq_div]
  · unfold nTau
    simp only
    rw [show (betaPar x p).me = x * p.me from rfl, fK_unit hx, map_bind]
    refine bind_scaled _ _ _ _ fun k => ?_
    rw [pyDiv_scale_left, map_bind]
    refine bind_scaled _ _ _ _ fun r1 => ?_
    refine bind_scaled _ _ _ _ fun b => ?_
    rw [mul_assoc, pyDiv_scale_left, map_bind]
    refine bind_scaled _ _ _ _ fun r2 => ?_
    rw [betaPre_unit hx, pyDiv_scale_left, pyDiv_scale_right h4]
    cases pyDiv r2 (‖((p.GF / Real.sqrt 2 : ℝ) : ℂ) * p.Vud‖ ^ 2) with
    | error e => rfl
    | ok v =>
      show (pyDiv ((x ^ 5)⁻¹ * ((x ^ 4)⁻¹⁻¹ * v)) (Real.log 2) >>= fun r3 => pyDiv r3 p.fn >>= fun r4 => pyDiv r4 (1 + p.Rp)) = _
      rw [← mul_assoc, E, pyDiv_scale_left, map_bind]
      show _ = Except.map (· / x) (pyDiv v (Real.log 2) >>= fun r3 => pyDiv r3 p.fn >>= fun r4 => pyDiv r4 (1 + p.Rp))
      refine bind_scaled _ _ _ _ fun r3 => ?_
      rw [pyDiv_scale_left, map_bind]
      refine bind_scaled _ _ _ _ fun r4 => ?_
      rw [pyDiv_scale_left]
      congr 1
      funext y
      rw [inv_mul_eq_div]
  · have : pyDiv (x * mp + x * mn) (x * md + x * mu) = pyDiv (mp + mn) (md + mu) := by
      rw [← mul_add, ← mul_add, pyDiv_scale_left, pyDiv_scale_right hx']
      cases pyDiv (mp + mn) (md + mu) with
      | error e => rfl
      | ok v =>
        show Except.ok (x * (x⁻¹ * v)) = Except.ok v
        rw [← mul_assoc, mul_inv_cancel₀ hx', one_mul]
    unfold protonCharges
    rw [this]

end Verif.EnergyUnit
