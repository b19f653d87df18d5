import Mathlib.Analysis.Real.Sqrt
import Mathlib.Tactic.Linarith
import Mathlib.Tactic.Ring
import Mathlib.Tactic.Positivity
import Mathlib.Tactic.FieldSimp
import Mathlib.Tactic.LinearCombination
import Verif.Physics.Common
/-!
# Two-lepton kinematics shared by the angular coefficients (`flavio/physics/bdecays/angular.py`)
-/
set_option linter.unusedVariables false
namespace Verif.Angular
open Verif.Common

/-- `laGa = lambda_K(q2, ml1**2, ml2**2)`.  /repo/flavio/physics/bdecays/angular.py:49 and :205. -/
noncomputable def laGa (q2 ml1 ml2 : ℝ) : ℝ := lambdaK q2 (ml1 ^ 2) (ml2 ^ 2)

/-- `E1 = sqrt(ml1**2+laGa/(4 * q2))` (and `E2` with `ml2`).
/repo/flavio/physics/bdecays/angular.py:50-51 and :206-207. -/
noncomputable def energy (q2 ml1 ml2 m : ℝ) : ℝ := Real.sqrt (m ^ 2 + laGa q2 ml1 ml2 / (4 * q2))

/-- The phase-space prefactor `sqrt(laB)*sqrt(laGa)/(2**9 * pi**3 * mB**3 * q2)`, with the constant
`2**9 * pi**3` supplied by the caller.  /repo/flavio/physics/bdecays/angular.py:99 and :224. -/
noncomputable def phaseSpace (c q2 mB mV ml1 ml2 : ℝ) : ℝ :=
  Real.sqrt (lambdaK (mB ^ 2) (mV ^ 2) q2) * Real.sqrt (laGa q2 ml1 ml2) / (c * mB ^ 3 * q2)

theorem phaseSpace_nonneg (c q2 mB mV ml1 ml2 : ℝ) (hc : 0 < c) (hB : 0 < mB) (hq : 0 < q2) :
    0 ≤ phaseSpace c q2 mB mV ml1 ml2 := by
  unfold phaseSpace; positivity

/-- In the physical region the Källén function factorises and is not clipped. -/
theorem laGa_eq (q2 m1 m2 : ℝ) (h1 : 0 ≤ m1) (h2 : 0 ≤ m2) (h : (m1 + m2) ^ 2 ≤ q2) :
    laGa q2 m1 m2 = (q2 - (m1 + m2) ^ 2) * (q2 - (m1 - m2) ^ 2) := by
  unfold laGa lambdaK
  have e : kallen q2 (m1 ^ 2) (m2 ^ 2) = (q2 - (m1 + m2) ^ 2) * (q2 - (m1 - m2) ^ 2) := by
    unfold kallen; ring
  have hx : (m1 - m2) ^ 2 ≤ q2 := by nlinarith [mul_nonneg h1 h2]
  have : 0 ≤ kallen q2 (m1 ^ 2) (m2 ^ 2) := by
    rw [e]; exact mul_nonneg (by linarith) (by linarith)
  rw [if_neg (not_lt.mpr this), e]

theorem laGa_nonneg (q2 m1 m2 : ℝ) : 0 ≤ laGa q2 m1 m2 := by
  unfold laGa lambdaK
  split_ifs with h
  · exact le_rfl
  · exact not_lt.mp h

/-- All the kinematic functions of the code are products of four numbers `u w u' w'` (square roots of
`E1 E2 ± m1 m2 ± p²`). -/
theorem kinematics (q2 m1 m2 : ℝ) (h1 : 0 ≤ m1) (h2 : 0 ≤ m2) (hq : 0 < q2) (h : (m1 + m2) ^ 2 ≤ q2) :
    ∃ u w u' w' : ℝ,
      energy q2 m1 m2 m1 * energy q2 m1 m2 m2 = (u ^ 2 + w ^ 2 + u' ^ 2 + w' ^ 2) / 4 ∧
      m1 * m2 = (u ^ 2 + w ^ 2 - u' ^ 2 - w' ^ 2) / 4 ∧
      laGa q2 m1 m2 / q2 = 2 * (u ^ 2 - w ^ 2) ∧
      u ^ 2 - w ^ 2 = u' ^ 2 - w' ^ 2 ∧
      m1 * energy q2 m1 m2 m2 + m2 * energy q2 m1 m2 m1 = u * w ∧
      m1 * energy q2 m1 m2 m2 - m2 * energy q2 m1 m2 m1 = u' * w' ∧
      Real.sqrt (laGa q2 m1 m2) = 2 * (u * u') ∧
      Real.sqrt (laGa q2 m1 m2) * ((m1 ^ 2 - m2 ^ 2) / q2) = 2 * (w * w') ∧
      Real.sqrt (laGa q2 m1 m2) * ((m1 + m2) / Real.sqrt q2) = 2 * (w * u') ∧
      Real.sqrt (laGa q2 m1 m2) * ((m1 - m2) / Real.sqrt q2) = 2 * (u * w') := by
  set Q := Real.sqrt q2 with hQ
  have hQ0 : 0 < Q := Real.sqrt_pos.mpr hq
  have hQ2 : Q ^ 2 = q2 := Real.sq_sqrt hq.le
  set E1 := energy q2 m1 m2 m1 with hE1
  set E2 := energy q2 m1 m2 m2 with hE2
  have hx : (m1 - m2) ^ 2 ≤ q2 := by nlinarith [mul_nonneg h1 h2]
  have hL := laGa_eq q2 m1 m2 h1 h2 h
  have hmm : m1 + m2 ≤ Q := by
    rw [hQ]; exact Real.le_sqrt_of_sq_le h
  -- closed forms of the energies
  have e1 : E1 = (q2 + m1 ^ 2 - m2 ^ 2) / (2 * Q) := by
    rw [hE1]; unfold energy
    rw [hL]
    have : m1 ^ 2 + (q2 - (m1 + m2) ^ 2) * (q2 - (m1 - m2) ^ 2) / (4 * q2)
        = ((q2 + m1 ^ 2 - m2 ^ 2) / (2 * Q)) ^ 2 := by
      rw [div_pow, mul_pow, hQ2]; field_simp; ring
    rw [this]
    refine Real.sqrt_sq (div_nonneg ?_ (by positivity))
    nlinarith [mul_nonneg h1 h2]
  have e2 : E2 = (q2 + m2 ^ 2 - m1 ^ 2) / (2 * Q) := by
    rw [hE2]; unfold energy
    rw [hL]
    have : m2 ^ 2 + (q2 - (m1 + m2) ^ 2) * (q2 - (m1 - m2) ^ 2) / (4 * q2)
        = ((q2 + m2 ^ 2 - m1 ^ 2) / (2 * Q)) ^ 2 := by
      rw [div_pow, mul_pow, hQ2]; field_simp; ring
    rw [this]
    refine Real.sqrt_sq (div_nonneg ?_ (by positivity))
    nlinarith [mul_nonneg h1 h2]
  -- rational roots: work with s± = sqrt(Q ± ...) 
  set a := Real.sqrt (q2 - (m1 - m2) ^ 2) with ha
  set b := Real.sqrt (q2 - (m1 + m2) ^ 2) with hb
  have ha2 : a ^ 2 = q2 - (m1 - m2) ^ 2 := Real.sq_sqrt (by linarith)
  have hb2 : b ^ 2 = q2 - (m1 + m2) ^ 2 := Real.sq_sqrt (by linarith)
  have hsq : Real.sqrt (laGa q2 m1 m2) = a * b := by
    rw [hL, mul_comm, Real.sqrt_mul (by linarith)]
  have hr2 : (Real.sqrt 2) ^ 2 = 2 := Real.sq_sqrt (by norm_num)
  have hr0 : Real.sqrt 2 ≠ 0 := by positivity
  have hQn : Q ≠ 0 := hQ0.ne'
  set r := Real.sqrt 2 with hr
  have hri : (1 / r) ^ 2 = 1 / 2 := by rw [div_pow, hr2]; norm_num
  refine ⟨a / r, a * (m1 + m2) / (Q * r), b / r, b * (m1 - m2) / (Q * r), ?_, ?_, ?_, ?_, ?_, ?_, ?_, ?_, ?_, ?_⟩
  all_goals (try rw [hsq]); (try rw [hL]); (try rw [e1, e2])
  · rw [show (a / r) ^ 2 = a ^ 2 * (1 / r) ^ 2 by field_simp, show (b / r) ^ 2 = b ^ 2 * (1 / r) ^ 2 by field_simp,
      show (a * (m1 + m2) / (Q * r)) ^ 2 = a ^ 2 * (m1 + m2) ^ 2 / Q ^ 2 * (1 / r) ^ 2 by field_simp,
      show (b * (m1 - m2) / (Q * r)) ^ 2 = b ^ 2 * (m1 - m2) ^ 2 / Q ^ 2 * (1 / r) ^ 2 by field_simp, hri, ha2, hb2,
      show (q2 + m1 ^ 2 - m2 ^ 2) / (2 * Q) * ((q2 + m2 ^ 2 - m1 ^ 2) / (2 * Q))
        = (q2 + m1 ^ 2 - m2 ^ 2) * (q2 + m2 ^ 2 - m1 ^ 2) / (4 * Q ^ 2) by field_simp; ring, hQ2]
    field_simp; ring
  · rw [show (a / r) ^ 2 = a ^ 2 * (1 / r) ^ 2 by field_simp, show (b / r) ^ 2 = b ^ 2 * (1 / r) ^ 2 by field_simp,
      show (a * (m1 + m2) / (Q * r)) ^ 2 = a ^ 2 * (m1 + m2) ^ 2 / Q ^ 2 * (1 / r) ^ 2 by field_simp,
      show (b * (m1 - m2) / (Q * r)) ^ 2 = b ^ 2 * (m1 - m2) ^ 2 / Q ^ 2 * (1 / r) ^ 2 by field_simp, hri, ha2, hb2,
      hQ2]
    field_simp; ring
  · rw [show (a / r) ^ 2 = a ^ 2 * (1 / r) ^ 2 by field_simp,
      show (a * (m1 + m2) / (Q * r)) ^ 2 = a ^ 2 * (m1 + m2) ^ 2 / Q ^ 2 * (1 / r) ^ 2 by field_simp, hri, ha2, hQ2]
    field_simp
  · rw [show (a / r) ^ 2 = a ^ 2 * (1 / r) ^ 2 by field_simp, show (b / r) ^ 2 = b ^ 2 * (1 / r) ^ 2 by field_simp,
      show (a * (m1 + m2) / (Q * r)) ^ 2 = a ^ 2 * (m1 + m2) ^ 2 / Q ^ 2 * (1 / r) ^ 2 by field_simp,
      show (b * (m1 - m2) / (Q * r)) ^ 2 = b ^ 2 * (m1 - m2) ^ 2 / Q ^ 2 * (1 / r) ^ 2 by field_simp, hri, ha2, hb2,
      hQ2]
    field_simp
  · rw [show a / r * (a * (m1 + m2) / (Q * r)) = a ^ 2 * (m1 + m2) / Q * (1 / r) ^ 2 by field_simp, hri, ha2]
    field_simp; ring
  · rw [show b / r * (b * (m1 - m2) / (Q * r)) = b ^ 2 * (m1 - m2) / Q * (1 / r) ^ 2 by field_simp, hri, hb2]
    field_simp; ring
  · rw [show a / r * (b / r) = a * b * (1 / r) ^ 2 by field_simp, hri]; ring
  · rw [show a * (m1 + m2) / (Q * r) * (b * (m1 - m2) / (Q * r))
      = a * b * ((m1 + m2) * (m1 - m2)) / Q ^ 2 * (1 / r) ^ 2 by field_simp, hri, hQ2]
    field_simp; ring
  · rw [show a * (m1 + m2) / (Q * r) * (b / r) = a * b * (m1 + m2) / Q * (1 / r) ^ 2 by field_simp, hri]
    field_simp
  · rw [show a / r * (b * (m1 - m2) / (Q * r)) = a * b * (m1 - m2) / Q * (1 / r) ^ 2 by field_simp, hri]
    field_simp

end Verif.Angular
