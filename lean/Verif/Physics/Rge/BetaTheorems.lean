import Verif.Physics.Rge.Model
import Verif.Physics.RunningTheorems
import Verif.Physics.Mixing.Common
import Mathlib.Analysis.SpecialFunctions.Log.Deriv
set_option linter.unusedVariables false
set_option linter.unusedSimpArgs false
namespace Verif.Rge
open Verif.Py Verif.Running

theorem div_ok {a b : ℝ} (h : b ≠ 0) : pyDiv a b = .ok (a / b) := by simp [pyDiv, h]

/-- The two beta functions as polynomials in `a = α_s/4π`, `e = α_e/4π`; `μ = 0` is a `ZeroDivisionError`. -/
theorem C120_values (als ale mu f : ℝ) (a e : ℝ) (ha : a = als / (4 * Real.pi)) (he : e = ale / (4 * Real.pi)) :
    (mu ≠ 0 → betaQcd als ale mu f = .ok (-(als ^ 2 / (2 * Real.pi * mu)) *
        ((11 - 2 / 3 * f) + (102 - 38 / 3 * f) * a + (2857 / 2 - 5033 / 18 * f + 325 / 54 * f ^ 2) * a ^ 2
          - 22 / 9 * e - 308 / 27 * (a * e) + 4945 / 243 * e ^ 2)))
    ∧ (mu ≠ 0 → betaQed ale als mu f = .ok (ale ^ 2 / (2 * Real.pi * mu) * (80 / 9 + 464 / 27 * e + 176 / 9 * a)))
    ∧ (mu = 0 → betaQcd als ale mu f = .error .zeroDivisionError ∧ betaQed ale als mu f = .error .zeroDivisionError) := by
  have hpi := Real.pi_pos.ne'
  have ea : als / 4 / Real.pi = a := by rw [ha]; field_simp
  have ee : ale / 4 / Real.pi = e := by rw [he]; field_simp
  refine ⟨fun h => ?_, fun h => ?_, fun h => ?_⟩
  · simp only [betaQcd, div_ok h, Bind.bind, Except.bind, pure, Except.pure, ea, ee]
    congr 1
    simp [Fin.sum_univ_succ, bQcd]
    field_simp
    ring
  · simp only [betaQed, div_ok h, Bind.bind, Except.bind, pure, Except.pure, ea, ee]
    congr 1
    simp [Fin.sum_univ_succ, bQed]
    field_simp
    ring
  · subst h
    simp [betaQcd, betaQed, pyDiv, Bind.bind, Except.bind]

/-- Asymptotic freedom and QED screening: for three, four or five flavours, a non-zero `α_s ≥ 0`, any `α_e` and a positive
scale, `α_s` decreases with the scale; for `α_e > 0` and `α_s ≥ 0`, `α_e` increases. -/
theorem C120_signs (als ale mu : ℝ) (f : ℕ) (hf : f = 3 ∨ f = 4 ∨ f = 5) (hmu : 0 < mu) (hs : 0 < als) :
    (∃ x, betaQcd als ale mu f = .ok x ∧ x < 0) ∧ (0 < ale → ∃ x, betaQed ale als mu f = .ok x ∧ 0 < x) := by
  have hpi := Real.pi_pos
  refine ⟨⟨_, (C120_values als ale mu f _ _ rfl rfl).1 hmu.ne', ?_⟩, fun he => ⟨_, (C120_values als ale mu f _ _ rfl rfl).2.1 hmu.ne', ?_⟩⟩
  · obtain ⟨a, ha⟩ : ∃ a, a = als / (4 * Real.pi) := ⟨_, rfl⟩
    obtain ⟨e, he⟩ : ∃ e, e = ale / (4 * Real.pi) := ⟨_, rfl⟩
    have ha0 : 0 < a := by rw [ha]; positivity
    rw [← ha, ← he]
    have hq : 0 < als ^ 2 / (2 * Real.pi * mu) := by positivity
    rw [neg_mul, neg_lt_zero]
    apply mul_pos hq
    rcases hf with rfl | rfl | rfl <;> norm_num <;> nlinarith [sq_nonneg (e - a), sq_nonneg (e - 1/10), sq_nonneg e, sq_nonneg a, sq_nonneg (e - 3/10 * a - 6/100)]
  · positivity
example : ∃ x, betaQcd 0.118 (1/128) 91 (5:ℕ) = .ok x ∧ x < 0 := (C120_signs 0.118 (1/128) 91 5 (by simp) (by norm_num) (by norm_num)).1

/-- (FINDING, the code's own FIXME) the QED beta function and the QED part of the QCD one ignore the number of flavours;
the leading QED coefficient is the one `run_alpha_e` uses only for five flavours: for three, four and six flavours the two
runnings of `α_e` in the package disagree. -/
theorem C120_flavour_blind (ale als mu : ℝ) (f g : ℝ) :
    betaQed ale als mu f = betaQed ale als mu g
    ∧ (-(beta0 2 3 3) = 80 / 9 ∧ -(beta0 1 2 2) ≠ 80 / 9 ∧ -(beta0 2 2 3) ≠ 80 / 9 ∧ -(beta0 3 3 3) ≠ 80 / 9)
    ∧ (∀ ale', mu ≠ 0 → ∃ x y x' y', betaQcd als ale mu f = .ok x ∧ betaQcd als ale' mu f = .ok x' ∧ betaQcd als ale mu g = .ok y ∧ betaQcd als ale' mu g = .ok y'
        ∧ x - x' = y - y') := by
  refine ⟨rfl, by norm_num [beta0], fun ale' h => ⟨_, _, _, _, (C120_values als ale mu f _ _ rfl rfl).1 h, (C120_values als ale' mu f _ _ rfl rfl).1 h,
    (C120_values als ale mu g _ _ rfl rfl).1 h, (C120_values als ale' mu g _ _ rfl rfl).1 h, by ring⟩⟩

/-- `run_alpha_e` with five flavours solves exactly the leading-order part of the QED equation: where it is defined its
derivative with respect to the final scale is `α²/(2πμ) · 80/9`, i.e. `beta_qed` with its higher-order terms dropped. -/
theorem C120_run_alpha_e_solves (a s1 mu : ℝ) (h1 : 0 < s1) (hmu : 0 < mu)
    (hd : 1 + a * beta0 2 3 3 * Real.log (mu / s1) / (2 * Real.pi) ≠ 0) :
    ∃ y : ℝ → ℝ, (∀ᶠ x in nhds mu, runAlphaE a s1 x 2 3 3 = .ok (y x)) ∧ HasDerivAt y (y mu ^ 2 / (2 * Real.pi * mu) * (80 / 9)) mu := by
  have hpi := Real.pi_pos
  have D : HasDerivAt (fun x => 1 + a * beta0 2 3 3 * Real.log (x / s1) / (2 * Real.pi)) (a * beta0 2 3 3 * (mu⁻¹) / (2 * Real.pi)) mu := by
    have hl : HasDerivAt (fun x => Real.log (x / s1)) mu⁻¹ mu := by
      have := ((hasDerivAt_id mu).div_const s1).log (div_pos hmu h1).ne'
      simp only [id] at this
      convert this using 1
      field_simp
    simpa using (((hl.const_mul (a * beta0 2 3 3)).div_const (2 * Real.pi)).const_add 1)
  refine ⟨fun x => a / (1 + a * beta0 2 3 3 * Real.log (x / s1) / (2 * Real.pi)), ?_, ?_⟩
  · have c := D.continuousAt.eventually_ne hd
    have p := lt_mem_nhds hmu
    filter_upwards [c, p] with x hx hp
    exact runAlphaE_eq h1 hp hx
  · refine ((hasDerivAt_const mu a).div D hd).congr_deriv ?_
    have e : beta0 2 3 3 = -(80 / 9) := by norm_num [beta0]
    rw [e] at hd ⊢
    field_simp
    ring
example : (1:ℝ) + 0 * beta0 2 3 3 * Real.log (4 / 91) / (2 * Real.pi) ≠ 0 := by norm_num

end Verif.Rge
