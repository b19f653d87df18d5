import Verif.Physics.Dileptons.PpllNp
/-!
# `pp → ℓν`: partonic cross section in bins of the transverse mass
-/
set_option linter.unusedVariables false
set_option linter.unusedSimpArgs false
namespace Verif.Dileptons
open Verif.Py Verif.Running Complex MeasureTheory

local notation "conj" => starRingEnd ℂ

/-- The coefficients for one process: currents of left chirality, scalars and the tensor. (Specification.) -/
def contactNu (A : AmpNu) (il inu i1 i2 : Fin 3) : Contact :=
  ⟨A.VLL il inu i1 i2, 0, 0, 0, A.SRL il inu i1 i2, A.SRR il inu i1 i2, A.TRR il inu i1 i2, 0, 0, 0⟩

/-- The part of the integral over the scattering angle where a condition on the angle holds, for the range `c₀ ≤ |c| ≤ c₁`. -/
theorem cut_integral (f : ℝ → ℝ) (hf : Continuous f) (P : ℝ → Prop) [DecidablePred P] {c0 c1 : ℝ} (h0 : 0 ≤ c0) (h01 : c0 ≤ c1) (h1 : c1 ≤ 1) (hP : ∀ c, P c ↔ c0 ≤ |c| ∧ |c| ≤ c1) :
    ∫ c in (-1)..1, (if P c then f c else 0) = (∫ c in (-c1)..(-c0), f c) + ∫ c in c0..c1, f c := by
  set g : ℝ → ℝ := fun c => if P c then f c else 0 with hg
  have out : ∀ a b, a ≤ b → (∀ c ∈ Set.Ioo a b, ¬ P c) → IntervalIntegrable g volume a b ∧ ∫ c in a..b, g c = 0 := by
    intro a b hab hn
    have e : (Set.Ioo a b).EqOn g (fun _ => 0) := fun c hc => by simp [hg, hn c hc]
    constructor
    · refine (intervalIntegrable_congr_uIoo (by rw [Set.uIoo_of_le hab]; exact e)).2 intervalIntegrable_const
    · rw [intervalIntegral.integral_congr_Ioo_of_le hab e]; simp
  have inn : ∀ a b, a ≤ b → (∀ c ∈ Set.Ioo a b, P c) → IntervalIntegrable g volume a b ∧ ∫ c in a..b, g c = ∫ c in a..b, f c := by
    intro a b hab hn
    have e : (Set.Ioo a b).EqOn g f := fun c hc => by simp [hg, hn c hc]
    constructor
    · refine (intervalIntegrable_congr_uIoo (by rw [Set.uIoo_of_le hab]; exact e)).2 (hf.intervalIntegrable _ _)
    · rw [intervalIntegral.integral_congr_Ioo_of_le hab e]
  obtain ⟨i1, e1⟩ := out (-1) (-c1) (by linarith) (fun c hc h => by
    have := ((hP c).1 h).2; rw [abs_of_nonpos (by linarith [hc.2])] at this; linarith [hc.2])
  obtain ⟨i2, e2⟩ := inn (-c1) (-c0) (by linarith) (fun c hc => (hP c).2 (by
    rw [abs_of_nonpos (by linarith [hc.2])]; exact ⟨by linarith [hc.2], by linarith [hc.1]⟩))
  obtain ⟨i3, e3⟩ := out (-c0) c0 (by linarith) (fun c hc h => by
    have := ((hP c).1 h).1; have := abs_lt.2 ⟨hc.1, hc.2⟩; linarith)
  obtain ⟨i4, e4⟩ := inn c0 c1 h01 (fun c hc => (hP c).2 (by
    rw [abs_of_nonneg (by linarith [hc.1])]; exact ⟨by linarith [hc.1], by linarith [hc.2]⟩))
  obtain ⟨i5, e5⟩ := out c1 1 h1 (fun c hc h => by
    have := ((hP c).1 h).2; rw [abs_of_nonneg (by linarith [hc.1])] at this; linarith [hc.1])
  rw [← intervalIntegral.integral_add_adjacent_intervals (i1.trans (i2.trans (i3.trans i4))) i5, ← intervalIntegral.integral_add_adjacent_intervals i1 (i2.trans (i3.trans i4)),
    ← intervalIntegral.integral_add_adjacent_intervals i2 (i3.trans i4), ← intervalIntegral.integral_add_adjacent_intervals i3 i4, e1, e2, e3, e4, e5]
  ring

/-- The factors in terms of the cosines at the ends of the bin. -/
theorem prefac_eq {tau umin umax : ℝ} (ht : 0 < tau) (h1 : umin ≤ tau) (h2 : umin ≤ umax) :
    let c1 := Real.sqrt (1 - umin / tau)
    let c0 := Real.sqrt (1 - umax / tau)
    prefac1 tau umin umax = tau * ((c1 ^ 3 - c1) - (c0 ^ 3 - c0)) ∧ prefac2 tau umin umax = -tau * (c1 - c0) := by
  intro c1 c0
  have e1 : c1 ^ 2 = 1 - umin / tau := Real.sq_sqrt (by rw [sub_nonneg, div_le_one ht]; exact h1)
  have u1 : umin = tau * (1 - c1 ^ 2) := by rw [e1]; field_simp; ring
  unfold prefac1 prefac2
  by_cases h : tau > umax
  · have e0 : c0 ^ 2 = 1 - umax / tau := Real.sq_sqrt (by rw [sub_nonneg, div_le_one ht]; exact h.le)
    have u0 : umax = tau * (1 - c0 ^ 2) := by rw [e0]; field_simp; ring
    rw [if_pos h, if_pos h]
    show umax * c0 - umin * c1 = _ ∧ tau * (c0 - c1) = _
    constructor
    · rw [u1, u0]; ring
    · ring
  · have e0 : c0 = 0 := Real.sqrt_eq_zero_of_nonpos (by rw [sub_nonpos, one_le_div ht]; exact not_lt.1 h)
    rw [if_neg h, if_neg h, e0]
    show -umin * c1 = _ ∧ -tau * c1 = _
    constructor
    · rw [u1]; ring
    · ring

/-- **C137 (partonic cross section)** For each pair of quarks the result is the integral over the scattering angle of the squared
helicity amplitudes, restricted to the bin in the transverse mass `m_T² = ŝ sin²θ`, summed over the neutrinos. -/
theorem C137_partonic (s tau umin umax : ℝ) (A : AmpNu) (il i1 i2 : Fin 3) (ht : 0 < tau) (h0 : 0 ≤ umin) (h1 : umin ≤ tau) (h2 : umin ≤ umax) :
    partialVal s tau umin umax A il i1 i2 = ∑ inu, ∫ c in (-1)..1, if umin ≤ tau * (1 - c ^ 2) ∧ tau * (1 - c ^ 2) ≤ umax then dsdc (tau * s) c (contactNu A il inu i1 i2) else 0 := by
  set c1 := Real.sqrt (1 - umin / tau) with hc1
  set c0 := Real.sqrt (1 - umax / tau) with hc0
  have n1 : 0 ≤ 1 - umin / tau := by rw [sub_nonneg, div_le_one ht]; exact h1
  have h01 : c0 ≤ c1 := Real.sqrt_le_sqrt (by have : umin / tau ≤ umax / tau := by gcongr
                                              linarith)
  have hle : c1 ≤ 1 := Real.sqrt_le_one.2 (by have : 0 ≤ umin / tau := by positivity
                                              linarith)
  have hP : ∀ c, (umin ≤ tau * (1 - c ^ 2) ∧ tau * (1 - c ^ 2) ≤ umax) ↔ c0 ≤ |c| ∧ |c| ≤ c1 := by
    intro c
    rw [hc0, hc1, Real.sqrt_le_left (abs_nonneg c), Real.le_sqrt (abs_nonneg c), sq_abs, and_comm, sub_le_iff_le_add, le_sub_iff_add_le]
    refine and_congr ?_ ?_
    · rw [← sub_le_iff_le_add', le_div_iff₀ ht, mul_comm]
    · rw [← le_sub_iff_add_le', div_le_iff₀ ht, mul_comm]
    · exact n1
  obtain ⟨p1, p2⟩ := prefac_eq ht h1 h2
  rw [← hc0, ← hc1] at p1 p2
  have hc0p : 0 ≤ c0 := Real.sqrt_nonneg _
  clear_value c0 c1
  have k : ∀ inu, (∫ c in (-1)..1, if umin ≤ tau * (1 - c ^ 2) ∧ tau * (1 - c ^ 2) ≤ umax then dsdc (tau * s) c (contactNu A il inu i1 i2) else 0)
      = tau * s / (576 * Real.pi) * (3 * (c1 - c0) * (‖A.VLL il inu i1 i2‖ ^ 2 + ‖A.SRL il inu i1 i2‖ ^ 2 + ‖A.SRR il inu i1 i2‖ ^ 2) + (c1 ^ 3 - c0 ^ 3) * (‖A.VLL il inu i1 i2‖ ^ 2 + 16 * ‖A.TRR il inu i1 i2‖ ^ 2)) := by
    intro inu
    rw [cut_integral _ (dsdc_cont _ _) _ hc0p h01 hle hP, dsdc_int, dsdc_int]
    simp only [contactNu, norm_zero]
    have := Real.pi_pos.ne'
    field_simp; ring
  simp only [k]
  unfold partialVal
  rw [p1, p2, Finset.sum_div]
  refine Finset.sum_congr rfl fun inu _ => ?_
  have := Real.pi_pos.ne'
  field_simp; ring

end Verif.Dileptons
