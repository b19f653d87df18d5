import Verif.Physics.Bllgamma.Model
import Mathlib.Analysis.SpecialFunctions.Integrals.Basic
import Mathlib.Analysis.SpecialFunctions.NonIntegrable
/-!
# Theorems on `B → ℓ⁺ ℓ⁻ γ` (C135)
-/
set_option linter.unusedVariables false
set_option linter.unusedSimpArgs false
namespace Verif.Bllgamma
open Verif.Py Verif.Running Complex Filter Topology MeasureTheory
local notation "conj" => starRingEnd ℂ

theorem nsq (z : ℂ) : ‖z‖ ^ 2 = z.re * z.re + z.im * z.im := by
  rw [← Complex.normSq_eq_norm_sq, Complex.normSq_apply]

/-! ## Specification -/

/-- The rate of `B → ℓℓ γ` by emission of the photon from the leptons, for the amplitude of `B → ℓℓ` with `C10` alone, integrated over the energies of the leptons at fixed `s`, from the two propagators `t-m²`, `u-m²`
(`K` is the common normalisation, `x = 1-s`, `c` the cosine of the angle): the integrand of hep-ph/0410146 with `t-m² = x(1-βc)/2`, `u-m² = x(1+βc)/2`.
(Specification.) -/
noncomputable def bremsSpec (K s m : ℝ) : ℝ :=
  let b := Real.sqrt (1 - 4 * m ^ 2 / s)
  let x := 1 - s
  K * ∫ c in (-1:ℝ)..1, ((s + x ^ 2 / 2) / ((x * (1 - b * c) / 2) * (x * (1 + b * c) / 2)) - (x * m / ((x * (1 - b * c) / 2) * (x * (1 + b * c) / 2))) ^ 2) * (x * b / 2)

/-! ## Kinematics -/

theorem beta_mem {s m : ℝ} (hm : 0 < m) (hs : 4 * m ^ 2 < s) : 0 < Real.sqrt (1 - 4 * m ^ 2 / s) ∧ Real.sqrt (1 - 4 * m ^ 2 / s) < 1 ∧ Real.sqrt (1 - 4 * m ^ 2 / s) ^ 2 = 1 - 4 * m ^ 2 / s := by
  have h0 : 0 < s := lt_trans (by positivity) hs
  have h1 : 4 * m ^ 2 / s < 1 := (div_lt_one h0).2 hs
  have h2 : 0 < 4 * m ^ 2 / s := by positivity
  refine ⟨Real.sqrt_pos.2 (by linarith), ?_, Real.sq_sqrt (by linarith)⟩
  rw [Real.sqrt_lt' one_pos]; linarith

theorem sqrt_prod {s m : ℝ} (hm : 0 < m) (hs : 4 * m ^ 2 < s) : Real.sqrt (s - 4 * m ^ 2) * Real.sqrt s = s * Real.sqrt (1 - 4 * m ^ 2 / s) := by
  have h0 : 0 < s := lt_trans (by positivity) hs
  have e : s - 4 * m ^ 2 = s * (1 - 4 * m ^ 2 / s) := by field_simp
  rw [e, Real.sqrt_mul h0.le]
  have := Real.mul_self_sqrt h0.le
  linear_combination Real.sqrt (1 - 4 * m ^ 2 / s) * this

theorem artanh_deriv {x : ℝ} (h : x ∈ Set.Ioo (-1:ℝ) 1) : HasDerivAt Real.artanh (1 / (1 - x ^ 2)) x := by
  have h1 : (0:ℝ) < 1 + x := by linarith [h.1]
  have h2 : (0:ℝ) < 1 - x := by linarith [h.2]
  have e : Real.artanh =ᶠ[𝓝 x] fun y => 1 / 2 * (Real.log (1 + y) - Real.log (1 - y)) := by
    filter_upwards [Ioo_mem_nhds h.1 h.2] with y hy
    rw [Real.artanh_eq_half_log ⟨hy.1.le, hy.2.le⟩, Real.log_div (by linarith [hy.1]) (by linarith [hy.2])]
  refine HasDerivAt.congr_of_eventuallyEq ?_ e
  have d1 := ((hasDerivAt_id x).const_add 1).log h1.ne'
  have d2 := ((hasDerivAt_id x).const_sub 1).log h2.ne'
  refine ((d1.sub d2).const_mul (1 / 2)).congr_deriv ?_
  simp only [id]
  have : (1 - x ^ 2) ≠ 0 := by nlinarith
  field_simp; ring

theorem artanh_odd {x : ℝ} (h : x ∈ Set.Ioo (-1:ℝ) 1) : Real.artanh (-x) = -Real.artanh x := by
  have h1 : (0:ℝ) < 1 + x := by linarith [h.1]
  have h2 : (0:ℝ) < 1 - x := by linarith [h.2]
  rw [Real.artanh_eq_half_log ⟨by linarith, by linarith⟩, Real.artanh_eq_half_log ⟨h.1.le, h.2.le⟩, sub_neg_eq_add, ← sub_eq_add_neg, Real.log_div h2.ne' h1.ne', Real.log_div h1.ne' h2.ne']
  ring

theorem artanh_gt {x : ℝ} (h0 : 0 < x) (h1 : x < 1) : x < Real.artanh x := by
  have hc : ContinuousOn (fun y => Real.artanh y - y) (Set.Icc 0 x) := fun y hy =>
    ((artanh_deriv ⟨by linarith [hy.1], by linarith [hy.2]⟩).continuousAt.sub continuousAt_id).continuousWithinAt
  have := strictMonoOn_of_deriv_pos (convex_Icc 0 x) hc (by
    intro y hy
    rw [interior_Icc] at hy
    have d := ((artanh_deriv (x := y) ⟨by linarith [hy.1], by linarith [hy.2]⟩).sub (hasDerivAt_id y)).deriv
    change 0 < deriv (Real.artanh - id) y
    rw [d]
    have : 0 < 1 - y ^ 2 := by nlinarith [hy.1, hy.2]
    rw [sub_pos, lt_div_iff₀ this]; nlinarith [hy.1])
  have := this ⟨le_refl _, h0.le⟩ ⟨h0.le, le_refl _⟩ h0
  simpa using this

/-! ## Structure-dependent part -/

theorem F2_ge (s mbh : ℝ) (ff : FF) (tv ta : ℂ) (wc : Wc) : ‖wc.C10‖ ^ 2 * ff.a ^ 2 ≤ getF2 s mbh ff tv ta wc := by
  have e : getF2 s mbh ff tv ta wc = ‖wc.C10‖ ^ 2 * ff.a ^ 2 + ‖(ff.a : ℂ) * wc.C9 + ((2 * mbh / s : ℝ) : ℂ) * (wc.C7 * ta)‖ ^ 2 := by
    unfold getF2
    rw [nsq (_ + _), nsq wc.C9, nsq (wc.C7 * ta), nsq wc.C10]
    simp only [Complex.add_re, Complex.add_im, Complex.re_ofReal_mul, Complex.im_ofReal_mul, Complex.mul_re, Complex.mul_im, Complex.conj_re, Complex.conj_im, Complex.ofReal_re, Complex.ofReal_im]
    simp only [div_eq_mul_inv]; ring
  rw [e]; nlinarith [sq_nonneg ‖(ff.a : ℂ) * wc.C9 + ((2 * mbh / s : ℝ) : ℂ) * (wc.C7 * ta)‖]

theorem F1_eq (s mbh : ℝ) (ff : FF) (t : ℂ) (wc : Wc) : getF1 s mbh ff t t wc = ‖wc.C10‖ ^ 2 * ff.v ^ 2 + ‖(ff.v : ℂ) * wc.C9 + ((2 * mbh / s : ℝ) : ℂ) * (wc.C7 * t)‖ ^ 2 := by
  unfold getF1
  rw [nsq (_ + _), nsq wc.C9, nsq (wc.C7 * t), nsq wc.C10]
  simp only [Complex.add_re, Complex.add_im, Complex.re_ofReal_mul, Complex.im_ofReal_mul, Complex.mul_re, Complex.mul_im, Complex.conj_re, Complex.conj_im, Complex.ofReal_re, Complex.ofReal_im]
  simp only [div_eq_mul_inv]; ring

/-- The bracket of the direct emission. -/
theorem bracket_eq (s mbh m : ℝ) (hs : s ≠ 0) (ff : FF) (tv ta : ℂ) (wc : Wc) :
    B10 s mbh m ff tv ta wc + (s - 4 * m ^ 2) / (3 * s) * B12 s mbh ff tv ta wc
      = 4 / 3 * (s + 2 * m ^ 2) * (getF1 s mbh ff tv ta wc + getF2 s mbh ff tv ta wc) - 8 * m ^ 2 * ‖wc.C10‖ ^ 2 * (ff.v ^ 2 + ff.a ^ 2) := by
  unfold B10 B12; field_simp; ring

/-- **C135 (direct emission)** The photon emission from the `B` meson is non-negative wherever the two tensor form factors agree. -/
theorem C135_direct_nonneg (P s mbh m : ℝ) (ff : FF) (t : ℂ) (wc : Wc) (hP : 0 ≤ P) (hm : 0 < m) (hs : 4 * m ^ 2 < s) (h1 : s ≤ 1) : 0 ≤ dG1 P s mbh m ff t t wc := by
  have h0 : 0 < s := lt_trans (by positivity) hs
  unfold dG1
  rw [bracket_eq s mbh m h0.ne']
  have a1 : ‖wc.C10‖ ^ 2 * ff.v ^ 2 ≤ getF1 s mbh ff t t wc := by
    rw [F1_eq]; nlinarith [sq_nonneg ‖(ff.v : ℂ) * wc.C9 + ((2 * mbh / s : ℝ) : ℂ) * (wc.C7 * t)‖]
  have a2 := F2_ge s mbh ff t t wc
  have hb : 0 ≤ ‖wc.C10‖ ^ 2 * (ff.v ^ 2 + ff.a ^ 2) := by positivity
  have hk : 0 ≤ 4 / 3 * (s + 2 * m ^ 2) := by positivity
  have := mul_le_mul_of_nonneg_left (add_le_add a1 a2) hk
  have h3 : 0 ≤ (1 - s) ^ 3 := by have : 0 ≤ 1 - s := by linarith
                                  positivity
  refine mul_nonneg (by positivity) ?_
  nlinarith [mul_nonneg hb (show 0 ≤ s - 4 * m ^ 2 by linarith)]

/-! ## Emission from the leptons -/

theorem dG2_eq (P s m r : ℝ) (wc : Wc) (hm : 0 < m) (hs : 4 * m ^ 2 < s) :
    dG2 P s m r wc = 64 * P * (r * ‖wc.C10‖ * m) ^ 2 / (1 - s)
      * (Real.artanh (Real.sqrt (1 - 4 * m ^ 2 / s)) * (1 + s - m ^ 2 * (1 - s) ^ 2) - 2 * s * Real.sqrt (1 - 4 * m ^ 2 / s)) := by
  unfold dG2
  rw [mul_assoc (-8), sqrt_prod hm hs]; ring

/-- **C135 (emission from the leptons)** The emission from the leptons is positive inside the phase space. -/
theorem C135_lepton_pos (P s m r : ℝ) (wc : Wc) (hP : 0 < P) (hm : 0 < m) (hs : 4 * m ^ 2 < s) (h1 : s < 1) (hr : r ≠ 0) (hC : wc.C10 ≠ 0) : 0 < dG2 P s m r wc := by
  rw [dG2_eq P s m r wc hm hs]
  obtain ⟨b0, b1, b2⟩ := beta_mem hm hs
  have hA := artanh_gt b0 b1
  have h0 : 0 < s := lt_trans (by positivity) hs
  set b := Real.sqrt (1 - 4 * m ^ 2 / s)
  have hc : 0 < ‖wc.C10‖ := norm_pos_iff.2 hC
  have hx : 0 < 1 - s := by linarith
  refine mul_pos ?_ ?_
  · have : r * ‖wc.C10‖ * m ≠ 0 := by positivity
    positivity
  · have hm2 : m ^ 2 < 1 / 4 := by linarith
    have hk : 0 < (1 - s) * (1 - m ^ 2 * (1 - s)) := mul_pos hx (by nlinarith)
    have hk2 : 0 < 1 + s - m ^ 2 * (1 - s) ^ 2 := by nlinarith
    nlinarith [mul_lt_mul_of_pos_right hA hk2, mul_pos b0 hk]

/-! ## The integral over angles -/

theorem angle1 {b : ℝ} (h0 : 0 < b) (h1 : b < 1) : ∫ c in (-1:ℝ)..1, 1 / (1 - b ^ 2 * c ^ 2) = 2 * Real.artanh b / b := by
  have hd : ∀ c ∈ Set.uIcc (-1:ℝ) 1, HasDerivAt (fun c => Real.artanh (b * c) / b) (1 / (1 - b ^ 2 * c ^ 2)) c := by
    intro c hc
    rw [Set.uIcc_of_le (by norm_num)] at hc
    have := (artanh_deriv (x := b * c) ⟨by nlinarith [hc.1, hc.2], by nlinarith [hc.1, hc.2]⟩).comp c ((hasDerivAt_id c).const_mul b)
    refine (this.div_const b).congr_deriv ?_
    rw [mul_pow]; field_simp
  have hcont : ContinuousOn (fun c => 1 / (1 - b ^ 2 * c ^ 2)) (Set.uIcc (-1:ℝ) 1) := by
    rw [Set.uIcc_of_le (by norm_num)]
    refine ContinuousOn.div (by fun_prop) (by fun_prop) fun c hc => ?_
    have : c ^ 2 ≤ 1 := by nlinarith [hc.1, hc.2]
    nlinarith [sq_nonneg c, sq_nonneg b]
  rw [intervalIntegral.integral_eq_sub_of_hasDerivAt hd hcont.intervalIntegrable]
  have : Real.artanh (b * -1) = -Real.artanh b := by rw [mul_neg_one, artanh_odd ⟨by linarith, h1⟩]
  rw [this]; simp; ring

theorem angle2 {b : ℝ} (h0 : 0 < b) (h1 : b < 1) : ∫ c in (-1:ℝ)..1, 1 / (1 - b ^ 2 * c ^ 2) ^ 2 = 1 / (1 - b ^ 2) + Real.artanh b / b := by
  have hd : ∀ c ∈ Set.uIcc (-1:ℝ) 1, HasDerivAt (fun c => (c / (1 - b ^ 2 * c ^ 2) + Real.artanh (b * c) / b) / 2) (1 / (1 - b ^ 2 * c ^ 2) ^ 2) c := by
    intro c hc
    rw [Set.uIcc_of_le (by norm_num)] at hc
    have hne : 1 - b ^ 2 * c ^ 2 ≠ 0 := by
      have : c ^ 2 ≤ 1 := by nlinarith [hc.1, hc.2]
      nlinarith [sq_nonneg c, sq_nonneg b]
    have d1 := (artanh_deriv (x := b * c) ⟨by nlinarith [hc.1, hc.2], by nlinarith [hc.1, hc.2]⟩).comp c ((hasDerivAt_id c).const_mul b)
    have d2 := (hasDerivAt_id c).div (((hasDerivAt_pow 2 c).const_mul (b ^ 2)).const_sub 1) hne
    refine ((d2.add (d1.div_const b)).div_const 2).congr_deriv ?_
    simp only [id, mul_pow]
    field_simp; ring
  have hcont : ContinuousOn (fun c => 1 / (1 - b ^ 2 * c ^ 2) ^ 2) (Set.uIcc (-1:ℝ) 1) := by
    rw [Set.uIcc_of_le (by norm_num)]
    refine ContinuousOn.div (by fun_prop) (by fun_prop) fun c hc => ?_
    have : c ^ 2 ≤ 1 := by nlinarith [hc.1, hc.2]
    exact pow_ne_zero 2 (by nlinarith [sq_nonneg c, sq_nonneg b])
  rw [intervalIntegral.integral_eq_sub_of_hasDerivAt hd hcont.intervalIntegrable]
  have : Real.artanh (b * -1) = -Real.artanh b := by rw [mul_neg_one, artanh_odd ⟨by linarith, h1⟩]
  rw [this]; simp; ring

/-- The integral of the specification. -/
theorem brems_eq (K s m : ℝ) (hm : 0 < m) (hs : 4 * m ^ 2 < s) (h1 : s < 1) :
    bremsSpec K s m = K * (2 / (1 - s)) * (Real.artanh (Real.sqrt (1 - 4 * m ^ 2 / s)) * (1 + s ^ 2 - 4 * m ^ 2) - s * Real.sqrt (1 - 4 * m ^ 2 / s)) := by
  obtain ⟨b0, b1, b2⟩ := beta_mem hm hs
  have h0 : 0 < s := lt_trans (by positivity) hs
  unfold bremsSpec
  simp only
  set b := Real.sqrt (1 - 4 * m ^ 2 / s)
  have hx : 1 - s ≠ 0 := by linarith
  have hcont : ∀ n : ℕ, IntervalIntegrable (fun c => 1 / (1 - b ^ 2 * c ^ 2) ^ n) volume (-1:ℝ) 1 := by
    intro n
    refine ContinuousOn.intervalIntegrable ?_
    rw [Set.uIcc_of_le (by norm_num)]
    refine ContinuousOn.div (by fun_prop) (by fun_prop) fun c hc => ?_
    have : c ^ 2 ≤ 1 := by nlinarith [hc.1, hc.2]
    exact pow_ne_zero n (by nlinarith [sq_nonneg c, sq_nonneg b])
  have e : ∀ c ∈ Set.uIcc (-1:ℝ) 1, ((s + (1 - s) ^ 2 / 2) / (((1 - s) * (1 - b * c) / 2) * ((1 - s) * (1 + b * c) / 2)) - ((1 - s) * m / (((1 - s) * (1 - b * c) / 2) * ((1 - s) * (1 + b * c) / 2))) ^ 2) * ((1 - s) * b / 2)
      = ((1 + s ^ 2) * b / (1 - s)) * (1 / (1 - b ^ 2 * c ^ 2) ^ 1) - (8 * m ^ 2 * b / (1 - s)) * (1 / (1 - b ^ 2 * c ^ 2) ^ 2) := by
    intro c hc
    rw [Set.uIcc_of_le (by norm_num)] at hc
    have hq : 1 - b ^ 2 * c ^ 2 = (1 - b * c) * (1 + b * c) := by ring
    have n1 : 1 - b * c ≠ 0 := by nlinarith [hc.1, hc.2]
    have n2 : 1 + b * c ≠ 0 := by nlinarith [hc.1, hc.2]
    rw [hq]; field_simp; ring
  rw [intervalIntegral.integral_congr e, intervalIntegral.integral_sub ((hcont 1).const_mul _) ((hcont 2).const_mul _), intervalIntegral.integral_const_mul, intervalIntegral.integral_const_mul]
  simp only [pow_one]
  rw [angle1 b0 b1, angle2 b0 b1]
  have hm2 : m ^ 2 = s * (1 - b ^ 2) / 4 := by rw [b2]; field_simp; ring
  have hb : 1 - b ^ 2 ≠ 0 := by nlinarith
  rw [hm2]; field_simp; ring

/-- **C135 (witness: emission from the leptons)** The rate in the code is not the integral over the angles of the emission from the leptons: it is smaller in the whole phase space (for light leptons by a factor approaching two). -/
theorem C135_lepton_witness (P s m r : ℝ) (wc : Wc) (hP : 0 < P) (hm : 0 < m) (hs : 4 * m ^ 2 < s) (h1 : s < 1) (hl : 36 * m ^ 2 ≤ 1) (hr : r ≠ 0) (hC : wc.C10 ≠ 0) :
    bremsSpec (64 * P * (r * ‖wc.C10‖ * m) ^ 2) s m - dG2 P s m r wc
      = 64 * P * (r * ‖wc.C10‖ * m) ^ 2 / (1 - s) * (Real.artanh (Real.sqrt (1 - 4 * m ^ 2 / s)) * (1 - s + 2 * s ^ 2 - 8 * m ^ 2 + m ^ 2 * (1 - s) ^ 2))
    ∧ dG2 P s m r wc < bremsSpec (64 * P * (r * ‖wc.C10‖ * m) ^ 2) s m := by
  have e : bremsSpec (64 * P * (r * ‖wc.C10‖ * m) ^ 2) s m - dG2 P s m r wc
      = 64 * P * (r * ‖wc.C10‖ * m) ^ 2 / (1 - s) * (Real.artanh (Real.sqrt (1 - 4 * m ^ 2 / s)) * (1 - s + 2 * s ^ 2 - 8 * m ^ 2 + m ^ 2 * (1 - s) ^ 2)) := by
    rw [brems_eq _ s m hm hs h1, dG2_eq P s m r wc hm hs]; ring
  refine ⟨e, sub_pos.1 ?_⟩
  rw [e]
  obtain ⟨b0, b1, _⟩ := beta_mem hm hs
  have hA := b0.trans (artanh_gt b0 b1)
  have hc : 0 < ‖wc.C10‖ := norm_pos_iff.2 hC
  have hx : 0 < 1 - s := by linarith
  have : r * ‖wc.C10‖ * m ≠ 0 := by positivity
  refine mul_pos (by positivity) (mul_pos hA ?_)
  nlinarith [sq_nonneg (s - 1 / 4), sq_nonneg (m * (1 - s))]

end Verif.Bllgamma
