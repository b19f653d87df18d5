import Verif.Physics.Inclusive.XllTheorems
/-!
# Properties of `bxll.py`: QED and power corrections (C132), asymmetry (C131)
-/
set_option linter.unusedVariables false
set_option linter.unusedSimpArgs false
namespace Verif.Xll
open Verif.Py Verif Verif.Running Verif.FormFactors Verif.BxllQed Complex

theorem dot_zeros (v : ℕ → ℂ) : dot v zeros = 0 := by simp [dot, zeros]

theorem dot_upd (v : ℕ → ℂ) (m : ℕ → ℕ → ℂ) (i j : ℕ) (x : ℂ) (hi : i < 11) (hj : j < 11) :
    dot v (upd m i j x) = dot v m + v i * (x - m i j) * (starRingEnd ℂ) (v j) := by
  have e : ∀ a b, upd m i j x a b = m a b + (if a = i then if b = j then x - m i j else 0 else 0) := by
    intro a b
    by_cases ha : a = i
    · by_cases hb : b = j
      · subst ha; subst hb; simp [upd]
      · simp [upd, ha, hb]
    · simp [upd, ha]
  have h1 : ∀ a, (∑ b ∈ Finset.range 11, (m a b + (if a = i then if b = j then x - m i j else 0 else 0)) * (starRingEnd ℂ) (v b))
      = (∑ b ∈ Finset.range 11, m a b * (starRingEnd ℂ) (v b)) + (if a = i then (x - m i j) * (starRingEnd ℂ) (v j) else 0) := by
    intro a
    simp only [add_mul, Finset.sum_add_distrib]
    congr 1
    by_cases ha : a = i
    · simp only [ha, if_true, ite_mul, zero_mul]
      rw [Finset.sum_ite_eq' (Finset.range 11) j]
      simp [hj]
    · simp [ha]
  simp only [dot, e, h1, mul_add, Finset.sum_add_distrib]
  congr 1
  simp only [mul_ite, mul_zero]
  rw [Finset.sum_ite_eq' (Finset.range 11) i]
  simp [hi, mul_assoc]

theorem key7 (q : String) : "C7eff_" ++ ("b" ++ q) = "C7eff_b" ++ q := by rw [← String.append_assoc]; rfl
theorem key1 (q : String) : "C1_" ++ ("b" ++ q) = "C1_b" ++ q := by rw [← String.append_assoc]; rfl
theorem key2 (q : String) : "C2_" ++ ("b" ++ q) = "C2_b" ++ q := by rw [← String.append_assoc]; rfl
theorem key9 (q l : String) : "C9_" ++ ("b" ++ q ++ l ++ l) = "C9_b" ++ q ++ (l ++ l) := by
  simp only [← String.append_assoc]; rfl
theorem key10 (q l : String) : "C10_" ++ ("b" ++ q ++ l ++ l) = "C10_b" ++ q ++ (l ++ l) := by
  simp only [← String.append_assoc]; rfl

theorem vec7 (w : String → ℂ) (q l : String) : wcVec w q l 7 = w ("C7eff_b" ++ q) := by rw [← key7]; rfl
theorem vec1 (w : String → ℂ) (q l : String) : wcVec w q l 1 = w ("C1_b" ++ q) := by rw [← key1]; rfl
theorem vec2 (w : String → ℂ) (q l : String) : wcVec w q l 2 = w ("C2_b" ++ q) := by rw [← key2]; rfl
theorem vec9 (w : String → ℂ) (q l : String) : wcVec w q l 9 = w ("C9_b" ++ q ++ (l ++ l)) := by rw [← key9]; rfl
theorem vec10 (w : String → ℂ) (q l : String) : wcVec w q l 10 = w ("C10_b" ++ q ++ (l ++ l)) := by rw [← key10]; rfl

theorem re3 (x : ℝ) (a b : ℂ) : (a * (x : ℂ) * (starRingEnd ℂ) b).re = x * reC a b := by
  rw [reC_eq]
  simp only [Complex.mul_re, Complex.mul_im, Complex.ofReal_re, Complex.ofReal_im, Complex.conj_re, Complex.conj_im]
  ring

theorem reC_self (a : ℂ) : reC a a = ‖a‖^2 := by rw [reC_eq, nsq]; ring

macro "pcsteps" : tactic => `(tactic| (
  refine congrArg Except.ok ?_
  simp (config := {decide := true}) only [dot_upd, dot_zeros, upd, zeros, if_false, sub_zero, zero_add, vec7, vec9, vec10, and_false, false_and, mul_add,
      Complex.add_re, Complex.re_ofReal_mul, re3, reC_self]))

theorem pcL (s l1 l2 mb : ℝ) (w : String → ℂ) (q l : String) :
    phiPc "L" s l1 l2 mb w q l = .ok (
      l1/mb^2 * (2/3*(s-1)*(3*s+13)*‖w ("C7eff_b" ++ q)‖^2 + 2*(1-s)^2*reC (w ("C7eff_b" ++ q)) (w ("C9_b" ++ q ++ (l ++ l)))
        + 1/6*(1-s)*(13*s+3)*‖w ("C9_b" ++ q ++ (l ++ l))‖^2)
      + l2/mb^2 * (2*(15*s^2-6*s-13)*‖w ("C7eff_b" ++ q)‖^2 + 2*(3*s^2-6*s-1)*reC (w ("C7eff_b" ++ q)) (w ("C9_b" ++ q ++ (l ++ l)))
        + 1/2*(-17*s^2+10*s+3)*‖w ("C9_b" ++ q ++ (l ++ l))‖^2)) := by
  simp only [phiPc, if_neg (by decide : ¬ ("L" = "T")), if_true, Bind.bind, Except.bind, pure, Except.pure]
  pcsteps

theorem pcT (s l1 l2 mb : ℝ) (w : String → ℂ) (q l : String) :
    phiPc "T" s l1 l2 mb w q l = .ok (
      l1/mb^2 * (4/(3*s)*(1-s)*(5*s+3)*‖w ("C7eff_b" ++ q)‖^2 + 4*(1-s)^2*reC (w ("C7eff_b" ++ q)) (w ("C9_b" ++ q ++ (l ++ l)))
        + -s/3*(1-s)*(3*s+5)*‖w ("C9_b" ++ q ++ (l ++ l))‖^2)
      + l2/mb^2 * (4/s*(3*s^2+2*s-9)*‖w ("C7eff_b" ++ q)‖^2 + 4*(9*s^2-6*s-7)*reC (w ("C7eff_b" ++ q)) (w ("C9_b" ++ q ++ (l ++ l)))
        + s*(15*s^2-14*s-5)*‖w ("C9_b" ++ q ++ (l ++ l))‖^2)) := by
  simp only [phiPc, if_true, Bind.bind, Except.bind, pure, Except.pure]
  pcsteps

/-- The 1/mb² corrections for the rate (longitudinal plus transverse) and for the asymmetry, as a function of the Wilson
coefficients `C7`, `C9`, `C10` alone; any other selector raises `ValueError`. -/
theorem C132_power (s l1 l2 mb : ℝ) (hs : s ≠ 0) (w : String → ℂ) (q l : String) :
    let c7 := w ("C7eff_b" ++ q)
    let c9 := w ("C9_b" ++ q ++ (l ++ l))
    let c10 := w ("C10_b" ++ q ++ (l ++ l))
    (∃ pL pT, phiPc "L" s l1 l2 mb w q l = .ok pL ∧ phiPc "T" s l1 l2 mb w q l = .ok pT ∧
      pL + pT = l1/mb^2 * (2/3*(1-s)*(6/s - 3*(1+s))*‖c7‖^2 + 6*(1-s)^2*reC c7 c9 + (1-s)*(1+s-2*s^2)/2*‖c9‖^2)
        + l2/mb^2 * ((30*s^2 - 18 - 36/s)*‖c7‖^2 + (42*s^2 - 36*s - 30)*reC c7 c9 + (30*s^3 - 45*s^2 + 3)/2*‖c9‖^2)) ∧
    (phiPc "A" s l1 l2 mb w q l = .ok (l1/mb^2 * (-2/3*(3*s^2 + 2*s + 3)*reC (2*c7 + s*c9) c10)
        + l2/mb^2 * (-4*(9*s^2 - 10*s - 7)*reC c7 c10 - 2*s*(15*s^2 - 14*s - 9)*reC c9 c10))) ∧
    (∀ I : String, I ≠ "T" → I ≠ "L" → I ≠ "A" → phiPc I s l1 l2 mb w q l = .error .valueError) := by
  intro c7 c9 c10
  refine ⟨⟨_, _, pcL s l1 l2 mb w q l, pcT s l1 l2 mb w q l, ?_⟩, ?_, ?_⟩
  · simp only [c7, c9, c10]
    field_simp
    ring
  · simp only [phiPc, if_neg (by decide : ¬ ("A" = "T")), if_neg (by decide : ¬ ("A" = "L")), if_true, Bind.bind, Except.bind, pure, Except.pure]
    pcsteps
    simp only [reC_eq, Complex.add_re, Complex.add_im, Complex.re_ofReal_mul, Complex.im_ofReal_mul, Complex.mul_re, Complex.mul_im, Complex.re_ofNat,
      Complex.im_ofNat, Complex.ofReal_re, Complex.ofReal_im]
    simp only [c7, c9, c10]
    ring
  · intro I h1 h2 h3
    simp only [phiPc, if_neg h1, if_neg h2, if_neg h3, Bind.bind, Except.bind]

/-- Reparametrisation invariance: for `C10 = 0` the correction proportional to the kinetic energy `λ₁` is `λ₁/(2 mb²)` times the
tree-level massless rate. -/
theorem C132_lambda1 (s l1 mb : ℝ) (hs : s ≠ 0) (w : String → ℂ) (q l : String) :
    ∃ pL pT, phiPc "L" s l1 0 mb w q l = .ok pL ∧ phiPc "T" s l1 0 mb w q l = .ok pT ∧
      pL + pT = l1/(2*mb^2) * fll s 0 0 (w ("C7eff_b" ++ q)) (w ("C9_b" ++ q ++ (l ++ l))) 0 0 0 := by
  refine ⟨_, _, pcL s l1 0 mb w q l, pcT s l1 0 mb w q l, ?_⟩
  simp only [fll]
  norm_num
  field_simp
  ring

/-- **Finding.** The same correction is missing for `C10`: with `C10` the only non-zero coefficient the power correction to the
rate vanishes although the tree-level rate does not. -/
theorem C132_lambda1_witness (s l1 l2 mb : ℝ) (h0 : 0 < s) (h1 : s < 1) (w : String → ℂ) (q l : String)
    (h7 : w ("C7eff_b" ++ q) = 0) (h9 : w ("C9_b" ++ q ++ (l ++ l)) = 0) (h10 : w ("C10_b" ++ q ++ (l ++ l)) ≠ 0) :
    phiPc "L" s l1 l2 mb w q l = .ok 0 ∧ phiPc "T" s l1 l2 mb w q l = .ok 0 ∧
    0 < fll s 0 0 0 0 (w ("C10_b" ++ q ++ (l ++ l))) 0 0 := by
  refine ⟨by rw [pcL, h7, h9]; simp [reC], by rw [pcT, h7, h9]; simp [reC], ?_⟩
  simp only [fll, reC]
  have : 0 < 1 - s := by linarith
  have : 0 < ‖w ("C10_b" ++ q ++ (l ++ l))‖ := norm_pos_iff.mpr h10
  norm_num
  positivity

/-- All the entries needed for the rate exist on both sides of `sh = 1/2`; those of (2,2), (7,7), (7,9), (9,9) are real. -/
theorem wem_br (sh mb ml scale mc : ℝ) : ∃ (w22 w77 w79 w99 : ℝ) (w27 w29 : ℂ),
    wem "BR" 2 2 sh mb ml scale mc = .ok w22 ∧ wem "BR" 7 7 sh mb ml scale mc = .ok w77 ∧ wem "BR" 7 9 sh mb ml scale mc = .ok w79 ∧
    wem "BR" 9 9 sh mb ml scale mc = .ok w99 ∧ wem "BR" 2 7 sh mb ml scale mc = .ok w27 ∧ wem "BR" 2 9 sh mb ml scale mc = .ok w29 := by
  by_cases h : sh < 0.5
  · simp only [wem, if_pos h]
    exact ⟨_, _, _, _, _, _, rfl, rfl, rfl, rfl, rfl, rfl⟩
  · simp only [wem, if_neg h]
    exact ⟨_, _, _, _, _, _, rfl, rfl, rfl, rfl, rfl, rfl⟩

theorem sig_br (sh : ℝ) : sigmaij "BR" 7 7 sh = .ok (4*(1-sh)^2 + 8*(1-sh)^2/sh) ∧ sigmaij "BR" 7 9 sh = .ok (4*(1-sh)^2 + 8*(1-sh)^2)
    ∧ sigmaij "BR" 9 9 sh = .ok ((1-sh)^2 + 2*sh*(1-sh)^2) := by
  refine ⟨?_, ?_, ?_⟩ <;> simp [sigmaij]

/-- The log-enhanced QED correction to the rate, for any complex coefficients: the four-quark coefficients enter through
`C2 + 4/3 C1` in every term but the interference with `C7`, where `C1` is absent. -/
theorem C132_qed_rate (sh mb ml alphas alphae mc scale : ℝ) (ha : alphas ≠ 0) (w : String → ℂ) (q l : String) :
    let c1 := w ("C1_b" ++ q)
    let c2 := w ("C2_b" ++ q)
    let c7 := w ("C7eff_b" ++ q)
    let c9 := w ("C9_b" ++ q ++ (l ++ l))
    let c10 := w ("C10_b" ++ q ++ (l ++ l))
    ∃ (w22 w77 w79 w99 : ℝ) (w27 w29 : ℂ),
      wem "BR" 2 2 sh mb ml scale mc = .ok w22 ∧ wem "BR" 7 7 sh mb ml scale mc = .ok w77 ∧ wem "BR" 7 9 sh mb ml scale mc = .ok w79 ∧
      wem "BR" 9 9 sh mb ml scale mc = .ok w99 ∧ wem "BR" 2 7 sh mb ml scale mc = .ok w27 ∧ wem "BR" 2 9 sh mb ml scale mc = .ok w29 ∧
      phiQed "BR" sh mb ml alphas alphae w q l mc scale = .ok (2*alphae/Real.pi*(1-sh)^2 * (
        4*(1+2/sh)*w77*‖c7‖^2 + 12*w79*reC c7 c9 + (1+2*sh)*w99*(‖c9‖^2 + ‖c10‖^2)
        + (1+2*sh)*w22*‖c2 + 4/3*c1‖^2 + (1+2*sh)*reC (w29*(c2 + 4/3*c1)) c9 + 12*reC (w27*c2) c7)) := by
  intro c1 c2 c7 c9 c10
  obtain ⟨w22, w77, w79, w99, w27, w29, e22, e77, e79, e99, e27, e29⟩ := wem_br sh mb ml scale mc
  obtain ⟨s77, s79, s99⟩ := sig_br sh
  refine ⟨w22, w77, w79, w99, w27, w29, e22, e77, e79, e99, e27, e29, ?_⟩
  have hor : ("BR" = "T" ∨ "BR" = "L" ∨ "BR" = "BR") := Or.inr (Or.inr rfl)
  simp only [phiQed, qedMatrix, if_pos hor, e22, e77, e79, e99, e27, e29, s77, s79, s99, Bind.bind, Except.bind, pure, Except.pure]
  refine congrArg Except.ok ?_
  have hk : 8 * (alphas/(4*Real.pi)) * (alphae/alphas) = 2*alphae/Real.pi := by field_simp; ring
  simp (config := {decide := true}) only [dot_upd, dot_zeros, upd, zeros, if_false, if_true, sub_zero, zero_add, vec1, vec2, vec7, vec9, vec10, and_false,
    false_and, hk, mul_zero, zero_mul, add_zero]
  simp only [reC_eq, nsq, Complex.add_re, Complex.add_im, Complex.mul_re, Complex.mul_im, Complex.re_ofNat,
      Complex.im_ofNat, Complex.ofReal_re, Complex.ofReal_im, Complex.conj_re, Complex.conj_im, Complex.div_ofNat_re, Complex.div_ofNat_im]
  simp only [c1, c2, c7, c9, c10]
  ring

/-- The same for the asymmetry, available for `sh < 1/2`: here only `C2 + 4/3 C1` enters. -/
theorem C132_qed_afb (sh mb ml alphas alphae mc scale : ℝ) (ha : alphas ≠ 0) (h : sh < 0.5) (w : String → ℂ) (q l : String) :
    let c1 := w ("C1_b" ++ q)
    let c2 := w ("C2_b" ++ q)
    let c7 := w ("C7eff_b" ++ q)
    let c9 := w ("C9_b" ++ q ++ (l ++ l))
    let c10 := w ("C10_b" ++ q ++ (l ++ l))
    phiQed "A" sh mb ml alphas alphae w q l mc scale = .ok (-2*alphae/Real.pi*(1-sh)^2 * (
        8*wem_710_HA_low sh mb ml scale mc*reC c7 c10 + 4*sh*wem_910_HA_low sh mb ml scale mc*reC c9 c10
        + 4*sh*reC (wem_210_HA_low sh mb ml scale mc*(c2 + 4/3*c1)) c10)) := by
  intro c1 c2 c7 c9 c10
  have hor : ¬ ("A" = "T" ∨ "A" = "L" ∨ "A" = "BR") := by decide
  have e7 : wem "A" 7 10 sh mb ml scale mc = .ok (wem_710_HA_low sh mb ml scale mc) := by simp only [wem, if_pos h]; rfl
  have e9 : wem "A" 9 10 sh mb ml scale mc = .ok (wem_910_HA_low sh mb ml scale mc) := by simp only [wem, if_pos h]; rfl
  have e2 : wem "A" 2 10 sh mb ml scale mc = .ok (wem_210_HA_low sh mb ml scale mc) := by simp only [wem, if_pos h]; rfl
  have s7 : sigmaij "A" 7 10 sh = .ok (-8*(1-sh)^2) := by simp [sigmaij]
  have s9 : sigmaij "A" 9 10 sh = .ok (-4*sh*(1-sh)^2) := by simp [sigmaij]
  simp only [phiQed, qedMatrix, if_neg hor, if_true, e7, e9, e2, s7, s9, Bind.bind, Except.bind, pure, Except.pure]
  refine congrArg Except.ok ?_
  have hk : 8 * (alphas/(4*Real.pi)) * (alphae/alphas) = 2*alphae/Real.pi := by field_simp; ring
  simp (config := {decide := true}) only [dot_upd, dot_zeros, upd, zeros, if_false, if_true, sub_zero, zero_add, vec1, vec2, vec7, vec9, vec10, and_false,
    false_and, hk, mul_zero, zero_mul, add_zero]
  simp only [reC_eq, nsq, Complex.add_re, Complex.add_im, Complex.mul_re, Complex.mul_im, Complex.re_ofNat,
      Complex.im_ofNat, Complex.ofReal_re, Complex.ofReal_im, Complex.conj_re, Complex.conj_im, Complex.div_ofNat_re, Complex.div_ofNat_im]
  simp only [c1, c2, c7, c9, c10]
  ring

/-- **Finding.** The claim "C1 and C2 enter the QED correction to the rate only through `C2 + 4/3 C1`" is false of the code: two
sets of coefficients with the same `C2 + 4/3 C1` and different `C1` give different corrections (whenever the entry (2,7) is
not zero), because `e[1,7] = 4/3 e[2,7]` is evaluated before `e[2,7]` is set. -/
theorem C132_order_witness (sh mb ml alphas alphae mc scale : ℝ) (ha : alphas ≠ 0) (he : alphae ≠ 0) (h1 : sh ≠ 1) (w w' : String → ℂ) (q l : String)
    (h12 : w ("C2_b" ++ q) + 4/3*w ("C1_b" ++ q) = w' ("C2_b" ++ q) + 4/3*w' ("C1_b" ++ q))
    (h7 : w ("C7eff_b" ++ q) = w' ("C7eff_b" ++ q)) (h9 : w ("C9_b" ++ q ++ (l ++ l)) = w' ("C9_b" ++ q ++ (l ++ l)))
    (h10 : w ("C10_b" ++ q ++ (l ++ l)) = w' ("C10_b" ++ q ++ (l ++ l))) :
    ∃ x y : ℝ, ∃ w27 : ℂ, phiQed "BR" sh mb ml alphas alphae w q l mc scale = .ok x ∧ phiQed "BR" sh mb ml alphas alphae w' q l mc scale = .ok y ∧
      wem "BR" 2 7 sh mb ml scale mc = .ok w27 ∧
      (reC (w27*(w' ("C1_b" ++ q) - w ("C1_b" ++ q))) (w ("C7eff_b" ++ q)) ≠ 0 → x ≠ y) := by
  obtain ⟨a22, a77, a79, a99, a27, a29, f22, f77, f79, f99, f27, f29, hx⟩ := C132_qed_rate sh mb ml alphas alphae mc scale ha w q l
  obtain ⟨b22, b77, b79, b99, b27, b29, g22, g77, g79, g99, g27, g29, hy⟩ := C132_qed_rate sh mb ml alphas alphae mc scale ha w' q l
  refine ⟨_, _, _, hx, hy, f27, ?_⟩
  have i22 : a22 = b22 := by have := f22.symm.trans g22; simpa using this
  have i77 : a77 = b77 := by have := f77.symm.trans g77; simpa using this
  have i79 : a79 = b79 := by have := f79.symm.trans g79; simpa using this
  have i99 : a99 = b99 := by have := f99.symm.trans g99; simpa using this
  have i27 : a27 = b27 := by have := f27.symm.trans g27; simpa using this
  have i29 : a29 = b29 := by have := f29.symm.trans g29; simpa using this
  subst i22 i77 i79 i99 i27 i29
  intro hne heq
  apply hne
  rw [h12, h7, h9, h10] at heq
  have h2 : w ("C2_b" ++ q) = w' ("C2_b" ++ q) + 4/3*(w' ("C1_b" ++ q) - w ("C1_b" ++ q)) := by linear_combination h12
  rw [h2] at heq
  have hc : 2*alphae/Real.pi*(1-sh)^2 ≠ 0 := mul_ne_zero (div_ne_zero (mul_ne_zero two_ne_zero he) Real.pi_ne_zero) (pow_ne_zero 2 (sub_ne_zero.mpr h1.symm))
  have h3 := mul_left_cancel₀ hc heq
  have e : ∀ u v : ℂ, reC (a27*(u + 4/3*v)) (w' ("C7eff_b" ++ q)) = reC (a27*u) (w' ("C7eff_b" ++ q)) + 4/3*reC (a27*v) (w' ("C7eff_b" ++ q)) := by
    intro u v
    simp only [reC_eq, Complex.add_re, Complex.add_im, Complex.mul_re, Complex.mul_im, Complex.re_ofNat, Complex.im_ofNat, Complex.div_ofNat_re, Complex.div_ofNat_im]
    ring
  rw [e] at h3
  rw [h7]
  linarith

end Verif.Xll
