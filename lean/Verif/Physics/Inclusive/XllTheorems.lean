import Verif.Physics.Inclusive.Xll
import Verif.Physics.Inclusive.XllQedTheorems
import Mathlib.Analysis.Complex.ExponentialBounds
/-!
# Properties of `bxll.py`: the rate (C130), the forward-backward asymmetry (C131), QED and power corrections (C132)
-/
set_option linter.unusedVariables false
set_option linter.unusedSimpArgs false
namespace Verif.Xll
open Verif.Py Verif Verif.Running Verif.FormFactors Verif.BxllQed Complex

theorem nsq (z : ℂ) : ‖z‖^2 = z.re^2 + z.im^2 := by
  rw [← Complex.normSq_eq_norm_sq, Complex.normSq_apply]; ring

theorem reC_eq (x y : ℂ) : reC x y = x.re*y.re + x.im*y.im := by
  simp only [reC, Complex.mul_re, Complex.conj_re, Complex.conj_im]; ring

/-- **Specification.** The tree-level rate as a sum of squares of helicity amplitudes; `r = mℓ/mb`. -/
noncomputable def loRate (s r : ℝ) (c7 c9 c10 cs cp : ℂ) : ℝ :=
  (1-s)^2 * Real.sqrt (1 - 4*r^2/s) * (
    (1 + 2*r^2/s) * (‖c9 + 2*c7‖^2 + 2*s*‖c9 + 2*c7/s‖^2)
    + (1 + 2*s)*(1 - 4*r^2/s)*‖c10‖^2
    + 3/2*s*‖cp + ((2*r/s : ℝ) : ℂ)*c10‖^2 + 3/2*s*(1 - 4*r^2/s)*‖cs‖^2)

/-- Without gluon corrections `f_ll` is a sum of squares of helicity amplitudes. -/
theorem C130_squares (s r : ℝ) (hs : 0 < s) (c7 c9 c10 cs cp : ℂ) :
    fll s r 0 c7 c9 c10 cs cp = loRate s r c7 c9 c10 cs cp := by
  have h := hs.ne'
  have e : (2*c7/s : ℂ) = ((2/s : ℝ) : ℂ) * c7 := by push_cast; ring
  simp only [fll, loRate, e, nsq, reC_eq, Complex.add_re, Complex.add_im, Complex.re_ofReal_mul, Complex.im_ofReal_mul,
    Complex.mul_re, Complex.mul_im, Complex.re_ofNat, Complex.im_ofNat, Complex.ofReal_re, Complex.ofReal_im, zero_div, zero_mul, add_zero, sub_zero]
  congr 1
  field_simp
  ring

/-- The tree-level rate is never negative, for any mass above threshold and any complex coefficients. -/
theorem C130_nonneg (s r : ℝ) (hs : 0 < s) (hr : 4*r^2 ≤ s) (c7 c9 c10 cs cp : ℂ) : 0 ≤ fll s r 0 c7 c9 c10 cs cp := by
  rw [C130_squares s r hs]
  have h1 : 0 ≤ 1 - 4*r^2/s := by rw [sub_nonneg, div_le_one hs]; exact hr
  unfold loRate
  positivity

/-- The Wilson coefficients with all the coefficients multiplied by a common number. (Specification.) -/
def WcEff.scale (z : ℂ) (w : WcEff) : WcEff :=
  ⟨z*w.c7, z*w.c7p, z*w.v, z*w.vp, z*w.a, z*w.ap, z*w.s, z*w.sp, z*w.p, z*w.pp⟩

/-- Only relative phases matter: a common factor `z` multiplies the rate by `|z|²` (also with gluon corrections). -/
theorem C130_phase (s r a : ℝ) (z c7 c9 c10 cs cp : ℂ) :
    fll s r a (z*c7) (z*c9) (z*c10) (z*cs) (z*cp) = ‖z‖^2 * fll s r a c7 c9 c10 cs cp := by
  have hr : ∀ x y : ℂ, reC (z*x) (z*y) = ‖z‖^2 * reC x y := by
    intro x y; rw [reC_eq, reC_eq, nsq]; simp only [Complex.mul_re, Complex.mul_im]; ring
  simp only [fll, hr, norm_mul, mul_pow]
  ring

/-- The combination of bremsstrahlung functions multiplying the coupling for `C9 = -2 C7`, near the end of the spectrum. -/
theorem endpoint_aux (t : ℝ) (h0 : 0 < t) (h1 : t ≤ 1/6) :
    (1 + 2/(1-t)) * tau77 (1-t) - 6 * tau79 (1-t) + (1 + 2*(1-t)) * tau99 (1-t) ≤ t^2 * (4/3) * Real.log t := by
  have hL : Real.log t < 0 := Real.log_neg h0 (by linarith)
  have hl : Real.log (1-t) ≤ -(t + t^2/2 + t^3/3 + t^4/4) := by
    have h := Real.abs_log_sub_add_sum_range_le (x := t) (by rw [abs_of_pos h0]; linarith) 5
    simp only [Finset.sum_range_succ, Finset.sum_range_zero] at h
    norm_num at h
    have h2 := (abs_le.mp h).2
    have : |t|^6/(1-|t|) ≤ t^5/5 := by
      rw [abs_of_pos h0, div_le_iff₀ (by linarith)]
      nlinarith [pow_pos h0 5, mul_nonneg (pow_pos h0 5).le (sub_nonneg.mpr h1)]
    linarith
  have hs : 0 < 1 - t := by linarith
  have e : (1 + 2/(1-t)) * tau77 (1-t) - 6 * tau79 (1-t) + (1 + 2*(1-t)) * tau99 (1-t)
      = t^2/9*(20/(1-t) - 8)*Real.log t + (12*(1-t)*(5 - 9*t + 4*t^2 - 2*t^3)*Real.log (1-t) + t*(60 - 138*t + 92*t^2 - 36*t^3))/(9*t^2*(1-t)) := by
    have a1 : (1:ℝ) - (1 - t) = t := by ring
    have a2 : (2:ℝ) + (1 - t) ≠ 0 := by linarith
    have a3 : (1:ℝ) + 2*(1 - t) ≠ 0 := by linarith
    simp only [tau77, tau79, tau99, a1]
    have := h0.ne'
    have := hs.ne'
    generalize Real.log t = L at *
    generalize Real.log (1-t) = l at *
    field_simp
    ring
  have hp : 0 ≤ 5 - 9*t + 4*t^2 - 2*t^3 := by nlinarith [pow_pos h0 2, pow_pos h0 3, mul_nonneg h0.le (sub_nonneg.mpr h1)]
  have hR : 12*(1-t)*(5 - 9*t + 4*t^2 - 2*t^3)*Real.log (1-t) + t*(60 - 138*t + 92*t^2 - 36*t^3) ≤ 0 := by
    have h3 : 12*(1-t)*(5 - 9*t + 4*t^2 - 2*t^3)*Real.log (1-t)
        ≤ 12*(1-t)*(5 - 9*t + 4*t^2 - 2*t^3)*(-(t + t^2/2 + t^3/3 + t^4/4)) :=
      mul_le_mul_of_nonneg_left hl (by positivity)
    have h4 : 12*(1-t)*(5 - 9*t + 4*t^2 - 2*t^3)*(-(t + t^2/2 + t^3/3 + t^4/4)) + t*(60 - 138*t + 92*t^2 - 36*t^3)
        = t^4*(-1 + 2*t - 27*t^2 + 10*t^3 - 6*t^4) := by ring
    have h5 : -1 + 2*t - 27*t^2 + 10*t^3 - 6*t^4 ≤ 0 := by nlinarith [pow_pos h0 2, pow_pos h0 3, pow_pos h0 4, mul_nonneg (pow_pos h0 2).le (sub_nonneg.mpr h1)]
    nlinarith [mul_nonneg (pow_pos h0 4).le (neg_nonneg.mpr h5)]
  rw [e]
  have h6 : (12*(1-t)*(5 - 9*t + 4*t^2 - 2*t^3)*Real.log (1-t) + t*(60 - 138*t + 92*t^2 - 36*t^3))/(9*t^2*(1-t)) ≤ 0 :=
    div_nonpos_of_nonpos_of_nonneg hR (by positivity)
  have h7 : 12 ≤ 20/(1-t) - 8 := by
    have : 20 ≤ 20/(1-t) := by rw [le_div_iff₀ hs]; linarith
    linarith
  have h8 : t^2/9*(20/(1-t) - 8)*Real.log t ≤ t^2/9*12*Real.log t :=
    mul_le_mul_of_nonpos_right (mul_le_mul_of_nonneg_left h7 (by positivity)) hL.le
  linarith

/-- **Finding.** With gluon corrections positivity fails at the very end of the spectrum, however small the coupling: the
`(1-s)² log(1-s)` term of the bremsstrahlung functions wins over the `(1-s)²` of the tree-level amplitude. -/
theorem C130_endpoint_witness (a : ℝ) (ha : 0 < a) :
    ∃ s : ℝ, 0 < s ∧ s < 1 ∧ fll s 0 a 1 (-2) 0 0 0 < 0 := by
  set b := a/Real.pi with hb
  have hbp : 0 < b := div_pos ha Real.pi_pos
  set t := Real.exp (-(3/b + 2)) with ht
  have h0 : 0 < t := Real.exp_pos _
  have hlog : Real.log t = -(3/b + 2) := Real.log_exp _
  have h1 : t ≤ 1/6 := by
    have : Real.exp (-(3/b+2)) ≤ Real.exp (-2) := Real.exp_le_exp.mpr (by have := div_pos (by norm_num : (0:ℝ) < 3) hbp; linarith)
    have e2 : Real.exp (-2) ≤ 1/6 := by
      rw [Real.exp_neg, inv_le_comm₀ (Real.exp_pos _) (by norm_num)]
      have : Real.exp 2 = Real.exp 1 * Real.exp 1 := by rw [← Real.exp_add]; norm_num
      have h := Real.exp_one_gt_d9
      norm_num at h ⊢
      rw [this]; nlinarith
    linarith
  have haux := endpoint_aux t h0 h1
  refine ⟨1 - t, by linarith, by linarith, ?_⟩
  have hs : 0 < 1 - t := by linarith
  have e : fll (1-t) 0 a 1 (-2) 0 0 0 = t^2 * (4*(2*t^2/(1-t) + b*((1 + 2/(1-t)) * tau77 (1-t) - 6 * tau79 (1-t) + (1 + 2*(1-t)) * tau99 (1-t)))) := by
    simp only [fll, reC_eq, ← hb]
    norm_num
    have := hs.ne'
    left
    field_simp
    ring
  rw [e]
  have h9 : 2*t^2/(1-t) ≤ 4*t^2 := by rw [div_le_iff₀ hs]; nlinarith [pow_pos h0 2]
  have h10 : b*((1 + 2/(1-t)) * tau77 (1-t) - 6 * tau79 (1-t) + (1 + 2*(1-t)) * tau99 (1-t)) ≤ b*(t^2 * (4/3) * Real.log t) :=
    mul_le_mul_of_nonneg_left haux hbp.le
  have h11 : b*(t^2 * (4/3) * Real.log t) = -4*t^2 - 8/3*b*t^2 := by rw [hlog]; field_simp; ring
  have h12 : 0 < 8/3*b*t^2 := by positivity
  have : 2*t^2/(1-t) + b*((1 + 2/(1-t)) * tau77 (1-t) - 6 * tau79 (1-t) + (1 + 2*(1-t)) * tau99 (1-t)) < 0 := by linarith
  have : 0 < t^2 := by positivity
  nlinarith

/-- The bremsstrahlung function inside the physical region. -/
theorem sigma_ok (s : ℝ) (h0 : 0 < s) (h1 : s < 1) : ∃ x, sigma s = .ok x := by
  simp only [sigma, pyLog, if_neg (not_le.mpr h0), if_neg (not_le.mpr (sub_pos.mpr h1)), Bind.bind, Except.bind, pure, Except.pure]
  exact ⟨_, rfl⟩

theorem sigma_one : sigma 1 = .error .valueError := by
  have h1 : ¬ ((1:ℝ) ≤ 0) := by norm_num
  have h2 : (1:ℝ) - 1 ≤ 0 := by norm_num
  simp only [sigma, pyLog, if_neg h1, if_pos h2, Bind.bind, Except.bind]

/-- Outside `4 mℓ² ≤ q² ≤ mb²` the rate, the numerator and the denominator of the asymmetry are zero; exactly at `q² = mb²`
they raise `ValueError` (`math domain error`). -/
theorem C130_region (E : Env) (q lep : String) (qed pc : Bool) :
    (∀ q2, (q2 < 4*(E.mass lep)^2 ∨ E.mb^2 < q2) → unnorm E q2 q lep qed pc = .ok 0 ∧ dbr1 E q2 q lep qed pc = .ok 0
      ∧ afbNum1 E q2 q lep qed pc = .ok 0) ∧
    (4*(E.mass lep)^2 ≤ E.mb^2 → E.mb ≠ 0 → unnorm E (E.mb^2) q lep qed pc = .error .valueError
      ∧ dbr1 E (E.mb^2) q lep qed pc = .error .valueError ∧ afbNum1 E (E.mb^2) q lep qed pc = .error .valueError) := by
  constructor
  · intro q2 h
    simp only [unnorm, dbr1, afbNum1, gt_iff_lt, if_pos h]
    exact ⟨rfl, rfl, rfl⟩
  · intro h hm
    have hn : ¬ (E.mb^2 < 4*(E.mass lep)^2 ∨ E.mb^2 > E.mb^2) := by push Not; exact ⟨h, le_refl _⟩
    have e1 : E.mb^2/E.mb^2 = 1 := div_self (pow_ne_zero 2 hm)
    have hw : inclusiveWc E (E.mb^2) q lep = .error .valueError := by
      simp only [inclusiveWc, e1, sigma7, sigma_one, Bind.bind, Except.bind]
    simp only [unnorm, dbr1, afbNum1, if_neg hn, hw, Bind.bind, Except.bind]
    exact ⟨trivial, trivial, trivial⟩

/-- `ℓ` is the average of electron and muon. -/
theorem C130_average (E : Env) (q2 : ℝ) (q : String) (e m : ℝ) (he : dbrdq2 E q2 q "e" = .ok e) (hm : dbrdq2 E q2 q "mu" = .ok m) :
    dbrdq2 E q2 q "l" = .ok ((e + m)/2) := by
  have h1 : dbrdq2 E q2 q "e" = dbr1 E q2 q "e" true true := by simp only [dbrdq2, if_neg (by decide : ¬ ("e" = "l"))]
  have h2 : dbrdq2 E q2 q "mu" = dbr1 E q2 q "mu" true true := by simp only [dbrdq2, if_neg (by decide : ¬ ("mu" = "l"))]
  rw [h1] at he; rw [h2] at hm
  simp only [dbrdq2, if_true, he, hm, Bind.bind, Except.bind, pure, Except.pure]

/-- The rate without QED and power corrections at vanishing strong coupling: the sum of two sums of squares, one for each
chirality, of the coefficients with the four-quark contributions added to the unprimed ones. -/
theorem C130_lo_value (E : Env) (q2 : ℝ) (q lep : String) (h0 : E.alphas = 0) (hm : E.mb ≠ 0) (hq : 0 < q2)
    (h1 : 4*(E.mass lep)^2 ≤ q2) (h2 : q2 < E.mb^2) :
    let W (n : String) := E.wc lep (n ++ "_b" ++ q)
    let L (n : String) := E.wc lep (n ++ "_b" ++ q ++ (lep ++ lep))
    unnorm E q2 q lep false false = .ok (
      loRate (q2/E.mb^2) (E.mass lep/E.mb) (W "C7eff" + E.dC7 lep q2)
        (L "C9" + E.dC9 lep q2 + (E.y lep q2 + E.xiu/E.xit * E.yu lep q2)) (L "C10") (E.mbMS * L "CS") (E.mbMS * L "CP")
      + loRate (q2/E.mb^2) (E.mass lep/E.mb) (W "C7effp") (L "C9p") (L "C10p") (E.mbMS * L "CSp") (E.mbMS * L "CPp")) := by
  intro W L
  have hmb : 0 < E.mb^2 := by positivity
  have hs : 0 < q2/E.mb^2 := div_pos hq hmb
  have hs1 : q2/E.mb^2 < 1 := by rw [div_lt_one hmb]; exact h2
  obtain ⟨x, hx⟩ := sigma_ok _ hs hs1
  have hn : ¬ (q2 < 4*(E.mass lep)^2 ∨ q2 > E.mb^2) := by push Not; exact ⟨h1, h2.le⟩
  simp only [unnorm, if_neg hn, inclusiveWc, sigma7, sigma9, hx, h0, zero_div, zero_mul, add_zero, Complex.ofReal_one, mul_one,
    Bind.bind, Except.bind, pure, Except.pure, Bool.false_eq_true, if_false, C130_squares _ _ hs]
  rfl

/-- The result is never negative (tree level, any Wilson coefficients, any masses with a physical phase space). -/
theorem C130_lo_nonneg (E : Env) (q2 : ℝ) (q lep : String) (h0 : E.alphas = 0) (hm : E.mb ≠ 0) (hq : 0 < q2) (h2 : q2 ≠ E.mb^2) :
    ∃ x, unnorm E q2 q lep false false = .ok x ∧ 0 ≤ x := by
  by_cases h : q2 < 4*(E.mass lep)^2 ∨ E.mb^2 < q2
  · exact ⟨0, ((C130_region E q lep false false).1 q2 h).1, le_refl _⟩
  · push Not at h
    have hmb : 0 < E.mb^2 := by positivity
    have hs : 0 < q2/E.mb^2 := div_pos hq hmb
    refine ⟨_, C130_lo_value E q2 q lep h0 hm hq h.1 (lt_of_le_of_ne h.2 h2), ?_⟩
    have hr : 4*(E.mass lep/E.mb)^2 ≤ q2/E.mb^2 := by
      rw [div_pow, ← mul_div_assoc]; exact div_le_div_of_nonneg_right h.1 hmb.le
    rw [← C130_squares _ _ hs, ← C130_squares _ _ hs]
    exact add_nonneg (C130_nonneg _ _ hs hr _ _ _ _ _) (C130_nonneg _ _ hs hr _ _ _ _ _)

/-- **Specification.** `W'` is `W` with every coefficient exchanged with its primed partner. -/
def Swapped (W W' : String → ℂ) (q lep : String) : Prop :=
  ∀ m ∈ [("C7eff_b" ++ q, "C7effp_b" ++ q)] ++ [("C9_b", "C9p_b"), ("C10_b", "C10p_b"), ("CS_b", "CSp_b"), ("CP_b", "CPp_b")].map
      (fun p => (p.1 ++ q ++ (lep ++ lep), p.2 ++ q ++ (lep ++ lep))),
    W' m.1 = W m.2 ∧ W' m.2 = W m.1

/-- Parity: without the QED and power corrections, and with no four-quark contributions, exchanging primed and unprimed
coefficients leaves the rate unchanged and flips the sign of the forward-backward numerator. -/
theorem C130_swap (E : Env) (W' : String → String → ℂ) (q2 : ℝ) (q lep : String) (hsw : Swapped (E.wc lep) (W' lep) q lep)
    (hy : E.y lep q2 = 0) (hyu : E.yu lep q2 = 0) (h7 : E.dC7 lep q2 = 0) (h9 : E.dC9 lep q2 = 0) :
    unnorm {E with wc := W'} q2 q lep false false = unnorm E q2 q lep false false ∧
    afbNum1 {E with wc := W'} q2 q lep false false = (afbNum1 E q2 q lep false false).map (fun x => -x) := by
  simp only [Swapped, List.map_cons, List.map_nil, List.cons_append, List.nil_append, List.mem_cons, List.not_mem_nil, or_false,
    forall_eq_or_imp, forall_eq] at hsw
  obtain ⟨⟨a1, a2⟩, ⟨b1, b2⟩, ⟨c1, c2⟩, ⟨d1, d2⟩, ⟨e1, e2⟩⟩ := hsw
  constructor
  · simp only [unnorm, inclusiveWc, hy, hyu, h7, h9, mul_zero, add_zero, Bind.bind, Except.bind, pure, Except.pure,
      Bool.false_eq_true, if_false, a1, a2, b1, b2, c1, c2, d1, d2, e1, e2]
    split_ifs
    · rfl
    · cases sigma7 (q2/E.mb^2) E.scale E.mb with
      | error => rfl
      | ok x =>
        cases sigma9 (q2/E.mb^2) with
        | error => rfl
        | ok y => exact congrArg Except.ok (add_comm _ _)
  · simp only [afbNum1, inclusiveWc, hy, hyu, h7, h9, mul_zero, add_zero, Bind.bind, Except.bind, pure, Except.pure,
      Bool.false_eq_true, if_false, a1, a2, b1, b2, c1, c2, d1, d2, e1, e2, false_and]
    split_ifs
    · simp [Except.map]
    · cases sigma7 (q2/E.mb^2) E.scale E.mb with
      | error => rfl
      | ok x =>
        cases sigma9 (q2/E.mb^2) with
        | error => rfl
        | ok y =>
          simp only [fllHa, Bind.bind, Except.bind, pure, Except.pure]
          cases tau710 (q2/E.mb^2) with
          | error => rfl
          | ok t =>
            simp only [Except.map]
            refine congrArg Except.ok ?_
            simp only [unc]
            ring

end Verif.Xll
