import Verif.Physics.Inclusive.XlnuFun
import Verif.Physics.Kdecays.KllTheorems
set_option linter.unusedVariables false
set_option linter.unusedSimpArgs false
namespace Verif.Xlnu
open Verif.Py Verif.Running Verif.Lambdap Complex

theorem csqrt_ofReal {x : ℝ} (hx : 0 ≤ x) : csqrt (x : ℂ) = ((√x : ℝ) : ℂ) := by
  rw [csqrt, Real.sqrt_eq_rpow, Complex.ofReal_cpow hx]; norm_num
theorem clog_ofReal {x : ℝ} (hx : 0 ≤ x) : Complex.log (x : ℂ) = ((Real.log x : ℝ) : ℂ) := (Complex.ofReal_log hx).symm

/-- The kinematically allowed region: the charm quark and the lepton are lighter together than the b quark. (Specification;
`xc`, `xl` are the squared masses in units of the squared b mass.) -/
def Allowed (xc xl : ℝ) : Prop := 0 < xc ∧ 0 < xl ∧ √xc + √xl < 1

theorem Allowed.b {xc xl : ℝ} (h : Allowed xc xl) : 0 < √xc ∧ √xc < 1 ∧ √xc^2 = xc ∧ xl < (1-√xc)^2 := by
  obtain ⟨h1, h2, h3⟩ := h
  have a := Real.sqrt_pos.mpr h1
  have b := Real.sqrt_pos.mpr h2
  have e : xl = √xl^2 := (Real.sq_sqrt h2.le).symm
  refine ⟨a, by linarith, Real.sq_sqrt h1.le, ?_⟩
  rw [e]; nlinarith

theorem disc_eq {xc xl : ℝ} : xc^2 + (-1 + xl)^2 - 2*xc*(1 + xl) = (1-xc-xl)^2 - 4*xc*xl := by ring
theorem disc_eq' {xc xl : ℝ} : 1 + (xc - xl)^2 - 2*(xc + xl) = (1-xc-xl)^2 - 4*xc*xl := by ring

/-- In the allowed region everything the code takes the complex logarithm or square root of is positive. -/
theorem parts {xc xl : ℝ} (h : Allowed xc xl) :
    csqrt (xc:ℂ) = ((√xc : ℝ) : ℂ) ∧ csqrt (xl:ℂ) = ((√xl : ℝ) : ℂ) ∧ csqrt ((xc*xl : ℝ):ℂ) = ((√(xc*xl) : ℝ) : ℂ) ∧
    sS xc xl = ((w xc xl : ℝ) : ℂ) ∧ Complex.log (xc:ℂ) = ((Real.log xc : ℝ) : ℂ) ∧ Complex.log (xl:ℂ) = ((Real.log xl : ℝ) : ℂ) ∧
    Complex.log 2 = ((Real.log 2 : ℝ) : ℂ) ∧ ∃ L1 : ℝ, l1 xc = (L1:ℂ) ∧ l15 xc = ((Real.log xc/2 + 2*L1 : ℝ):ℂ) ∧
    lA xc xl = ((Real.log 2 + Real.log xc/2 - Lc xc xl/2 : ℝ) : ℂ) ∧
    lC xc xl = ((Real.log 2 + Lc xc xl/2 + Ll xc xl + Real.log xl + Real.log xc/2 : ℝ) : ℂ) := by
  obtain ⟨hb, hb1, hbc, hE⟩ := h.b
  obtain ⟨h1, h2, h3⟩ := h
  set b := √xc with hbdef
  have hxc : xc = b^2 := hbc.symm
  have hw : sS xc xl = ((w xc xl : ℝ) : ℂ) := by
    rw [sS, disc_eq, csqrt_ofReal (by rw [hxc]; exact D_nonneg hb hb1 hE.le)]; rfl
  have hs := w_sq hb hb1 hE.le
  rw [← hxc] at hs
  have hwp : 0 < w xc xl := by rw [hxc]; exact w_pos hb hb1 hE
  have e2 : Complex.log 2 = ((Real.log 2 : ℝ) : ℂ) := by
    have := clog_ofReal (x := 2) (by norm_num); simpa only [Complex.ofReal_ofNat] using this
  refine ⟨csqrt_ofReal h1.le, csqrt_ofReal h2.le, csqrt_ofReal (by positivity), hw, clog_ofReal h1.le, clog_ofReal h2.le, e2,
    Real.log (1-b), ?_, ?_, ?_, ?_⟩
  · rw [l1, csqrt_ofReal h1.le, ← clog_ofReal (by linarith)]; push_cast; rfl
  · have e : csqrt (xc:ℂ) - 2*xc + ((xc ^ (1.5 : ℝ) : ℝ) : ℂ) = ((b*(1-b)^2 : ℝ) : ℂ) := by
      have : xc ^ (1.5:ℝ) = b^3 := by
        rw [hxc, ← Real.rpow_natCast, ← Real.rpow_mul hb.le, ← Real.rpow_natCast]; norm_num
      rw [this, csqrt_ofReal h1.le, ← hbdef, hxc]; push_cast; ring
    rw [l15, e, clog_ofReal (by positivity), Real.log_mul hb.ne' (by nlinarith), Real.log_pow]
    congr 1
    rw [hxc, Real.log_pow]; push_cast; ring
  · have hA : 0 < 1 + xc - xl - w xc xl := by
      have : (1+xc-xl)^2 - w xc xl^2 = 4*xc := by rw [hs]; ring
      nlinarith
    have hB : 0 < 1 + xc - xl + w xc xl := by linarith
    have hAB : (1 + xc - xl - w xc xl)*(1 + xc - xl + w xc xl) = 4*xc := by linear_combination -hs
    rw [lA, disc_eq', csqrt_ofReal (by rw [hxc]; exact D_nonneg hb hb1 hE.le)]
    have e : (1 + xc - xl - ((√((1-xc-xl)^2 - 4*xc*xl) : ℝ):ℂ) : ℂ) = ((1 + xc - xl - w xc xl : ℝ) : ℂ) := by push_cast; rfl
    rw [e, clog_ofReal hA.le]
    congr 1
    have := Real.log_mul hA.ne' hB.ne'
    rw [hAB, Real.log_mul (by norm_num) h1.ne', show (4:ℝ) = 2^2 by norm_num, Real.log_pow] at this
    rw [Lc, Real.log_mul (by norm_num) h1.ne', show (4:ℝ) = 2^2 by norm_num, Real.log_pow]
    push_cast at *; linarith
  · have hB : 0 < 1 - xc - xl + w xc xl := by nlinarith
    have hB' : 0 < 1 - xc + xl + w xc xl := by nlinarith
    have hBc : 0 < 1 + xc - xl + w xc xl := by nlinarith
    have e : (1 + xc^2 - xl + sS xc xl - xc*(2 + xl + sS xc xl) : ℂ)
        = (((1 - xc - xl + w xc xl)*(1 - xc + xl + w xc xl)/2 : ℝ) : ℂ) := by
      rw [hw]
      have : (1 + xc^2 - xl + w xc xl - xc*(2 + xl + w xc xl) : ℝ) = (1 - xc - xl + w xc xl)*(1 - xc + xl + w xc xl)/2 := by
        linear_combination (-1/2)*hs
      rw [← this]; push_cast; ring
    rw [lC, e, clog_ofReal (by positivity)]
    congr 1
    have hq : (1 + xc - xl + w xc xl)*(1 - xc + xl + w xc xl) = 2*(1 - xc - xl + w xc xl) := by linear_combination hs
    have hl := congrArg Real.log hq
    rw [Real.log_mul hBc.ne' hB'.ne', Real.log_mul (by norm_num) hB.ne'] at hl
    rw [Real.log_div (mul_pos hB hB').ne' (by norm_num), Real.log_mul hB.ne' hB'.ne', Lc, Ll, Real.log_mul (by norm_num) h1.ne',
      Real.log_mul (by norm_num) h2.ne', show (4:ℝ) = 2^2 by norm_num, Real.log_pow]
    push_cast
    linarith

theorem log_ratio {a s : ℝ} {k : ℝ} (hk : 0 < k) (hp : 0 < a + s) (h : (a - s)*(a + s) = 4*k) :
    2*Real.log (a + s) - Real.log (4*k) = Real.log ((a + s)/(a - s)) := by
  have hm : 0 < a - s := by by_contra hn; push Not at hn; nlinarith
  rw [Real.log_div hp.ne' hm.ne', ← h, Real.log_mul hm.ne' hp.ne']; ring

/-- The physicists' closed forms (Specification): `s` the Källén root, `Λ` the two rapidity logarithms. -/
noncomputable def kallenRoot (xc xl : ℝ) : ℝ := √(1 + xc^2 + xl^2 - 2*(xc + xl + xc*xl))
/-- (Specification.) -/
noncomputable def lam (xc xl : ℝ) : ℝ :=
  Real.log ((1 + xc - xl + kallenRoot xc xl)/(1 + xc - xl - kallenRoot xc xl))

theorem root_eq (xc xl : ℝ) : kallenRoot xc xl = w xc xl := by unfold kallenRoot w; congr 1; ring
theorem root_symm (xc xl : ℝ) : kallenRoot xc xl = kallenRoot xl xc := by unfold kallenRoot; congr 1; ring

theorem lam_eq {xc xl : ℝ} (h : Allowed xc xl) : lam xc xl = Lc xc xl ∧ lam xl xc = Ll xc xl := by
  obtain ⟨hb, hb1, hbc, hE⟩ := h.b
  obtain ⟨h1, h2, h3⟩ := h
  have hs := w_sq hb hb1 hE.le
  have hwp := w_pos hb hb1 hE
  have p1 := argB_pos hb hE.le
  have p2 := argBp_pos hb hb1 h2.le
  rw [hbc] at *
  constructor
  · rw [lam, root_eq, Lc, ← log_ratio h1 p1 (by linear_combination -hs)]
  · rw [lam, root_symm, root_eq, Ll, show 1 - xc + xl = 1 + xl - xc by ring]
    rw [← log_ratio h2 (by linarith) (by linear_combination -hs)]

theorem re_of {z : ℂ} {r : ℝ} (h : z = (r : ℂ)) : z.re = r := by rw [h, Complex.ofReal_re]

/-- In the allowed region the code's long expressions are the standard phase-space functions. -/
theorem C127_closed {xc xl : ℝ} (h : Allowed xc xl) :
    let s := kallenRoot xc xl
    g xc xl = s*(1 - 7*xc - 7*xc^2 + xc^3 - 7*xl + 12*xc*xl - 7*xc^2*xl - 7*xl^2 - 7*xc*xl^2 + xl^3)
        + 12*xc^2*(1-xl^2)*lam xc xl + 12*xl^2*(1-xc^2)*lam xl xc ∧
    gLR xc xl = 4*√xc*(s*(1 + 10*xc + xc^2 - 5*xl - 5*xc*xl - 2*xl^2) - 6*xc*((1-xl)^2 + xc)*lam xc xl + 6*xl^2*(1-xc)*lam xl xc) ∧
    gVS xc xl = 2*√xl*(s*(1 + 10*xl + xl^2 - 5*xc - 5*xc*xl - 2*xc^2) - 6*xl*((1-xc)^2 + xl)*lam xl xc + 6*xc^2*(1-xl)*lam xc xl) ∧
    gVSp xc xl = 2*√(xc*xl)*(s*(2 + 5*xc - xc^2 + 5*xl - 10*xc*xl - xl^2) - 6*xc*(1 - 2*xl + xc*xl + xl^2)*lam xc xl
        - 6*xl*(1 - 2*xc + xc*xl + xc^2)*lam xl xc) := by
  obtain ⟨p1, p2, p3, p4, p5, p6, p7, L1, p8, p9, pA, pC⟩ := parts h
  obtain ⟨e1, e2⟩ := lam_eq h
  have hl : xl ≠ 0 := h.2.1.ne'
  intro s
  have hsd : s = w xc xl := root_eq xc xl
  rw [e1, e2, hsd]
  simp only [g, gLR, gVS, gVSp, if_neg hl, p1, p2, p3, p4, p5, p6, p7, p8, p9, pA, pC]
  refine ⟨?_, ?_, ?_, ?_⟩
  all_goals
    refine re_of ?_
    push_cast
    ring

/-- Non-triviality: a charm quark and a tau of a fifth resp. a third of the b mass. -/
example : Allowed (1/25) (1/9) := by
  refine ⟨by norm_num, by norm_num, ?_⟩
  rw [show (1/25:ℝ) = (1/5)^2 by norm_num, show (1/9:ℝ) = (1/3)^2 by norm_num, Real.sqrt_sq (by norm_num), Real.sqrt_sq (by norm_num)]
  norm_num

theorem Allowed.symm {xc xl : ℝ} (h : Allowed xc xl) : Allowed xl xc := ⟨h.2.1, h.1, by linarith [h.2.2]⟩

/-- Crossing symmetry: the roles of the charm quark and of the charged lepton can be exchanged. -/
theorem C127_crossing {xc xl : ℝ} (h : Allowed xc xl) :
    g xl xc = g xc xl ∧ gVS xc xl = gLR xl xc/2 ∧ gVSp xl xc = gVSp xc xl := by
  obtain ⟨a1, a2, a3, a4⟩ := C127_closed h
  obtain ⟨b1, b2, b3, b4⟩ := C127_closed h.symm
  rw [a1, a3, a4, b1, b2, b4, root_symm xl xc, mul_comm xl xc]
  refine ⟨by ring, by ring, by ring⟩

theorem forms {xc xl : ℝ} (h : Allowed xc xl) :
    g xc xl = 12*Gf xc xl xl ∧ gLR xc xl = 24*√xc*Kf xc xl xl ∧ gVS xc xl = 6*√xl*((1-xc)*Hf xc xl xl - Kf xc xl xl) ∧
    gVSp xc xl = 6*√(xc*xl)*((1-xc)*Hf xc xl xl + Kf xc xl xl) := by
  obtain ⟨a1, a2, a3, a4⟩ := C127_closed h
  obtain ⟨e1, e2⟩ := lam_eq h
  obtain ⟨hb, hb1, hbc, hE⟩ := h.b
  have hs := w_sq hb hb1 hE.le
  have hc : 1 - xc ≠ 0 := by have := (c_lt hb hb1).ne'; rwa [hbc] at this
  have hl := h.2.1.ne'
  rw [hbc] at hs
  rw [a1, a2, a3, a4, e1, e2, root_eq]
  simp only [Gf, Kf, Hf, Im2, Im1, I0, I1, I2]
  generalize Lc xc xl = A
  generalize Ll xc xl = B
  have h3 : w xc xl^3 = w xc xl*((1 - xc - xl)^2 - 4*xc*xl) := by rw [← hs]; ring
  generalize w xc xl = W at *
  refine ⟨?_, ?_, ?_, ?_⟩
  · rw [h3]; ring
  · rw [h3]; ring
  · rw [h3]; field_simp; ring
  · rw [h3]; field_simp; ring

theorem w_zero {c : ℝ} (hc : c < 1) : w c 0 = 1 - c := by
  rw [w, show (1 - c - 0)^2 - 4*c*0 = (1-c)^2 by ring, Real.sqrt_sq (by linarith)]
theorem Lc_zero {c : ℝ} (h0 : 0 < c) (hc : c < 1) : Lc c 0 = -Real.log c := by
  rw [Lc, w_zero hc, show 1 + c - 0 + (1 - c) = 2 by ring, Real.log_mul (by norm_num) h0.ne', show (4:ℝ) = 2^2 by norm_num, Real.log_pow]
  push_cast; ring

theorem forms0 {xc : ℝ} (h0 : 0 < xc) (h1 : xc < 1) : g xc 0 = 12*Gf xc 0 0 ∧ gLR xc 0 = 24*√xc*Kf xc 0 0 := by
  simp only [g, gLR, if_true, csqrt_ofReal h0.le, clog_ofReal h0.le, Gf, Kf, I0, I1, I2, Lc_zero h0 h1, w_zero h1]
  constructor
  all_goals
    refine re_of ?_
    push_cast
    ring

section
open Set
variable {b l : ℝ}
theorem Kf_cont0 (hb : 0 < b) (hb1 : b < 1) : ContinuousOn (Kf (b^2) 0) (Icc 0 ((1-b)^2)) := by
  have h1 := I1_cont (l := 0) hb hb1
  refine h1.congr fun t _ => ?_
  simp [Kf]
theorem Gf_cont0 (hb : 0 < b) (hb1 : b < 1) : ContinuousOn (Gf (b^2) 0) (Icc 0 ((1-b)^2)) := by
  have h1 := Kf_cont0 hb hb1
  have h2 := I2_cont (l := 0) hb hb1
  have : ContinuousOn (fun t => (1+b^2)*Kf (b^2) 0 t - I2 (b^2) t) (Icc 0 ((1-b)^2)) := by fun_prop
  refine this.congr fun t _ => ?_
  simp [Gf]
theorem Kf_cont' (hb : 0 < b) (hb1 : b < 1) (hl : 0 ≤ l) : ContinuousOn (Kf (b^2) l) (Icc l ((1-b)^2)) := by
  rcases hl.eq_or_lt with h | h
  · subst h; exact Kf_cont0 hb hb1
  · exact Kf_cont hb hb1 h l
theorem Gf_cont' (hb : 0 < b) (hb1 : b < 1) (hl : 0 ≤ l) : ContinuousOn (Gf (b^2) l) (Icc l ((1-b)^2)) := by
  rcases hl.eq_or_lt with h | h
  · subst h; exact Gf_cont0 hb hb1
  · exact Gf_cont hb hb1 h l

theorem Kf_pos (hb : 0 < b) (hb1 : b < 1) (hl : 0 ≤ l) (hE : l < (1-b)^2) : 0 < Kf (b^2) l l := by
  refine pos_of (q := fun t => (t-l)^2*w (b^2) t/t) hE (Kf_cont' hb hb1 hl) (fun t ht => Kf_deriv hb hb1 (lt_of_le_of_lt hl ht.1) ht.2) ?_ (f_E hb hb1 l).1
  intro t ht
  have := w_pos hb hb1 ht.2
  have h0 : 0 < t := lt_of_le_of_lt hl ht.1
  have h1 : 0 < t - l := by linarith [ht.1]
  positivity
/-- `g − gLR` over 12. -/
theorem GK_pos (hb : 0 < b) (hb1 : b < 1) (hl : 0 ≤ l) (hE : l < (1-b)^2) : 0 < Gf (b^2) l l - 2*b*Kf (b^2) l l := by
  refine pos_of (Ψ := fun t => Gf (b^2) l t - 2*b*Kf (b^2) l t) (q := fun t => (t-l)^2*w (b^2) t*((1-b)^2-t)/t) hE
    ((Gf_cont' hb hb1 hl).sub ((Kf_cont' hb hb1 hl).const_mul (2*b)))
    (fun t ht => ((Gf_deriv hb hb1 (lt_of_le_of_lt hl ht.1) ht.2).sub ((Kf_deriv hb hb1 (lt_of_le_of_lt hl ht.1) ht.2).const_mul (2*b))).congr_deriv ?_) ?_ ?_
  · ring
  · intro t ht
    have := w_pos hb hb1 ht.2
    have h0 : 0 < t := lt_of_le_of_lt hl ht.1
    have h1 : 0 < t - l := by linarith [ht.1]
    have h2 : 0 < (1-b)^2-t := by linarith [ht.2]
    positivity
  · obtain ⟨h1, h2, _⟩ := f_E hb hb1 l
    simp [h1, h2]

theorem anti_step {F : ℝ → ℝ → ℝ} {q : ℝ → ℝ} {E l m : ℝ} (hl : 0 ≤ l) (hlm : l < m) (hm : m < E)
    (hc : ContinuousOn (F l) (Icc l E)) (hc' : ContinuousOn (F m) (Icc m E))
    (hd : ∀ x, 0 ≤ x → ∀ t ∈ Ioo x E, HasDerivAt (F x) (-((t-x)^2*q t)) t) (hq : ∀ t ∈ Ioo 0 E, 0 < q t) (hE : ∀ x, F x E = 0) :
    F m m < F l l := by
  have h1 : F l m < F l l := by
    have h : StrictAntiOn (F l) (Icc l E) := by
      refine strictAntiOn_of_deriv_neg (convex_Icc l E) hc ?_
      rw [interior_Icc]; intro t ht; rw [(hd l hl t ht).deriv]
      have := hq t ⟨lt_of_le_of_lt hl ht.1, ht.2⟩
      have h1 : 0 < t - l := by linarith [ht.1]
      have : 0 < (t-l)^2*q t := by positivity
      linarith
    exact h (left_mem_Icc.mpr (by linarith)) ⟨hlm.le, hm.le⟩ hlm
  have h2 : 0 ≤ F l m - F m m := by
    refine nonneg_of (Ψ := fun t => F l t - F m t) (q := fun t => ((t-l)^2-(t-m)^2)*q t) hm.le
      ((hc.mono (Icc_subset_Icc_left hlm.le)).sub hc')
      (fun t ht => ((hd l hl t ⟨by linarith [ht.1], ht.2⟩).sub (hd m (by linarith) t ht)).congr_deriv (by ring)) ?_ (by simp [hE])
    intro t ht
    have := hq t ⟨by linarith [ht.1], ht.2⟩
    have : 0 ≤ (t-l)^2-(t-m)^2 := by nlinarith [ht.1]
    positivity
  linarith

theorem Kf_anti (hb : 0 < b) (hb1 : b < 1) {m : ℝ} (hl : 0 ≤ l) (hlm : l < m) (hE : m < (1-b)^2) : Kf (b^2) m m < Kf (b^2) l l := by
  refine anti_step (F := Kf (b^2)) (q := fun t => w (b^2) t/t) hl hlm hE (Kf_cont' hb hb1 hl) (Kf_cont' hb hb1 (by linarith)) ?_ ?_
    (fun x => (f_E hb hb1 x).1)
  · intro x hx t ht
    exact (Kf_deriv hb hb1 (lt_of_le_of_lt hx ht.1) ht.2).congr_deriv (by ring)
  · intro t ht
    exact div_pos (w_pos hb hb1 ht.2) ht.1
theorem Gf_anti (hb : 0 < b) (hb1 : b < 1) {m : ℝ} (hl : 0 ≤ l) (hlm : l < m) (hE : m < (1-b)^2) : Gf (b^2) m m < Gf (b^2) l l := by
  refine anti_step (F := Gf (b^2)) (q := fun t => w (b^2) t*(1+b^2-t)/t) hl hlm hE (Gf_cont' hb hb1 hl) (Gf_cont' hb hb1 (by linarith)) ?_ ?_
    (fun x => (f_E hb hb1 x).2.1)
  · intro x hx t ht
    exact (Gf_deriv hb hb1 (lt_of_le_of_lt hx ht.1) ht.2).congr_deriv (by ring)
  · intro t ht
    refine div_pos (mul_pos (w_pos hb hb1 ht.2) ?_) ht.1
    have := ht.2
    nlinarith
end

/-- The allowed region with a possibly massless lepton. (Specification.) -/
def Allowed0 (xc xl : ℝ) : Prop := 0 < xc ∧ 0 ≤ xl ∧ √xc + √xl < 1

theorem Allowed0.b {xc xl : ℝ} (h : Allowed0 xc xl) : 0 < √xc ∧ √xc < 1 ∧ √xc^2 = xc ∧ xl < (1-√xc)^2 := by
  obtain ⟨h1, h2, h3⟩ := h
  have a := Real.sqrt_pos.mpr h1
  have b := Real.sqrt_nonneg xl
  have e : xl = √xl^2 := (Real.sq_sqrt h2).symm
  refine ⟨a, by linarith, Real.sq_sqrt h1.le, ?_⟩
  rw [e]; nlinarith

theorem forms' {xc xl : ℝ} (h : Allowed0 xc xl) : g xc xl = 12*Gf xc xl xl ∧ gLR xc xl = 24*√xc*Kf xc xl xl := by
  obtain ⟨hb, hb1, hbc, hE⟩ := h.b
  obtain ⟨h1, h2, h3⟩ := h
  rcases h2.eq_or_lt with e | e
  · subst e; exact forms0 h1 (by nlinarith)
  · obtain ⟨a, b, _⟩ := forms ⟨h1, e, h3⟩; exact ⟨a, b⟩

/-- In the allowed region, massless leptons included, the rate function is positive and dominates the left-right
interference function, which is positive too. -/
theorem C127_order {xc xl : ℝ} (h : Allowed0 xc xl) : 0 < gLR xc xl ∧ gLR xc xl < g xc xl := by
  obtain ⟨hb, hb1, hbc, hE⟩ := h.b
  obtain ⟨e1, e2⟩ := forms' h
  have k := Kf_pos hb hb1 h.2.1 hE
  have gk := GK_pos hb hb1 h.2.1 hE
  rw [hbc] at k gk
  rw [e1, e2]
  constructor
  · positivity
  · nlinarith

/-- Both functions decrease strictly as the lepton gets heavier (the massless branch included: there is no jump). -/
theorem C127_mono {xc xl xl' : ℝ} (h0 : 0 ≤ xl) (hlt : xl < xl') (h : Allowed0 xc xl') :
    g xc xl' < g xc xl ∧ gLR xc xl' < gLR xc xl := by
  obtain ⟨hb, hb1, hbc, hE⟩ := h.b
  have h' : Allowed0 xc xl := ⟨h.1, h0, by have := Real.sqrt_lt_sqrt h0 hlt; linarith [h.2.2]⟩
  obtain ⟨e1, e2⟩ := forms' h
  obtain ⟨f1, f2⟩ := forms' h'
  have k := Kf_anti hb hb1 h0 hlt hE
  have gk := Gf_anti hb hb1 h0 hlt hE
  rw [hbc] at k gk
  rw [e1, e2, f1, f2]
  constructor
  · linarith
  · exact mul_lt_mul_of_pos_left k (by positivity)

end Verif.Xlnu
