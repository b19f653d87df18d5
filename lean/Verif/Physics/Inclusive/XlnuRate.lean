import Verif.Physics.Inclusive.XlnuTheorems
import Mathlib.Analysis.Complex.ExponentialBounds
set_option linter.unusedVariables false
set_option linter.unusedSimpArgs false
namespace Verif.Xlnu
open Verif.Py Verif.Running Verif.Lambdap Complex

section
open Set
variable {b l t : ℝ}

/-- Boundary term relating two forms of the spin-one rate. (Specification.) -/
noncomputable def Pf (c l t : ℝ) : ℝ := (t-l)^3*w c t^3/t^2

theorem Pf_deriv (hb : 0 < b) (hb1 : b < 1) (ht0 : 0 < t) (ht : t < (1-b)^2) :
    HasDerivAt (Pf (b^2) l) ((t-l)^2*w (b^2) t/t^3*(3*t*((1-b^2-t)^2-4*b^2*t) - 3*(t-l)*t*(1+b^2-t) - 2*(t-l)*((1-b^2-t)^2-4*b^2*t))) t := by
  have h1 : HasDerivAt (fun t => (t-l)^3) (3*(t-l)^2) t := by
    refine (((hasDerivAt_id t).sub_const l).pow 3).congr_deriv ?_
    simp
  have h2 : HasDerivAt (fun t : ℝ => t^2) (2*t) t := by simpa using (hasDerivAt_pow 2 t)
  refine ((h1.mul (w3_deriv hb hb1 ht)).div h2 (by positivity)).congr_deriv ?_
  have hs := w_sq hb hb1 ht.le
  rw [← hs]
  simp only [Pi.mul_apply]
  generalize w (b^2) t = W
  field_simp
  ring

/-- The sum of squared helicity amplitudes at fixed `q² = t`. (Specification.) -/
noncomputable def form (b m t VL VR SR SL T : ℝ) : ℝ :=
  let Qm := (1-b)^2 - t
  let Qp := (1+b)^2 - t
  let P := VL + VR
  let M := VL - VR
  let R := t*SR + m*(VL - b*VR)
  let L := t*SL + m*(VR - b*VL);
  3*(Qm*(R^2 + L^2) + 2*b*(R + L)^2)
   + Qm*(t*((1+b)*P + 4*m*T)^2 + ((1+b)*m*P + 4*t*T)^2/2 + 2*(t*P + 4*(1+b)*m*T)^2 + t*(m*P + 4*(1+b)*T)^2)
   + Qp*(t*((1-b)*M - 4*m*T)^2 + ((1-b)*m*M - 4*t*T)^2/2 + 2*(t*M - 4*(1-b)*m*T)^2 + t*(m*M - 4*(1-b)*T)^2)

theorem form_nonneg (hb : 0 < b) (ht0 : 0 < t) (ht : t < (1-b)^2) (m VL VR SR SL T : ℝ) : 0 ≤ form b m t VL VR SR SL T := by
  unfold form
  have h1 : 0 ≤ (1-b)^2 - t := by linarith
  have h2 : 0 ≤ (1+b)^2 - t := by nlinarith
  positivity

theorem psd (hb : 0 < b) (hb1 : b < 1) {m : ℝ} (hm : 0 < m) (hE : m^2 < (1-b)^2) (VL VR SR SL T : ℝ) :
    0 ≤ 12*Gf (b^2) (m^2) (m^2)*(VL^2 + VR^2 + (SR^2 + SL^2)/4 + 12*T^2)
      + 24*b*Kf (b^2) (m^2) (m^2)*(-(VL*VR) + SR*SL/2)
      + 6*m*((1-b^2)*Hf (b^2) (m^2) (m^2) - Kf (b^2) (m^2) (m^2))*(VL*SR + VR*SL + 12*VR*T)
      + 6*(b*m)*((1-b^2)*Hf (b^2) (m^2) (m^2) + Kf (b^2) (m^2) (m^2))*(VL*SL + VR*SR - 12*VL*T) := by
  have hl : 0 < m^2 := by positivity
  have key := nonneg_of (l := m^2) (E := (1-b)^2)
    (Ψ := fun t => 12*Gf (b^2) (m^2) t*(VL^2 + VR^2 + (SR^2 + SL^2)/4 + 12*T^2)
      + 24*b*Kf (b^2) (m^2) t*(-(VL*VR) + SR*SL/2)
      + 6*m*((1-b^2)*Hf (b^2) (m^2) t - Kf (b^2) (m^2) t)*(VL*SR + VR*SL + 12*VR*T)
      + 6*(b*m)*((1-b^2)*Hf (b^2) (m^2) t + Kf (b^2) (m^2) t)*(VL*SL + VR*SR - 12*VL*T)
      - Pf (b^2) (m^2) t*(2*(VL^2 + VR^2) + 32*T^2))
    (q := fun t => (t-m^2)^2*w (b^2) t/t^3*form b m t VL VR SR SL T) hE.le ?_ ?_ ?_ ?_
  · simpa [Pf] using key
  · have h1 := Gf_cont hb hb1 hl (m^2)
    have h2 := Kf_cont hb hb1 hl (m^2)
    have h3 := Hf_cont hb hb1 hl (m^2)
    have h4 : ContinuousOn (Pf (b^2) (m^2)) (Icc (m^2) ((1-b)^2)) := by
      unfold Pf
      have := w_cont (b^2)
      refine ContinuousOn.div (by fun_prop) (by fun_prop) fun x hx => ?_
      have := lt_of_lt_of_le hl hx.1
      positivity
    fun_prop
  · intro t ht
    have h0 : 0 < t := lt_trans hl ht.1
    have hG := Gf_deriv (l := m^2) hb hb1 h0 ht.2
    have hK := Kf_deriv (l := m^2) hb hb1 h0 ht.2
    have hH := Hf_deriv (l := m^2) hb hb1 h0 ht.2
    have hP := Pf_deriv (l := m^2) hb hb1 h0 ht.2
    have := (((((hG.const_mul 12).mul_const (VL^2 + VR^2 + (SR^2 + SL^2)/4 + 12*T^2)).add
      ((hK.const_mul (24*b)).mul_const (-(VL*VR) + SR*SL/2))).add
      ((((hH.const_mul (1-b^2)).sub hK).const_mul (6*m)).mul_const (VL*SR + VR*SL + 12*VR*T))).add
      ((((hH.const_mul (1-b^2)).add hK).const_mul (6*(b*m))).mul_const (VL*SL + VR*SR - 12*VL*T))).sub
      (hP.mul_const (2*(VL^2 + VR^2) + 32*T^2))
    refine this.congr_deriv ?_
    generalize w (b^2) t = W
    simp only [form]
    field_simp
    ring
  · intro t ht
    have h0 : 0 < t := lt_trans hl ht.1
    have := w_pos hb hb1 ht.2
    have := form_nonneg hb h0 ht.2 m VL VR SR SL T
    positivity
  · obtain ⟨h1, h2, h3⟩ := f_E hb hb1 (m^2)
    simp [h1, h2, h3, Pf, w_E]

end

/-- Wilson coefficients without CP-violating phases. (Specification.) -/
noncomputable def realStd (VL VR SR SL T : ℝ) : Std := ⟨VL, VR, SR, SL, T⟩

theorem rWC_real (xc xl VL VR SR SL T : ℝ) : rWC xc xl (realStd VL VR SR SL T) =
    g xc xl*(VL^2 + VR^2 + (SR^2 + SL^2)/4 + 12*T^2) + gLR xc xl*(-(VL*VR) + SR*SL/2)
      + gVS xc xl*(VL*SR + VR*SL + 12*VR*T) + gVSp xc xl*(VL*SL + VR*SR - 12*VL*T) := by
  simp only [rWC, realStd, Complex.norm_real, Real.norm_eq_abs, sq_abs, ← Complex.ofReal_mul, Complex.ofReal_re]
  ring

/-- For every choice of CP-conserving coefficients – vector, scalar and tensor, any size, any sign – and every allowed charm
and lepton mass, the rate factor is not negative. -/
theorem C128_rate_nonneg_partial {xc xl : ℝ} (h : Allowed xc xl) (VL VR SR SL T : ℝ) : 0 ≤ rWC xc xl (realStd VL VR SR SL T) := by
  obtain ⟨hb, hb1, hbc, hE⟩ := h.b
  obtain ⟨e1, e2, e3, e4⟩ := forms h
  have hm : 0 < √xl := Real.sqrt_pos.mpr h.2.1
  have hml : √xl^2 = xl := Real.sq_sqrt h.2.1.le
  have := psd hb hb1 hm (by rwa [hml]) VL VR SR SL T
  rw [hml, hbc] at this
  rw [rWC_real, e1, e2, e3, e4, Real.sqrt_mul h.1.le]
  linarith

theorem re_mul_le (x y : ℂ) : |(x*y).re| ≤ ‖x‖*‖y‖ := by rw [← norm_mul]; exact Complex.abs_re_le_norm _

/-- For a massless lepton the same holds for all complex coefficients. -/
theorem C128_rate_nonneg_massless_partial {xc : ℝ} (h0 : 0 < xc) (h1 : xc < 1) (wc : Std) : 0 ≤ rWC xc 0 wc := by
  have h : Allowed0 xc 0 := ⟨h0, le_rfl, by rw [Real.sqrt_zero, add_zero, Real.sqrt_lt' one_pos]; simpa using h1⟩
  obtain ⟨a, b⟩ := C127_order h
  have e1 : gVS xc 0 = 0 := by simp [gVS]
  have e2 : gVSp xc 0 = 0 := by simp [gVSp]
  simp only [rWC, e1, e2]
  have h1 := abs_le.mp (re_mul_le wc.VL wc.VR)
  have h2 := abs_le.mp (re_mul_le wc.SR wc.SL)
  have q1 : 0 ≤ g xc 0*(‖wc.VL‖^2 + ‖wc.VR‖^2) - gLR xc 0*(wc.VL*wc.VR).re := by
    nlinarith [sq_nonneg (‖wc.VL‖ - ‖wc.VR‖), sq_nonneg ‖wc.VL‖, sq_nonneg ‖wc.VR‖, mul_nonneg (norm_nonneg wc.VL) (norm_nonneg wc.VR), mul_le_mul_of_nonneg_left h1.2 a.le]
  have q2 : 0 ≤ g xc 0/4*(‖wc.SR‖^2 + ‖wc.SL‖^2) + gLR xc 0/2*(wc.SR*wc.SL).re := by
    nlinarith [sq_nonneg (‖wc.SR‖ - ‖wc.SL‖), sq_nonneg ‖wc.SR‖, sq_nonneg ‖wc.SL‖, mul_nonneg (norm_nonneg wc.SR) (norm_nonneg wc.SL), mul_le_mul_of_nonneg_left h2.1 a.le]
  have q3 : 0 ≤ 12*g xc 0*‖wc.T‖^2 := by have := a.trans b; positivity
  linarith

theorem log3_lt : Real.log 3 < 1.0987 := by
  have h : 12*Real.log 3 = 19*Real.log 2 + Real.log (531441/524288) := by
    rw [Real.log_div (by norm_num) (by norm_num), show (531441:ℝ) = 3^12 by norm_num, show (524288:ℝ) = 2^19 by norm_num,
      Real.log_pow, Real.log_pow]; push_cast; ring
  have h2 := Real.log_two_lt_d9
  have h3 := Real.log_le_sub_one_of_pos (x := 531441/524288) (by norm_num)
  norm_num at h3 ⊢
  linarith

theorem allowed_w : Allowed (3/16) (3/16) := by
  refine ⟨by norm_num, by norm_num, ?_⟩
  have : √(3/16 : ℝ) < 1/2 := by rw [Real.sqrt_lt' (by norm_num)]; norm_num
  linarith

theorem witness_neg : 4*g (3/16) (3/16) - 3*gLR (3/16) (3/16) - 4*gVSp (3/16) (3/16) < 0 := by
  obtain ⟨a1, a2, a3, a4⟩ := C127_closed allowed_w
  have hr : kallenRoot (3/16) (3/16) = 1/2 := by
    rw [kallenRoot, show (1 + (3/16)^2 + (3/16)^2 - 2*(3/16 + 3/16 + 3/16*(3/16)) : ℝ) = (1/2)^2 by norm_num, Real.sqrt_sq (by norm_num)]
  have hl : lam (3/16) (3/16) = Real.log 3 := by
    rw [lam, hr]; norm_num
  rw [a1, a2, a4, hr, hl, Real.sqrt_mul_self (by norm_num)]
  have h3 := log3_lt
  have hs : (0.433:ℝ) < √(3/16) := by rw [Real.lt_sqrt (by norm_num)]; norm_num
  have hs2 : √(3/16:ℝ) < 0.4331 := by rw [Real.sqrt_lt' (by norm_num)]; norm_num
  generalize √(3/16:ℝ) = u at *
  generalize Real.log 3 = L at *
  norm_num
  nlinarith

/-- FINDING: the interference terms multiply coefficients without complex conjugation.  A common phase of all coefficients,
which no rate can depend on, changes the result – here from positive to negative. -/
theorem C128_phase_witness :
    Allowed (3/16) (3/16) ∧ 0 < rWC (3/16) (3/16) (realStd 1 1 2 2 0) ∧
    rWC (3/16) (3/16) ⟨I*1, I*1, I*2, I*2, I*0⟩ < 0 := by
  obtain ⟨c1, c2, c3⟩ := C127_crossing allowed_w
  have hw := witness_neg
  obtain ⟨o1, o2⟩ := C127_order (xc := 3/16) (xl := 3/16) ⟨allowed_w.1, allowed_w.2.1.le, allowed_w.2.2⟩
  refine ⟨allowed_w, ?_, ?_⟩
  · rw [rWC_real, c2]
    nlinarith
  · have e : rWC (3/16) (3/16) ⟨I*1, I*1, I*2, I*2, I*0⟩ = 4*g (3/16) (3/16) - gLR (3/16) (3/16) - 4*gVS (3/16) (3/16) - 4*gVSp (3/16) (3/16) := by
      simp [rWC, Complex.mul_re, Complex.mul_im]; ring
    rw [e, c2]; linarith

/-- Squared mass ratios. (Specification.) -/
noncomputable def xcOf (d : Inp) : ℝ := d.mc^2/d.mb^2
/-- (Specification.) -/
noncomputable def xlOf (d : Inp) (lep : String) : ℝ := d.mlep lep^2/d.mb^2

/-- The flavour-universal factor: lifetime, leading-order width, QCD and power corrections, residual uncertainty.
(Specification.) -/
noncomputable def universal (d : Inp) : ℝ :=
  let x := xcOf d
  (d.tauB0 + d.tauBp)/2 * (d.GF^2 * d.mb^5 * ‖d.Vcb‖^2/(192*Real.pi^3)) * (1 + d.delta) *
  (1 + d.alphas/Real.pi * (pc1 x d.mb + 0.071943*d.mupi2 - 0.114774*d.muG2) + (d.alphas/Real.pi)^2 * pc2 x d.mb - d.mupi2/(2*d.mb^2)
    + (1/2 - 2*(1 - x)^4/g x 0)*(d.muG2 - (d.rhoLS3 + d.rhoD3)/d.mb)/d.mb^2 + dD x/g x 0*d.rhoD3/d.mb^3)

theorem rWC_zero (xc xl : ℝ) (wc : Std) (h : wc.VL = 0 ∧ wc.VR = 0 ∧ wc.SR = 0 ∧ wc.SL = 0 ∧ wc.T = 0) : rWC xc xl wc = 0 := by
  obtain ⟨h1, h2, h3, h4, h5⟩ := h
  simp [rWC, h1, h2, h3, h4, h5]

theorem br1_eq (d : Inp) (hb : d.mb ≠ 0) (hc : d.mc ≠ 0) (hg : g (xcOf d) 0 ≠ 0) (lep nu : String) :
    br1 d lep nu = .ok (universal d * rWC (xcOf d) (xlOf d lep) (wcOf d lep nu)) := by
  have hb2 : d.mb^2 ≠ 0 := by positivity
  have hx : d.mc^2/d.mb^2 ≠ 0 := by positivity
  simp only [br1]
  split_ifs with h
  · simp only [pure, Except.pure]
    rw [rWC_zero _ _ _ h.2, mul_zero]
  · have hg' : g (d.mc^2/d.mb^2) 0 ≠ 0 := hg
    simp only [Mixing.pyDiv_ne hb2, Bind.bind, Except.bind, if_neg hx, Mixing.pyDiv_ne hg', pure, Except.pure]
    congr 1
    simp only [universal, xcOf, xlOf]
    generalize rWC _ _ _ = r
    generalize g _ _ = G at *
    generalize dD _ = D
    generalize pc1 _ _ = P1
    generalize pc2 _ _ = P2
    generalize d.mc^2/d.mb^2 = x
    have := Real.pi_ne_zero
    field_simp
    ring

/-- The three neutrino flavours contribute incoherently. (Specification.) -/
noncomputable def rateSum (d : Inp) (lep : String) : ℝ :=
  (["e", "mu", "tau"].map fun nu => rWC (xcOf d) (xlOf d lep) (wcOf d lep nu)).sum

theorem br_eq (d : Inp) (hb : d.mb ≠ 0) (hc : d.mc ≠ 0) (hg : g (xcOf d) 0 ≠ 0) (lep : String) :
    br d lep = .ok (universal d * rateSum d lep) := by
  simp only [br, br1_eq d hb hc hg, Bind.bind, Except.bind, pure, Except.pure, rateSum, List.map, List.sum_cons, List.sum_nil]
  congr 1; ring

/-- The branching ratio is the universal factor times the incoherent sum over neutrino flavours; `'l'` is the average of
electrons and muons; a zero b or c mass is an error. -/
theorem C127_br (d : Inp) (hb : d.mb ≠ 0) (hc : d.mc ≠ 0) (hg : g (xcOf d) 0 ≠ 0) (lep : String) :
    brTot d lep = .ok (universal d * (if lep = "l" then (rateSum d "e" + rateSum d "mu")/2 else rateSum d lep)) := by
  unfold brTot
  split_ifs
  · simp only [br_eq d hb hc hg, Bind.bind, Except.bind, pure, Except.pure]; congr 1; ring
  · exact br_eq d hb hc hg lep

/-- Lepton-flavour ratios are independent of the lifetimes, the CKM element, the Fermi constant and all QCD and power
corrections: those cancel exactly. -/
theorem C127_ratio (d : Inp) (hb : d.mb ≠ 0) (hc : d.mc ≠ 0) (hg : g (xcOf d) 0 ≠ 0) (hu : universal d ≠ 0) (l1 l2 : String)
    (h1 : l1 ≠ "l") (h2 : l2 ≠ "l") (hd : rateSum d l2 ≠ 0) : ratio d l1 l2 = .ok (rateSum d l1/rateSum d l2) := by
  simp only [ratio, C127_br d hb hc hg, if_neg h1, if_neg h2, Bind.bind, Except.bind, pure, Except.pure]
  split_ifs with h
  · rcases mul_eq_zero.mp h with h | h
    · exact absurd h hu
    · rw [h, zero_div]
  · rw [Mixing.pyDiv_ne (mul_ne_zero hu hd), mul_div_mul_left _ _ hu]

/-- The ratio to the light-lepton average. -/
theorem C127_ratio_l (d : Inp) (hb : d.mb ≠ 0) (hc : d.mc ≠ 0) (hg : g (xcOf d) 0 ≠ 0) (hu : universal d ≠ 0)
    (hd : rateSum d "e" + rateSum d "mu" ≠ 0) : ratio d "tau" "l" = .ok (2*rateSum d "tau"/(rateSum d "e" + rateSum d "mu")) := by
  have ht : "tau" ≠ "l" := by decide
  simp only [ratio, C127_br d hb hc hg, if_neg ht, if_true, Bind.bind, Except.bind, pure, Except.pure]
  split_ifs with h
  · rcases mul_eq_zero.mp h with h | h
    · exact absurd h hu
    · rw [h]; simp
  · have : universal d*((rateSum d "e" + rateSum d "mu")/2) ≠ 0 := mul_ne_zero hu (div_ne_zero hd two_ne_zero)
    rw [Mixing.pyDiv_ne this]
    congr 1; field_simp

/-- No new physics. (Specification.) -/
def SM (d : Inp) : Prop := ∀ l n, d.np l n = ⟨0, 0, 0, 0, 0⟩

/-- The three flavours the code sums over. (Specification.) -/
def Flavour (l : String) : Prop := l ∈ ["e", "mu", "tau"]

theorem rateSum_SM {d : Inp} (hs : SM d) {lep : String} (hf : Flavour lep) : rateSum d lep = d.cvlsm^2 * g (xcOf d) (xlOf d lep) := by
  have h0 : ∀ nu, lep ≠ nu → rWC (xcOf d) (xlOf d lep) (wcOf d lep nu) = 0 := by
    intro nu h; exact rWC_zero _ _ _ (by simp [wcOf, hs lep nu, h])
  have h1 : rWC (xcOf d) (xlOf d lep) (wcOf d lep lep) = d.cvlsm^2 * g (xcOf d) (xlOf d lep) := by
    simp [wcOf, hs lep lep, rWC]; ring
  simp only [Flavour, List.mem_cons, List.not_mem_nil, or_false] at hf
  rcases hf with rfl | rfl | rfl
  · simp [rateSum, h1, h0 "mu" (by decide), h0 "tau" (by decide)]
  · simp [rateSum, h1, h0 "e" (by decide), h0 "tau" (by decide)]
  · simp [rateSum, h1, h0 "e" (by decide), h0 "mu" (by decide)]

/-- In the Standard Model the ratio is that of the phase-space functions alone, and the heavier lepton is always rarer:
`R < 1`, and `R > 0`. -/
theorem C127_SM_ratio (d : Inp) (hs : SM d) (hb : d.mb ≠ 0) (hc : d.mc ≠ 0) (hu : universal d ≠ 0) (hv : d.cvlsm ≠ 0)
    (l1 l2 : String) (h1 : Flavour l1) (h2 : Flavour l2) (h0 : 0 ≤ d.mlep l2) (hlt : d.mlep l2 < d.mlep l1) (ha : Allowed0 (xcOf d) (xlOf d l1)) :
    ∃ r, ratio d l1 l2 = .ok r ∧ r = g (xcOf d) (xlOf d l1)/g (xcOf d) (xlOf d l2) ∧ 0 < r ∧ r < 1 := by
  have hb2 : 0 < d.mb^2 := by positivity
  have hx : xlOf d l2 < xlOf d l1 := by
    unfold xlOf; exact div_lt_div_of_pos_right (by nlinarith) hb2
  have hx0 : 0 ≤ xlOf d l2 := by unfold xlOf; positivity
  have ha2 : Allowed0 (xcOf d) (xlOf d l2) := ⟨ha.1, hx0, by have := Real.sqrt_lt_sqrt hx0 hx; linarith [ha.2.2]⟩
  have ha0 : Allowed0 (xcOf d) 0 := ⟨ha.1, le_rfl, by have := Real.sqrt_nonneg (xlOf d l1); rw [Real.sqrt_zero]; linarith [ha.2.2]⟩
  obtain ⟨p1, q1⟩ := C127_order ha
  obtain ⟨p2, q2⟩ := C127_order ha2
  obtain ⟨p0, q0⟩ := C127_order ha0
  obtain ⟨m, _⟩ := C127_mono hx0 hx ha
  have hv2 : d.cvlsm^2 ≠ 0 := by positivity
  have g1 : 0 < g (xcOf d) (xlOf d l1) := p1.trans q1
  have g2 : 0 < g (xcOf d) (xlOf d l2) := p2.trans q2
  have n1 : l1 ≠ "l" := by rintro rfl; revert h1; unfold Flavour; decide
  have n2 : l2 ≠ "l" := by rintro rfl; revert h2; unfold Flavour; decide
  have hd : rateSum d l2 ≠ 0 := by rw [rateSum_SM hs h2]; positivity
  refine ⟨_, C127_ratio d hb hc (p0.trans q0).ne' hu l1 l2 n1 n2 hd, ?_, ?_, ?_⟩
  · rw [rateSum_SM hs h1, rateSum_SM hs h2, mul_div_mul_left _ _ hv2]
  · rw [rateSum_SM hs h1, rateSum_SM hs h2]; positivity
  · rw [rateSum_SM hs h1, rateSum_SM hs h2, mul_div_mul_left _ _ hv2, div_lt_one g2]; exact m

/-- Lepton-flavour-violating channels vanish exactly without new physics, whatever the other inputs (even those that would be
errors). -/
theorem C127_lfv (d : Inp) (hs : SM d) (lep nu : String) (h : lep ≠ nu) : br1 d lep nu = .ok 0 := by
  simp [br1, wcOf, hs lep nu, h, pure, Except.pure]

/-- Non-triviality, and the finding at the level of the observable: with a CP-violating phase in the coefficients the
predicted branching ratio is negative. (Specification.) -/
noncomputable def phaseInp : Inp where
  GF := 1
  mb := 1
  mc := √(3/16)
  mlep := fun _ => √(3/16)
  Vcb := 1
  alphas := 0
  mupi2 := 0
  muG2 := 0
  rhoLS3 := 0
  rhoD3 := 0
  delta := 0
  tauB0 := 1
  tauBp := 1
  cvlsm := 1
  np := fun l n => if l = "tau" ∧ n = "tau" then ⟨I - 1, I, 2*I, 2*I, 0⟩ else ⟨0, 0, 0, 0, 0⟩

theorem C128_negative_witness : ∃ r, brTot phaseInp "tau" = .ok r ∧ r < 0 := by
  have hx : xcOf phaseInp = 3/16 := by
    simp only [xcOf, phaseInp]; rw [Real.sq_sqrt (by norm_num)]; norm_num
  have hl : xlOf phaseInp "tau" = 3/16 := by
    simp only [xlOf, phaseInp]; rw [Real.sq_sqrt (by norm_num)]; norm_num
  have h0 : Allowed0 (3/16) 0 := ⟨by norm_num, le_rfl, by
    have := allowed_w.2.2; have h := Real.sqrt_nonneg (3/16:ℝ); rw [Real.sqrt_zero]; linarith⟩
  obtain ⟨p0, q0⟩ := C127_order h0
  have hm : phaseInp.mc ≠ 0 := by simp [phaseInp]
  refine ⟨_, C127_br phaseInp (by simp [phaseInp]) hm (by rw [hx]; exact (p0.trans q0).ne') "tau", ?_⟩
  have hu : universal phaseInp = 1/(192*Real.pi^3) := by
    simp [universal, phaseInp]
  have e1 : rWC (xcOf phaseInp) (xlOf phaseInp "tau") (wcOf phaseInp "tau" "e") = 0 := by
    refine rWC_zero _ _ _ ?_; simp [wcOf, phaseInp]
  have e2 : rWC (xcOf phaseInp) (xlOf phaseInp "tau") (wcOf phaseInp "tau" "mu") = 0 := by
    refine rWC_zero _ _ _ ?_; simp [wcOf, phaseInp]
  have e3 : wcOf phaseInp "tau" "tau" = ⟨I*1, I*1, I*2, I*2, I*0⟩ := by
    simp [wcOf, phaseInp, mul_comm]
  have ht : "tau" ≠ "l" := by decide
  rw [if_neg ht, hu]
  simp only [rateSum, List.map, List.sum_cons, List.sum_nil, e1, e2, e3]
  rw [hx, hl]
  have := C128_phase_witness.2.2
  have hp := Real.pi_pos
  have : 0 < 1/(192*Real.pi^3) := by positivity
  nlinarith

/-- The registry: seven observables, the branching ratios and the three ratios, with these arguments. -/
theorem C127_registry : registry = [("BR(B->Xcenu)", .br "e"), ("BR(B->Xcmunu)", .br "mu"), ("BR(B->Xctaunu)", .br "tau"), ("BR(B->Xclnu)", .br "l"),
    ("Rmue(B->Xclnu)", .ratio "mu" "e"), ("Rtaumu(B->Xclnu)", .ratio "tau" "mu"), ("Rtaul(B->Xclnu)", .ratio "tau" "l")] := by rfl

section
open Filter Topology
theorem lLl {c : ℝ} (h0 : 0 < c) (h1 : c < 1) : Tendsto (fun l => l*Ll c l) (𝓝[>] 0) (𝓝 0) := by
  have hw := w_cont c
  have hp : (1 - c + 0 + w c 0) ≠ 0 := by rw [w_zero h1]; linarith
  have h2 : ContinuousAt (fun l => Real.log (1 - c + l + w c l)) 0 := ContinuousAt.log (by fun_prop) hp
  have h3 : ContinuousAt (fun l => (4*l)*Real.log (4*l)) 0 := (Real.continuous_mul_log.comp (continuous_const.mul continuous_id)).continuousAt
  have : ContinuousAt (fun l => l*(2*Real.log (1 - c + l + w c l)) - (4*l)*Real.log (4*l)/4) 0 := by fun_prop
  have ht := this.tendsto
  simp only [mul_zero, zero_mul, zero_div, sub_zero] at ht
  refine (ht.mono_left nhdsWithin_le_nhds).congr fun l => ?_
  simp only [Ll]; ring

/-- No jump at zero lepton mass: the massive formulas tend to the separate branch the code uses for `xl == 0`. -/
theorem C127_massless_limit {xc : ℝ} (h0 : 0 < xc) (h1 : xc < 1) :
    Tendsto (g xc) (𝓝[>] 0) (𝓝 (g xc 0)) ∧ Tendsto (gLR xc) (𝓝[>] 0) (𝓝 (gLR xc 0)) ∧
    Tendsto (gVS xc) (𝓝[>] 0) (𝓝 (gVS xc 0)) ∧ Tendsto (gVSp xc) (𝓝[>] 0) (𝓝 (gVSp xc 0)) := by
  have hA : ∀ᶠ l in 𝓝[>] (0:ℝ), Allowed xc l := by
    have hs : √xc < 1 := by rw [Real.sqrt_lt' one_pos]; simpa using h1
    have : ContinuousAt (fun l => √xc + √l) 0 := by fun_prop
    have := this.tendsto.eventually (gt_mem_nhds (show √xc + √0 < (1:ℝ) by simpa using hs))
    filter_upwards [nhdsWithin_le_nhds this, self_mem_nhdsWithin] with l h1 h2
    exact ⟨h0, h2, h1⟩
  have hw : Tendsto (fun l => w xc l) (𝓝[>] 0) (𝓝 (1-xc)) := by
    have := (w_cont xc).tendsto 0; rw [w_zero h1] at this; exact this.mono_left nhdsWithin_le_nhds
  have hLc : Tendsto (fun l => Lc xc l) (𝓝[>] 0) (𝓝 (-Real.log xc)) := by
    have hc := w_cont xc
    have hp : (1 + xc - 0 + w xc 0) ≠ 0 := by rw [w_zero h1]; norm_num
    have h2 : ContinuousAt (fun l => Lc xc l) 0 := by
      unfold Lc
      have : ContinuousAt (fun l => Real.log (1 + xc - l + w xc l)) 0 := ContinuousAt.log (by fun_prop) hp
      fun_prop
    have := h2.tendsto; rw [Lc_zero h0 h1] at this; exact this.mono_left nhdsWithin_le_nhds
  have hL := lLl h0 h1
  have hid : Tendsto (fun l : ℝ => l) (𝓝[>] 0) (𝓝 0) := tendsto_id.mono_left nhdsWithin_le_nhds
  have hsq : Tendsto (fun l : ℝ => √l) (𝓝[>] 0) (𝓝 0) := by
    have := Real.continuous_sqrt.tendsto 0; rw [Real.sqrt_zero] at this; exact this.mono_left nhdsWithin_le_nhds
  have cl := fun l (h : Allowed xc l) => (lam_eq h)
  have hc1 : ∀ k : ℝ, Tendsto (fun _ : ℝ => k) (𝓝[>] (0:ℝ)) (𝓝 k) := fun k => tendsto_const_nhds
  refine ⟨?_, ?_, ?_, ?_⟩
  · have key := ((hw.mul ((((hc1 (1 - 7*xc - 7*xc^2 + xc^3)).sub (hid.mul (hc1 (7 - 12*xc + 7*xc^2)))).sub ((hid.pow 2).mul (hc1 (7 + 7*xc)))).add (hid.pow 3))).add
      (((hc1 (12*xc^2)).mul ((hc1 1).sub (hid.pow 2))).mul hLc)).add (((hc1 (12*(1-xc^2))).mul hid).mul hL)
    have e : g xc 0 = (1-xc)*(1 - 7*xc - 7*xc^2 + xc^3 - 0*(7 - 12*xc + 7*xc^2) - 0^2*(7+7*xc) + 0^3) + 12*xc^2*(1-0^2)*(-Real.log xc) + 12*(1-xc^2)*0*0 := by
      simp only [g, if_true, clog_ofReal h0.le]
      refine re_of ?_
      push_cast; ring
    rw [e]
    refine key.congr' ?_
    filter_upwards [hA] with l hl
    rw [(C127_closed hl).1, (cl l hl).1, (cl l hl).2, root_eq]
    ring
  · have key := ((hc1 (4*√xc)).mul (((hw.mul (((hc1 (1 + 10*xc + xc^2)).sub (hid.mul (hc1 (5 + 5*xc)))).sub ((hc1 2).mul (hid.pow 2)))).sub
      (((hc1 (6*xc)).mul ((((hc1 1).sub hid).pow 2).add (hc1 xc))).mul hLc)).add (((hc1 (6*(1-xc))).mul hid).mul hL)))
    have e : gLR xc 0 = 4*√xc*((1-xc)*(1 + 10*xc + xc^2 - 0*(5+5*xc) - 2*0^2) - 6*xc*((1-0)^2 + xc)*(-Real.log xc) + 6*(1-xc)*0*0) := by
      simp only [gLR, if_true, clog_ofReal h0.le, csqrt_ofReal h0.le]
      refine re_of ?_
      push_cast; ring
    rw [e]
    refine key.congr' ?_
    filter_upwards [hA] with l hl
    rw [(C127_closed hl).2.1, (cl l hl).1, (cl l hl).2, root_eq]
    ring
  · have key := ((hc1 2).mul hsq).mul (((hw.mul ((((hc1 (1 - 5*xc - 2*xc^2)).add ((hc1 10).mul hid)).add (hid.pow 2)).sub ((hc1 (5*xc)).mul hid))).sub
      (((hc1 6).mul ((hc1 ((1-xc)^2)).add hid)).mul hL)).add (((hc1 (6*xc^2)).mul ((hc1 1).sub hid)).mul hLc))
    have e : gVS xc 0 = 2*0*((1-xc)*(1 - 5*xc - 2*xc^2 + 10*0 + 0^2 - 5*xc*0) - 6*((1-xc)^2+0)*0 + 6*xc^2*(1-0)*(-Real.log xc)) := by
      simp [gVS]
    rw [e]
    refine key.congr' ?_
    filter_upwards [hA] with l hl
    rw [(C127_closed hl).2.2.1, (cl l hl).1, (cl l hl).2, root_eq]
    ring
  · have key := ((hc1 (2*√xc)).mul hsq).mul (((hw.mul ((((hc1 (2 + 5*xc - xc^2)).add ((hc1 5).mul hid)).sub ((hc1 (10*xc)).mul hid)).sub (hid.pow 2))).sub
      (((hc1 (6*xc)).mul ((((hc1 1).sub ((hc1 2).mul hid)).add ((hc1 xc).mul hid)).add (hid.pow 2))).mul hLc)).sub
      (((hc1 6).mul ((hc1 (1 - 2*xc + xc^2)).add ((hc1 xc).mul hid))).mul hL))
    have e : gVSp xc 0 = 2*√xc*0*((1-xc)*(2 + 5*xc - xc^2 + 5*0 - 10*xc*0 - 0^2) - 6*xc*(1 - 2*0 + xc*0 + 0^2)*(-Real.log xc) - 6*(1 - 2*xc + xc^2 + xc*0)*0) := by
      simp [gVSp]
    rw [e]
    refine key.congr' ?_
    filter_upwards [hA] with l hl
    rw [(C127_closed hl).2.2.2, (cl l hl).1, (cl l hl).2, root_eq, Real.sqrt_mul h0.le]
    ring
end

/-- Non-vacuity of `C127_SM_ratio`: bottom mass 5, charm mass 1, tau mass 5/3, massless muon. -/
example : ∃ d : Inp, SM d ∧ d.mb ≠ 0 ∧ d.mc ≠ 0 ∧ d.cvlsm ≠ 0 ∧ Flavour "tau" ∧ Flavour "mu" ∧ d.mlep "mu" < d.mlep "tau" ∧
    Allowed0 (xcOf d) (xlOf d "tau") := by
  refine ⟨⟨1, 5, 1, fun l => if l = "tau" then 5/3 else 0, 1, 0, 0, 0, 0, 0, 0, 1, 1, 1, fun _ _ => ⟨0, 0, 0, 0, 0⟩⟩, fun _ _ => rfl, by norm_num, by norm_num, by norm_num,
    by simp [Flavour], by simp [Flavour], by simp, ?_, ?_, ?_⟩
  · simp [xcOf]
  · simp only [xlOf, if_true]; norm_num
  · simp only [xcOf, xlOf, if_true]
    rw [show (1^2/5^2 : ℝ) = (1/5)^2 by norm_num, show ((5/3)^2/5^2 : ℝ) = (1/3)^2 by norm_num, Real.sqrt_sq (by norm_num), Real.sqrt_sq (by norm_num)]
    norm_num

end Verif.Xlnu
