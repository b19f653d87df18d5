import Verif.Physics.Inclusive.XllCorr
/-!
# Properties of `bxll.py`: the forward-backward asymmetry (C131), binned observables and registry (C130)
-/
set_option linter.unusedVariables false
set_option linter.unusedSimpArgs false
namespace Verif.Xll
open Verif.Py Verif Verif.Running Verif.FormFactors Verif.BxllQed Complex MeasureTheory

theorem afb_region {E : Env} {lep : String} {q2 : ℝ} (h1 : 4*(E.mass lep)^2 ≤ q2) (h2 : q2 < E.mb^2) :
    ¬ (q2 < 4*(E.mass lep)^2 ∨ q2 > E.mb^2) := by push Not; exact ⟨h1, h2.le⟩

/-- The forward-backward numerator at tree level, as one interference per chirality. -/
theorem C131_lo_value (E : Env) (q2 : ℝ) (q lep : String) (h0 : E.alphas = 0) (hm : E.mb ≠ 0) (hq : 0 < q2)
    (h1 : 4*(E.mass lep)^2 ≤ q2) (h2 : q2 < E.mb^2) (h3 : q2 ≠ E.mb^2/3) :
    let W (n : String) := E.wc lep (n ++ "_b" ++ q)
    let L (n : String) := E.wc lep (n ++ "_b" ++ q ++ (lep ++ lep))
    let s := q2/E.mb^2
    afbNum1 E q2 q lep false false = .ok (-3*(1-s)^2 * (
      reC (s*(L "C9" + E.dC9 lep q2 + (E.y lep q2 + E.xiu/E.xit * E.yu lep q2)) + 2*(W "C7eff" + E.dC7 lep q2)) (L "C10")
      - reC (s*L "C9p" + 2*W "C7effp") (L "C10p")) * unc E q2 q lep) := by
  intro W L s
  have hmb : 0 < E.mb^2 := by positivity
  have hs : 0 < q2/E.mb^2 := div_pos hq hmb
  have hs1 : q2/E.mb^2 < 1 := by rw [div_lt_one hmb]; exact h2
  obtain ⟨x, hx⟩ := sigma_ok _ hs hs1
  have hd : 3*(1 - 3*(q2/E.mb^2)) ≠ 0 := by
    intro hc; apply h3; field_simp at hc ⊢; linarith
  simp only [afbNum1, if_neg (afb_region h1 h2), inclusiveWc, sigma7, sigma9, hx, h0, zero_div, zero_mul, add_zero, Complex.ofReal_one, mul_one,
    Bind.bind, Except.bind, pure, Except.pure, Bool.false_eq_true, if_false, fllHa, tau710, Mixing.pyDiv_ne hd, false_and]
  refine congrArg Except.ok ?_
  have e : ∀ a b c : ℂ, reC ((s:ℂ)*a + 2*b) c = s*reC a c + 2*reC b c := by
    intro a b c
    simp only [reC_eq, Complex.add_re, Complex.add_im, Complex.mul_re, Complex.mul_im, Complex.re_ofNat, Complex.im_ofNat, Complex.ofReal_re, Complex.ofReal_im]
    ring
  rw [e, e]
  have k1 : W "C7eff" = E.wc lep ("C7eff_b" ++ q) := rfl
  have k2 : W "C7effp" = E.wc lep ("C7effp_b" ++ q) := rfl
  have k3 : L "C9" = E.wc lep ("C9_b" ++ q ++ (lep ++ lep)) := rfl
  have k4 : L "C9p" = E.wc lep ("C9p_b" ++ q ++ (lep ++ lep)) := rfl
  have k5 : L "C10" = E.wc lep ("C10_b" ++ q ++ (lep ++ lep)) := rfl
  have k6 : L "C10p" = E.wc lep ("C10p_b" ++ q ++ (lep ++ lep)) := rfl
  rw [k1, k2, k3, k4, k5, k6]
  ring

theorem interf_le (s : ℝ) (hs : 0 < s) (c7 c9 c10 : ℂ) :
    4*|reC (s*c9 + 2*c7) c10| ≤ ‖c9 + 2*c7‖^2 + 2*s*‖c9 + 2*c7/s‖^2 + (1+2*s)*‖c10‖^2 := by
  have e : (s*c9 + 2*c7 : ℂ) = s*(c9 + 2*c7/s) := by
    have : (s:ℂ) ≠ 0 := by exact_mod_cast hs.ne'
    field_simp
  rw [e]
  generalize c9 + 2*c7/s = z
  have e2 : reC (s*z) c10 = s*reC z c10 := by
    simp only [reC_eq, Complex.re_ofReal_mul, Complex.im_ofReal_mul]; ring
  have h1 : |reC z c10| ≤ ‖z‖*‖c10‖ := by
    refine (Complex.abs_re_le_norm _).trans ?_
    rw [norm_mul, Complex.norm_conj]
  rw [e2, abs_mul, abs_of_pos hs]
  have h2 : 0 ≤ ‖c9 + 2*c7‖^2 := sq_nonneg _
  have h3 : 4*(s*|reC z c10|) ≤ 4*(s*(‖z‖*‖c10‖)) := by
    have := mul_le_mul_of_nonneg_left h1 hs.le; linarith
  nlinarith [mul_nonneg hs.le (sq_nonneg (‖z‖ - ‖c10‖)), sq_nonneg ‖c10‖]

theorem loRate_massless (s : ℝ) (c7 c9 c10 cs cp : ℂ) : loRate s 0 c7 c9 c10 cs cp
    = (1-s)^2*(‖c9 + 2*c7‖^2 + 2*s*‖c9 + 2*c7/s‖^2 + (1+2*s)*‖c10‖^2 + 3/2*s*‖cp‖^2 + 3/2*s*‖cs‖^2) := by
  simp only [loRate]
  norm_num

/-- For massless leptons at tree level the asymmetry is bounded by 3/4 (times the fudge factor), for all Wilson coefficients. -/
theorem C131_bound (E : Env) (q2 : ℝ) (q lep : String) (hl : lep ≠ "l") (h0 : E.alphas = 0) (hm : E.mb ≠ 0) (hml : E.mass lep = 0) (hq : 0 < q2)
    (h2 : q2 < E.mb^2) (h3 : q2 ≠ E.mb^2/3) :
    ∃ A, afb E q2 q lep false false = .ok A ∧ |A| ≤ 3/4*|unc E q2 q lep| := by
  have h1 : 4*(E.mass lep)^2 ≤ q2 := by rw [hml]; linarith
  have hmb : 0 < E.mb^2 := by positivity
  have hs : 0 < q2/E.mb^2 := div_pos hq hmb
  have hn := C131_lo_value E q2 q lep h0 hm hq h1 h2 h3
  have hd := C130_lo_value E q2 q lep h0 hm hq h1 h2
  simp only [hml, zero_div] at hd
  simp only at hn
  have en : afbNum E q2 q lep false false = afbNum1 E q2 q lep false false := by simp only [afbNum, if_neg hl]
  have ed : afbDen E q2 q lep false false = unnorm E q2 q lep false false := by simp only [afbDen, if_neg hl, ite_self]
  simp only [afb, en, ed, hn, hd, Bind.bind, Except.bind, pure, Except.pure]
  simp only [loRate_massless]
  generalize q2/E.mb^2 = s at *
  generalize E.wc lep ("C7eff" ++ "_b" ++ q) + E.dC7 lep q2 = c7
  generalize E.wc lep ("C9" ++ "_b" ++ q ++ (lep ++ lep)) + E.dC9 lep q2 + (E.y lep q2 + E.xiu/E.xit * E.yu lep q2) = c9
  generalize E.wc lep ("C10" ++ "_b" ++ q ++ (lep ++ lep)) = c10
  generalize E.wc lep ("C7effp" ++ "_b" ++ q) = c7p
  generalize E.wc lep ("C9p" ++ "_b" ++ q ++ (lep ++ lep)) = c9p
  generalize E.wc lep ("C10p" ++ "_b" ++ q ++ (lep ++ lep)) = c10p
  generalize (E.mbMS:ℂ) * E.wc lep ("CS" ++ "_b" ++ q ++ (lep ++ lep)) = cs
  generalize (E.mbMS:ℂ) * E.wc lep ("CP" ++ "_b" ++ q ++ (lep ++ lep)) = cp
  generalize (E.mbMS:ℂ) * E.wc lep ("CSp" ++ "_b" ++ q ++ (lep ++ lep)) = csp
  generalize (E.mbMS:ℂ) * E.wc lep ("CPp" ++ "_b" ++ q ++ (lep ++ lep)) = cpp
  generalize unc E q2 q lep = u
  have b1 := interf_le s hs c7 c9 c10
  have b2 := interf_le s hs c7p c9p c10p
  have p1 : 0 ≤ 3/2*s*‖cp‖^2 + 3/2*s*‖cs‖^2 := by positivity
  have p2 : 0 ≤ 3/2*s*‖cpp‖^2 + 3/2*s*‖csp‖^2 := by positivity
  generalize 3/2*s*‖cp‖^2 = t1 at *
  generalize 3/2*s*‖cs‖^2 = t2 at *
  generalize 3/2*s*‖cpp‖^2 = t3 at *
  generalize 3/2*s*‖csp‖^2 = t4 at *
  generalize ‖c9 + 2*c7‖^2 + 2*s*‖c9 + 2*c7/s‖^2 + (1+2*s)*‖c10‖^2 = D1 at *
  generalize ‖c9p + 2*c7p‖^2 + 2*s*‖c9p + 2*c7p/s‖^2 + (1+2*s)*‖c10p‖^2 = D2 at *
  generalize reC (s*c9 + 2*c7) c10 = r1 at *
  generalize reC (s*c9p + 2*c7p) c10p = r2 at *
  set D := (1-s)^2*(D1 + t1 + t2) + (1-s)^2*(D2 + t3 + t4) with hD
  by_cases hz : D = 0
  · rw [if_pos hz]
    exact ⟨0, rfl, by rw [abs_zero]; positivity⟩
  · rw [if_neg hz]
    refine ⟨_, rfl, ?_⟩
    have hpos : 0 ≤ D := by
      have := abs_nonneg r1; have := abs_nonneg r2
      have : 0 ≤ D1 + t1 + t2 := by linarith
      have : 0 ≤ D2 + t3 + t4 := by linarith
      rw [hD]; positivity
    have hDp : 0 < D := lt_of_le_of_ne hpos (Ne.symm hz)
    rw [abs_div, abs_of_pos hDp, div_le_iff₀ hDp, abs_mul, abs_mul, abs_mul, abs_of_nonneg (sq_nonneg (1-s))]
    have h4 : |r1 - r2| ≤ |r1| + |r2| := abs_sub _ _
    have h5 : 4*((1-s)^2*|r1 - r2|) ≤ D := by
      have : 4*|r1 - r2| ≤ (D1 + t1 + t2) + (D2 + t3 + t4) := by linarith
      have := mul_le_mul_of_nonneg_left this (sq_nonneg (1-s))
      rw [hD]; linarith
    have h6 := mul_le_mul_of_nonneg_right h5 (abs_nonneg u)
    have : |(-3:ℝ)| = 3 := by norm_num
    rw [this]
    linarith

/-- An environment used for the counterexamples: one lepton mass, `mb = 1`, no strong coupling, no four-quark contributions. -/
noncomputable def wit (m : ℝ) (W : String → String → ℂ) : Env :=
  { mass := fun _ => m, mb := 1, mc := 0, alphas := 0, alphae := 0, scale := 1, alphas0 := 0, mbMS := 1, xit := 1, xiu := 0, vcb := 1,
    cBXlnu := 1, brSL := 1, l1 := 0, l2 := 1, delta := fun _ => 0, wc := W, y := fun _ _ => 0, yu := fun _ _ => 0, dC7 := fun _ _ => 0,
    dC9 := fun _ _ => 0 }

/-- Coefficients `C9 = C10 = 1` for muons. (Specification.) -/
def witW : String → String → ℂ := fun _ n => if n = "C9_bsmumu" ∨ n = "C10_bsmumu" then 1 else 0

/-- **Finding.** With massive leptons the bound fails: the numerator neglects the lepton mass and the denominator does not, so the
asymmetry grows without limit close to threshold. -/
theorem C131_threshold_witness (M : ℝ) (hM : 0 ≤ M) : ∃ q2 A : ℝ, 1/4 < q2 ∧ q2 < 1/3 ∧
    afb (wit (1/4) witW) q2 "s" "mu" false false = .ok A ∧ M < |A| := by
  set d := 1/(12*(M+1)) with hd
  have hd0 : 0 < d := by positivity
  have hd1 : d ≤ 1/12 := by rw [hd]; apply one_div_le_one_div_of_le (by norm_num); linarith
  set s := (1 + d^2)/4 with hs
  have hs0 : 1/4 < s := by rw [hs]; have : 0 < d^2 := by positivity
                           linarith
  have hs1 : s < 1/3 := by rw [hs]; nlinarith
  have f7 : witW "mu" ("C7eff" ++ "_b" ++ "s") = 0 := by simp [witW]
  have f7p : witW "mu" ("C7effp" ++ "_b" ++ "s") = 0 := by simp [witW]
  have f9 : witW "mu" ("C9" ++ "_b" ++ "s" ++ ("mu" ++ "mu")) = 1 := by simp [witW]
  have f9p : witW "mu" ("C9p" ++ "_b" ++ "s" ++ ("mu" ++ "mu")) = 0 := by simp [witW]
  have f10 : witW "mu" ("C10" ++ "_b" ++ "s" ++ ("mu" ++ "mu")) = 1 := by simp [witW]
  have f10p : witW "mu" ("C10p" ++ "_b" ++ "s" ++ ("mu" ++ "mu")) = 0 := by simp [witW]
  have fs : witW "mu" ("CS" ++ "_b" ++ "s" ++ ("mu" ++ "mu")) = 0 := by simp [witW]
  have fsp : witW "mu" ("CSp" ++ "_b" ++ "s" ++ ("mu" ++ "mu")) = 0 := by simp [witW]
  have fp : witW "mu" ("CP" ++ "_b" ++ "s" ++ ("mu" ++ "mu")) = 0 := by simp [witW]
  have fpp : witW "mu" ("CPp" ++ "_b" ++ "s" ++ ("mu" ++ "mu")) = 0 := by simp [witW]
  have hreg : 4*((wit (1/4) witW).mass "mu")^2 ≤ s := by simp only [wit]; norm_num; linarith
  have hmb : s < (wit (1/4) witW).mb^2 := by simp only [wit]; linarith
  have hm1 : (wit (1/4) witW).mb ≠ 0 := by simp [wit]
  have hp3 : s ≠ (wit (1/4) witW).mb^2/3 := by simp only [wit]; intro h; norm_num at h; linarith
  have hn := C131_lo_value (wit (1/4) witW) s "s" "mu" rfl hm1 (by linarith) hreg hmb hp3
  have hde := C130_lo_value (wit (1/4) witW) s "s" "mu" rfl hm1 (by linarith) hreg hmb
  have hu : unc (wit (1/4) witW) s "s" "mu" = 1 := by
    simp only [unc, wit, if_pos (show s < 12 by linarith), if_neg (by decide : ¬ ("mu" = "tau")), add_zero]
  have en : afbNum (wit (1/4) witW) s "s" "mu" false false = afbNum1 (wit (1/4) witW) s "s" "mu" false false := by
    simp only [afbNum, if_neg (by decide : ¬ ("mu" = "l"))]
  have ed : afbDen (wit (1/4) witW) s "s" "mu" false false = unnorm (wit (1/4) witW) s "s" "mu" false false := by
    simp only [afbDen, if_neg (by decide : ¬ ("mu" = "l")), ite_self]
  simp only [hu] at hn
  simp only [wit] at hn hde en ed ⊢
  simp only [f7, f7p, f9, f9p, f10, f10p, fs, fsp, fp, fpp, one_pow, div_one, mul_zero, add_zero, zero_add, zero_div, mul_one, sub_zero] at hn hde
  set B : ℝ := (1 + 2*(1/4)^2/s)*(1 + 2*s) + (1 + 2*s)*(1 - 4*(1/4)^2/s) + 6*(1/4)^2/s with hB
  have hx : 1 - 4*(1/4)^2/s = d^2/(1 + d^2) := by
    rw [hs]; have : (1 + d^2) ≠ 0 := by positivity
    field_simp; ring
  have hx0 : 0 ≤ 1 - 4*(1/4)^2/s := by rw [hx]; positivity
  have hsq : Real.sqrt (1 - 4*(1/4)^2/s) ≤ d := by
    rw [hx, Real.sqrt_le_left hd0.le]
    rw [div_le_iff₀ (by positivity)]; nlinarith [sq_nonneg d, sq_nonneg (d^2)]
  have hsqp : 0 < Real.sqrt (1 - 4*(1/4)^2/s) := by rw [hx]; exact Real.sqrt_pos.mpr (by positivity)
  have hB0 : 0 < B := by rw [hB]; have : 0 < s := by linarith
                         positivity
  have hB9 : B ≤ 9 := by
    have hs' : (0:ℝ) < s := by linarith
    have h1 : 2*(1/4)^2/s ≤ 1/2 := by rw [div_le_iff₀ hs']; norm_num; linarith
    have h2 : 6*(1/4)^2/s ≤ 3/2 := by rw [div_le_iff₀ hs']; norm_num; linarith
    have h3 : 1 - 4*(1/4)^2/s ≤ 1 := by have : 0 ≤ 4*(1/4:ℝ)^2/s := by positivity
                                        linarith
    have h4 : (1 + 2*(1/4)^2/s)*(1 + 2*s) ≤ 3/2*2 := mul_le_mul (by linarith) (by linarith) (by linarith) (by norm_num)
    have h5 : (1 + 2*s)*(1 - 4*(1/4)^2/s) ≤ 2*1 := mul_le_mul (by linarith) h3 hx0 (by norm_num)
    rw [hB]; linarith
  have hden : unnorm (wit (1/4) witW) s "s" "mu" false false = .ok ((1-s)^2*Real.sqrt (1 - 4*(1/4)^2/s)*B) := by
    simp only [wit]
    rw [hde]
    refine congrArg Except.ok ?_
    have hs' : s ≠ 0 := by linarith
    simp only [loRate, hB]
    norm_num
    left
    rw [abs_of_pos (by linarith : (0:ℝ) < s)]
    field_simp
    ring
  have hnum : afbNum1 (wit (1/4) witW) s "s" "mu" false false = .ok (-3*(1-s)^2*s) := by
    simp only [wit]
    rw [hn]
    refine congrArg Except.ok ?_
    simp [reC]
  simp only [wit] at hden hnum
  refine ⟨s, -3*(1-s)^2*s/((1-s)^2*Real.sqrt (1 - 4*(1/4)^2/s)*B), hs0, hs1, ?_, ?_⟩
  · simp only [afb, en, ed, hnum, hden, Bind.bind, Except.bind, pure, Except.pure]
    rw [if_neg]
    have : (1-s)^2 ≠ 0 := pow_ne_zero 2 (by linarith)
    exact mul_ne_zero (mul_ne_zero this hsqp.ne') hB0.ne'
  · have h1s : 0 < (1-s)^2 := by have : 0 < 1 - s := by linarith
                                 positivity
    have e : -3*(1-s)^2*s/((1-s)^2*Real.sqrt (1 - 4*(1/4)^2/s)*B) = -(3*s/(Real.sqrt (1 - 4*(1/4)^2/s)*B)) := by
      have aux : ∀ k r b : ℝ, k ≠ 0 → r ≠ 0 → b ≠ 0 → -3*k*s/(k*r*b) = -(3*s/(r*b)) := by
        intro k r b hk hr hb; field_simp
      exact aux _ _ _ h1s.ne' hsqp.ne' hB0.ne'
    rw [e, abs_neg, abs_of_pos (by positivity), lt_div_iff₀ (by positivity)]
    have h6 : Real.sqrt (1 - 4*(1/4)^2/s)*B ≤ d*9 := mul_le_mul hsq hB9 hB0.le hd0.le
    have h7 : M*(d*9) = 3/4*(M/(M+1)) := by rw [hd]; field_simp; ring
    have h8 : M/(M+1) < 1 := by rw [div_lt_one (by linarith)]; linarith
    have h9 := mul_le_mul_of_nonneg_left h6 hM
    linarith

/-- **Finding.** The asymmetry cannot be evaluated for `mb²/2 ≤ q² < 14 GeV²`: the QED correction is requested there but its
table ends at `mb²/2`, so the lookup raises `KeyError` (with the default flags, for every lepton and all coefficients). -/
theorem C131_keyerror_witness (E : Env) (q2 : ℝ) (q lep : String) (pc : Bool) (hl : lep ≠ "l") (hm : E.mb ≠ 0)
    (h1 : 4*(E.mass lep)^2 ≤ q2) (h2 : E.mb^2/2 ≤ q2) (h3 : q2 < E.mb^2) (h4 : q2 < 14) :
    afb E q2 q lep true pc = .error .keyError := by
  have hmb : 0 < E.mb^2 := by positivity
  have hs : 0 < q2/E.mb^2 := div_pos (by linarith) hmb
  have hs1 : q2/E.mb^2 < 1 := by rw [div_lt_one hmb]; exact h3
  have hs2 : 0.5 ≤ q2/E.mb^2 := by rw [le_div_iff₀ hmb]; norm_num; linarith
  obtain ⟨x, hx⟩ := sigma_ok _ hs hs1
  have hd : 3*(1 - 3*(q2/E.mb^2)) ≠ 0 := by norm_num at hs2; intro hc; linarith
  have hor : ¬ ("A" = "T" ∨ "A" = "L" ∨ "A" = "BR") := by decide
  have s7 : sigmaij "A" 7 10 (q2/E.mb^2) = .ok (-8*(1-q2/E.mb^2)^2) := by simp [sigmaij]
  have hk : ∀ sc, wem "A" 7 10 (q2/E.mb^2) E.mb (E.mass lep) sc E.mc = .error .keyError := fun sc =>
    (C129_domain _ _ _ _ _ hs2 7 10).1
  have hq : ∀ w : String → ℂ, phiQed "A" (q2/E.mb^2) E.mb (E.mass lep) E.alphas E.alphae w q lep E.mc E.scale = .error .keyError := by
    intro w
    simp only [phiQed, qedMatrix, if_neg hor, if_true, s7, hk, Bind.bind, Except.bind]
  have : afbNum1 E q2 q lep true pc = .error .keyError := by
    simp only [afbNum1, if_neg (afb_region h1 h3), inclusiveWc, sigma7, sigma9, hx, Bind.bind, Except.bind, pure, Except.pure,
      fllHa, tau710, Mixing.pyDiv_ne hd, true_and, if_pos h4, hq]
  simp only [afb, afbNum, if_neg hl, this, Bind.bind, Except.bind]

/-- **Finding.** At `q² = mb²/3`, inside the physical region, the asymmetry raises `ZeroDivisionError`, whatever the flags. -/
theorem C131_pole_witness (E : Env) (q lep : String) (qed pc : Bool) (hl : lep ≠ "l") (hm : E.mb ≠ 0)
    (h1 : 4*(E.mass lep)^2 ≤ E.mb^2/3) : afb E (E.mb^2/3) q lep qed pc = .error .zeroDivisionError := by
  have hmb : 0 < E.mb^2 := by positivity
  have es : E.mb^2/3/E.mb^2 = 1/3 := by field_simp
  obtain ⟨x, hx⟩ := sigma_ok (1/3) (by norm_num) (by norm_num)
  have hd : (3:ℝ)*(1 - 3*(1/3)) = 0 := by norm_num
  have : afbNum1 E (E.mb^2/3) q lep qed pc = .error .zeroDivisionError := by
    simp only [afbNum1, if_neg (afb_region h1 (by linarith : E.mb^2/3 < E.mb^2)), inclusiveWc, sigma7, sigma9, es, hx, Bind.bind, Except.bind,
      pure, Except.pure, fllHa, tau710, hd, Mixing.pyDiv_zero]
  simp only [afb, afbNum, if_neg hl, this, Bind.bind, Except.bind]

/-- Numerator and denominator of the asymmetry treat QED corrections alike on either side of 14 GeV²; exactly at 14 the numerator
leaves them out and the denominator keeps them. -/
theorem C131_boundary (E : Env) (q2 : ℝ) (q lep : String) (pc : Bool) (hl : lep ≠ "l") :
    (14 < q2 → afbNum1 E q2 q lep true pc = afbNum1 E q2 q lep false pc ∧ afbDen E q2 q lep true pc = unnorm E q2 q lep false pc) ∧
    (q2 = 14 → afbNum1 E q2 q lep true pc = afbNum1 E q2 q lep false pc ∧ afbDen E q2 q lep true pc = unnorm E q2 q lep true pc) ∧
    (q2 < 14 → afbDen E q2 q lep true pc = unnorm E q2 q lep true pc) := by
  refine ⟨fun h => ⟨?_, ?_⟩, fun h => ⟨?_, ?_⟩, fun h => ?_⟩
  · simp only [afbNum1, not_lt.mpr h.le, and_false, if_false]
  · simp only [afbDen, gt_iff_lt, if_pos h, if_neg hl]
  · simp only [afbNum1, h, lt_irrefl, and_false, if_false]
  · simp only [afbDen, gt_iff_lt, h, lt_irrefl, if_false, if_neg hl]
  · simp only [afbDen, gt_iff_lt, not_lt.mpr h.le, if_false, if_neg hl]

/-- Coefficients `C9 = 1` and its mirror image `C9' = 1`. (Specification.) -/
def witV : String → String → ℂ := fun _ n => if n = "C9_bsmumu" then 1 else 0
/-- The mirror image of `witV`. (Specification.) -/
def witV' : String → String → ℂ := fun _ n => if n = "C9p_bsmumu" then 1 else 0

/-- **Finding.** The parity symmetry of the rate (`C130_swap`) is lost when the power corrections are included: they are computed
from the unprimed coefficients only. -/
theorem C130_swap_witness :
    Swapped (witV "mu") (witV' "mu") "s" "mu" ∧
    ∃ x y, unnorm (wit 0 witV) (1/4) "s" "mu" false true = .ok x ∧ unnorm {wit 0 witV with wc := witV'} (1/4) "s" "mu" false true = .ok y ∧ x ≠ y := by
  refine ⟨by simp [Swapped, witV, witV'], ?_⟩
  have hr : ¬ ((1/4:ℝ) < 4*0^2 ∨ (1/4:ℝ) > 1^2) := by norm_num
  obtain ⟨x, hx⟩ := sigma_ok (1/4) (by norm_num) (by norm_num)
  have hw : wit 0 witV' = {wit 0 witV with wc := witV'} := rfl
  have e1 : (1/4:ℝ)/1^2 = 1/4 := by norm_num
  rw [← hw]
  refine ⟨75/64, 27/32, ?_, ?_, by norm_num⟩
  · simp only [unnorm, wit, if_neg hr, inclusiveWc, sigma7, sigma9, e1, hx, Bind.bind, Except.bind, pure, Except.pure, Bool.false_eq_true, if_false, if_true, pcL, pcT]
    refine congrArg Except.ok ?_
    simp [witV, fll, reC]
    norm_num
  · simp only [unnorm, wit, if_neg hr, inclusiveWc, sigma7, sigma9, e1, hx, Bind.bind, Except.bind, pure, Except.pure, Bool.false_eq_true, if_false, if_true, pcL, pcT]
    refine congrArg Except.ok ?_
    simp [witV', fll, reC]
    norm_num

/-- **Specification.** What is assumed of the numerical quadrature: it is exact on integrable functions that can be evaluated in the
interior of the interval, and it evaluates at least one interior point. -/
structure QuadSpec (quad : Quad) : Prop where
  exact : ∀ f g a b, a ≤ b → (∀ x ∈ Set.Ioo a b, f x = .ok (g x)) → IntervalIntegrable g volume a b → quad f a b = .ok (∫ x in a..b, g x)
  raises : ∀ f e a b, a < b → (∀ x ∈ Set.Ioo a b, f x = .error e) → quad f a b = .error e

open Classical in
/-- Non-vacuity: there is such a quadrature. -/
theorem quadSpec_exists : ∃ quad : Quad, QuadSpec quad := by
  refine ⟨fun f a b => if h : ∃ g : ℝ → ℝ, (∀ x ∈ Set.Ioo a b, f x = .ok (g x)) ∧ IntervalIntegrable g volume a b then .ok (∫ x in a..b, h.choose x)
    else if h : ∃ e, ∀ x ∈ Set.Ioo a b, f x = .error e then .error h.choose else .error .runtimeError, ?_, ?_⟩
  · intro f g a b hab hfg hi
    have h : ∃ g : ℝ → ℝ, (∀ x ∈ Set.Ioo a b, f x = .ok (g x)) ∧ IntervalIntegrable g volume a b := ⟨g, hfg, hi⟩
    simp only [dif_pos h]
    refine congrArg Except.ok ?_
    rw [intervalIntegral.integral_of_le hab, intervalIntegral.integral_of_le hab, MeasureTheory.integral_Ioc_eq_integral_Ioo,
      MeasureTheory.integral_Ioc_eq_integral_Ioo]
    refine MeasureTheory.setIntegral_congr_fun measurableSet_Ioo (fun x hx => ?_)
    have h1 := h.choose_spec.1 x hx
    rw [hfg x hx] at h1
    exact (Except.ok.inj h1).symm
  · intro f e a b hab hfe
    have hm : (a + b)/2 ∈ Set.Ioo a b := ⟨by linarith, by linarith⟩
    have h : ¬ ∃ g : ℝ → ℝ, (∀ x ∈ Set.Ioo a b, f x = .ok (g x)) ∧ IntervalIntegrable g volume a b := by
      rintro ⟨g, hg, -⟩
      have := hg _ hm
      rw [hfe _ hm] at this
      cases this
    have h' : ∃ e, ∀ x ∈ Set.Ioo a b, f x = .error e := ⟨e, hfe⟩
    simp only [dif_neg h, dif_pos h']
    have h2 := h'.choose_spec _ hm
    rw [hfe _ hm] at h2
    exact h2.symm

/-- Binned rates: zero for bins outside the physical region of the lepton; equal to the integral of the differential rate, hence
additive over adjacent bins; for `ℓ` the average of electron and muon; `Rμe` is the quotient, 0 for a zero numerator. -/
theorem C130_bins (quad : Quad) (hquad : QuadSpec quad) (E : Env) (q lep : String) (g : ℝ → ℝ) (a b c : ℝ)
    (hab : a ≤ b) (hbc : b ≤ c) (hg : ∀ x ∈ Set.Ioo a c, dbrdq2 E x q lep = .ok (g x)) (hi : IntervalIntegrable g volume a c) :
    ∃ x y : ℝ, brInt quad E q lep a b = .ok x ∧ brInt quad E q lep b c = .ok y ∧ brInt quad E q lep a c = .ok (x + y) ∧
      x + y = ∫ t in a..c, g t := by
  have h1 : IntervalIntegrable g volume a b := hi.mono_set (by rw [Set.uIcc_of_le hab, Set.uIcc_of_le (hab.trans hbc)]; exact Set.Icc_subset_Icc le_rfl hbc)
  have h2 : IntervalIntegrable g volume b c := hi.mono_set (by rw [Set.uIcc_of_le hbc, Set.uIcc_of_le (hab.trans hbc)]; exact Set.Icc_subset_Icc hab le_rfl)
  refine ⟨_, _, hquad.exact _ g a b hab (fun x hx => hg x ⟨hx.1, lt_of_lt_of_le hx.2 hbc⟩) h1,
    hquad.exact _ g b c hbc (fun x hx => hg x ⟨lt_of_le_of_lt hab hx.1, hx.2⟩) h2, ?_, ?_⟩
  · rw [intervalIntegral.integral_add_adjacent_intervals h1 h2]
    exact hquad.exact _ g a c (hab.trans hbc) hg hi
  · exact intervalIntegral.integral_add_adjacent_intervals h1 h2

theorem C130_bins_outside (quad : Quad) (hquad : QuadSpec quad) (E : Env) (q lep : String) (hl : lep ≠ "l") (a b : ℝ) (hab : a ≤ b)
    (h : b ≤ 4*(E.mass lep)^2 ∨ E.mb^2 ≤ a) : brInt quad E q lep a b = .ok 0 := by
  have h0 : brInt quad E q lep a b = .ok (∫ x in a..b, (0:ℝ)) := by
    refine hquad.exact _ (fun _ => 0) a b hab (fun x hx => ?_) intervalIntegrable_const
    simp only [dbrdq2, if_neg hl]
    refine ((C130_region E q lep true true).1 x ?_).2.1
    rcases h with h | h
    · exact Or.inl (lt_of_lt_of_le hx.2 h)
    · exact Or.inr (lt_of_le_of_lt h hx.1)
  rw [h0]; simp

theorem C130_ratio (quad : Quad) (E : Env) (q l1 l2 : String) (a b n d : ℝ) (hn : brInt quad E q l1 a b = .ok n) (hd : brInt quad E q l2 a b = .ok d) :
    (n = 0 → brRatio quad E q l1 l2 a b = .ok 0) ∧ (n ≠ 0 → d ≠ 0 → brRatio quad E q l1 l2 a b = .ok (n/d)) ∧
    (n ≠ 0 → d = 0 → brRatio quad E q l1 l2 a b = .error .zeroDivisionError) := by
  refine ⟨fun h => ?_, fun h h' => ?_, fun h h' => ?_⟩
  · simp only [brRatio, hn, Bind.bind, Except.bind, if_pos h]; rfl
  · simp only [brRatio, hn, hd, Bind.bind, Except.bind, if_neg h, Mixing.pyDiv_ne h']
  · simp only [brRatio, hn, hd, Bind.bind, Except.bind, if_neg h, h', Mixing.pyDiv_zero]

/-- The observables defined: 32 names, all different; branching ratios for every lepton, asymmetries for all but the tau, the
ratios `Rμe` and `Rτμ` with the first-named lepton in the numerator. -/
theorem C130_registry :
    (registry.map (·.1)).Nodup ∧ registry.length = 32 ∧
    (∀ q ∈ ["s", "d"], ∀ l ∈ ["e", "mu", "tau", "l"],
      ("<BR>(B->X" ++ q ++ l ++ l ++ ")", ["q2min", "q2max"], Kind.brBin q l) ∈ registry ∧
      ("dBR/dq2(B->X" ++ q ++ l ++ l ++ ")", ["q2"], Kind.br q l) ∈ registry ∧
      (("<AFB>(B->X" ++ q ++ l ++ l ++ ")", ["q2min", "q2max"], Kind.afbBin q l) ∈ registry ↔ l ≠ "tau") ∧
      (("AFB(B->X" ++ q ++ l ++ l ++ ")", ["q2"], Kind.afb q l) ∈ registry ↔ l ≠ "tau")) ∧
    (∀ q ∈ ["s", "d"], ("<Rmue>(B->X" ++ q ++ "ll)", ["q2min", "q2max"], Kind.ratio q "mu" "e") ∈ registry ∧
      ("<Rtaumu>(B->X" ++ q ++ "ll)", ["q2min", "q2max"], Kind.ratio q "tau" "mu") ∈ registry) := by
  refine ⟨by decide +kernel, by decide +kernel, ?_, ?_⟩
  · intro q hq l hl
    simp only [List.mem_cons, List.not_mem_nil, or_false] at hq hl
    rcases hq with rfl | rfl <;> rcases hl with rfl | rfl | rfl | rfl <;> decide +kernel
  · intro q hq
    simp only [List.mem_cons, List.not_mem_nil, or_false] at hq
    rcases hq with rfl | rfl <;> decide +kernel

/-- **Finding.** A bin inside `[mb²/2, 14]` makes the binned asymmetry raise `KeyError`. -/
theorem C131_bin_witness (quad : Quad) (hquad : QuadSpec quad) (E : Env) (q lep : String) (hl : lep ≠ "l") (hm : E.mb ≠ 0) (a b : ℝ)
    (hab : a < b) (h1 : 4*(E.mass lep)^2 ≤ a) (h2 : E.mb^2/2 ≤ a) (h3 : b ≤ E.mb^2) (h4 : b ≤ 14) :
    afbInt quad E q lep a b = .error .keyError := by
  have hnum : ∀ x ∈ Set.Ioo a b, afbNum E x q lep true true = .error .keyError := by
    intro x hx
    have h := C131_keyerror_witness E x q lep true hl hm (h1.trans hx.1.le) (h2.trans hx.1.le) (lt_of_lt_of_le hx.2 h3) (lt_of_lt_of_le hx.2 h4)
    simp only [afb, Bind.bind, Except.bind] at h
    cases hn : afbNum E x q lep true true with
    | error e => rw [hn] at h; exact h
    | ok v =>
      exfalso
      have hr : ¬ (x < 4*(E.mass lep)^2 ∨ x > E.mb^2) := afb_region (h1.trans hx.1.le) (lt_of_lt_of_le hx.2 h3)
      rw [hn] at h
      simp only at h
      cases hd : afbDen E x q lep true true with
      | error e =>
        have hden : ∃ y, afbDen E x q lep true true = .ok y := by
          have hmb : 0 < E.mb^2 := by positivity
          obtain ⟨z, hz⟩ := sigma_ok (x/E.mb^2) (div_pos (by have := hx.1; linarith) hmb) (by rw [div_lt_one hmb]; exact lt_of_lt_of_le hx.2 h3)
          have hor : ("BR" = "T" ∨ "BR" = "L" ∨ "BR" = "BR") := Or.inr (Or.inr rfl)
          obtain ⟨w22, w77, w79, w99, w27, w29, e22, e77, e79, e99, e27, e29⟩ := wem_br (x/E.mb^2) E.mb (E.mass lep) E.scale E.mc
          obtain ⟨s77, s79, s99⟩ := sig_br (x/E.mb^2)
          simp only [afbDen, gt_iff_lt, not_lt.mpr (hx.2.le.trans h4), if_false, if_neg hl, unnorm, if_neg (show ¬ (x < 4*(E.mass lep)^2 ∨ E.mb^2 < x) from hr),
            inclusiveWc, sigma7, sigma9, hz, Bind.bind, Except.bind, pure, Except.pure, if_true, phiQed, qedMatrix, if_pos hor, e22, e77, e79, e99, e27, e29,
            s77, s79, s99, pcL, pcT]
          exact ⟨_, rfl⟩
        obtain ⟨y, hy⟩ := hden
        rw [hy] at hd
        cases hd
      | ok d => rw [hd] at h; simp only at h; split_ifs at h <;> cases h
  have := hquad.raises _ _ a b hab hnum
  simp only [afbInt, this, Bind.bind, Except.bind]

/-- Normalisation of the rate: to the measured semileptonic branching ratio, with the b → u phase space factor (1 + αs/4π·(50/3 - 8π²/3)
+ QED running + λ₁/2mb² - 9λ₂/2mb²) in the denominator, and times `1 + δ` with the `low` parameter below 12 GeV² (no correction for the tau)
and the `high` one from 12 GeV² on. -/
theorem C130_normalisation (E : Env) (q2 phi : ℝ) (q lep : String) (hl : lep ≠ "l") (h1 : 4*(E.mass lep)^2 ≤ q2) (h2 : q2 ≤ E.mb^2)
    (hp : unnorm E q2 q lep true true = .ok phi) (ha : E.alphas ≠ 0) (ha0 : E.alphas0 ≠ 0) :
    let N := (E.alphae/(2*Real.pi*E.mb))^2 * (E.brSL/E.cBXlnu) * (‖E.xit‖/‖E.vcb‖)^2
    let F := 1 + E.alphas/(4*Real.pi)*(50/3 - 8/3*Real.pi^2) + 12/23*(E.alphae/E.alphas - E.alphae/E.alphas0) + (E.l1 - 9*E.l2)/(2*E.mb^2)
    (q2 < 12 → lep = "tau" → dbrdq2 E q2 q lep = .ok (N*phi/F)) ∧
    (q2 < 12 → lep ≠ "tau" → dbrdq2 E q2 q lep = .ok (N*phi/F*(1 + E.delta ("delta_BX" ++ q ++ lep ++ lep ++ " low")))) ∧
    (12 ≤ q2 → dbrdq2 E q2 q lep = .ok (N*phi/F*(1 + E.delta ("delta_BX" ++ q ++ lep ++ lep ++ " high")))) := by
  intro N F
  have hr : ¬ (q2 < 4*(E.mass lep)^2 ∨ q2 > E.mb^2) := by push Not; exact ⟨h1, h2⟩
  have hN : prefactor E = N := by simp only [prefactor, N]; ring
  have hF : fu E.alphae E.alphas E.alphas0 E.mb E.l1 E.l2 = F := by
    simp only [fu, F]
    have := Real.pi_ne_zero
    field_simp
    ring
  have hd : dbrdq2 E q2 q lep = .ok (N*phi/F*unc E q2 q lep) := by
    simp only [dbrdq2, if_neg hl, dbr1, if_neg hr, hp, hN, hF, Bind.bind, Except.bind, pure, Except.pure]
  refine ⟨fun h ht => ?_, fun h ht => ?_, fun h => ?_⟩ <;> rw [hd]
  · simp only [unc, if_pos h, if_pos ht, mul_one]
  · simp only [unc, if_pos h, if_neg ht]
  · simp only [unc, if_neg (not_lt.mpr h)]

/-- Non-vacuity of `C131_bound`: massless muons, `C9 = C10 = 1`, `q² = mb²/2`. -/
example : ∃ A, afb (wit 0 witW) (1/2) "s" "mu" false false = .ok A ∧ |A| ≤ 3/4*|unc (wit 0 witW) (1/2) "s" "mu"| :=
  C131_bound (wit 0 witW) (1/2) "s" "mu" (by decide) rfl (by simp [wit]) rfl (by norm_num) (by norm_num [wit]) (by norm_num [wit])

/-- Non-vacuity of `C131_bin_witness`: for the bottom mass 4 the bin `[9, 13]`. -/
example : ∃ quad : Quad, afbInt quad {wit (1/10) witW with mb := 4} "s" "mu" 9 13 = .error .keyError := by
  obtain ⟨quad, hq⟩ := quadSpec_exists
  exact ⟨quad, C131_bin_witness quad hq _ "s" "mu" (by decide) (by norm_num) 9 13 (by norm_num) (by simp [wit]; norm_num) (by norm_num) (by norm_num) (by norm_num)⟩

end Verif.Xll
