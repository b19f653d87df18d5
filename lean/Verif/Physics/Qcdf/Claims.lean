import Verif.Physics.Qcdf.Theorems
/-!
# The claims about the QCD factorisation corrections
-/
set_option linter.unusedVariables false
set_option linter.unusedSimpArgs false
set_option linter.unnecessarySeqFocus false
namespace Verif.Qcdf
open Verif.Py Verif Verif.Running Complex
open Verif.MatrixElements (Wc)
open Verif.Angular (Trans AmpV transToHel)

/-- **C140**: with all three contributions switched off both functions raise `ValueError`, whatever the other arguments. -/
theorem C140_nothing_switched_on (F : Fn) (P : Par) (w : Wc) (B V : String) (q2 scale : ℝ) (rule : List (ℝ × ℝ)) :
    TPara F P w B V q2 scale rule ⟨false, false, false⟩ = .error .valueError ∧
    TPerp F P w B V q2 scale rule ⟨false, false, false⟩ = .error .valueError ∧
    helQcdf F P w B V q2 scale rule ⟨false, false, false⟩ = .error .valueError := ⟨rfl, rfl, rfl⟩

/-- **C140**: the longitudinal correction is the sum of weak annihilation, chromomagnetic and four-quark contributions: for
every choice of the switches the result is the sum of what is switched on, and each is linear in the Wilson coefficients. -/
theorem C140_para_additive_linear (F : Fn) (P : Par) (B V : String) (q2 scale : ℝ) (rule : List (ℝ × ℝ))
    (h : (B, V) ∈ Decays) (g : Good P q2 rule) :
    ∃ a b c : Wc → ℂ, IsLin a ∧ IsLin b ∧ IsLin c ∧ ∀ w k, k.any →
      TPara F P w B V q2 scale rule k = .ok ((if k.wa then a w else 0) + (if k.o8 then b w else 0) + (if k.qss then c w else 0)) :=
  ⟨_, _, _, waPara_lin F P V q2 rule, o8Para_lin F P V q2 rule, qssPara_lin F P V q2 scale rule,
    fun w k hk => TPara_eq F P w B V q2 scale rule k h g hk⟩

/-- **C140**: the same for the transverse correction. -/
theorem C140_perp_additive_linear (F : Fn) (P : Par) (B V : String) (q2 scale : ℝ) (rule : List (ℝ × ℝ))
    (h : (B, V) ∈ Decays) (hq : q2 < P.mB ^ 2) :
    ∃ a b c : Wc → ℂ, IsLin a ∧ IsLin b ∧ IsLin c ∧ ∀ w k, k.any →
      TPerp F P w B V q2 scale rule k = .ok ((if k.wa then a w else 0) + (if k.o8 then b w else 0) + (if k.qss then c w else 0)) :=
  ⟨_, _, _, waPerp_lin P V q2 rule, o8Perp_lin P q2 rule, qssPerp_lin F P q2 rule,
    fun w k hk => TPerp_eq F P w B V q2 scale rule k h hq hk⟩

theorem csqrt_pos (x : ℝ) (hx : 0 < x) : Xlnu.csqrt (x : ℂ) = (Real.sqrt x : ℝ) := by
  unfold Xlnu.csqrt
  rw [Real.sqrt_eq_rpow, Complex.ofReal_cpow hx.le]; norm_num

/-- **C140**: the corrections are purely vectorial and left-handed: for each of the four decays the amplitude of positive
helicity, all axial amplitudes and all scalar, pseudoscalar and tensor amplitudes are exactly zero; the other two are the
transverse and the longitudinal correction with their factors of `1/q²` and `1/√q²`; the warning is given above 6 GeV². -/
theorem C140_helicities (F : Fn) (P : Par) (w : Wc) (B V : String) (q2 scale : ℝ) (rule : List (ℝ × ℝ)) (k : Incl)
    (h : (B, V) ∈ Decays) (g : Good P q2 rule) (hk : k.any) :
    ∃ H : AmpV, ∃ Tp Tl : ℂ, helQcdf F P w B V q2 scale rule k = .ok (6 < q2, H) ∧
      TPerp F P w B V q2 scale rule k = .ok Tp ∧ TPara F P w B V q2 scale rule k = .ok Tl ∧
      H.plV = 0 ∧ H.plA = 0 ∧ H.miA = 0 ∧ H.zeA = 0 ∧ H.S = 0 ∧ H.P = 0 ∧ H.plT = 0 ∧ H.miT = 0 ∧ H.zeT = 0 ∧ H.plTt = 0 ∧ H.miTt = 0 ∧ H.zeTt = 0 ∧
      H.miV = -2 * I * P.pref * ((P.mB ^ 2 - q2) * P.mb / q2 : ℝ) * Tp ∧
      H.zeV = -I / 2 * P.pref * (P.mb * (P.mB ^ 2 - q2) ^ 2 / (P.mB ^ 2 * P.mV * Real.sqrt q2) : ℝ) * Tl := by
  have hp := TPerp_eq F P w B V q2 scale rule k h g.q2_lt hk
  have hl := TPara_eq F P w B V q2 scale rule k h g hk
  generalize on k.wa (waPerp P V q2 rule w) + on k.o8 (o8Perp P q2 rule w) + on k.qss (qssPerp F P q2 rule w) = Tp at hp
  generalize on k.wa (waPara F P V q2 rule w) + on k.o8 (o8Para F P V q2 rule w) + on k.qss (qssPara F P V q2 scale rule w) = Tl at hl
  let pe := P.pref / 4 * (Real.sqrt 2 : ℝ) * 2 * (P.mB ^ 2 - q2 : ℝ) * P.mb / q2 * Tp
  let ze := P.pref / 4 * P.mb * ((P.mB ^ 2 - q2) ^ 2 : ℝ) / ((P.mB ^ 2 * P.mV : ℝ) * Xlnu.csqrt q2) * Tl
  refine ⟨transToHel { zL := ze, zR := ze, perL := pe, perR := pe, parL := -pe, parR := -pe }, Tp, Tl, ?_, hp, hl, ?_⟩
  · unfold helQcdf transQcdf
    rw [hp, hl]
    simp only [Bind.bind, Except.bind, if_neg g.q2_pos.ne', pure, Except.pure]
    rfl
  · have s2 : ((Real.sqrt 2 : ℝ) : ℂ) ≠ 0 := by
      have : Real.sqrt 2 ≠ 0 := by positivity
      exact_mod_cast this
    have s3 : ((Real.sqrt 2 : ℝ) : ℂ) ^ 2 = 2 := by
      rw [← Complex.ofReal_pow, Real.sq_sqrt (by norm_num)]; norm_num
    simp only [transToHel, pe, ze]
    refine ⟨by ring, by ring, by ring, by ring, trivial, trivial, trivial, trivial, trivial, trivial, trivial, trivial, ?_, ?_⟩
    · rw [div_eq_iff s2]
      push_cast
      ring
    · rw [csqrt_pos q2 g.q2_pos]
      push_cast
      ring

/-- **C140**: at `q² = 0` the amplitudes of each decay are not defined: `ZeroDivisionError`, whatever is switched on. -/
theorem C140_q2_zero (F : Fn) (P : Par) (w : Wc) (B V : String) (scale : ℝ) (rule : List (ℝ × ℝ)) (k : Incl)
    (h : (B, V) ∈ Decays) (hB : 0 < P.mB) (hn : ∀ n ∈ rule, 0 < n.1 ∧ n.1 < 1) (hk : k.any) :
    helQcdf F P w B V 0 scale rule k = .error .zeroDivisionError := by
  have hp := TPerp_eq F P w B V 0 scale rule k h (by positivity) hk
  have hT : TPara F P w B V 0 scale rule k = .error .zeroDivisionError ∨ ∃ v, TPara F P w B V 0 scale rule k = .ok v := by
    unfold TPara
    rw [not_none k hk]
    have hd : -0 + P.mB ^ 2 ≠ 0 := by rw [neg_zero, zero_add]; positivity
    simp only [Bool.false_eq_true, if_false, Mixing.pyDiv_ne hd, Bind.bind, Except.bind]
    cases hq : k.qss with
    | false =>
      right
      refine ⟨_, quad_ok rule _ (fun u => 0 + nPara P 0 / lBminus F P 0 * (phiV u P.a1Para P.a2Para : ℝ) * (on k.wa (-(eSpec V : ℂ) * 4 * P.mB / P.mb * cVal P V w)
        + on k.o8 (o8ParaV P (eSpec V) 0 u w) + 0)) ?_⟩
      intro n _
      rw [paraMinusWA_ok P w B V h, paraMinusO8_ok P w B V 0 n.1 h]
      simp only [addIf_ok, pure, Except.pure]
      rfl
    | true =>
      obtain ⟨q, hq', _⟩ := getInput_ok B V h
      have hi : ∀ u m, i1 F 0 u m P.mB = .error .zeroDivisionError := by intro u m; unfold i1; simp only [if_pos]
      cases rule with
      | nil => right; exact ⟨0, rfl⟩
      | cons n l =>
        left
        simp only [quad, List.mapM_cons, paraPlusQSS, hq', tPara, hi, Bind.bind, Except.bind, addIf, if_true]
  unfold helQcdf transQcdf
  rw [hp]
  rcases hT with e | ⟨v, e⟩ <;> rw [e] <;> simp only [Bind.bind, Except.bind, if_true]

/-- **C140**: at the kinematic end point `q² = m_B²` as well. -/
theorem C140_end_point (F : Fn) (P : Par) (w : Wc) (B V : String) (scale : ℝ) (rule : List (ℝ × ℝ)) (k : Incl) (hk : k.any) :
    TPara F P w B V (P.mB ^ 2) scale rule k = .error .zeroDivisionError ∧ TPerp F P w B V (P.mB ^ 2) scale rule k = .error .zeroDivisionError := by
  have hd : -P.mB ^ 2 + P.mB ^ 2 = 0 := by ring
  constructor
  · unfold TPara; rw [not_none k hk]
    simp only [Bool.false_eq_true, if_false, hd, Mixing.pyDiv_zero, Bind.bind, Except.bind]
  · unfold TPerp; rw [not_none k hk]
    simp only [Bool.false_eq_true, if_false, hd, Mixing.pyDiv_zero, Bind.bind, Except.bind]

/-- **C140** (finding): the spectator table has no entry for the `ρ` and the `ω`; the branches of the code for these mesons
are never reached, and every call for such a decay is a `KeyError`. -/
theorem C140_rho_keyError (F : Fn) (P : Par) (w : Wc) (B V : String) (q2 scale : ℝ) (n : ℝ × ℝ) (rule : List (ℝ × ℝ)) (k : Incl)
    (hk : k.any) (hq : q2 ≠ P.mB ^ 2) (hBV : V = "rho0" ∨ V = "rho+" ∨ V = "omega") :
    cq34 P w B V = .error .keyError ∧ helQcdf F P w B V q2 scale (n :: rule) k = .error .keyError := by
  have hi : getInput B V = .error .keyError := by
    have : spectator.lookup (B, V) = none := by
      rw [List.lookup_eq_none_iff]
      intro p hp
      simp only [spectator, List.mem_cons, List.not_mem_nil, or_false] at hp
      rcases hp with rfl | rfl | rfl | rfl | rfl | rfl <;> rcases hBV with rfl | rfl | rfl <;> simp
    unfold getInput; rw [this]
  refine ⟨by unfold cq34; rw [hi]; rfl, ?_⟩
  have hd : -q2 + P.mB ^ 2 ≠ 0 := fun e => hq (by linarith)
  unfold helQcdf transQcdf TPerp
  rw [not_none k hk]
  simp only [Bool.false_eq_true, if_false, Mixing.pyDiv_ne hd, Bind.bind, Except.bind, quad, List.mapM_cons]
  obtain ⟨a, b, c⟩ := k
  rcases a <;> rcases b <;> rcases c <;>
    simp_all [Incl.any, addIf, perpPlusO8, perpPlusQSS, perpWA1, Bind.bind, Except.bind, pure, Except.pure]

/-- **C140**: the chromomagnetic contribution: the transverse one does not depend on the spectator, the longitudinal one is
proportional to its charge, so that with equal parameters the charged decay gets minus twice the correction of the neutral one. -/
theorem C140_o8_isospin (F : Fn) (P : Par) (w : Wc) (q2 scale : ℝ) (rule : List (ℝ × ℝ)) (g : Good P q2 rule) :
    TPerp F P w "B+" "K*+" q2 scale rule ⟨false, true, false⟩ = TPerp F P w "B0" "K*0" q2 scale rule ⟨false, true, false⟩ ∧
    ∃ a b, TPara F P w "B+" "K*+" q2 scale rule ⟨false, true, false⟩ = .ok a ∧
      TPara F P w "B0" "K*0" q2 scale rule ⟨false, true, false⟩ = .ok b ∧ a = -2 * b := by
  have hk : Incl.any ⟨false, true, false⟩ := by simp [Incl.any]
  constructor
  · rw [TPerp_eq F P w "B+" "K*+" q2 scale rule _ (by decide) g.q2_lt hk, TPerp_eq F P w "B0" "K*0" q2 scale rule _ (by decide) g.q2_lt hk]
    simp [on]
  · refine ⟨_, _, TPara_eq F P w "B+" "K*+" q2 scale rule _ (by decide) g hk, TPara_eq F P w "B0" "K*0" q2 scale rule _ (by decide) g hk, ?_⟩
    simp only [on, Bool.false_eq_true, if_false, if_true, zero_add, add_zero]
    unfold o8Para
    rw [← List.sum_map_mul_left]
    congr 1
    apply List.map_congr_left
    intro n _
    simp only [o8ParaV, eSpec]
    rw [if_neg (by decide : ¬ ("K*0" = "K*+"))]
    simp only [if_true]
    push_cast
    ring

/-- **C140**: weak annihilation of the neutral modes is a pure penguin effect: if `C3, ..., C6` vanish it is zero for the
`K*0` and the `φ`, whatever the current-current coefficients; for the charged mode it is then proportional to `ξ_u C2`. -/
theorem C140_annihilation (F : Fn) (P : Par) (w : Wc) (B V : String) (q2 scale : ℝ) (rule : List (ℝ × ℝ))
    (h : (B, V) ∈ Decays) (g : Good P q2 rule) (h3 : w.c3 = 0) (h4 : w.c4 = 0) (h5 : w.c5 = 0) (h6 : w.c6 = 0) :
    ∃ x y : ℂ, TPara F P w B V q2 scale rule ⟨true, false, false⟩ = .ok (if V = "K*+" then x * (P.xiU / P.xiT * w.c2) else 0) ∧
      TPerp F P w B V q2 scale rule ⟨true, false, false⟩ = .ok (if V = "K*+" then y * (P.xiU / P.xiT * w.c2) else 0) := by
  have hk : Incl.any ⟨true, false, false⟩ := by simp [Incl.any]
  rw [TPara_eq F P w B V q2 scale rule _ h g hk, TPerp_eq F P w B V q2 scale rule _ h g.q2_lt hk]
  simp only [on, Bool.false_eq_true, if_false, if_true, add_zero]
  have hc : cVal P V w = if V = "K*+" then -3 * (P.xiU / P.xiT * w.c2) else 0 := by
    simp only [cVal, h3, h4, h5, h6, Par.epsU]; split <;> split <;> ring
  refine ⟨(rule.map (fun n => (n.2 : ℂ) * (nPara P q2 / lBminus F P q2 * (phiV n.1 P.a1Para P.a2Para : ℝ) * (-(eSpec V : ℂ) * 4 * P.mB / P.mb * -3)))).sum,
    nPerp P / (lBplus P : ℝ) * (P.fPara / P.fPerp : ℝ) * (P.mV / (1 - q2 / P.mB ^ 2) : ℝ) * ((eSpec V : ℂ) * 2 / P.mb * -3), ?_, ?_⟩
  · congr 1
    unfold waPara
    rw [hc]
    split
    · rw [← List.sum_map_mul_right]
      congr 1; apply List.map_congr_left; intro n _; ring
    · simp
  · congr 1
    unfold waPerp
    rw [hc]
    simp only [h3, h4, h5, h6]
    split <;> simp <;> ring

/-- **C140** (unitarity of the CKM matrix): with only `C1` and `C2` the four-quark contribution is a charm loop weighted with
`ξ_c` and an up-quark loop weighted with `ξ_u`, divided by `-ξ_t`; the loops depend neither on the CKM elements nor on the
coefficients, and are equal if the charm mass is zero, in which case the CKM elements drop out. -/
theorem C140_gim (F : Fn) (P : Par) (B V : String) (q2 scale : ℝ) (rule : List (ℝ × ℝ)) (h : (B, V) ∈ Decays) (g : Good P q2 rule) :
    ∃ pc pu lc lu : ℂ, (P.mc = 0 → pc = pu ∧ lc = lu) ∧ ∀ (xiU xiC xiT : ℂ) (c1 c2 : ℂ), xiU + xiC + xiT = 0 → xiT ≠ 0 →
      TPerp F { P with xiU := xiU, xiT := xiT } ⟨c1, c2, 0, 0, 0, 0, 0⟩ B V q2 scale rule ⟨false, false, true⟩
        = .ok (-(c2 - c1 / 6) * (xiC * pc + xiU * pu) / xiT) ∧
      TPara F { P with xiU := xiU, xiT := xiT } ⟨c1, c2, 0, 0, 0, 0, 0⟩ B V q2 scale rule ⟨false, false, true⟩
        = .ok (-(c2 - c1 / 6) * (xiC * lc + xiU * lu) / xiT) := by
  have hk : Incl.any ⟨false, false, true⟩ := by simp [Incl.any]
  let fp : ℝ → ℂ := fun m => (rule.map (fun n => (n.2 : ℂ) * (nPerp P / (lBplus P : ℝ) * (phiV n.1 P.a1Perp P.a2Perp : ℝ) *
    ((P.alphaS / (3 * Real.pi) : ℂ) * P.mB / (2 * P.mb) * (2 / 3) * val (tPerp F P q2 n.1 m))))).sum
  let fl : ℝ → ℂ := fun m => (rule.map (fun n => (n.2 : ℂ) * (
      nPara P q2 / (lBplus P : ℝ) * (phiV n.1 P.a1Para P.a2Para : ℝ) * ((P.alphaS / (3 * Real.pi) : ℂ) * P.mB / P.mb * (2 / 3) * val (tPara F P q2 n.1 m))
    + nPara P q2 / lBminus F P q2 * (phiV n.1 P.a1Para P.a2Para : ℝ) *
      ((P.alphaS / (3 * Real.pi) : ℂ) * eSpec V * 6 * P.mB / P.mb * val (MatrixElements.h ((1 - n.1) * P.mB ^ 2 + n.1 * q2) m scale))))).sum
  refine ⟨fp P.mc, fp 0, fl P.mc, fl 0, fun hm => by rw [hm]; exact ⟨rfl, rfl⟩, ?_⟩
  intro xiU xiC xiT c1 c2 hu ht
  have hC : xiC = -xiU - xiT := by linear_combination hu
  have g' : Good { P with xiU := xiU, xiT := xiT } q2 rule := ⟨g.q2_pos, g.mB_pos, g.q2_lt, g.nodes⟩
  have tp : ∀ u m, tPerp F { P with xiU := xiU, xiT := xiT } q2 u m = tPerp F P q2 u m := fun _ _ => rfl
  have tl : ∀ u m, tPara F { P with xiU := xiU, xiT := xiT } q2 u m = tPara F P q2 u m := fun _ _ => rfl
  have e1 : ∀ a b : ℂ, -(c2 - c1 / 6) * (xiC * a + xiU * b) / xiT = (c2 - c1 / 6) * (1 + xiU / xiT) * a + (c2 - c1 / 6) * (-(xiU / xiT)) * b := by
    intro a b; rw [hC]; field_simp; ring
  constructor
  · rw [TPerp_eq F _ _ B V q2 scale rule _ h g'.q2_lt hk, e1]
    simp only [on, Bool.false_eq_true, if_false, if_true, zero_add]
    congr 1
    simp only [fp, qssPerp, tp]
    rw [← List.sum_map_mul_left, ← List.sum_map_mul_left, ← List.sum_map_add]
    congr 1; apply List.map_congr_left; intro n _
    simp only [qPerpV, Par.epsU, nPerp, lBplus]
    ring
  · rw [TPara_eq F _ _ B V q2 scale rule _ h g' hk, e1]
    simp only [on, Bool.false_eq_true, if_false, if_true, zero_add]
    congr 1
    simp only [fl, qssPara, tl]
    rw [← List.sum_map_mul_left, ← List.sum_map_mul_left, ← List.sum_map_add]
    congr 1; apply List.map_congr_left; intro n _
    simp only [qParaV, qMinusV, Par.epsU, nPara, lBplus, lBminus]
    ring

/-- **C140**: the corrections know the CKM matrix only through `ξ_u/ξ_t`: a common phase or factor of the two products does
not change them. -/
theorem C140_rephasing (F : Fn) (P : Par) (w : Wc) (B V : String) (q2 scale : ℝ) (rule : List (ℝ × ℝ)) (k : Incl) (c : ℂ)
    (h : (B, V) ∈ Decays) (g : Good P q2 rule) (hk : k.any) (hc : c ≠ 0) :
    TPara F { P with xiU := c * P.xiU, xiT := c * P.xiT } w B V q2 scale rule k = TPara F P w B V q2 scale rule k ∧
    TPerp F { P with xiU := c * P.xiU, xiT := c * P.xiT } w B V q2 scale rule k = TPerp F P w B V q2 scale rule k := by
  have he : Par.epsU { P with xiU := c * P.xiU, xiT := c * P.xiT } = P.epsU := by
    simp only [Par.epsU]; rw [mul_div_mul_left _ _ hc]
  have g' : Good { P with xiU := c * P.xiU, xiT := c * P.xiT } q2 rule := ⟨g.q2_pos, g.mB_pos, g.q2_lt, g.nodes⟩
  constructor
  · rw [TPara_eq F _ w B V q2 scale rule k h g' hk, TPara_eq F P w B V q2 scale rule k h g hk]
    simp only [waPara, o8Para, qssPara, cVal, qParaV, qMinusV, he]
    rfl
  · rw [TPerp_eq F _ w B V q2 scale rule k h g'.q2_lt hk, TPerp_eq F P w B V q2 scale rule k h g.q2_lt hk]
    simp only [waPerp, o8Perp, qssPerp, cVal, qPerpV, he]
    rfl

/-- **C140**: the charm contribution is present in the SM limit `ξ_u = 0`: without the up-quark the CP-conjugate amplitude is
the same up to the prefactor if the coefficients are real: no direct CP violation arises. -/
theorem C140_no_cp_violation (F : Fn) (P : Par) (wctot : Par → Wc) (B V : String) (q2 scale : ℝ) (rule : List (ℝ × ℝ))
    (hU : (starRingEnd ℂ) P.xiU = P.xiU) (hT : (starRingEnd ℂ) P.xiT = P.xiT) (hN : (starRingEnd ℂ) P.pref = P.pref)
    (hw : conjWc (wctot P) = wctot P) :
    haQcdf F P wctot B V q2 scale rule true = haQcdf F P wctot B V q2 scale rule false := by
  have : conjPar P = P := by simp only [conjPar, hU, hT, hN]
  simp only [haQcdf, if_true, this, hw, Bool.false_eq_true, if_false]

/-! ## The functions inside -/

/-- **C140**: the distribution amplitude of the vector meson is normalised for all Gegenbauer moments; its first and second
moments in `2u - 1` are `3/5 a1` and `1/5 + 12/35 a2`; exchanging quark and antiquark changes the sign of `a1`; it vanishes at the ends. -/
theorem C140_phiV (a1 a2 : ℝ) :
    (∫ u in (0:ℝ)..1, phiV u a1 a2) = 1 ∧ (∫ u in (0:ℝ)..1, (2 * u - 1) * phiV u a1 a2) = 3 / 5 * a1 ∧
    (∫ u in (0:ℝ)..1, (2 * u - 1) ^ 2 * phiV u a1 a2) = 1 / 5 + 12 / 35 * a2 ∧
    (∀ u, phiV (1 - u) a1 a2 = phiV u (-a1) a2) ∧ phiV 0 a1 a2 = 0 ∧ phiV 1 a1 a2 = 0 := by
  have key : ∀ c0 c1 c2 c3 c4 c5 c6 : ℝ, (∫ u in (0:ℝ)..1, (c0 + c1 * u + c2 * u ^ 2 + c3 * u ^ 3 + c4 * u ^ 4 + c5 * u ^ 5 + c6 * u ^ 6))
      = c0 + c1 / 2 + c2 / 3 + c3 / 4 + c4 / 5 + c5 / 6 + c6 / 7 := by
    intro c0 c1 c2 c3 c4 c5 c6
    have := intervalIntegral.integral_eq_sub_of_hasDerivAt (a := 0) (b := 1)
      (f := fun u : ℝ => c0 * u + c1 / 2 * u ^ 2 + c2 / 3 * u ^ 3 + c3 / 4 * u ^ 4 + c4 / 5 * u ^ 5 + c5 / 6 * u ^ 6 + c6 / 7 * u ^ 7)
      (f' := fun u => c0 + c1 * u + c2 * u ^ 2 + c3 * u ^ 3 + c4 * u ^ 4 + c5 * u ^ 5 + c6 * u ^ 6)
      (by
        intro x _
        have h1 := (hasDerivAt_id x).const_mul c0
        have h2 := (hasDerivAt_pow 2 x).const_mul (c1 / 2)
        have h3 := (hasDerivAt_pow 3 x).const_mul (c2 / 3)
        have h4 := (hasDerivAt_pow 4 x).const_mul (c3 / 4)
        have h5 := (hasDerivAt_pow 5 x).const_mul (c4 / 5)
        have h6 := (hasDerivAt_pow 6 x).const_mul (c5 / 6)
        have h7 := (hasDerivAt_pow 7 x).const_mul (c6 / 7)
        have := ((((((h1.add h2).add h3).add h4).add h5).add h6).add h7)
        refine this.congr_deriv ?_
        simp
        ring)
      (by apply Continuous.intervalIntegrable; fun_prop)
    rw [this]; norm_num
  refine ⟨?_, ?_, ?_, ?_, ?_, ?_⟩
  · have : (fun u => phiV u a1 a2) = fun u => (0 + (6 * (1 - 3 * a1 + 6 * a2)) * u + (6 * (9 * a1 - 1 - 36 * a2)) * u ^ 2 + (6 * (60 * a2 - 6 * a1)) * u ^ 3 + (6 * (-30 * a2)) * u ^ 4 + 0 * u ^ 5 + 0 * u ^ 6) := by
      funext u; unfold phiV; ring
    rw [this, key]; ring
  · have : (fun u => (2 * u - 1) * phiV u a1 a2) = fun u => (0 + (-(6 * (1 - 3 * a1 + 6 * a2))) * u + (2 * (6 * (1 - 3 * a1 + 6 * a2)) - 6 * (9 * a1 - 1 - 36 * a2)) * u ^ 2
        + (2 * (6 * (9 * a1 - 1 - 36 * a2)) - 6 * (60 * a2 - 6 * a1)) * u ^ 3 + (2 * (6 * (60 * a2 - 6 * a1)) - 6 * (-30 * a2)) * u ^ 4 + (2 * (6 * (-30 * a2))) * u ^ 5 + 0 * u ^ 6) := by
      funext u; unfold phiV; ring
    rw [this, key]; ring
  · have : (fun u => (2 * u - 1) ^ 2 * phiV u a1 a2) = fun u => (0 + (6 * (1 - 3 * a1 + 6 * a2)) * u + (6 * (9 * a1 - 1 - 36 * a2) - 4 * (6 * (1 - 3 * a1 + 6 * a2))) * u ^ 2
        + (6 * (60 * a2 - 6 * a1) - 4 * (6 * (9 * a1 - 1 - 36 * a2)) + 4 * (6 * (1 - 3 * a1 + 6 * a2))) * u ^ 3
        + (6 * (-30 * a2) - 4 * (6 * (60 * a2 - 6 * a1)) + 4 * (6 * (9 * a1 - 1 - 36 * a2))) * u ^ 4
        + (-4 * (6 * (-30 * a2)) + 4 * (6 * (60 * a2 - 6 * a1))) * u ^ 5 + (4 * (6 * (-30 * a2))) * u ^ 6) := by
      funext u; unfold phiV; ring
    rw [this, key]; ring
  · intro u; unfold phiV; ring
  · unfold phiV; ring
  · unfold phiV; ring

/-- **C140**: the longitudinal and the transverse loop function differ by a multiple of the difference of bubble functions. -/
theorem C140_t_difference (F : Fn) (P : Par) (q2 u mq : ℝ) (hq : q2 ≠ 0) (hu : u ≠ 1) :
    ∃ a b d, tPara F P q2 u mq = .ok a ∧ tPerp F P q2 u mq = .ok b ∧ b0diff F q2 u mq P.mB = .ok d ∧
      a - b = ((P.mB ^ 2 - q2) / ((1 - u) * enV P.mB P.mV q2 ^ 2) : ℝ) * d := by
  obtain ⟨a, ha⟩ := i1_ok F q2 u mq P.mB hq
  obtain ⟨b, hb⟩ := b0diff_ok F q2 u mq P.mB hq
  have hu' : 1 - u ≠ 0 := fun e => hu (by linarith)
  refine ⟨_, _, b, by simp only [tPara, ha, hb, Bind.bind, Except.bind, pure, Except.pure]; rfl,
    by simp only [tPerp, if_neg hq, ha, hb, Bind.bind, Except.bind, pure, Except.pure]; rfl, hb, ?_⟩
  have : (P.mB ^ 2 - q2) / ((1 - u) * enV P.mB P.mV q2 ^ 2) = ((1 - u) * P.mB ^ 2 + u * q2) / ((1 - u) ^ 2 * enV P.mB P.mV q2 ^ 2) - q2 / ((1 - u) ^ 2 * enV P.mB P.mV q2 ^ 2) := by
    rw [← sub_div, show (1 - u) * P.mB ^ 2 + u * q2 - q2 = (1 - u) * (P.mB ^ 2 - q2) by ring, pow_two (1 - u), mul_assoc, mul_div_mul_left _ _ hu']
  rw [this]; push_cast; ring

/-- **C140**: the moments of the distribution amplitude of the `B`: for `m_b < m_B` the positive one is positive; the inverse
of the negative one is never zero and has the positive imaginary part `π e^{-x}/ω₀`, so that nothing is divided by zero. -/
theorem C140_lB (F : Fn) (P : Par) (q2 : ℝ) (h : P.mb < P.mB) :
    0 < lBplus P ∧ lBminus F P q2 ≠ 0 ∧ (1 / lBminus F P q2).im = Real.pi * Real.exp (-q2 / P.mB / lBplus P) / lBplus P ∧ 0 < (1 / lBminus F P q2).im := by
  have h0 : 0 < lBplus P := by unfold lBplus; linarith
  have e : 1 / lBminus F P q2 = (Real.exp (-q2 / P.mB / lBplus P) / lBplus P : ℝ) * (-(F.ei (q2 / P.mB / lBplus P) : ℂ) + I * Real.pi) := by
    unfold lBminus lBplus; simp only [one_div, inv_inv]
  have him : (1 / lBminus F P q2).im = Real.pi * Real.exp (-q2 / P.mB / lBplus P) / lBplus P := by
    rw [e, Complex.im_ofReal_mul]; simp; ring
  have hp : 0 < (1 / lBminus F P q2).im := by rw [him]; positivity
  refine ⟨h0, ?_, him, hp⟩
  intro hz
  rw [hz] at hp; simp at hp

/-- **C140** (finding): the limiting case of the transverse loop function at `q² = 0` is not the limit.  For a massless quark
(and without the small imaginary part) the value for `q² → 0` tends to `4/(1-u) · m_B²/(m_B² + m_V²)`, but the value returned at
`q² = 0` is `4/(1-u)`: the mass of the vector meson is neglected there and only there. -/
theorem C140_finding_limit (F : Fn) (P : Par) (u : ℝ) (hF : F.eps = 0) (hB : 0 < P.mB) (hV : 0 < P.mV) (h0 : 0 ≤ u) (h1 : u < 1) :
    tPerp F P 0 u 0 = .ok ((4 / (1 - u) : ℝ) : ℂ) ∧
    Filter.Tendsto (fun q2 => val (tPerp F P q2 u 0)) (nhdsWithin 0 (Set.Ioi 0)) (nhds ((4 / (1 - u) * (P.mB ^ 2 / (P.mB ^ 2 + P.mV ^ 2)) : ℝ) : ℂ)) ∧
    4 / (1 - u) * (P.mB ^ 2 / (P.mB ^ 2 + P.mV ^ 2)) < 4 / (1 - u) := by
  have hu : 0 < 1 - u := by linarith
  refine ⟨?_, ?_, ?_⟩
  · simp [tPerp]
  · have hval : ∀ q2 ∈ Set.Ioi (0:ℝ), val (tPerp F P q2 u 0) = ((2 * P.mB / ((1 - u) * enV P.mB P.mV q2) : ℝ) : ℂ)
        + (((q2 * Real.log q2 - q2 * Real.log (q2 * u + P.mB ^ 2 * (1 - u))) / ((1 - u) ^ 2 * enV P.mB P.mV q2 ^ 2) : ℝ) : ℂ) := by
      intro q2 hq
      have hq : 0 < q2 := hq
      have hs : 0 < q2 * u + P.mB ^ 2 * (1 - u) := by
        have := mul_nonneg hq.le h0
        have := mul_pos (pow_pos hB 2) hu
        linarith
      have hlog : ∀ x : ℝ, 0 < x → Complex.log (-((2 / x : ℝ) : ℂ)) = ((Real.log 2 - Real.log x : ℝ) : ℂ) + Real.pi * I := by
        intro x hx
        have : (-((2 / x : ℝ) : ℂ)) = ((2 / x : ℝ) : ℂ) * (-1) := by ring
        rw [this, Complex.log_ofReal_mul (by positivity) (by norm_num), Complex.log_neg_one, Real.log_div (by norm_num) hx.ne']
      simp only [tPerp, if_neg hq.ne', i1, b0diff, hF, Bind.bind, Except.bind, pure, Except.pure, val, if_true, hlog q2 hq, hlog _ hs]
      push_cast
      ring_nf
    have hc : Filter.Tendsto (fun q2 : ℝ => (((2 * P.mB / ((1 - u) * enV P.mB P.mV q2) + (q2 * Real.log q2 - q2 * Real.log (q2 * u + P.mB ^ 2 * (1 - u))) / ((1 - u) ^ 2 * enV P.mB P.mV q2 ^ 2) : ℝ)) : ℂ))
        (nhdsWithin 0 (Set.Ioi 0)) (nhds ((4 / (1 - u) * (P.mB ^ 2 / (P.mB ^ 2 + P.mV ^ 2)) : ℝ) : ℂ)) := by
      apply (Complex.continuous_ofReal.tendsto _).comp
      apply Filter.Tendsto.mono_left _ nhdsWithin_le_nhds
      have hE : enV P.mB P.mV 0 ≠ 0 := by unfold enV; rw [sub_zero]; positivity
      have hc : ContinuousAt (fun q2 : ℝ => 2 * P.mB / ((1 - u) * enV P.mB P.mV q2) + (q2 * Real.log q2 - q2 * Real.log (q2 * u + P.mB ^ 2 * (1 - u))) / ((1 - u) ^ 2 * enV P.mB P.mV q2 ^ 2)) 0 := by
        have hen : Continuous (fun q2 => enV P.mB P.mV q2) := by unfold enV; fun_prop
        have hm := Real.continuous_mul_log
        have hl : ContinuousAt (fun q2 : ℝ => Real.log (q2 * u + P.mB ^ 2 * (1 - u))) 0 := by
          apply ContinuousAt.log (by fun_prop)
          have := mul_pos (pow_pos hB 2) hu
          simp; exact ⟨hB.ne', hu.ne'⟩
        refine ContinuousAt.add (ContinuousAt.div (by fun_prop) (by fun_prop) (mul_ne_zero hu.ne' hE)) (ContinuousAt.div ?_ (by fun_prop) (by positivity))
        exact ContinuousAt.sub hm.continuousAt (continuousAt_id.mul hl)
      have := hc.tendsto
      convert this using 2
      simp only [zero_mul, sub_zero, zero_div, add_zero, Real.log_zero, enV, mul_zero]
      have : P.mB ^ 2 + P.mV ^ 2 ≠ 0 := by positivity
      field_simp
      norm_num
    refine hc.congr' ?_
    filter_upwards [self_mem_nhdsWithin] with q2 hq
    rw [hval q2 hq]; push_cast; rfl
  · have : P.mB ^ 2 / (P.mB ^ 2 + P.mV ^ 2) < 1 := by
      rw [div_lt_one (by positivity)]; have := pow_pos hV 2; linarith
    have h4 : 0 < 4 / (1 - u) := by positivity
    nlinarith

/-- The hypotheses are met: realistic masses, `q² = 2 GeV²` and a two-point rule. -/
example : Good ⟨5.28, 0.89, 4.9, 1.7, 0.21, 0, 1, 0.19, 0.2, 0.16, 0.1, 0.1, 0.1, 0.1, 1⟩ 2 [(0.25, 0.5), (0.75, 0.5)] ∧
    (("B0", "K*0") : String × String) ∈ Decays ∧ Incl.any ⟨true, true, true⟩ := by
  refine ⟨⟨by norm_num, by norm_num, by norm_num, ?_⟩, by decide, Or.inl rfl⟩
  intro n hn
  simp only [List.mem_cons, List.not_mem_nil, or_false] at hn
  rcases hn with rfl | rfl <;> norm_num

/-! ## The conjugate decay -/

/-- **C140**: the amplitudes of the CP-conjugate decay are those of the decay itself in a world in which all CKM elements and all
Wilson coefficients are replaced by their complex conjugates and nothing else. -/
theorem C140_mirror (F : Fn) (P P' : Par) (wctot wctot' : Par → Wc) (B V : String) (q2 scale : ℝ) (rule : List (ℝ × ℝ))
    (hU : P'.xiU = (starRingEnd ℂ) P.xiU) (hT : P'.xiT = (starRingEnd ℂ) P.xiT) (hN : P'.pref = (starRingEnd ℂ) P.pref)
    (hm : P'.mB = P.mB ∧ P'.mV = P.mV ∧ P'.mb = P.mb ∧ P'.mc = P.mc ∧ P'.alphaS = P.alphaS)
    (hf : P'.fB = P.fB ∧ P'.fPara = P.fPara ∧ P'.fPerp = P.fPerp)
    (ha : P'.a1Para = P.a1Para ∧ P'.a2Para = P.a2Para ∧ P'.a1Perp = P.a1Perp ∧ P'.a2Perp = P.a2Perp)
    (hw : let c := starRingEnd ℂ; let w := wctot P'; let w' := wctot' P'
      w'.c1 = c w.c1 ∧ w'.c2 = c w.c2 ∧ w'.c3 = c w.c3 ∧ w'.c4 = c w.c4 ∧ w'.c5 = c w.c5 ∧ w'.c6 = c w.c6 ∧ w'.c8 = c w.c8) :
    haQcdf F P wctot B V q2 scale rule true = haQcdf F P' wctot' B V q2 scale rule false := by
  obtain ⟨h1, h2, h3, h4, h5⟩ := hm
  obtain ⟨f1, f2, f3⟩ := hf
  obtain ⟨a1, a2, a3, a4⟩ := ha
  obtain ⟨c1, c2, c3, c4, c5, c6, c8⟩ := hw
  have hP : conjPar P = P' := by
    obtain ⟨⟩ := P
    obtain ⟨⟩ := P'
    simp only [conjPar] at *
    subst_vars
    rfl
  have hW : conjWc (wctot P') = wctot' P' := by
    generalize wctot' P' = w' at *
    obtain ⟨⟩ := w'
    simp only [conjWc] at *
    subst_vars
    rfl
  simp only [haQcdf, if_true, hP, hW, Bool.false_eq_true, if_false]

end Verif.Qcdf
