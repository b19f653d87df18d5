import Verif.Physics.Zdecays.ZTheorems
/-!
# W decays and the W mass

`flavio/physics/wdecays/gammaw.py`, `mw.py` and the `d_gW...` functions of `flavio/physics/zdecays/smeftew.py`.
Floats are real numbers; the CKM matrix (`flavio.physics.ckm.get_ckm(par)`, `Verif.Ckm`) is an input.
-/
set_option linter.unusedVariables false
set_option linter.unusedSimpArgs false
namespace Verif.Wdecay
open Verif.Zpole Verif.Zpole.Fm

/-- The parameters used.  /repo/flavio/physics/wdecays/gammaw.py:21-46, /repo/flavio/physics/wdecays/mw.py:14-19. -/
structure WPar where
  z : Par
  mW : ℝ
  GammaWhad : ℝ
  GammaWlep : ℝ
  dalphaHad : ℝ
  dalphaLep : ℝ
  /-- `get_ckm(par)[i - 1, j - 1]` -/
  V : Nat → Nat → ℂ

/-- `d_gWl` and `d_gWq`: they differ in the operator's name and the sectors of the indices.
/repo/flavio/physics/zdecays/smeftew.py:181-198. -/
noncomputable def dgWx (op : String) (i0 j0 : Nat) (p : Par) (C : WC) : ℂ :=
  let ij := sort2 i0 j0
  let sh := Real.sqrt (sh2 p)
  let ch := Real.sqrt (1 - sh2 p)
  (C (key op ij.1 ij.2) + ((1 / 2 * ch / sh : ℝ) : ℂ) * C "phiWB") / (2 * Real.sqrt 2 * p.GF : ℝ)
    - 1 / 4 * dsh2 p C / (sh ^ 2 : ℝ)

/-- `d_gW`.  /repo/flavio/physics/zdecays/smeftew.py:201-205. -/
noncomputable def dgW (f1 f2 : Fm) (p : Par) (C : WC) : ℂ :=
  dgWx (if f1.sec = .l then "phil3" else "phiq3") f1.gen f2.gen p C

/-- `gWf_SM`.  /repo/flavio/physics/wdecays/gammaw.py:9-25. -/
noncomputable def gWSM (f1 f2 : Fm) (p : WPar) : ℂ :=
  if f1.sec = .l then (if f1 = f2 then 1 / 2 else 0) else p.V f1.gen f2.gen / 2

/-- `GammaW_SM`.  /repo/flavio/physics/wdecays/gammaw.py:27-37. -/
noncomputable def gammaWSM (f1 f2 : Fm) (p : WPar) : ℝ :=
  if f1.sec = .l then 4 * ‖gWSM f1 f2 p‖ ^ 2 * p.GammaWlep / 3 else 4 * ‖gWSM f1 f2 p‖ ^ 2 * p.GammaWhad / 2

/-- `GammaW_NP`.  /repo/flavio/physics/wdecays/gammaw.py:40-43. -/
noncomputable def gammaWNP (p : WPar) (Nc : ℝ) (g dg : ℂ) : ℝ :=
  Real.sqrt 2 * p.z.GF * p.mW ^ 3 / (3 * Real.pi) * Nc * (2 * (g * dg).re + ‖dg‖ ^ 2)

/-- `GammaW`.  /repo/flavio/physics/wdecays/gammaw.py:46-55. -/
noncomputable def gammaW (p : WPar) (C : WC) (f1 f2 : Fm) : ℝ :=
  gammaWSM f1 f2 p + gammaWNP p f1.nc (gWSM f1 f2 p) (dgW f1 f2 p.z C)

/-- A sum of widths over pairs.  /repo/flavio/physics/wdecays/gammaw.py:58-63. -/
noncomputable def sum2 (g : Fm → Fm → ℝ) (l r : List Fm) : ℝ := ((l.flatMap fun x => r.map fun y => g x y)).sum

/-- `Gammalep`.  /repo/flavio/physics/wdecays/gammaw.py:58-60. -/
noncomputable def gammaLep (p : WPar) (C : WC) : ℝ := sum2 (gammaW p C) [e, mu, tau] [e, mu, tau]
/-- `Gammahad`.  /repo/flavio/physics/wdecays/gammaw.py:62-63. -/
noncomputable def gammaHad (p : WPar) (C : WC) : ℝ := sum2 (gammaW p C) [u, c] [d, s, b]
/-- `Gammatot`.  /repo/flavio/physics/wdecays/gammaw.py:65-66. -/
noncomputable def gammaTot (p : WPar) (C : WC) : ℝ := gammaLep p C + gammaHad p C
/-- `BRWlnu_fct`: `BR(W->lnu)`.  /repo/flavio/physics/wdecays/gammaw.py:69-74. -/
noncomputable def br (l : Fm) (p : WPar) (C : WC) : ℝ := ([e, mu, tau].map (gammaW p C l)).sum / gammaTot p C
/-- `RWlnu_fct`.  /repo/flavio/physics/wdecays/gammaw.py:77-84. -/
noncomputable def rW (l1 l2 : Fm) (p : WPar) (C : WC) : ℝ :=
  ([e, mu, tau].map (gammaW p C l1)).sum / ([e, mu, tau].map (gammaW p C l2)).sum
/-- `RWcX`.  /repo/flavio/physics/wdecays/gammaw.py:87-89. -/
noncomputable def rWcX (p : WPar) (C : WC) : ℝ := ([d, s, b].map (gammaW p C c)).sum / gammaHad p C

/-- `mW_SM`.  /repo/flavio/physics/wdecays/mw.py:9-34. -/
noncomputable def mWSM (p : WPar) : ℝ :=
  let dH := Real.log (p.z.mh / 100)
  let dh := (p.z.mh / 100) ^ 2
  let dt := (p.z.mt / 174.3) ^ 2 - 1
  let dZ := p.z.mZ / 91.1875 - 1
  let dalpha := (p.dalphaHad + p.dalphaLep) / 0.05907 - 1
  let dalphas := p.z.alphas / 0.119 - 1
  80.3779 - 0.05427 * dH - 0.008931 * dH ^ 2 + 0.0000882 * dH ^ 4 + 0.000161 * (dh - 1) - 1.070 * dalpha
    + 0.5237 * dt - 0.0679 * dt ^ 2 - 0.00179 * dH * dt + 0.0000664 * dh * dt - 0.0795 * dalphas + 114.9 * dZ

/-- `dmW_SMEFT`.  /repo/flavio/physics/wdecays/mw.py:36-46. -/
noncomputable def dmW (p : Par) (C : WC) : ℝ :=
  let sh := Real.sqrt (sh2 p)
  let ch := Real.sqrt (1 - sh2 p)
  let Dh := ch * sh / ((ch ^ 2 - sh ^ 2) * 2 * Real.sqrt 2 * p.GF)
  1 / 2 * Dh * (4 * C "phiWB" + ((ch / sh : ℝ) : ℂ) * C "phiD" + ((2 * sh / ch : ℝ) : ℂ) * muon C).re

/-- `mW`: the observable `m_W`.  /repo/flavio/physics/wdecays/mw.py:48-54. -/
noncomputable def mWobs (p : WPar) (C : WC) : ℝ := mWSM p * (1 - dmW p.z C)

/-! ## Theorems -/

theorem noNP_shift (f1 f2 : Fm) (p : Par) : dgW f1 f2 p noNP = 0 := by
  have hs : dsh2 p noNP = 0 := by simp [dsh2, muon, noNP]
  simp [dgW, dgWx, hs, noNP]

/-- **C99: partial widths.** A leptonic width is the SM width plus the change of `|g|²` times `√2 G_F m_W³/(3π)`; no width is
smaller than the SM width minus the tree-level SM width; without new physics leptonic decays conserve flavour, with
`GammaW_lep/3` each, and the quark widths are `|V_ij|² GammaW_had/2`. -/
theorem C99_partial_widths (p : WPar) (C : WC) (hG : 0 ≤ p.z.GF) (hm : 0 ≤ p.mW) :
    (∀ f1 f2 : Fm, f1.sec = .l → f2.sec = .l →
      gammaW p C f1 f2 = (if f1 = f2 then p.GammaWlep / 3 else 0) + Real.sqrt 2 * p.z.GF * p.mW ^ 3 / (3 * Real.pi) *
        (‖(if f1 = f2 then (1 / 2 : ℂ) else 0) + dgW f1 f2 p.z C‖ ^ 2 - (if f1 = f2 then 1 / 4 else 0)) ∧
      gammaW p noNP f1 f2 = if f1 = f2 then p.GammaWlep / 3 else 0) ∧
    (∀ f1 f2 : Fm, f1.sec = .u → f2.sec = .d →
      gammaW p noNP f1 f2 = ‖p.V f1.gen f2.gen‖ ^ 2 * (p.GammaWhad / 2)) ∧
    (∀ f1 f2 : Fm, gammaW p noNP f1 f2 - Real.sqrt 2 * p.z.GF * p.mW ^ 3 / (3 * Real.pi) * f1.nc * ‖gWSM f1 f2 p‖ ^ 2
      ≤ gammaW p C f1 f2) := by
  refine ⟨?_, ?_, ?_⟩
  · intro f1 f2 h1 h2
    have hn : f1.nc = 1 := by simp [Fm.nc, h1]
    constructor
    · by_cases h : f1 = f2
      · subst h
        have r1 : (1 / 2 : ℂ).re = 1 / 2 := by norm_num
        have r2 : (1 / 2 : ℂ).im = 0 := by norm_num
        simp only [gammaW, gammaWSM, gammaWNP, gWSM, h1, if_true, nsq, Complex.add_re, Complex.add_im, Complex.mul_re, hn, r1, r2]
        ring
      · simp only [gammaW, gammaWSM, gammaWNP, gWSM, h1, if_true, h, nsq, Complex.add_re, Complex.add_im, Complex.mul_re, hn,
          if_false]
        norm_num
    · by_cases h : f1 = f2
      · simp only [gammaW, gammaWSM, gammaWNP, gWSM, h1, if_true, if_pos h, noNP_shift]
        norm_num
      · simp [gammaW, gammaWSM, gammaWNP, gWSM, h1, h, noNP_shift]
  · intro f1 f2 h1 h2
    have : ¬ Sec.u = Sec.l := by decide
    simp only [gammaW, gammaWSM, gammaWNP, gWSM, h1, if_neg this, noNP_shift, norm_div]
    norm_num
    ring
  · intro f1 f2
    have h0 : gammaW p noNP f1 f2 = gammaWSM f1 f2 p := by simp [gammaW, gammaWNP, noNP_shift]
    rw [h0]
    unfold gammaW gammaWNP
    have hp : 0 ≤ Real.sqrt 2 * p.z.GF * p.mW ^ 3 / (3 * Real.pi) * f1.nc := by
      have := (nc_pos f1).le
      positivity
    generalize Real.sqrt 2 * p.z.GF * p.mW ^ 3 / (3 * Real.pi) * f1.nc = K at hp ⊢
    generalize gWSM f1 f2 p = g
    generalize dgW f1 f2 p.z C = x
    have : 0 ≤ ‖g‖ ^ 2 + (2 * (g * x).re + ‖x‖ ^ 2) := by
      have hx : ‖g‖ ^ 2 + (2 * (g * x).re + ‖x‖ ^ 2) = (g.re + x.re) ^ 2 + (g.im - x.im) ^ 2 := by
        simp only [nsq, Complex.mul_re]; ring
      rw [hx]; positivity
    nlinarith [mul_nonneg hp this]

/-- **C99: branching ratios.** The three leptonic branching ratios and the hadronic fraction sum to one, the ratios of leptonic
rates are the ratios of branching ratios, and `R(W->cX)` and the corresponding up-quark fraction sum to one. -/
theorem C99_sum_rules (p : WPar) (C : WC) (hT : gammaTot p C ≠ 0) (hH : gammaHad p C ≠ 0) :
    br e p C + br mu p C + br tau p C + gammaHad p C / gammaTot p C = 1 ∧
    (∀ l1 l2, rW l1 l2 p C = br l1 p C / br l2 p C) ∧
    rWcX p C + (gammaW p C u d + gammaW p C u s + gammaW p C u b) / gammaHad p C = 1 ∧
    gammaTot p C = (gammaW p C e e + gammaW p C e mu + gammaW p C e tau) + (gammaW p C mu e + gammaW p C mu mu + gammaW p C mu tau)
      + (gammaW p C tau e + gammaW p C tau mu + gammaW p C tau tau) + (gammaW p C u d + gammaW p C u s + gammaW p C u b)
      + (gammaW p C c d + gammaW p C c s + gammaW p C c b) := by
  have hL : gammaLep p C = ([e, mu, tau].map (gammaW p C e)).sum + ([e, mu, tau].map (gammaW p C mu)).sum
      + ([e, mu, tau].map (gammaW p C tau)).sum := by
    simp [gammaLep, sum2]; ring
  have hHd : gammaHad p C = (gammaW p C u d + gammaW p C u s + gammaW p C u b) + ([d, s, b].map (gammaW p C c)).sum := by
    simp [gammaHad, sum2]; ring
  refine ⟨?_, ?_, ?_, ?_⟩
  · unfold br
    rw [← add_div, ← add_div, ← add_div, ← hL]
    exact div_self hT
  · intro l1 l2
    unfold rW br
    rw [div_div_div_cancel_right₀ hT]
  · unfold rWcX
    rw [← add_div, add_comm, ← hHd, div_self hH]
  · rw [gammaTot, hL, hHd]
    simp only [List.map_cons, List.map_nil, List.sum_cons, List.sum_nil]
    ring

/-- **C99: SM limit.** With a CKM matrix whose first two rows are normalised, the SM total width is `GammaW_lep + GammaW_had`,
the leptonic branching ratios are equal, and half of the hadronic decays contain charm. -/
theorem C99_sm_limit (p : WPar)
    (hu : ‖p.V 1 1‖ ^ 2 + ‖p.V 1 2‖ ^ 2 + ‖p.V 1 3‖ ^ 2 = 1) (hc : ‖p.V 2 1‖ ^ 2 + ‖p.V 2 2‖ ^ 2 + ‖p.V 2 3‖ ^ 2 = 1)
    (hG : 0 ≤ p.z.GF) (hm : 0 ≤ p.mW) (hh : p.GammaWhad ≠ 0) :
    gammaTot p noNP = p.GammaWlep + p.GammaWhad ∧ gammaHad p noNP = p.GammaWhad ∧ rWcX p noNP = 1 / 2 ∧
    (∀ l : Fm, l.sec = .l → br l p noNP = p.GammaWlep / 3 / (p.GammaWlep + p.GammaWhad)) := by
  obtain ⟨hl, hq, -⟩ := C99_partial_widths p noNP hG hm
  have L : ∀ f1 f2 : Fm, f1.sec = .l → f2.sec = .l → gammaW p noNP f1 f2 = if f1 = f2 then p.GammaWlep / 3 else 0 :=
    fun f1 f2 h1 h2 => (hl f1 f2 h1 h2).2
  have row : ∀ l : Fm, l.sec = .l → ([e, mu, tau].map (gammaW p noNP l)).sum = p.GammaWlep / 3 := by
    intro l hls
    simp only [List.map_cons, List.map_nil, List.sum_cons, List.sum_nil, L l e hls rfl, L l mu hls rfl, L l tau hls rfl]
    cases l <;> first | (exfalso; revert hls; decide) | simp
  have hcs : ([d, s, b].map (gammaW p noNP c)).sum = p.GammaWhad / 2 := by
    simp only [List.map_cons, List.map_nil, List.sum_cons, List.sum_nil, hq c d rfl rfl, hq c s rfl rfl, hq c b rfl rfl]
    show ‖p.V 2 1‖ ^ 2 * _ + (‖p.V 2 2‖ ^ 2 * _ + (‖p.V 2 3‖ ^ 2 * _ + 0)) = _
    linear_combination (p.GammaWhad / 2) * hc
  have hus : gammaW p noNP u d + (gammaW p noNP u s + gammaW p noNP u b) = p.GammaWhad / 2 := by
    rw [hq u d rfl rfl, hq u s rfl rfl, hq u b rfl rfl]
    show ‖p.V 1 1‖ ^ 2 * _ + (‖p.V 1 2‖ ^ 2 * _ + ‖p.V 1 3‖ ^ 2 * _) = _
    linear_combination (p.GammaWhad / 2) * hu
  have hH : gammaHad p noNP = p.GammaWhad := by
    have : gammaHad p noNP = (gammaW p noNP u d + (gammaW p noNP u s + gammaW p noNP u b)) + ([d, s, b].map (gammaW p noNP c)).sum := by
      simp [gammaHad, sum2]; ring
    rw [this, hus, hcs]; ring
  have hT : gammaTot p noNP = p.GammaWlep + p.GammaWhad := by
    have : gammaLep p noNP = ([e, mu, tau].map (gammaW p noNP e)).sum + (([e, mu, tau].map (gammaW p noNP mu)).sum
      + ([e, mu, tau].map (gammaW p noNP tau)).sum) := by
      simp [gammaLep, sum2]; ring
    rw [gammaTot, this, row e rfl, row mu rfl, row tau rfl, hH]; ring
  refine ⟨hT, hH, ?_, ?_⟩
  · unfold rWcX
    rw [hcs, hH]; field_simp
  · intro l hls
    unfold br
    rw [row l hls, hT]

/-- In range: `0 < s² < 1/2`, i.e. `sin`, `cos`, `cos 2θ` of the weak mixing angle are positive. -/
theorem trig_pos (p : Par) (h0 : 0 < sh2 p) (h1 : sh2 p < 1 / 2) :
    0 < Real.sqrt (sh2 p) ∧ 0 < Real.sqrt (1 - sh2 p) ∧ 0 < Real.sqrt (1 - sh2 p) ^ 2 - Real.sqrt (sh2 p) ^ 2 ∧
    Real.sqrt (sh2 p) ^ 2 + Real.sqrt (1 - sh2 p) ^ 2 = 1 := by
  have a := Real.sq_sqrt h0.le
  have b := Real.sq_sqrt (show 0 ≤ 1 - sh2 p by linarith)
  exact ⟨Real.sqrt_pos.mpr h0, Real.sqrt_pos.mpr (by linarith), by rw [a, b]; linarith, by rw [a, b]; ring⟩

/-- **C99: couplings, W mass and the Fermi constant are consistent.** `G_F` is an input, so the shifts of the W couplings to
`eν` and `μν` and of the W mass, together with the four-lepton operator, must leave the muon decay rate unchanged at linear
order: `2 δg_e + 2 δg_μ + 2 δm_W/m_W = C_ll/(2√2 G_F)` for all (real) coefficients. -/
theorem C99_muon_decay_consistency (p : Par) (C : WC) (h0 : 0 < sh2 p) (h1 : sh2 p < 1 / 2) (hG : 0 < p.GF) :
    2 * (dgW e e p C).re + 2 * (dgW mu mu p C).re + 2 * dmW p C = (C "ll_1221").re / (2 * Real.sqrt 2 * p.GF) := by
  obtain ⟨hs, hc, h2, hu⟩ := trig_pos p h0 h1
  have hr2 : 0 < Real.sqrt 2 := by positivity
  have k1 : key "phil3" 1 1 = "phil3_11" := by decide
  have k2 : key "phil3" 2 2 = "phil3_22" := by decide
  simp only [dgW, dgWx, dmW, dsh2, muon, Fm.sec, if_true, Fm.gen, sort2, lt_irrefl, if_false, k1, k2]
  generalize Real.sqrt (sh2 p) = S at *
  generalize Real.sqrt (1 - sh2 p) = K at *
  generalize Real.sqrt 2 = r at *
  have q : (1 / 4 : ℂ) = ((1 / 4 : ℝ) : ℂ) := by push_cast; ring
  have q2 : (2 : ℂ) = ((2 : ℝ) : ℂ) := by push_cast; ring
  have q4 : (4 : ℂ) = ((4 : ℝ) : ℂ) := by push_cast; ring
  rw [q, q4, q2]
  simp only [Complex.sub_re, Complex.add_re, Complex.div_ofReal_re, Complex.re_ofReal_mul]
  have hK2 : K ^ 2 = 1 - S ^ 2 := by linarith
  have hd : K ^ 2 - S ^ 2 ≠ 0 := h2.ne'
  have e0 : (K ^ 2 - S ^ 2) * (K ^ 2 - S ^ 2)⁻¹ = 1 := mul_inv_cancel₀ hd
  generalize (C "phil3_11").re = a
  generalize (C "phil3_22").re = a'
  generalize (C "ll_1221").re = l
  generalize (C "phiD").re = D
  generalize (C "phiWB").re = B
  have hGn := hG.ne'
  have hSn := hs.ne'
  have hKn := hc.ne'
  have hrn := hr2.ne'
  field_simp
  linear_combination (64 * K * B) * hu

/-- The coupling shift for a single flavour-universal operator. -/
theorem universal_shift (p : Par) (C : WC) (f1 f2 : Fm) (hC : ∀ k, k ≠ "phiD" → C k = 0) :
    dgW f1 f2 p C = ((-(Real.sqrt (1 - sh2 p) ^ 2 / (8 * (Real.sqrt (1 - sh2 p) ^ 2 - Real.sqrt (sh2 p) ^ 2)
      * Real.sqrt 2 * p.GF)) * (Real.sqrt (sh2 p) ^ 2 / Real.sqrt (sh2 p) ^ 2) : ℝ) : ℂ) * C "phiD" := by
  have hk : ∀ op i j, op = "phil3" ∨ op = "phiq3" → C (key op i j) = 0 := by
    intro op i j h
    apply hC
    intro h'
    have := congrArg (fun t => t.toList.take 4) h'
    rcases h with rfl | rfl <;> simp [key] at this
  have hop : (if f1.sec = Sec.l then "phil3" else "phiq3") = "phil3" ∨
      (if f1.sec = Sec.l then "phil3" else "phiq3") = "phiq3" := by split_ifs <;> simp
  simp only [dgW, dgWx, dsh2, muon, hk _ _ _ hop, hC "phiWB" (by decide), hC "phil3_22" (by decide),
    hC "phil3_11" (by decide), hC "ll_1221" (by decide)]
  push_cast
  ring

/-- **C99 fails: flavour-universal new physics produces lepton flavour violating and CKM-violating W decays.** With the single
operator `phiD`, which does not know about flavour, the code predicts a positive rate for `W → e ν_μ`, and for `W → u s̄` even
if `V_us = 0`, because the universal shift is added for every pair of fermions, without the flavour structure of the SM
coupling. -/
theorem C99_universal_operator_violates_flavour (p : WPar) (C : WC) (hC : ∀ k, k ≠ "phiD" → C k = 0) (hD : C "phiD" ≠ 0)
    (h0 : 0 < sh2 p.z) (h1 : sh2 p.z < 1 / 2) (hG : 0 < p.z.GF) (hm : 0 < p.mW) (hV : p.V 1 2 = 0) :
    0 < gammaW p C e mu ∧ 0 < gammaW p C u s := by
  obtain ⟨hs, hc, h2, hu⟩ := trig_pos p.z h0 h1
  have hpi := Real.pi_pos
  have hd : ∀ f1 f2 : Fm, dgW f1 f2 p.z C ≠ 0 := by
    intro f1 f2
    rw [universal_shift p.z C f1 f2 hC]
    refine mul_ne_zero ?_ hD
    rw [Complex.ofReal_ne_zero]
    have : 0 < Real.sqrt (1 - sh2 p.z) ^ 2 / (8 * (Real.sqrt (1 - sh2 p.z) ^ 2 - Real.sqrt (sh2 p.z) ^ 2)
      * Real.sqrt 2 * p.z.GF) := by positivity
    have h' : 0 < Real.sqrt (sh2 p.z) ^ 2 / Real.sqrt (sh2 p.z) ^ 2 := by positivity
    exact mul_ne_zero (neg_ne_zero.mpr this.ne') h'.ne'
  have n1 : 0 < ‖dgW e mu p.z C‖ := norm_pos_iff.mpr (hd _ _)
  have n2 : 0 < ‖dgW u s p.z C‖ := norm_pos_iff.mpr (hd _ _)
  have g1 : gWSM e mu p = 0 := by simp [gWSM, Fm.sec]
  have g2 : gWSM u s p = 0 := by simp [gWSM, Fm.sec, Fm.gen, hV]
  have c1 : e.nc = 1 := rfl
  have c2 : u.nc = 3 := rfl
  constructor
  · simp only [gammaW, gammaWSM, gammaWNP, g1, norm_zero, zero_mul, Complex.zero_re, c1]
    norm_num
    positivity
  · simp only [gammaW, gammaWSM, gammaWNP, g2, norm_zero, zero_mul, Complex.zero_re, c2]
    norm_num
    positivity

/-- **C99 fails: the phase of the CKM element.** The interference of the SM and NP amplitudes for `W → u_i d̄_j` is computed
with `Re(V δg)` instead of `Re(V* δg)`: the NP width is `|g* + δg|² - |g|²`, which agrees with `|g + δg|² - |g|²` exactly if
the product of the imaginary parts vanishes. Moreover the shifts for `W → u s̄` and `W → c d̄` are equal (indices are sorted,
without conjugation), for all Wilson coefficients. -/
theorem C99_interference_phase (p : WPar) (g x : ℂ) (C : WC) (hG : 0 < p.z.GF) (hm : 0 < p.mW) :
    (gammaWNP p 3 g x = Real.sqrt 2 * p.z.GF * p.mW ^ 3 / Real.pi * (‖g + x‖ ^ 2 - ‖g‖ ^ 2) ↔ g.im * x.im = 0) ∧
    dgW u s p.z C = dgW c d p.z C := by
  have hpi := Real.pi_pos
  constructor
  · have hK : 0 < Real.sqrt 2 * p.z.GF * p.mW ^ 3 / Real.pi := by positivity
    have e1 : gammaWNP p 3 g x = Real.sqrt 2 * p.z.GF * p.mW ^ 3 / Real.pi * (2 * (g * x).re + ‖x‖ ^ 2) := by
      unfold gammaWNP; field_simp
    rw [e1, mul_right_inj' hK.ne']
    simp only [nsq, Complex.add_re, Complex.add_im, Complex.mul_re]
    constructor <;> intro h <;> linarith
  · simp [dgW, Fm.sec, Fm.gen, dgWx, sort2]

/-- **C99: the W mass.** Without new physics it is the SM prediction, which is 80.3779 GeV at the reference inputs, falls with
`Delta_alpha_e_had`, `Delta_alpha_e_lep` and `alpha_s`, and rises with the Z mass; the relative shift is linear in the Wilson
coefficients, and a positive (negative) `phiD` or `phiWB` lowers (raises) the W mass. -/
theorem C99_w_mass (p : WPar) (hM : 0 < mWSM p) :
    mWobs p noNP = mWSM p ∧
    (p.z.mh = 100 → p.z.mt = 174.3 → p.z.mZ = 91.1875 → p.dalphaHad + p.dalphaLep = 0.05907 → p.z.alphas = 0.119 →
      mWSM p = 80.3779) ∧
    (∀ h l, p.dalphaHad + p.dalphaLep < h + l → mWSM { p with dalphaHad := h, dalphaLep := l } < mWSM p) ∧
    (∀ a, p.z.alphas < a → mWSM { p with z := { p.z with alphas := a } } < mWSM p) ∧
    (∀ m, p.z.mZ < m → mWSM p < mWSM { p with z := { p.z with mZ := m } }) ∧
    (∀ (x y : ℝ) (C C' : WC), dmW p.z (fun k => x * C k + y * C' k) = x * dmW p.z C + y * dmW p.z C') ∧
    (∀ C : WC, 0 < sh2 p.z → sh2 p.z < 1 / 2 → 0 < p.z.GF → (∀ k, k ≠ "phiD" → k ≠ "phiWB" → C k = 0) →
      0 ≤ (C "phiD").re → 0 ≤ (C "phiWB").re → 0 < (C "phiD").re + (C "phiWB").re → mWobs p C < mWSM p) := by
  refine ⟨?_, ?_, ?_, ?_, ?_, ?_, ?_⟩
  · simp [mWobs, dmW, muon, noNP]
  · intro h1 h2 h3 h4 h5
    simp only [mWSM, h1, h2, h3, h4, h5]
    norm_num
  · intro h l hlt
    have : (p.dalphaHad + p.dalphaLep) / 0.05907 < (h + l) / 0.05907 := div_lt_div_of_pos_right hlt (by norm_num)
    simp only [mWSM]; linarith
  · intro a hlt
    have : p.z.alphas / 0.119 < a / 0.119 := div_lt_div_of_pos_right hlt (by norm_num)
    simp only [mWSM]; linarith
  · intro a hlt
    have : p.z.mZ / 91.1875 < a / 91.1875 := div_lt_div_of_pos_right hlt (by norm_num)
    simp only [mWSM]; linarith
  · intro x y C C'
    have q4 : (4 : ℂ) = ((4 : ℝ) : ℂ) := by push_cast; ring
    have q2 : (2 : ℂ) = ((2 : ℝ) : ℂ) := by push_cast; ring
    simp only [dmW, muon]
    rw [q4, q2]
    simp only [Complex.add_re, Complex.sub_re, Complex.re_ofReal_mul, Complex.div_ofReal_re]
    ring
  · intro C h0 h1 hG hC hD hB hpos
    obtain ⟨hs, hc, h2, hu⟩ := trig_pos p.z h0 h1
    have : 0 < dmW p.z C := by
      simp only [dmW, muon, hC "phil3_22" (by decide) (by decide), hC "phil3_11" (by decide) (by decide),
        hC "ll_1221" (by decide) (by decide)]
      have q4 : (4 : ℂ) = ((4 : ℝ) : ℂ) := by push_cast; ring
      rw [q4]
      simp only [zero_div, add_zero, sub_zero, mul_zero, Complex.add_re, Complex.re_ofReal_mul, Complex.zero_re]
      generalize Real.sqrt (sh2 p.z) = S at *
      generalize Real.sqrt (1 - sh2 p.z) = K at *
      have hDh : 0 < K * S / ((K ^ 2 - S ^ 2) * 2 * Real.sqrt 2 * p.z.GF) := by positivity
      have hq : 0 < K / S := by positivity
      have : 0 < 4 * (C "phiWB").re + K / S * (C "phiD").re := by
        rcases hB.lt_or_eq with hB' | hB'
        · have := mul_nonneg hq.le hD
          linarith
        · rw [← hB'] at hpos ⊢
          have := mul_pos hq (show 0 < (C "phiD").re by linarith)
          linarith
      exact mul_pos (mul_pos (by norm_num) hDh) this
    unfold mWobs
    nlinarith

/-- A parameter point that meets the hypotheses: `s² = 0.2`, a diagonal CKM matrix. (Specification.) -/
noncomputable def wRef : WPar :=
  { z := { pRef with GF := 1, mZ := 1, alphaE := 0.16 * Real.sqrt 2 / Real.pi }, mW := 80, GammaWhad := 1.4, GammaWlep := 0.7,
    dalphaHad := 0.02757, dalphaLep := 0.0315, V := fun i j => if i = j then 1 else 0 }

example : sh2 wRef.z = 0.2 ∧ 0 < wRef.z.GF ∧ wRef.V 1 2 = 0 ∧
    ‖wRef.V 1 1‖ ^ 2 + ‖wRef.V 1 2‖ ^ 2 + ‖wRef.V 1 3‖ ^ 2 = 1 ∧ ‖wRef.V 2 1‖ ^ 2 + ‖wRef.V 2 2‖ ^ 2 + ‖wRef.V 2 3‖ ^ 2 = 1 ∧
    gammaTot wRef noNP = 2.1 ∧ 0 < mWSM { wRef with z := { wRef.z with mZ := 91.1875, mh := 100, mt := 174.3, alphas := 0.119 } } := by
  have hu : ‖wRef.V 1 1‖ ^ 2 + ‖wRef.V 1 2‖ ^ 2 + ‖wRef.V 1 3‖ ^ 2 = 1 := by simp [wRef]
  have hc : ‖wRef.V 2 1‖ ^ 2 + ‖wRef.V 2 2‖ ^ 2 + ‖wRef.V 2 3‖ ^ 2 = 1 := by simp [wRef]
  refine ⟨?_, by norm_num [wRef], by simp [wRef], hu, hc, ?_, ?_⟩
  · have h2 : 0 < Real.sqrt 2 := by positivity
    have hpi := Real.pi_pos
    have e1 : 4 * Real.pi * (0.16 * Real.sqrt 2 / Real.pi) / (Real.sqrt 2 * 1 * 1 ^ 2) = 0.64 := by
      field_simp; norm_num
    simp only [sh2, wRef, e1]
    have : Real.sqrt (1 - 0.64) = 0.6 := by
      rw [show (1 - 0.64 : ℝ) = 0.6 ^ 2 by norm_num]; exact Real.sqrt_sq (by norm_num)
    rw [this]; norm_num
  · rw [(C99_sm_limit wRef hu hc (by norm_num [wRef]) (by norm_num [wRef]) (by norm_num [wRef])).1]
    norm_num [wRef]
  · norm_num [mWSM, wRef]

end Verif.Wdecay
