import Verif.Physics.Bdecays.Bll
import Mathlib.Analysis.SpecialFunctions.Log.Deriv
import Mathlib.Analysis.Calculus.Deriv.MeanValue
import Mathlib.Analysis.Calculus.Deriv.Pow
/-!
# Tau decays into a lepton and two neutrinos, and the effective Fermi constant

`flavio/physics/taudecays/taulnunu.py`.  Floats are real numbers.  `get_wc` is an input (the dictionary of a sector, or an
exception), and so is the running `alpha_e`.  The logarithm of a mass ratio needs positive masses: the theorems assume
them.
-/
set_option linter.unusedVariables false
set_option linter.unusedSimpArgs false
namespace Verif.Tau
open Verif.Py Verif.Running Verif.Bll

/-- `F`.  /repo/flavio/physics/taudecays/taulnunu.py:7-8. -/
noncomputable def F (x : ℝ) : ℝ := 1 - 8 * x + 8 * x ^ 3 - x ^ 4 - 12 * x ^ 2 * Real.log x
/-- `G`.  /repo/flavio/physics/taudecays/taulnunu.py:10-11. -/
noncomputable def G (x : ℝ) : ℝ := 1 + 9 * x - 9 * x ^ 2 - x ^ 3 + 6 * x * Real.log x + 6 * x ^ 2 * Real.log x
/-- `_BR`.  /repo/flavio/physics/taudecays/taulnunu.py:13-14. -/
noncomputable def brF (x : ℝ) (CL CR : ℂ) : ℝ :=
  F x * (‖CL‖ ^ 2 + ‖CR‖ ^ 2) - 4 * G x * (CL * (starRingEnd ℂ) CR).re

/-- What the code reads: masses, `GF`, the tau lifetime, the running `alpha_e`, and `get_wc`.
/repo/flavio/physics/taudecays/taulnunu.py:17-62. -/
structure Inp where
  me : ℝ
  mmu : ℝ
  mtau : ℝ
  GF : ℝ
  tauTau : ℝ
  alphaE : ℝ
  getWc : String → Except PyErr (Dict String ℂ)

/-- `GFeff`.  /repo/flavio/physics/taudecays/taulnunu.py:17-29. -/
noncomputable def gfEff (d : Inp) : Except PyErr ℝ :=
  d.getWc "nunumue" >>= fun wc =>
  Dict.getItem wc "CVLL_numunueemu" >>= fun CL =>
  Dict.getItem wc "CVLR_numunueemu" >>= fun CR =>
    let x := d.me ^ 2 / d.mmu ^ 2
    let CLSM : ℂ := ((-4 * d.GF / Real.sqrt 2 : ℝ) : ℂ)
    pyDiv (brF x (CL + CLSM) CR) (brF x CLSM 0) >>= fun r =>
    pySqrt r >>= fun s => pyDiv d.GF s

/-- The two coefficients, or the conjugate ones of the transition in the other direction.
/repo/flavio/physics/taudecays/taulnunu.py:43-50. -/
noncomputable def coeffs (wc : Dict String ℂ) (lep nu1 nu2 : String) : Except PyErr (ℂ × ℂ) :=
  let nnll := "nu" ++ nu2 ++ "nu" ++ nu1 ++ "tau" ++ lep
  match Dict.get? wc ("CVLL_" ++ nnll), Dict.get? wc ("CVLR_" ++ nnll) with
  | some a, some b => .ok (a, b)
  | _, _ =>
    let nnll := "nu" ++ nu1 ++ "nu" ++ nu2 ++ lep ++ "tau"
    Dict.getItem wc ("CVLL_" ++ nnll) >>= fun a =>
    Dict.getItem wc ("CVLR_" ++ nnll) >>= fun b => .ok ((starRingEnd ℂ) a, (starRingEnd ℂ) b)

/-- `sec`: unbound for a lepton other than e, mu.  /repo/flavio/physics/taudecays/taulnunu.py:34-37. -/
def sector (lep : String) : Except PyErr String :=
  if lep = "e" then .ok "nunutaue" else if lep = "mu" then .ok "nunumutau" else .error .unboundLocalError

/-- `par['m_' + lep]` of the two leptons of `sector`.  /repo/flavio/physics/taudecays/taulnunu.py:40. -/
def massOf (d : Inp) (lep : String) : ℝ := if lep = "e" then d.me else d.mmu

/-- The Standard Model contribution to `CL`.  /repo/flavio/physics/taudecays/taulnunu.py:51-54. -/
noncomputable def smCL (d : Inp) (lep nu1 nu2 : String) : Except PyErr ℂ :=
  if nu1 = "tau" ∧ nu2 = lep then gfEff d >>= fun gf => .ok ((-4 * gf / Real.sqrt 2 : ℝ) : ℂ) else .ok 0

/-- `pre * emcorr`.  /repo/flavio/physics/taudecays/taulnunu.py:55-60. -/
noncomputable def pre (d : Inp) : ℝ :=
  d.tauTau / 3 / 2 ^ 9 / Real.pi ^ 3 * d.mtau ^ 5 * (1 + d.alphaE / (2 * Real.pi) * (25 / 4 - Real.pi ^ 2))

/-- `BR_taulnunu`.  /repo/flavio/physics/taudecays/taulnunu.py:32-61. -/
noncomputable def brNu (d : Inp) (lep nu1 nu2 : String) : Except PyErr ℝ :=
  sector lep >>= fun sec =>
  d.getWc sec >>= fun wc =>
  coeffs wc lep nu1 nu2 >>= fun c =>
  smCL d lep nu1 nu2 >>= fun sm =>
    .ok (pre d * brF (massOf d lep ^ 2 / d.mtau ^ 2) (c.1 + sm) c.2)

/-- The neutrino flavours.  /repo/flavio/physics/taudecays/taulnunu.py:66. -/
def flavs : List String := ["e", "mu", "tau"]
/-- `[(nu1, nu2) for nu1 in _l for nu2 in _l]`.  /repo/flavio/physics/taudecays/taulnunu.py:67. -/
def pairs : List (String × String) := flavs.flatMap fun a => flavs.map fun b => (a, b)

/-- `BR_taulnunu_summed`.  /repo/flavio/physics/taudecays/taulnunu.py:64-67. -/
noncomputable def br (d : Inp) (lep : String) : Except PyErr ℝ :=
  (pairs.mapM fun p => brNu d lep p.1 p.2) >>= fun l => .ok l.sum

/-! ## The phase space functions -/

/-- A function on `(0, 1]` with zero at 1 and negative derivative is positive below 1. -/
theorem pos_of_deriv {f f' : ℝ → ℝ} (hd : ∀ x, 0 < x → HasDerivAt f (f' x) x) (h1 : f 1 = 0)
    (hn : ∀ x, 0 < x → x < 1 → f' x < 0) (x : ℝ) (h0 : 0 < x) (hx : x < 1) : 0 < f x := by
  obtain ⟨c, hc, h⟩ := exists_hasDerivAt_eq_slope f f' hx
    (fun y hy => (hd y (h0.trans_le hy.1)).continuousAt.continuousWithinAt) (fun y hy => hd y (h0.trans hy.1))
  have := hn c (h0.trans hc.1) hc.2
  rw [h, h1] at this
  have h2 : 0 < 1 - x := by linarith
  rw [div_lt_iff₀ h2] at this
  linarith

theorem neg_of_deriv {f f' : ℝ → ℝ} (hd : ∀ x, 0 < x → HasDerivAt f (f' x) x) (h1 : f 1 = 0)
    (hn : ∀ x, 0 < x → x < 1 → 0 < f' x) (x : ℝ) (h0 : 0 < x) (hx : x < 1) : f x < 0 := by
  have := pos_of_deriv (f := fun y => -f y) (f' := fun y => -f' y) (fun y hy => (hd y hy).neg) (by simp [h1])
    (fun y a b => by have := hn y a b; linarith) x h0 hx
  linarith

theorem F_pos (x : ℝ) (h0 : 0 < x) (hx : x < 1) : 0 < F x := by
  have d3 : ∀ x : ℝ, 0 < x → HasDerivAt (fun x => 48 * x - 12 * x ^ 2 - 24 * Real.log x - 36) (48 - 12 * (2 * x) - 24 * x⁻¹) x := by
    intro x h
    have hl := Real.hasDerivAt_log h.ne'
    have h2 : HasDerivAt (fun x : ℝ => x ^ 2) (2 * x) x := by simpa using hasDerivAt_pow 2 x
    have := ((((hasDerivAt_id' x).const_mul 48).sub (h2.const_mul 12)).sub (hl.const_mul 24)).sub_const 36
    simpa using this
  have p2 : ∀ x : ℝ, 0 < x → x < 1 → 0 < 48 * x - 12 * x ^ 2 - 24 * Real.log x - 36 := by
    refine pos_of_deriv d3 (by norm_num) ?_
    intro x h h1
    have : 48 - 12 * (2 * x) - 24 * x⁻¹ = -(24 * (1 - x) ^ 2 * x⁻¹) := by field_simp; ring
    rw [this]
    have : 0 < 1 - x := by linarith
    have : 0 < 24 * (1 - x) ^ 2 * x⁻¹ := by positivity
    linarith
  have d2 : ∀ x : ℝ, 0 < x → HasDerivAt (fun x => -8 + 24 * x ^ 2 - 4 * x ^ 3 - 24 * (x * Real.log x) - 12 * x)
      (48 * x - 12 * x ^ 2 - 24 * Real.log x - 36) x := by
    intro x h
    have hl := Real.hasDerivAt_log h.ne'
    have h2 : HasDerivAt (fun x : ℝ => x ^ 2) (2 * x) x := by simpa using hasDerivAt_pow 2 x
    have h3 : HasDerivAt (fun x : ℝ => x ^ 3) (3 * x ^ 2) x := by simpa using hasDerivAt_pow 3 x
    have hxl : HasDerivAt (fun x : ℝ => x * Real.log x) (Real.log x + 1) x := by
      have := (hasDerivAt_id' x).mul hl
      rw [mul_inv_cancel₀ h.ne', one_mul] at this
      exact this
    have := ((((h2.const_mul 24).const_add (-8)).sub (h3.const_mul 4)).sub (hxl.const_mul 24)).sub ((hasDerivAt_id' x).const_mul 12)
    refine HasDerivAt.congr_deriv (f := _) this ?_
    ring
  have n1 : ∀ x : ℝ, 0 < x → x < 1 → -8 + 24 * x ^ 2 - 4 * x ^ 3 - 24 * (x * Real.log x) - 12 * x < 0 :=
    neg_of_deriv d2 (by norm_num) p2
  have d1 : ∀ x : ℝ, 0 < x → HasDerivAt F (-8 + 24 * x ^ 2 - 4 * x ^ 3 - 24 * (x * Real.log x) - 12 * x) x := by
    intro x h
    have hl := Real.hasDerivAt_log h.ne'
    have h2 : HasDerivAt (fun x : ℝ => x ^ 2) (2 * x) x := by simpa using hasDerivAt_pow 2 x
    have h3 : HasDerivAt (fun x : ℝ => x ^ 3) (3 * x ^ 2) x := by simpa using hasDerivAt_pow 3 x
    have h4 : HasDerivAt (fun x : ℝ => x ^ 4) (4 * x ^ 3) x := by simpa using hasDerivAt_pow 4 x
    have := (((((hasDerivAt_id' x).const_mul 8).const_sub 1).add (h3.const_mul 8)).sub h4).sub ((h2.const_mul 12).mul hl)
    refine HasDerivAt.congr_deriv (f := _) this ?_
    field_simp
    ring
  exact pos_of_deriv d1 (by norm_num [F]) n1 x h0 hx

theorem G_pos (x : ℝ) (h0 : 0 < x) (hx : x < 1) : 0 < G x := by
  have hinv : ∀ x : ℝ, 0 < x → HasDerivAt (fun x : ℝ => x⁻¹) (-(x ^ 2)⁻¹) x := fun x h => hasDerivAt_inv h.ne'
  have d3 : ∀ x : ℝ, 0 < x → HasDerivAt (fun x => -6 * x + 6 * x⁻¹ + 12 * Real.log x) (-6 * 1 + 6 * (-(x ^ 2)⁻¹) + 12 * x⁻¹) x := by
    intro x h
    exact (((hasDerivAt_id' x).const_mul (-6)).add ((hinv x h).const_mul 6)).add ((Real.hasDerivAt_log h.ne').const_mul 12)
  have p2 : ∀ x : ℝ, 0 < x → x < 1 → 0 < -6 * x + 6 * x⁻¹ + 12 * Real.log x := by
    refine pos_of_deriv d3 (by norm_num) ?_
    intro x h h1
    have : -6 * 1 + 6 * (-(x ^ 2)⁻¹) + 12 * x⁻¹ = -(6 * (1 - x) ^ 2 * (x ^ 2)⁻¹) := by field_simp; ring
    rw [this]
    have : 0 < 1 - x := by linarith
    have : 0 < 6 * (1 - x) ^ 2 * (x ^ 2)⁻¹ := by positivity
    linarith
  have hxl : ∀ x : ℝ, 0 < x → HasDerivAt (fun x : ℝ => x * Real.log x) (Real.log x + 1) x := by
    intro x h
    have := (hasDerivAt_id' x).mul (Real.hasDerivAt_log h.ne')
    rw [mul_inv_cancel₀ h.ne', one_mul] at this
    exact this
  have d2 : ∀ x : ℝ, 0 < x → HasDerivAt (fun x => 15 - 12 * x - 3 * x ^ 2 + 6 * Real.log x + 12 * (x * Real.log x))
      (-6 * x + 6 * x⁻¹ + 12 * Real.log x) x := by
    intro x h
    have h2 : HasDerivAt (fun x : ℝ => x ^ 2) (2 * x) x := by simpa using hasDerivAt_pow 2 x
    have := (((((hasDerivAt_id' x).const_mul 12).const_sub 15).sub (h2.const_mul 3)).add
      ((Real.hasDerivAt_log h.ne').const_mul 6)).add ((hxl x h).const_mul 12)
    refine HasDerivAt.congr_deriv (f := _) this ?_
    ring
  have n1 : ∀ x : ℝ, 0 < x → x < 1 → 15 - 12 * x - 3 * x ^ 2 + 6 * Real.log x + 12 * (x * Real.log x) < 0 :=
    neg_of_deriv d2 (by norm_num) p2
  have d1 : ∀ x : ℝ, 0 < x → HasDerivAt G (15 - 12 * x - 3 * x ^ 2 + 6 * Real.log x + 12 * (x * Real.log x)) x := by
    intro x h
    have hl := Real.hasDerivAt_log h.ne'
    have h2 : HasDerivAt (fun x : ℝ => x ^ 2) (2 * x) x := by simpa using hasDerivAt_pow 2 x
    have h3 : HasDerivAt (fun x : ℝ => x ^ 3) (3 * x ^ 2) x := by simpa using hasDerivAt_pow 3 x
    have := ((((((hasDerivAt_id' x).const_mul 9).const_add 1).sub (h2.const_mul 9)).sub h3).add
      (((hasDerivAt_id' x).const_mul 6).mul hl)).add ((h2.const_mul 6).mul hl)
    refine HasDerivAt.congr_deriv (f := _) this ?_
    field_simp
    ring
  exact pos_of_deriv d1 (by norm_num [G]) n1 x h0 hx

/-- For the physical mass ratios the interference function is more than half of the other one. -/
theorem F_lt_two_G (x : ℝ) (h0 : 0 < x) (hx : x ≤ 1 / 256) : F x < 2 * G x := by
  obtain ⟨t, ht, rfl⟩ : ∃ t : ℝ, 0 < t ∧ x = t ^ 4 := by
    refine ⟨x ^ (1 / 4 : ℝ), Real.rpow_pos_of_pos h0 _, ?_⟩
    rw [← Real.rpow_natCast, ← Real.rpow_mul h0.le]
    norm_num
  have ht4 : t ≤ 1 / 4 := by
    by_contra h
    push Not at h
    have : (1 / 4 : ℝ) ^ 4 < t ^ 4 := pow_lt_pow_left₀ h (by norm_num) (by norm_num)
    norm_num at this
    norm_num at hx
    linarith
  have hl : Real.log (t ^ 4) = 4 * Real.log t := by rw [Real.log_pow]; norm_num
  have hlt : 1 - t⁻¹ ≤ Real.log t := Real.one_sub_inv_le_log_of_pos ht
  have hb : t ^ 4 * (4 * (1 - t⁻¹)) ≤ t ^ 4 * Real.log (t ^ 4) := by
    rw [hl]; exact mul_le_mul_of_nonneg_left (by linarith) (by positivity)
  have e : t ^ 4 * (4 * (1 - t⁻¹)) = 4 * t ^ 4 - 4 * t ^ 3 := by field_simp
  rw [e] at hb
  have t3 : t ^ 3 ≤ 1 / 64 := by
    calc t ^ 3 ≤ (1 / 4) ^ 3 := pow_le_pow_left₀ ht.le ht4 3
      _ = 1 / 64 := by norm_num
  set L := t ^ 4 * Real.log (t ^ 4) with hL
  set y := t ^ 4 with hy
  have hLb : -(1 / 16) ≤ L := by
    have : 0 ≤ y := by positivity
    linarith
  have key : 2 * G y - F y = 1 + 26 * y - 18 * y ^ 2 - 10 * y ^ 3 + y ^ 4 + 12 * L * (1 + 2 * y) := by
    unfold G F; rw [hL]; ring
  have hy0 : 0 < y := by positivity
  have h1 : L * (1 + 2 * y) ≥ -(1 / 16) * (1 + 2 * y) := mul_le_mul_of_nonneg_right hLb (by positivity)
  have h2 : y ^ 2 ≤ y * (1 / 256) := by rw [sq]; exact mul_le_mul_of_nonneg_left hx hy0.le
  have h3 : y ^ 3 ≤ y ^ 2 * (1 / 256) := by
    rw [pow_succ y 2]; exact mul_le_mul_of_nonneg_left hx (by positivity)
  have h4 : 0 ≤ y ^ 4 := by positivity
  nlinarith

theorem brF_scale (x : ℝ) (a CL CR : ℂ) : brF x (a * CL) (a * CR) = ‖a‖ ^ 2 * brF x CL CR := by
  unfold brF
  have : (a * CL * (starRingEnd ℂ) (a * CR)).re = ‖a‖ ^ 2 * (CL * (starRingEnd ℂ) CR).re := by
    have e : a * CL * (starRingEnd ℂ) (a * CR) = ((‖a‖ ^ 2 : ℝ) : ℂ) * (CL * (starRingEnd ℂ) CR) := by
      rw [map_mul, ← Complex.normSq_eq_norm_sq, ← Complex.mul_conj]; ring
    rw [e, Complex.re_ofReal_mul]
  rw [this, norm_mul, norm_mul]
  ring

theorem brF_zero (x : ℝ) (CL : ℂ) : brF x CL 0 = F x * ‖CL‖ ^ 2 := by simp [brF]

/-- **C95 (rate, partial).** For positive mass ratios below one both phase space functions are positive; the rate
function is not negative if the right-handed coefficient vanishes or if the interference is destructive in the sense
`Re(CL CR*) ≤ 0`, and it is unchanged by a common phase of the two coefficients. -/
theorem C95_rate_nonneg_partial (x : ℝ) (CL CR : ℂ) (h0 : 0 < x) (hx : x < 1) :
    0 < F x ∧ 0 < G x ∧ (0 ≤ brF x CL 0) ∧ ((CL * (starRingEnd ℂ) CR).re ≤ 0 → 0 ≤ brF x CL CR) ∧
    (∀ a : ℂ, ‖a‖ = 1 → brF x (a * CL) (a * CR) = brF x CL CR) := by
  have hF := F_pos x h0 hx
  have hG := G_pos x h0 hx
  refine ⟨hF, hG, ?_, fun h => ?_, fun a ha => ?_⟩
  · rw [brF_zero]; positivity
  · unfold brF
    have : 0 ≤ F x * (‖CL‖ ^ 2 + ‖CR‖ ^ 2) := by positivity
    have : 4 * G x * (CL * (starRingEnd ℂ) CR).re ≤ 0 := mul_nonpos_of_nonneg_of_nonpos (by positivity) h
    linarith
  · rw [brF_scale, ha]; ring

/-- **C95 (finding).** The interference term lacks the factor `m_l/m_tau`: for all mass ratios up to 1/16 (the three
physical ones are below 0.06) the rate function is negative for equal coefficients. -/
theorem C95_negative_rate (x : ℝ) (c : ℂ) (h0 : 0 < x) (hx : x ≤ 1 / 256) (hc : c ≠ 0) : brF x c c < 0 := by
  have h := F_lt_two_G x h0 hx
  have : brF x c c = -(2 * ‖c‖ ^ 2 * (2 * G x - F x)) := by
    unfold brF
    rw [Complex.mul_conj, Complex.ofReal_re, Complex.normSq_eq_norm_sq]
    ring
  rw [this]
  have hn : 0 < ‖c‖ := norm_pos_iff.mpr hc
  have h2 : 0 < 2 * G x - F x := by linarith
  have : 0 < 2 * ‖c‖ ^ 2 * (2 * G x - F x) := by positivity
  linarith

/-- The two coefficients of muon decay are present (an input of `GFeff`). (Specification.) -/
def MuWc (d : Inp) (CL CR : ℂ) : Prop :=
  ∃ wc, d.getWc "nunumue" = .ok wc ∧ Dict.get? wc "CVLL_numunueemu" = some CL ∧ Dict.get? wc "CVLR_numunueemu" = some CR

/-- The Standard Model coefficient for a Fermi constant `g` (specification). -/
noncomputable def cSM (g : ℝ) : ℂ := ((-4 * g / Real.sqrt 2 : ℝ) : ℂ)

theorem cSM_norm (g : ℝ) : ‖cSM g‖ ^ 2 = 8 * g ^ 2 := by
  unfold cSM
  rw [Complex.norm_real, Real.norm_eq_abs, sq_abs, div_pow, Real.sq_sqrt (by norm_num)]
  ring

theorem gfEff_eq (d : Inp) (CL CR : ℂ) (h : MuWc d CL CR) :
    gfEff d = (pyDiv (brF (d.me ^ 2 / d.mmu ^ 2) (CL + cSM d.GF) CR) (brF (d.me ^ 2 / d.mmu ^ 2) (cSM d.GF) 0) >>= fun r =>
      pySqrt r >>= fun s => pyDiv d.GF s) := by
  obtain ⟨wc, h1, h2, h3⟩ := h
  have e1 : Dict.getItem wc "CVLL_numunueemu" = .ok CL := by unfold Dict.getItem; rw [h2]
  have e2 : Dict.getItem wc "CVLR_numunueemu" = .ok CR := by unfold Dict.getItem; rw [h3]
  unfold gfEff
  rw [h1]
  show (Dict.getItem wc "CVLL_numunueemu" >>= _) = _
  rw [e1]
  show (Dict.getItem wc "CVLR_numunueemu" >>= _) = _
  rw [e2]
  rfl

/-- **C95 (effective Fermi constant).** For `0 < m_e < m_mu` and `GF > 0`: if the muon rate with new physics is positive,
the result is the positive number by which the measured constant is rescaled so that `GFeff² · rate(NP+SM) = GF² ·
rate(SM)`; without new physics it is the measured constant; with a left-handed coefficient alone it is
`GF · |C_SM| / |C_SM + CL|`; and if the rate comes out negative, `ValueError` (zero: `ZeroDivisionError`). -/
theorem C95_GFeff (d : Inp) (CL CR : ℂ) (h : MuWc d CL CR) (hm : 0 < d.me) (hmm : d.me < d.mmu) (hG : 0 < d.GF) :
    let x := d.me ^ 2 / d.mmu ^ 2
    (0 < brF x (CL + cSM d.GF) CR → ∃ g, gfEff d = .ok g ∧ 0 < g ∧
      g ^ 2 * brF x (CL + cSM d.GF) CR = d.GF ^ 2 * brF x (cSM d.GF) 0) ∧
    (CL = 0 → CR = 0 → gfEff d = .ok d.GF) ∧
    (CR = 0 → CL + cSM d.GF ≠ 0 → gfEff d = .ok (d.GF * (‖cSM d.GF‖ / ‖CL + cSM d.GF‖))) ∧
    (brF x (CL + cSM d.GF) CR < 0 → gfEff d = .error .valueError) ∧
    (brF x (CL + cSM d.GF) CR = 0 → gfEff d = .error .zeroDivisionError) := by
  intro x
  have hmu : 0 < d.mmu := hm.trans hmm
  have x0 : 0 < x := by positivity
  have x1 : x < 1 := by
    show d.me ^ 2 / d.mmu ^ 2 < 1
    rw [div_lt_one (by positivity)]
    exact pow_lt_pow_left₀ hmm hm.le (by norm_num)
  have hF := F_pos x x0 x1
  have hs : brF x (cSM d.GF) 0 = F x * (8 * d.GF ^ 2) := by rw [brF_zero, cSM_norm]
  have hs0 : 0 < brF x (cSM d.GF) 0 := by rw [hs]; positivity
  have hg : gfEff d = (pySqrt (brF x (CL + cSM d.GF) CR / brF x (cSM d.GF) 0) >>= fun s => pyDiv d.GF s) := by
    rw [gfEff_eq d CL CR h]
    have : pyDiv (brF x (CL + cSM d.GF) CR) (brF x (cSM d.GF) 0)
      = .ok (brF x (CL + cSM d.GF) CR / brF x (cSM d.GF) 0) := by unfold pyDiv; rw [if_neg hs0.ne']
    show (pyDiv (brF x (CL + cSM d.GF) CR) (brF x (cSM d.GF) 0) >>= _) = _
    rw [this]; rfl
  have main : 0 < brF x (CL + cSM d.GF) CR →
      gfEff d = .ok (d.GF / Real.sqrt (brF x (CL + cSM d.GF) CR / brF x (cSM d.GF) 0)) := by
    intro hp
    rw [hg, pySqrt_nonneg (by positivity)]
    show pyDiv _ _ = _
    unfold pyDiv
    rw [if_neg (by positivity)]
  refine ⟨fun hp => ⟨_, main hp, by positivity, ?_⟩, fun h1 h2 => ?_, fun h2 hne => ?_, fun hn => ?_, fun hz => ?_⟩
  · rw [div_pow, Real.sq_sqrt (by positivity)]
    field_simp
  · subst h1 h2
    rw [main (by rw [zero_add]; exact hs0), zero_add, div_self hs0.ne', Real.sqrt_one, div_one]
  · subst h2
    have hn : 0 < ‖CL + cSM d.GF‖ := norm_pos_iff.mpr hne
    rw [main (by rw [brF_zero]; positivity), brF_zero, brF_zero, mul_div_mul_left _ _ hF.ne', ← div_pow,
      Real.sqrt_sq (by positivity), div_div_eq_mul_div, mul_div_assoc]
  · rw [hg]
    have : pySqrt (brF x (CL + cSM d.GF) CR / brF x (cSM d.GF) 0) = .error .valueError := by
      unfold pySqrt; rw [if_pos (div_neg_of_neg_of_pos hn hs0)]
    rw [this]; rfl
  · rw [hg, hz, zero_div, pySqrt_nonneg le_rfl, Real.sqrt_zero]
    show pyDiv _ _ = _
    unfold pyDiv; rw [if_pos rfl]

/-- **C95 (finding).** New physics in the right-handed coefficient of muon decay as large as the Standard Model one makes
`GFeff` raise `ValueError`, whatever the Fermi constant, for the physical mass ratio. -/
theorem C95_GFeff_domain_error (d : Inp) (h : MuWc d 0 (cSM d.GF)) (hm : 0 < d.me) (hmm : 16 * d.me ≤ d.mmu) (hG : 0 < d.GF) :
    gfEff d = .error .valueError := by
  have hmu : 0 < d.mmu := by linarith
  refine (C95_GFeff d 0 (cSM d.GF) h hm (by linarith) hG).2.2.2.1 ?_
  rw [zero_add]
  refine C95_negative_rate _ _ (by positivity) ?_ ?_
  · rw [div_le_iff₀ (by positivity)]
    have : (16 * d.me) ^ 2 ≤ d.mmu ^ 2 := pow_le_pow_left₀ (by positivity) hmm 2
    linarith
  · intro h0
    have := cSM_norm d.GF
    rw [h0] at this
    simp at this
    linarith

/-- All coefficients of the tau sectors are present; `c lep nu1 nu2` are the values for the tau going into `lep`, the
neutrino `nu1` and the antineutrino `nu2`, either listed directly or as the conjugate transition (specification). -/
def TauWc (d : Inp) (lep : String) (c : String → String → ℂ × ℂ) : Prop :=
  ∃ sec wc, sector lep = .ok sec ∧ d.getWc sec = .ok wc ∧ ∀ n1 ∈ flavs, ∀ n2 ∈ flavs,
    (Dict.get? wc ("CVLL_nu" ++ n2 ++ "nu" ++ n1 ++ "tau" ++ lep) = some (c n1 n2).1 ∧
      Dict.get? wc ("CVLR_nu" ++ n2 ++ "nu" ++ n1 ++ "tau" ++ lep) = some (c n1 n2).2) ∨
    (Dict.get? wc ("CVLL_nu" ++ n2 ++ "nu" ++ n1 ++ "tau" ++ lep) = none ∧
      Dict.get? wc ("CVLL_nu" ++ n1 ++ "nu" ++ n2 ++ lep ++ "tau") = some ((starRingEnd ℂ) (c n1 n2).1) ∧
      Dict.get? wc ("CVLR_nu" ++ n1 ++ "nu" ++ n2 ++ lep ++ "tau") = some ((starRingEnd ℂ) (c n1 n2).2))

theorem coeffs_ok (wc : Dict String ℂ) (lep n1 n2 : String) (a b : ℂ)
    (h : (Dict.get? wc ("CVLL_nu" ++ n2 ++ "nu" ++ n1 ++ "tau" ++ lep) = some a ∧
      Dict.get? wc ("CVLR_nu" ++ n2 ++ "nu" ++ n1 ++ "tau" ++ lep) = some b) ∨
    (Dict.get? wc ("CVLL_nu" ++ n2 ++ "nu" ++ n1 ++ "tau" ++ lep) = none ∧
      Dict.get? wc ("CVLL_nu" ++ n1 ++ "nu" ++ n2 ++ lep ++ "tau") = some ((starRingEnd ℂ) a) ∧
      Dict.get? wc ("CVLR_nu" ++ n1 ++ "nu" ++ n2 ++ lep ++ "tau") = some ((starRingEnd ℂ) b))) :
    coeffs wc lep n1 n2 = .ok (a, b) := by
  have e1 : ∀ p q r s : String, p ++ ("nu" ++ q ++ "nu" ++ r ++ "tau" ++ s) = p ++ "nu" ++ q ++ "nu" ++ r ++ "tau" ++ s := by
    intros; simp [String.append_assoc]
  have e2 : ∀ p q r s : String, p ++ ("nu" ++ q ++ "nu" ++ r ++ s ++ "tau") = p ++ "nu" ++ q ++ "nu" ++ r ++ s ++ "tau" := by
    intros; simp [String.append_assoc]
  have l1 : "CVLL_" ++ "nu" = "CVLL_nu" := by decide +kernel
  have l2 : "CVLR_" ++ "nu" = "CVLR_nu" := by decide +kernel
  unfold coeffs Dict.getItem
  simp only [e1, e2, l1, l2]
  rcases h with ⟨h1, h2⟩ | ⟨h1, h2, h3⟩
  · rw [h1, h2]
  · rw [h1, h2, h3]
    show Except.ok _ = _
    simp

/-- **C95 (sum over neutrinos).** For e and mu, with all coefficients present: the branching ratio is a prefactor times
the sum of nine rate functions; the Standard Model amplitude, with the effective Fermi constant, is in the one with the
tau neutrino and the antineutrino of the charged lepton. -/
theorem C95_sum (d : Inp) (lep : String) (hl : lep = "e" ∨ lep = "mu") (c : String → String → ℂ × ℂ) (h : TauWc d lep c)
    (g : ℝ) (hg : gfEff d = .ok g) :
    br d lep = .ok (pre d * ((flavs.map fun n1 => (flavs.map fun n2 =>
      brF (massOf d lep ^ 2 / d.mtau ^ 2) ((c n1 n2).1 + if n1 = "tau" ∧ n2 = lep then cSM g else 0) (c n1 n2).2).sum).sum)) := by
  obtain ⟨sec, wc, h1, h2, h3⟩ := h
  have one : ∀ n1 ∈ flavs, ∀ n2 ∈ flavs, brNu d lep n1 n2 = .ok (pre d * brF (massOf d lep ^ 2 / d.mtau ^ 2)
      ((c n1 n2).1 + if n1 = "tau" ∧ n2 = lep then cSM g else 0) (c n1 n2).2) := by
    intro n1 m1 n2 m2
    have hc := coeffs_ok wc lep n1 n2 (c n1 n2).1 (c n1 n2).2 (h3 n1 m1 n2 m2)
    have hs : smCL d lep n1 n2 = .ok (if n1 = "tau" ∧ n2 = lep then cSM g else 0) := by
      unfold smCL
      split_ifs
      · rw [hg]; rfl
      · rfl
    unfold brNu
    rw [h1]
    show (d.getWc sec >>= _) = _
    rw [h2]
    show (coeffs wc lep n1 n2 >>= _) = _
    rw [hc]
    show (smCL d lep n1 n2 >>= _) = _
    rw [hs]
    rfl
  unfold br
  have me : "e" ∈ flavs := by simp [flavs]
  have mm : "mu" ∈ flavs := by simp [flavs]
  have mt : "tau" ∈ flavs := by simp [flavs]
  have hp : pairs = [("e", "e"), ("e", "mu"), ("e", "tau"), ("mu", "e"), ("mu", "mu"), ("mu", "tau"), ("tau", "e"),
    ("tau", "mu"), ("tau", "tau")] := rfl
  rw [hp]
  simp only [List.mapM_cons, List.mapM_nil]
  rw [one _ me _ me, one _ me _ mm, one _ me _ mt, one _ mm _ me, one _ mm _ mm, one _ mm _ mt, one _ mt _ me,
    one _ mt _ mm, one _ mt _ mt]
  show Except.ok _ = _
  simp only [flavs, List.map, List.sum_cons, List.sum_nil]
  congr 1
  ring

/-- **C95 (Standard Model).** Without new physics the branching ratio is the prefactor times `8 GF² F(m_l²/m_tau²)`: the
ratio of the muonic to the electronic mode is the ratio of the phase space functions. -/
theorem C95_standard_model (d : Inp) (lep : String) (hl : lep = "e" ∨ lep = "mu") (h : TauWc d lep fun _ _ => (0, 0))
    (hmu : MuWc d 0 0) (hm : 0 < d.me) (hmm : d.me < d.mmu) (hG : 0 < d.GF) :
    br d lep = .ok (pre d * (8 * d.GF ^ 2 * F (massOf d lep ^ 2 / d.mtau ^ 2))) := by
  have hg := (C95_GFeff d 0 0 hmu hm hmm hG).2.1 rfl rfl
  rw [C95_sum d lep hl _ h d.GF hg]
  congr 2
  have z : ∀ x, brF x 0 0 = 0 := fun x => by simp [brF]
  have zz : ∀ x, brF x (cSM d.GF) 0 = 8 * d.GF ^ 2 * F x := fun x => by rw [brF_zero, cSM_norm]; ring
  rcases hl with rfl | rfl <;> simp [flavs, z, zz]

/-- **C95 (errors).** A lepton other than e and mu gives `UnboundLocalError`; an exception of `get_wc` is passed on. -/
theorem C95_errors (d : Inp) (lep : String) :
    (lep ≠ "e" → lep ≠ "mu" → br d lep = .error .unboundLocalError) ∧
    (∀ sec e, sector lep = .ok sec → d.getWc sec = .error e → br d lep = .error e) := by
  have hp : pairs = ("e", "e") :: [("e", "mu"), ("e", "tau"), ("mu", "e"), ("mu", "mu"), ("mu", "tau"), ("tau", "e"),
    ("tau", "mu"), ("tau", "tau")] := rfl
  constructor
  · intro h1 h2
    have : brNu d lep "e" "e" = .error .unboundLocalError := by
      unfold brNu sector; rw [if_neg h1, if_neg h2]; rfl
    unfold br
    rw [hp, List.mapM_cons, this]
    rfl
  · intro sec e hs he
    have : brNu d lep "e" "e" = .error e := by
      unfold brNu; rw [hs]
      show (d.getWc sec >>= _) = _
      rw [he]; rfl
    unfold br
    rw [hp, List.mapM_cons, this]
    rfl

/-- A dictionary with every coefficient of the tau to electron sector, all zero (for the examples). -/
noncomputable def zeroWc (lep : String) : Dict String ℂ :=
  (pairs.map fun p => ("CVLL_nu" ++ p.2 ++ "nu" ++ p.1 ++ "tau" ++ lep, (0 : ℂ)))
    ++ (pairs.map fun p => ("CVLR_nu" ++ p.2 ++ "nu" ++ p.1 ++ "tau" ++ lep, (0 : ℂ)))

/-- Sample inputs. (Specification.) -/
noncomputable def sample : Inp where
  me := 1
  mmu := 200
  mtau := 3500
  GF := 1
  tauTau := 1
  alphaE := 0
  getWc := fun s => if s = "nunumue" then .ok [("CVLL_numunueemu", 0), ("CVLR_numunueemu", 0)] else
    if s = "nunutaue" then .ok (zeroWc "e") else .ok (zeroWc "mu")

/-- Non-vacuity: the sample inputs meet the hypotheses of `C95_standard_model`; an input with a right-handed coefficient
meets those of `C95_GFeff_domain_error`. -/
example : br sample "e" = .ok (pre sample * (8 * 1 ^ 2 * F (1 ^ 2 / 3500 ^ 2))) ∧
    gfEff { sample with getWc := fun _ => .ok [("CVLL_numunueemu", 0), ("CVLR_numunueemu", cSM 1)] } = .error .valueError := by
  constructor
  · refine (C95_standard_model sample "e" (Or.inl rfl) ?_ ?_ ?_ ?_ ?_).trans ?_
    · refine ⟨"nunutaue", zeroWc "e", rfl, ?_, ?_⟩
      · simp [sample]
      · intro n1 h1 n2 h2
        left
        have key : ∀ n1 ∈ flavs, ∀ n2 ∈ flavs,
            ("CVLL_nu" ++ n2 ++ "nu" ++ n1 ++ "tau" ++ "e") ∈ Dict.keys (zeroWc "e") ∧
            ("CVLR_nu" ++ n2 ++ "nu" ++ n1 ++ "tau" ++ "e") ∈ Dict.keys (zeroWc "e") := by
          have hk : Dict.keys (zeroWc "e") = (pairs.map fun p => "CVLL_nu" ++ p.2 ++ "nu" ++ p.1 ++ "tau" ++ "e")
              ++ (pairs.map fun p => "CVLR_nu" ++ p.2 ++ "nu" ++ p.1 ++ "tau" ++ "e") := by
            simp [Dict.keys, zeroWc, Function.comp_def]
          rw [hk]
          decide +kernel
        have z : ∀ k, k ∈ Dict.keys (zeroWc "e") → Dict.get? (zeroWc "e") k = some 0 := by
          intro k hk
          obtain ⟨v, hv⟩ := Option.isSome_iff_exists.mp ((Dict.get?_isSome_iff _ _).2 hk)
          have := Dict.mem_of_get? hv
          rw [hv]
          simp only [zeroWc, List.mem_append, List.mem_map, Prod.mk.injEq] at this
          rcases this with ⟨_, _, _, h⟩ | ⟨_, _, _, h⟩ <;> rw [h]
        exact ⟨z _ (key n1 h1 n2 h2).1, z _ (key n1 h1 n2 h2).2⟩
    · exact ⟨_, rfl, rfl, rfl⟩
    · norm_num [sample]
    · norm_num [sample]
    · norm_num [sample]
    · simp [sample, massOf]
  · refine C95_GFeff_domain_error _ ⟨_, rfl, rfl, rfl⟩ ?_ ?_ ?_ <;> norm_num [sample]

end Verif.Tau
