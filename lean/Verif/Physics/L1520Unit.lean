import Verif.Physics.AngularUnit
import Verif.Physics.L1520.Model
import Mathlib.Tactic.FieldSimp
import Mathlib.Tactic.Positivity
/-!
# The unit of energy: `Λb → Λ(1520) l l`

Continues `AngularUnit.lean`: `flavio/physics/bdecays/lambdablambda1520ll.py` and the two sets of form factors of
`flavio/physics/bdecays/formfactors/lambdab_32`.
-/
set_option linter.unusedVariables false
set_option linter.unusedSimpArgs false
namespace Verif.EnergyUnit
open Verif.Common Verif.Angular Verif.L1520 Verif.Py Verif.Running Complex

/-- Form factors in the new unit: those with indices `0` and `perp` are inverse energies, the vector and axial ones with index
`g` are pure numbers, the tensor ones with index `g` are energies (specification). -/
noncomputable def ffL (x : ℝ) (f : FF) : FF :=
  { fV0 := f.fV0 / x, fVperp := f.fVperp / x, fVg := f.fVg, fA0 := f.fA0 / x, fAperp := f.fAperp / x, fAg := f.fAg
    fT0 := f.fT0 / x, fTperp := f.fTperp / x, fTg := x * f.fTg, fT50 := f.fT50 / x, fT5perp := f.fT5perp / x, fT5g := x * f.fT5g }

/-- The inputs in the new unit; the factor `n0` contains the Fermi constant (specification). -/
noncomputable def l1520 (x : ℝ) (d : L1520.Inp) : L1520.Inp where
  mLb := x * d.mLb
  mL := x * d.mL
  ml := x * d.ml
  mb := x * d.mb
  tau := d.tau / x
  brNK := d.brNK
  n0 := d.n0 / (x : ℂ) ^ 2
  wc q2 := d.wc (q2 / x ^ 2)
  wcb q2 := d.wcb (q2 / x ^ 2)
  ff q2 := ffL x (d.ff (q2 / x ^ 2))

theorem helAmps1520_unit {x : ℝ} (hx : 0 < x) (q2 mLb mL : ℝ) (f : FF) :
    helAmps (x ^ 2 * q2) (x * mLb) (x * mL) (ffL x f) =
      let h := helAmps q2 mLb mL f
      { v0 := x * h.v0, v1 := x * h.v1, v3 := x * h.v3, a0 := x * h.a0, a1 := x * h.a1, a3 := x * h.a3
        t0 := x ^ 2 * h.t0, t1 := x ^ 2 * h.t1, t3 := x ^ 2 * h.t3, t50 := x ^ 2 * h.t50, t51 := x ^ 2 * h.t51, t53 := x ^ 2 * h.t53 } := by
  have hx' := hx.ne'
  have ep : (x * mLb + x * mL) ^ 2 - x ^ 2 * q2 = x ^ 2 * ((mLb + mL) ^ 2 - q2) := by ring
  have em : (x * mLb - x * mL) ^ 2 - x ^ 2 * q2 = x ^ 2 * ((mLb - mL) ^ 2 - q2) := by ring
  have e1 : x * mLb + x * mL = x * (mLb + mL) := by ring
  have e2 : x * mLb - x * mL = x * (mLb - mL) := by ring
  simp only [helAmps, ep, em, sqrt2 hx, ffL, HA.mk.injEq]
  generalize Real.sqrt ((mLb + mL) ^ 2 - q2) = sp
  generalize Real.sqrt ((mLb - mL) ^ 2 - q2) = sm
  generalize Real.sqrt q2 = s
  rw [e1, e2]
  generalize (mLb + mL) ^ 2 - q2 = p
  generalize (mLb - mL) ^ 2 - q2 = m
  generalize mLb + mL = P
  generalize mLb - mL = M
  refine ⟨?_, ?_, ?_, ?_, ?_, ?_, ?_, ?_, ?_, ?_, ?_, ?_⟩ <;> first | ring1 | (field_simp; done) | (field_simp; ring1)

theorem pref1520_unit {x : ℝ} (hx : 0 < x) (d : L1520.Inp) (n : ℂ) (q2 : ℝ) :
    pref (l1520 x d) (n / (x : ℂ) ^ 2) (x ^ 2 * q2) = ((x * Real.sqrt x : ℝ) : ℂ)⁻¹ * pref d n q2 := by
  have hx' := hx.ne'
  have hs : 0 < Real.sqrt x := Real.sqrt_pos.2 hx
  have hss : Real.sqrt x * Real.sqrt x = x := Real.mul_self_sqrt hx.le
  have hr : (x ^ 4 * lambdaK (d.mLb ^ 2) (d.mL ^ 2) q2) ^ (1 / 4 : ℝ) = x * lambdaK (d.mLb ^ 2) (d.mL ^ 2) q2 ^ (1 / 4 : ℝ) := by
    have hl : 0 ≤ lambdaK (d.mLb ^ 2) (d.mL ^ 2) q2 := by
      unfold lambdaK; split_ifs with h
      · exact le_rfl
      · exact not_lt.1 h
    rw [Real.mul_rpow (by positivity) hl, ← Real.rpow_natCast, ← Real.rpow_mul hx.le]
    norm_num
  have hd : Real.sqrt (3 * 2 * (x * d.mLb) ^ 3 * Real.pi ^ 5) = x * Real.sqrt x * Real.sqrt (3 * 2 * d.mLb ^ 3 * Real.pi ^ 5) := by
    rw [show 3 * 2 * (x * d.mLb) ^ 3 * Real.pi ^ 5 = x ^ 2 * (x * (3 * 2 * d.mLb ^ 3 * Real.pi ^ 5)) by ring, sqrt2 hx,
      Real.sqrt_mul hx.le]
    ring
  unfold pref
  show n / (x : ℂ) ^ 2 * ((Real.sqrt (x ^ 2 * q2) * lambdaK ((x * d.mLb) ^ 2) ((x * d.mL) ^ 2) (x ^ 2 * q2) ^ (1 / 4 : ℝ)
    / Real.sqrt (3 * 2 * (x * d.mLb) ^ 3 * Real.pi ^ 5) / 32 : ℝ) : ℂ) = _
  rw [laB_scale hx, hr, hd, sqrt2 hx]
  generalize lambdaK (d.mLb ^ 2) (d.mL ^ 2) q2 ^ (1 / 4 : ℝ) = l
  generalize Real.sqrt (3 * 2 * d.mLb ^ 3 * Real.pi ^ 5) = D
  generalize Real.sqrt q2 = s
  have hxc : (x : ℂ) ≠ 0 := by exact_mod_cast hx'
  have hsc : ((Real.sqrt x : ℝ) : ℂ) ≠ 0 := by exact_mod_cast hs.ne'
  push_cast
  rw [show (x : ℂ) * s * (x * l) / (x * (Real.sqrt x : ℝ) * D) / 32 = x ^ 2 * (x * ((Real.sqrt x : ℝ) : ℂ))⁻¹ * (s * l / D / 32) by
    rw [mul_inv]; simp only [div_eq_mul_inv, mul_inv]; ring]
  field_simp

/-- The six amplitudes of one chirality, each times a number. (Specification.) -/
noncomputable def L1520Six (k : ℂ) (a : Six) : Six := ⟨k * a.aperp1, k * a.apara1, k * a.aperp0, k * a.apara0, k * a.bperp1, k * a.bpara1⟩

theorem six_unit {x : ℝ} (hx : 0 < x) (q2 mLb mL mqh : ℝ) (f : FF) (c7pl c7mi cpl cmi N k : ℂ) :
    six (helAmps (x ^ 2 * q2) (x * mLb) (x * mL) (ffL x f)) (x ^ 2 * q2) (x * mqh) c7pl c7mi cpl cmi (k * N)
      = L1520Six (x * k) (six (helAmps q2 mLb mL f) q2 mqh c7pl c7mi cpl cmi N) := by
  have hxc : (x : ℂ) ≠ 0 := by exact_mod_cast hx.ne'
  rw [helAmps1520_unit hx]
  have e : ∀ (c : ℂ) (t : ℝ), 2 * ((x * mqh : ℝ) : ℂ) * c / ((x ^ 2 * q2 : ℝ) : ℂ) * ((x ^ 2 * t : ℝ) : ℂ) = x * (2 * mqh * c / q2 * t) := by
    intro c t
    push_cast
    rw [show 2 * ((x : ℂ) * mqh) * c / (x ^ 2 * q2) * (x ^ 2 * t) = (x ^ 2 / x ^ 2) * (x * (2 * mqh * c / q2 * t)) by
      simp only [div_eq_mul_inv, mul_inv]; ring]
    rw [div_self (pow_ne_zero 2 hxc), one_mul]
  simp only [six, L1520Six, e, Six.mk.injEq]
  refine ⟨?_, ?_, ?_, ?_, ?_, ?_⟩ <;> · push_cast; ring

/-- The angular coefficients, each times a number. (Specification.) -/
noncomputable def L1520Ls (k : ℝ) (L : Ls) : Ls :=
  ⟨k * L.c1, k * L.cc1, k * L.ss1, k * L.c2, k * L.cc2, k * L.ss2, k * L.ss3, k * L.ss4, k * L.s5, k * L.sc5, k * L.s6, k * L.sc6⟩

theorem angCoeff_unit (k : ℝ) (ta : Ta) (br : ℝ) :
    angCoeff ⟨L1520Six k ta.L, L1520Six k ta.R⟩ br = L1520Ls (k ^ 2) (angCoeff ta br) := by
  have hn : ∀ z : ℂ, ‖(k : ℂ) * z‖ ^ 2 = k ^ 2 * ‖z‖ ^ 2 := by
    intro z; rw [norm_mul, mul_pow, Complex.norm_real, Real.norm_eq_abs, sq_abs]
  have hc : ∀ z w : ℂ, (k : ℂ) * z * (starRingEnd ℂ) (k * w) = ((k ^ 2 : ℝ) : ℂ) * (z * (starRingEnd ℂ) w) := by
    intro z w; rw [map_mul, Complex.conj_ofReal]; push_cast; ring
  simp only [angCoeff, L1520Six, L1520Ls, hn, hc, Complex.re_ofReal_mul, Complex.im_ofReal_mul, Ls.mk.injEq]
  refine ⟨?_, ?_, ?_, ?_, ?_, ?_, ?_, ?_, ?_, ?_, ?_, ?_⟩ <;> ring

theorem amps_unit {x : ℝ} (hx : 0 < x) (d : L1520.Inp) (cp : Bool) (q2 : ℝ) :
    amps (l1520 x d) cp (x ^ 2 * q2) = ⟨L1520Six ((Real.sqrt x)⁻¹ : ℝ) (amps d cp q2).L, L1520Six ((Real.sqrt x)⁻¹ : ℝ) (amps d cp q2).R⟩ := by
  have hx' := hx.ne'
  have hxc : (x : ℂ) ≠ 0 := by exact_mod_cast hx'
  have hq : x ^ 2 * q2 / x ^ 2 = q2 := mul_div_cancel_left₀ _ (pow_ne_zero 2 hx')
  have hk : (x : ℂ) * ((x * Real.sqrt x : ℝ) : ℂ)⁻¹ = (((Real.sqrt x)⁻¹ : ℝ) : ℂ) := by
    push_cast
    rw [mul_inv, ← mul_assoc, mul_inv_cancel₀ hxc, one_mul]
  have hc : (starRingEnd ℂ) (d.n0 / (x : ℂ) ^ 2) = (starRingEnd ℂ) d.n0 / (x : ℂ) ^ 2 := by
    rw [map_div₀, map_pow, Complex.conj_ofReal]
  have key : ∀ (w : Wc) (n : ℂ),
      transAmps (helAmps (x ^ 2 * q2) (x * d.mLb) (x * d.mL) (ffL x (d.ff q2))) (x ^ 2 * q2) (x * d.mb) w
        (pref (l1520 x d) (n / (x : ℂ) ^ 2) (x ^ 2 * q2))
      = ⟨L1520Six ((Real.sqrt x)⁻¹ : ℝ) (transAmps (helAmps q2 d.mLb d.mL (d.ff q2)) q2 d.mb w (pref d n q2)).L,
         L1520Six ((Real.sqrt x)⁻¹ : ℝ) (transAmps (helAmps q2 d.mLb d.mL (d.ff q2)) q2 d.mb w (pref d n q2)).R⟩ := by
    intro w n
    rw [pref1520_unit hx, ← hk]
    simp only [transAmps, six_unit hx]
  unfold amps
  cases cp
  · show transAmps (helAmps (x ^ 2 * q2) (x * d.mLb) (x * d.mL) (ffL x (d.ff (x ^ 2 * q2 / x ^ 2)))) (x ^ 2 * q2) (x * d.mb)
      (d.wc (x ^ 2 * q2 / x ^ 2)) (pref (l1520 x d) (d.n0 / (x : ℂ) ^ 2) (x ^ 2 * q2)) = _
    rw [hq]; exact key _ _
  · show transAmps (helAmps (x ^ 2 * q2) (x * d.mLb) (x * d.mL) (ffL x (d.ff (x ^ 2 * q2 / x ^ 2)))) (x ^ 2 * q2) (x * d.mb)
      (d.wcb (x ^ 2 * q2 / x ^ 2)) (pref (l1520 x d) ((starRingEnd ℂ) (d.n0 / (x : ℂ) ^ 2)) (x ^ 2 * q2)) = _
    rw [hq, hc]; exact key _ _

/-- A combination of the angular coefficients of the decay and of its conjugate that scales with them. (Specification.) -/
def Linear (F : Ls → Ls → ℝ) : Prop := ∀ k L M, F (L1520Ls k L) (L1520Ls k M) = k * F L M

theorem linear_obs : Linear dG ∧ Linear L1520.flNum ∧ Linear afblNum ∧ Linear zeroNum ∧
    (∀ g : Ls → ℝ, (∀ k L, g (L1520Ls k L) = k * g L) → Linear (obsS g) ∧ Linear (obsA g)) := by
  refine ⟨?_, ?_, ?_, ?_, fun g hg => ⟨?_, ?_⟩⟩ <;> intro k L M
  · simp only [dG, L1520Ls]; ring
  · simp only [L1520.flNum, L1520Ls]; ring
  · simp only [afblNum, L1520Ls]; ring
  · simp [zeroNum]
  · simp only [obsS, hg]; ring
  · simp only [obsA, hg]; ring

theorem getObs_unit {x : ℝ} (hx : 0 < x) (d : L1520.Inp) {F : Ls → Ls → ℝ} (hF : Linear F) (q2 : ℝ) :
    getObs (l1520 x d) F (x ^ 2 * q2) = x⁻¹ * getObs d F q2 := by
  have h2 : (0 : ℝ) < x ^ 2 := by positivity
  have hi : (x ^ 2 * q2 < 4 * (l1520 x d).ml ^ 2 ∨ x ^ 2 * q2 > ((l1520 x d).mLb - (l1520 x d).mL) ^ 2)
      ↔ (q2 < 4 * d.ml ^ 2 ∨ q2 > (d.mLb - d.mL) ^ 2) := by
    show (x ^ 2 * q2 < 4 * (x * d.ml) ^ 2 ∨ (x * d.mLb - x * d.mL) ^ 2 < x ^ 2 * q2) ↔ _
    rw [← mul_sub, mul_pow, mul_pow, show 4 * (x ^ 2 * d.ml ^ 2) = x ^ 2 * (4 * d.ml ^ 2) by ring, mul_lt_mul_iff_right₀ h2,
      mul_lt_mul_iff_right₀ h2]
  have hs : ((Real.sqrt x)⁻¹) ^ 2 = x⁻¹ := by rw [inv_pow, Real.sq_sqrt hx.le]
  unfold getObs
  by_cases h : q2 < 4 * d.ml ^ 2 ∨ q2 > (d.mLb - d.mL) ^ 2
  · rw [if_pos h, if_pos (hi.2 h), mul_zero]
  · rw [if_neg h, if_neg (fun c => h (hi.1 c)), amps_unit hx, amps_unit hx, angCoeff_unit, angCoeff_unit, hF, hs]
    rfl

/-- **C165 (Λb → Λ(1520) l l).** The differential branching ratio is an inverse squared energy and its integral over a bin a
pure number; every ratio of a linear combination of angular coefficients to the rate is a pure number (the forward-backward
asymmetry, the longitudinal fraction, the CP-averaged and CP-asymmetric coefficients), with the same exceptions. -/
theorem C165_Lambda1520 {x : ℝ} (hx : 0 < x) (d : L1520.Inp) :
    (∀ q2, L1520.dbr (l1520 x d) (x ^ 2 * q2) = L1520.dbr d q2 / x ^ 2) ∧
    (∀ F, Linear F → ∀ q2, L1520.ratio (l1520 x d) F (x ^ 2 * q2) = L1520.ratio d F q2) ∧
    (∀ lo hi, 0 ≤ lo → 0 ≤ hi → ∫ q2 in (x ^ 2 * lo)..(x ^ 2 * hi), L1520.dbr (l1520 x d) q2 = ∫ q2 in lo..hi, L1520.dbr d q2) ∧
    Linear dG ∧ Linear L1520.flNum ∧ Linear afblNum ∧
    (∀ g ∈ [Ls.c1, Ls.cc1, Ls.ss1, Ls.c2, Ls.cc2, Ls.ss2, Ls.ss3, Ls.ss4, Ls.s5, Ls.sc5, Ls.s6, Ls.sc6], Linear (obsS g) ∧ Linear (obsA g)) := by
  have hx' := hx.ne'
  obtain ⟨l1, l2, l3, _, l5⟩ := linear_obs
  have hb : ∀ q2, L1520.dbr (l1520 x d) (x ^ 2 * q2) = L1520.dbr d q2 / x ^ 2 := by
    intro q2
    unfold L1520.dbr
    rw [getObs_unit hx d l1]
    show d.tau / x * _ = _
    field_simp
  refine ⟨hb, fun F hF q2 => ?_, fun lo hi hlo hhi => bin_unit hx _ _ (fun q2 _ => hb q2) lo hi hlo hhi, l1, l2, l3, fun g hg => l5 g ?_⟩
  · have hi := inv_ne_zero hx'
    unfold L1520.ratio
    rw [getObs_unit hx d hF, getObs_unit hx d l1]
    by_cases h : getObs d F q2 = 0
    · rw [if_pos h, if_pos (by rw [h, mul_zero])]
    · rw [if_neg h, if_neg (mul_ne_zero hi h)]
      unfold pyDiv
      by_cases h0 : getObs d dG q2 = 0
      · rw [if_pos h0, if_pos (by rw [h0, mul_zero])]
      · rw [if_neg h0, if_neg (mul_ne_zero hi h0), mul_div_mul_left _ _ hi]
  · intro k L
    simp only [List.mem_cons, List.not_mem_nil, or_false] at hg
    rcases hg with h | h | h | h | h | h | h | h | h | h | h | h <;> rw [h] <;> rfl

/-! ## The form factors -/

/-- **C165 (lattice form factors).** With the same fit parameters the lattice form factors have the dimensions the decay
amplitudes require, and they raise in the same cases. -/
theorem C165_Lambda1520_lattice {x : ℝ} (hx : 0 < x) (p : Latt) (q2 mLb mL : ℝ) :
    lattFF p (x ^ 2 * q2) (x * mLb) (x * mL) = (lattFF p q2 mLb mL).map (ffL x) := by
  have hx' := hx.ne'
  have hl : ∀ y : FA, lin y (x ^ 2 * q2) (x * mLb) (x * mL) = lin y q2 mLb mL := by
    intro y
    unfold lin
    congr 3
    rw [show x * mLb * (x * mLb) + x * mL * (x * mL) - x ^ 2 * q2 = x ^ 2 * (mLb * mLb + mL * mL - q2) by ring,
      show 2 * (x * mLb) * (x * mL) = x ^ 2 * (2 * mLb * mL) by ring, mul_div_mul_left _ _ (pow_ne_zero 2 hx')]
  have ep : (x * mLb + x * mL) ^ 2 - x ^ 2 * q2 = x ^ 2 * ((mLb + mL) ^ 2 - q2) := by ring
  have em : (x * mLb - x * mL) ^ 2 - x ^ 2 * q2 = x ^ 2 * ((mLb - mL) ^ 2 - q2) := by ring
  have hdiv : ∀ b : ℝ, pyDiv (x * mL) (x ^ 2 * b) = (pyDiv mL b).map (· / x) := by
    intro b
    unfold pyDiv
    by_cases hb : b = 0
    · rw [if_pos hb, if_pos (by rw [hb, mul_zero])]; rfl
    · rw [if_neg hb, if_neg (mul_ne_zero (pow_ne_zero 2 hx') hb)]
      show Except.ok _ = Except.ok _
      congr 1
      field_simp
  unfold lattFF
  simp only [ep, em, hdiv, hl]
  cases h1 : pyDiv mL ((mLb - mL) ^ 2 - q2) with
  | error e => rfl
  | ok a =>
    cases h2 : pyDiv mL ((mLb + mL) ^ 2 - q2) with
    | error e => rfl
    | ok b =>
      show Except.ok _ = Except.ok _
      congr 1
      simp only [ffL, FF.mk.injEq]
      refine ⟨?_, ?_, ?_, ?_, ?_, ?_, ?_, ?_, ?_, ?_, ?_, ?_⟩ <;> first | trivial | ring1

/-- **C165 (quark-model form factors).** The quark-model form factors have the same dimensions (away from the poles of the
expressions), the momentum is an energy, and the Gaussian factors are pure numbers. -/
theorem C165_Lambda1520_quark_model {x : ℝ} (hx : 0 < x) (f : QM) (q2 mLb mL : ℝ) (h1 : mL ≠ 0) (h2 : mLb ≠ 0)
    (hp : (mLb + mL) ^ 2 - q2 ≠ 0) (hm : (mLb - mL) ^ 2 - q2 ≠ 0) (hP : mL + mLb ≠ 0) (hM : mL - mLb ≠ 0) :
    qmFF f (x ^ 2 * q2) (x * mL) (x * mLb) = ffL x (qmFF f q2 mL mLb) ∧
    momentum (x ^ 2 * q2) (x * mL) (x * mLb) = x * momentum q2 mL mLb ∧
    (∀ a0 a2 a4 pp mq m alpha, gauss a0 (a2 / x ^ 2) (a4 / x ^ 4) (x * pp) (x * mq) (x * m) (x * alpha) = gauss a0 a2 a4 pp mq m alpha) := by
  have hx' := hx.ne'
  have p1 : mL ^ 2 + 2 * mL * mLb + mLb ^ 2 - q2 ≠ 0 := by rwa [show mL ^ 2 + 2 * mL * mLb + mLb ^ 2 - q2 = (mLb + mL) ^ 2 - q2 by ring]
  have m1 : mL ^ 2 - 2 * mL * mLb + mLb ^ 2 - q2 ≠ 0 := by rwa [show mL ^ 2 - 2 * mL * mLb + mLb ^ 2 - q2 = (mLb - mL) ^ 2 - q2 by ring]
  have m2 : (mL - mLb) ^ 2 - q2 ≠ 0 := by rwa [show (mL - mLb) ^ 2 - q2 = (mLb - mL) ^ 2 - q2 by ring]
  have p2 : (mL + mLb) ^ 2 - q2 ≠ 0 := by rwa [show (mL + mLb) ^ 2 - q2 = (mLb + mL) ^ 2 - q2 by ring]
  have e1 : (x * mL) ^ 2 + 2 * (x * mL) * (x * mLb) + (x * mLb) ^ 2 - x ^ 2 * q2 = x ^ 2 * (mL ^ 2 + 2 * mL * mLb + mLb ^ 2 - q2) := by ring
  have e2 : (x * mL) ^ 2 - 2 * (x * mL) * (x * mLb) + (x * mLb) ^ 2 - x ^ 2 * q2 = x ^ 2 * (mL ^ 2 - 2 * mL * mLb + mLb ^ 2 - q2) := by ring
  have e3 : (x * mL - x * mLb) ^ 2 - x ^ 2 * q2 = x ^ 2 * ((mL - mLb) ^ 2 - q2) := by ring
  have e4 : (x * mL + x * mLb) ^ 2 - x ^ 2 * q2 = x ^ 2 * ((mL + mLb) ^ 2 - q2) := by ring
  have e5 : x * mL + x * mLb = x * (mL + mLb) := by ring
  have e6 : x * mL - x * mLb = x * (mL - mLb) := by ring
  refine ⟨?_, ?_, ?_⟩
  · simp only [qmFF, ffL, e1, e2, e3, e4, FF.mk.injEq]
    rw [e5, e6]
    refine ⟨?_, ?_, ?_, ?_, ?_, ?_, ?_, ?_, ?_, ?_, ?_, ?_⟩ <;> first | trivial | ring1 | (field_simp; done) | (field_simp; ring1)
  · unfold momentum
    have s1 : x ^ 2 * q2 / (x * mLb) ^ 2 = q2 / mLb ^ 2 := by rw [mul_pow, mul_div_mul_left _ _ (pow_ne_zero 2 hx')]
    have s2 : x * mL / (x * mLb) = mL / mLb := mul_div_mul_left _ _ hx'
    simp only [s1, s2]
    split_ifs <;> ring
  · intro a0 a2 a4 pp mq m alpha
    unfold gauss
    congr 1
    · field_simp
    · congr 1
      rw [show -3 * (x * mq * (x * pp)) ^ 2 = x ^ 4 * (-3 * (mq * pp) ^ 2) by ring,
        show 2 * (x * m * (x * alpha)) ^ 2 = x ^ 4 * (2 * (m * alpha) ^ 2) by ring, mul_div_mul_left _ _ (pow_ne_zero 4 hx')]

end Verif.EnergyUnit
