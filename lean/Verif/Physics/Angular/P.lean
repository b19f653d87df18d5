import Mathlib.Analysis.Complex.Norm
import Mathlib.Analysis.Real.Pi.Bounds
import Mathlib.MeasureTheory.Integral.IntervalIntegral.FundThmCalculus
import Mathlib.Analysis.SpecialFunctions.Integrals.Basic
import Verif.Physics.Angular.Kinematics
/-!
# `B → P ℓ₁ ℓ₂`: angular coefficients and the observables built from them
(`flavio/physics/bdecays/angular.py`, `flavio/physics/bdecays/bpll.py`)
-/
set_option linter.unusedVariables false
namespace Verif.Angular
open Verif.Common Complex

/-- The dictionary of helicity amplitudes `h` of a `B → P` transition (keys `V A S P T Tt`).
/repo/flavio/physics/bdecays/angular.py:189-201. -/
structure AmpP where
  V : ℂ
  A : ℂ
  S : ℂ
  P : ℂ
  T : ℂ
  Tt : ℂ

/-- The coefficients `G[0], G[1], G[2]`.  /repo/flavio/physics/bdecays/angular.py:208-225. -/
structure GP where
  g0 : ℝ
  g1 : ℝ
  g2 : ℝ

/-- The angular coefficients `J['a'], J['b'], J['c']`.  /repo/flavio/physics/bdecays/angular.py:227-233. -/
structure JP where
  a : ℝ
  b : ℝ
  c : ℝ

/-- `angularcoeffs_general_Gbasis_p` without the phase-space prefactor.
/repo/flavio/physics/bdecays/angular.py:203-223. -/
noncomputable def gbasisP0 (h : AmpP) (q2 ml1 ml2 : ℝ) : GP :=
  let la := laGa q2 ml1 ml2
  let E1 := energy q2 ml1 ml2 ml1
  let E2 := energy q2 ml1 ml2 ml2
  { g0 := (4 * (E1 * E2 + ml1 * ml2) + la / (3 * q2)) * ‖h.V‖ ^ 2
      + (4 * (E1 * E2 - ml1 * ml2) + la / (3 * q2)) * ‖h.A‖ ^ 2
      + (4 * (E1 * E2 - ml1 * ml2) + la / q2) * ‖h.S‖ ^ 2
      + (4 * (E1 * E2 + ml1 * ml2) + la / q2) * ‖h.P‖ ^ 2
      + 16 * (E1 * E2 + ml1 * ml2 - la / (12 * q2)) * ‖h.Tt‖ ^ 2
      + 8 * (E1 * E2 - ml1 * ml2 - la / (12 * q2)) * ‖h.T‖ ^ 2
      + 16 * (ml1 * E2 + ml2 * E1) * (h.V * starRingEnd ℂ h.Tt).im
      + 8 * Real.sqrt 2 * (ml1 * E2 - ml2 * E1) * (h.A * starRingEnd ℂ h.T).im
    g1 := -4 * Real.sqrt la * (
      (((ml1 + ml2) / Real.sqrt q2 : ℝ) * h.V * starRingEnd ℂ h.S
        + ((ml1 - ml2) / Real.sqrt q2 : ℝ) * h.A * starRingEnd ℂ h.P).re
      - (2 * h.Tt * starRingEnd ℂ h.S + (Real.sqrt 2 : ℝ) * h.T * starRingEnd ℂ h.P).im)
    g2 := -4 * la / (3 * q2) * (‖h.V‖ ^ 2 + ‖h.A‖ ^ 2 - 2 * ‖h.T‖ ^ 2 - 4 * ‖h.Tt‖ ^ 2) }

/-- `angularcoeffs_general_Gbasis_p`: every entry times the prefactor (the quark masses passed by the caller
are not used by the function and are left out).  /repo/flavio/physics/bdecays/angular.py:203-225. -/
noncomputable def gbasisP (h : AmpP) (q2 mB mP ml1 ml2 : ℝ) : GP :=
  let f := phaseSpace (2 ^ 9 * Real.pi ^ 3) q2 mB mP ml1 ml2
  let g := gbasisP0 h q2 ml1 ml2
  { g0 := f * g.g0, g1 := f * g.g1, g2 := f * g.g2 }

/-- `angularcoeffs_general_p`.  /repo/flavio/physics/bdecays/angular.py:227-233. -/
noncomputable def angularP (h : AmpP) (q2 mB mP ml1 ml2 : ℝ) : JP :=
  let G := gbasisP h q2 mB mP ml1 ml2
  { a := G.g0 - G.g2 / 2, b := G.g1, c := 3 * G.g2 / 2 }

/-- `dGdq2` of `bpll`.  /repo/flavio/physics/bdecays/bpll.py:100-101. -/
noncomputable def dGdq2P (J : JP) : ℝ := 2 * (J.a + J.c / 3)

/-- `AFB_num`.  /repo/flavio/physics/bdecays/bpll.py:103-104. -/
def afbNumP (J : JP) : ℝ := J.b

/-- `FH_num`.  /repo/flavio/physics/bdecays/bpll.py:106-107. -/
def fhNumP (J : JP) : ℝ := 2 * (J.a + J.c)

/-- `dGdq2_cpaverage`, `AFB_cpaverage_num`, `FH_cpaverage_num`: CP average of a quantity.
/repo/flavio/physics/bdecays/bpll.py:109-118. -/
noncomputable def cpAve (f : JP → ℝ) (J Jb : JP) : ℝ := (f J + f Jb) / 2

/-- `dGdq2_cpdiff`.  /repo/flavio/physics/bdecays/bpll.py:111-112. -/
noncomputable def cpDiff (f : JP → ℝ) (J Jb : JP) : ℝ := (f J - f Jb) / 2

/-- `bpll_obs_ratio_func` at one value of q2, from the two coefficient sets (0 when the numerator is 0).
/repo/flavio/physics/bdecays/bpll.py:204-211. -/
noncomputable def ratioP (num den : JP → JP → ℝ) (J Jb : JP) : ℝ :=
  if num J Jb = 0 then 0 else num J Jb / den J Jb

/-- **Specification.** The differential rate as a function of the cosine of the lepton angle. -/
def rateP (J : JP) (x : ℝ) : ℝ := J.a + J.b * x + J.c * x ^ 2

/-! ## The distribution is a sum of squares -/

/-- The block identity: vector/scalar/tensor amplitudes in terms of the lepton-helicity amplitudes. -/
theorem block (u w v x : ℝ) (V S T : ℂ) :
    4 * (u ^ 2 * (1 - x ^ 2) + w ^ 2 * x ^ 2) * normSq V + 4 * v ^ 2 * normSq S
      + 4 * (u ^ 2 * x ^ 2 + w ^ 2 * (1 - x ^ 2)) * normSq T
      - 8 * x * (w * v) * (V * starRingEnd ℂ S).re + 8 * x * (u * v) * (T * starRingEnd ℂ S).im
      + 8 * (u * w) * (V * starRingEnd ℂ T).im
    = 4 * (1 - x ^ 2) * normSq ((u : ℂ) * V + I * (w : ℂ) * T)
      + 4 * normSq ((x * w : ℝ) * V - (v : ℂ) * S + I * (x * u : ℝ) * T) := by
  simp only [normSq_apply, add_re, add_im, sub_re, sub_im, mul_re, mul_im, conj_re, conj_im, ofReal_re,
    ofReal_im, I_re, I_im]
  ring

theorem sqrt2_mul_re (z w : ℂ) : ((Real.sqrt 2 : ℝ) * z * starRingEnd ℂ w).im
    = Real.sqrt 2 * (z * starRingEnd ℂ w).im := by
  rw [mul_assoc, Complex.re_ofReal_mul |> fun _ => Complex.im_ofReal_mul]

/-- The angular distribution without prefactor as a sum of four squared moduli. -/
theorem rateP0_sos (h : AmpP) (q2 m1 m2 : ℝ) (h1 : 0 ≤ m1) (h2 : 0 ≤ m2) (hq : 0 < q2)
    (hth : (m1 + m2) ^ 2 ≤ q2) :
    ∃ u w u' w' : ℝ, ∀ x : ℝ,
      let G := gbasisP0 h q2 m1 m2
      (G.g0 - G.g2 / 2) + G.g1 * x + (3 * G.g2 / 2) * x ^ 2
        = 4 * (1 - x ^ 2) * normSq ((u : ℂ) * h.V + I * (w : ℂ) * (2 * h.Tt))
          + 4 * normSq ((x * w : ℝ) * h.V - (u' : ℂ) * h.S + I * (x * u : ℝ) * (2 * h.Tt))
          + (4 * (1 - x ^ 2) * normSq ((u' : ℂ) * h.A + I * (w' : ℂ) * ((Real.sqrt 2 : ℝ) * h.T))
          + 4 * normSq ((x * w' : ℝ) * h.A - (u : ℂ) * h.P + I * (x * u' : ℝ) * ((Real.sqrt 2 : ℝ) * h.T))) := by
  obtain ⟨u, w, u', w', k1, k2, k3, k4, k5, k6, k7, k8, k9, k10⟩ := kinematics q2 m1 m2 h1 h2 hq hth
  refine ⟨u, w, u', w', fun x => ?_⟩
  intro G
  rw [← block u w u' x h.V h.S (2 * h.Tt), ← block u' w' u x h.A h.P ((Real.sqrt 2 : ℝ) * h.T)]
  have hr : Real.sqrt 2 ^ 2 = 2 := Real.sq_sqrt (by norm_num)
  have n1 : normSq (2 * h.Tt) = 4 * normSq h.Tt := by
    rw [map_mul]; norm_num [normSq_apply]
  have n2 : normSq ((Real.sqrt 2 : ℝ) * h.T) = 2 * normSq h.T := by
    rw [map_mul, normSq_ofReal, ← sq, hr]
  have n3 : ((Real.sqrt 2 : ℝ) * h.T * starRingEnd ℂ h.P).im = Real.sqrt 2 * (h.T * starRingEnd ℂ h.P).im :=
    sqrt2_mul_re _ _
  have n4 : (2 * h.Tt * starRingEnd ℂ h.S).im = 2 * (h.Tt * starRingEnd ℂ h.S).im := by
    rw [mul_assoc]; simp
  have n5 : (h.V * starRingEnd ℂ (2 * h.Tt)).im = 2 * (h.V * starRingEnd ℂ h.Tt).im := by
    simp [mul_im]; ring
  have n6 : (h.A * starRingEnd ℂ ((Real.sqrt 2 : ℝ) * h.T)).im = Real.sqrt 2 * (h.A * starRingEnd ℂ h.T).im := by
    simp [mul_im]; ring
  rw [n1, n2, n3, n4, n5, n6]
  have e1 : laGa q2 m1 m2 / (3 * q2) = 2 * (u ^ 2 - w ^ 2) / 3 := by rw [← k3]; field_simp
  have e2 : laGa q2 m1 m2 / (12 * q2) = (u ^ 2 - w ^ 2) / 6 := by
    rw [show (u ^ 2 - w ^ 2) / 6 = (2 * (u ^ 2 - w ^ 2)) / 12 by ring, ← k3]; field_simp
  have e3 : -4 * laGa q2 m1 m2 / (3 * q2) = -8 / 3 * (u ^ 2 - w ^ 2) := by
    rw [show -8 / 3 * (u ^ 2 - w ^ 2) = -4 / 3 * (2 * (u ^ 2 - w ^ 2)) by ring, ← k3]; field_simp
  have g1 : G.g1 = -8 * (w * u') * (h.V * starRingEnd ℂ h.S).re - 8 * (u * w') * (h.A * starRingEnd ℂ h.P).re
      + 16 * (u * u') * (h.Tt * starRingEnd ℂ h.S).im
      + 8 * (u * u') * (Real.sqrt 2 * (h.T * starRingEnd ℂ h.P).im) := by
    show -4 * Real.sqrt (laGa q2 m1 m2) * _ = _
    rw [add_re, add_im, mul_assoc ((_ : ℝ) : ℂ), mul_assoc ((_ : ℝ) : ℂ), re_ofReal_mul, re_ofReal_mul, n3, n4]
    linear_combination (-4 * (h.V * starRingEnd ℂ h.S).re) * k9 - 4 * (h.A * starRingEnd ℂ h.P).re * k10
      + 4 * (2 * (h.Tt * starRingEnd ℂ h.S).im + Real.sqrt 2 * (h.T * starRingEnd ℂ h.P).im) * k7
  have g2 : G.g2 = -8 / 3 * (u ^ 2 - w ^ 2)
      * (normSq h.V + normSq h.A - 2 * normSq h.T - 4 * normSq h.Tt) := by
    show -4 * laGa q2 m1 m2 / (3 * q2) * _ = _
    rw [e3]; simp only [Complex.sq_norm]
  have g0 : G.g0 = (2 * (u ^ 2 + w ^ 2) + 2 * (u ^ 2 - w ^ 2) / 3) * normSq h.V
      + (2 * (u' ^ 2 + w' ^ 2) + 2 * (u ^ 2 - w ^ 2) / 3) * normSq h.A
      + (2 * (u' ^ 2 + w' ^ 2) + 2 * (u ^ 2 - w ^ 2)) * normSq h.S
      + (2 * (u ^ 2 + w ^ 2) + 2 * (u ^ 2 - w ^ 2)) * normSq h.P
      + 16 * ((u ^ 2 + w ^ 2) / 2 - (u ^ 2 - w ^ 2) / 6) * normSq h.Tt
      + 8 * ((u' ^ 2 + w' ^ 2) / 2 - (u ^ 2 - w ^ 2) / 6) * normSq h.T
      + 16 * (u * w) * (h.V * starRingEnd ℂ h.Tt).im
      + 8 * Real.sqrt 2 * (u' * w') * (h.A * starRingEnd ℂ h.T).im := by
    simp only [G, gbasisP0, k3, e1, e2, k5, k6, Complex.sq_norm]
    have a1 : energy q2 m1 m2 m1 * energy q2 m1 m2 m2 + m1 * m2 = (u ^ 2 + w ^ 2) / 2 := by
      rw [k1, k2]; ring
    have a2 : energy q2 m1 m2 m1 * energy q2 m1 m2 m2 - m1 * m2 = (u' ^ 2 + w' ^ 2) / 2 := by
      rw [k1, k2]; ring
    rw [a1, a2]; ring
  rw [g0, g1, g2]
  linear_combination ((2 - 4 * x ^ 2) * normSq h.A + 2 * normSq h.S + (8 * x ^ 2 - 4) * normSq h.T) * k4

/-! ## Properties -/

/-- **C79 (positivity).** For *every* set of helicity amplitudes (vector, axial, scalar, pseudoscalar and
both tensors), every pair of lepton masses, every q² at or above threshold and every lepton angle, the
differential rate described by the returned coefficients is not negative. -/
theorem C79_distribution_nonneg (h : AmpP) (q2 mB mP m1 m2 : ℝ) (hB : 0 < mB) (h1 : 0 ≤ m1) (h2 : 0 ≤ m2)
    (hq : 0 < q2) (hth : (m1 + m2) ^ 2 ≤ q2) (x : ℝ) (hx : |x| ≤ 1) :
    0 ≤ rateP (angularP h q2 mB mP m1 m2) x := by
  obtain ⟨u, w, u', w', hs⟩ := rateP0_sos h q2 m1 m2 h1 h2 hq hth
  have hf := phaseSpace_nonneg (2 ^ 9 * Real.pi ^ 3) q2 mB mP m1 m2 (by positivity) hB hq
  have hx2 : x ^ 2 ≤ 1 := by
    rw [← sq_abs]; nlinarith [abs_nonneg x]
  have e : rateP (angularP h q2 mB mP m1 m2) x = phaseSpace (2 ^ 9 * Real.pi ^ 3) q2 mB mP m1 m2 *
      (((gbasisP0 h q2 m1 m2).g0 - (gbasisP0 h q2 m1 m2).g2 / 2) + (gbasisP0 h q2 m1 m2).g1 * x
        + (3 * (gbasisP0 h q2 m1 m2).g2 / 2) * x ^ 2) := by
    simp only [rateP, angularP, gbasisP]; ring
  rw [e]
  refine mul_nonneg hf ?_
  have := hs x
  simp only at this
  rw [this]
  have h1x : 0 ≤ 4 * (1 - x ^ 2) := by linarith
  have n := fun z : ℂ => normSq_nonneg z
  exact add_nonneg (add_nonneg (mul_nonneg h1x (n _)) (mul_nonneg (by norm_num) (n _)))
    (add_nonneg (mul_nonneg h1x (n _)) (mul_nonneg (by norm_num) (n _)))

/-- **C79 (integrals).** `dGdq2` is the integral of the distribution over all angles, `AFB_num` the forward
minus the backward integral, and `FH_num` the sum of the rates at the two end points. -/
theorem C79_integrals (J : JP) :
    dGdq2P J = ∫ x in (-1:ℝ)..1, rateP J x ∧
    afbNumP J = (∫ x in (0:ℝ)..1, rateP J x) - ∫ x in (-1:ℝ)..0, rateP J x ∧
    fhNumP J = rateP J 1 + rateP J (-1) := by
  have hint : ∀ a b : ℝ, ∫ x in a..b, rateP J x
      = J.a * (b - a) + J.b * ((b ^ 2 - a ^ 2) / 2) + J.c * ((b ^ 3 - a ^ 3) / 3) := by
    intro a b
    unfold rateP
    rw [intervalIntegral.integral_add (by apply Continuous.intervalIntegrable; fun_prop)
      (by apply Continuous.intervalIntegrable; fun_prop),
      intervalIntegral.integral_add (by apply Continuous.intervalIntegrable; fun_prop)
      (by apply Continuous.intervalIntegrable; fun_prop)]
    have hb : ∫ x in a..b, J.b * x = J.b * ((b ^ 2 - a ^ 2) / 2) := by
      rw [intervalIntegral.integral_const_mul, integral_id]
    rw [hb]
    simp only [intervalIntegral.integral_const, intervalIntegral.integral_const_mul, integral_pow, smul_eq_mul]
    push_cast; ring
  refine ⟨?_, ?_, ?_⟩
  · rw [hint]; unfold dGdq2P; ring
  · rw [hint, hint]; unfold afbNumP; ring
  · unfold fhNumP rateP; ring

/-- Coefficients whose distribution is non-negative on the whole angular range. (Specification.) -/
def Physical (J : JP) : Prop := ∀ x : ℝ, |x| ≤ 1 → 0 ≤ rateP J x

theorem physical_ineq {J : JP} (h : Physical J) :
    0 ≤ dGdq2P J ∧ |J.b| ≤ J.a + J.c ∧ 0 ≤ J.a ∧ fhNumP J ≤ 3 * dGdq2P J := by
  have p0 := h 0 (by simp)
  have p1 := h 1 (by simp)
  have p2 := h (-1) (by simp)
  unfold rateP at p0 p1 p2
  unfold dGdq2P fhNumP
  refine ⟨?_, ?_, ?_, ?_⟩
  · linarith
  · rw [abs_le]; constructor <;> linarith
  · linarith
  · linarith

/-- **C79 (bounds).** For coefficients computed from any amplitudes (and any CP-conjugate amplitudes), the
rate is not negative, and the CP-averaged observables returned to the user obey `0 ≤ F_H ≤ 3`,
`|A_FB| ≤ F_H/2` and `|A_CP| ≤ 1`. -/
theorem C79_bounds (h hb : AmpP) (q2 mB mP m1 m2 : ℝ) (hB : 0 < mB) (h1 : 0 ≤ m1) (h2 : 0 ≤ m2)
    (hq : 0 < q2) (hth : (m1 + m2) ^ 2 ≤ q2) :
    let J := angularP h q2 mB mP m1 m2
    let Jb := angularP hb q2 mB mP m1 m2
    let FH := ratioP (cpAve fhNumP) (cpAve dGdq2P) J Jb
    let AFB := ratioP (cpAve afbNumP) (cpAve dGdq2P) J Jb
    let ACP := ratioP (cpDiff dGdq2P) (cpAve dGdq2P) J Jb
    0 ≤ cpAve dGdq2P J Jb ∧ 0 ≤ FH ∧ FH ≤ 3 ∧ |AFB| ≤ FH / 2 ∧ |ACP| ≤ 1 := by
  intro J Jb FH AFB ACP
  obtain ⟨a1, a2, a3, a4⟩ := physical_ineq (J := J)
    (fun x hx => C79_distribution_nonneg h q2 mB mP m1 m2 hB h1 h2 hq hth x hx)
  obtain ⟨b1, b2, b3, b4⟩ := physical_ineq (J := Jb)
    (fun x hx => C79_distribution_nonneg hb q2 mB mP m1 m2 hB h1 h2 hq hth x hx)
  have hd : 0 ≤ cpAve dGdq2P J Jb := by unfold cpAve; linarith
  have hr : ∀ f : JP → JP → ℝ, ratioP f (cpAve dGdq2P) J Jb = f J Jb / cpAve dGdq2P J Jb := by
    intro f; unfold ratioP; split_ifs with e
    · rw [e]; simp
    · rfl
  have hF : FH = cpAve fhNumP J Jb / cpAve dGdq2P J Jb := hr _
  have hA : AFB = cpAve afbNumP J Jb / cpAve dGdq2P J Jb := hr _
  have hC : ACP = cpDiff dGdq2P J Jb / cpAve dGdq2P J Jb := hr _
  have f0 : 0 ≤ cpAve fhNumP J Jb := by
    unfold cpAve fhNumP
    have := abs_nonneg J.b; have := abs_nonneg Jb.b
    linarith
  refine ⟨hd, ?_, ?_, ?_, ?_⟩
  · rw [hF]; exact div_nonneg f0 hd
  · rw [hF]
    refine div_le_of_le_mul₀ hd (by norm_num) ?_
    unfold cpAve; linarith
  · rw [hF, hA, abs_div, abs_of_nonneg hd, div_div, mul_comm, ← div_div]
    refine div_le_div_of_nonneg_right ?_ hd
    have := abs_le.mp a2; have := abs_le.mp b2
    rw [abs_le]; unfold cpAve afbNumP fhNumP
    constructor <;> linarith
  · rw [hC, abs_div, abs_of_nonneg hd]
    refine div_le_one_of_le₀ ?_ hd
    rw [abs_le]; unfold cpDiff cpAve
    constructor <;> linarith

/-- The hypotheses are met, and the bounds are not trivial: a massless pure vector amplitude at q² = 1 gives a
distribution proportional to `1 - x²`, with a strictly positive rate. -/
example : 0 < dGdq2P (angularP ⟨1, 0, 0, 0, 0, 0⟩ 1 5 1 0 0) ∧
    fhNumP (angularP ⟨1, 0, 0, 0, 0, 0⟩ 1 5 1 0 0) = 0 := by
  have hl : laGa 1 0 0 = 1 := by unfold laGa lambdaK kallen; norm_num
  have hE : energy 1 0 0 0 = 1 / 2 := by
    unfold energy; rw [hl]
    rw [show (0:ℝ) ^ 2 + 1 / (4 * 1) = (1 / 2) ^ 2 by norm_num]
    exact Real.sqrt_sq (by norm_num)
  have hf : 0 < phaseSpace (2 ^ 9 * Real.pi ^ 3) 1 5 1 0 0 := by
    unfold phaseSpace
    rw [hl]
    have : 0 < lambdaK (5 ^ 2) (1 ^ 2) 1 := by unfold lambdaK kallen; norm_num
    positivity
  constructor
  · simp only [dGdq2P, angularP, gbasisP, gbasisP0, hl, hE]
    norm_num at hf ⊢
    linarith
  · simp only [fhNumP, angularP, gbasisP, gbasisP0, hl, hE]
    norm_num
    ring

end Verif.Angular
