import Verif.Physics.Angular.VBounds
import Verif.Physics.Angular.P
/-!
# Helicity amplitudes (`flavio/physics/bdecays/angular.py`) and effective Wilson coefficients

`1/sqrt(q2)` etc. are real divisions; the callers keep `q2 > 0` (Python raises `ZeroDivisionError` at `q2 = 0`).
-/
set_option linter.unusedVariables false
set_option linter.unusedSimpArgs false
namespace Verif.Angular
open Verif.Common Complex ComplexConjugate

/-- The dictionary of effective Wilson coefficients (keys `7 7p v vp a ap s sp p pp t tp`).
/repo/flavio/physics/bdecays/wilsoncoefficients.py:131-143. -/
structure Wc where
  c7 : ℂ
  c7p : ℂ
  v : ℂ
  vp : ℂ
  a : ℂ
  ap : ℂ
  s : ℂ
  sp : ℂ
  p : ℂ
  pp : ℂ
  t : ℂ
  tp : ℂ

/-- `B → P` form factors.  /repo/flavio/physics/bdecays/angular.py:189-201. -/
structure FFP where
  fp : ℝ
  f0 : ℝ
  fT : ℝ

/-- `B → V` form factors.  /repo/flavio/physics/bdecays/angular.py:22-38. -/
structure FFV where
  A0 : ℝ
  A1 : ℝ
  A12 : ℝ
  V : ℝ
  T1 : ℝ
  T2 : ℝ
  T23 : ℝ

/-- `{k: prefactor*v for k, v in h.items()}`.  /repo/flavio/physics/bdecays/angular.py:201. -/
def AmpP.scale (N : ℂ) (h : AmpP) : AmpP := ⟨N * h.V, N * h.A, N * h.S, N * h.P, N * h.T, N * h.Tt⟩

/-- `{k: prefactor*v for k, v in H.items()}`.  /repo/flavio/physics/bdecays/angular.py:39. -/
def AmpV.scale (N : ℂ) (H : AmpV) : AmpV :=
  ⟨N * H.plV, N * H.miV, N * H.zeV, N * H.plA, N * H.miA, N * H.zeA, N * H.plT, N * H.miT, N * H.zeT,
    N * H.plTt, N * H.miTt, N * H.zeTt, N * H.S, N * H.P⟩

/-- `helicity_amps_p` with `prefactor = 1`.  /repo/flavio/physics/bdecays/angular.py:189-200. -/
noncomputable def helP1 (q2 mB mP mqh mql ml1 ml2 : ℝ) (ff : FFP) (wc : Wc) : AmpP :=
  let laB := lambdaK (mB ^ 2) (mP ^ 2) q2
  { V := (Real.sqrt laB / (2 * Real.sqrt q2) : ℝ) * ((2 * mqh / (mB + mP) : ℝ) * (wc.c7 + wc.c7p) * (ff.fT : ℝ)
      + (wc.v + wc.vp) * (ff.fp : ℝ))
    A := (Real.sqrt laB / (2 * Real.sqrt q2) : ℝ) * (wc.a + wc.ap) * (ff.fp : ℝ)
    S := ((mB ^ 2 - mP ^ 2) / 2 * ff.f0 : ℝ) * ((wc.s + wc.sp) / (mqh - mql : ℝ) + ((ml1 - ml2) / q2 : ℝ) * (wc.v + wc.vp))
    P := ((mB ^ 2 - mP ^ 2) / 2 * ff.f0 : ℝ) * ((wc.p + wc.pp) / (mqh - mql : ℝ) + ((ml1 + ml2) / q2 : ℝ) * (wc.a + wc.ap))
    T := -I * (Real.sqrt laB / (2 * (mB + mP)) : ℝ) * (wc.t - wc.tp) * (ff.fT : ℝ)
    Tt := -I * (Real.sqrt laB / (2 * (mB + mP)) : ℝ) * (wc.t + wc.tp) * (ff.fT : ℝ) }

/-- `helicity_amps_p`.  /repo/flavio/physics/bdecays/angular.py:189-201. -/
noncomputable def helicityP (q2 mB mP mqh mql ml1 ml2 : ℝ) (ff : FFP) (wc : Wc) (N : ℂ) : AmpP :=
  (helP1 q2 mB mP mqh mql ml1 ml2 ff wc).scale N

/-- The common form of `H['pl'|'mi','V'|'A']` without dipoles: `sg` is the sign of the vector form factor.
/repo/flavio/physics/bdecays/angular.py:27-30. -/
noncomputable def transAmp (sg q2 mB mV : ℝ) (ff : FFV) (c cp : ℂ) : ℂ :=
  I / (2 * (mB + mV) : ℝ) * ((sg : ℝ) * (c + cp) * (Real.sqrt (lambdaK (mB ^ 2) (mV ^ 2) q2) : ℝ) * (ff.V : ℝ)
    - ((mB + mV) ^ 2 : ℝ) * (c - cp) * (ff.A1 : ℝ))

/-- The dipole part of `H['pl'|'mi','V']`.  /repo/flavio/physics/bdecays/angular.py:27-28. -/
noncomputable def dipAmp (sg q2 mB mV mqh : ℝ) (ff : FFV) (c cp : ℂ) : ℂ :=
  I * (mqh / q2 : ℝ) * ((sg : ℝ) * (c + cp) * (Real.sqrt (lambdaK (mB ^ 2) (mV ^ 2) q2) : ℝ) * (ff.T1 : ℝ)
    - (c - cp) * (mB ^ 2 - mV ^ 2 : ℝ) * (ff.T2 : ℝ))

/-- The bracket of the four transverse tensor amplitudes: `x` multiplies `T1`, `y` multiplies `T2`.
/repo/flavio/physics/bdecays/angular.py:35-38. -/
noncomputable def tenAmp (sg q2 mB mV : ℝ) (ff : FFV) (x y : ℂ) : ℂ :=
  (sg : ℝ) * x * (Real.sqrt (lambdaK (mB ^ 2) (mV ^ 2) q2) : ℝ) * (ff.T1 : ℝ)
    - y * (mB ^ 2 - mV ^ 2 : ℝ) * (ff.T2 : ℝ)

/-- `helicity_amps_v` with `prefactor = 1`.  /repo/flavio/physics/bdecays/angular.py:22-38. -/
noncomputable def helV1 (q2 mB mV mqh mql ml1 ml2 : ℝ) (ff : FFV) (wc : Wc) : AmpV :=
  let laB := lambdaK (mB ^ 2) (mV ^ 2) q2
  { zeV := 4 * I * (mB * mV / (Real.sqrt q2 * (mB + mV)) : ℝ) * ((wc.v - wc.vp) * (mB + mV : ℝ) * (ff.A12 : ℝ)
      + (mqh : ℝ) * (wc.c7 - wc.c7p) * (ff.T23 : ℝ))
    zeA := 4 * I * (mB * mV / Real.sqrt q2 : ℝ) * (wc.a - wc.ap) * (ff.A12 : ℝ)
    plV := transAmp 1 q2 mB mV ff wc.v wc.vp + dipAmp 1 q2 mB mV mqh ff wc.c7 wc.c7p
    miV := transAmp (-1) q2 mB mV ff wc.v wc.vp + dipAmp (-1) q2 mB mV mqh ff wc.c7 wc.c7p
    plA := transAmp 1 q2 mB mV ff wc.a wc.ap
    miA := transAmp (-1) q2 mB mV ff wc.a wc.ap
    P := I * (Real.sqrt laB / 2 : ℝ) * ((wc.p - wc.pp) / (mqh + mql : ℝ) + ((ml1 + ml2) / q2 : ℝ) * (wc.a - wc.ap)) * (ff.A0 : ℝ)
    S := I * (Real.sqrt laB / 2 : ℝ) * ((wc.s - wc.sp) / (mqh + mql : ℝ) + ((ml1 - ml2) / q2 : ℝ) * (wc.v - wc.vp)) * (ff.A0 : ℝ)
    zeT := (2 * Real.sqrt 2 * mB * mV / (mB + mV) : ℝ) * (wc.t + wc.tp) * (ff.T23 : ℝ)
    zeTt := (2 * mB * mV / (mB + mV) : ℝ) * (wc.t - wc.tp) * (ff.T23 : ℝ)
    plT := (1 / (Real.sqrt 2 * Real.sqrt q2) : ℝ) * tenAmp 1 q2 mB mV ff (wc.t - wc.tp) (wc.t + wc.tp)
    miT := (1 / (Real.sqrt 2 * Real.sqrt q2) : ℝ) * tenAmp (-1) q2 mB mV ff (wc.t - wc.tp) (wc.t + wc.tp)
    plTt := (1 / (2 * Real.sqrt q2) : ℝ) * tenAmp 1 q2 mB mV ff (wc.t + wc.tp) (wc.t - wc.tp)
    miTt := (1 / (2 * Real.sqrt q2) : ℝ) * tenAmp (-1) q2 mB mV ff (wc.t + wc.tp) (wc.t - wc.tp) }

/-- `helicity_amps_v`.  /repo/flavio/physics/bdecays/angular.py:22-39. -/
noncomputable def helicityV (q2 mB mV mqh mql ml1 ml2 : ℝ) (ff : FFV) (wc : Wc) (N : ℂ) : AmpV :=
  (helV1 q2 mB mV mqh mql ml1 ml2 ff wc).scale N

/-- The transversity amplitudes (keys `0_L 0_R para_L para_R perp_L perp_R`).
/repo/flavio/physics/bdecays/angular.py:11-19. -/
structure Trans where
  zL : ℂ
  zR : ℂ
  parL : ℂ
  parR : ℂ
  perL : ℂ
  perR : ℂ

/-- `transversity_to_helicity`; the keys it does not set (`S P` and tensors) are 0, as in the caller's sum of
dictionaries.  /repo/flavio/physics/bdecays/angular.py:11-19. -/
noncomputable def transToHel (ta : Trans) : AmpV :=
  { zeV := -I * (ta.zR + ta.zL)
    zeA := -I * (ta.zR - ta.zL)
    plV := I * ((ta.parR + ta.parL) + (ta.perR + ta.perL)) / (Real.sqrt 2 : ℝ)
    plA := I * ((ta.parR - ta.parL) + (ta.perR - ta.perL)) / (Real.sqrt 2 : ℝ)
    miV := I * ((ta.parR + ta.parL) - (ta.perR + ta.perL)) / (Real.sqrt 2 : ℝ)
    miA := I * ((ta.parR - ta.parL) - (ta.perR - ta.perL)) / (Real.sqrt 2 : ℝ)
    plT := 0, miT := 0, zeT := 0, plTt := 0, miTt := 0, zeTt := 0, S := 0, P := 0 }

/-- Multiplication of all angular coefficients by a number (specification). -/
def JV.scale (x : ℝ) (J : JV) : JV :=
  ⟨x * J.j1s, x * J.j1c, x * J.j2s, x * J.j2c, x * J.j6s, x * J.j6c, x * J.j3, x * J.j4, x * J.j5, x * J.j7, x * J.j8, x * J.j9⟩
/-- Multiplication of all angular coefficients by a number (specification). -/
def JP.scale (x : ℝ) (J : JP) : JP := ⟨x * J.a, x * J.b, x * J.c⟩

theorem cc1 (N a b : ℂ) : N * a * conj (N * b) = ((‖N‖ ^ 2 : ℝ) : ℂ) * (a * conj b) := by
  rw [Complex.sq_norm, ← mul_conj, map_mul]; ring
theorem cc2 (N k a b : ℂ) : k * (N * a) * conj (N * b) = ((‖N‖ ^ 2 : ℝ) : ℂ) * (k * a * conj b) := by
  rw [Complex.sq_norm, ← mul_conj, map_mul]; ring
theorem nrm (N a : ℂ) : ‖N * a‖ ^ 2 = ‖N‖ ^ 2 * ‖a‖ ^ 2 := by rw [norm_mul, mul_pow]

theorem angularP_scale (h : AmpP) (N : ℂ) (q2 mB mP m1 m2 : ℝ) :
    angularP (h.scale N) q2 mB mP m1 m2 = (angularP h q2 mB mP m1 m2).scale (‖N‖ ^ 2) := by
  simp only [angularP, gbasisP, gbasisP0, AmpP.scale, JP.scale, cc1, cc2, nrm, JP.mk.injEq, add_re, add_im,
    re_ofReal_mul, im_ofReal_mul]
  refine ⟨?_, ?_, ?_⟩ <;> ring

theorem gbasisV0_scale (H : AmpV) (N : ℂ) (q2 m1 m2 : ℝ) :
    gbasisV0 (H.scale N) q2 m1 m2 = (gbasisV0 H q2 m1 m2).scale (‖N‖ ^ 2) := by
  simp only [gbasisV0, GV.scale, g000, g010, g020, g200, g210, g220, g211, g221, g222, AmpV.scale, cc1, cc2, nrm,
    GV.mk.injEq, add_re, add_im, sub_re, sub_im, re_ofReal_mul, im_ofReal_mul]
  refine ⟨?_, ?_, ?_, ?_, ?_, ?_, ?_, ?_, ?_⟩ <;> ring

theorem angularV_scale (H : AmpV) (N : ℂ) (q2 mB mV m1 m2 : ℝ) :
    angularV (H.scale N) q2 mB mV m1 m2 = (angularV H q2 mB mV m1 m2).scale (‖N‖ ^ 2) := by
  unfold angularV gbasisV
  rw [gbasisV0_scale]
  simp only [GV.scale, gToG, signflip, JV.scale, JV.mk.injEq, re_ofReal_mul, im_ofReal_mul]
  refine ⟨?_, ?_, ?_, ?_, ?_, ?_, ?_, ?_, ?_, ?_, ?_, ?_⟩ <;> ring

/-- **C91 (prefactor).** Multiplying the prefactor of the amplitudes by `N` multiplies every angular coefficient — and
hence every rate — by `|N|²`: CKM elements and couplings in the prefactor enter only through their modulus, and an
overall phase is unobservable. -/
theorem C91_prefactor (q2 mB m mqh mql ml1 ml2 : ℝ) (fp : FFP) (fv : FFV) (wc : Wc) (N : ℂ) :
    angularP (helicityP q2 mB m mqh mql ml1 ml2 fp wc N) q2 mB m ml1 ml2
      = (angularP (helicityP q2 mB m mqh mql ml1 ml2 fp wc 1) q2 mB m ml1 ml2).scale (‖N‖ ^ 2) ∧
    angularV (helicityV q2 mB m mqh mql ml1 ml2 fv wc N) q2 mB m ml1 ml2
      = (angularV (helicityV q2 mB m mqh mql ml1 ml2 fv wc 1) q2 mB m ml1 ml2).scale (‖N‖ ^ 2) ∧
    (∀ ph : ℝ, angularP (helicityP q2 mB m mqh mql ml1 ml2 fp wc (N * exp (ph * I))) q2 mB m ml1 ml2
        = angularP (helicityP q2 mB m mqh mql ml1 ml2 fp wc N) q2 mB m ml1 ml2 ∧
      angularV (helicityV q2 mB m mqh mql ml1 ml2 fv wc (N * exp (ph * I))) q2 mB m ml1 ml2
        = angularV (helicityV q2 mB m mqh mql ml1 ml2 fv wc N) q2 mB m ml1 ml2) := by
  have eP : ∀ N, angularP (helicityP q2 mB m mqh mql ml1 ml2 fp wc N) q2 mB m ml1 ml2
      = (angularP (helicityP q2 mB m mqh mql ml1 ml2 fp wc 1) q2 mB m ml1 ml2).scale (‖N‖ ^ 2) := by
    intro N
    unfold helicityP
    rw [angularP_scale, angularP_scale]
    simp [JP.scale]
  have eV : ∀ N, angularV (helicityV q2 mB m mqh mql ml1 ml2 fv wc N) q2 mB m ml1 ml2
      = (angularV (helicityV q2 mB m mqh mql ml1 ml2 fv wc 1) q2 mB m ml1 ml2).scale (‖N‖ ^ 2) := by
    intro N
    unfold helicityV
    rw [angularV_scale, angularV_scale]
    simp [JV.scale]
  refine ⟨eP N, eV N, fun ph => ⟨?_, ?_⟩⟩
  · rw [eP, eP N, norm_mul, norm_exp_ofReal_mul_I, mul_one]
  · rw [eV, eV N, norm_mul, norm_exp_ofReal_mul_I, mul_one]

/-- Exchange of every coefficient with its chirality-flipped partner (specification). -/
def Wc.flip (w : Wc) : Wc := ⟨w.c7p, w.c7, w.vp, w.v, w.ap, w.a, w.sp, w.s, w.pp, w.p, w.tp, w.t⟩

/-- The effect of a quark-parity transformation on the vector-meson amplitudes (specification). -/
def AmpV.parity (H : AmpV) : AmpV :=
  ⟨-H.miV, -H.plV, -H.zeV, -H.miA, -H.plA, -H.zeA, H.miT, H.plT, H.zeT, -H.miTt, -H.plTt, -H.zeTt, -H.S, -H.P⟩

/-- **C91 (parity of the amplitudes).** Flipping the chirality of all quark currents exchanges the two transverse
helicities and flips signs of the vector-meson amplitudes as parity demands; the pseudoscalar amplitudes do not
change, except `T`, which changes sign. -/
theorem C91_parity_amplitudes (q2 mB m mqh mql ml1 ml2 : ℝ) (fp : FFP) (fv : FFV) (wc : Wc) (N : ℂ) :
    helicityV q2 mB m mqh mql ml1 ml2 fv wc.flip N = (helicityV q2 mB m mqh mql ml1 ml2 fv wc N).parity ∧
    helicityP q2 mB m mqh mql ml1 ml2 fp wc.flip N
      = { helicityP q2 mB m mqh mql ml1 ml2 fp wc N with T := -(helicityP q2 mB m mqh mql ml1 ml2 fp wc N).T } := by
  constructor
  · simp only [helicityV, helV1, AmpV.scale, AmpV.parity, Wc.flip, transAmp, dipAmp, tenAmp, AmpV.mk.injEq]
    push_cast
    refine ⟨?_, ?_, ?_, ?_, ?_, ?_, ?_, ?_, ?_, ?_, ?_, ?_, ?_, ?_⟩ <;> ring
  · simp only [helicityP, helP1, AmpP.scale, Wc.flip, AmpP.mk.injEq]
    push_cast
    refine ⟨?_, ?_, ?_, ?_, ?_, ?_⟩ <;> ring

/-- The signs of the angular coefficients under quark parity: `6s 5 8 9` are odd (specification). -/
def JV.parity (J : JV) : JV :=
  { J with j6s := -J.j6s, j5 := -J.j5, j8 := -J.j8, j9 := -J.j9 }

/-- **C91 (parity of the observables).** In the decay to a lepton and its antiparticle, without scalar and tensor
coefficients: flipping the chirality of all coefficients leaves the rate and `J1s J1c J2s J2c J3 J4 J7` unchanged (so
`F_L`, `P₁`, `P₄'` do not distinguish the two chiralities) and changes the sign of `J6s J5 J8 J9` (so `A_FB`, `P₂`, `P₅'`
do). -/
theorem C91_parity_observables (q2 mB mV mqh mql ml : ℝ) (ff : FFV) (wc : Wc) (N : ℂ)
    (hs : wc.s = wc.sp) (ht : wc.t = 0) (htp : wc.tp = 0) :
    let J := angularV (helicityV q2 mB mV mqh mql ml ml ff wc N) q2 mB mV ml ml
    let J' := angularV (helicityV q2 mB mV mqh mql ml ml ff wc.flip N) q2 mB mV ml ml
    J' = J.parity ∧ dGdq2 J' = dGdq2 J := by
  intro J J'
  set H := helicityV q2 mB mV mqh mql ml ml ff wc N with hH
  have n : NoTensor H := by
    constructor <;> simp [hH, helicityV, helV1, AmpV.scale, tenAmp, ht, htp]
  have hS : H.S = 0 := by simp [hH, helicityV, helV1, AmpV.scale, hs]
  have e : J' = angularV H.parity q2 mB mV ml ml := by
    show angularV _ _ _ _ _ _ = _
    rw [(C91_parity_amplitudes q2 mB mV mqh mql ml ml ⟨0, 0, 0⟩ ff wc N).1]
  have key : J' = J.parity := by
    rw [e]
    show _ = JV.parity (angularV H q2 mB mV ml ml)
    obtain ⟨a1, a2, a3, b1, b2, b3⟩ := n
    simp only [angularV, JV.parity, signflip, gToG, gbasisV, GV.scale, gbasisV0, g000, g010, g020, g200, g210, g220,
      g211, g221, g222, AmpV.parity, a1, a2, a3, b1, b2, b3, hS, JV.mk.injEq, norm_neg, norm_zero, map_neg, map_zero,
      mul_zero, zero_mul, neg_mul, mul_neg, neg_neg, neg_zero, sub_self, add_zero, zero_add, sub_zero, zero_div,
      ofReal_zero, re_ofReal_mul, im_ofReal_mul, add_re, add_im, sub_re, sub_im, mul_re, mul_im, conj_re, conj_im,
      neg_re, neg_im, zero_re, zero_im, ofReal_re, ofReal_im]
    refine ⟨?_, ?_, ?_, ?_, ?_, ?_, ?_, ?_, ?_, ?_, ?_, ?_⟩ <;> ring
  refine ⟨key, ?_⟩
  rw [key]; simp [dGdq2, JV.parity]

/-- **C91 (transversity basis).** The change of basis keeps the longitudinal, parallel and perpendicular intensities
(twice the sum over the two lepton chiralities), and it is injective. -/
theorem C91_transversity (ta : Trans) :
    let H := transToHel ta
    normSq H.zeV + normSq H.zeA = 2 * (normSq ta.zR + normSq ta.zL) ∧
    normSq H.plV + normSq H.miV + normSq H.plA + normSq H.miA
      = 2 * (normSq ta.parR + normSq ta.parL + normSq ta.perR + normSq ta.perL) ∧
    normSq (H.plV + H.miV) + normSq (H.plA + H.miA) = 4 * (normSq ta.parR + normSq ta.parL) ∧
    normSq (H.plV - H.miV) + normSq (H.plA - H.miA) = 4 * (normSq ta.perR + normSq ta.perL) ∧
    (∀ tb : Trans, transToHel tb = H → tb = ta) := by
  intro H
  have s2 : Real.sqrt 2 ^ 2 = 2 := Real.sq_sqrt (by norm_num)
  have c2 : ((Real.sqrt 2 : ℝ) : ℂ) ≠ 0 := by
    rw [ofReal_ne_zero]; positivity
  have n2 : normSq ((Real.sqrt 2 : ℝ) : ℂ) = 2 := by rw [normSq_ofReal, ← sq, s2]
  have par : ∀ x y : ℂ, normSq (x + y) + normSq (x - y) = 2 * (normSq x + normSq y) := by
    intro x y; simp only [normSq_apply, add_re, add_im, sub_re, sub_im]; ring
  have nI : ∀ z : ℂ, normSq (I * z / (Real.sqrt 2 : ℝ)) = normSq z / 2 := by
    intro z; rw [normSq_div, n2, normSq_mul, normSq_I, one_mul]
  have nJ : ∀ z : ℂ, normSq (-I * z) = normSq z := by
    intro z; rw [normSq_mul, normSq_neg, normSq_I, one_mul]
  refine ⟨?_, ?_, ?_, ?_, ?_⟩
  · simp only [H, transToHel, nJ, par]
  · simp only [H, transToHel, nI]
    have h1 := par (ta.parR + ta.parL) (ta.perR + ta.perL)
    have h2 := par (ta.parR - ta.parL) (ta.perR - ta.perL)
    have h3 := par ta.parR ta.parL
    have h4 := par ta.perR ta.perL
    linarith
  · have e1 : H.plV + H.miV = I * (2 * (ta.parR + ta.parL)) / (Real.sqrt 2 : ℝ) := by
      simp only [H, transToHel]; ring
    have e2 : H.plA + H.miA = I * (2 * (ta.parR - ta.parL)) / (Real.sqrt 2 : ℝ) := by
      simp only [H, transToHel]; ring
    rw [e1, e2, nI, nI, normSq_mul, normSq_mul, show normSq (2:ℂ) = 4 by norm_num [normSq_apply]]
    linarith [par ta.parR ta.parL]
  · have e1 : H.plV - H.miV = I * (2 * (ta.perR + ta.perL)) / (Real.sqrt 2 : ℝ) := by
      simp only [H, transToHel]; ring
    have e2 : H.plA - H.miA = I * (2 * (ta.perR - ta.perL)) / (Real.sqrt 2 : ℝ) := by
      simp only [H, transToHel]; ring
    rw [e1, e2, nI, nI, normSq_mul, normSq_mul, show normSq (2:ℂ) = 4 by norm_num [normSq_apply]]
    linarith [par ta.perR ta.perL]
  · intro tb h
    simp only [H, transToHel, AmpV.mk.injEq] at h
    obtain ⟨h1, h2, h3, h4, h5, h6, _⟩ := h
    have nI0 : (-I : ℂ) ≠ 0 := neg_ne_zero.mpr I_ne_zero
    have k1 := mul_left_cancel₀ I_ne_zero ((div_left_inj' c2).mp h1)
    have k2 := mul_left_cancel₀ I_ne_zero ((div_left_inj' c2).mp h2)
    have k3 := mul_left_cancel₀ nI0 h3
    have k4 := mul_left_cancel₀ I_ne_zero ((div_left_inj' c2).mp h4)
    have k5 := mul_left_cancel₀ I_ne_zero ((div_left_inj' c2).mp h5)
    have k6 := mul_left_cancel₀ nI0 h6
    cases ta; cases tb
    simp only [Trans.mk.injEq] at *
    refine ⟨?_, ?_, ?_, ?_, ?_, ?_⟩
    · linear_combination (k3 - k6) / 2
    · linear_combination (k3 + k6) / 2
    · linear_combination (k1 + k2 - k4 - k5) / 4
    · linear_combination (k1 + k2 + k4 + k5) / 4
    · linear_combination (k1 - k2 - k4 + k5) / 4
    · linear_combination (k1 - k2 + k4 - k5) / 4

/-- Non-vacuity of the parity theorem: with real vector and axial couplings `J6s` and its flipped value are opposite and
not 0 (so the sign change is not `0 = -0`). -/
example : let wc : Wc := ⟨0, 0, 1, 0, 1, 0, 0, 0, 0, 0, 0, 0⟩
    let J := angularV (helicityV 4 5 1 4 0 0 0 ⟨1, 1, 1, 1, 1, 1, 1⟩ wc 1) 4 5 1 0 0
    J.j6s ≠ 0 ∧ wc.flip ≠ wc := by
  intro wc J
  refine ⟨?_, by simp [wc, Wc.flip]⟩
  have hl : lambdaK ((5:ℝ) ^ 2) (1 ^ 2) 4 = 384 := by unfold lambdaK kallen; norm_num
  have hg : laGa 4 0 0 = 16 := by unfold laGa lambdaK kallen; norm_num
  have hf : 0 < phaseSpace (2 ^ 9 * Real.pi ^ 3) 4 5 1 0 0 := by
    unfold phaseSpace
    rw [hg, hl]
    have := Real.pi_pos
    positivity
  have hN : NoTensor (helicityV 4 5 1 4 0 0 0 ⟨1, 1, 1, 1, 1, 1, 1⟩ wc 1) := by
    constructor <;> simp [helicityV, helV1, AmpV.scale, tenAmp, wc]
  show (angularV _ 4 5 1 0 0).j6s ≠ 0
  rw [nt_6s hN, hg]
  have hs : (0:ℝ) < Real.sqrt 384 := by positivity
  have hd : ((helicityV 4 5 1 4 0 0 0 ⟨1, 1, 1, 1, 1, 1, 1⟩ wc 1).plV * conj (helicityV 4 5 1 4 0 0 0 ⟨1, 1, 1, 1, 1, 1, 1⟩ wc 1).plA
      - (helicityV 4 5 1 4 0 0 0 ⟨1, 1, 1, 1, 1, 1, 1⟩ wc 1).miV
        * conj (helicityV 4 5 1 4 0 0 0 ⟨1, 1, 1, 1, 1, 1, 1⟩ wc 1).miA).re = -Real.sqrt 384 := by
    have e : ∀ sg : ℝ, transAmp sg 4 5 1 ⟨1, 1, 1, 1, 1, 1, 1⟩ 1 0 = ((sg * Real.sqrt 384 - 36) / 12 : ℝ) * I := by
      intro sg; unfold transAmp; rw [hl]; push_cast; ring
    simp only [helicityV, helV1, AmpV.scale, wc, e, dipAmp, add_zero, sub_zero, mul_zero, zero_mul, one_mul, map_mul,
      conj_ofReal, conj_I, sub_re, mul_re, mul_im, ofReal_re, ofReal_im, I_re, I_im, neg_re, neg_im]
    ring
  rw [hd]
  have h16 : (0:ℝ) < Real.sqrt 16 := by positivity
  have : 0 < 32 / 3 * phaseSpace (2 ^ 9 * Real.pi ^ 3) 4 5 1 0 0 * (Real.sqrt 16 / 2 * Real.sqrt 384) := by positivity
  intro h
  nlinarith

end Verif.Angular
