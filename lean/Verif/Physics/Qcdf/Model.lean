import Verif.Physics.MatrixElements.Model
import Verif.Physics.Angular.Amps
import Verif.Physics.Kdecays.KllTheorems
import Mathlib.Analysis.SpecialFunctions.Complex.Arctan
/-!
# QCD factorisation corrections to `B → V ℓ⁺ℓ⁻`

`flavio/physics/bdecays/bvll/qcdf.py`.  Floats are real numbers.  The dilogarithm and the exponential integral of `scipy` are
arguments; the small imaginary part `1e-8j` of the masses is an argument too (`Fn.eps`), so that the limit in which it
vanishes can be discussed.  The numerical integral is a quadrature rule, a list of nodes and weights, used for the real and the
imaginary part alike; the adaptive choice of the nodes is not modelled: the theorems hold for every rule.  Masses, couplings and
CKM elements are a record; the parameters are assumed to be such that `m_B`, `m_b`, `m_V`, `E_V`, `ξ_t` are not zero (no
`ZeroDivisionError` from them), while the division by zero at `q² = 0` and at `q² = m_B²` is modelled.
-/
set_option linter.unusedVariables false
namespace Verif.Qcdf
open Verif.Py Verif Verif.Running Complex
open Verif.MatrixElements (Wc)
open Verif.Angular (Trans AmpV transToHel)

/-- `scipy.special.spence`, `scipy.special.expi` and `iepsilon`.
/repo/flavio/physics/bdecays/bvll/qcdf.py:9, 194, 202. -/
structure Fn where
  li2 : ℂ → ℂ
  ei : ℝ → ℝ
  eps : ℝ

/-- The parameters read: masses of the mesons, pole masses, `α_s`, CKM products, decay constants, Gegenbauer moments and the
prefactor of the amplitudes.  /repo/flavio/physics/bdecays/bvll/qcdf.py:22-34, 253-260, 293-302, 335-339. -/
structure Par where
  mB : ℝ
  mV : ℝ
  mb : ℝ
  mc : ℝ
  alphaS : ℝ
  xiU : ℂ
  xiT : ℂ
  fB : ℝ
  fPara : ℝ
  fPerp : ℝ
  a1Para : ℝ
  a2Para : ℝ
  a1Perp : ℝ
  a2Perp : ℝ
  pref : ℂ

/-- `eps_u = xi_u/xi_t`.  /repo/flavio/physics/bdecays/bvll/qcdf.py:33. -/
noncomputable def Par.epsU (P : Par) : ℂ := P.xiU / P.xiT

/-- `meson_spectator`.  /repo/flavio/physics/bdecays/common.py:53-60. -/
def spectator : List ((String × String) × String) :=
  [(("B+", "K+"), "u"), (("B0", "K0"), "d"), (("B+", "K*+"), "u"), (("B0", "K*0"), "d"), (("Bs", "phi"), "s"), (("Bs", "K*0"), "s")]

/-- `quark_charge`.  /repo/flavio/physics/bdecays/common.py:62-66. -/
noncomputable def charge (q : String) : Except PyErr ℝ :=
  if q = "u" then .ok (2 / 3) else if q = "d" then .ok (-1 / 3) else if q = "s" then .ok (-1 / 3) else .error .keyError

/-- `get_input`, as far as it depends on the mesons: the spectator and its charge.
/repo/flavio/physics/bdecays/bvll/qcdf.py:22-34. -/
noncomputable def getInput (B V : String) : Except PyErr (String × ℝ) :=
  match spectator.lookup (B, V) with
  | some q => do
    let e ← charge q
    pure (q, e)
  | none => .error .keyError

/-- `Cq34`.  /repo/flavio/physics/bdecays/bvll/qcdf.py:39-61. -/
noncomputable def cq34 (P : Par) (w : Wc) (B V : String) : Except PyErr ℂ := do
  let (q, eq) ← getInput B V
  let Tt := w.c3 + 4 / 3 * (w.c4 + 12 * w.c5 + 16 * w.c6)
  if q = "u" then pure (Tt + P.epsU * (-3 * w.c2))
  else if q = "d" ∨ q = "s" then
    if V = "omega" then pure (Tt + 6 * 2 * (w.c3 + 10 * w.c5) + P.epsU * (-(4 / 3 * w.c1 + w.c2)))
    else if V = "rho0" then pure (Tt + P.epsU * (4 / 3 * w.c1 + w.c2))
    else if V = "K*0" then pure (Tt + P.epsU * 0)
    else if V = "phi" then pure (Tt + 6 * (w.c3 + 10 * w.c5) + P.epsU * 0)
    else .error .unboundLocalError
  else .error .unboundLocalError

/-- `T_para_minus_WA`.  /repo/flavio/physics/bdecays/bvll/qcdf.py:63-65. -/
noncomputable def paraMinusWA (P : Par) (w : Wc) (B V : String) : Except PyErr ℂ := do
  let (_, eq) ← getInput B V
  let c ← cq34 P w B V
  pure (-(eq : ℂ) * 4 * P.mB / P.mb * c)

/-- `T_perp_WA_PowC_1`.  /repo/flavio/physics/bdecays/bvll/qcdf.py:72-76. -/
noncomputable def perpWA1 (P : Par) (w : Wc) (B V : String) : Except PyErr ℂ := do
  let (_, eq) ← getInput B V
  pure (-(eq : ℂ) * 4 / P.mb * (w.c3 + 4 / 3 * (w.c4 + 3 * w.c5 + 4 * w.c6)))

/-- `T_perp_WA_PowC_2`.  /repo/flavio/physics/bdecays/bvll/qcdf.py:78-82. -/
noncomputable def perpWA2 (P : Par) (w : Wc) (B V : String) : Except PyErr ℂ := do
  let (_, eq) ← getInput B V
  let c ← cq34 P w B V
  pure ((eq : ℂ) * 2 / P.mb * c)

/-- `T_perp_plus_O8`.  /repo/flavio/physics/bdecays/bvll/qcdf.py:90-94. -/
noncomputable def perpPlusO8 (P : Par) (w : Wc) (B V : String) (q2 u : ℝ) : Except PyErr ℂ := do
  let (_, _) ← getInput B V
  pure (-(P.alphaS / (3 * Real.pi) : ℂ) * 4 * (-1 / 3) * w.c8 / (u + (1 - u) * q2 / P.mB ^ 2 : ℝ))

/-- `T_para_minus_O8`.  /repo/flavio/physics/bdecays/bvll/qcdf.py:96-100. -/
noncomputable def paraMinusO8 (P : Par) (w : Wc) (B V : String) (q2 u : ℝ) : Except PyErr ℂ := do
  let (_, eq) ← getInput B V
  pure ((P.alphaS / (3 * Real.pi) : ℂ) * eq * 8 * w.c8 / ((1 - u) + u * q2 / P.mB ^ 2 : ℝ))

/-- `En_V`.  /repo/flavio/physics/bdecays/bvll/qcdf.py:151-153. -/
noncomputable def enV (mB mV q2 : ℝ) : ℝ := (mB ^ 2 - q2 + mV ^ 2) / (2 * mB)

open Classical in
/-- `L1`.  /repo/flavio/physics/bdecays/bvll/qcdf.py:213-219. -/
noncomputable def l1 (F : Fn) (x : ℂ) : ℂ :=
  if x = 0 then -(Real.pi ^ 2 / 6 : ℝ)
  else if x = 1 then 0
  else Complex.log ((x - 1) / x) * Complex.log (1 - x) - (Real.pi ^ 2 / 6 : ℝ) + F.li2 (x / (x - 1))

open Classical in
/-- `B0`.  /repo/flavio/physics/bdecays/bvll/qcdf.py:187-196. -/
noncomputable def b0 (F : Fn) (s mq : ℝ) : ℂ :=
  if s = 0 then -2
  else if 4 * mq ^ 2 / s = 1 then 0
  else
    let r := Xlnu.csqrt (4 * ((mq ^ 2 : ℝ) - F.eps * I) / s - 1);
    (-2) * r * Complex.arctan (1 / r)

open Classical in
/-- `B0diffBFS`.  /repo/flavio/physics/bdecays/bvll/qcdf.py:180-184. -/
noncomputable def b0diff (F : Fn) (q2 u mq mB : ℝ) : Except PyErr ℂ :=
  if mq = 0 then
    if q2 = 0 then .error .zeroDivisionError
    else .ok (-Complex.log (-(2 / q2 : ℝ)) + Complex.log (-(2 / (q2 * u + mB ^ 2 * (1 - u)) : ℝ)))
  else .ok (b0 F ((1 - u) * mB ^ 2 + u * q2) mq - b0 F q2 mq)

open Classical in
/-- `i1_bfs`.  /repo/flavio/physics/bdecays/bvll/qcdf.py:199-210. -/
noncomputable def i1 (F : Fn) (q2 u mq mB : ℝ) : Except PyErr ℂ :=
  let mq2 : ℂ := (mq ^ 2 : ℝ) - F.eps * I
  let x0 := Xlnu.csqrt (1 / 4 - mq2 / ((1 - u) * mB ^ 2 + u * q2 : ℝ))
  if q2 = 0 then .error .zeroDivisionError
  else
    let y0 := Xlnu.csqrt (1 / 4 - mq2 / q2)
    .ok (1 + 2 * mq2 / ((1 - u) * (mB ^ 2 - q2) : ℝ) * (l1 F (1 / 2 + x0) + l1 F (1 / 2 - x0) - l1 F (1 / 2 + y0) - l1 F (1 / 2 - y0)))

open Classical in
/-- `t_perp`.  /repo/flavio/physics/bdecays/bvll/qcdf.py:156-168. -/
noncomputable def tPerp (F : Fn) (P : Par) (q2 u mq : ℝ) : Except PyErr ℂ :=
  let EV := enV P.mB P.mV q2
  let ub := 1 - u
  if q2 = 0 then
    let x0 := Xlnu.csqrt ((1 / 4 - mq ^ 2 / (ub * P.mB ^ 2) : ℝ))
    .ok ((4 / ub : ℝ) * (1 + (2 * mq ^ 2 / (ub * P.mB ^ 2) : ℝ) * (l1 F (1 / 2 + x0) + l1 F (1 / 2 - x0))))
  else do
    let a ← i1 F q2 u mq P.mB
    let b ← b0diff F q2 u mq P.mB
    pure ((2 * P.mB / (ub * EV) : ℝ) * a + (q2 / (ub ^ 2 * EV ^ 2) : ℝ) * b)

/-- `t_para`.  /repo/flavio/physics/bdecays/bvll/qcdf.py:171-178. -/
noncomputable def tPara (F : Fn) (P : Par) (q2 u mq : ℝ) : Except PyErr ℂ := do
  let EV := enV P.mB P.mV q2
  let ub := 1 - u
  let a ← i1 F q2 u mq P.mB
  let b ← b0diff F q2 u mq P.mB
  pure ((2 * P.mB / (ub * EV) : ℝ) * a + ((ub * P.mB ^ 2 + u * q2) / (ub ^ 2 * EV ^ 2) : ℝ) * b)

/-- `T_perp_plus_QSS`.  /repo/flavio/physics/bdecays/bvll/qcdf.py:104-118. -/
noncomputable def perpPlusQSS (F : Fn) (P : Par) (w : Wc) (B V : String) (q2 u : ℝ) : Except PyErr ℂ := do
  let (_, _) ← getInput B V
  let tmc ← tPerp F P q2 u P.mc
  let tmb ← tPerp F P q2 u P.mb
  let t0 ← tPerp F P q2 u 0
  let eu : ℂ := 2 / 3
  let ed : ℂ := -1 / 3
  let Tt := (P.alphaS / (3 * Real.pi) : ℂ) * P.mB / (2 * P.mb) * (
      eu * tmc * (-w.c1 / 6 + w.c2 + 6 * w.c6)
    + ed * tmb * (w.c3 - w.c4 / 6 + 16 * w.c5 + 10 * w.c6 / 3 + P.mb / P.mB * (-w.c3 + w.c4 / 6 - 4 * w.c5 + 2 * w.c6 / 3))
    + ed * t0 * (w.c3 - w.c4 / 6 + 16 * w.c5 - 8 * w.c6 / 3))
  let Tu := (P.alphaS / (3 * Real.pi) : ℂ) * eu * P.mB / (2 * P.mb) * (tmc - t0) * (w.c2 - w.c1 / 6)
  pure (Tt + P.epsU * Tu)

/-- `T_para_plus_QSS`.  /repo/flavio/physics/bdecays/bvll/qcdf.py:120-133. -/
noncomputable def paraPlusQSS (F : Fn) (P : Par) (w : Wc) (B V : String) (q2 u : ℝ) : Except PyErr ℂ := do
  let (_, _) ← getInput B V
  let tmc ← tPara F P q2 u P.mc
  let tmb ← tPara F P q2 u P.mb
  let t0 ← tPara F P q2 u 0
  let eu : ℂ := 2 / 3
  let ed : ℂ := -1 / 3
  let Tt := (P.alphaS / (3 * Real.pi) : ℂ) * P.mB / P.mb * (
      eu * tmc * (-w.c1 / 6 + w.c2 + 6 * w.c6)
    + ed * tmb * (w.c3 - w.c4 / 6 + 16 * w.c5 + 10 * w.c6 / 3)
    + ed * t0 * (w.c3 - w.c4 / 6 + 16 * w.c5 - 8 * w.c6 / 3))
  let Tu := (P.alphaS / (3 * Real.pi) : ℂ) * eu * P.mB / P.mb * (tmc - t0) * (w.c2 - w.c1 / 6)
  pure (Tt + P.epsU * Tu)

/-- `T_para_minus_QSS`.  /repo/flavio/physics/bdecays/bvll/qcdf.py:135-149. -/
noncomputable def paraMinusQSS (P : Par) (w : Wc) (B V : String) (q2 u scale : ℝ) : Except PyErr ℂ := do
  let (_, eq) ← getInput B V
  let hmc ← MatrixElements.h ((1 - u) * P.mB ^ 2 + u * q2) P.mc scale
  let hmb ← MatrixElements.h ((1 - u) * P.mB ^ 2 + u * q2) P.mb scale
  let h0 ← MatrixElements.h ((1 - u) * P.mB ^ 2 + u * q2) 0 scale
  let Tt := (P.alphaS / (3 * Real.pi) : ℂ) * eq * 6 * P.mB / P.mb * (
      hmc * (-w.c1 / 6 + w.c2 + w.c4 + 10 * w.c6)
    + hmb * (w.c3 + 5 * w.c4 / 6 + 16 * w.c5 + 22 * w.c6 / 3)
    + h0 * (w.c3 + 17 * w.c4 / 6 + 16 * w.c5 + 82 * w.c6 / 3)
    - 8 / 27 * (-15 * w.c4 / 2 + 12 * w.c5 - 32 * w.c6))
  let Tu := (P.alphaS / (3 * Real.pi) : ℂ) * eq * 6 * P.mB / P.mb * (hmc - h0) * (w.c2 - w.c1 / 6)
  pure (Tt + P.epsU * Tu)

/-- `phiV`, with the Gegenbauer polynomials `C_1^{3/2}(x) = 3x`, `C_2^{3/2}(x) = 3/2 (5x² - 1)` of `eval_gegenbauer`.
/repo/flavio/physics/bdecays/bvll/qcdf.py:222-227. -/
noncomputable def phiV (u a1 a2 : ℝ) : ℝ :=
  let x := 2 * u - 1
  6 * u * (1 - u) * (1 + a1 * (3 * x) + a2 * (3 / 2 * (5 * x ^ 2 - 1)))

/-- `lB_minus`.  /repo/flavio/physics/bdecays/bvll/qcdf.py:232-238. -/
noncomputable def lBminus (F : Fn) (P : Par) (q2 : ℝ) : ℂ :=
  let w0 := 2 * (P.mB - P.mb) / 3
  1 / ((Real.exp (-q2 / P.mB / w0) / w0 : ℝ) * (-(F.ei (q2 / P.mB / w0) : ℂ) + I * Real.pi))

/-- `lB_plus`.  /repo/flavio/physics/bdecays/bvll/qcdf.py:239-244. -/
noncomputable def lBplus (P : Par) : ℝ := 2 * (P.mB - P.mb) / 3

/-- A quadrature rule in place of `nintegrate_complex`: nodes and weights; the integrand may raise.
/repo/flavio/math/integrate.py:31-39. -/
noncomputable def quad (rule : List (ℝ × ℝ)) (f : ℝ → Except PyErr ℂ) : Except PyErr ℂ := do
  let l ← rule.mapM (fun n => do
    let v ← f n.1
    pure ((n.2 : ℂ) * v))
  pure l.sum

/-- The keyword arguments `include_WA`, `include_O8`, `include_QSS`.  /repo/flavio/physics/bdecays/bvll/qcdf.py:249-252. -/
structure Incl where
  wa : Bool
  o8 : Bool
  qss : Bool
deriving DecidableEq, Repr

/-- `if include_X: T += ...`.  /repo/flavio/physics/bdecays/bvll/qcdf.py:267-273. -/
noncomputable def addIf (b : Bool) (x : Except PyErr ℂ) : Except PyErr ℂ := if b then x else .ok 0

/-- `T_para`.  /repo/flavio/physics/bdecays/bvll/qcdf.py:249-285. -/
noncomputable def TPara (F : Fn) (P : Par) (w : Wc) (B V : String) (q2 scale : ℝ) (rule : List (ℝ × ℝ)) (k : Incl) : Except PyErr ℂ :=
  if !k.wa && !k.o8 && !k.qss then .error .valueError
  else do
    let N : ℂ := (Real.pi ^ 2 / 3 * P.fB * P.fPara / P.mB * (P.mV / enV P.mB P.mV q2) : ℝ)
    let Tminus : ℝ → Except PyErr ℂ := fun u => do
      let a ← addIf k.wa (paraMinusWA P w B V)
      let b ← addIf k.o8 (paraMinusO8 P w B V q2 u)
      let c ← addIf k.qss (paraMinusQSS P w B V q2 u scale)
      pure (N / lBminus F P q2 * (phiV u P.a1Para P.a2Para : ℝ) * (a + b + c))
    let Tplus : ℝ → Except PyErr ℂ := fun u =>
      addIf k.qss (do
        let t ← paraPlusQSS F P w B V q2 u
        pure (N / (lBplus P : ℝ) * (phiV u P.a1Para P.a2Para : ℝ) * t))
    let uSing ← pyDiv (P.mB ^ 2 - 4 * P.mc ^ 2) (-q2 + P.mB ^ 2)
    quad rule (fun u => do
      let a ← Tplus u
      let b ← Tminus u
      pure (a + b))

/-- `T_perp`.  /repo/flavio/physics/bdecays/bvll/qcdf.py:289-330. -/
noncomputable def TPerp (F : Fn) (P : Par) (w : Wc) (B V : String) (q2 scale : ℝ) (rule : List (ℝ × ℝ)) (k : Incl) : Except PyErr ℂ :=
  if !k.wa && !k.o8 && !k.qss then .error .valueError
  else do
    let N : ℂ := (Real.pi ^ 2 / 3 * P.fB * P.fPerp / P.mB : ℝ)
    let Tplus : ℝ → Except PyErr ℂ := fun u => do
      let a ← addIf k.o8 (perpPlusO8 P w B V q2 u)
      let b ← addIf k.qss (perpPlusQSS F P w B V q2 u)
      pure (N / (lBplus P : ℝ) * (phiV u P.a1Perp P.a2Perp : ℝ) * (a + b))
    let Tpow : ℝ → Except PyErr ℂ := fun u => do
      let a ← addIf k.wa (perpWA1 P w B V)
      pure (N * (phiV u P.a1Perp P.a2Perp / ((1 - u) + u * q2 / P.mB ^ 2) : ℝ) * a)
    let uSing ← pyDiv (P.mB ^ 2 - 4 * P.mc ^ 2) (-q2 + P.mB ^ 2)
    let T ← quad rule (fun u => do
      let a ← Tplus u
      let b ← Tpow u
      pure (a + b))
    let x ← addIf k.wa (do
      let c ← perpWA2 P w B V
      pure (N / (lBplus P : ℝ) * (P.fPara / P.fPerp : ℝ) * (P.mV / (1 - q2 / P.mB ^ 2) : ℝ) * c))
    pure (T + x)

open Classical in
/-- `transversity_amps_qcdf`; `t` and `S` are 0.  /repo/flavio/physics/bdecays/bvll/qcdf.py:333-352. -/
noncomputable def transQcdf (F : Fn) (P : Par) (w : Wc) (B V : String) (q2 scale : ℝ) (rule : List (ℝ × ℝ)) (k : Incl) : Except PyErr Trans := do
  let N := P.pref / 4
  let Tp ← TPerp F P w B V q2 scale rule k
  let Tl ← TPara F P w B V q2 scale rule k
  if q2 = 0 then .error .zeroDivisionError
  else
    let perL := N * (Real.sqrt 2 : ℝ) * 2 * (P.mB ^ 2 - q2 : ℝ) * P.mb / q2 * Tp
    let zL := N * P.mb * ((P.mB ^ 2 - q2) ^ 2 : ℝ) / ((P.mB ^ 2 * P.mV : ℝ) * Xlnu.csqrt q2) * Tl
    pure { zL := zL, zR := zL, perL := perL, perR := perL, parL := -perL, parR := -perL }

/-- `helicity_amps_qcdf`: the amplitudes and whether the warning about `q² > 6 GeV²` was issued.
/repo/flavio/physics/bdecays/bvll/qcdf.py:354-362. -/
noncomputable def helQcdf (F : Fn) (P : Par) (w : Wc) (B V : String) (q2 scale : ℝ) (rule : List (ℝ × ℝ)) (k : Incl) : Except PyErr (Prop × AmpV) := do
  let ta ← transQcdf F P w B V q2 scale rule k
  pure (q2 > 6, transToHel ta)

/-- `conjugate_par`: the CKM elements are conjugated, also in the prefactor.  /repo/flavio/physics/common.py:5-12. -/
noncomputable def conjPar (P : Par) : Par :=
  { P with xiU := (starRingEnd ℂ) P.xiU, xiT := (starRingEnd ℂ) P.xiT, pref := (starRingEnd ℂ) P.pref }

/-- `conjugate_wc`.  /repo/flavio/physics/common.py:14-18. -/
noncomputable def conjWc (w : Wc) : Wc :=
  ⟨(starRingEnd ℂ) w.c1, (starRingEnd ℂ) w.c2, (starRingEnd ℂ) w.c3, (starRingEnd ℂ) w.c4, (starRingEnd ℂ) w.c5,
    (starRingEnd ℂ) w.c6, (starRingEnd ℂ) w.c8⟩

/-- `ha_qcdf_function(B, V)`; `wctot par` is `wctot_dict(wc_obj, label, scale, par)`.
/repo/flavio/physics/bdecays/bvll/nonfactorizable.py:20-32. -/
noncomputable def haQcdf (F : Fn) (P : Par) (wctot : Par → Wc) (B V : String) (q2 scale : ℝ) (rule : List (ℝ × ℝ)) (cp : Bool) : Except PyErr (Prop × AmpV) :=
  let par := if cp then conjPar P else P
  let wc := if cp then conjWc (wctot par) else wctot par
  helQcdf F par wc B V q2 scale rule ⟨true, true, true⟩

end Verif.Qcdf
