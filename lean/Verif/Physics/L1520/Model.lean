import Verif.Physics.Angular.Bins
import Verif.Physics.Angular.Amps
import Verif.Physics.Common
import Verif.Physics.Mixing.Box
/-!
# `Λb → Λ(1520)(→ N K) ℓ⁺ ℓ⁻`
(`flavio/physics/bdecays/lambdablambda1520ll.py`, `formfactors/lambdab_32/LatticeQCD.py`, `formfactors/lambdab_32/QuarkModel_MCN.py`)

Masses, effective Wilson coefficients (for the decay and for the CP conjugated parameters) and form factors are arguments; division and roots are those of the reals except where the program may divide by
zero in the allowed region (the form factors).
-/
set_option linter.unusedVariables false
set_option linter.unusedSimpArgs false
namespace Verif.L1520
open Verif.Angular Verif.Py Verif.Running Complex
local notation "conj" => starRingEnd ℂ

/-- The form factors used by the amplitudes.  /repo/flavio/physics/bdecays/lambdablambda1520ll.py:10-57. -/
structure FF where
  fV0 : ℝ
  fVperp : ℝ
  fVg : ℝ
  fA0 : ℝ
  fAperp : ℝ
  fAg : ℝ
  fT0 : ℝ
  fTperp : ℝ
  fTg : ℝ
  fT50 : ℝ
  fT5perp : ℝ
  fT5g : ℝ

/-- The keys of the dictionary of `helicity_amps` that are used by `transversity_amps`.  /repo/flavio/physics/bdecays/lambdablambda1520ll.py:10-57. -/
structure HA where
  v0 : ℝ
  v1 : ℝ
  v3 : ℝ
  a0 : ℝ
  a1 : ℝ
  a3 : ℝ
  t0 : ℝ
  t1 : ℝ
  t3 : ℝ
  t50 : ℝ
  t51 : ℝ
  t53 : ℝ

/-- `helicity_amps`.  /repo/flavio/physics/bdecays/lambdablambda1520ll.py:10-57. -/
noncomputable def helAmps (q2 mLb mL : ℝ) (ff : FF) : HA :=
  let sp := (mLb + mL) ^ 2 - q2
  let sm := (mLb - mL) ^ 2 - q2
  { v0 := -ff.fV0 * (mLb + mL) / Real.sqrt q2 * (sm * Real.sqrt sp) / (Real.sqrt 6 * mL)
    v1 := -ff.fVperp * (sm * Real.sqrt sp) / (Real.sqrt 3 * mL)
    v3 := ff.fVg * Real.sqrt sp
    a0 := -ff.fA0 * (mLb - mL) / Real.sqrt q2 * (sp * Real.sqrt sm) / (Real.sqrt 6 * mL)
    a1 := ff.fAperp * (sp * Real.sqrt sm) / (Real.sqrt 3 * mL)
    a3 := -ff.fAg * Real.sqrt sm
    t0 := ff.fT0 * Real.sqrt q2 * (sm * Real.sqrt sp) / (Real.sqrt 6 * mL)
    t1 := ff.fTperp * (mLb + mL) * (sm * Real.sqrt sp) / (Real.sqrt 3 * mL)
    t3 := -ff.fTg * Real.sqrt sp
    t50 := -ff.fT50 * Real.sqrt q2 * (sp * Real.sqrt sm) / (Real.sqrt 6 * mL)
    t51 := ff.fT5perp * (mLb - mL) * (sp * Real.sqrt sm) / (Real.sqrt 3 * mL)
    t53 := -ff.fT5g * Real.sqrt sm }

/-- The amplitudes of one lepton chirality.  /repo/flavio/physics/bdecays/lambdablambda1520ll.py:60-93. -/
structure Six where
  aperp1 : ℂ
  apara1 : ℂ
  aperp0 : ℂ
  apara0 : ℂ
  bperp1 : ℂ
  bpara1 : ℂ

/-- The dictionary of transversity amplitudes.  /repo/flavio/physics/bdecays/lambdablambda1520ll.py:60-93. -/
structure Ta where
  L : Six
  R : Six

/-- The amplitudes of one chirality, with the prefactor.  /repo/flavio/physics/bdecays/lambdablambda1520ll.py:72-92. -/
noncomputable def six (ha : HA) (q2 mqh : ℝ) (c7pl c7mi cpl cmi N : ℂ) : Six :=
  { bperp1 := N * ((Real.sqrt 2 : ℂ) * (cpl * ha.v3 - 2 * mqh * c7pl / q2 * ha.t3))
    bpara1 := N * (-(Real.sqrt 2 : ℂ) * (cmi * ha.a3 + 2 * mqh * c7mi / q2 * ha.t53))
    aperp1 := N * ((Real.sqrt 2 : ℂ) * (cpl * ha.v1 - 2 * mqh * c7pl / q2 * ha.t1))
    apara1 := N * (-(Real.sqrt 2 : ℂ) * (cmi * ha.a1 + 2 * mqh * c7mi / q2 * ha.t51))
    aperp0 := N * ((Real.sqrt 2 : ℂ) * (cpl * ha.v0 - 2 * mqh * c7pl / q2 * ha.t0))
    apara0 := N * (-(Real.sqrt 2 : ℂ) * (cmi * ha.a0 + 2 * mqh * c7mi / q2 * ha.t50)) }

/-- `transversity_amps`.  /repo/flavio/physics/bdecays/lambdablambda1520ll.py:60-93. -/
noncomputable def transAmps (ha : HA) (q2 mqh : ℝ) (wc : Wc) (N : ℂ) : Ta :=
  { L := six ha q2 mqh (wc.c7 + wc.c7p) (wc.c7 - wc.c7p) ((wc.v - wc.a) + (wc.vp - wc.ap)) ((wc.v - wc.a) - (wc.vp - wc.ap)) N
    R := six ha q2 mqh (wc.c7 + wc.c7p) (wc.c7 - wc.c7p) ((wc.v + wc.a) + (wc.vp + wc.ap)) ((wc.v + wc.a) - (wc.vp + wc.ap)) N }

/-- The result of `angular_coefficients`.  /repo/flavio/physics/bdecays/lambdablambda1520ll.py:96-157. -/
structure Ls where
  c1 : ℝ
  cc1 : ℝ
  ss1 : ℝ
  c2 : ℝ
  cc2 : ℝ
  ss2 : ℝ
  ss3 : ℝ
  ss4 : ℝ
  s5 : ℝ
  sc5 : ℝ
  s6 : ℝ
  sc6 : ℝ

/-- `angular_coefficients`.  /repo/flavio/physics/bdecays/lambdablambda1520ll.py:96-157. -/
noncomputable def angCoeff (ta : Ta) (br : ℝ) : Ls :=
  { c1 := -2 * br * ((ta.L.aperp1 * conj ta.L.apara1).re - (ta.R.aperp1 * conj ta.R.apara1).re)
    cc1 := br * (‖ta.L.apara1‖ ^ 2 + ‖ta.L.aperp1‖ ^ 2 + ‖ta.R.apara1‖ ^ 2 + ‖ta.R.aperp1‖ ^ 2)
    ss1 := br / 2 * (2 * (‖ta.L.apara0‖ ^ 2 + ‖ta.L.aperp0‖ ^ 2) + ‖ta.L.apara1‖ ^ 2 + ‖ta.L.aperp1‖ ^ 2
      + 2 * (‖ta.R.apara0‖ ^ 2 + ‖ta.R.aperp0‖ ^ 2) + ‖ta.R.apara1‖ ^ 2 + ‖ta.R.aperp1‖ ^ 2)
    c2 := -br / 2 * ((ta.L.aperp1 * conj ta.L.apara1).re + 3 * (ta.L.bperp1 * conj ta.L.bpara1).re
      - (ta.R.aperp1 * conj ta.R.apara1).re - 3 * (ta.R.bperp1 * conj ta.R.bpara1).re)
    cc2 := br / 4 * (‖ta.L.apara1‖ ^ 2 + ‖ta.L.aperp1‖ ^ 2 + 3 * (‖ta.L.bpara1‖ ^ 2 + ‖ta.L.bperp1‖ ^ 2)
      + ‖ta.R.apara1‖ ^ 2 + ‖ta.R.aperp1‖ ^ 2 + 3 * (‖ta.R.bpara1‖ ^ 2 + ‖ta.R.bperp1‖ ^ 2))
    ss2 := br / 8 * (2 * ‖ta.L.apara0‖ ^ 2 + ‖ta.L.apara1‖ ^ 2 + 2 * ‖ta.L.aperp0‖ ^ 2 + ‖ta.L.aperp1‖ ^ 2
      + 3 * (‖ta.L.bpara1‖ ^ 2 + ‖ta.L.bperp1‖ ^ 2)
      - 2 * Real.sqrt 3 * (ta.L.bpara1 * conj ta.L.apara1).re + 2 * Real.sqrt 3 * (ta.L.bperp1 * conj ta.L.aperp1).re
      + 2 * ‖ta.R.apara0‖ ^ 2 + ‖ta.R.apara1‖ ^ 2 + 2 * ‖ta.R.aperp0‖ ^ 2 + ‖ta.R.aperp1‖ ^ 2
      + 3 * (‖ta.R.bpara1‖ ^ 2 + ‖ta.R.bperp1‖ ^ 2)
      - 2 * Real.sqrt 3 * (ta.R.bpara1 * conj ta.R.apara1).re + 2 * Real.sqrt 3 * (ta.R.bperp1 * conj ta.R.aperp1).re)
    ss3 := Real.sqrt 3 / 2 * br * ((ta.L.bpara1 * conj ta.L.apara1).re - (ta.L.bperp1 * conj ta.L.aperp1).re
      + (ta.R.bpara1 * conj ta.R.apara1).re - (ta.R.bperp1 * conj ta.R.aperp1).re)
    ss4 := Real.sqrt 3 / 2 * br * ((ta.L.bperp1 * conj ta.L.apara1).im - (ta.L.bpara1 * conj ta.L.aperp1).im
      + (ta.R.bperp1 * conj ta.R.apara1).im - (ta.R.bpara1 * conj ta.R.aperp1).im)
    s5 := Real.sqrt (3 / 2) * br * ((ta.L.bperp1 * conj ta.L.apara0).re - (ta.L.bpara1 * conj ta.L.aperp0).re
      - (ta.R.bperp1 * conj ta.R.apara0).re + (ta.R.bpara1 * conj ta.R.aperp0).re)
    sc5 := Real.sqrt (3 / 2) * br * (-(ta.L.bpara1 * conj ta.L.apara0).re + (ta.L.bperp1 * conj ta.L.aperp0).re
      - (ta.R.bpara1 * conj ta.R.apara0).re + (ta.R.bperp1 * conj ta.R.aperp0).re)
    s6 := Real.sqrt (3 / 2) * br * ((ta.L.bpara1 * conj ta.L.apara0).im - (ta.L.bperp1 * conj ta.L.aperp0).im
      - (ta.R.bpara1 * conj ta.R.apara0).im + (ta.R.bperp1 * conj ta.R.aperp0).im)
    sc6 := -Real.sqrt (3 / 2) * br * ((ta.L.bperp1 * conj ta.L.apara0).im - (ta.L.bpara1 * conj ta.L.aperp0).im
      + (ta.R.bperp1 * conj ta.R.apara0).im - (ta.R.bpara1 * conj ta.R.aperp0).im) }

/-- What the functions need at one point of the parameter space; `wc` are the effective Wilson coefficients with the given and `wcb` with the complex conjugated parameters.
/repo/flavio/physics/bdecays/lambdablambda1520ll.py:160-213. -/
structure Inp where
  mLb : ℝ
  mL : ℝ
  ml : ℝ
  mb : ℝ
  tau : ℝ
  brNK : ℝ
  n0 : ℂ
  wc : ℝ → Wc
  wcb : ℝ → Wc
  ff : ℝ → FF

/-- `prefactor` for the overall factor `n0 = GF * xi_t * alpha_e`.  /repo/flavio/physics/bdecays/lambdablambda1520ll.py:160-168. -/
noncomputable def pref (d : Inp) (n0 : ℂ) (q2 : ℝ) : ℂ :=
  n0 * (Real.sqrt q2 * Common.lambdaK (d.mLb ^ 2) (d.mL ^ 2) q2 ^ (1 / 4 : ℝ) / Real.sqrt (3 * 2 * d.mLb ^ 3 * Real.pi ^ 5) / 32 : ℝ)

/-- `get_transversity_amps(..., cp_conjugate)`: `conjugate_par` conjugates the CKM factor; the Wilson coefficients themselves are not conjugated.
/repo/flavio/physics/bdecays/lambdablambda1520ll.py:176-197. -/
noncomputable def amps (d : Inp) (cp : Bool) (q2 : ℝ) : Ta :=
  if cp then transAmps (helAmps q2 d.mLb d.mL (d.ff q2)) q2 d.mb (d.wcb q2) (pref d (conj d.n0) q2)
  else transAmps (helAmps q2 d.mLb d.mL (d.ff q2)) q2 d.mb (d.wc q2) (pref d d.n0 q2)

open Classical in
/-- `get_obs`.  /repo/flavio/physics/bdecays/lambdablambda1520ll.py:200-213. -/
noncomputable def getObs (d : Inp) (F : Ls → Ls → ℝ) (q2 : ℝ) : ℝ :=
  if q2 < 4 * d.ml ^ 2 ∨ q2 > (d.mLb - d.mL) ^ 2 then 0
  else F (angCoeff (amps d false q2) (d.brNK / 2)) (angCoeff (amps d true q2) (d.brNK / 2))

/-- `dGdq2`.  /repo/flavio/physics/bdecays/lambdablambda1520ll.py:217-219. -/
noncomputable def dG (L Lb : Ls) : ℝ :=
  (L.cc1 + 2 * L.ss1 + 2 * L.cc2 + 4 * L.ss2 + 2 * L.ss3 + Lb.cc1 + 2 * Lb.ss1 + 2 * Lb.cc2 + 4 * Lb.ss2 + 2 * Lb.ss3) / 6
/-- `S` for the coefficient selected by `g`.  /repo/flavio/physics/bdecays/lambdablambda1520ll.py:222-225. -/
noncomputable def obsS (g : Ls → ℝ) (L Lb : Ls) : ℝ := (g L + g Lb) / 2
/-- `A` for the coefficient selected by `g`.  /repo/flavio/physics/bdecays/lambdablambda1520ll.py:228-231. -/
noncomputable def obsA (g : Ls → ℝ) (L Lb : Ls) : ℝ := (g L - g Lb) / 2
/-- `FL_num`.  /repo/flavio/physics/bdecays/lambdablambda1520ll.py:234-236. -/
noncomputable def flNum (L Lb : Ls) : ℝ :=
  (-L.cc1 + 2 * L.ss1 - 2 * L.cc2 + 4 * L.ss2 + 2 * L.ss3 - Lb.cc1 + 2 * Lb.ss1 - 2 * Lb.cc2 + 4 * Lb.ss2 + 2 * Lb.ss3) / 6
/-- `AFBl_num`.  /repo/flavio/physics/bdecays/lambdablambda1520ll.py:239-240. -/
noncomputable def afblNum (L Lb : Ls) : ℝ := (L.c1 + 2 * L.c2 + Lb.c1 + 2 * Lb.c2) / 4
/-- `AFBh`, `AFBlh`.  /repo/flavio/physics/bdecays/lambdablambda1520ll.py:243-248. -/
def zeroNum (L Lb : Ls) : ℝ := 0

/-- `dbrdq2_func`.  /repo/flavio/physics/bdecays/lambdablambda1520ll.py:266-270. -/
noncomputable def dbr (d : Inp) (q2 : ℝ) : ℝ := d.tau * getObs d dG q2
/-- `obs_int`.  /repo/flavio/physics/bdecays/lambdablambda1520ll.py:251-254. -/
noncomputable def obsIntL (nint : Nint) (d : Inp) (F : Ls → Ls → ℝ) (a b : ℝ) : ℝ := nint (getObs d F) a b (5 / 1000)
/-- `dbrdq2_int_func`.  /repo/flavio/physics/bdecays/lambdablambda1520ll.py:259-263. -/
noncomputable def dbrInt (nint : Nint) (d : Inp) (a b : ℝ) : ℝ := d.tau * obsIntL nint d dG a b / (b - a)

open Classical in
/-- `obs_ratio_func`.  /repo/flavio/physics/bdecays/lambdablambda1520ll.py:273-280. -/
noncomputable def ratio (d : Inp) (F : Ls → Ls → ℝ) (q2 : ℝ) : Except PyErr ℝ :=
  if getObs d F q2 = 0 then .ok 0 else pyDiv (getObs d F q2) (getObs d dG q2)

open Classical in
/-- `obs_int_ratio_func`.  /repo/flavio/physics/bdecays/lambdablambda1520ll.py:283-290. -/
noncomputable def ratioInt (nint : Nint) (d : Inp) (F : Ls → Ls → ℝ) (a b : ℝ) : Except PyErr ℝ :=
  if obsIntL nint d F a b = 0 then .ok 0 else pyDiv (obsIntL nint d F a b) (obsIntL nint d dG a b)

/-! ## Form factors from lattice QCD -/

/-- The parameters `F` and `A` of one form factor.  /repo/flavio/physics/bdecays/formfactors/lambdab_32/LatticeQCD.py:29-31. -/
structure FA where
  F : ℝ
  A : ℝ

/-- The parameters of the lattice form factors that enter the amplitudes.  /repo/flavio/physics/bdecays/formfactors/lambdab_32/LatticeQCD.py:23-33. -/
structure Latt where
  fplus : FA
  fperp : FA
  fperpP : FA
  gplus : FA
  gperp : FA
  gperpP : FA
  hplus : FA
  hperp : FA
  hperpP : FA
  hTplus : FA
  hTperp : FA
  hTperpP : FA

/-- `ff_formula(F, A, omega_fct(...))`.  /repo/flavio/physics/bdecays/formfactors/lambdab_32/LatticeQCD.py:5-11. -/
noncomputable def lin (x : FA) (q2 mLb mL : ℝ) : ℝ := x.F + x.A * ((mLb * mLb + mL * mL - q2) / (2 * mLb * mL) - 1)

/-- `ff_equiv` of the lattice form factors (the warning is not modelled).  /repo/flavio/physics/bdecays/formfactors/lambdab_32/LatticeQCD.py:38-69. -/
noncomputable def lattFF (p : Latt) (q2 mLb mL : ℝ) : Except PyErr FF := do
  let m ← pyDiv mL ((mLb - mL) ^ 2 - q2)
  let s ← pyDiv mL ((mLb + mL) ^ 2 - q2)
  return { fV0 := m * lin p.fplus q2 mLb mL
           fVperp := m * lin p.fperp q2 mLb mL
           fVg := lin p.fperpP q2 mLb mL
           fA0 := s * lin p.gplus q2 mLb mL
           fAperp := s * lin p.gperp q2 mLb mL
           fAg := -lin p.gperpP q2 mLb mL
           fT0 := m * lin p.hplus q2 mLb mL
           fTperp := m * lin p.hperp q2 mLb mL
           fTg := (mLb + mL) * lin p.hperpP q2 mLb mL
           fT50 := s * lin p.hTplus q2 mLb mL
           fT5perp := s * lin p.hTperp q2 mLb mL
           fT5g := -(mLb - mL) * lin p.hTperpP q2 mLb mL }

/-! ## Form factors from the quark model -/

/-- The values of `F1, …, H6` at one `q2`.  /repo/flavio/physics/bdecays/formfactors/lambdab_32/QuarkModel_MCN.py:43-58. -/
structure QM where
  F1 : ℝ
  F2 : ℝ
  F3 : ℝ
  F4 : ℝ
  G1 : ℝ
  G2 : ℝ
  G3 : ℝ
  G4 : ℝ
  H1 : ℝ
  H2 : ℝ
  H3 : ℝ
  H4 : ℝ
  H5 : ℝ
  H6 : ℝ

/-- The momentum `lambda_momentum`.  /repo/flavio/physics/bdecays/formfactors/lambdab_32/QuarkModel_MCN.py:4-12. -/
noncomputable def momentum (q2 mL mLb : ℝ) : ℝ :=
  let s := q2 / mLb ^ 2
  let r := (mL / mLb) ^ 2
  let phi := (1 - r) ^ 2 - 2 * (1 + r) * s + s ^ 2
  if phi > 0 then mLb / 2 * Real.sqrt phi else mLb / 2 * Real.sqrt (-phi)

/-- `F`.  /repo/flavio/physics/bdecays/formfactors/lambdab_32/QuarkModel_MCN.py:22-23. -/
noncomputable def gauss (a0 a2 a4 p mq m alpha : ℝ) : ℝ :=
  (a0 + a2 * p ^ 2 + a4 * p ^ 4) * Real.exp (-3 * (mq * p) ^ 2 / (2 * (m * alpha) ^ 2))

/-- `fVt` of the quark model.  /repo/flavio/physics/bdecays/formfactors/lambdab_32/QuarkModel_MCN.py:84. -/
noncomputable def qmVt (f : QM) (q2 mL mLb : ℝ) : ℝ :=
  (f.F2 * mL * (mL ^ 2 - mLb ^ 2 - q2) + mLb * (2 * f.F1 * mL * (mL - mLb) - 2 * f.F4 * mL * mLb + f.F3 * (mL ^ 2 - mLb ^ 2 + q2))) / (2 * mL * (mL - mLb) * mLb ^ 2)

/-- `fAt` of the quark model.  /repo/flavio/physics/bdecays/formfactors/lambdab_32/QuarkModel_MCN.py:89. -/
noncomputable def qmAt (f : QM) (q2 mL mLb : ℝ) : ℝ :=
  (f.G2 * mL * (mL ^ 2 - mLb ^ 2 - q2) + mLb * (-2 * f.G4 * mL * mLb + 2 * f.G1 * mL * (mL + mLb) + f.G3 * (mL ^ 2 - mLb ^ 2 + q2))) / (2 * mL * mLb ^ 2 * (mL + mLb))

/-- `ff_equiv` of the quark model (division of the reals, all `uncertainty` parameters 1, their central value).
/repo/flavio/physics/bdecays/formfactors/lambdab_32/QuarkModel_MCN.py:61-104. -/
noncomputable def qmFF (f : QM) (q2 mL mLb : ℝ) : FF :=
  { fVperp := f.F1 / mLb - f.F4 * mL / (mL ^ 2 - 2 * mL * mLb + mLb ^ 2 - q2)
    fV0 := (f.F2 * mL * (mL ^ 4 + (mLb ^ 2 - q2) ^ 2 - 2 * mL ^ 2 * (mLb ^ 2 + q2))
        + mLb * (2 * f.F1 * mL * (mL + mLb) * (mL ^ 2 - 2 * mL * mLb + mLb ^ 2 - q2) - 2 * f.F4 * mL * mLb * (mL ^ 2 - mLb ^ 2 + q2)
          + f.F3 * (mL ^ 4 + (mLb ^ 2 - q2) ^ 2 - 2 * mL ^ 2 * (mLb ^ 2 + q2))))
      / (2 * mL * mLb ^ 2 * (mL + mLb) * (mL ^ 2 - 2 * mL * mLb + mLb ^ 2 - q2))
    fVg := f.F4
    fAperp := f.G1 / mLb - f.G4 * mL / (mL ^ 2 + 2 * mL * mLb + mLb ^ 2 - q2)
    fA0 := (f.G2 * mL * (mL ^ 4 + (mLb ^ 2 - q2) ^ 2 - 2 * mL ^ 2 * (mLb ^ 2 + q2))
        + mLb * (2 * f.G1 * mL * (mL - mLb) * (mL ^ 2 + 2 * mL * mLb + mLb ^ 2 - q2) - 2 * f.G4 * mL * mLb * (mL ^ 2 - mLb ^ 2 + q2)
          + f.G3 * (mL ^ 4 + (mLb ^ 2 - q2) ^ 2 - 2 * mL ^ 2 * (mLb ^ 2 + q2))))
      / (2 * mL * (mL - mLb) * mLb ^ 2 * (mL ^ 2 + 2 * mL * mLb + mLb ^ 2 - q2))
    fAg := -f.G4
    fTperp := (2 * f.H5 * mL - ((f.H3 + f.H6) * mL ^ 2) / mLb + f.H3 * mLb + 2 * f.H1 * mL * (mL + mLb) / mLb
        - 2 * (f.H5 + f.H6) * mL ^ 2 * (mL - mLb) / ((mL - mLb) ^ 2 - q2) - f.H3 * q2 / mLb + f.H2 * mL * (-mL ^ 2 + mLb ^ 2 + q2) / mLb ^ 2)
      / (2 * mL * (mL + mLb))
    fT0 := (f.H1 + f.H2 - f.H3 - f.H6) / mLb - 2 * ((f.H5 + f.H6) * mL) / ((mL - mLb) ^ 2 - q2) + f.H4 * ((mL + mLb) ^ 2 - q2) / (2 * mL * mLb ^ 2)
    fTg := f.H5 * (mL - mLb) - f.H6 * (-mL ^ 2 + mLb ^ 2 + q2) / (2 * mLb)
    fT5perp := -1 / (2 * mL * (mL - mLb) * mLb ^ 2 * (mL ^ 2 + 2 * mL * mLb + mLb ^ 2 - q2))
      * (f.H2 * mL * (mL ^ 4 + (mLb ^ 2 - q2) ^ 2 - 2 * mL ^ 2 * (mLb ^ 2 + q2))
        + mLb * (mL * (2 * f.H5 * mLb * (mL * mLb + mLb ^ 2 - q2) + f.H6 * mL * (mL ^ 2 + 2 * mL * mLb + mLb ^ 2 - q2))
          - 2 * f.H1 * mL * (mL - mLb) * (mL ^ 2 + 2 * mL * mLb + mLb ^ 2 - q2)
          + f.H3 * (mL ^ 4 + (mLb ^ 2 - q2) ^ 2 - 2 * mL ^ 2 * (mLb ^ 2 + q2))))
    fT50 := f.H1 / mLb + 2 * f.H5 * mL / (mL ^ 2 + 2 * mL * mLb + mLb ^ 2 - q2)
    fT5g := -f.H5 * (mL + mLb) - f.H6 * (mL ^ 2 + 2 * mL * mLb + mLb ^ 2 - q2) / (2 * mLb) }

end Verif.L1520
