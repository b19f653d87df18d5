import Verif.Physics.Angular.Bins
import Verif.Physics.Angular.Amps
import Verif.Physics.FormFactors.Series
/-!
# `Λb → Λ ℓ⁺ ℓ⁻`
(`flavio/physics/bdecays/lambdablambdall.py`, `lambdablambdall_subleading.py`)

The masses, the effective Wilson coefficients (`get_wceff`), the form factors and the subleading amplitudes are arguments.
Division and roots are those of the reals; in the allowed region the arguments of the roots are non-negative and `q2 > 0`.
-/
set_option linter.unusedVariables false
set_option linter.unusedSimpArgs false
namespace Verif.Lambdab
open Verif.Angular Verif.FormFactors Complex
local notation "conj" => starRingEnd ℂ

/-- The keys of `helicity_amps` used by `transverity_amps` (those with both signs reversed follow).
/repo/flavio/physics/bdecays/lambdablambdall.py:11-35. -/
structure HA where
  v0 : ℝ
  vp : ℝ
  a0 : ℝ
  ap : ℝ
  t0 : ℝ
  tp : ℝ
  t50 : ℝ
  t5p : ℝ

/-- `helicity_amps`.  /repo/flavio/physics/bdecays/lambdablambdall.py:11-35. -/
noncomputable def helAmps (q2 mLb mL : ℝ) (ff : FFL) : HA :=
  let sp := (mLb + mL) ^ 2 - q2
  let sm := (mLb - mL) ^ 2 - q2
  { v0 := ff.fV0 * (mLb + mL) / Real.sqrt q2 * Real.sqrt sm
    vp := -ff.fVperp * Real.sqrt (2 * sm)
    a0 := ff.fA0 * (mLb - mL) / Real.sqrt q2 * Real.sqrt sp
    ap := -ff.fAperp * Real.sqrt (2 * sp)
    t0 := -ff.fT0 * Real.sqrt q2 * Real.sqrt sm
    tp := ff.fTperp * (mLb + mL) * Real.sqrt (2 * sm)
    t50 := ff.fT50 * Real.sqrt q2 * Real.sqrt sp
    t5p := -ff.fT5perp * (mLb - mL) * Real.sqrt (2 * sp) }

/-- The amplitudes of one chirality of the leptons.  /repo/flavio/physics/bdecays/lambdablambdall.py:37-62. -/
structure Four where
  perp1 : ℂ
  para1 : ℂ
  perp0 : ℂ
  para0 : ℂ

/-- The dictionary of transversity amplitudes.  /repo/flavio/physics/bdecays/lambdablambdall.py:37-62. -/
structure Ta where
  L : Four
  R : Four

/-- The amplitudes of one chirality for given coefficient `C9 ∓ C10` (`cpl`, `cmi` the sum and difference with the primed ones).
/repo/flavio/physics/bdecays/lambdablambdall.py:45-61. -/
noncomputable def four (ha : HA) (q2 mqh : ℝ) (c7pl c7mi cpl cmi : ℂ) : Four :=
  { perp1 := (Real.sqrt 2 : ℂ) * (cpl * ha.vp - 2 * mqh * c7pl / q2 * ha.tp)
    para1 := -(Real.sqrt 2 : ℂ) * (cmi * ha.ap + 2 * mqh * c7mi / q2 * ha.t5p)
    perp0 := (Real.sqrt 2 : ℂ) * (cpl * ha.v0 - 2 * mqh * c7pl / q2 * ha.t0)
    para0 := -(Real.sqrt 2 : ℂ) * (cmi * ha.a0 + 2 * mqh * c7mi / q2 * ha.t50) }

/-- `prefactor*v`.  /repo/flavio/physics/bdecays/lambdablambdall.py:62. -/
def Four.scale (N : ℂ) (x : Four) : Four := ⟨N * x.perp1, N * x.para1, N * x.perp0, N * x.para0⟩

/-- `transverity_amps`.  /repo/flavio/physics/bdecays/lambdablambdall.py:37-62. -/
noncomputable def transAmps (ha : HA) (q2 mqh : ℝ) (wc : Wc) (N : ℂ) : Ta :=
  { L := (four ha q2 mqh (wc.c7 + wc.c7p) (wc.c7 - wc.c7p) ((wc.v - wc.a) + (wc.vp - wc.ap)) ((wc.v - wc.a) - (wc.vp - wc.ap))).scale N
    R := (four ha q2 mqh (wc.c7 + wc.c7p) (wc.c7 - wc.c7p) ((wc.v + wc.a) + (wc.vp + wc.ap)) ((wc.v + wc.a) - (wc.vp + wc.ap))).scale N }

/-- The result of `angular_coefficients`.  /repo/flavio/physics/bdecays/lambdablambdall.py:64-104. -/
structure Ks where
  ss1 : ℝ
  cc1 : ℝ
  c1 : ℝ
  ss2 : ℝ
  cc2 : ℝ
  c2 : ℝ
  sc3 : ℝ
  s3 : ℝ
  sc4 : ℝ
  s4 : ℝ

/-- `angular_coefficients`.  /repo/flavio/physics/bdecays/lambdablambdall.py:64-104. -/
noncomputable def angCoeff (ta : Ta) (alpha : ℝ) : Ks :=
  { ss1 := 1 / 4 * (‖ta.R.perp1‖ ^ 2 + ‖ta.L.perp1‖ ^ 2 + ‖ta.R.para1‖ ^ 2 + ‖ta.L.para1‖ ^ 2
      + 2 * ‖ta.R.perp0‖ ^ 2 + 2 * ‖ta.L.perp0‖ ^ 2 + 2 * ‖ta.R.para0‖ ^ 2 + 2 * ‖ta.L.para0‖ ^ 2)
    cc1 := 1 / 2 * (‖ta.R.perp1‖ ^ 2 + ‖ta.L.perp1‖ ^ 2 + ‖ta.R.para1‖ ^ 2 + ‖ta.L.para1‖ ^ 2)
    c1 := -(ta.R.perp1 * conj ta.R.para1 - ta.L.perp1 * conj ta.L.para1).re
    ss2 := alpha / 2 * (ta.R.perp1 * conj ta.R.para1 + 2 * ta.R.perp0 * conj ta.R.para0
      + ta.L.perp1 * conj ta.L.para1 + 2 * ta.L.perp0 * conj ta.L.para0).re
    cc2 := alpha * (ta.R.perp1 * conj ta.R.para1 + ta.L.perp1 * conj ta.L.para1).re
    c2 := -alpha / 2 * (‖ta.R.perp1‖ ^ 2 - ‖ta.L.perp1‖ ^ 2 + ‖ta.R.para1‖ ^ 2 - ‖ta.L.para1‖ ^ 2)
    sc3 := alpha / Real.sqrt 2 * (ta.R.perp1 * conj ta.R.perp0 - ta.R.para1 * conj ta.R.para0
      + ta.L.perp1 * conj ta.L.perp0 - ta.L.para1 * conj ta.L.para0).im
    s3 := alpha / Real.sqrt 2 * (ta.R.perp1 * conj ta.R.para0 - ta.R.para1 * conj ta.R.perp0
      - ta.L.perp1 * conj ta.L.para0 + ta.L.para1 * conj ta.L.perp0).im
    sc4 := alpha / Real.sqrt 2 * (ta.R.perp1 * conj ta.R.para0 - ta.R.para1 * conj ta.R.perp0
      + ta.L.perp1 * conj ta.L.para0 - ta.L.para1 * conj ta.L.perp0).im
    s4 := alpha / Real.sqrt 2 * (ta.R.perp1 * conj ta.R.perp0 - ta.R.para1 * conj ta.R.para0
      - ta.L.perp1 * conj ta.L.perp0 + ta.L.para1 * conj ta.L.para0).im }

/-- What the functions need at one point of the parameter space: masses, life time, decay asymmetry, `GF * xi_t * alpha_e`, effective Wilson coefficients and
form factors as functions of `q2`, and the subleading amplitudes at low and high `q2`.
/repo/flavio/physics/bdecays/lambdablambdall.py:106-160. -/
structure Inp where
  mLb : ℝ
  mL : ℝ
  ml : ℝ
  mb : ℝ
  tau : ℝ
  alpha : ℝ
  n0 : ℂ
  wc : ℝ → Wc
  ff : ℝ → FFL
  low : ℝ → Ta
  high : ℝ → Ta

/-- `prefactor`.  /repo/flavio/physics/bdecays/lambdablambdall.py:110-116. -/
noncomputable def pref (d : Inp) (q2 : ℝ) : ℂ :=
  d.n0 * (Real.sqrt q2 * Common.lambdaK (d.mLb ^ 2) (d.mL ^ 2) q2 ^ (1 / 4 : ℝ) / Real.sqrt (3 * 2 * d.mLb ^ 3 * Real.pi ^ 5) / 32 : ℝ)

/-- `get_transverity_amps_ff`.  /repo/flavio/physics/bdecays/lambdablambdall.py:119-134. -/
noncomputable def ampsFF (d : Inp) (q2 : ℝ) : Ta :=
  transAmps (helAmps q2 d.mLb d.mL (d.ff q2)) q2 d.mb (d.wc q2) (pref d q2)

/-- The empty dictionary: no contribution.  /repo/flavio/physics/bdecays/lambdablambdall.py:145-146. -/
def Ta.zero : Ta := ⟨⟨0, 0, 0, 0⟩, ⟨0, 0, 0, 0⟩⟩

open Classical in
/-- `get_subleading`.  /repo/flavio/physics/bdecays/lambdablambdall.py:137-146. -/
noncomputable def sub (d : Inp) (q2 : ℝ) : Ta := if q2 ≤ 9 then d.low q2 else if q2 > 14 then d.high q2 else Ta.zero

/-- Addition of the values of one chirality (`add_dict`).  /repo/flavio/physics/bdecays/lambdablambdall.py:151-154. -/
def Four.add (x y : Four) : Four := ⟨x.perp1 + y.perp1, x.para1 + y.para1, x.perp0 + y.perp0, x.para0 + y.para0⟩

/-- `get_transverity_amps` (the warning is not modelled).  /repo/flavio/physics/bdecays/lambdablambdall.py:148-154. -/
noncomputable def amps (d : Inp) (q2 : ℝ) : Ta := ⟨(ampsFF d q2).L.add (sub d q2).L, (ampsFF d q2).R.add (sub d q2).R⟩

open Classical in
/-- `get_obs`.  /repo/flavio/physics/bdecays/lambdablambdall.py:157-166. -/
noncomputable def getObs (d : Inp) (F : Ks → ℝ) (q2 : ℝ) : ℝ :=
  if q2 < 4 * d.ml ^ 2 ∨ q2 > (d.mLb - d.mL) ^ 2 then 0 else F (angCoeff (amps d q2) d.alpha)

/-- `dGdq2`.  /repo/flavio/physics/bdecays/lambdablambdall.py:168-169. -/
def dG (K : Ks) : ℝ := 2 * K.ss1 + K.cc1
/-- `FL_num`.  /repo/flavio/physics/bdecays/lambdablambdall.py:171-172. -/
def flNum (K : Ks) : ℝ := 2 * K.ss1 - K.cc1
/-- `AFBl_num`.  /repo/flavio/physics/bdecays/lambdablambdall.py:174-175. -/
noncomputable def afblNum (K : Ks) : ℝ := 3 / 2 * K.c1
/-- `AFBh_num`.  /repo/flavio/physics/bdecays/lambdablambdall.py:177-178. -/
noncomputable def afbhNum (K : Ks) : ℝ := K.ss2 + K.cc2 / 2
/-- `AFBlh_num`.  /repo/flavio/physics/bdecays/lambdablambdall.py:180-181. -/
noncomputable def afblhNum (K : Ks) : ℝ := 3 / 4 * K.c2

/-- `dbrdq2`.  /repo/flavio/physics/bdecays/lambdablambdall.py:183-185. -/
noncomputable def dbr (d : Inp) (q2 : ℝ) : ℝ := d.tau * getObs d dG q2

/-- `dbrdq2_int`.  /repo/flavio/physics/bdecays/lambdablambdall.py:187-190. -/
noncomputable def dbrInt (nint : Nint) (d : Inp) (a b : ℝ) : ℝ := nint (dbr d) a b (5 / 1000) / (b - a)

/-- `obs_int`.  /repo/flavio/physics/bdecays/lambdablambdall.py:192-195. -/
noncomputable def obsIntL (nint : Nint) (d : Inp) (F : Ks → ℝ) (a b : ℝ) : ℝ := nint (getObs d F) a b (5 / 1000)

open Classical in
/-- `obs_ratio_func`.  /repo/flavio/physics/bdecays/lambdablambdall.py:209-216. -/
noncomputable def ratio (d : Inp) (F : Ks → ℝ) (q2 : ℝ) : Except Py.PyErr ℝ :=
  if getObs d F q2 = 0 then .ok 0 else Running.pyDiv (getObs d F q2) (getObs d dG q2)

open Classical in
/-- `obs_int_ratio_func`.  /repo/flavio/physics/bdecays/lambdablambdall.py:218-225. -/
noncomputable def ratioInt (nint : Nint) (d : Inp) (F : Ks → ℝ) (a b : ℝ) : Except Py.PyErr ℝ :=
  if obsIntL nint d F a b = 0 then .ok 0 else Running.pyDiv (obsIntL nint d F a b) (obsIntL nint d dG a b)

/-! ## The subleading amplitudes -/

/-- The four shifts of a Wilson coefficient.  /repo/flavio/physics/bdecays/lambdablambdall_subleading.py:22-54. -/
structure Shift where
  perp0 : ℂ
  para0 : ℂ
  perp1 : ℂ
  para1 : ℂ

/-- The dictionary `wc` with all entries zero.  /repo/flavio/physics/bdecays/lambdablambdall_subleading.py:18. -/
def wc0 : Wc := ⟨0, 0, 0, 0, 0, 0, 0, 0, 0, 0, 0, 0⟩

/-- `_transversity_amps_deltaC` with `C_name = '7'`.  /repo/flavio/physics/bdecays/lambdablambdall_subleading.py:10-20. -/
noncomputable def dC7 (d : Inp) (q2 : ℝ) (x : ℂ) : Ta :=
  transAmps (helAmps q2 d.mLb d.mL (d.ff q2)) q2 d.mb { wc0 with c7 := x } (pref d q2)

/-- `_transversity_amps_deltaC` with `C_name = 'v'`.  /repo/flavio/physics/bdecays/lambdablambdall_subleading.py:10-20. -/
noncomputable def dC9 (d : Inp) (q2 : ℝ) (x : ℂ) : Ta :=
  transAmps (helAmps q2 d.mLb d.mL (d.ff q2)) q2 d.mb { wc0 with v := x } (pref d q2)

/-- `transversity_amps_deltaC7`.  /repo/flavio/physics/bdecays/lambdablambdall_subleading.py:23-37. -/
noncomputable def ampsC7 (d : Inp) (q2 : ℝ) (s : Shift) : Ta :=
  ⟨⟨(dC7 d q2 s.perp1).L.perp1, (dC7 d q2 s.para1).L.para1, (dC7 d q2 s.perp0).L.perp0, (dC7 d q2 s.para0).L.para0⟩,
   ⟨(dC7 d q2 s.perp1).R.perp1, (dC7 d q2 s.para1).R.para1, (dC7 d q2 s.perp0).R.perp0, (dC7 d q2 s.para0).R.para0⟩⟩

/-- `transversity_amps_deltaC9`.  /repo/flavio/physics/bdecays/lambdablambdall_subleading.py:39-53. -/
noncomputable def ampsC9 (d : Inp) (q2 : ℝ) (s : Shift) : Ta :=
  ⟨⟨(dC9 d q2 s.perp1).L.perp1, (dC9 d q2 s.para1).L.para1, (dC9 d q2 s.perp0).L.perp0, (dC9 d q2 s.para0).L.para0⟩,
   ⟨(dC9 d q2 s.perp1).R.perp1, (dC9 d q2 s.para1).R.para1, (dC9 d q2 s.perp0).R.perp0, (dC9 d q2 s.para0).R.para0⟩⟩

/-- `transversity_amps_deltaC7_polynomial`: the shift `a + b q2`.  /repo/flavio/physics/bdecays/lambdablambdall_subleading.py:58-65. -/
noncomputable def shift7 (a b : Shift) (q2 : ℝ) : Shift :=
  ⟨a.perp0 + b.perp0 * q2, a.para0 + b.para0 * q2, a.perp1 + b.perp1 * q2, a.para1 + b.para1 * q2⟩

end Verif.Lambdab
