import Verif.Physics.Semilep.P
import Verif.Physics.Angular.VObs
/-!
# Semi-leptonic decays to a vector meson: `B → V ℓ ν` (`flavio/physics/bdecays/bvlnu.py`): model
-/
set_option linter.unusedVariables false
set_option linter.unusedSimpArgs false
namespace Verif.Semilep.Vec
open Verif.Py Verif.Common Verif.Angular Verif.Running Verif.Semilep Complex ComplexConjugate MeasureTheory Set

/-- What the predictions for one meson pair read: masses, life time, whether the vector is a `rho0` or `omega`, the running
quark masses, `G_F`, the CKM element, the form factors, the lepton masses, the Standard Model coefficient and the
Wilson coefficients for charged lepton and neutrino.  /repo/flavio/physics/bdecays/bvlnu.py:15-82,318-325. -/
structure VInp where
  mM : ℝ
  mV : ℝ
  tau : ℝ
  neutral : Bool
  mb : ℝ
  mlight : ℝ
  GF : ℝ
  V : ℂ
  ff : ℝ → FFV
  m : Fin 3 → ℝ
  csm : ℝ
  wc : Fin 3 → Fin 3 → CC

/-- `c_sm` of `get_wceff_fccc`.  /repo/flavio/physics/bdecays/wilsoncoefficients.py:214-217. -/
noncomputable def csmV (d : VInp) (l n : Fin 3) : ℂ := if l = n then (d.csm : ℂ) else 0

/-- `prefactor`.  /repo/flavio/physics/bdecays/bvlnu.py:20-37. -/
noncomputable def prefV (d : VInp) (l : Fin 3) (q2 : ℝ) : ℂ :=
  if q2 ≤ d.m l ^ 2 then 0 else ((4 * d.GF / Real.sqrt 2 : ℝ) : ℂ) * d.V

/-- The dictionary of zeros.  /repo/flavio/physics/bdecays/bvlnu.py:66-67. -/
def JV.zero : JV := ⟨0, 0, 0, 0, 0, 0, 0, 0, 0, 0, 0, 0⟩

open Classical in
/-- `_get_angularcoeff`.  /repo/flavio/physics/bdecays/bvlnu.py:59-81. -/
noncomputable def jOneV (d : VInp) (l : Fin 3) (q2 : ℝ) (n : Fin 3) : JV :=
  if l ≠ n ∧ allZero (wcEff (csmV d l n) (d.wc l n)) then JV.zero
  else angularV (helicityV q2 d.mM d.mV d.mb d.mlight (d.m l) 0 (d.ff q2) (wcEff (csmV d l n) (d.wc l n)) (prefV d l q2))
    q2 d.mM d.mV (d.m l) 0

/-- `get_angularcoeff`.  /repo/flavio/physics/bdecays/bvlnu.py:39-55. -/
noncomputable def jSumV (d : VInp) (l : Fin 3) (q2 : ℝ) : JV :=
  ⟨∑ n, (jOneV d l q2 n).j1s, ∑ n, (jOneV d l q2 n).j1c, ∑ n, (jOneV d l q2 n).j2s, ∑ n, (jOneV d l q2 n).j2c,
    ∑ n, (jOneV d l q2 n).j6s, ∑ n, (jOneV d l q2 n).j6c, ∑ n, (jOneV d l q2 n).j3, ∑ n, (jOneV d l q2 n).j4,
    ∑ n, (jOneV d l q2 n).j5, ∑ n, (jOneV d l q2 n).j7, ∑ n, (jOneV d l q2 n).j8, ∑ n, (jOneV d l q2 n).j9⟩

/-- `dGdq2_L`.  /repo/flavio/physics/bdecays/bvlnu.py:87-90. -/
noncomputable def dGL (J : JV) : ℝ := 3 / 4 * J.j1c - 1 / 4 * J.j2c
/-- `dGdq2_T`.  /repo/flavio/physics/bdecays/bvlnu.py:92-95. -/
noncomputable def dGT (J : JV) : ℝ := 3 / 2 * J.j1s - 1 / 2 * J.j2s

/-- `dG_dq2_dcosthl` (keys `1 c c2`).  /repo/flavio/physics/bdecays/bvlnu.py:105-111. -/
noncomputable def dGcl (J : JV) : ℝ × ℝ × ℝ :=
  (3 / 8 * (J.j1c + 2 * J.j1s), 3 / 8 * (J.j6c + 2 * J.j6s), 3 / 8 * (J.j2c + 2 * J.j2s))
/-- `dG_dq2_dcosthV` (keys `c^2 s^2`).  /repo/flavio/physics/bdecays/bvlnu.py:113-118. -/
noncomputable def dGcV (J : JV) : ℝ × ℝ := (-3 / 8 * (-3 * J.j1c + J.j2c), -3 / 8 * (-3 * J.j1s + J.j2s))
/-- `dG_dq2_dphi` (keys `1 c2 s2`).  /repo/flavio/physics/bdecays/bvlnu.py:120-126. -/
noncomputable def dGphi (J : JV) : ℝ × ℝ × ℝ :=
  (1 / (8 * Real.pi) * (3 * J.j1c + 6 * J.j1s - J.j2c - 2 * J.j2s), 1 / (2 * Real.pi) * J.j3, 1 / (2 * Real.pi) * J.j9)

/-- `sum([y * ang[a] for a, y in dG.items()])` with `_cos_angle_diff` for the lepton angle.
/repo/flavio/physics/bdecays/bvlnu.py:128-132,211-213. -/
noncomputable def clDiff (J : JV) (c : ℝ) : ℝ := (dGcl J).1 * 1 + (dGcl J).2.1 * c + (dGcl J).2.2 * (2 * c ^ 2 - 1)
/-- The same with `_cos_angle_int`.  /repo/flavio/physics/bdecays/bvlnu.py:134-139,189-196. -/
noncomputable def clInt (J : JV) (a b : ℝ) : ℝ :=
  (dGcl J).1 * (b - a) + (dGcl J).2.1 * (b ^ 2 / 2 - a ^ 2 / 2) + (dGcl J).2.2 * ((2 * b ^ 3 / 3 - b) - (2 * a ^ 3 / 3 - a))
/-- `_cos_angle_diff` for the vector's angle.  /repo/flavio/physics/bdecays/bvlnu.py:128-132,239-247. -/
noncomputable def cVDiff (J : JV) (c : ℝ) : ℝ := (dGcV J).1 * c ^ 2 + (dGcV J).2 * (1 - c ^ 2)
/-- `_cos_angle_int` for the vector's angle.  /repo/flavio/physics/bdecays/bvlnu.py:134-139,222-232. -/
noncomputable def cVInt (J : JV) (a b : ℝ) : ℝ :=
  (dGcV J).1 * (b ^ 3 / 3 - a ^ 3 / 3) + (dGcV J).2 * ((b - b ^ 3 / 3) - (a - a ^ 3 / 3))
/-- `_angle_diff`.  /repo/flavio/physics/bdecays/bvlnu.py:141-144,276-284. -/
noncomputable def phiDiff (J : JV) (p : ℝ) : ℝ :=
  (dGphi J).1 * 1 + (dGphi J).2.1 * Real.cos (2 * p) + (dGphi J).2.2 * Real.sin (2 * p)
/-- `_angle_int`.  /repo/flavio/physics/bdecays/bvlnu.py:146-149,256-266. -/
noncomputable def phiInt (J : JV) (a b : ℝ) : ℝ :=
  (dGphi J).1 * (b - a) + (dGphi J).2.1 * (Real.sin (2 * b) / 2 - Real.sin (2 * a) / 2)
    + (dGphi J).2.2 * (-Real.cos (2 * b) / 2 - -Real.cos (2 * a) / 2)

/-- `BRfac`.  /repo/flavio/physics/bdecays/bvlnu.py:291-297. -/
noncomputable def brFac (d : VInp) : ℝ := if d.neutral then 1 / 2 else 1

/-- `not kinem_allowed`.  /repo/flavio/physics/bdecays/bvlnu.py:162-170. -/
def forbidden (d : VInp) (l : Fin 3) (q2 : ℝ) : Prop := q2 < d.m l ^ 2 ∨ (d.mM - d.mV) ^ 2 < q2

open Classical in
/-- The common shape of `dBRdq2_lep`, `dBR_dq2_dcosthl`, `dBR_dq2_dcosthV`, `dBR_dq2_dphi` and their binned versions: zero if `q2` is
not allowed, else a linear function of the angular coefficients times life time and `BRfac`.
/repo/flavio/physics/bdecays/bvlnu.py:187-284,299-310. -/
noncomputable def dObs (d : VInp) (F : JV → ℝ) (l : Fin 3) (q2 : ℝ) : ℝ :=
  if forbidden d l q2 then 0 else d.tau * F (jSumV d l q2) * brFac d

/-- The argument `A`: `None`, `'L'` or `'T'`.  /repo/flavio/physics/bdecays/bvlnu.py:304-310. -/
inductive Pol where
  | all
  | L
  | T

/-- The function of the coefficients for `A`.  /repo/flavio/physics/bdecays/bvlnu.py:304-310. -/
noncomputable def polF : Pol → JV → ℝ
  | .all => dGdq2
  | .L => dGL
  | .T => dGT

/-- `dBRdq2`.  /repo/flavio/physics/bdecays/bvlnu.py:299-319. -/
noncomputable def dbrV (d : VInp) (A : Pol) (a : LArg) (q2 : ℝ) : ℝ :=
  match a with
  | .l => (dObs d (polF A) 0 q2 + dObs d (polF A) 1 q2) / 2
  | .one l => dObs d (polF A) l q2

/-- `BR_binned`.  /repo/flavio/physics/bdecays/bvlnu.py:324-327. -/
noncomputable def brBinnedV (nint : Nint) (d : VInp) (A : Pol) (a : LArg) (q2min q2max : ℝ) : ℝ :=
  nint (dbrV d A a) q2min q2max (5 / 1000)

/-- `_BR_tot`.  /repo/flavio/physics/bdecays/bvlnu.py:417-423. -/
noncomputable def brTotLepV (nint : Nint) (d : VInp) (A : Pol) (l : Fin 3) : ℝ :=
  brBinnedV nint d A (.one l) (d.m l ^ 2) ((d.mM - d.mV) ^ 2)

/-- `BR_tot`.  /repo/flavio/physics/bdecays/bvlnu.py:425-430. -/
noncomputable def brTotV (nint : Nint) (d : VInp) (A : Pol) (a : LArg) : ℝ :=
  match a with
  | .l => (brTotLepV nint d A 0 + brTotLepV nint d A 1) / 2
  | .one l => brTotLepV nint d A l

/-- `BR_binned_leptonflavour`.  /repo/flavio/physics/bdecays/bvlnu.py:435-440. -/
noncomputable def rBinnedV (nint : Nint) (d : VInp) (A : Pol) (a b : LArg) (q2min q2max : ℝ) : Except PyErr ℝ :=
  ratio (brBinnedV nint d A a q2min q2max) (brBinnedV nint d A b q2min q2max)
/-- `BR_tot_leptonflavour`.  /repo/flavio/physics/bdecays/bvlnu.py:442-447. -/
noncomputable def rTotV (nint : Nint) (d : VInp) (A : Pol) (a b : LArg) : Except PyErr ℝ :=
  ratio (brTotV nint d A a) (brTotV nint d A b)
/-- `BR_binned_tot_function`.  /repo/flavio/physics/bdecays/bvlnu.py:332-339. -/
noncomputable def relBinnedV (nint : Nint) (d : VInp) (A : Pol) (a : LArg) (q2min q2max : ℝ) : Except PyErr ℝ :=
  ratio (brBinnedV nint d A a q2min q2max) (brTotV nint d A a)

open Classical in
/-- `FL_diff`: `KeyError` for `'l'`, which has no mass parameter.  /repo/flavio/physics/bdecays/bvlnu.py:162-176. -/
noncomputable def flDiff (d : VInp) (a : LArg) (q2 : ℝ) : Except PyErr ℝ :=
  match a with
  | .l => .error .keyError
  | .one l => if forbidden d l q2 then .ok 0 else pyDiv (dGL (jSumV d l q2)) (dGdq2 (jSumV d l q2))

/-- `FL_binned`.  /repo/flavio/physics/bdecays/bvlnu.py:179-184. -/
noncomputable def flBinned (nint : Nint) (d : VInp) (a : LArg) (q2min q2max : ℝ) : Except PyErr ℝ :=
  ratio (brBinnedV nint d .L a q2min q2max) (brBinnedV nint d .all a q2min q2max)

/-- `FL_tot_function`: `KeyError` for `'l'`.  /repo/flavio/physics/bdecays/bvlnu.py:347-355. -/
noncomputable def flTot (nint : Nint) (d : VInp) (a : LArg) : Except PyErr ℝ :=
  match a with
  | .l => .error .keyError
  | .one l => flBinned nint d (.one l) (d.m l ^ 2) ((d.mM - d.mV) ^ 2)

/-- `obs_q2int`.  /repo/flavio/physics/bdecays/bvlnu.py:151-160. -/
noncomputable def q2int (nint : Nint) (d : VInp) (f : ℝ → ℝ) (l : Fin 3) : ℝ :=
  nint f (d.m l ^ 2) ((d.mM - d.mV) ^ 2) (5 / 1000)

/-- `Itot_norm`: `KeyError` for `'l'`.  (Python floats are assumed: `0/0` is `ZeroDivisionError`.)
/repo/flavio/physics/bdecays/bvlnu.py:186-195. -/
noncomputable def itotNorm (nint : Nint) (d : VInp) (F : JV → ℝ) (a : LArg) : Except PyErr ℝ :=
  match a with
  | .l => .error .keyError
  | .one l => pyDiv (q2int nint d (fun q => F (jSumV d l q)) l) (q2int nint d (fun q => dGdq2 (jSumV d l q)) l)

/-- `FLt_tot_function`.  /repo/flavio/physics/bdecays/bvlnu.py:357-362. -/
noncomputable def fltTot (nint : Nint) (d : VInp) (a : LArg) : Except PyErr ℝ := itotNorm nint d (fun J => -J.j2c) a
/-- `AFB_tot_function`.  /repo/flavio/physics/bdecays/bvlnu.py:364-369. -/
noncomputable def afbTot (nint : Nint) (d : VInp) (a : LArg) : Except PyErr ℝ :=
  itotNorm nint d (fun J => 3 / 8 * (2 * J.j6s + J.j6c)) a
/-- `I3_tot_function`.  /repo/flavio/physics/bdecays/bvlnu.py:371-376. -/
noncomputable def i3Tot (nint : Nint) (d : VInp) (a : LArg) : Except PyErr ℝ := itotNorm nint d (fun J => J.j3) a

/-- Integration over `q2`, and the average of e and mu for `'l'` (`BR_binned_costhl_function` and its siblings).
/repo/flavio/physics/bdecays/bvlnu.py:198-201,215-219,378-415. -/
noncomputable def angObs (nint : Nint) (d : VInp) (F : JV → ℝ) (a : LArg) : ℝ :=
  match a with
  | .l => (q2int nint d (dObs d F 0) 0 + q2int nint d (dObs d F 1) 1) / 2
  | .one l => q2int nint d (dObs d F l) l

/-- `<BR>/<cl>`.  /repo/flavio/physics/bdecays/bvlnu.py:187-201,378-383. -/
noncomputable def brBinCl (nint : Nint) (d : VInp) (a : LArg) (x y : ℝ) : ℝ := angObs nint d (fun J => clInt J x y) a
/-- `<BR>/<cV>`.  /repo/flavio/physics/bdecays/bvlnu.py:222-237,385-390. -/
noncomputable def brBinCV (nint : Nint) (d : VInp) (a : LArg) (x y : ℝ) : ℝ := angObs nint d (fun J => cVInt J x y) a
/-- `<BR>/<phi>`.  /repo/flavio/physics/bdecays/bvlnu.py:256-271,392-397. -/
noncomputable def brBinPhi (nint : Nint) (d : VInp) (a : LArg) (x y : ℝ) : ℝ := angObs nint d (fun J => phiInt J x y) a
/-- `dBR/dcl`: `_cos_angle_diff` takes the root of `1 - costh**2` (`ValueError`; it is assumed that the integrator calls the
function at an allowed `q2`).  /repo/flavio/physics/bdecays/bvlnu.py:203-219,399-404. -/
noncomputable def dbrCl (nint : Nint) (d : VInp) (a : LArg) (c : ℝ) : Except PyErr ℝ :=
  if 1 - c ^ 2 < 0 then .error .valueError else .ok (angObs nint d (fun J => clDiff J c) a)
/-- `dBR/dcV`.  /repo/flavio/physics/bdecays/bvlnu.py:239-253,406-411. -/
noncomputable def dbrCV (nint : Nint) (d : VInp) (a : LArg) (c : ℝ) : Except PyErr ℝ :=
  if 1 - c ^ 2 < 0 then .error .valueError else .ok (angObs nint d (fun J => cVDiff J c) a)
/-- `dBR/dphi`.  /repo/flavio/physics/bdecays/bvlnu.py:274-288,413-418. -/
noncomputable def dbrPhi (nint : Nint) (d : VInp) (a : LArg) (p : ℝ) : ℝ := angObs nint d (fun J => phiDiff J p) a

/-! ## Specification: the rate of the literature -/

/-- The kinematic factor common to all rates: `G_F² |V|² q² √λ (1 - m²/q²)² / (192 π³ m_B³)`. (Specification.) -/
noncomputable def preV (GF V2 mM mV m q2 : ℝ) : ℝ :=
  GF ^ 2 * V2 / (192 * Real.pi ^ 3 * mM ^ 3) * q2 * Real.sqrt (kallen (mM ^ 2) (mV ^ 2) q2) * (1 - m ^ 2 / q2) ^ 2

/-- `dΓ_L/dq²`: rate to longitudinal vector mesons for the effective Hamiltonian
`4 G_F/√2 V [(1 + V_1) O_V1 + V_2 O_V2 + S_1 O_S1 + S_2 O_S2 + T O_T]` (Sakaki et al., arXiv:1309.0301, eq. (8) with the helicity amplitudes
of its appendix, expressed by the form factors `A0 A12 T23`).  `X` is `1 + V_1 - V_2`, `S` is `S_1 - S_2`.
(Specification.) -/
noncomputable def rateL (GF V2 mM mV mq ml m q2 : ℝ) (ff : FFV) (X S T : ℂ) : ℝ :=
  let al := m / Real.sqrt q2
  let H0 := -8 * mM * mV * ff.A12 / Real.sqrt q2
  let Ht := -(Real.sqrt (kallen (mM ^ 2) (mV ^ 2) q2)) / Real.sqrt q2 * ff.A0
  let HS := -(Real.sqrt (kallen (mM ^ 2) (mV ^ 2) q2)) / (mq + ml) * ff.A0
  let HT0 := -4 * mM * mV / (mM + mV) * ff.T23
  preV GF V2 mM mV m q2 *
    (‖X‖ ^ 2 * ((1 + al ^ 2 / 2) * H0 ^ 2 + 3 / 2 * al ^ 2 * Ht ^ 2) + 3 / 2 * ‖S‖ ^ 2 * HS ^ 2
      + 8 * ‖T‖ ^ 2 * (1 + 2 * al ^ 2) * HT0 ^ 2 + 3 * (X * conj S).re * al * HS * Ht - 12 * al * (X * conj T).re * HT0 * H0)

/-- `dΓ_T/dq²`: rate to transverse vector mesons; `V1` includes the Standard Model. (Specification.) -/
noncomputable def rateT (GF V2 mM mV m q2 : ℝ) (ff : FFV) (V1 V2' T : ℂ) : ℝ :=
  let al := m / Real.sqrt q2
  let sl := Real.sqrt (kallen (mM ^ 2) (mV ^ 2) q2)
  let Hp := (mM + mV) * ff.A1 - sl / (mM + mV) * ff.V
  let Hm := (mM + mV) * ff.A1 + sl / (mM + mV) * ff.V
  let HTp := 1 / Real.sqrt q2 * ((mM ^ 2 - mV ^ 2) * ff.T2 + sl * ff.T1)
  let HTm := 1 / Real.sqrt q2 * (-(mM ^ 2 - mV ^ 2) * ff.T2 + sl * ff.T1)
  preV GF V2 mM mV m q2 *
    ((1 + al ^ 2 / 2) * ((‖V1‖ ^ 2 + ‖V2'‖ ^ 2) * (Hp ^ 2 + Hm ^ 2) - 4 * (V1 * conj V2').re * Hp * Hm)
      + 8 * ‖T‖ ^ 2 * (1 + 2 * al ^ 2) * (HTp ^ 2 + HTm ^ 2) - 12 * al * (V1 * conj T).re * (HTp * Hp - HTm * Hm)
      + 12 * al * (V2' * conj T).re * (HTp * Hm - HTm * Hp))

/-! ## The rate -/

/-- Rate of one polarisation state: vector amplitude `V`, tensor amplitude `Tt`. (Specification.) -/
noncomputable def pol1 (al : ℝ) (V T : ℂ) : ℝ :=
  (1 + al ^ 2 / 2) * ‖V‖ ^ 2 + (2 + 4 * al ^ 2) * ‖T‖ ^ 2 + 6 * al * (V * conj T).im

theorem kin_u {q2 m u u' al be r : ℝ} (hm : 0 ≤ m) (h : m ^ 2 ≤ q2) (hq : 0 < q2)
    (k : Kin (laGa q2 m 0) (energy q2 m 0 m) (energy q2 m 0 0) m 0 q2 u u' al be r) :
    u ^ 2 = (q2 - m ^ 2) / 2 ∧ u' ^ 2 = (q2 - m ^ 2) / 2 ∧ al = m / Real.sqrt q2 ∧ be = m / Real.sqrt q2 := by
  obtain ⟨k1, k2, k3, k4⟩ := kin0 hm h hq
  have ha : al = m / Real.sqrt q2 := by rw [← k.ka, add_zero]
  have hb : be = m / Real.sqrt q2 := by rw [← k.kb, sub_zero]
  have hQ : 0 < Real.sqrt q2 := Real.sqrt_pos.2 hq
  have hQ2 : Real.sqrt q2 ^ 2 = q2 := Real.sq_sqrt hq.le
  have e1 := k.k1
  have e2 := k.k2
  rw [k3, k4, mul_zero, add_zero, ha, div_pow, hQ2] at e1
  rw [k3, k4, mul_zero, sub_zero, hb, div_pow, hQ2] at e2
  have hp : 0 < q2 + m ^ 2 := by positivity
  have key : ∀ w : ℝ, (q2 + m ^ 2) / (2 * Real.sqrt q2) * ((q2 - m ^ 2) / (2 * Real.sqrt q2)) = w * (1 + m ^ 2 / q2) / 2 →
      w = (q2 - m ^ 2) / 2 := by
    intro w hw
    have : (q2 + m ^ 2) / (2 * Real.sqrt q2) * ((q2 - m ^ 2) / (2 * Real.sqrt q2)) = (q2 + m ^ 2) * (q2 - m ^ 2) / (4 * q2) := by
      rw [div_mul_div_comm, show 2 * Real.sqrt q2 * (2 * Real.sqrt q2) = 4 * Real.sqrt q2 ^ 2 by ring, hQ2]
    rw [this] at hw
    have h2 : w * (1 + m ^ 2 / q2) / 2 = w * (q2 + m ^ 2) / (2 * q2) := by field_simp
    rw [h2] at hw
    field_simp at hw
    linarith
  exact ⟨key _ e1, key _ e2, ha, hb⟩

theorem nsqq (z : ℂ) : normSq z = ‖z‖ ^ 2 := (Complex.sq_norm z).symm

theorem amXF (u al : ℝ) (V T : ℂ) :
    1 / 2 * normSq (amX u al V T) + 1 / 4 * normSq (amF u al V T) = u ^ 2 / 2 * pol1 al V T := by
  rw [nX, nF]
  unfold pol1
  rw [nsqq, nsqq]
  have : ∀ x y : ℂ, (x * conj y).im = x.im * y.re - x.re * y.im := by
    intro x y; simp [Complex.mul_im]; ring
  simp only [this]
  ring

theorem amYK (r u al : ℝ) (hr : r ^ 2 = 2) (V T : ℂ) :
    1 / 2 * normSq (amY r u al (-V) (-((r : ℂ) * T))) + 1 / 4 * normSq (amK r u al (-V) (-((r : ℂ) * T))) = u ^ 2 / 2 * pol1 al V T := by
  have hc : (r : ℂ) * (r : ℂ) = 2 := by
    rw [← ofReal_mul, ← sq, hr]; norm_num
  have e1 : amY r u al (-V) (-((r : ℂ) * T)) = -amX u al V T := by
    unfold amY amX; linear_combination (-(I * u * al * T)) * hc
  have e2 : amK r u al (-V) (-((r : ℂ) * T)) = -amF u al V T := by
    unfold amK amF; linear_combination (-(I * u * T)) * hc
  rw [e1, e2, normSq_neg, normSq_neg, amXF]

/-- The rates to longitudinal and transverse vectors, for left-handed neutrinos. -/
theorem rate_forms (H : AmpV) (q2 mM mV m : ℝ) (hm : 0 ≤ m) (h : m ^ 2 ≤ q2) (hq : 0 < q2)
    (hA : H.plA = -H.plV ∧ H.miA = -H.miV ∧ H.zeA = -H.zeV) (hP : H.P = -H.S)
    (hT : H.plT = -((Real.sqrt 2 : ℝ) * H.plTt) ∧ H.miT = -((Real.sqrt 2 : ℝ) * H.miTt) ∧ H.zeT = -((Real.sqrt 2 : ℝ) * H.zeTt)) :
    let F := 32 / 3 * phaseSpace (2 ^ 9 * Real.pi ^ 3) q2 mM mV m 0 * ((q2 - m ^ 2) / 2)
    let al := m / Real.sqrt q2
    dGL (angularV H q2 mM mV m 0) = F * (pol1 al H.zeV H.zeTt + 3 / 2 * ‖H.S‖ ^ 2) ∧
    dGT (angularV H q2 mM mV m 0) = F * (pol1 al H.plV H.plTt + pol1 al H.miV H.miTt) := by
  obtain ⟨u, u', a, b, r, k⟩ := exists_kin q2 m 0 hm le_rfl hq (by simpa using h)
  obtain ⟨hu, hu', ha, hb⟩ := kin_u hm h hq k
  obtain ⟨e1, e2, e3, e4, -, -⟩ := jforms k H mM mV
  have hr := k.hr
  have r2 := k.r2
  intro F al
  obtain ⟨a1, a2, a3⟩ := hA
  obtain ⟨t1, t2, t3⟩ := hT
  rw [hr] at t1 t2 t3
  have hba : b = a := by rw [ha, hb]
  have x1 := amXF u a H.zeV H.zeTt
  have y1 := amYK r u' a r2 H.zeV H.zeTt
  have x2 := amXF u a H.plV H.plTt
  have y2 := amYK r u' a r2 H.plV H.plTt
  have x3 := amXF u a H.miV H.miTt
  have y3 := amYK r u' a r2 H.miV H.miTt
  have eal : al = a := ha.symm
  rw [eal]
  constructor
  · unfold dGL
    rw [e2, e4]
    simp only [lX, lF, a3, t3, hba, hP, normSq_neg]
    simp only [F]
    rw [← hu, ← nsqq H.S]
    generalize phaseSpace (2 ^ 9 * Real.pi ^ 3) q2 mM mV m 0 = φ
    rw [hu'.trans hu.symm] at y1 ⊢
    linear_combination (32 / 3 * φ) * x1 + (32 / 3 * φ) * y1
  · unfold dGT
    rw [e1, e3]
    simp only [tX, tF, a1, a2, t1, t2, hba]
    simp only [F]
    rw [← hu]
    generalize phaseSpace (2 ^ 9 * Real.pi ^ 3) q2 mM mV m 0 = φ
    rw [hu'.trans hu.symm] at y2 y3
    linear_combination (32 / 3 * φ) * x2 + (32 / 3 * φ) * y2 + (32 / 3 * φ) * x3 + (32 / 3 * φ) * y3

/-- The amplitudes of the code for the Hamiltonian with left-handed neutrinos. -/
theorem rate_ampV (q2 mM mV mq ml m : ℝ) (ff : FFV) (csm : ℂ) (c : CC) (hm : 0 ≤ m) (h : m ^ 2 ≤ q2) (hq : 0 < q2)
    (hM : mM ≠ 0) (hP : mM + mV ≠ 0) (hml : mq + ml ≠ 0) :
    let H := helV1 q2 mM mV mq ml m 0 ff (wcEff csm c)
    8 * dGL (angularV H q2 mM mV m 0) = rateL 1 1 mM mV mq ml m q2 ff (csm + c.VL - c.VR) (c.SR - c.SL) c.T ∧
    8 * dGT (angularV H q2 mM mV m 0) = rateT 1 1 mM mV m q2 ff (csm + c.VL) c.VR c.T := by
  intro H
  obtain ⟨k1, k2, k3, k4⟩ := kin0 hm h hq
  have hQ : 0 < Real.sqrt q2 := Real.sqrt_pos.2 hq
  have hQ2 : q2 = Real.sqrt q2 ^ 2 := (Real.sq_sqrt hq.le).symm
  have hr : Real.sqrt 2 ^ 2 = 2 := Real.sq_sqrt (by norm_num)
  have hrc : ((Real.sqrt 2 : ℝ) : ℂ) * ((Real.sqrt 2 : ℝ) : ℂ) = 2 := by rw [← ofReal_mul, ← sq, hr]; norm_num
  have hr0 : ((Real.sqrt 2 : ℝ) : ℂ) ≠ 0 := by
    rw [Ne, ofReal_eq_zero]; positivity
  have hpi : Real.pi ≠ 0 := Real.pi_ne_zero
  have hinv : ((1 / (Real.sqrt 2 * Real.sqrt q2) : ℝ) : ℂ) = (Real.sqrt 2 : ℝ) * ((1 / (2 * Real.sqrt q2) : ℝ) : ℂ) := by
    rw [← ofReal_mul]; congr 1
    rw [mul_one_div, div_eq_div_iff (by positivity) (by positivity)]
    linear_combination (-Real.sqrt q2) * hr
  have f := rate_forms H q2 mM mV m hm h hq
    ⟨by simp only [H, helV1, wcEff, transAmp, dipAmp]; push_cast; ring, by simp only [H, helV1, wcEff, transAmp, dipAmp]; push_cast; ring,
      by
        simp only [H, helV1, wcEff]; push_cast
        have : ((mM : ℂ) + mV) ≠ 0 := by exact_mod_cast hP
        have h3 : ((Real.sqrt q2 : ℝ) : ℂ) ≠ 0 := by rw [Ne, ofReal_eq_zero]; exact hQ.ne'
        field_simp
        ring⟩
    (by simp only [H, helV1, wcEff]; push_cast; ring)
    ⟨by simp only [H, helV1, wcEff, tenAmp, hinv]; push_cast; ring, by simp only [H, helV1, wcEff, tenAmp, hinv]; push_cast; ring,
      by simp only [H, helV1, wcEff]; push_cast; ring⟩
  simp only at f
  rw [f.1, f.2]
  set X := csm + c.VL - c.VR with hX
  set S := c.SR - c.SL with hS
  set V1 := csm + c.VL with hV1
  set L := Real.sqrt (kallen (mM ^ 2) (mV ^ 2) q2) with hL
  set Q := Real.sqrt q2 with hQd
  have hPc : ((mM : ℂ) + mV) ≠ 0 := by exact_mod_cast hP
  have hQc : (Q : ℂ) ≠ 0 := by rw [Ne, ofReal_eq_zero]; exact hQ.ne'
  have aze : H.zeV = ((2 * mM * mV / Q * ff.A12 : ℝ) : ℂ) * (I * X) := by
    simp only [H, helV1, wcEff, hX]; push_cast; rw [← hQd]; field_simp; ring
  have azT : H.zeTt = ((-(2 * mM * mV / (mM + mV)) * ff.T23 : ℝ) : ℂ) * c.T := by
    simp only [H, helV1, wcEff]; push_cast; ring
  have aS : H.S = ((L / 2 * ff.A0 : ℝ) : ℂ) * (I * (((mq + ml)⁻¹ / 2 : ℝ) * S + (m / (2 * q2) : ℝ) * X)) := by
    simp only [H, helV1, wcEff, sqrt_lambdaK, hX, hS]; push_cast; rw [← hL]; ring
  have apl : H.plV = I * (((L * ff.V / (mM + mV) - (mM + mV) * ff.A1) / 4 : ℝ) * V1 + ((L * ff.V / (mM + mV) + (mM + mV) * ff.A1) / 4 : ℝ) * c.VR) := by
    simp only [H, helV1, wcEff, transAmp, dipAmp, sqrt_lambdaK, hV1]; push_cast; rw [← hL]; field_simp; ring
  have ami : H.miV = I * ((-(L * ff.V / (mM + mV) + (mM + mV) * ff.A1) / 4 : ℝ) * V1 + (-(L * ff.V / (mM + mV) - (mM + mV) * ff.A1) / 4 : ℝ) * c.VR) := by
    simp only [H, helV1, wcEff, transAmp, dipAmp, sqrt_lambdaK, hV1]; push_cast; rw [← hL]; field_simp; ring
  have apT : H.plTt = (((L * ff.T1 + (mM ^ 2 - mV ^ 2) * ff.T2) / (2 * Q) : ℝ) : ℂ) * c.T := by
    simp only [H, helV1, wcEff, tenAmp, sqrt_lambdaK]; push_cast; rw [← hL, ← hQd]; ring
  have amT : H.miTt = (((-(L * ff.T1) + (mM ^ 2 - mV ^ 2) * ff.T2) / (2 * Q) : ℝ) : ℂ) * c.T := by
    simp only [H, helV1, wcEff, tenAmp, sqrt_lambdaK]; push_cast; rw [← hL, ← hQd]; ring
  have n1 : ∀ (x : ℝ) (z : ℂ), ‖(x : ℂ) * z‖ ^ 2 = x ^ 2 * ‖z‖ ^ 2 := by
    intro x z; rw [norm_mul, mul_pow, Complex.norm_real, Real.norm_eq_abs, sq_abs]
  have nI : ∀ z : ℂ, ‖I * z‖ ^ 2 = ‖z‖ ^ 2 := by intro z; rw [norm_mul, norm_I, one_mul]
  have n2 : ∀ (x y : ℝ) (z w : ℂ), ‖(x : ℂ) * z + (y : ℂ) * w‖ ^ 2 = x ^ 2 * ‖z‖ ^ 2 + 2 * x * y * (z * conj w).re + y ^ 2 * ‖w‖ ^ 2 := by
    intro x y z w
    simp only [nsq, Complex.add_re, Complex.add_im, Complex.mul_re, Complex.mul_im, conj_re, conj_im, ofReal_re, ofReal_im]
    ring
  have i1 : ∀ (x y : ℝ) (z w : ℂ), ((x : ℂ) * (I * z) * conj ((y : ℂ) * w)).im = x * y * (z * conj w).re := by
    intro x y z w
    simp only [map_mul, conj_ofReal, Complex.mul_re, Complex.mul_im, conj_re, conj_im, I_re, I_im, ofReal_re, ofReal_im]
    ring
  have i2 : ∀ (x y t : ℝ) (z w v : ℂ), (I * ((x : ℂ) * z + (y : ℂ) * w) * conj ((t : ℂ) * v)).im
      = t * (x * (z * conj v).re + y * (w * conj v).re) := by
    intro x y t z w v
    simp only [map_mul, conj_ofReal, Complex.mul_re, Complex.mul_im, Complex.add_re, Complex.add_im, conj_re, conj_im, I_re, I_im,
      ofReal_re, ofReal_im]
    ring
  constructor
  · unfold pol1 rateL preV phaseSpace
    simp only
    rw [aze, azT, aS, i1, n1, n1, n1, nI, nI, n2, sqrt_lambdaK, k2, ← hL, ← hQd]
    generalize ‖X‖ ^ 2 = NX
    rw [show (S * conj X).re = (X * conj S).re by simp [Complex.mul_re]; ring]
    generalize ‖S‖ ^ 2 = NS
    generalize ‖c.T‖ ^ 2 = NT
    generalize (X * conj S).re = RS
    generalize (X * conj c.T).re = RT
    generalize hdm : mq + ml = dm at *
    generalize hsm : mM + mV = sm at *
    clear_value L Q
    rw [hQ2]
    have hQ0 : Q ≠ 0 := hQ.ne'
    field_simp
    ring
  · unfold pol1 rateT preV phaseSpace
    simp only
    rw [apl, apT, ami, amT, i2, i2, n1, n1, nI, nI, n2, n2, sqrt_lambdaK, k2, ← hL, ← hQd]
    generalize ‖V1‖ ^ 2 = NX
    generalize ‖c.VR‖ ^ 2 = NS
    generalize ‖c.T‖ ^ 2 = NT
    generalize (V1 * conj c.VR).re = RS
    generalize (V1 * conj c.T).re = RT
    generalize (c.VR * conj c.T).re = RT'
    generalize hsm : mM + mV = sm at *
    generalize mM ^ 2 - mV ^ 2 = d2 at *
    clear_value L Q
    rw [hQ2]
    have hQ0 : Q ≠ 0 := hQ.ne'
    field_simp
    ring

end Verif.Semilep.Vec
