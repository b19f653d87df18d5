import Verif.Physics.Angular.Amps
import Verif.Physics.Angular.Bins
import Verif.Physics.Running
import Mathlib.Algebra.BigOperators.Fin
/-!
# Semi-leptonic decays to a pseudoscalar: `B → P ℓ ν`, `D → P ℓ ν`
(`flavio/physics/bdecays/bplnu.py`, `flavio/physics/ddecays/dplnu.py`)

Lepton flavours are `Fin 3` (e, mu, tau).  Parameters, CKM element, running masses, form factors and Wilson coefficients at
the scale are inputs; the integrator is a parameter as in `Bins.lean`.
-/
set_option linter.unusedVariables false
set_option linter.unusedSimpArgs false
namespace Verif.Semilep
open Verif.Py Verif.Common Verif.Angular Verif.Running Complex ComplexConjugate MeasureTheory Set

/-- The Wilson coefficients `CVL CVR CSR CSL CT` of one sector.
/repo/flavio/physics/bdecays/wilsoncoefficients.py:213-230. -/
structure CC where
  VL : ℂ
  VR : ℂ
  SR : ℂ
  SL : ℂ
  T : ℂ

/-- What the predictions for one meson pair read: masses, life time, whether the light meson is a `pi0`, the running quark
masses, `G_F`, the CKM element, the form factors, the lepton masses, the Standard Model coefficient (`get_CVLSM`) and
the Wilson coefficients for charged lepton and neutrino.
/repo/flavio/physics/bdecays/bplnu.py:15-64, /repo/flavio/physics/ddecays/dplnu.py:32-77. -/
structure Inp where
  mM : ℝ
  mP : ℝ
  tau : ℝ
  pi0 : Bool
  mq : ℝ
  mlight : ℝ
  GF : ℝ
  V : ℂ
  ff : ℝ → FFP
  m : Fin 3 → ℝ
  csm : ℝ
  wc : Fin 3 → Fin 3 → CC

/-- `get_wceff_fccc`.  /repo/flavio/physics/bdecays/wilsoncoefficients.py:208-231. -/
noncomputable def wcEff (csm : ℂ) (c : CC) : Wc :=
  ⟨0, 0, (csm + c.VL) / 2, c.VR / 2, -(csm + c.VL) / 2, -c.VR / 2, c.SR / 2, c.SL / 2, -c.SR / 2, -c.SL / 2, 0, c.T⟩

/-- `c_sm`: the Standard Model contribution only for equal flavours.
/repo/flavio/physics/bdecays/wilsoncoefficients.py:214-217. -/
noncomputable def cSM (d : Inp) (l n : Fin 3) : ℂ := if l = n then (d.csm : ℂ) else 0

/-- `all(C == 0 for C in wc.values())`.  /repo/flavio/physics/bdecays/bplnu.py:50. -/
def allZero (w : Wc) : Prop :=
  w.c7 = 0 ∧ w.c7p = 0 ∧ w.v = 0 ∧ w.vp = 0 ∧ w.a = 0 ∧ w.ap = 0 ∧ w.s = 0 ∧ w.sp = 0 ∧ w.p = 0 ∧ w.pp = 0 ∧ w.t = 0 ∧ w.tp = 0

/-- `prefactor`.  /repo/flavio/physics/bdecays/bplnu.py:15-29, /repo/flavio/physics/ddecays/dplnu.py:32-42. -/
noncomputable def prefactor (d : Inp) (l : Fin 3) (q2 : ℝ) : ℂ :=
  if q2 ≤ d.m l ^ 2 then 0 else ((4 * d.GF / Real.sqrt 2 : ℝ) : ℂ) * d.V

open Classical in
/-- `_get_angularcoeff`.  /repo/flavio/physics/bdecays/bplnu.py:46-64, /repo/flavio/physics/ddecays/dplnu.py:60-78. -/
noncomputable def jOne (d : Inp) (l : Fin 3) (q2 : ℝ) (n : Fin 3) : JP :=
  if l ≠ n ∧ allZero (wcEff (cSM d l n) (d.wc l n)) then ⟨0, 0, 0⟩
  else angularP (helicityP q2 d.mM d.mP d.mq d.mlight (d.m l) 0 (d.ff q2) (wcEff (cSM d l n) (d.wc l n)) (prefactor d l q2))
    q2 d.mM d.mP (d.m l) 0

/-- `get_angularcoeff`.  /repo/flavio/physics/bdecays/bplnu.py:35-43, /repo/flavio/physics/ddecays/dplnu.py:50-58. -/
noncomputable def jSum (d : Inp) (l : Fin 3) (q2 : ℝ) : JP :=
  ⟨∑ n, (jOne d l q2 n).a, ∑ n, (jOne d l q2 n).b, ∑ n, (jOne d l q2 n).c⟩

/-- `dBRdq2_lep`.  /repo/flavio/physics/bdecays/bplnu.py:69-80, /repo/flavio/physics/ddecays/dplnu.py:84-95. -/
noncomputable def dbrLep (d : Inp) (l : Fin 3) (q2 : ℝ) : ℝ :=
  if q2 < d.m l ^ 2 ∨ (d.mM - d.mP) ^ 2 < q2 then 0
  else if d.pi0 then d.tau * dGdq2P (jSum d l q2) / 2
  else d.tau * dGdq2P (jSum d l q2)

/-- The lepton argument: a flavour or `'l'`.  /repo/flavio/physics/bdecays/bplnu.py:83. -/
inductive LArg where
  | one (l : Fin 3)
  | l

/-- `dBRdq2`: `'l'` is the average of e and mu.  /repo/flavio/physics/bdecays/bplnu.py:82-87,
/repo/flavio/physics/ddecays/dplnu.py:98-103. -/
noncomputable def dbr (d : Inp) (a : LArg) (q2 : ℝ) : ℝ :=
  match a with
  | .l => (dbrLep d 0 q2 + dbrLep d 1 q2) / 2
  | .one l => dbrLep d l q2

/-- `BR_binned` (`nintegrate` with its default `epsrel`).  /repo/flavio/physics/bdecays/bplnu.py:93-96,
/repo/flavio/physics/ddecays/dplnu.py:110-113. -/
noncomputable def brBinned (nint : Nint) (d : Inp) (a : LArg) (q2min q2max : ℝ) : ℝ := nint (dbr d a) q2min q2max (5 / 1000)

/-- `_BR_tot`.  /repo/flavio/physics/bdecays/bplnu.py:112-118, /repo/flavio/physics/ddecays/dplnu.py:132-138. -/
noncomputable def brTotLep (nint : Nint) (d : Inp) (l : Fin 3) : ℝ :=
  brBinned nint d (.one l) (d.m l ^ 2) ((d.mM - d.mP) ^ 2)

/-- `BR_tot`.  /repo/flavio/physics/bdecays/bplnu.py:120-125, /repo/flavio/physics/ddecays/dplnu.py:141-146. -/
noncomputable def brTot (nint : Nint) (d : Inp) (a : LArg) : ℝ :=
  match a with
  | .l => (brTotLep nint d 0 + brTotLep nint d 1) / 2
  | .one l => brTotLep nint d l

/-- The shape of `BR_binned_leptonflavour`, `BR_tot_leptonflavour` and `BR_binned_tot_function`: 0 if the numerator is 0.
/repo/flavio/physics/bdecays/bplnu.py:101-106,130-144, /repo/flavio/physics/ddecays/dplnu.py:120-125,153-168. -/
noncomputable def ratio (num den : ℝ) : Except PyErr ℝ := if num = 0 then .ok 0 else pyDiv num den

/-- `BR_binned_leptonflavour`.  /repo/flavio/physics/bdecays/bplnu.py:101-106. -/
noncomputable def rBinned (nint : Nint) (d : Inp) (a b : LArg) (q2min q2max : ℝ) : Except PyErr ℝ :=
  ratio (brBinned nint d a q2min q2max) (brBinned nint d b q2min q2max)

/-- `BR_tot_leptonflavour`.  /repo/flavio/physics/bdecays/bplnu.py:139-144. -/
noncomputable def rTot (nint : Nint) (d : Inp) (a b : LArg) : Except PyErr ℝ := ratio (brTot nint d a) (brTot nint d b)

/-- `BR_binned_tot_function`.  /repo/flavio/physics/bdecays/bplnu.py:130-137. -/
noncomputable def relBinned (nint : Nint) (d : Inp) (a : LArg) (q2min q2max : ℝ) : Except PyErr ℝ :=
  ratio (brBinned nint d a q2min q2max) (brTot nint d a)

/-! ## Specification: the differential rate of the literature -/

/-- `dΓ(M → P ℓ ν)/dq²` for the effective Hamiltonian
`4 G_F/√2 V [X (γ^μ P_L)(γ_μ P_L) + S (P_R + P_L)(P_L) + T (σ^{μν} P_L)(σ_{μν} P_L)]` in terms of the helicity amplitudes `H0`, `Ht`,
`HS`, `HT` (Sakaki, Tanaka, Tayduganov, Watanabe, arXiv:1309.0301, eq. (7)); `kT = 8` and `kI = 12` in the literature.
(Specification.) -/
noncomputable def rateOf (kT kI GF V2 mM mP mq ml m q2 : ℝ) (ff : FFP) (X S T : ℂ) : ℝ :=
  let la := kallen (mM ^ 2) (mP ^ 2) q2
  let H0 := Real.sqrt (la / q2) * ff.fp
  let Ht := (mM ^ 2 - mP ^ 2) / Real.sqrt q2 * ff.f0
  let HS := (mM ^ 2 - mP ^ 2) / (mq - ml) * ff.f0
  let HT := -(Real.sqrt la) / (mM + mP) * ff.fT
  GF ^ 2 * V2 / (192 * Real.pi ^ 3 * mM ^ 3) * q2 * Real.sqrt la * (1 - m ^ 2 / q2) ^ 2 *
    (‖X‖ ^ 2 * ((1 + m ^ 2 / (2 * q2)) * H0 ^ 2 + 3 / 2 * (m ^ 2 / q2) * Ht ^ 2) + 3 / 2 * ‖S‖ ^ 2 * HS ^ 2
      + kT * ‖T‖ ^ 2 * (1 + 2 * m ^ 2 / q2) * HT ^ 2
      + 3 * (X * conj S).re * (m / Real.sqrt q2) * HS * Ht
      - kI * (X * conj T).re * (m / Real.sqrt q2) * HT * H0)

/-! ## The rate -/

theorem sqrt_lambdaK (a b c : ℝ) : Real.sqrt (lambdaK a b c) = Real.sqrt (kallen a b c) := by
  unfold lambdaK
  split_ifs with h
  · rw [Real.sqrt_zero, Real.sqrt_eq_zero_of_nonpos h.le]
  · rfl

theorem kin0 {q2 m : ℝ} (hm : 0 ≤ m) (h : m ^ 2 ≤ q2) (hq : 0 < q2) :
    laGa q2 m 0 = (q2 - m ^ 2) ^ 2 ∧ Real.sqrt (laGa q2 m 0) = q2 - m ^ 2 ∧
    energy q2 m 0 m = (q2 + m ^ 2) / (2 * Real.sqrt q2) ∧ energy q2 m 0 0 = (q2 - m ^ 2) / (2 * Real.sqrt q2) := by
  have e : laGa q2 m 0 = (q2 - m ^ 2) ^ 2 := by
    rw [laGa_eq q2 m 0 hm le_rfl (by simpa using h)]; ring
  have hs : Real.sqrt q2 ^ 2 = q2 := Real.sq_sqrt hq.le
  have h0 : 0 < Real.sqrt q2 := Real.sqrt_pos.2 hq
  refine ⟨e, by rw [e]; exact Real.sqrt_sq (by linarith), ?_, ?_⟩
  · unfold energy
    rw [e]
    have : m ^ 2 + (q2 - m ^ 2) ^ 2 / (4 * q2) = ((q2 + m ^ 2) / (2 * Real.sqrt q2)) ^ 2 := by
      rw [div_pow, mul_pow, hs]; field_simp; ring
    rw [this]
    exact Real.sqrt_sq (by positivity)
  · unfold energy
    rw [e]
    have : (0 : ℝ) ^ 2 + (q2 - m ^ 2) ^ 2 / (4 * q2) = ((q2 - m ^ 2) / (2 * Real.sqrt q2)) ^ 2 := by
      rw [div_pow, mul_pow, hs]; field_simp; ring
    rw [this]
    exact Real.sqrt_sq (div_nonneg (by linarith) (by positivity))

theorem nsq (z : ℂ) : ‖z‖ ^ 2 = z.re ^ 2 + z.im ^ 2 := by
  rw [Complex.sq_norm, normSq_apply]; ring

/-- The amplitudes of the code, with an arbitrary factor `t` in the amplitude `h['T']` (the code has `t = 1`). -/
theorem rate_amp (q2 mM mP mq ml m t : ℝ) (ff : FFP) (csm : ℂ) (c : CC) (hm : 0 ≤ m) (h : m ^ 2 ≤ q2) (hq : 0 < q2)
    (hM : mM ≠ 0) (hP : mM + mP ≠ 0) (hml : mq - ml ≠ 0) :
    let H := helP1 q2 mM mP mq ml m 0 ff (wcEff csm c)
    8 * dGdq2P (angularP { H with T := (t : ℂ) * H.T } q2 mM mP m 0) =
      rateOf (4 + 2 * t ^ 2) (6 + 3 * Real.sqrt 2 * t) 1 1 mM mP mq ml m q2 ff (csm + c.VL + c.VR) (c.SR + c.SL) c.T := by
  intro H
  obtain ⟨k1, k2, k3, k4⟩ := kin0 hm h hq
  have hQ : 0 < Real.sqrt q2 := Real.sqrt_pos.2 hq
  have hQ2 : q2 = Real.sqrt q2 ^ 2 := (Real.sq_sqrt hq.le).symm
  have hr : Real.sqrt 2 ^ 2 = 2 := Real.sq_sqrt (by norm_num)
  have hpi : Real.pi ≠ 0 := Real.pi_ne_zero
  have e : dGdq2P (angularP { H with T := (t : ℂ) * H.T } q2 mM mP m 0) =
      2 * (phaseSpace (2 ^ 9 * Real.pi ^ 3) q2 mM mP m 0 * (gbasisP0 { H with T := (t : ℂ) * H.T } q2 m 0).g0) := by
    unfold dGdq2P angularP gbasisP; simp only; ring
  rw [e]
  set X := csm + c.VL + c.VR with hX
  set S := c.SR + c.SL with hS
  set L := Real.sqrt (kallen (mM ^ 2) (mP ^ 2) q2) with hL
  set Q := Real.sqrt q2 with hQd
  have aV : H.V = ((L / (4 * Q) * ff.fp : ℝ) : ℂ) * X := by
    simp only [H, helP1, wcEff, sqrt_lambdaK, hX]; push_cast; rw [← hL, ← hQd]; field_simp; ring
  have aA : H.A = -H.V := by
    simp only [H, helP1, wcEff]; push_cast; ring
  have aS : H.S = (((mM ^ 2 - mP ^ 2) / 2 * ff.f0 : ℝ) : ℂ) * (((mq - ml)⁻¹ / 2 : ℝ) * S + (m / (2 * q2) : ℝ) * X) := by
    simp only [H, helP1, wcEff, hX, hS]; push_cast; ring
  have aP : H.P = -H.S := by
    simp only [H, helP1, wcEff]; push_cast; ring
  have aTt : H.Tt = ((L / (2 * (mM + mP)) * ff.fT : ℝ) : ℂ) * (-I * c.T) := by
    simp only [H, helP1, wcEff, sqrt_lambdaK]; push_cast; ring
  have aT : H.T = -H.Tt := by
    simp only [H, helP1, wcEff]; push_cast; ring
  have nV : ‖H.V‖ ^ 2 = (L / (4 * Q) * ff.fp) ^ 2 * ‖X‖ ^ 2 := by
    rw [aV, norm_mul, mul_pow, Complex.norm_real, Real.norm_eq_abs, sq_abs]
  have nS : ‖H.S‖ ^ 2 = ((mM ^ 2 - mP ^ 2) / 2 * ff.f0) ^ 2 * (((mq - ml)⁻¹ / 2) ^ 2 * ‖S‖ ^ 2
      + 2 * ((mq - ml)⁻¹ / 2) * (m / (2 * q2)) * (X * conj S).re + (m / (2 * q2)) ^ 2 * ‖X‖ ^ 2) := by
    rw [aS, norm_mul, mul_pow, Complex.norm_real, Real.norm_eq_abs, sq_abs]
    congr 1
    generalize (mq - ml)⁻¹ / 2 = x
    generalize m / (2 * q2) = y
    simp only [nsq, Complex.add_re, Complex.add_im, Complex.mul_re, Complex.mul_im, conj_re, conj_im, ofReal_re, ofReal_im]
    ring
  have nTt : ‖H.Tt‖ ^ 2 = (L / (2 * (mM + mP)) * ff.fT) ^ 2 * ‖c.T‖ ^ 2 := by
    rw [aTt, norm_mul, mul_pow, Complex.norm_real, Real.norm_eq_abs, sq_abs, norm_mul, norm_neg, norm_I, one_mul]
  have nT : ‖(t : ℂ) * H.T‖ ^ 2 = t ^ 2 * ‖H.Tt‖ ^ 2 := by
    rw [aT, norm_mul, mul_pow, Complex.norm_real, Real.norm_eq_abs, sq_abs, norm_neg]
  have iV : (H.V * conj H.Tt).im = L / (4 * Q) * ff.fp * (L / (2 * (mM + mP)) * ff.fT) * (X * conj c.T).re := by
    rw [aV, aTt]
    generalize L / (4 * Q) * ff.fp = x
    generalize L / (2 * (mM + mP)) * ff.fT = y
    simp only [Complex.mul_re, Complex.mul_im, conj_re, conj_im, Complex.neg_re, Complex.neg_im, I_re, I_im, ofReal_re, ofReal_im]
    ring
  have iA : (H.A * conj ((t : ℂ) * H.T)).im = t * (H.V * conj H.Tt).im := by
    rw [aA, aT, map_mul, map_neg, conj_ofReal, show -H.V * ((t : ℂ) * -conj H.Tt) = (t : ℂ) * (H.V * conj H.Tt) by ring,
      im_ofReal_mul]
  simp only [gbasisP0, phaseSpace, rateOf]
  rw [iA, iV, nT, nTt, aA, aP, norm_neg, norm_neg, nV, nS, k1, k3, k4, sqrt_lambdaK,
    show Real.sqrt ((q2 - m ^ 2) ^ 2) = q2 - m ^ 2 from Real.sqrt_sq (by linarith), Real.sqrt_div' _ hq.le, ← hL]
  rw [← hQd]
  generalize ‖X‖ ^ 2 = NX
  generalize ‖S‖ ^ 2 = NS
  generalize ‖c.T‖ ^ 2 = NT
  generalize (X * conj S).re = RS
  generalize (X * conj c.T).re = RT
  generalize hdm : mq - ml = dm at *
  clear_value L Q
  generalize Real.sqrt 2 = w at *
  rw [hQ2]
  have hQ0 : Q ≠ 0 := hQ.ne'
  field_simp
  ring

end Verif.Semilep
