import Verif.Physics.FormFactors.Series
import Mathlib.MeasureTheory.Integral.IntervalIntegral.Basic
/-!
# Form factors from heavy quark effective theory
(`flavio/physics/bdecays/formfactors/hqet.py`, `b_p/cln.py`, `b_v/cln.py`, `b_v/clnexp.py`, `b_v/isgurwise.py`)

Masses and parameters are read from the parameter dictionary in the code; here they are arguments.  Divisions and roots are those of
the reals (the masses are positive in the theorems), `li2` of `flavio/math/functions.py` is `scipy.special.spence(1 - x)` with SciPy's
documented definition of `spence`.
-/
set_option linter.unusedVariables false
set_option linter.unusedSimpArgs false
namespace Verif.FormFactors
open Verif.Py Verif.Running Verif.Bll Verif.Angular
open scoped Interval

/-- `scipy.special.spence`: `∫_1^x log t/(1 - t) dt`.  /repo/flavio/math/functions.py:12-14. -/
noncomputable def spence (x : ℝ) : ℝ := ∫ t in (1:ℝ)..x, Real.log t / (1 - t)

/-- `li2`.  /repo/flavio/math/functions.py:12-14. -/
noncomputable def li2 (x : ℝ) : ℝ := spence (1 - x)

open Classical in
/-- `r`.  /repo/flavio/physics/bdecays/formfactors/hqet.py:72-75. -/
noncomputable def rw' (w : ℝ) : ℝ :=
  if w = 1 then 1 else Real.log (w + Real.sqrt (-1 + w ^ 2)) / Real.sqrt (-1 + w ^ 2)

/-- `omega_plus`.  /repo/flavio/physics/bdecays/formfactors/hqet.py:78-79. -/
noncomputable def omegaPlus (w : ℝ) : ℝ := w + Real.sqrt (-1 + w ^ 2)

/-- `omega_minus`.  /repo/flavio/physics/bdecays/formfactors/hqet.py:82-83. -/
noncomputable def omegaMinus (w : ℝ) : ℝ := w - Real.sqrt (-1 + w ^ 2)

open Classical in
/-- `omega`.  /repo/flavio/physics/bdecays/formfactors/hqet.py:87-93. -/
noncomputable def omega (w z : ℝ) : ℝ :=
  if w = 1 then -1 + (z + 1) / (z - 1) * Real.log z
  else 1 + (w * (2 * li2 (1 - z * omegaMinus w) - li2 (1 - omegaMinus w ^ 2) - 2 * li2 (1 - z * omegaPlus w)
    + li2 (1 - omegaPlus w ^ 2))) / (2 * Real.sqrt (-1 + w ^ 2)) - w * Real.log z * rw' w

/-- `wz`.  /repo/flavio/physics/bdecays/formfactors/hqet.py:110. -/
noncomputable def wz (z : ℝ) : ℝ := 1 / 2 * (z + 1 / z)

/-- `CV1`.  /repo/flavio/physics/bdecays/formfactors/hqet.py:109-115. -/
noncomputable def CV1 (w z : ℝ) : ℝ :=
  (12 * (-w + wz z) * z - (-1 + z ^ 2) * Real.log z + 2 * (1 + w) * (-1 + (-1 + 3 * w) * z - z ^ 2) * rw' w
    + 4 * (w - wz z) * z * omega w z) / (6 * (w - wz z) * z)

/-- `CV2`.  /repo/flavio/physics/bdecays/formfactors/hqet.py:118-127. -/
noncomputable def CV2 (w z : ℝ) : ℝ :=
  -(z * (2 * (-w + wz z) * (-1 + z) + (3 - 2 * w - (-2 + 4 * w) * z + z ^ 2) * Real.log z)
    + (2 - (-1 + 5 * w + 2 * w ^ 2) * z + (2 * w + 4 * w ^ 2) * z ^ 2 - (1 + w) * z ^ 3) * rw' w) / (6 * (w - wz z) ^ 2 * z ^ 2)

/-- `CV3`.  /repo/flavio/physics/bdecays/formfactors/hqet.py:130-137. -/
noncomputable def CV3 (w z : ℝ) : ℝ :=
  (2 * (-w + wz z) * (-1 + z) * z + (1 + (2 - 4 * w) * z + (3 - 2 * w) * z ^ 2) * Real.log z
    + (1 + w - (2 * w + 4 * w ^ 2) * z + (-1 + 5 * w + 2 * w ^ 2) * z ^ 2 - 2 * z ^ 3) * rw' w) / (6 * (w - wz z) ^ 2 * z)

/-- `CA1`.  /repo/flavio/physics/bdecays/formfactors/hqet.py:140-146. -/
noncomputable def CA1 (w z : ℝ) : ℝ :=
  (12 * (-w + wz z) * z - (-1 + z ^ 2) * Real.log z + 2 * (-1 + w) * (-1 + (1 + 3 * w) * z - z ^ 2) * rw' w
    + 4 * (w - wz z) * z * omega w z) / (6 * (w - wz z) * z)

/-- `CA2`.  /repo/flavio/physics/bdecays/formfactors/hqet.py:149-158. -/
noncomputable def CA2 (w z : ℝ) : ℝ :=
  -(z * (2 * (-w + wz z) * (1 + z) + (3 + 2 * w - (2 + 4 * w) * z + z ^ 2) * Real.log z)
    + (2 + (-1 - 5 * w + 2 * w ^ 2) * z + (-2 * w + 4 * w ^ 2) * z ^ 2 + (1 - w) * z ^ 3) * rw' w) / (6 * (w - wz z) ^ 2 * z ^ 2)

/-- `CA3`.  /repo/flavio/physics/bdecays/formfactors/hqet.py:161-168. -/
noncomputable def CA3 (w z : ℝ) : ℝ :=
  (2 * (-w + wz z) * z * (1 + z) - (1 - (2 + 4 * w) * z + (3 + 2 * w) * z ^ 2) * Real.log z
    + (1 - w + (-2 * w + 4 * w ^ 2) * z + (-1 - 5 * w + 2 * w ^ 2) * z ^ 2 + 2 * z ^ 3) * rw' w) / (6 * (w - wz z) ^ 2 * z)

/-- `CT1`.  /repo/flavio/physics/bdecays/formfactors/hqet.py:171-177. -/
noncomputable def CT1 (w z : ℝ) : ℝ :=
  ((-1 + w) * (-1 + (2 + 4 * w) * z - z ^ 2) * rw' w + (6 * (-w + wz z) * z - (-1 + z ^ 2) * Real.log z)
    + 2 * (w - wz z) * z * omega w z) / (3 * (w - wz z) * z)

/-- `CT2`.  /repo/flavio/physics/bdecays/formfactors/hqet.py:180-182. -/
noncomputable def CT2 (w z : ℝ) : ℝ := 2 * (z * Real.log z + (1 - w * z) * rw' w) / (3 * (w - wz z) * z)

/-- `CT3`.  /repo/flavio/physics/bdecays/formfactors/hqet.py:185-187. -/
noncomputable def CT3 (w z : ℝ) : ℝ := 2 * (Real.log z + (w - z) * rw' w) / (3 * (w - wz z))

/-- The parameters read by `xi`, `Lz` and `ell`.
/repo/flavio/physics/bdecays/formfactors/hqet.py:28-68, b_p/cln.py:45-47. -/
structure HqPar where
  rho2 : ℝ
  c : ℝ
  xi3 : ℝ
  chi2 : ℝ
  chi2p : ℝ
  chi2pp : ℝ
  chi3p : ℝ
  chi3pp : ℝ
  eta : ℝ
  etap : ℝ
  etapp : ℝ
  l : ℕ → ℝ
  lp : ℕ → ℝ

/-- The expansion parameters `ash`, `epsc`, `epsb`, `zc`.  /repo/flavio/physics/bdecays/formfactors/hqet.py:10-26. -/
structure HqEps where
  ash : ℝ
  epsc : ℝ
  epsb : ℝ
  zc : ℝ

/-- `get_hqet_parameters`: constants.  /repo/flavio/physics/bdecays/formfactors/hqet.py:10-26. -/
noncomputable def hqEps : HqEps :=
  let alphas : ℝ := 0.26
  let mb1S : ℝ := 4.71
  let mb := mb1S * (1 + 2 * alphas ^ 2 / 9)
  let mc := mb - 3.4
  let lam := 5.313 - mb + (-0.3) / (2 * mb1S)
  ⟨alphas / Real.pi, lam / (2 * mc), lam / (2 * mb), mc / mb⟩

/-- `xi`.  /repo/flavio/physics/bdecays/formfactors/hqet.py:28-40. -/
noncomputable def xi (p : HqPar) (z : ℝ) (m : ℕ) : Except PyErr ℝ := do
  let w1 ← wMinus1Pow z 1 m
  let w2 ← wMinus1Pow z 2 m
  let w3 ← wMinus1Pow z 3 m
  return 1 - p.rho2 * w1 + p.c * w2 + p.xi3 / 6 * w3

/-- The dictionary returned by `Lz` and `ell`.  /repo/flavio/physics/bdecays/formfactors/hqet.py:49-57,66-68. -/
structure Six where
  x1 : ℝ
  x2 : ℝ
  x3 : ℝ
  x4 : ℝ
  x5 : ℝ
  x6 : ℝ

/-- `Lz`.  /repo/flavio/physics/bdecays/formfactors/hqet.py:43-57. -/
noncomputable def Lz (p : HqPar) (w z : ℝ) (m : ℕ) : Except PyErr Six := do
  let w1 ← wMinus1Pow z 1 m
  let w2 ← wMinus1Pow z 2 m
  let chi2 := p.chi2 + p.chi2p * w1 + p.chi2pp / 2 * w2
  let chi3 := p.chi3p * w1 + p.chi3pp / 2 * w2
  let eta := p.eta + p.etap * w1 + p.etapp / 2 * w2
  return ⟨-4 * (w - 1) * chi2 + 12 * chi3, -4 * chi3, 4 * chi2, 2 * eta - 1, -1, -2 * (1 + eta) / (w + 1)⟩

/-- `ell`.  /repo/flavio/physics/bdecays/formfactors/hqet.py:60-68. -/
noncomputable def ell (p : HqPar) (z : ℝ) (m : ℕ) : Except PyErr Six := do
  let w1 ← wMinus1Pow z 1 m
  return ⟨p.l 1 + w1 * p.lp 1, p.l 2 + w1 * p.lp 2, p.l 3 + w1 * p.lp 3, p.l 4 + w1 * p.lp 4, p.l 5 + w1 * p.lp 5, p.l 6 + w1 * p.lp 6⟩

/-- The HQET form factors of `B → P`.  /repo/flavio/physics/bdecays/formfactors/b_p/cln.py:51-60. -/
structure HP where
  hp : ℝ
  hm : ℝ
  hT : ℝ

/-- `h_to_f`.  /repo/flavio/physics/bdecays/formfactors/b_p/cln.py:10-21. -/
noncomputable def hToF (mB mP : ℝ) (h : HP) (q2 : ℝ) : FFP :=
  let r := mP / mB
  let fp := ((r + 1) * h.hp + (r - 1) * h.hm) / (2 * Real.sqrt r)
  let fm := ((r - 1) * h.hp + (r + 1) * h.hm) / (2 * Real.sqrt r)
  ⟨fp, fp + fm * q2 / (mB ^ 2 - mP ^ 2), (r + 1) / (2 * Real.sqrt r) * h.hT⟩

/-- The HQET form factors `h+ h- hT` of `cln.ff`.  /repo/flavio/physics/bdecays/formfactors/b_p/cln.py:51-60. -/
noncomputable def hpCLN (e : HqEps) (xi w : ℝ) (L ell : Six) : HP :=
  ⟨xi * (1 + e.ash * (CV1 w e.zc + (w + 1) / 2 * (CV2 w e.zc + CV3 w e.zc)) + (e.epsc + e.epsb) * L.x1 + e.epsc ^ 2 * ell.x1),
   xi * (e.ash * (w + 1) / 2 * (CV2 w e.zc - CV3 w e.zc) + (e.epsc - e.epsb) * L.x4 + e.epsc ^ 2 * ell.x4),
   xi * (1 + e.ash * (CT1 w e.zc - CT2 w e.zc + CT3 w e.zc) + (e.epsc + e.epsb) * (L.x1 - L.x4) + e.epsc ^ 2 * (ell.x1 - ell.x4))⟩

/-- `cln.ff` for `B → D` with its default orders in `z`.  /repo/flavio/physics/bdecays/formfactors/b_p/cln.py:24-61. -/
noncomputable def clnP (e : HqEps) (p : HqPar) (mB mP q2 : ℝ) : Except PyErr FFP := do
  let w := max ((mB ^ 2 + mP ^ 2 - q2) / (2 * mB * mP)) 1
  let z ← z mB mP q2 .tm
  let x ← xi p z 3
  let L ← Lz p w z 2
  let l ← ell p z 1
  return hToF mB mP (hpCLN e x w L l) q2

/-- The HQET form factors of `B → V`.  /repo/flavio/physics/bdecays/formfactors/b_v/cln.py:81-108. -/
structure HV where
  V : ℝ
  A1 : ℝ
  A2 : ℝ
  A3 : ℝ
  T1 : ℝ
  T2 : ℝ
  T3 : ℝ

/-- `V`, `A1`, `A2`, `A0`, `T1`, `T2`, `T3` of `h_to_A`.  /repo/flavio/physics/bdecays/formfactors/b_v/cln.py:22-34. -/
structure FFTrad where
  V : ℝ
  A1 : ℝ
  A2 : ℝ
  A0 : ℝ
  T1 : ℝ
  T2 : ℝ
  T3 : ℝ

/-- The first part of `h_to_A`.  /repo/flavio/physics/bdecays/formfactors/b_v/cln.py:22-34. -/
noncomputable def hToTrad (mB mV : ℝ) (h : HV) (q2 : ℝ) : FFTrad :=
  let pre := 1 / 2 / Real.sqrt (mB * mV)
  { V := pre * (mB + mV) * h.V
    A1 := pre * ((mB + mV) ^ 2 - q2) / (mB + mV) * h.A1
    A2 := pre * (mB + mV) * (h.A3 + mV / mB * h.A2)
    A0 := pre * (((mB + mV) ^ 2 - q2) / (2 * mV) * h.A1 - (mB ^ 2 - mV ^ 2 + q2) / (2 * mB) * h.A2
      - (mB ^ 2 - mV ^ 2 - q2) / (2 * mV) * h.A3)
    T1 := pre * ((mB + mV) * h.T1 - (mB - mV) * h.T2)
    T2 := pre * (((mB + mV) ^ 2 - q2) / (mB + mV) * h.T1 - ((mB - mV) ^ 2 - q2) / (mB - mV) * h.T2)
    T3 := pre * ((mB - mV) * h.T1 - (mB + mV) * h.T2 + (mB ^ 2 - mV ^ 2) / mB * h.T3) }

/-- `A12` from `A1` and `A2`.  /repo/flavio/physics/bdecays/formfactors/b_v/cln.py:36-39, b_v/clnexp.py:49-51. -/
noncomputable def a12 (mB mV q2 A1 A2 : ℝ) : ℝ :=
  (A1 * (mB + mV) ^ 2 * (mB ^ 2 - mV ^ 2 - q2) - A2 * (mB ^ 4 + (mV ^ 2 - q2) ^ 2 - 2 * mB ^ 2 * (mV ^ 2 + q2)))
    / (16 * mB * mV ^ 2 * (mB + mV))

/-- `h_to_A`.  /repo/flavio/physics/bdecays/formfactors/b_v/cln.py:13-46. -/
noncomputable def hToA (mB mV : ℝ) (h : HV) (q2 : ℝ) : FFV :=
  let t := hToTrad mB mV h q2
  { A0 := t.A0
    A1 := t.A1
    A12 := a12 mB mV q2 t.A1 t.A2
    V := t.V
    T1 := t.T1
    T2 := t.T2
    T23 := ((mB ^ 2 - mV ^ 2) * (mB ^ 2 + 3 * mV ^ 2 - q2) * t.T2 - Common.lambdaK (mB ^ 2) (mV ^ 2) q2 * t.T3)
      / (8 * mB * (mB - mV) * mV ^ 2) }

/-- The HQET form factors of `cln.ff` for `B → V`.  /repo/flavio/physics/bdecays/formfactors/b_v/cln.py:80-108. -/
noncomputable def hvCLN (e : HqEps) (xi w : ℝ) (L l : Six) : HV :=
  { V := xi * (1 + e.ash * CV1 w e.zc + e.epsc * (L.x2 - L.x5) + e.epsb * (L.x1 - L.x4) + e.epsc ^ 2 * (l.x2 - l.x5))
    A1 := xi * (1 + e.ash * CA1 w e.zc + e.epsc * (L.x2 - L.x5 * (w - 1) / (w + 1)) + e.epsb * (L.x1 - L.x4 * (w - 1) / (w + 1))
      + e.epsc ^ 2 * (l.x2 - l.x5 * (w - 1) / (w + 1)))
    A2 := xi * (e.ash * CA2 w e.zc + e.epsc * (L.x3 + L.x6) + e.epsc ^ 2 * (l.x3 + l.x6))
    A3 := xi * (1 + e.ash * (CA1 w e.zc + CA3 w e.zc) + e.epsc * (L.x2 - L.x3 + L.x6 - L.x5) + e.epsb * (L.x1 - L.x4)
      + e.epsc ^ 2 * (l.x2 - l.x3 + l.x6 - l.x5))
    T1 := xi * (1 + e.ash * (CT1 w e.zc + (w - 1) / 2 * (CT2 w e.zc - CT3 w e.zc)) + e.epsc * L.x2 + e.epsb * L.x1 + e.epsc ^ 2 * l.x2)
    T2 := xi * (e.ash * (w + 1) / 2 * (CT2 w e.zc + CT3 w e.zc) + e.epsc * L.x5 - e.epsb * L.x4 + e.epsc ^ 2 * l.x5)
    T3 := xi * (e.ash * CT2 w e.zc + e.epsc * (L.x6 - L.x3) + e.epsc ^ 2 * (l.x6 - l.x3)) }

/-- `cln.ff` for `B → D*` with its default orders in `z`.  /repo/flavio/physics/bdecays/formfactors/b_v/cln.py:48-109. -/
noncomputable def clnV (e : HqEps) (p : HqPar) (mB mV q2 : ℝ) : Except PyErr FFV := do
  let w := max ((mB ^ 2 + mV ^ 2 - q2) / (2 * mB * mV)) 1
  let z ← z mB mV q2 .tm
  let x ← xi p z 3
  let L ← Lz p w z 2
  let l ← ell p z 1
  return hToA mB mV (hvCLN e x w L l) q2

/-- The parameters of `clnexp.ff`.  /repo/flavio/physics/bdecays/formfactors/b_v/clnexp.py:23-26. -/
structure CexpPar where
  hA1 : ℝ
  R1 : ℝ
  R2 : ℝ
  rho2 : ℝ

/-- `A0 A1 A12 V` of `clnexp.ff`.  /repo/flavio/physics/bdecays/formfactors/b_v/clnexp.py:10-52. -/
structure FFnoT where
  A0 : ℝ
  A1 : ℝ
  A12 : ℝ
  V : ℝ

/-- `z` of `clnexp.ff`.  /repo/flavio/physics/bdecays/formfactors/b_v/clnexp.py:20-21. -/
noncomputable def zExp (mB mV q2 : ℝ) : Except PyErr ℝ := do
  let w := (mB ^ 2 + mV ^ 2 - q2) / (2 * mB * mV)
  let s ← pySqrt (w + 1)
  pyDiv (s - Real.sqrt 2) (s + Real.sqrt 2)

/-- `R0(w = 1)` of `clnexp.ff`.  /repo/flavio/physics/bdecays/formfactors/b_v/clnexp.py:27-31. -/
noncomputable def r0One (p : CexpPar) (mB mV : ℝ) : ℝ :=
  let w0 := (mB ^ 2 + mV ^ 2) / (2 * mB * mV)
  let R20 := p.R2 + 0.11 * (w0 - 1) - 0.06 * (w0 - 1) ^ 2
  let R00 := (mB + mV - mB * R20 + mV * R20) / (2 * mV)
  R00 - (-0.11 * (w0 - 1) + 0.01 * (w0 - 1) ^ 2)

/-- `clnexp.ff` up to the call of `isgur_wise`.  /repo/flavio/physics/bdecays/formfactors/b_v/clnexp.py:10-52. -/
noncomputable def clnexp (p : CexpPar) (mB mV q2 : ℝ) : Except PyErr FFnoT := do
  let w := (mB ^ 2 + mV ^ 2 - q2) / (2 * mB * mV)
  let z ← zExp mB mV q2
  let RV := 2 * Real.sqrt (mB * mV) / (mB + mV)
  let hA1 := p.hA1 * (1 - 8 * p.rho2 * z + (53 * p.rho2 - 15) * z ^ 2 - (231 * p.rho2 - 91) * z ^ 3)
  let R1 := p.R1 - 0.12 * (w - 1) + 0.05 * (w - 1) ^ 2
  let R2 := p.R2 + 0.11 * (w - 1) - 0.06 * (w - 1) ^ 2
  let R0 := r0One p mB mV - 0.11 * (w - 1) + 0.01 * (w - 1) ^ 2
  let A1 := hA1 * RV * (w + 1) / 2
  let A2 := R2 / RV * hA1
  return ⟨R0 / RV * hA1, A1, a12 mB mV q2 A1 A2, R1 / RV * hA1⟩

open Classical in
/-- `isgur_wise` for `B → V`: pole masses of the quarks, the meson masses of `cln.process_dict` and the power corrections are arguments.
/repo/flavio/physics/bdecays/formfactors/b_v/isgurwise.py:9-34. -/
noncomputable def isgurWise (mb mq mB mV aT1 aT2 aT23 q2 : ℝ) (f : FFnoT) : FFV :=
  { A0 := f.A0
    A1 := f.A1
    A12 := f.A12
    V := f.V
    T1 := (mb + mq) / (mB + mV) * f.V * (1 + aT1)
    T2 := (mb - mq) / (mB - mV) * f.A1 * (1 + aT2)
    T23 := if q2 = 0 then 4 * f.A12 * (mb - mq) * (mB ^ 2 + mV ^ 2) / ((mB - mV) ^ 2 * (mB + mV))
      else (mb - mq) * (((mB - mV) ^ 2 - q2) * ((mB + mV) ^ 2 - q2) * f.A0 + 8 * mB * mV * (-mB ^ 2 + mV ^ 2) * f.A12)
        / (4 * mB * (mV - mB) * mV * q2) * (1 + aT23) }

end Verif.FormFactors
