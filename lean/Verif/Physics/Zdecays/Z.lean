import Verif.Physics.Common
import Mathlib.Analysis.SpecialFunctions.Pow.Real
import Mathlib.Analysis.Complex.Basic
import Mathlib.Tactic.Linarith
import Mathlib.Tactic.Ring
import Mathlib.Tactic.FieldSimp
/-!
# Z pole observables

`flavio/physics/zdecays/smeftew.py`, `gammazsm.py`, `gammaz.py`, `afbz.py`.
Floats are real numbers; `math.sqrt` and `math.log` are the real functions, so the `ValueError` they raise for a negative
argument (and division by zero) is not modelled: the theorems that need it assume the arguments to be in range.
A pair of fermions from two different sectors, for which the code raises `KeyError`, is never used by an observable and is
not modelled.
-/
set_option linter.unusedVariables false
set_option linter.unusedSimpArgs false
namespace Verif.Zpole

local notation "conj" => starRingEnd ℂ

/-- The fermions.  /repo/flavio/physics/zdecays/smeftew.py:10-21. -/
inductive Fm | e | mu | tau | nue | numu | nutau | u | c | d | s | b
deriving DecidableEq, Repr

/-- The sectors.  /repo/flavio/physics/zdecays/smeftew.py:18-21. -/
inductive Sec | l | nu | u | d
deriving DecidableEq, Repr

open Fm

/-- `_sectors`: which sector a fermion is in.  /repo/flavio/physics/zdecays/smeftew.py:18-21. -/
def Fm.sec : Fm → Sec
  | e => .l | mu => .l | tau => .l
  | nue => .nu | numu => .nu | nutau => .nu
  | u => .u | c => .u
  | d => .d | s => .d | b => .d

/-- `_sectors[...][f]`: the generation.  /repo/flavio/physics/zdecays/smeftew.py:18-21. -/
def Fm.gen : Fm → Nat
  | e => 1 | mu => 2 | tau => 3
  | nue => 1 | numu => 2 | nutau => 3
  | u => 1 | c => 2
  | d => 1 | s => 2 | b => 3

/-- `_QN[f]['T3L']`.  /repo/flavio/physics/zdecays/smeftew.py:11-15. -/
noncomputable def Fm.t3 (f : Fm) : ℝ :=
  match f.sec with | .l => -1 / 2 | .nu => 1 / 2 | .u => 1 / 2 | .d => -1 / 2

/-- `_QN[f]['Q']`.  /repo/flavio/physics/zdecays/smeftew.py:11-15. -/
noncomputable def Fm.q (f : Fm) : ℝ :=
  match f.sec with | .l => -1 | .nu => 0 | .u => 2 / 3 | .d => -1 / 3

/-- `_QN[f]['Nc']`.  /repo/flavio/physics/zdecays/smeftew.py:11-15. -/
noncomputable def Fm.nc (f : Fm) : ℝ :=
  match f.sec with | .l => 1 | .nu => 1 | .u => 3 | .d => 3

/-- The parameters used (`par`); `delta` are the parameters `delta_...`.
/repo/flavio/physics/zdecays/gammazsm.py:68-78, /repo/flavio/physics/zdecays/smeftew.py:24-77. -/
structure Par where
  GF : ℝ
  mZ : ℝ
  alphaE : ℝ
  s2w : ℝ
  mh : ℝ
  mt : ℝ
  alphas : ℝ
  tauZ : ℝ
  delta : String → ℝ

/-- The Wilson coefficients in the Warsaw basis, by name.  /repo/flavio/physics/zdecays/gammaz.py:21-22. -/
abbrev WC := String → ℂ

/-- `'op_{}{}'.format(i, j)`.  /repo/flavio/physics/zdecays/smeftew.py:83. -/
def key (op : String) (i j : Nat) : String := op ++ "_" ++ toString i ++ toString j

/-- `C['phil3_22'] + C['phil3_11'] - C['ll_1221'] / 2`.  /repo/flavio/physics/zdecays/smeftew.py:26,41. -/
noncomputable def muon (C : WC) : ℂ := C "phil3_22" + C "phil3_11" - C "ll_1221" / 2

/-- `d_GF`.  /repo/flavio/physics/zdecays/smeftew.py:24-26. -/
noncomputable def dGF (p : Par) (C : WC) : ℂ :=
  ((1 / (Real.sqrt 2 * p.GF) * Real.sqrt 2 / 2 : ℝ) : ℂ) * muon C

/-- `_sinthetahat2`.  /repo/flavio/physics/zdecays/smeftew.py:29-32. -/
noncomputable def sh2 (p : Par) : ℝ :=
  1 / 2 * (1 - Real.sqrt (1 - (4 * Real.pi * p.alphaE) / (Real.sqrt 2 * p.GF * p.mZ ^ 2)))

/-- `d_sh2`.  /repo/flavio/physics/zdecays/smeftew.py:34-43. -/
noncomputable def dsh2 (p : Par) (C : WC) : ℂ :=
  let sh := Real.sqrt (sh2 p)
  let ch := Real.sqrt (1 - sh2 p)
  let s2h := 2 * ch * sh
  let c2h := ch ^ 2 - sh ^ 2
  ((s2h / (8 * c2h * Real.sqrt 2 * p.GF) : ℝ) : ℂ) * ((s2h : ℂ) * (C "phiD" + 2 * muon C) + 4 * C "phiWB")

/-- `d_mZ2`.  /repo/flavio/physics/zdecays/smeftew.py:46-50. -/
noncomputable def dmZ2 (p : Par) (C : WC) : ℂ :=
  ((1 / (2 * Real.sqrt 2) * p.mZ ^ 2 / p.GF : ℝ) : ℂ) * C "phiD"
    + (((2 : ℝ) ^ (1 / 4 : ℝ) * Real.sqrt (Real.pi * p.alphaE) * p.mZ / p.GF ^ (3 / 2 : ℝ) : ℝ) : ℂ) * C "phiWB"

/-- `d_gZb`.  /repo/flavio/physics/zdecays/smeftew.py:53-60. -/
noncomputable def dgZb (p : Par) (C : WC) : ℂ :=
  let sh := Real.sqrt (sh2 p)
  let ch := Real.sqrt (1 - sh2 p);
  (-dGF p C / Real.sqrt 2 - dmZ2 p C / (2 * p.mZ ^ 2 : ℝ) + ((sh * ch / (Real.sqrt 2 * p.GF) : ℝ) : ℂ) * C "phiWB")

/-- `gV_SM`.  /repo/flavio/physics/zdecays/smeftew.py:63-70. -/
noncomputable def gVSM (f : Fm) (p : Par) : ℝ :=
  f.t3 / 2 - f.q * (if f = b then p.s2w * 1.0065 else p.s2w * 1.0010)

/-- `gA_SM`.  /repo/flavio/physics/zdecays/smeftew.py:73-75. -/
noncomputable def gASM (f : Fm) : ℝ := f.t3 / 2

/-- `sorted((i, j))`.  /repo/flavio/physics/zdecays/smeftew.py:80. -/
def sort2 (i j : Nat) : Nat × Nat := if j < i then (j, i) else (i, j)

/-- The shape common to the `d_gV...`/`d_gA...` functions: the vertex correction at the sorted indices, conjugated if `i > j`
(after sorting), plus the universal shift if the fermions are equal.  /repo/flavio/physics/zdecays/smeftew.py:78-161. -/
noncomputable def shift (f1 f2 : Fm) (vertex : Nat → Nat → ℂ) (univ : ℂ) : ℂ :=
  let ij := sort2 f1.gen f2.gen
  let g := vertex ij.1 ij.2
  let g := if ij.1 > ij.2 then conj g else g
  if f1 = f2 then g + univ else g

/-- `4 * sqrt(2) * par['GF']`.  /repo/flavio/physics/zdecays/smeftew.py:81. -/
noncomputable def nrm (p : Par) : ℝ := 4 * Real.sqrt 2 * p.GF

/-- `d_gVl`.  /repo/flavio/physics/zdecays/smeftew.py:78-86. -/
noncomputable def dgVl (f1 f2 : Fm) (p : Par) (C : WC) : ℂ :=
  shift f1 f2 (fun i j => -(C (key "phie" i j) + C (key "phil1" i j) + C (key "phil3" i j)) / nrm p)
    (dgZb p C * gVSM f1 p + dsh2 p C)

/-- `d_gVnu`.  /repo/flavio/physics/zdecays/smeftew.py:89-97. -/
noncomputable def dgVnu (f1 f2 : Fm) (p : Par) (C : WC) : ℂ :=
  shift f1 f2 (fun i j => -(C (key "phil1" i j) - C (key "phil3" i j)) / nrm p) (dgZb p C * gVSM f1 p)

/-- `d_gVu`.  /repo/flavio/physics/zdecays/smeftew.py:100-108. -/
noncomputable def dgVu (f1 f2 : Fm) (p : Par) (C : WC) : ℂ :=
  shift f1 f2 (fun i j => (-C (key "phiu" i j) - C (key "phiq1" i j) + C (key "phiq3" i j)) / nrm p)
    (dgZb p C * gVSM f1 p - 2 / 3 * dsh2 p C)

/-- `d_gVd`.  /repo/flavio/physics/zdecays/smeftew.py:111-119. -/
noncomputable def dgVd (f1 f2 : Fm) (p : Par) (C : WC) : ℂ :=
  shift f1 f2 (fun i j => -(C (key "phid" i j) + C (key "phiq1" i j) + C (key "phiq3" i j)) / nrm p)
    (dgZb p C * gVSM f1 p + 1 / 3 * dsh2 p C)

/-- `d_gAl`.  /repo/flavio/physics/zdecays/smeftew.py:122-130. -/
noncomputable def dgAl (f1 f2 : Fm) (p : Par) (C : WC) : ℂ :=
  shift f1 f2 (fun i j => (C (key "phie" i j) - C (key "phil1" i j) - C (key "phil3" i j)) / nrm p)
    (dgZb p C * gASM f1)

/-- `d_gAnu`.  /repo/flavio/physics/zdecays/smeftew.py:133-134. -/
noncomputable def dgAnu (f1 f2 : Fm) (p : Par) (C : WC) : ℂ := dgVnu f1 f2 p C

/-- `d_gAu`.  /repo/flavio/physics/zdecays/smeftew.py:137-145. -/
noncomputable def dgAu (f1 f2 : Fm) (p : Par) (C : WC) : ℂ :=
  shift f1 f2 (fun i j => -(-C (key "phiu" i j) + C (key "phiq1" i j) - C (key "phiq3" i j)) / nrm p)
    (dgZb p C * gASM f1)

/-- `d_gAd`.  /repo/flavio/physics/zdecays/smeftew.py:148-156. -/
noncomputable def dgAd (f1 f2 : Fm) (p : Par) (C : WC) : ℂ :=
  shift f1 f2 (fun i j => (C (key "phid" i j) - C (key "phiq1" i j) - C (key "phiq3" i j)) / nrm p)
    (dgZb p C * gASM f1)

/-- `d_gV`.  /repo/flavio/physics/zdecays/smeftew.py:159-167. -/
noncomputable def dgV (f1 f2 : Fm) (p : Par) (C : WC) : ℂ :=
  match f1.sec with
  | .l => dgVl f1 f2 p C | .nu => dgVnu f1 f2 p C | .u => dgVu f1 f2 p C | .d => dgVd f1 f2 p C

/-- `d_gA`.  /repo/flavio/physics/zdecays/smeftew.py:170-178. -/
noncomputable def dgA (f1 f2 : Fm) (p : Par) (C : WC) : ℂ :=
  match f1.sec with
  | .l => dgAl f1 f2 p C | .nu => dgAnu f1 f2 p C | .u => dgAu f1 f2 p C | .d => dgAd f1 f2 p C

/-! ### The SM widths -/

/-- The rows of `cdict` used by `GammaZ_SM`.  /repo/flavio/physics/zdecays/gammazsm.py:20-27. -/
inductive Row | emu | tau | nu | u | c | ds | b
deriving DecidableEq, Repr

/-- The name of the row.  /repo/flavio/physics/zdecays/gammazsm.py:20-27. -/
def Row.name : Row → String
  | .emu => "Gammae,mu" | .tau => "Gammatau" | .nu => "Gammanu" | .u => "Gammau" | .c => "Gammac"
  | .ds => "Gammad,s" | .b => "Gammab"

/-- `cdict[name]`.  /repo/flavio/physics/zdecays/gammazsm.py:20-27. -/
noncomputable def cdict : Row → Fin 8 → ℝ
  | .emu => ![83.966, -0.047, 0.807, -0.095, -0.01, 0.25, -1.1, 285]
  | .tau => ![83.776, -0.047, 0.806, -0.095, -0.01, 0.25, -1.1, 285]
  | .nu => ![167.157, -0.055, 1.26, -0.19, -0.02, 0.36, -0.1, 503]
  | .u => ![299.936, -0.34, 4.07, 14.27, 1.6, 1.8, -11.1, 1253]
  | .c => ![299.860, -0.34, 4.07, 14.27, 1.6, 1.8, -11.1, 1253]
  | .ds => ![382.770, -0.34, 3.83, 10.20, -2.4, 0.67, -10.1, 1469]
  | .b => ![375.724, -0.30, -2.28, 10.53, -2.4, 1.2, -10.0, 1458]

/-- `Zobs` for the widths (`units[name]` is `1e-3` for them).  /repo/flavio/physics/zdecays/gammazsm.py:36-65. -/
noncomputable def zobs (r : Row) (mh mt alphas dalpha mZ : ℝ) : ℝ :=
  let LH := Real.log (mh / 125.7)
  let Dt := (mt / 173.2) ^ 2 - 1
  let Das := alphas / 0.1184 - 1
  let Dal := dalpha / 0.059 - 1
  let DZ := mZ / 91.1876 - 1
  let c := cdict r
  (c 0 + c 1 * LH + c 2 * Dt + c 3 * Das + c 4 * Das ^ 2 + c 5 * Das * Dt + c 6 * Dal + c 7 * DZ) * 1e-3

/-- The row chosen by `GammaZ_SM`.  /repo/flavio/physics/zdecays/gammazsm.py:69-76. -/
def rowOf : Fm → Row
  | e => .emu | mu => .emu
  | d => .ds | s => .ds
  | nue => .nu | numu => .nu | nutau => .nu
  | tau => .tau | u => .u | c => .c | b => .b

/-- `GammaZ_SM`.  /repo/flavio/physics/zdecays/gammazsm.py:68-78. -/
noncomputable def gammaSM (p : Par) (f : Fm) : ℝ :=
  zobs (rowOf f) p.mh p.mt p.alphas 0.059 p.mZ + p.delta ("delta_" ++ (rowOf f).name)

/-! ### The widths and the observables -/

/-- `GammaZ_NP`.  /repo/flavio/physics/zdecays/gammaz.py:9-16. -/
noncomputable def gammaNP (p : Par) (Nc : ℝ) (gV : ℝ) (dV : ℂ) (gA : ℝ) (dA : ℂ) : ℝ :=
  Real.sqrt 2 * p.GF * p.mZ ^ 3 / (3 * Real.pi) * Nc *
    (2 * ((gV : ℂ) * dV).re + 2 * ((gA : ℂ) * dA).re + ‖dV‖ ^ 2 + ‖dA‖ ^ 2)

/-- `GammaZ`.  /repo/flavio/physics/zdecays/gammaz.py:19-36. -/
noncomputable def gammaZ (p : Par) (C : WC) (f1 f2 : Fm) : ℝ :=
  if f1 = f2 then
    gammaSM p f1 + gammaNP p f1.nc (gVSM f1 p) (dgV f1 f2 p C) (gASM f1) (dgA f1 f2 p C)
  else 0 + gammaNP p f1.nc 0 (dgV f1 f2 p C) 0 (dgA f1 f2 p C)

/-- `BRZ_fct_av`: `BR(Z->l1l2)`.  /repo/flavio/physics/zdecays/gammaz.py:49-52,147-157. -/
noncomputable def brAv (p : Par) (C : WC) (f1 f2 : Fm) : ℝ := p.tauZ * (gammaZ p C f1 f2 + gammaZ p C f2 f1)

/-- The sum of a width over all ordered pairs from a list.  /repo/flavio/physics/zdecays/gammaz.py:55-71. -/
noncomputable def pairSum (g : Fm → Fm → ℝ) (l : List Fm) : ℝ := ((l.flatMap fun x => l.map fun y => g x y)).sum

/-- `GammaZnu`: `Gamma(Z->nunu)`.  /repo/flavio/physics/zdecays/gammaz.py:55-58. -/
noncomputable def gammaNu (p : Par) (C : WC) : ℝ := pairSum (gammaZ p C) [nue, numu, nutau] / 3

/-- `Gammal`.  /repo/flavio/physics/zdecays/gammaz.py:61-63. -/
noncomputable def gammaL (p : Par) (C : WC) : ℝ := ([e, mu, tau].map fun l => gammaZ p C l l).sum / 3

/-- `Gammahad`.  /repo/flavio/physics/zdecays/gammaz.py:66-70. -/
noncomputable def gammaHad (p : Par) (C : WC) : ℝ := pairSum (gammaZ p C) [u, c] + pairSum (gammaZ p C) [d, s, b]

/-- `Gammatot`.  /repo/flavio/physics/zdecays/gammaz.py:78-80. -/
noncomputable def gammaTot (p : Par) (C : WC) : ℝ := gammaHad p C + gammaL p C * 3 + gammaNu p C * 3

/-- `sigmahad`.  /repo/flavio/physics/zdecays/gammaz.py:73-75. -/
noncomputable def sigmaHad (p : Par) (C : WC) : ℝ :=
  12 * Real.pi / p.mZ ^ 2 / gammaTot p C ^ 2 * gammaZ p C e e * gammaHad p C

/-- `Rl`.  /repo/flavio/physics/zdecays/gammaz.py:83-84. -/
noncomputable def rl (p : Par) (C : WC) : ℝ := gammaHad p C / gammaL p C
/-- `Rq`.  /repo/flavio/physics/zdecays/gammaz.py:87-90. -/
noncomputable def rq (f : Fm) (p : Par) (C : WC) : ℝ := gammaZ p C f f / gammaHad p C
/-- `Rq1q2`.  /repo/flavio/physics/zdecays/gammaz.py:93-96. -/
noncomputable def rq1q2 (f1 f2 : Fm) (p : Par) (C : WC) : ℝ :=
  (gammaZ p C f1 f1 + gammaZ p C f2 f2) / (2 * gammaHad p C)
/-- `Remutau`.  /repo/flavio/physics/zdecays/gammaz.py:99-102. -/
noncomputable def rlep (f : Fm) (p : Par) (C : WC) : ℝ := gammaHad p C / gammaZ p C f f

/-- `Af`.  /repo/flavio/physics/zdecays/afbz.py:8-10. -/
noncomputable def af (gV gA : ℂ) : ℝ :=
  let r := (gV / gA).re
  2 * r / (1 + r ^ 2)

/-- `AFBf`.  /repo/flavio/physics/zdecays/afbz.py:13-16. -/
noncomputable def afb (gVe gAe gVf gAf : ℂ) : ℝ := 3 / 4 * af gVe gAe * af gVf gAf

/-- `get_gV_gA`.  /repo/flavio/physics/zdecays/afbz.py:19-25. -/
noncomputable def gVA (p : Par) (C : WC) (f : Fm) : ℂ × ℂ :=
  ((gVSM f p : ℂ) + dgV f f p C, (gASM f : ℂ) + dgA f f p C)

/-- `A(Z->ff)`.  /repo/flavio/physics/zdecays/afbz.py:28-32. -/
noncomputable def aObs (p : Par) (C : WC) (f : Fm) : ℝ := af (gVA p C f).1 (gVA p C f).2
/-- `AFB(Z->ff)`.  /repo/flavio/physics/zdecays/afbz.py:35-40. -/
noncomputable def afbObs (p : Par) (C : WC) (f : Fm) : ℝ :=
  afb (gVA p C e).1 (gVA p C e).2 (gVA p C f).1 (gVA p C f).2

/-! ## Specification -/

/-- The coefficient of the operators that couple the Higgs current to left-handed fermions of the given kind:
`phil1 ± phil3`, `phiq1 ± phiq3`, with `+` for the lower components of the doublets. (Specification.) -/
noncomputable def leftC (C : WC) (f : Fm) (i j : Nat) : ℂ :=
  match f.sec with
  | .l => C (key "phil1" i j) + C (key "phil3" i j)
  | .nu => C (key "phil1" i j) - C (key "phil3" i j)
  | .u => C (key "phiq1" i j) - C (key "phiq3" i j)
  | .d => C (key "phiq1" i j) + C (key "phiq3" i j)

/-- The coefficient of the operators that couple the Higgs current to right-handed fermions. (Specification.) -/
noncomputable def rightC (C : WC) (f : Fm) (i j : Nat) : ℂ :=
  match f.sec with
  | .l => C (key "phie" i j) | .nu => 0 | .u => C (key "phiu" i j) | .d => C (key "phid" i j)

/-- No new physics. (Specification.) -/
def noNP : WC := fun _ => 0

end Verif.Zpole
