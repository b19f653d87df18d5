import Verif.Physics.Kdecays.Lambdaplnu
import Mathlib.Analysis.SpecialFunctions.Pow.Complex
import Mathlib.Analysis.SpecialFunctions.Complex.Log
/-!
# Inclusive semileptonic decays B → X_c ℓ ν (`flavio/physics/bdecays/bxlnu.py`)

`cmath.log` and `cmath.sqrt` are the principal branches; floats are reals.  The kinetic b mass is taken non-zero by the
code's own running (a zero mass is the `ZeroDivisionError` of `pyDiv`), and `cmath.log(0)` is represented for `xc = 0` only
(it is the first thing evaluated then); at `xc = 1` with a massive lepton Python raises `ValueError`, the model takes
`log 0 = 0` there.  `lru_cache` memoises functions of their arguments alone and is not represented.
-/
set_option linter.unusedVariables false
namespace Verif.Xlnu
open Verif.Py Verif.Running Verif.Lambdap Complex

/-- `cmath.sqrt`. (Specification.) -/
noncomputable def csqrt (z : ℂ) : ℂ := z ^ (1/2 : ℂ)

/-- `sqrt(xc**2 + (-1 + xl)**2 - 2*xc*(1 + xl))`.  /repo/flavio/physics/bdecays/bxlnu.py:79 (and throughout). -/
noncomputable def sS (xc xl : ℝ) : ℂ := csqrt ((xc^2 + (-1 + xl)^2 - 2*xc*(1 + xl) : ℝ) : ℂ)
/-- `log(1 + xc - xl - sqrt(1 + (xc - xl)**2 - 2*(xc + xl)))`.  /repo/flavio/physics/bdecays/bxlnu.py:94. -/
noncomputable def lA (xc xl : ℝ) : ℂ := Complex.log (1 + xc - xl - csqrt ((1 + (xc - xl)^2 - 2*(xc + xl) : ℝ) : ℂ))
/-- `log(sqrt(xc) - 2*xc + xc**1.5)`.  /repo/flavio/physics/bdecays/bxlnu.py:91. -/
noncomputable def l15 (xc : ℝ) : ℂ := Complex.log (csqrt (xc : ℂ) - 2*xc + ((xc ^ (1.5 : ℝ) : ℝ) : ℂ))
/-- `log(1 + xc**2 - xl + sqrt(…) - xc*(2 + xl + sqrt(…)))`.  /repo/flavio/physics/bdecays/bxlnu.py:97-98. -/
noncomputable def lC (xc xl : ℝ) : ℂ := Complex.log (1 + xc^2 - xl + sS xc xl - xc*(2 + xl + sS xc xl))
/-- `log(1 - sqrt(xc))`.  /repo/flavio/physics/bdecays/bxlnu.py:89. -/
noncomputable def l1 (xc : ℝ) : ℂ := Complex.log (1 - csqrt (xc : ℂ))

/-- `g`.  /repo/flavio/physics/bdecays/bxlnu.py:73-101. -/
noncomputable def g (xc xl : ℝ) : ℝ :=
  if xl = 0 then (1 - 8*xc + 8*xc^3 - xc^4 - 12*xc^2*Complex.log xc : ℂ).re
  else
    let s := sS xc xl
    let ln2 := Complex.log 2
    let lc := Complex.log xc
    let ll := Complex.log xl;
    (s - 7*xc*s - 7*xc^2*s + xc^3*s - 7*xl*s + 12*xc*xl*s - 7*xc^2*xl*s - 7*xl^2*s - 7*xc*xl^2*s + xl^3*s
      + 24*xc^2*ln2 - 24*xl^2*ln2 - 24*(-1 + xc^2)*xl^2*l1 xc
      + 12*xc^2*lc - 6*xl^2*lc - 6*xc^2*xl^2*lc
      - 12*xl^2*l15 xc + 12*xc^2*xl^2*l15 xc
      - 12*xl^2*ll + 12*xc^2*xl^2*ll
      - 24*xc^2*lA xc xl + 12*xl^2*lA xc xl + 12*xc^2*xl^2*lA xc xl
      + 12*xl^2*lC xc xl - 12*xc^2*xl^2*lC xc xl : ℂ).re

/-- `gLR`.  /repo/flavio/physics/bdecays/bxlnu.py:103-129. -/
noncomputable def gLR (xc xl : ℝ) : ℝ :=
  if xl = 0 then (4*csqrt xc*(1 + 9*xc - 9*xc^2 - xc^3 + 6*xc*(1 + xc)*Complex.log xc) : ℂ).re
  else
    let s := sS xc xl
    let ln2 := Complex.log 2
    let lc := Complex.log xc
    let ll := Complex.log xl;
    (4*csqrt xc*(s + 10*xc*s + xc^2*s - 5*xl*s - 5*xc*xl*s - 2*xl^2*s
      - 12*xc*ln2 - 12*xc^2*ln2 + 24*xc*xl*ln2
      - 12*xl^2*ln2 - 12*(-1 + xc)*xl^2*l1 xc
      - 6*xc*lc - 6*xc^2*lc + 12*xc*xl*lc - 3*xl^2*lc
      - 3*xc*xl^2*lc - 6*xl^2*l15 xc
      + 6*xc*xl^2*l15 xc - 6*xl^2*ll
      + 6*xc*xl^2*ll + 12*xc*lA xc xl
      + 12*xc^2*lA xc xl - 24*xc*xl*lA xc xl + 6*xl^2*lA xc xl + 6*xc*xl^2*lA xc xl
      + 6*xl^2*lC xc xl - 6*xc*xl^2*lC xc xl) : ℂ).re

/-- `gVS`.  /repo/flavio/physics/bdecays/bxlnu.py:131-165. -/
noncomputable def gVS (xc xl : ℝ) : ℝ :=
  if xl = 0 then 0
  else
    let s := sS xc xl
    let ln2 := Complex.log 2
    let lc := Complex.log xc
    let ll := Complex.log xl;
    (2*csqrt xl*(s - 5*xc*s - 2*xc^2*s + 10*xl*s - 5*xc*xl*s + xl^2*s + 12*xc^2*ln2
      + 12*xl*ln2 - 24*xc*xl*ln2 + 12*xl^2*ln2
      - 12*xl*(1 - 2*xc + xc^2 + xl)*l1 xc + 6*xc^2*lc
      + 3*xl*lc - 6*xc*xl*lc - 3*xc^2*xl*lc + 3*xl^2*lc
      + 6*xl*l15 xc - 12*xc*xl*l15 xc
      + 6*xc^2*xl*l15 xc
      + 6*xl^2*l15 xc + 6*xl*ll
      - 12*xc*xl*ll + 6*xc^2*xl*ll + 6*xl^2*ll
      - 12*xc^2*lA xc xl - 6*xl*lA xc xl + 12*xc*xl*lA xc xl + 6*xc^2*xl*lA xc xl - 6*xl^2*lA xc xl
      - 6*xl*lC xc xl + 12*xc*xl*lC xc xl - 6*xc^2*xl*lC xc xl - 6*xl^2*lC xc xl) : ℂ).re

/-- `gVSp`.  /repo/flavio/physics/bdecays/bxlnu.py:167-199. -/
noncomputable def gVSp (xc xl : ℝ) : ℝ :=
  if xl = 0 then 0
  else
    let s := sS xc xl
    let ln2 := Complex.log 2
    let lc := Complex.log xc
    let ll := Complex.log xl;
    (2*csqrt ((xc*xl : ℝ) : ℂ)*(2*s + 5*xc*s - xc^2*s + 5*xl*s - 10*xc*xl*s - xl^2*s - 12*xc*ln2
      + 12*xl*ln2 - 12*(1 + xc^2 + xc*(-2 + xl))*xl*l1 xc
      - 6*xc*lc + 3*xl*lc + 6*xc*xl*lc - 3*xc^2*xl*lc
      - 3*xc*xl^2*lc + 6*xl*l15 xc
      - 12*xc*xl*l15 xc
      + 6*xc^2*xl*l15 xc
      + 6*xc*xl^2*l15 xc
      + 6*xl*ll - 12*xc*xl*ll + 6*xc^2*xl*ll + 6*xc*xl^2*ll
      + 12*xc*lA xc xl - 6*xl*lA xc xl - 12*xc*xl*lA xc xl + 6*xc^2*xl*lA xc xl + 6*xc*xl^2*lA xc xl
      - 6*xl*lC xc xl + 12*xc*xl*lC xc xl - 6*xc^2*xl*lC xc xl - 6*xc*xl^2*lC xc xl) : ℂ).re

/-- `d`.  /repo/flavio/physics/bdecays/bxlnu.py:201-202. -/
noncomputable def dD (xc : ℝ) : ℝ := (8*Complex.log xc - 10*xc^4/3 + 32*xc^3/3 - 8*xc^2 - 32*xc/3 + 34/3 : ℂ).re

/-- `pc1`.  /repo/flavio/physics/bdecays/bxlnu.py:204-210. -/
noncomputable def pc1 (r mb : ℝ) : ℝ :=
  6.486085393242938 - 80.16227770322831*r + 207.37836204469366*r^2
    + mb*(-2.3090743981240274 + 14.029509187000471*r - 36.61694487623083*r^2)
    + mb^2*(0.18126017716432158 - 0.8813205571033417*r + 3.1906139935867635*r^2)

/-- `pc2`.  /repo/flavio/physics/bdecays/bxlnu.py:212-218. -/
noncomputable def pc2 (r mb : ℝ) : ℝ :=
  63.344451026174276 - 1060.9791881246733*r + 4332.058337615373*r^2
    + mb*(-21.760717863346223 + 273.7460360545832*r - 1032.068345746423*r^2)
    + mb^2*(1.8406501267881998 - 20.26973707297946*r + 73.82649433414315*r^2)

/-- `r_WC`.  /repo/flavio/physics/bdecays/bxlnu.py:37-51. -/
noncomputable def rWC (xc xl : ℝ) (wc : Std) : ℝ :=
  g xc xl * (‖wc.VL‖^2 + ‖wc.VR‖^2)
    - gLR xc xl * (wc.VL*wc.VR).re
    + g xc xl/4 * (‖wc.SR‖^2 + ‖wc.SL‖^2)
    + gLR xc xl/2 * (wc.SR*wc.SL).re
    + 12*g xc xl * ‖wc.T‖^2
    + gVS xc xl * ((wc.VL*wc.SR).re + (wc.VR*wc.SL).re)
    + gVSp xc xl * ((wc.VL*wc.SL).re + (wc.VR*wc.SR).re)
    - 12*gVSp xc xl * (wc.VL*wc.T).re
    + 12*gVS xc xl * (wc.VR*wc.T).re

/-- What the functions read: parameters, running masses and couplings, and the coefficients of `wc_obj.get_wc`
(`np lep nu`), `cvlsm` being `get_CVLSM`. (Specification.) -/
structure Inp where
  GF : ℝ
  /-- `get_mb_KS(par, 1)` -/
  mb : ℝ
  /-- `get_mc(par, 3)` -/
  mc : ℝ
  mlep : String → ℝ
  Vcb : ℂ
  alphas : ℝ
  mupi2 : ℝ
  muG2 : ℝ
  rhoLS3 : ℝ
  rhoD3 : ℝ
  delta : ℝ
  tauB0 : ℝ
  tauBp : ℝ
  cvlsm : ℝ
  np : String → String → Std

/-- `get_wceff_fccc_std(wc_obj, par, 'bc', lep, nu, …)`.  /repo/flavio/physics/bdecays/wilsoncoefficients.py:234-250. -/
noncomputable def wcOf (d : Inp) (lep nu : String) : Std :=
  let w := d.np lep nu
  { w with VL := (if lep = nu then (d.cvlsm : ℂ) else 0) + w.VL }

/-- `_BR_BXclnu`.  /repo/flavio/physics/bdecays/bxlnu.py:20-70. -/
noncomputable def br1 (d : Inp) (lep nu : String) : Except PyErr ℝ := do
  let wc := wcOf d lep nu
  if lep ≠ nu ∧ wc.VL = 0 ∧ wc.VR = 0 ∧ wc.SR = 0 ∧ wc.SL = 0 ∧ wc.T = 0 then pure 0
  else do
    let xl ← pyDiv (d.mlep lep^2) (d.mb^2)
    let xc ← pyDiv (d.mc^2) (d.mb^2)
    if xc = 0 then .error .valueError
    else do
      let gammaLO := d.GF^2 * d.mb^5 / 192 / Real.pi^3 * ‖d.Vcb‖^2
      let q1 ← pyDiv (2*(1 - xc)^4) (g xc 0)
      let q2 ← pyDiv (dD xc) (g xc 0)
      let rBLO := 1 + d.alphas/Real.pi * pc1 xc d.mb + d.alphas^2/Real.pi^2 * pc2 xc d.mb
        - d.mupi2/(2*d.mb^2)
        + (1/2 - q1)*(d.muG2 - (d.rhoLS3 + d.rhoD3)/d.mb)/d.mb^2
        + q2*d.rhoD3/d.mb^3
        + d.alphas/Real.pi*d.mupi2*0.071943
        + d.alphas/Real.pi*d.muG2*(-0.114774)
      let rrem := 1 + d.delta
      pure ((d.tauB0 + d.tauBp)/2 * gammaLO * rWC xc xl wc * rBLO * rrem)

/-- `BR_BXclnu`.  /repo/flavio/physics/bdecays/bxlnu.py:16-18. -/
noncomputable def br (d : Inp) (lep : String) : Except PyErr ℝ := do
  let a ← br1 d lep "e"
  let b ← br1 d lep "mu"
  let c ← br1 d lep "tau"
  pure (a + b + c)

/-- `BR_tot_function`: `'l'` is the average of e and mu.  /repo/flavio/physics/bdecays/bxlnu.py:221-225. -/
noncomputable def brTot (d : Inp) (lep : String) : Except PyErr ℝ :=
  if lep = "l" then do
    let a ← br d "e"
    let b ← br d "mu"
    pure ((a + b)/2)
  else br d lep

/-- `BR_tot_leptonflavour`.  /repo/flavio/physics/bdecays/bxlnu.py:227-239. -/
noncomputable def ratio (d : Inp) (lnum lden : String) : Except PyErr ℝ := do
  let num ← brTot d lnum
  if num = 0 then pure 0
  else do
    let den ← brTot d lden
    pyDiv num den

/-- The predictions.  /repo/flavio/physics/bdecays/bxlnu.py:246-272. -/
inductive Obs
  | br (lep : String)
  | ratio (lnum lden : String)
  deriving DecidableEq

/-- The registered names.  /repo/flavio/physics/bdecays/bxlnu.py:246-272. -/
def registry : List (String × Obs) :=
  (["e", "mu", "tau", "l"].map fun l => ("BR(B->Xc" ++ l ++ "nu)", Obs.br l)) ++
  ([("mu", "e"), ("tau", "mu"), ("tau", "l")].map fun p => ("R" ++ p.1 ++ p.2 ++ "(B->Xclnu)", Obs.ratio p.1 p.2))

end Verif.Xlnu
