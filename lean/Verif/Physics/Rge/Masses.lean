import Verif.Physics.Running
import Verif.Py.Dict
/-!
# Model of the running couplings and quark masses (/repo/flavio/physics/running/running.py:131-282)

The numerical work is done by two other packages, `wilson.util.qcd` and `rundec`; they are uninterpreted
functions here (`Ext`).  What is modelled is what flavio hands to them: which parameter, which scale, which number
of flavours, which loop order.  The memoisation of the inner functions is the subject of C153.
-/
namespace Verif.Running
open Verif.Py

/-- The external functions, with the arguments flavio passes
(/repo/flavio/physics/running/running.py:135, l.149, l.155, l.161, l.197, l.210, l.253, l.268, l.282). -/
structure Ext where
  /-- `qcd.alpha_s(scale, f, alphasMZ)` -/
  alphaS : ℝ → ℕ → ℝ → ℝ
  /-- `qcd.m_b(mbmb, scale, f, alphasMZ)` -/
  mB : ℝ → ℝ → ℕ → ℝ → ℝ
  /-- `qcd.m_c(mcmc, scale, f, alphasMZ)` -/
  mC : ℝ → ℝ → ℕ → ℝ → ℝ
  /-- `qcd.m_s(ms2, scale, f, alphasMZ)` -/
  mS : ℝ → ℝ → ℕ → ℝ → ℝ
  /-- `crd.mMS2mOS(mMS, None, alpha_s, mu, nf, nl)` -/
  mMS2mOS : ℝ → ℝ → ℝ → ℕ → ℕ → ℝ
  /-- `crd.mMS2m1S(mMS, None, alpha_s, mu, nf, nl)` -/
  mMS2m1S : ℝ → ℝ → ℝ → ℕ → ℕ → ℝ
  /-- `crd.mOS2mMS(mOS, None, alpha_s, mu, nf, nl)` -/
  mOS2mMS : ℝ → ℝ → ℝ → ℕ → ℕ → ℝ
  /-- `crd.mOS2mSI(mOS, None, alpha_s, nf, nl)` -/
  mOS2mSI : ℝ → ℝ → ℕ → ℕ → ℝ
  /-- `masses.mMS2mKS(MS, Nf, asM, Mu, nl)` (modelled in C121) -/
  mMS2mKS : ℝ → ℕ → ℝ → ℝ → ℕ → ℝ

/-- `par[name]` (/repo/flavio/physics/running/running.py:110). -/
def parGet (par : Dict String ℝ) (name : String) : Except PyErr ℝ :=
  match par.get? name with
  | some v => .ok v
  | none => .error .keyError

/-- /repo/flavio/physics/running/running.py:131-135 `get_alpha_s`. -/
noncomputable def getAlphaS (e : Ext) (t : Thr) (par : Dict String ℝ) (scale : ℝ) (nfOut : Option ℕ) : Except PyErr ℝ := do
  let nf ← chooseNf t scale nfOut
  let a ← parGet par "alpha_s"
  return e.alphaS scale nf a

/-- /repo/flavio/physics/running/running.py:106-128 `get_alpha_e` with the parameter dictionary. -/
noncomputable def getAlphaEPar (t : Thr) (par : Dict String ℝ) (scale : ℝ) (nfOut : Option ℕ) : Except PyErr ℝ := do
  let nf ← chooseNf t scale nfOut
  let a ← parGet par "alpha_e"
  alphaENf t a scale nf

/-- The dictionary returned by `get_alpha` (/repo/flavio/physics/running/running.py:142-143). -/
structure Couplings where
  alphaE : ℝ
  alphaS : ℝ

/-- /repo/flavio/physics/running/running.py:138-143 `get_alpha`. -/
noncomputable def getAlpha (e : Ext) (t : Thr) (par : Dict String ℝ) (scale : ℝ) (nfOut : Option ℕ) :
    Except PyErr Couplings := do
  let ae ← getAlphaEPar t par scale nfOut
  let as ← getAlphaS e t par scale nfOut
  return ⟨ae, as⟩

/-- The common shape of `get_mb` … `get_ms`: flavours, mass parameter, `alpha_s`
(/repo/flavio/physics/running/running.py:146-173). -/
noncomputable def runMass (f : ℝ → ℝ → ℕ → ℝ → ℝ) (name : String) (t : Thr) (par : Dict String ℝ) (scale : ℝ)
    (nfOut : Option ℕ) : Except PyErr ℝ := do
  let nf ← chooseNf t scale nfOut
  let m ← parGet par name
  let a ← parGet par "alpha_s"
  return f m scale nf a

/-- /repo/flavio/physics/running/running.py:146-149 `get_mb`. -/
noncomputable def getMb (e : Ext) := runMass e.mB "m_b"
/-- /repo/flavio/physics/running/running.py:152-155 `get_mc`. -/
noncomputable def getMc (e : Ext) := runMass e.mC "m_c"
/-- /repo/flavio/physics/running/running.py:158-161 `get_mu`. -/
noncomputable def getMu (e : Ext) := runMass e.mS "m_u"
/-- /repo/flavio/physics/running/running.py:164-167 `get_md`. -/
noncomputable def getMd (e : Ext) := runMass e.mS "m_d"
/-- /repo/flavio/physics/running/running.py:170-173 `get_ms`. -/
noncomputable def getMs (e : Ext) := runMass e.mS "m_s"

/-- /repo/flavio/physics/running/running.py:176-182 `get_mq`. -/
noncomputable def getMq (e : Ext) (q : String) (t : Thr) (par : Dict String ℝ) (scale : ℝ) (nfOut : Option ℕ) :
    Except PyErr ℝ :=
  if q = "u" then getMu e t par scale nfOut
  else if q = "c" then getMc e t par scale nfOut
  else if q = "d" then getMd e t par scale nfOut
  else if q = "s" then getMs e t par scale nfOut
  else if q = "b" then getMb e t par scale nfOut
  else .error .keyError

/-- /repo/flavio/physics/running/running.py:185-197 `get_mc_pole` (default `nl=2`). -/
noncomputable def getMcPole (e : Ext) (t : Thr) (par : Dict String ℝ) (nl : ℕ := 2) : Except PyErr ℝ := do
  let m ← parGet par "m_c"
  let a ← getAlpha e t par m none
  return e.mMS2mOS m a.alphaS m 4 nl

/-- /repo/flavio/physics/running/running.py:200-210 `get_mc_KS`. -/
noncomputable def getMcKS (e : Ext) (t : Thr) (par : Dict String ℝ) (scale : ℝ) : Except PyErr ℝ := do
  let m ← parGet par "m_c"
  let a ← getAlpha e t par m none
  return e.mMS2mKS m 3 a.alphaS scale 3

/-- /repo/flavio/physics/running/running.py:213-225 `get_mb_pole` (default `nl=2`). -/
noncomputable def getMbPole (e : Ext) (t : Thr) (par : Dict String ℝ) (nl : ℕ := 2) : Except PyErr ℝ := do
  let m ← parGet par "m_b"
  let a ← getAlpha e t par m none
  return e.mMS2mOS m a.alphaS m 5 nl

/-- /repo/flavio/physics/running/running.py:228-239 `get_mb_KS`. -/
noncomputable def getMbKS (e : Ext) (t : Thr) (par : Dict String ℝ) (scale : ℝ) : Except PyErr ℝ := do
  let m ← parGet par "m_b"
  let a ← getAlpha e t par m none
  return e.mMS2mKS m 4 a.alphaS scale 3

/-- /repo/flavio/physics/running/running.py:242-253 `get_mb_1S` (default `nl=3`). -/
noncomputable def getMb1S (e : Ext) (t : Thr) (par : Dict String ℝ) (nl : ℕ := 3) : Except PyErr ℝ := do
  let m ← parGet par "m_b"
  let a ← getAlpha e t par m none
  return e.mMS2m1S m a.alphaS m 5 nl

/-- /repo/flavio/physics/running/running.py:256-268 `get_mt`. -/
noncomputable def getMt (e : Ext) (t : Thr) (par : Dict String ℝ) (scale : ℝ) : Except PyErr ℝ := do
  let m ← parGet par "m_t"
  let a ← getAlphaS e t par scale none
  return e.mOS2mMS m a scale 6 3

/-- /repo/flavio/physics/running/running.py:271-282 `get_mt_mt`. -/
noncomputable def getMtMt (e : Ext) (t : Thr) (par : Dict String ℝ) : Except PyErr ℝ := do
  let m ← parGet par "m_t"
  let a ← getAlphaS e t par m none
  return e.mOS2mSI m a 6 3

end Verif.Running
