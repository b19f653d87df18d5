import Verif.Physics.Dipoles.Edm
/-!
# μ→e conversion, lepton g−2, neutrino tridents
(`flavio/physics/mudecays/mueconversion.py`, `flavio/physics/mdms/al.py`, `flavio/physics/neutrinos/trident.py`)

For conversion the input is that of the EDM model: parameters, the coefficients `wc_obj.get_wc('mue', scale, par, nf_out=3)`
and the running quark masses, here at the scale `mudecays`.  `-np.sqrt(2)/GF` and the final division by the capture rate
are divisions of numpy floats (no exception on zero); the theorems assume `GF`, `m_mu` and the capture rate non-zero.
-/
set_option linter.unusedVariables false
namespace Verif.MuE
open Verif.Py Verif.Running Verif.Edm Complex

/-- `CR_mue`.  /repo/flavio/physics/mudecays/mueconversion.py:7-69. -/
noncomputable def crMue (d : Inp) (nucl : String) : Except PyErr ℝ := do
  let mm := d.par "m_mu"
  let pc ← protonCharges d
  let GuSp := (pc.gSupd + pc.gSumd) / 2
  let GdSp := (pc.gSupd - pc.gSumd) / 2
  let GsSp := pc.gSs
  let GuSn := GdSp
  let GdSn := GuSp
  let GsSn := GsSp
  let D := d.par ("D " ++ nucl) * mm ^ (5 / 2 : ℝ)
  let Sp := d.par ("Sp " ++ nucl) * mm ^ (5 / 2 : ℝ)
  let Vp := d.par ("Vp " ++ nucl) * mm ^ (5 / 2 : ℝ)
  let Sn := d.par ("Sn " ++ nucl) * mm ^ (5 / 2 : ℝ)
  let Vn := d.par ("Vn " ++ nucl) * mm ^ (5 / 2 : ℝ)
  let omegaCapt := d.par ("GammaCapture " ++ nucl)
  let prefac : ℝ := -Real.sqrt 2 / d.par "GF"
  let AL : ℂ := ((prefac / (4 * mm) : ℝ) : ℂ) * d.wc "Cgamma_emu"
  let AR : ℂ := ((prefac / (4 * mm) : ℝ) : ℂ) * (starRingEnd ℂ) (d.wc "Cgamma_mue")
  let gRVu : ℂ := (prefac : ℂ) * (d.wc "CVRR_mueuu" + d.wc "CVLR_uumue") / 2
  let gRVd : ℂ := (prefac : ℂ) * (d.wc "CVRR_muedd" + d.wc "CVLR_ddmue") / 2
  let gLVu : ℂ := (prefac : ℂ) * (d.wc "CVLR_mueuu" + d.wc "CVLL_mueuu") / 2
  let gLVd : ℂ := (prefac : ℂ) * (d.wc "CVLR_muedd" + d.wc "CVLL_muedd") / 2
  let gRSu : ℂ := (prefac : ℂ) * (starRingEnd ℂ) (d.wc "CSRR_emuuu" + d.wc "CSRL_emuuu") / 2
  let gRSd : ℂ := (prefac : ℂ) * (starRingEnd ℂ) (d.wc "CSRR_emudd" + d.wc "CSRL_emudd") / 2
  let gRSs : ℂ := (prefac : ℂ) * (starRingEnd ℂ) (d.wc "CSRR_emuss" + d.wc "CSRL_emuss") / 2
  let gLSu : ℂ := (prefac : ℂ) * (d.wc "CSRR_mueuu" + d.wc "CSRL_mueuu") / 2
  let gLSd : ℂ := (prefac : ℂ) * (d.wc "CSRR_muedd" + d.wc "CSRL_muedd") / 2
  let gLSs : ℂ := (prefac : ℂ) * (d.wc "CSRR_muess" + d.wc "CSRL_muess") / 2
  let lhc : ℂ := (starRingEnd ℂ) AR * (D : ℂ) + (2 * gLVu + gLVd) * (Vp : ℂ) + (gLVu + 2 * gLVd) * (Vn : ℂ)
    + ((GuSp : ℂ) * gLSu + (GdSp : ℂ) * gLSd + (GsSp : ℂ) * gLSs) * (Sp : ℂ)
    + ((GuSn : ℂ) * gLSu + (GdSn : ℂ) * gLSd + (GsSn : ℂ) * gLSs) * (Sn : ℂ)
  let rhc : ℂ := (starRingEnd ℂ) AL * (D : ℂ) + (2 * gRVu + gRVd) * (Vp : ℂ) + (gRVu + 2 * gRVd) * (Vn : ℂ)
    + ((GuSp : ℂ) * gRSu + (GdSp : ℂ) * gRSd + (GsSp : ℂ) * gRSs) * (Sp : ℂ)
    + ((GuSn : ℂ) * gRSu + (GdSn : ℂ) * gRSd + (GsSn : ℂ) * gRSs) * (Sn : ℂ)
  let omegaConv := 2 * d.par "GF" ^ 2 * (‖lhc‖ ^ 2 + ‖rhc‖ ^ 2)
  pure (omegaConv / omegaCapt)

/-- The registered observables.  /repo/flavio/physics/mudecays/mueconversion.py:72-99. -/
noncomputable def registry (d : Inp) : List (String × Except PyErr ℝ) :=
  [("CR(mu->e, Au)", crMue d "Au"), ("CR(mu->e, Al)", crMue d "Al"), ("CR(mu->e, Ti)", crMue d "Ti")]

/-- What the g−2 predictions read: parameters, `flavio.config['renormalization scale']`, and the coefficients of the
sector `dF=0` as a function of scale, EFT and name.  /repo/flavio/physics/mdms/al.py:7-40. -/
structure GInp where
  par : String → ℝ
  scale : String → Option ℝ
  wc : ℝ → String → String → ℂ

/-- `flavio.config['renormalization scale'][k]`.  /repo/flavio/physics/mdms/al.py:27, :33, :39. -/
def GInp.getScale (d : GInp) (k : String) : Except PyErr ℝ :=
  match d.scale k with | some x => .ok x | none => .error .keyError

/-- `al`.  /repo/flavio/physics/mdms/al.py:7-21. -/
noncomputable def al (d : GInp) (l eft : String) (scale : ℝ) : ℝ :=
  let m := d.par ("m_" ++ l)
  let pre := m ^ 2 * d.par "GF" / Real.sqrt 2 / Real.pi ^ 2
  d.par ("a_" ++ l ++ " SM") + pre * (d.wc scale eft ("C7_" ++ l ++ l)).re

/-- `ae`.  /repo/flavio/physics/mdms/al.py:24-28. -/
noncomputable def ae (d : GInp) : Except PyErr ℝ := do
  let s ← d.getScale "e g-2"
  pure (al d "e" "WET-3" s)
/-- `amu`.  /repo/flavio/physics/mdms/al.py:30-34. -/
noncomputable def amu (d : GInp) : Except PyErr ℝ := do
  let s ← d.getScale "mudecays"
  pure (al d "mu" "WET-3" s)
/-- `atau`.  /repo/flavio/physics/mdms/al.py:36-40. -/
noncomputable def atau (d : GInp) : Except PyErr ℝ := do
  let s ← d.getScale "tau g-2"
  pure (al d "tau" "WET" s)
/-- The registered g−2 observables.  /repo/flavio/physics/mdms/al.py:43-55. -/
noncomputable def gRegistry (d : GInp) : List (String × Except PyErr ℝ) :=
  [("a_" ++ "mu", amu d), ("a_" ++ "tau", atau d), ("a_" ++ "e", ae d)]

/-- `R_trident` (coefficients of the sector `ffnunu`).  /repo/flavio/physics/neutrinos/trident.py:6-36. -/
noncomputable def trident (s2w : ℝ) (wc : String → ℂ) : Except PyErr ℝ := do
  let CVSM : ℝ := 1 / 2 + 2 * s2w
  let CASM : ℝ := 1 / 2
  let CVm := -wc "CVLR_numunumumumu" - wc "CVLL_numunumumumu"
  let CAm := -wc "CVLL_numunumumumu" + wc "CVLR_numunumumumu"
  let CVe := -wc "CVLL_nuenumumumu" - wc "CVLR_nuenumumumu"
  let CAe := -wc "CVLL_nuenumumumu" + wc "CVLR_nuenumumumu"
  let CVt := -wc "CVLL_numunutaumumu" - wc "CVLR_numunutaumumu"
  let CAt := -wc "CVLL_numunutaumumu" + wc "CVLR_numunutaumumu"
  let CA : ℂ := (CASM : ℂ) + CAm
  let CV : ℂ := (CVSM : ℂ) + CVm
  let sSM := |CASM| ^ 2 + |CVSM| ^ 2
  let sTot := ‖CA‖ ^ 2 + ‖CV‖ ^ 2 + ‖CAe‖ ^ 2 + ‖CVe‖ ^ 2 + ‖CAt‖ ^ 2 + ‖CVt‖ ^ 2
  pyDiv sTot sSM

end Verif.MuE
