import Verif.Physics.Angular.Bins
import Verif.Physics.Bvll.Assembly
/-!
# Lepton flavour violating decays B → V ℓ ℓ' (`flavio/physics/bdecays/bvll/lfv.py`)

Inputs per channel: masses, `m_b`, couplings, the CKM factor, form factors, the dictionary of coefficients returned by
`wc_obj.get_wc(label, scale, par)`, the lifetime and the numerical integrator.
-/
set_option linter.unusedVariables false
namespace Verif.BvllLfv
open Verif.Py Verif.Angular Complex

/-- Inputs.  /repo/flavio/physics/bdecays/bvll/lfv.py:9-67. -/
structure Inp where
  GF : ℝ
  alpha : ℝ
  xit : ℂ
  mB : ℝ
  mV : ℝ
  mb : ℝ
  m1 : ℝ
  m2 : ℝ
  tau : ℝ
  ff : ℝ → FFV
  keys : List String
  wc : String → ℂ

/-- `prefactor`: zero at or below threshold.  /repo/flavio/physics/bdecays/bvll/lfv.py:9-19. -/
noncomputable def prefactor (d : Inp) (q2 : ℝ) : ℂ :=
  if q2 ≤ (d.m1 + d.m2) ^ 2 then 0 else (4 * d.GF / Real.sqrt 2 : ℝ) * d.xit * (d.alpha : ℝ) / (4 * Real.pi : ℝ)

/-- `get_wceff_lfv`; `s` is the quark transition followed by the two leptons, e.g. `bsemu`.
/repo/flavio/physics/bdecays/wilsoncoefficients.py:154-174. -/
noncomputable def wceff (mb : ℝ) (wc : String → ℂ) (s : String) : Wc :=
  { c7 := 0, c7p := 0, v := wc ("C9_" ++ s), vp := wc ("C9p_" ++ s), a := wc ("C10_" ++ s), ap := wc ("C10p_" ++ s)
    s := (mb : ℂ) * wc ("CS_" ++ s), sp := (mb : ℂ) * wc ("CSp_" ++ s), p := (mb : ℂ) * wc ("CP_" ++ s), pp := (mb : ℂ) * wc ("CPp_" ++ s), t := 0, tp := 0 }

/-- `helicity_amps`.  /repo/flavio/physics/bdecays/bvll/lfv.py:21-32. -/
noncomputable def amps (d : Inp) (s : String) (q2 : ℝ) : AmpV :=
  helicityV q2 d.mB d.mV d.mb 0 d.m1 d.m2 (d.ff q2) (wceff d.mb d.wc s) (prefactor d q2)

/-- `bvlilj_obs` with `dGdq2`.  /repo/flavio/physics/bdecays/bvll/lfv.py:34-45. -/
noncomputable def obs (d : Inp) (s : String) (q2 : ℝ) : ℝ :=
  if q2 < (d.m1 + d.m2) ^ 2 ∨ q2 > (d.mB - d.mV) ^ 2 then 0
  else dGdq2 (angularV (amps d s q2) q2 d.mB d.mV d.m1 d.m2)

/-- `BR_tot` (`bvlilj_obs_int` with the default accuracy 0.005).  /repo/flavio/physics/bdecays/bvll/lfv.py:47-67. -/
noncomputable def brTot (nint : Nint) (d : Inp) (s : String) : ℝ :=
  if ∀ k ∈ d.keys, ‖d.wc k‖ < 1e-12 then 0
  else d.tau * nint (obs d s) ((d.m1 + d.m2) ^ 2) ((d.mB - d.mV) ^ 2) (5 / 1000)

/-- `BR_tot_function_leptonsum`.  /repo/flavio/physics/bdecays/bvll/lfv.py:72-73. -/
noncomputable def brSum (nint : Nint) (d1 d2 : Inp) (s1 s2 : String) : ℝ := brTot nint d1 s1 + brTot nint d2 s2

/-- `_hadr`: name, the mesons, and the quark transition `meson_quark[(B,V)]`.
/repo/flavio/physics/bdecays/bvll/lfv.py:87-93; bdecays/common.py:17-50. -/
def hadr : List (String × String × String × String) :=
  [("B0->K*", "B0", "K*0", "bs"), ("B+->K*", "B+", "K*+", "bs"), ("B+->rho", "B+", "rho+", "bd"), ("B0->rho", "B0", "rho0", "bd"), ("Bs->phi", "Bs", "phi", "bs")]
/-- The lepton pairs.  /repo/flavio/physics/bdecays/bvll/lfv.py:95. -/
def leps : List (String × String) := [("e", "mu"), ("mu", "e"), ("e", "tau"), ("tau", "e"), ("mu", "tau"), ("tau", "mu")]

/-- The registered observables with their prediction; `d B V l1 l2` are the inputs.
/repo/flavio/physics/bdecays/bvll/lfv.py:95-110. -/
noncomputable def registry (nint : Nint) (d : String → String → String → String → Inp) : List (String × ℝ) :=
  leps.flatMap fun l => hadr.map fun m =>
    ("BR(" ++ m.1 ++ l.1 ++ l.2 ++ ")", brTot nint (d m.2.1 m.2.2.1 l.1 l.2) (m.2.2.2 ++ l.1 ++ l.2))

/-- The names only (specification of the list of names). -/
def names : List String := leps.flatMap fun l => hadr.map fun m => "BR(" ++ m.1 ++ l.1 ++ l.2 ++ ")"

end Verif.BvllLfv
