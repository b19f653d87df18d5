import Verif.Physics.Bdecays.Bll
/-!
# Electric dipole moments (`flavio/physics/edms/common.py`, `neutronedm.py`, `slcouplings.py`, `paraedm.py`)

Parameters are a total function of their names (a missing name is a `KeyError`, not modelled); the coefficients
`wc_obj.get_wc('dF=0', scale=2, …)`, the running quark masses `get_mu`, `get_md`, `get_ms` and `alpha_e` are inputs,
as functions of the number of flavours handed to them.  `math.sqrt` of a negative number is a `ValueError`.
-/
set_option linter.unusedVariables false
namespace Verif.Edm
open Verif.Py Verif.Running Verif.Bll Complex

/-- What the predictions read.  /repo/flavio/physics/edms/neutronedm.py:8-9, common.py:13-24, :37-39. -/
structure Inp where
  par : String → ℝ
  wc : String → ℂ
  getMu : Nat → ℝ
  getMd : Nat → ℝ
  getMs : Nat → ℝ
  alphaE : Nat → ℝ

/-- `eft_nf_out[eft]`.  /repo/flavio/physics/edms/common.py:9. -/
def eftNfOut (eft : String) : Except PyErr Nat :=
  match [("WET", 5), ("WET-4", 4), ("WET-3", 3), ("WET-2", 2)].lookup eft with
  | some n => .ok n
  | none => .error .keyError

/-- `get_m`.  /repo/flavio/physics/edms/common.py:12-24. -/
def getM (d : Inp) (f eft : String) : Except PyErr ℝ :=
  if f ∈ ["e", "mu", "tau"] then .ok (d.par ("m_" ++ f))
  else do
    let nf ← eftNfOut eft
    if f = "u" then pure (d.getMd nf)
    else if f = "d" then pure (d.getMu nf)
    else if f = "s" then pure (d.getMs nf)
    else throw .valueError

/-- `edm_f`.  /repo/flavio/physics/edms/common.py:27-42. -/
noncomputable def edmF (d : Inp) (f eft : String) : Except PyErr ℝ := do
  let m ← getM d f eft
  let nf ← eftNfOut eft
  let e ← pySqrt (4 * Real.pi * d.alphaE nf)
  let pre := 4 * d.par "GF" / Real.sqrt 2 * e / (16 * Real.pi ^ 2) * m
  pure (2 * pre * (d.wc ("C7_" ++ f ++ f)).im)

/-- `cedm_f`.  /repo/flavio/physics/edms/common.py:45-56. -/
noncomputable def cedmF (d : Inp) (f eft : String) : Except PyErr ℝ := do
  let m ← getM d f eft
  let preGs := 4 * d.par "GF" / Real.sqrt 2 / (16 * Real.pi ^ 2) * m
  pure (2 * preGs * (d.wc ("C8_" ++ f ++ f)).im)

/-- The entries of `proton_charges` used elsewhere, with the divisions by quark masses.
/repo/flavio/physics/edms/common.py:59-76. -/
structure Charges where
  gVumd : ℝ
  gAumd : ℝ
  gSumd : ℝ
  gPumd : ℝ
  gTumd : ℝ
  gSupd : ℝ
  gTupd : ℝ
  gAs : ℝ
  gSs : ℝ
  gTs : ℝ

/-- `proton_charges`.  /repo/flavio/physics/edms/common.py:59-76. -/
noncomputable def protonCharges (d : Inp) : Except PyErr Charges := do
  let mu := d.getMu 3
  let md := d.getMd 3
  let ms := d.getMs 3
  let p ← pyDiv (d.par "m_p" + d.par "m_n") (md + mu)
  let s ← pyDiv (d.par "sigma_piN") ((md + mu) / 2)
  let t ← pyDiv (d.par "sigma_s") ms
  pure { gVumd := 1, gAumd := d.par "g_A", gSumd := d.par "gS_u-d", gPumd := p + d.par "g_A", gTumd := d.par "gT_u" - d.par "gT_d",
         gSupd := s, gTupd := d.par "gT_u" + d.par "gT_d", gAs := d.par "gA_s", gSs := t, gTs := d.par "gT_s" }

/-- `nedm` (the sum of `nedm_wceff` with its weights, modulus).  `wc['CGtilde']` enters as it is.
/repo/flavio/physics/edms/neutronedm.py:7-33. -/
noncomputable def nedm (d : Inp) : Except PyErr ℝ := do
  let ed ← edmF d "d" "WET-3"
  let eu ← edmF d "u" "WET-3"
  let es ← edmF d "s" "WET-3"
  let cd ← cedmF d "d" "WET-3"
  let cu ← cedmF d "u" "WET-3"
  let cs ← cedmF d "s" "WET-3"
  let x : ℂ := ((0 + d.par "gT_u" * ed + d.par "gT_d" * eu + d.par "gT_s" * es + d.par "nEDM ~rho_d" * cd + d.par "nEDM ~rho_u" * cu
    + d.par "nEDM ~rho_s" * cs : ℝ) : ℂ) + (d.par "nEDM beta_G" : ℂ) * d.wc "CGtilde"
  pure ‖x‖

/-- `CS`.  /repo/flavio/physics/edms/slcouplings.py:6-13. -/
noncomputable def CSc (d : Inp) (Z N : ℝ) : Except PyErr ℝ := do
  let me ← protonCharges d
  let CSu := -((d.wc "CSRR_eeuu").im + (d.wc "CSRL_eeuu").im)
  let CSd := -((d.wc "CSRR_eedd").im + (d.wc "CSRL_eedd").im)
  let CS0 := me.gSupd * (CSu + CSd)
  let CS1 := me.gSumd * (CSu - CSd)
  let r ← pyDiv (Z - N) (Z + N)
  pure (CS0 + r * CS1)

/-- The literals `atoms` and `molecules`: charge, neutron number, tex name.  /repo/flavio/physics/edms/paraedm.py:10-27. -/
def tabAtoms : List (String × Nat × Nat × String) := [("Tl", 3, 4, "\\text{Tl}")]
/-- See `tabAtoms`.  /repo/flavio/physics/edms/paraedm.py:16-27. -/
def tabMolecules : List (String × Nat × Nat × String) :=
  [("YbF", 1, 1, "\\text{HfF}"), ("HfF", 1, 1, "\\text{HfF}"), ("ThO", 1, 1, "\\text{HfF}")]

/-- `d_para` and `omega_para` (the same body on different tables).  /repo/flavio/physics/edms/paraedm.py:30-50. -/
noncomputable def para (d : Inp) (tab : List (String × Nat × Nat × String)) (s : String) : Except PyErr ℝ := do
  let zn ← match tab.lookup s with
    | some x => Except.ok x
    | none => Except.error PyErr.keyError
  let de ← edmF d "e" "WET-3"
  let cs ← CSc d zn.1 zn.2.1
  pure (d.par ("alpha_de(" ++ s ++ ")") * de + d.par ("alpha_CS(" ++ s ++ ")") * cs)

/-- The registered observables: name and value.  /repo/flavio/physics/edms/neutronedm.py:37-42, paraedm.py:55-76. -/
noncomputable def registry (d : Inp) : List (String × Except PyErr ℝ) :=
  ("d_n", nedm d) :: (tabMolecules.map fun t => ("omega_" ++ t.1, para d tabMolecules t.1)) ++ (tabAtoms.map fun t => ("d_" ++ t.1, para d tabAtoms t.1))

end Verif.Edm
