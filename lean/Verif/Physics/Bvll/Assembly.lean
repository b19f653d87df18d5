import Verif.Physics.Angular.Amps
import Verif.Py.Basic
/-!
# Assembly of the B → V ll and B → P ll amplitudes, subleading hadronic corrections

`flavio/physics/bdecays/bvll/amplitudes.py`, `bvll/subleading.py`, `bvll/nonfactorizable.py` (registration only),
`bpll.py` (amplitudes), `bpll_subleading.py`.

Inputs: form factors as functions of q², the effective coefficients `get_wceff(…)` after `conjugate_wc` as a function of
the flag `cp_conjugate`, the spectator scattering amplitudes, masses and couplings.  `conjugate_par` flips the sign of the
CKM phases only, so it replaces the CKM factor `ξ_t` by its conjugate and leaves all other parameters unchanged.
-/
set_option linter.unusedVariables false
namespace Verif.Bvll
open Verif.Py Verif.Angular Complex

/-- What the functions read for a given pair of mesons: `par` are the parameters of the subleading corrections.
/repo/flavio/physics/bdecays/bvll/amplitudes.py:17-48; bvll/subleading.py:18-29. -/
structure Inp where
  GF : ℝ
  alpha : ℝ
  xit : ℂ
  mB : ℝ
  mM : ℝ
  mb : ℝ
  ml : ℝ
  par : String → ℝ
  ffV : ℝ → FFV
  ffP : ℝ → FFP
  wc : Bool → ℝ → Wc
  ss : Bool → ℝ → ℂ × ℂ × ℂ

/-- `conjugate_par`, as far as the amplitudes are concerned.  /repo/flavio/physics/common.py:5-12. -/
noncomputable def conjPar (d : Inp) : Inp := { d with xit := (starRingEnd ℂ) d.xit }

/-- `prefactor` (the same in `bpll.py` and `bvll`).  /repo/flavio/physics/bdecays/bvll/amplitudes.py:17-23;
bpll.py:16-22. -/
noncomputable def prefactor (d : Inp) : ℂ := (4 * d.GF / Real.sqrt 2 : ℝ) * d.xit * (d.alpha : ℝ) / (4 * Real.pi : ℝ)

/-- The dictionary with all coefficients zero.  /repo/flavio/physics/bdecays/bvll/subleading.py:32-33. -/
def wcZero : Wc := ⟨0, 0, 0, 0, 0, 0, 0, 0, 0, 0, 0, 0⟩

/-- `wc[C_name] = deltaC` for the names that occur.  /repo/flavio/physics/bdecays/bvll/subleading.py:32-34;
bpll_subleading.py:17-18. -/
def wcOnly (name : String) (c : ℂ) : Wc :=
  if name = "7" then { wcZero with c7 := c }
  else if name = "7p" then { wcZero with c7p := c }
  else if name = "v" then { wcZero with v := c }
  else wcZero

/-- `ha_deltaC`.  /repo/flavio/physics/bdecays/bvll/subleading.py:31-38. -/
noncomputable def haDeltaC (d : Inp) (q2 : ℝ) (c : ℂ) (name : String) : AmpV :=
  helicityV q2 d.mB d.mM d.mb 0 0 0 (d.ffV q2) (wcOnly name c) (prefactor d)

/-- A complex parameter.  /repo/flavio/physics/bdecays/bvll/subleading.py:53-58, :75-77. -/
noncomputable def cpar (d : Inp) (name : String) : ℂ := (d.par (name ++ " Re") : ℝ) + I * (d.par (name ++ " Im") : ℝ)

/-- `a + b q²` as written in the code.  /repo/flavio/physics/bdecays/bvll/subleading.py:53-58. -/
noncomputable def poly (d : Inp) (q2 : ℝ) (a b : String) : ℂ :=
  ((d.par (a ++ " Re") + d.par (b ++ " Re") * q2 : ℝ) : ℂ) + I * ((d.par (a ++ " Im") + d.par (b ++ " Im") * q2 : ℝ) : ℂ)

/-- `HelicityAmpsDeltaC_77p_polynomial.__call__` (order: `0`, `pl`, `mi`).
/repo/flavio/physics/bdecays/bvll/subleading.py:48-63. -/
noncomputable def c7poly (d : Inp) (B V : String) (q2 : ℝ) : ℂ × ℂ × ℂ :=
  let M := B ++ "->" ++ V
  ((haDeltaC d q2 (poly d q2 (M ++ " deltaC7 a_0") (M ++ " deltaC7 b_0")) "7").zeV,
   (haDeltaC d q2 (poly d q2 (M ++ " deltaC7p a_+") (M ++ " deltaC7p b_+")) "7p").plV,
   (haDeltaC d q2 (poly d q2 (M ++ " deltaC7 a_-") (M ++ " deltaC7 b_-")) "7").miV)

/-- `HelicityAmpsDeltaC_9_shift.__call__`.  /repo/flavio/physics/bdecays/bvll/subleading.py:71-82. -/
noncomputable def c9shift (d : Inp) (B V : String) (q2 : ℝ) : ℂ × ℂ × ℂ :=
  let M := B ++ "->" ++ V
  ((haDeltaC d q2 (cpar d (M ++ " deltaC9 c_0")) "v").zeV,
   (haDeltaC d q2 (cpar d (M ++ " deltaC9 c_+")) "v").plV,
   (haDeltaC d q2 (cpar d (M ++ " deltaC9 c_-")) "v").miV)

/-- The quantities registered for subleading effects (low and high q² loops).
/repo/flavio/physics/bdecays/bvll/subleading.py:100-103, :121-124. -/
def subRegistered : List (String × String) := [("B0", "K*0"), ("B+", "K*+"), ("Bs", "phi")]

/-- The quantities registered for spectator scattering.  /repo/flavio/physics/bdecays/bvll/nonfactorizable.py:44-47. -/
def ssRegistered : List (String × String) :=
  [("B0", "K*0"), ("B+", "K*+"), ("B0", "rho0"), ("B+", "rho+"), ("Bs", "phi"), ("Bs", "K*0")]

/-- `get_ss`; the amplitudes of the registered implementation are inputs.
/repo/flavio/physics/bdecays/bvll/amplitudes.py:51-56. -/
noncomputable def getSS (d : Inp) (B V : String) (q2 : ℝ) (cp : Bool) : Except PyErr (ℂ × ℂ × ℂ) :=
  if q2 ≥ 8.9 then .ok (0, 0, 0)
  else if (B, V) ∈ ssRegistered then .ok (d.ss cp q2) else .error .keyError

/-- `get_subleading` with the default implementations (`fct_deltaC7C7p_polynomial`, `fct_deltaC9_constant`: they copy the
parameters and do not use `cp_conjugate`); the empty dictionary is `(0, 0, 0)`.
/repo/flavio/physics/bdecays/bvll/amplitudes.py:59-70; bvll/subleading.py:85-96; data/config.yml:134-140. -/
noncomputable def getSub (d : Inp) (B V : String) (q2 : ℝ) (cp : Bool) : Except PyErr (ℂ × ℂ × ℂ) :=
  if B = "Bs" ∧ V = "K*0" then .ok (0, 0, 0)
  else if q2 ≤ 9 then
    if (B, V) ∈ subRegistered then .ok (c7poly d B V q2) else .error .keyError
  else if q2 > 14 then
    if (B, V) ∈ subRegistered then .ok (c9shift d B V q2) else .error .keyError
  else .ok (0, 0, 0)

/-- `helicity_amps_ff`.  /repo/flavio/physics/bdecays/bvll/amplitudes.py:31-48. -/
noncomputable def haFF (d : Inp) (q2 : ℝ) (cp : Bool) : AmpV :=
  let d' := if cp then conjPar d else d
  helicityV q2 d.mB d.mM d.mb 0 d.ml d.ml (d.ffV q2) (d.wc cp q2) (prefactor d')

/-- `add_dict` with a dictionary that has only the three vector amplitudes.  /repo/flavio/physics/common.py:20-37. -/
def addV (h : AmpV) (s : ℂ × ℂ × ℂ) : AmpV := { h with zeV := h.zeV + s.1, plV := h.plV + s.2.1, miV := h.miV + s.2.2 }

/-- `helicity_amps` (`cp = false`) and `helicity_amps_bar` (`cp = true`); warnings not represented.
/repo/flavio/physics/bdecays/bvll/amplitudes.py:72-89. -/
noncomputable def helicityAmps (d : Inp) (B V : String) (q2 : ℝ) (cp : Bool) : Except PyErr AmpV := do
  let s ← getSS d B V q2 cp
  let t ← getSub d B V q2 cp
  pure (addV (addV (haFF d q2 cp) s) t)

/-! ## B → P -/

/-- `_helicity_amps_deltaC`.  /repo/flavio/physics/bdecays/bpll_subleading.py:10-19. -/
noncomputable def haDeltaCP (d : Inp) (q2 : ℝ) (c : ℂ) (name : String) : AmpP :=
  helicityP q2 d.mB d.mM d.mb 0 0 0 (d.ffP q2) (wcOnly name c) (prefactor d)

/-- `fct_deltaC7_polynomial`: evaluated with the conjugated parameters.
/repo/flavio/physics/bdecays/bpll_subleading.py:41-44, :61-67. -/
noncomputable def pC7poly (d : Inp) (B P : String) (q2 : ℝ) (cp : Bool) : AmpP :=
  let d' := if cp then conjPar d else d
  haDeltaCP d' q2 (poly d' q2 (B ++ "->" ++ P ++ " deltaC7 a") (B ++ "->" ++ P ++ " deltaC7 b")) "7"

/-- `fct_deltaC9_polynomial`: `par` is conjugated but `par_dict` is passed on.
/repo/flavio/physics/bdecays/bpll_subleading.py:49-52, :69-75. -/
noncomputable def pC9poly (d : Inp) (B P : String) (q2 : ℝ) (cp : Bool) : AmpP :=
  haDeltaCP d q2 (poly d q2 (B ++ "->" ++ P ++ " deltaC9 a") (B ++ "->" ++ P ++ " deltaC9 b")) "v"

/-- `fct_deltaC9_constant`: likewise.  /repo/flavio/physics/bdecays/bpll_subleading.py:55-57, :77-83. -/
noncomputable def pC9const (d : Inp) (B P : String) (q2 : ℝ) (cp : Bool) : AmpP :=
  haDeltaCP d q2 (cpar d (B ++ "->" ++ P ++ " deltaC9 c")) "v"

/-- Registered quantities.  /repo/flavio/physics/bdecays/bpll_subleading.py:87-90, :112-116. -/
def subRegisteredP : List (String × String) := [("B0", "K0"), ("B+", "K+")]

/-- `get_subleading` with the default implementations; `isPi` is `'B' in B and 'pi' in P`.
/repo/flavio/physics/bdecays/bpll.py:30-41; data/config.yml:142-146. -/
noncomputable def getSubP (d : Inp) (isPi : Bool) (B P : String) (q2 : ℝ) (cp : Bool) : Except PyErr AmpP :=
  if isPi then .ok ⟨0, 0, 0, 0, 0, 0⟩
  else if q2 ≤ 9 then
    if (B, P) ∈ subRegisteredP then .ok (pC9poly d B P q2 cp) else .error .keyError
  else if q2 > 14 then
    if (B, P) ∈ subRegisteredP then .ok (pC9const d B P q2 cp) else .error .keyError
  else .ok ⟨0, 0, 0, 0, 0, 0⟩

/-- `helicity_amps_ff`.  /repo/flavio/physics/bdecays/bpll.py:44-61. -/
noncomputable def haFFP (d : Inp) (q2 : ℝ) (cp : Bool) : AmpP :=
  let d' := if cp then conjPar d else d
  helicityP q2 d.mB d.mM d.mb 0 d.ml d.ml (d.ffP q2) (d.wc cp q2) (prefactor d')

/-- `add_dict`.  /repo/flavio/physics/common.py:20-37. -/
def addP (h s : AmpP) : AmpP := ⟨h.V + s.V, h.A + s.A, h.S + s.S, h.P + s.P, h.T + s.T, h.Tt + s.Tt⟩

/-- `helicity_amps`, `helicity_amps_bar`.  /repo/flavio/physics/bdecays/bpll.py:63-77. -/
noncomputable def helicityAmpsP (d : Inp) (isPi : Bool) (B P : String) (q2 : ℝ) (cp : Bool) : Except PyErr AmpP := do
  let t ← getSubP d isPi B P q2 cp
  pure (addP (haFFP d q2 cp) t)

end Verif.Bvll
