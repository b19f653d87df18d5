import Mathlib.Analysis.SpecialFunctions.Trigonometric.Basic
import Mathlib.Analysis.SpecialFunctions.Log.Basic
import Mathlib.Analysis.Complex.Basic
import Verif.Physics.Mixing.Box
import Verif.Physics.Bdecays.Bll
/-!
# Nuclear and neutron beta decay
(`flavio/physics/betadecays/ft.py`, `flavio/physics/betadecays/common.py`, `flavio/physics/elements.py`, `proton_charges` of `flavio/physics/edms/common.py`)

The Wilson coefficients in the standard basis, the running quark masses, the CKM element and the effective Fermi constant are arguments.
-/
set_option linter.unusedVariables false
namespace Verif.Beta
open Verif.Py Verif.Running Verif.Bll
local notation "conj" => starRingEnd ℂ

/-- The dictionary of effective couplings.  /repo/flavio/physics/betadecays/common.py:33-39. -/
structure Coup where
  V : ℂ
  A : ℂ
  S : ℂ
  P : ℂ
  T : ℂ

/-- Charges of the nucleon with flavour `u-d`.  /repo/flavio/physics/edms/common.py:57-68. -/
structure Charges where
  gV : ℝ
  gA : ℝ
  gS : ℝ
  gP : ℝ
  gT : ℝ

/-- The isovector part of `proton_charges`; `mu`, `md` are the running quark masses.  /repo/flavio/physics/edms/common.py:57-68. -/
noncomputable def protonCharges (g_A gS gTu gTd mp mn mu md : ℝ) : Except PyErr Charges := do
  let r ← pyDiv (mp + mn) (md + mu)
  pure { gV := 1, gA := g_A, gS := gS, gP := r + g_A, gT := gTu - gTd }

/-- The Wilson coefficients of `get_wceff_fccc_std`.  /repo/flavio/physics/betadecays/common.py:14-15. -/
structure Wcs where
  VL : ℂ
  VR : ℂ
  SL : ℂ
  SR : ℂ
  T : ℂ

/-- `wc_eff` for given Wilson coefficients, charges, `CVLSM` and `DeltaRV`.  /repo/flavio/physics/betadecays/common.py:9-39. -/
noncomputable def wcEff (wc : Wcs) (g : Charges) (cvlsm drv : ℝ) : Except PyErr Coup := do
  let s ← pySqrt (1 + drv)
  let r ← pyDiv s cvlsm
  pure { V := g.gV * (wc.VL * r + wc.VR), A := -g.gA * (wc.VL * r - wc.VR), S := g.gS * (wc.SL + wc.SR), P := g.gP * (wc.SL - wc.SR), T := 4 * g.gT * wc.T }

/-- `xi`.  /repo/flavio/physics/betadecays/ft.py:15-23. -/
noncomputable def xi (C : Coup) (MF MGT : ℝ) : ℝ :=
  2 * (|MF| ^ 2 * (‖C.V‖ ^ 2 + ‖C.S‖ ^ 2) + |MGT| ^ 2 * (‖C.A‖ ^ 2 + ‖C.T‖ ^ 2))

/-- `a_xi`.  /repo/flavio/physics/betadecays/ft.py:26-34. -/
noncomputable def aXi (C : Coup) (MF MGT : ℝ) : ℝ :=
  2 * (|MF| ^ 2 * (‖C.V‖ ^ 2 - ‖C.S‖ ^ 2) - 1 / 3 * |MGT| ^ 2 * (‖C.A‖ ^ 2 - ‖C.T‖ ^ 2))

/-- `b_xi`.  /repo/flavio/physics/betadecays/ft.py:44-53. -/
noncomputable def bXi (C : Coup) (MF MGT alpha Z s : ℝ) : Except PyErr ℝ := do
  let gamma ← pySqrt (1 - alpha ^ 2 * Z ^ 2)
  pure (s * 2 * gamma * 2 * (|MF| ^ 2 * (C.V * conj C.S).re + |MGT| ^ 2 * (C.A * conj C.T).re))

open Classical in
/-- `dl`.  /repo/flavio/physics/betadecays/ft.py:55-60. -/
noncomputable def dl (Jp J : ℝ) : ℝ := if Jp = J then 1 else 0

open Classical in
/-- `la` (for `J ≥ 0`).  /repo/flavio/physics/betadecays/ft.py:62-71. -/
noncomputable def la (Jp J : ℝ) : Except PyErr ℝ :=
  if Jp = J - 1 then .ok 1 else if Jp = J then .ok (1 / (J + 1)) else if Jp = J + 1 then .ok (-J / (J + 1)) else .error .valueError

/-- `A_xi`.  /repo/flavio/physics/betadecays/ft.py:74-84. -/
noncomputable def bigAXi (C : Coup) (MF MGT J Jf s : ℝ) : Except PyErr ℝ := do
  let l ← la Jf J
  pure (2 * ((s * |MGT| ^ 2 * l * (‖C.T‖ ^ 2 - ‖C.A‖ ^ 2) : ℝ) + (dl Jf J * |MF| * |MGT| * Real.sqrt (J / (J + 1)) : ℝ)
    * (2 * C.S * conj C.T - 2 * C.V * conj C.A)).re)

/-- `B_xi`.  /repo/flavio/physics/betadecays/ft.py:87-101. -/
noncomputable def bigBXi (C : Coup) (MF MGT J Jf meE s : ℝ) : Except PyErr ℝ := do
  let l ← la Jf J
  pure (2 * ((|MGT| ^ 2 * l : ℝ) * ((meE : ℂ) * 2 * C.T * conj C.A + (s * (‖C.T‖ ^ 2 + ‖C.A‖ ^ 2) : ℝ))
    - (dl Jf J * |MF| * |MGT| * Real.sqrt (J / (J + 1)) : ℝ)
    * ((2 * C.S * conj C.T + 2 * C.V * conj C.A) + (s * meE : ℝ) * (2 * C.S * conj C.A + 2 * C.V * conj C.T))).re)

/-- `D_xi`.  /repo/flavio/physics/betadecays/ft.py:103-111. -/
noncomputable def bigDXi (C : Coup) (MF MGT J Jf : ℝ) : ℝ :=
  2 * ((dl Jf J * |MF| * |MGT| * Real.sqrt (J / (J + 1)) : ℝ) * (2 * C.S * conj C.T - 2 * C.V * conj C.A)).im

/-- `R_xi`.  /repo/flavio/physics/betadecays/ft.py:114-123. -/
noncomputable def bigRXi (C : Coup) (MF MGT J Jf s : ℝ) : Except PyErr ℝ := do
  let l ← la Jf J
  pure (2 * ((s * |MGT| ^ 2 * l : ℝ) * 2 * C.T * conj C.A + (dl Jf J * |MF| * |MGT| * Real.sqrt (J / (J + 1)) : ℝ)
    * (2 * C.S * conj C.A - 2 * C.V * conj C.T)).im)

/-- `a`.  /repo/flavio/physics/betadecays/ft.py:37-41. -/
noncomputable def fa (C : Coup) (MF MGT : ℝ) : Except PyErr ℝ := pyDiv (aXi C MF MGT) (xi C MF MGT)
/-- `b`.  /repo/flavio/physics/betadecays/ft.py:126-130. -/
noncomputable def fb (C : Coup) (MF MGT alpha Z s : ℝ) : Except PyErr ℝ := do
  let x ← bXi C MF MGT alpha Z s
  pyDiv x (xi C MF MGT)
/-- `A`.  /repo/flavio/physics/betadecays/ft.py:133-139. -/
noncomputable def fA (C : Coup) (MF MGT J Jf s : ℝ) : Except PyErr ℝ := do
  let x ← bigAXi C MF MGT J Jf s
  pyDiv x (xi C MF MGT)
/-- `B`.  /repo/flavio/physics/betadecays/ft.py:142-148. -/
noncomputable def fB (C : Coup) (MF MGT J Jf meE s : ℝ) : Except PyErr ℝ := do
  let x ← bigBXi C MF MGT J Jf meE s
  pyDiv x (xi C MF MGT)
/-- `D`.  /repo/flavio/physics/betadecays/ft.py:151-156. -/
noncomputable def fD (C : Coup) (MF MGT J Jf : ℝ) : Except PyErr ℝ := pyDiv (bigDXi C MF MGT J Jf) (xi C MF MGT)
/-- `R`.  /repo/flavio/physics/betadecays/ft.py:159-164. -/
noncomputable def fR (C : Coup) (MF MGT J Jf s : ℝ) : Except PyErr ℝ := do
  let x ← bigRXi C MF MGT J Jf s
  pyDiv x (xi C MF MGT)

/-- `K`.  /repo/flavio/physics/betadecays/ft.py:167-169. -/
noncomputable def fK (me : ℝ) : Except PyErr ℝ := pyDiv (2 * Real.pi ^ 3 * Real.log 2) (me ^ 5)

/-- `nuclei_superallowed`: name, charge and `<me/E>`.  /repo/flavio/physics/betadecays/ft.py:173-189. -/
noncomputable def nuclei : List (String × ℝ × ℝ) :=
  [("10C", 6, 0.619),
   ("14O", 8, 0.438),
   ("22Mg", 12, 0.310),
   ("26mAl", 13, 0.300),
   ("34Cl", 17, 0.234),
   ("34Ar", 18, 0.212),
   ("38mK", 19, 0.213),
   ("38Ca", 20, 0.195),
   ("42Sc", 21, 0.201),
   ("46V", 23, 0.183),
   ("50Mn", 25, 0.169),
   ("54Co", 27, 0.157),
   ("62Ga", 31, 0.141),
   ("74Rb", 37, 0.125)]

/-- `Q_EC`.  /repo/flavio/physics/betadecays/ft.py:194-209. -/
noncomputable def qEC : List (String × ℝ) :=
  [("10C", 1907.994 / 1000),
   ("14O", 2831.543 / 1000),
   ("22Mg", 4124.49 / 1000),
   ("26mAl", 4232.72 / 1000),
   ("34Cl", 5491.662 / 1000),
   ("34Ar", 6061.83 / 1000),
   ("38mK", 6044.240 / 1000),
   ("38Ca", 6612.12 / 1000),
   ("42Sc", 6426.34 / 1000),
   ("46V", 7052.45 / 1000),
   ("50Mn", 7634.453 / 1000),
   ("54Co", 8244.38 / 1000),
   ("62Ga", 9181.07 / 1000),
   ("74Rb", 10416.8 / 1000)]

/-- The parameters used by `Ft_superallowed` and the neutron observables.  /repo/flavio/physics/betadecays/ft.py:212-229. -/
structure Par where
  me : ℝ
  alpha : ℝ
  GF : ℝ
  Vud : ℂ
  ddRp : ℝ
  ddNSA : ℝ
  ddNSE : ℝ
  fn : ℝ
  Rp : ℝ

/-- `Ft_superallowed`.  /repo/flavio/physics/betadecays/ft.py:212-229. -/
noncomputable def ftSuper (p : Par) (C : Coup) (name : String) : Except PyErr ℝ := do
  let MF := Real.sqrt 2
  let MGT := 0
  match nuclei.lookup name with
  | none => .error .keyError
  | some (Z, meE) => do
    let Xi := xi C MF MGT
    let B ← fb C MF MGT p.alpha Z (-1)
    let pre := ((p.GF / Real.sqrt 2 : ℝ) : ℂ) * p.Vud
    let dRp := p.ddRp * Z ^ 2
    match qEC.lookup name with
    | none => .error .keyError
    | some q => do
      let dE := p.ddNSE * q
      let k ← fK p.me
      let r1 ← pyDiv ((1 + dRp + p.ddNSA + dE) * k) Xi
      let r2 ← pyDiv (r1 * 1) (1 + B * meE)
      pyDiv r2 (‖pre‖ ^ 2)

/-! ## The neutron (`MF = 1`, `MGT = √3`, `J = Jf = 1/2`, `Z = 0`, `s = 1`) -/

/-- `NeutronObservable.a`.  /repo/flavio/physics/betadecays/ft.py:232-251. -/
noncomputable def na (C : Coup) : Except PyErr ℝ := fa C 1 (Real.sqrt 3)
/-- `NeutronObservable.b`.  /repo/flavio/physics/betadecays/ft.py:253-254. -/
noncomputable def nb (p : Par) (C : Coup) : Except PyErr ℝ := fb C 1 (Real.sqrt 3) p.alpha 0 1
/-- `NeutronObservable.A`.  /repo/flavio/physics/betadecays/ft.py:256-257. -/
noncomputable def nA (C : Coup) : Except PyErr ℝ := fA C 1 (Real.sqrt 3) (1 / 2) (1 / 2) 1
/-- `NeutronObservable.B`.  /repo/flavio/physics/betadecays/ft.py:259-260. -/
noncomputable def nB (C : Coup) (meE : ℝ) : Except PyErr ℝ := fB C 1 (Real.sqrt 3) (1 / 2) (1 / 2) meE 1
/-- `NeutronObservable.D`.  /repo/flavio/physics/betadecays/ft.py:262-263. -/
noncomputable def nD (C : Coup) : Except PyErr ℝ := fD C 1 (Real.sqrt 3) (1 / 2) (1 / 2)
/-- `NeutronObservable.R`.  /repo/flavio/physics/betadecays/ft.py:265-266. -/
noncomputable def nR (C : Coup) : Except PyErr ℝ := fR C 1 (Real.sqrt 3) (1 / 2) (1 / 2) 1

/-- `Neutron_tau`.  /repo/flavio/physics/betadecays/ft.py:269-280. -/
noncomputable def nTau (p : Par) (C : Coup) (meE : ℝ) : Except PyErr ℝ := do
  let pre := ((p.GF / Real.sqrt 2 : ℝ) : ℂ) * p.Vud
  let k ← fK p.me
  let r1 ← pyDiv k (xi C 1 (Real.sqrt 3))
  let b ← nb p C
  let r2 ← pyDiv (r1 * 1) (1 + b * meE)
  let ft ← pyDiv r2 (‖pre‖ ^ 2)
  let r3 ← pyDiv ft (Real.log 2)
  let r4 ← pyDiv r3 p.fn
  pyDiv r4 (1 + p.Rp)

/-- `Neutron_corr.__call__` (`None` for an unknown name).  /repo/flavio/physics/betadecays/ft.py:288-310. -/
noncomputable def nCorr (p : Par) (C : Coup) (meE : ℝ) (coeff : String) : Except PyErr (Option ℝ) :=
  let tilde (x : Except PyErr ℝ) : Except PyErr (Option ℝ) := do
    let a ← x
    let b ← nb p C
    some <$> pyDiv a (1 + b * meE)
  if coeff = "a" then some <$> na C
  else if coeff = "atilde" then tilde (na C)
  else if coeff = "b" then some <$> nb p C
  else if coeff = "A" then some <$> nA C
  else if coeff = "Atilde" then tilde (nA C)
  else if coeff = "B" then some <$> nB C meE
  else if coeff = "Btilde" then tilde (nB C meE)
  else if coeff = "lambdaAB" then do
    let a ← nA C
    let b ← nB C meE
    some <$> pyDiv (a - b) (a + b)
  else if coeff = "D" then some <$> nD C
  else if coeff = "R" then some <$> nR C
  else .ok none

/-! ## Elements -/

/-- `_table` (the keys are 0, 1, ..., 118).  /repo/flavio/physics/elements.py:3-122. -/
def table : List String := ["n", "H", "He", "Li", "Be", "B", "C", "N", "O", "F", "Ne", "Na", "Mg", "Al", "Si", "P", "S", "Cl", "Ar", "K", "Ca", "Sc", "Ti", "V", "Cr", "Mn", "Fe", "Co", "Ni", "Cu", "Zn", "Ga", "Ge", "As", "Se", "Br", "Kr", "Rb", "Sr", "Y", "Zr", "Nb", "Mo", "Tc", "Ru", "Rh", "Pd", "Ag", "Cd", "In", "Sn", "Sb", "Te", "I", "Xe", "Cs", "Ba", "La", "Ce", "Pr", "Nd", "Pm", "Sm", "Eu", "Gd", "Tb", "Dy", "Ho", "Er", "Tm", "Yb", "Lu", "Hf", "Ta", "W", "Re", "Os", "Ir", "Pt", "Au", "Hg", "Tl", "Pb", "Bi", "Po", "At", "Rn", "Fr", "Ra", "Ac", "Th", "Pa", "U", "Np", "Pu", "Am", "Cm", "Bk", "Cf", "Es", "Fm", "Md", "No", "Lr", "Rf", "Db", "Sg", "Bh", "Hs", "Mt", "Ds", "Rg", "Cn", "Nh", "Fl", "Mc", "Lv", "Ts", "Og"]

/-- `symbol`.  /repo/flavio/physics/elements.py:127-128. -/
def symbol (Z : ℤ) : Except PyErr String :=
  if Z < 0 then .error .keyError else match table[Z.toNat]? with
    | some s => .ok s
    | none => .error .keyError

/-- `Z` (`_table_inv`).  /repo/flavio/physics/elements.py:124-132. -/
def elemZ (s : String) : Except PyErr ℤ := match table.idxOf? s with
  | some n => .ok n
  | none => .error .keyError

/-- The name in the result of `get_daughter`: the first run of digits, and everything from the first capital letter.  /repo/flavio/physics/betadecays/ft.py:320-327. -/
def daughter (nuclide : String) : Except PyErr String := do
  let l := nuclide.toList
  let A := (l.dropWhile fun c => !c.isDigit).takeWhile Char.isDigit
  let sym := l.dropWhile fun c => !c.isUpper
  if A = [] ∨ sym = [] then .error .attributeError else do
    let Z ← elemZ (String.ofList sym)
    let d ← symbol (Z - 1)
    pure (String.ofList A ++ d)

end Verif.Beta
