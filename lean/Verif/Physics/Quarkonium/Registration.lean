import Verif.Py.Dict
import Mathlib.Data.Real.Basic
import Mathlib.Data.String.Basic
/-!
# Registration of the leptonic observables of quarkonium and of `B_q → ℓ₁ ℓ₂`

The loops at module level create `Observable` and `Prediction` instances under computed names.  In Python the loop variables
live in the module and keep their last value after the loop, so the state of the model has the registry and the
variables `l1`, `l2`.
-/
set_option linter.unusedVariables false
set_option linter.unusedSimpArgs false
set_option linter.unusedSectionVars false
namespace Verif.Registration
open Verif.Py

/-- The closures given to `Prediction`: branching ratio, sum of the two charge combinations, and the ratios of both to
`BR(V → e e)`.  /repo/flavio/physics/quarkonium/Vll.py:99-126, Vllgamma.py:136-160, Pll.py:58-67, Sll.py:50-59,
/repo/flavio/physics/bdecays/bll.py:137-141. -/
inductive Pred where
  | br (M l1 l2 : String)
  | comb (M l1 l2 : String)
  | ratio (M l1 l2 : String)
  | ratioComb (M l1 l2 : String)
  deriving DecidableEq, Repr

/-- Value of a closure for a point of parameter space, where `br M l1 l2` is the value of the branching ratio function
and `bree M` the one of `BR(M → e e)`.
/repo/flavio/physics/quarkonium/Vll.py:99-126, Vllgamma.py:136-160, Pll.py:58-67, Sll.py:50-59,
/repo/flavio/physics/bdecays/bll.py:120-141. -/
noncomputable def Pred.eval (br : String → String → String → ℝ) (bree : String → ℝ) : Pred → ℝ
  | .br M l1 l2 => br M l1 l2
  | .comb M l1 l2 => br M l1 l2 + br M l2 l1
  | .ratio M l1 l2 => br M l1 l2 / bree M
  | .ratioComb M l1 l2 => (br M l1 l2 + br M l2 l1) / bree M

/-- State of the module: instances registered under their names in order of creation (a later one with the same name
replaces the earlier one, /repo/flavio/classes.py:50-55), and the loop variables.
/repo/flavio/physics/quarkonium/Vll.py:163-182. -/
structure St where
  log : List (String × Pred)
  l1 : String
  l2 : String

/-- `Observable(name); Prediction(name, p)`.  /repo/flavio/physics/quarkonium/Vll.py:142-150, 166. -/
def St.reg (s : St) (name : String) (p : Pred) : St := { s with log := s.log ++ [(name, p)] }

/-- The six ordered pairs.  /repo/flavio/physics/quarkonium/Vll.py:164. -/
def lfvPairs : List (String × String) :=
  [("e", "mu"), ("mu", "e"), ("e", "tau"), ("tau", "e"), ("mu", "tau"), ("tau", "mu")]

/-- The three unordered pairs.  /repo/flavio/physics/quarkonium/Vll.py:169. -/
def pairs : List (String × String) := [("e", "mu"), ("e", "tau"), ("mu", "tau")]

/-- `"BR("+_hadr[M]['V']+"->"+ll+")"` (with `kind = "BR("`) and the one of the ratio (`kind = "R("`); `suf` is `")"` or
`"gamma)"`.  /repo/flavio/physics/quarkonium/Vll.py:145, 155, Vllgamma.py:183, 193, Pll.py:88, Sll.py:81. -/
def obsName (kind M ll suf : String) : String := kind ++ M ++ "->" ++ ll ++ suf

/-- `'{0}{1},{1}{0}'.format(l1,l2)`.  /repo/flavio/physics/quarkonium/Vll.py:171. -/
def combName (l1 l2 : String) : String := l1 ++ l2 ++ "," ++ l2 ++ l1

/-- One turn of the loop over mesons in `Vll.py` (`gam = false`) or `Vllgamma.py` (`gam = true`, no equal flavours).
/repo/flavio/physics/quarkonium/Vll.py:163-182, Vllgamma.py:201-220. -/
def vllStep (gam : Bool) (s : St) (M : String) : St :=
  let suf := if gam then "gamma)" else ")"
  let s := lfvPairs.foldl (fun s p =>
    let s := { s with l1 := p.1, l2 := p.2 }
    let s := s.reg (obsName "BR(" M (s.l1 ++ s.l2) suf) (.br M s.l1 s.l2)
    s.reg (obsName "R(" M (s.l1 ++ s.l2) suf) (.ratio M s.l1 s.l2)) s
  let s := pairs.foldl (fun s p =>
    let s := { s with l1 := p.1, l2 := p.2 }
    let s := s.reg (obsName "BR(" M (combName s.l1 s.l2) suf) (.comb M s.l1 s.l2)
    let s := s.reg (obsName "R(" M (combName s.l1 s.l2) suf) (.ratioComb M s.l1 s.l2)
    let s := s.reg (obsName "BR(" M (combName s.l2 s.l1) suf) (.comb M s.l1 s.l2)
    s.reg (obsName "R(" M (combName s.l2 s.l1) suf) (.ratioComb M s.l1 s.l2)) s
  if gam then s else ["e", "mu", "tau"].foldl (fun s l => s.reg (obsName "BR(" M (l ++ l) suf) (.br M l l)) s

/-- One turn of the loop over mesons in `Pll.py` and `Sll.py`: the second loop binds `ll` but uses `l1`, `l2`.
/repo/flavio/physics/quarkonium/Pll.py:96-105, Sll.py:89-98. -/
def pllStep (s : St) (M : String) : St :=
  let s := lfvPairs.foldl (fun s p =>
    let s := { s with l1 := p.1, l2 := p.2 }
    s.reg (obsName "BR(" M (s.l1 ++ s.l2) ")") (.br M s.l1 s.l2)) s
  pairs.foldl (fun s ll =>
    let s := s.reg (obsName "BR(" M (combName s.l1 s.l2) ")") (.comb M s.l1 s.l2)
    s.reg (obsName "BR(" M (combName s.l2 s.l1) ")") (.comb M s.l1 s.l2)) s

/-- The lepton-flavour violating part of `bll.py`: outer loop over pairs, inner loop over mesons.
/repo/flavio/physics/bdecays/bll.py:238-263. -/
def bllStep (Bs : List String) (s : St) (p : String × String) : St :=
  Bs.foldl (fun s B =>
    let s := [p, (p.2, p.1)].foldl (fun s ll => s.reg (obsName "BR(" B (ll.1 ++ ll.2) ")") (.br B ll.1 ll.2)) s
    s.reg (obsName "BR(" B (p.1 ++ p.2 ++ "," ++ p.2 ++ p.1) ")") (.comb B p.1 p.2)) s

/-- The module before the loops. /repo/flavio/physics/quarkonium/Vll.py:1-162. -/
def St.init : St := ⟨[], "", ""⟩

/-- Observables after importing `Vll.py`, `Vllgamma.py`, `Pll.py`/`Sll.py`, `bll.py` with a table of mesons.
/repo/flavio/physics/quarkonium/Vll.py:163-182. -/
def vll (gam : Bool) (mesons : List String) : Dict String Pred :=
  Dict.ofPairs (mesons.foldl (vllStep gam) .init).log
/-- See `vll`. /repo/flavio/physics/quarkonium/Pll.py:96-105, Sll.py:89-98. -/
def pll (mesons : List String) : Dict String Pred := Dict.ofPairs (mesons.foldl pllStep .init).log
/-- See `vll`. /repo/flavio/physics/bdecays/bll.py:238-263. -/
def bll (mesons : List String) : Dict String Pred := Dict.ofPairs (pairs.foldl (bllStep mesons) .init).log

/-- The tables of mesons.  /repo/flavio/physics/quarkonium/Vll.py:129-135, Vllgamma.py:163-169. -/
def vMesons : List String := ["J/psi", "psi(2S)", "Upsilon(1S)", "Upsilon(2S)", "Upsilon(3S)"]
/-- /repo/flavio/physics/quarkonium/Pll.py:71-74. -/
def pMesons : List String := ["eta_c(1S)", "eta_b(1S)"]
/-- /repo/flavio/physics/quarkonium/Sll.py:63-67. -/
def sMesons : List String := ["chi_c0(1P)", "chi_b0(1P)", "chi_b0(2P)"]
/-- /repo/flavio/physics/bdecays/bll.py:239. -/
def bMesons : List String := ["Bs", "B0"]

end Verif.Registration
