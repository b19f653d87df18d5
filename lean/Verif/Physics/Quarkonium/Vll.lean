import Verif.Physics.Bdecays.Bll
/-!
# `V → ℓ₁⁺ ℓ₂⁻` of quarkonium (`flavio/physics/quarkonium/Vll.py`)

Parameters are a total function of their names (a missing name is a `KeyError`, not modelled); the coefficients returned
by `wc_obj.get_wc(sector, scale, par)` and the running `alpha_e` at the scale of a meson are inputs.  Division by zero is
the `ZeroDivisionError` of Python floats; `np.sqrt` of a negative number (a `nan`) is outside the model: `alpha_e` enters
with `0 ≤ alpha_e` where it matters.
-/
set_option linter.unusedVariables false
namespace Verif.Quarkonium
open Verif.Py Verif.Running Verif.Common Complex

/-- What the predictions read: the parameter dictionary, the coefficients of each sector, `alpha_e` at the scale of each
meson.  /repo/flavio/physics/quarkonium/Vll.py:18-31. -/
structure Inp where
  par : String → ℝ
  wc : String → String → ℂ
  aem : String → ℝ

/-- `meson_quark[V]` (a missing key is a `KeyError`).  /repo/flavio/physics/quarkonium/Vll.py:9-14. -/
def mesonQuark (V : String) : Except PyErr String :=
  if V = "J/psi" then .ok "cc" else if V = "psi(2S)" then .ok "cc"
  else if V = "Upsilon(1S)" then .ok "bb" else if V = "Upsilon(2S)" then .ok "bb" else if V = "Upsilon(3S)" then .ok "bb"
  else .error .keyError

/-- The literal `wc_sector`.  /repo/flavio/physics/quarkonium/Vll.py:16. -/
def wcSectorTab : List ((String × String) × String) :=
  [(("e", "e"), "dF=0"), (("mu", "mu"), "dF=0"), (("tau", "tau"), "dF=0"), (("e", "mu"), "mue"), (("mu", "e"), "mue"),
   (("e", "tau"), "taue"), (("tau", "e"), "taue"), (("mu", "tau"), "mutau"), (("tau", "mu"), "mutau")]

/-- `wc_sector[(l1,l2)]`.  /repo/flavio/physics/quarkonium/Vll.py:16, :22. -/
def wcSector (l1 l2 : String) : Except PyErr String :=
  match wcSectorTab.lookup (l1, l2) with
  | some s => .ok s
  | none => .error .keyError

/-- The order of the leptons in the vector bilinear.  /repo/flavio/physics/quarkonium/Vll.py:33-36. -/
def bilinear (sec : String) : String := if sec = "mutau" then "taumu" else sec

/-- Complex conjugation under a Boolean condition (`if ll==l2+l1: VL=VL.conjugate()`).
/repo/flavio/physics/quarkonium/Vll.py:41-43. -/
noncomputable def conjIf (b : Prop) [Decidable b] (z : ℂ) : ℂ := if b then (starRingEnd ℂ) z else z

/-- The four amplitudes `VL, VR, TL, TR`.  /repo/flavio/physics/quarkonium/Vll.py:44. -/
structure VT where
  VL : ℂ
  VR : ℂ
  TL : ℂ
  TR : ℂ

/-- `getVT_lfv`.  /repo/flavio/physics/quarkonium/Vll.py:18-44. -/
noncomputable def getVTlfv (d : Inp) (V : String) (Q : ℝ) (l1 l2 : String) : Except PyErr VT := do
  let sec ← wcSector l1 l2
  let wc := d.wc sec
  let ee := Real.sqrt (4 * Real.pi * d.aem V)
  let mV := d.par ("m_" ++ V)
  let fV := d.par ("f_" ++ V)
  let fVT := d.par ("fT_" ++ V)
  let qq ← mesonQuark V
  let ll := bilinear sec
  let VL : ℂ := (fV : ℂ) * (mV : ℂ) * (wc ("CVLL_" ++ ll ++ qq) + wc ("CVLR_" ++ ll ++ qq))
  let VR : ℂ := (fV : ℂ) * (mV : ℂ) * (wc ("CVRR_" ++ ll ++ qq) + wc ("CVLR_" ++ qq ++ ll))
  let TR : ℂ := fVT * mV * wc ("CTRR_" ++ l1 ++ l2 ++ qq) - ee * Q * fV * wc ("Cgamma_" ++ l2 ++ l1)
  let TL : ℂ := (starRingEnd ℂ) (fVT * mV * wc ("CTRR_" ++ l2 ++ l1 ++ qq) - ee * Q * fV * wc ("Cgamma_" ++ l1 ++ l2))
  pure ⟨conjIf (ll = l2 ++ l1) VL, conjIf (ll = l2 ++ l1) VR, TL, TR⟩

/-- `getVT_lfc`.  /repo/flavio/physics/quarkonium/Vll.py:46-72. -/
noncomputable def getVTlfc (d : Inp) (V : String) (Q : ℝ) (l : String) : Except PyErr VT := do
  let sec ← wcSector l l
  let wc := d.wc sec
  let ll := l ++ l
  let ee2 := 4 * Real.pi * d.aem V
  let ee := Real.sqrt ee2
  let norm : ℝ := 4 * d.par "GF" / Real.sqrt 2
  let normDipole : ℝ := norm * ee / (16 * Real.pi ^ 2) * d.par ("m_" ++ l)
  let mV := d.par ("m_" ++ V)
  let fV := d.par ("f_" ++ V)
  let fVT := d.par ("fT_" ++ V)
  let qq ← mesonQuark V
  let ph ← pyDiv (2 * Q * ee2) (mV ^ 2)
  let VL : ℂ := (fV : ℂ) * (mV : ℂ) * (wc ("CVLL_" ++ ll ++ qq) * (norm : ℂ) + wc ("CVLR_" ++ ll ++ qq) * (norm : ℂ) - (ph : ℂ))
  let VR : ℂ := (fV : ℂ) * (mV : ℂ) * (wc ("CVRR_" ++ ll ++ qq) * (norm : ℂ) + wc ("CVLR_" ++ qq ++ ll) * (norm : ℂ) - (ph : ℂ))
  let TR : ℂ := fVT * mV * wc ("CTRR_" ++ ll ++ qq) * (norm : ℂ) - ee * Q * fV * wc ("C7_" ++ ll) * (normDipole : ℂ)
  pure ⟨VL, VR, (starRingEnd ℂ) TR, TR⟩

/-- The squared amplitude `ampSquared_V+ampSquared_T+ampSquared_VT`.  /repo/flavio/physics/quarkonium/Vll.py:93-95. -/
noncomputable def ampSq (a : VT) (y1 y2 : ℝ) : ℝ :=
  let y1s := y1 ^ 2
  let y2s := y2 ^ 2
  let c := starRingEnd ℂ
  ((‖a.VL‖ ^ 2 + ‖a.VR‖ ^ 2) / 12 * (2 - y1s - y2s - (y1s - y2s) ^ 2) + y1 * y2 * (a.VL * c a.VR).re)
  + (4 / 3 * (‖a.TL‖ ^ 2 + ‖a.TR‖ ^ 2) * (1 + y1s + y2s - 2 * (y1s - y2s) ^ 2) + 16 * y1 * y2 * (a.TR * c a.TL).re)
  + (2 * y1 * (1 + y2s - y1s) * (a.VR * c a.TR + a.VL * c a.TL).re
      + 2 * y2 * (1 + y1s - y2s) * (a.VL * c a.TR + a.VR * c a.TL).re)

/-- `Vll_br`.  /repo/flavio/physics/quarkonium/Vll.py:75-97. -/
noncomputable def vllBr (d : Inp) (V : String) (Q : ℝ) (l1 l2 : String) : Except PyErr ℝ := do
  let mV := d.par ("m_" ++ V)
  let tauV := d.par ("tau_" ++ V)
  let y1 ← pyDiv (d.par ("m_" ++ l1)) mV
  let y2 ← pyDiv (d.par ("m_" ++ l2)) mV
  let a ← if l1 = l2 then getVTlfc d V Q l1 else getVTlfv d V Q l1 l2
  pure (tauV * mV / (16 * Real.pi) * Real.sqrt (lambdaK 1 (y1 ^ 2) (y2 ^ 2)) * ampSq a y1 y2)

/-- `Vll_br_comb_func`.  /repo/flavio/physics/quarkonium/Vll.py:106-109. -/
noncomputable def vllBrComb (d : Inp) (V : String) (Q : ℝ) (l1 l2 : String) : Except PyErr ℝ := do
  let a ← vllBr d V Q l1 l2
  let b ← vllBr d V Q l2 l1
  pure (a + b)

/-- `Vll_ratio_func`.  /repo/flavio/physics/quarkonium/Vll.py:111-115. -/
noncomputable def vllRatio (d : Inp) (V : String) (Q : ℝ) (l1 l2 : String) : Except PyErr ℝ := do
  let ee ← vllBr d V Q "e" "e"
  let a ← vllBr d V Q l1 l2
  pyDiv a ee

/-- `Vll_ratio_comb_func`.  /repo/flavio/physics/quarkonium/Vll.py:118-122. -/
noncomputable def vllRatioComb (d : Inp) (V : String) (Q : ℝ) (l1 l2 : String) : Except PyErr ℝ := do
  let ee ← vllBr d V Q "e" "e"
  let a ← vllBr d V Q l1 l2
  let b ← vllBr d V Q l2 l1
  pyDiv (a + b) ee

/-- The mesons of `_hadr`.  /repo/flavio/physics/quarkonium/Vll.py:126-132. -/
def mesonsV : List String := ["J/psi", "psi(2S)", "Upsilon(1S)", "Upsilon(2S)", "Upsilon(3S)"]

/-- `_hadr[M]['Q']`.  /repo/flavio/physics/quarkonium/Vll.py:126-132. -/
noncomputable def charge (M : String) : ℝ := if M = "J/psi" then 2 / 3 else if M = "psi(2S)" then 2 / 3 else -(1 / 3)

/-- Which prediction function an observable is bound to.  /repo/flavio/physics/quarkonium/Vll.py:168-191. -/
inductive Kind | br | ratio | brComb | ratioComb
  deriving DecidableEq

/-- The first literal list of flavour pairs.  /repo/flavio/physics/quarkonium/Vll.py:169. -/
def pairs6 : List (String × String) :=
  [("e", "mu"), ("mu", "e"), ("e", "tau"), ("tau", "e"), ("mu", "tau"), ("tau", "mu")]

/-- The second literal list of flavour pairs.  /repo/flavio/physics/quarkonium/Vll.py:174. -/
def pairs3 : List (String × String) := [("e", "mu"), ("e", "tau"), ("mu", "tau")]

/-- One registered prediction: name, function, meson, leptons.  /repo/flavio/physics/quarkonium/Vll.py:168-191. -/
structure Reg where
  name : String
  kind : Kind
  M : String
  l1 : String
  l2 : String
  deriving DecidableEq

/-- The registrations of one meson, in order.  /repo/flavio/physics/quarkonium/Vll.py:168-191. -/
def regsV (M : String) : List Reg :=
  (pairs6.flatMap fun p =>
    [⟨"BR(" ++ M ++ "->" ++ (p.1 ++ p.2) ++ ")", .br, M, p.1, p.2⟩, ⟨"R(" ++ M ++ "->" ++ (p.1 ++ p.2) ++ ")", .ratio, M, p.1, p.2⟩])
  ++ (pairs3.flatMap fun p =>
    [⟨"BR(" ++ M ++ "->" ++ (p.1 ++ p.2 ++ "," ++ p.2 ++ p.1) ++ ")", .brComb, M, p.1, p.2⟩,
     ⟨"R(" ++ M ++ "->" ++ (p.1 ++ p.2 ++ "," ++ p.2 ++ p.1) ++ ")", .ratioComb, M, p.1, p.2⟩,
     ⟨"BR(" ++ M ++ "->" ++ (p.2 ++ p.1 ++ "," ++ p.1 ++ p.2) ++ ")", .brComb, M, p.1, p.2⟩,
     ⟨"R(" ++ M ++ "->" ++ (p.2 ++ p.1 ++ "," ++ p.1 ++ p.2) ++ ")", .ratioComb, M, p.1, p.2⟩])
  ++ (["e", "mu", "tau"].map fun l => ⟨"BR(" ++ M ++ "->" ++ (l ++ l) ++ ")", .br, M, l, l⟩)

/-- All registrations of the module.  /repo/flavio/physics/quarkonium/Vll.py:168-191. -/
def registryV : List Reg := mesonsV.flatMap regsV

/-- The value of a registered prediction.  /repo/flavio/physics/quarkonium/Vll.py:168-191. -/
noncomputable def predictV (d : Inp) (r : Reg) : Except PyErr ℝ :=
  match r.kind with
  | .br => vllBr d r.M (charge r.M) r.l1 r.l2
  | .ratio => vllRatio d r.M (charge r.M) r.l1 r.l2
  | .brComb => vllBrComb d r.M (charge r.M) r.l1 r.l2
  | .ratioComb => vllRatioComb d r.M (charge r.M) r.l1 r.l2

end Verif.Quarkonium
