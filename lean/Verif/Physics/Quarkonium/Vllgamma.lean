import Verif.Physics.Quarkonium.Vll
/-!
# `V → ℓ₁⁺ ℓ₂⁻ γ` of quarkonium (`flavio/physics/quarkonium/Vllgamma.py`)

Conventions as in `Vll.lean`.  The user arguments `CeFFij`, `CeFFji`, `CeFFtildeij`, `CeFFtildeji` (default `0`) are complex numbers.
-/
set_option linter.unusedVariables false
namespace Verif.Quarkonium
open Verif.Py Verif.Running Verif.Common Complex

/-- The four user arguments.  /repo/flavio/physics/quarkonium/Vllgamma.py:139. -/
structure CeFF where
  ij : ℂ
  ji : ℂ
  tij : ℂ
  tji : ℂ

/-- The values of `getWC_lfv` that the rate reads (the vector and tensor ones are computed and dropped).
/repo/flavio/physics/quarkonium/Vllgamma.py:58, :111. -/
structure GWC where
  SR : ℂ
  SL : ℂ
  PR : ℂ
  PL : ℂ
  AR : ℂ
  AL : ℂ
  StR : ℂ
  StL : ℂ
  PtR : ℂ
  PtL : ℂ

/-- `getWC_lfv`.  /repo/flavio/physics/quarkonium/Vllgamma.py:16-58. -/
noncomputable def getWClfv (d : Inp) (V : String) (l1 l2 : String) (c : CeFF) : Except PyErr GWC := do
  let sec ← wcSector l1 l2
  let wc := d.wc sec
  let mV : ℂ := (d.par ("m_" ++ V) : ℂ)
  let fV : ℂ := (d.par ("f_" ++ V) : ℂ)
  let qq ← mesonQuark V
  let ll := bilinear sec
  let AR : ℂ := 2 * fV * mV * (wc ("CVLR_" ++ qq ++ ll) - wc ("CVRR_" ++ ll ++ qq))
  let AL : ℂ := 2 * fV * mV * (wc ("CVLL_" ++ ll ++ qq) - wc ("CVLR_" ++ ll ++ qq))
  pure {
    SR := 2 * mV * fV * (wc ("CSRR_" ++ l1 ++ l2 ++ qq) + wc ("CSRL_" ++ l1 ++ l2 ++ qq))
    SL := 2 * mV * fV * (starRingEnd ℂ) (wc ("CSRL_" ++ l2 ++ l1 ++ qq) + wc ("CSRR_" ++ l2 ++ l1 ++ qq))
    PR := 2 * mV * fV * (wc ("CSRR_" ++ l1 ++ l2 ++ qq) - wc ("CSRL_" ++ l1 ++ l2 ++ qq))
    PL := 2 * mV * fV * (starRingEnd ℂ) (wc ("CSRL_" ++ l2 ++ l1 ++ qq) - wc ("CSRR_" ++ l2 ++ l1 ++ qq))
    AR := conjIf (ll = l2 ++ l1) AR
    AL := conjIf (ll = l2 ++ l1) AL
    StR := 4 * mV ^ 2 * fV * c.ij
    StL := 4 * mV ^ 2 * fV * (starRingEnd ℂ) c.ji
    PtR := 4 * mV ^ 2 * fV * c.tij
    PtL := 4 * mV ^ 2 * fV * (starRingEnd ℂ) c.tji }

/-- `F_A`.  /repo/flavio/physics/quarkonium/Vllgamma.py:62-66. -/
noncomputable def kFA (y : ℝ) : ℝ :=
  let mu := y ^ 2
  if mu = 0 then 2 / 9 else (8 - 45 * mu + 36 * mu ^ 2 + mu ^ 3 + 6 * (mu - 6) * mu ^ 2 * Real.log mu) / 36

/-- `F_S`.  /repo/flavio/physics/quarkonium/Vllgamma.py:67-71. -/
noncomputable def kFS (y : ℝ) : ℝ :=
  let mu := y ^ 2
  if mu = 0 then 1 / 12 else (1 - 6 * mu + 3 * mu ^ 2 * (1 - 2 * Real.log mu) + 2 * mu ^ 3) / 12

/-- `Ftilde_S`.  /repo/flavio/physics/quarkonium/Vllgamma.py:72-76. -/
noncomputable def kFtS (y : ℝ) : ℝ :=
  let mu := y ^ 2
  if mu = 0 then 1 / 40 else (3 - 30 * mu - 20 * mu ^ 2 + 60 * mu ^ 3 - 15 * mu ^ 4 + 2 * mu ^ 5 - 60 * mu ^ 2 * Real.log mu) / 120

/-- `Fhat_P`.  /repo/flavio/physics/quarkonium/Vllgamma.py:77-81. -/
noncomputable def kFhP (y : ℝ) : ℝ :=
  let mu := y ^ 2
  if mu = 0 then 0 else mu * (-8 + 8 * mu ^ 2 - mu ^ 3 - 12 * mu * Real.log mu) / 12

/-- `Fhat_S`.  /repo/flavio/physics/quarkonium/Vllgamma.py:82-86. -/
noncomputable def kFhS (y : ℝ) : ℝ :=
  let mu := y ^ 2
  if mu = 0 then 1 / 12 else kFhP y + 1 / 12

/-- `F_PA`.  /repo/flavio/physics/quarkonium/Vllgamma.py:87-91. -/
noncomputable def kFPA (y : ℝ) : ℝ :=
  if y = 0 then 0 else
    let mu := y ^ 2
    y * (1 + 4 * mu - 5 * mu ^ 2 + 2 * mu * (2 + mu) * Real.log mu) / 2

/-- `Ftilde_PA`.  /repo/flavio/physics/quarkonium/Vllgamma.py:92-96. -/
noncomputable def kFtPA (y : ℝ) : ℝ :=
  if y = 0 then 0 else
    let mu := y ^ 2
    y * (1 + 9 * mu - 9 * mu ^ 2 - mu ^ 3 + 6 * mu * (1 + mu) * Real.log mu) / 3

/-- The mass-dependent choice of `y`, `I_AP`, `I_APtilde`; for equal masses a message is printed and the names stay
unbound.  /repo/flavio/physics/quarkonium/Vllgamma.py:120-129. -/
noncomputable def interf (ml1 ml2 mV : ℝ) (g : GWC) : Except PyErr (ℝ × ℝ × ℝ) :=
  let c := starRingEnd ℂ
  if ml1 < ml2 then do
    let y ← pyDiv ml2 mV
    pure (y, -(g.AL * c g.PR + g.AR * c g.PL).re, -(g.AL * c g.PtR + g.AR * c g.PtL).im)
  else if ml2 < ml1 then do
    let y ← pyDiv ml1 mV
    pure (y, (g.AL * c g.PL + g.AR * c g.PR).re, (g.AL * c g.PtL + g.AR * c g.PtR).im)
  else .error .unboundLocalError

/-- The bracket of the last line.  /repo/flavio/physics/quarkonium/Vllgamma.py:113-117, :133. -/
noncomputable def bracket (g : GWC) (y iAP iAPt : ℝ) : ℝ :=
  let c := starRingEnd ℂ
  (‖g.AL‖ ^ 2 + ‖g.AR‖ ^ 2) * kFA y + (‖g.SL‖ ^ 2 + ‖g.PL‖ ^ 2 + ‖g.SR‖ ^ 2 + ‖g.PR‖ ^ 2) * kFS y + iAP * kFPA y
    + (‖g.StL‖ ^ 2 + ‖g.PtL‖ ^ 2 + ‖g.StR‖ ^ 2 + ‖g.PtR‖ ^ 2) * kFtS y
    + (g.SL * c g.StL + g.SR * c g.StR).re * kFhS y + (g.PL * c g.PtL + g.PR * c g.PtR).im * kFhP y + iAPt * kFtPA y

/-- `Vllgamma_br`.  /repo/flavio/physics/quarkonium/Vllgamma.py:99-133. -/
noncomputable def vllgBr (d : Inp) (V : String) (Q : ℝ) (l1 l2 : String) (c : CeFF) : Except PyErr ℝ := do
  let mV := d.par ("m_" ++ V)
  let g ← getWClfv d V l1 l2 c
  let t ← interf (d.par ("m_" ++ l1)) (d.par ("m_" ++ l2)) mV g
  pure (d.aem V * Q ^ 2 * d.par ("tau_" ++ V) * mV / (192 * Real.pi ^ 2) * bracket g t.1 t.2.1 t.2.2)

/-- `Vllgamma_br_comb_func`: both orderings get the same arguments.  /repo/flavio/physics/quarkonium/Vllgamma.py:142-145. -/
noncomputable def vllgBrComb (d : Inp) (V : String) (Q : ℝ) (l1 l2 : String) (c : CeFF) : Except PyErr ℝ := do
  let a ← vllgBr d V Q l1 l2 c
  let b ← vllgBr d V Q l2 l1 c
  pure (a + b)

/-- `Vllgamma_ratio_func`.  /repo/flavio/physics/quarkonium/Vllgamma.py:147-151. -/
noncomputable def vllgRatio (d : Inp) (V : String) (Q : ℝ) (l1 l2 : String) (c : CeFF) : Except PyErr ℝ := do
  let ee ← vllBr d V Q "e" "e"
  let a ← vllgBr d V Q l1 l2 c
  pyDiv a ee

/-- `Vllgamma_ratio_comb_func`.  /repo/flavio/physics/quarkonium/Vllgamma.py:154-158. -/
noncomputable def vllgRatioComb (d : Inp) (V : String) (Q : ℝ) (l1 l2 : String) (c : CeFF) : Except PyErr ℝ := do
  let ee ← vllBr d V Q "e" "e"
  let a ← vllgBr d V Q l1 l2 c
  let b ← vllgBr d V Q l2 l1 c
  pyDiv (a + b) ee

/-- The registrations of one meson, in order.  /repo/flavio/physics/quarkonium/Vllgamma.py:202-221. -/
def regsG (M : String) : List Reg :=
  (pairs6.flatMap fun p =>
    [⟨"BR(" ++ M ++ "->" ++ (p.1 ++ p.2) ++ "gamma)", .br, M, p.1, p.2⟩, ⟨"R(" ++ M ++ "->" ++ (p.1 ++ p.2) ++ "gamma)", .ratio, M, p.1, p.2⟩])
  ++ (pairs3.flatMap fun p =>
    [⟨"BR(" ++ M ++ "->" ++ (p.1 ++ p.2 ++ "," ++ p.2 ++ p.1) ++ "gamma)", .brComb, M, p.1, p.2⟩,
     ⟨"R(" ++ M ++ "->" ++ (p.1 ++ p.2 ++ "," ++ p.2 ++ p.1) ++ "gamma)", .ratioComb, M, p.1, p.2⟩,
     ⟨"BR(" ++ M ++ "->" ++ (p.2 ++ p.1 ++ "," ++ p.1 ++ p.2) ++ "gamma)", .brComb, M, p.1, p.2⟩,
     ⟨"R(" ++ M ++ "->" ++ (p.2 ++ p.1 ++ "," ++ p.1 ++ p.2) ++ "gamma)", .ratioComb, M, p.1, p.2⟩])

/-- All registrations of the module.  /repo/flavio/physics/quarkonium/Vllgamma.py:202-221. -/
def registryG : List Reg := mesonsV.flatMap regsG

/-- The value of a registered prediction for given arguments.  /repo/flavio/physics/quarkonium/Vllgamma.py:202-221. -/
noncomputable def predictG (d : Inp) (r : Reg) (c : CeFF) : Except PyErr ℝ :=
  match r.kind with
  | .br => vllgBr d r.M (charge r.M) r.l1 r.l2 c
  | .ratio => vllgRatio d r.M (charge r.M) r.l1 r.l2 c
  | .brComb => vllgBrComb d r.M (charge r.M) r.l1 r.l2 c
  | .ratioComb => vllgRatioComb d r.M (charge r.M) r.l1 r.l2 c

end Verif.Quarkonium
