import Verif.Physics.Quarkonium.Vll
/-!
# `P → ℓ₁⁺ ℓ₂⁻` and `S → ℓ₁⁺ ℓ₂⁻` of quarkonium (`flavio/physics/quarkonium/Pll.py`, `Sll.py`)

Conventions as in `Vll.lean`; `alpha_s` at the scale of the meson is an input.  The user arguments `CeGGij`, `CeGGji`
(default `0`) are complex numbers.
-/
set_option linter.unusedVariables false
namespace Verif.Quarkonium
open Verif.Py Verif.Running Verif.Common Complex

/-- What the predictions read: the inputs of `Vll` and `alpha_s` at the scale of each meson.
/repo/flavio/physics/quarkonium/Pll.py:15-20. -/
structure InpS extends Inp where
  als : String → ℝ

/-- `meson_quark[P]`.  /repo/flavio/physics/quarkonium/Pll.py:10-12. -/
def mesonQuarkP (P : String) : Except PyErr String :=
  if P = "eta_c(1S)" then .ok "cc" else if P = "eta_b(1S)" then .ok "bb" else .error .keyError

/-- `meson_quark[S]`.  /repo/flavio/physics/quarkonium/Sll.py:10-13. -/
def mesonQuarkS (S : String) : Except PyErr String :=
  if S = "chi_c0(1P)" then .ok "cc" else if S = "chi_b0(1P)" then .ok "bb" else if S = "chi_b0(2P)" then .ok "bb" else .error .keyError

/-- `qq[0]`.  /repo/flavio/physics/quarkonium/Pll.py:29. -/
def firstQuark (qq : String) : String := String.ofList (qq.toList.take 1)

/-- The pair `SL, SR`.  /repo/flavio/physics/quarkonium/Pll.py:39. -/
structure SLR where
  SL : ℂ
  SR : ℂ

/-- `getS_lfv` of the pseudoscalars.  /repo/flavio/physics/quarkonium/Pll.py:15-39. -/
noncomputable def getSP (d : InpS) (P l1 l2 : String) (cij cji : ℂ) : Except PyErr SLR := do
  let sec ← wcSector l1 l2
  let wc := d.wc sec
  let ml1 := d.par ("m_" ++ l1)
  let ml2 := d.par ("m_" ++ l2)
  let mP := d.par ("m_" ++ P)
  let fP := d.par ("f_" ++ P)
  let aP := d.par ("a_" ++ P)
  let hP := mP ^ 2 * fP - aP
  let qq ← mesonQuarkP P
  let mq := d.par ("m_" ++ firstQuark qq)
  let ll := bilinear sec
  let g ← pyDiv (aP * 4 * Real.pi) (d.als P)
  let h ← pyDiv hP (4 * mq)
  let A : ℂ := wc ("CVRR_" ++ ll ++ qq) - wc ("CVLR_" ++ qq ++ ll)
  let B : ℂ := wc ("CVLR_" ++ ll ++ qq) - wc ("CVLL_" ++ ll ++ qq)
  let SR : ℂ := I * (g : ℂ) * cij + (h : ℂ) * (wc ("CSRR_" ++ l1 ++ l2 ++ qq) - wc ("CSRL_" ++ l1 ++ l2 ++ qq))
    - ((fP / 2 : ℝ) : ℂ) * ((ml1 : ℂ) * A + (ml2 : ℂ) * B)
  let SL : ℂ := I * (g : ℂ) * cji + (h : ℂ) * (starRingEnd ℂ) (wc ("CSRL_" ++ l2 ++ l1 ++ qq) - wc ("CSRR_" ++ l2 ++ l1 ++ qq))
    - ((fP / 2 : ℝ) : ℂ) * ((ml2 : ℂ) * A + (ml1 : ℂ) * B)
  pure ⟨SL, SR⟩

/-- `getS_lfv` of the scalars.  /repo/flavio/physics/quarkonium/Sll.py:16-31. -/
noncomputable def getSS (d : InpS) (S l1 l2 : String) (cij cji : ℂ) : Except PyErr SLR := do
  let sec ← wcSector l1 l2
  let wc := d.wc sec
  let mS := d.par ("m_" ++ S)
  let fS : ℂ := (d.par ("f_" ++ S) : ℂ) * (-I)
  let aS := d.par ("a_" ++ S)
  let qq ← mesonQuarkS S
  let g ← pyDiv (aS * 4 * Real.pi) (d.als S)
  let SR : ℂ := I * (g : ℂ) * cij + ((mS : ℂ) * fS / 2) * (wc ("CSRR_" ++ l1 ++ l2 ++ qq) + wc ("CSRL_" ++ l1 ++ l2 ++ qq))
  let SL : ℂ := I * (g : ℂ) * cji + ((mS : ℂ) * fS / 2) * (starRingEnd ℂ) (wc ("CSRL_" ++ l2 ++ l1 ++ qq) + wc ("CSRR_" ++ l2 ++ l1 ++ qq))
  pure ⟨SL, SR⟩

/-- The common last line of `Pll_br` and `Sll_br`.  /repo/flavio/physics/quarkonium/Pll.py:47-55, Sll.py:39-47. -/
noncomputable def sllRate (d : InpS) (P l1 l2 : String) (a : Except PyErr SLR) : Except PyErr ℝ := do
  let mP := d.par ("m_" ++ P)
  let tauP := d.par ("tau_" ++ P)
  let y1 ← pyDiv (d.par ("m_" ++ l1)) mP
  let y2 ← pyDiv (d.par ("m_" ++ l2)) mP
  let s ← a
  pure (tauP * mP / (16 * Real.pi) * Real.sqrt (lambdaK 1 (y1 ^ 2) (y2 ^ 2))
    * ((1 - y1 ^ 2 - y2 ^ 2) * (‖s.SL‖ ^ 2 + ‖s.SR‖ ^ 2) - 4 * y1 * y2 * (s.SL * (starRingEnd ℂ) s.SR).re))

/-- `Pll_br`.  /repo/flavio/physics/quarkonium/Pll.py:42-55. -/
noncomputable def pllBr (d : InpS) (P l1 l2 : String) (cij cji : ℂ) : Except PyErr ℝ := sllRate d P l1 l2 (getSP d P l1 l2 cij cji)

/-- `Sll_br`.  /repo/flavio/physics/quarkonium/Sll.py:34-47. -/
noncomputable def sllBr (d : InpS) (S l1 l2 : String) (cij cji : ℂ) : Except PyErr ℝ := sllRate d S l1 l2 (getSS d S l1 l2 cij cji)

/-- `Pll_br_comb_func`: both orderings get the same arguments.  /repo/flavio/physics/quarkonium/Pll.py:64-67. -/
noncomputable def pllBrComb (d : InpS) (P l1 l2 : String) (cij cji : ℂ) : Except PyErr ℝ := do
  let a ← pllBr d P l1 l2 cij cji
  let b ← pllBr d P l2 l1 cij cji
  pure (a + b)

/-- `Sll_br_comb_func`.  /repo/flavio/physics/quarkonium/Sll.py:56-59. -/
noncomputable def sllBrComb (d : InpS) (S l1 l2 : String) (cij cji : ℂ) : Except PyErr ℝ := do
  let a ← sllBr d S l1 l2 cij cji
  let b ← sllBr d S l2 l1 cij cji
  pure (a + b)

/-- The pseudoscalar mesons of `_hadr`.  /repo/flavio/physics/quarkonium/Pll.py:71-74. -/
def mesonsP : List String := ["eta_c(1S)", "eta_b(1S)"]

/-- The scalar mesons of `_hadr`.  /repo/flavio/physics/quarkonium/Sll.py:63-67. -/
def mesonsS : List String := ["chi_c0(1P)", "chi_b0(1P)", "chi_b0(2P)"]

/-- The value a `for` loop leaves in its variables: the last element of the list.
/repo/flavio/physics/quarkonium/Pll.py:97. -/
def loopVars (l : List (String × String)) : String × String := (l.getLast?).getD ("", "")

/-- The registrations of one meson.  The second loop runs over `ll`, but its body reads the `l1`, `l2` left over by the
first.  /repo/flavio/physics/quarkonium/Pll.py:96-105, Sll.py:89-98. -/
def regsS (M : String) : List Reg :=
  (pairs6.map fun p => ⟨"BR(" ++ M ++ "->" ++ (p.1 ++ p.2) ++ ")", .br, M, p.1, p.2⟩)
  ++ (pairs3.flatMap fun _ =>
    let p := loopVars pairs6
    [⟨"BR(" ++ M ++ "->" ++ (p.1 ++ p.2 ++ "," ++ p.2 ++ p.1) ++ ")", .brComb, M, p.1, p.2⟩,
     ⟨"BR(" ++ M ++ "->" ++ (p.2 ++ p.1 ++ "," ++ p.1 ++ p.2) ++ ")", .brComb, M, p.1, p.2⟩])

/-- All registrations of `Pll`.  /repo/flavio/physics/quarkonium/Pll.py:96-105. -/
def registryP : List Reg := mesonsP.flatMap regsS

/-- All registrations of `Sll`.  /repo/flavio/physics/quarkonium/Sll.py:89-98. -/
def registryS : List Reg := mesonsS.flatMap regsS

end Verif.Quarkonium
