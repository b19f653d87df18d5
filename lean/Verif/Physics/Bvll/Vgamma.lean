import Verif.Physics.Bvll.Assembly
import Verif.Physics.Bdecays.Bll
/-!
# B → V γ (`flavio/physics/bdecays/bvgamma.py`)

Inputs: couplings and masses at the scale `bvgamma`, the CKM factor, the form factor `T1(0)`, the coefficients
`C7eff`, `C7effp` and the correction `delta_C7` (after `conjugate_wc` when `cp_conjugate`), the spectator scattering
amplitudes at q² = 0.001, and `q/p`.  The subleading amplitudes are those of `Assembly.lean`.  Quotients are those of
numpy numbers: a vanishing denominator gives nan there and is not represented (Lean's quotient is then 0).
-/
set_option linter.unusedVariables false
namespace Verif.Vgamma
open Verif.Py Verif.Running Verif.Bll Verif.Common Complex

/-- Inputs for one pair of mesons; `h` are the inputs of the `B → V ll` amplitudes (masses, CKM factor, form factors,
subleading parameters, spectator scattering), `alpha`, `mb` those at the scale `bvgamma`.
/repo/flavio/physics/bdecays/bvgamma.py:16-36, :39-56, :107-135. -/
structure Inp where
  h : Bvll.Inp
  alpha : ℝ
  mb : ℝ
  T1 : ℝ
  C7 : Bool → ℂ
  C7p : Bool → ℂ
  dC7 : Bool → ℂ
  qp : ℂ
  tau : ℝ
  dGG : ℝ

/-- The amplitudes with the keys `L`, `R`.  /repo/flavio/physics/bdecays/bvgamma.py:53-56. -/
structure Amp where
  L : ℂ
  R : ℂ

/-- `prefactor` with a given CKM factor.  /repo/flavio/physics/bdecays/bvgamma.py:16-26. -/
noncomputable def prefactor (d : Inp) (xit : ℂ) : Except PyErr ℂ := do
  let mB := d.h.mB
  let mV := d.h.mM
  let r ← pyDiv (mV ^ 2) (mB ^ 2)
  let s ← pySqrt ((d.h.GF ^ 2 * d.alpha * mB ^ 3 * d.mb ^ 2) / (32 * Real.pi ^ 4) * (1 - r) ^ 3)
  pure ((s : ℂ) * xit)

/-- `prefactor_helicityamps`: evaluated with the parameters that are not conjugated.
/repo/flavio/physics/bdecays/bvgamma.py:28-36. -/
noncomputable def prefactorH (d : Inp) (q2 : ℝ) : Except PyErr ℂ := do
  let N ← prefactor d d.h.xit
  let NB := Bvll.prefactor d.h
  let laB := lambdaK (d.h.mB ^ 2) (d.h.mM ^ 2) q2
  let sl ← pySqrt laB
  pure (N / (I * ((d.mb / q2 : ℝ) : ℂ) * (sl : ℂ) * 2) / NB)

/-- `amps_ff`.  /repo/flavio/physics/bdecays/bvgamma.py:39-56. -/
noncomputable def ampsFF (d : Inp) (cp : Bool) : Except PyErr Amp := do
  let N ← prefactor d (if cp then (starRingEnd ℂ) d.h.xit else d.h.xit)
  pure ⟨N * (d.C7 cp + d.dC7 cp) * (d.T1 : ℂ), N * d.C7p cp * (d.T1 : ℂ)⟩

/-- `amps_ss` (the quantity is registered for the mesons of the observables).
/repo/flavio/physics/bdecays/bvgamma.py:58-67. -/
noncomputable def ampsSS (d : Inp) (B V : String) (cp : Bool) : Except PyErr Amp :=
  if (B, V) ∈ Bvll.ssRegistered then do
    let a := d.h.ss cp 0.001
    let N ← prefactorH d 0.001
    pure ⟨-N * a.2.2, N * a.2.1⟩
  else .error .keyError

/-- `amps_subleading`.  /repo/flavio/physics/bdecays/bvgamma.py:69-78. -/
noncomputable def ampsSub (d : Inp) (B V : String) (cp : Bool) : Except PyErr Amp :=
  if (B, V) ∈ Bvll.subRegistered then do
    let a := Bvll.c7poly d.h B V 0.001
    let N ← prefactorH d 0.001
    pure ⟨-N * a.2.2, N * a.2.1⟩
  else .error .keyError

/-- The sum of the three contributions.  /repo/flavio/physics/bdecays/bvgamma.py:80-92. -/
noncomputable def ampsSum (d : Inp) (B V : String) (cp : Bool) : Except PyErr Amp := do
  let f ← ampsFF d cp
  let s ← ampsSS d B V cp
  let t ← ampsSub d B V cp
  pure ⟨f.L + s.L + t.L, f.R + s.R + t.R⟩

/-- `get_a_abar`: in the second one `L` and `R` are exchanged.  /repo/flavio/physics/bdecays/bvgamma.py:80-99. -/
noncomputable def getAAbar (d : Inp) (B V : String) : Except PyErr (Amp × Amp) := do
  let a ← ampsSum d B V false
  let b ← ampsSum d B V true
  pure (a, ⟨b.R, b.L⟩)

/-- `Gamma`.  /repo/flavio/physics/bdecays/bvgamma.py:101-102. -/
noncomputable def gam (a : Amp) : ℝ := ‖a.L‖ ^ 2 + ‖a.R‖ ^ 2
/-- `Gamma_CPaverage`.  /repo/flavio/physics/bdecays/bvgamma.py:104-105. -/
noncomputable def gamAve (a b : Amp) : ℝ := (gam a + gam b) / 2

/-- `BR`.  /repo/flavio/physics/bdecays/bvgamma.py:107-110. -/
noncomputable def br (d : Inp) (B V : String) : Except PyErr ℝ := do
  let ab ← getAAbar d B V
  pure (d.tau * gamAve ab.1 ab.2)
/-- `ACP`.  /repo/flavio/physics/bdecays/bvgamma.py:112-114. -/
noncomputable def acp (d : Inp) (B V : String) : Except PyErr ℝ := do
  let ab ← getAAbar d B V
  pure ((gam ab.1 - gam ab.2) / (gam ab.1 + gam ab.2))
/-- `S_A_complex`.  /repo/flavio/physics/bdecays/bvgamma.py:116-122. -/
noncomputable def sA (d : Inp) (B V : String) : Except PyErr ℂ := do
  let ab ← getAAbar d B V
  let a := ab.1
  let b := ab.2
  pure (-d.qp * (a.L * (starRingEnd ℂ) b.L + a.R * (starRingEnd ℂ) b.R) / ((gamAve a b : ℝ) : ℂ))
/-- `S`.  /repo/flavio/physics/bdecays/bvgamma.py:124-125. -/
noncomputable def sObs (d : Inp) (B V : String) : Except PyErr ℝ := do
  let z ← sA d B V
  pure z.im
/-- `A_DeltaGamma`.  /repo/flavio/physics/bdecays/bvgamma.py:127-128. -/
noncomputable def aDG (d : Inp) (B V : String) : Except PyErr ℝ := do
  let z ← sA d B V
  pure z.re
/-- `BR_timeint`: `(1 - A*y)/(1-y**2) * BR0`; `y` is a Python float, the numerator a numpy one (no exception).
/repo/flavio/physics/bdecays/bvgamma.py:130-134. -/
noncomputable def brTimeint (d : Inp) (B V : String) : Except PyErr ℝ := do
  let A ← aDG d B V
  let b0 ← br d B V
  let y := d.dGG / 2
  pure ((1 - A * y) / (1 - y ^ 2) * b0)

/-- The quotient of `BVgamma_ratio_function`.  /repo/flavio/physics/bdecays/bvgamma.py:139-144. -/
noncomputable def ratio (d1 d2 : Inp) : Except PyErr ℝ := do
  let n ← br d1 "B0" "K*0"
  let m ← brTimeint d2 "Bs" "phi"
  pure (n / m)

/-- The registered observables; `d B` are the inputs for the meson `B`.
/repo/flavio/physics/bdecays/bvgamma.py:155-231. -/
noncomputable def registry (d : String → Inp) : List (String × Except PyErr ℝ) :=
  [("BR(B+->K*gamma)", br (d "B+") "B+" "K*+"), ("BR(B0->K*gamma)", br (d "B0") "B0" "K*0"),
   ("ACP(B+->K*gamma)", acp (d "B+") "B+" "K*+"), ("ACP(B0->K*gamma)", acp (d "B0") "B0" "K*0"),
   ("ACP(Bs->phigamma)", acp (d "Bs") "Bs" "phi"), ("BR(Bs->phigamma)", brTimeint (d "Bs") "Bs" "phi"),
   ("BR(B0->K*gamma)/BR(Bs->phigamma)", ratio (d "B0") (d "Bs")),
   ("ADeltaGamma(Bs->phigamma)", aDG (d "Bs") "Bs" "phi"),
   ("S_K*gamma", sObs (d "B0") "B0" "K*0"), ("S_phigamma", sObs (d "Bs") "Bs" "phi")]

end Verif.Vgamma
