import Verif.Physics.Angular.Bins
import Verif.Physics.Mixing.Box
import Mathlib.Analysis.SpecialFunctions.Artanh
/-!
# `B → ℓ⁺ ℓ⁻ γ`
(`flavio/physics/bdecays/bllgamma.py`, `flavio/physics/bdecays/formfactors/b_gamma/bgamma.py`)

The parameters are a function of their name; the running `b` mass, the running fine-structure constant, the CKM combination and the total Wilson coefficients are arguments.  The Wilson coefficients are numpy numbers, so a division
of them by zero gives no exception but an infinity; the only such division that can be by zero (`1-s` at the end of the phase space) is modelled by the result `none`.  The warnings about narrow resonances are not modelled.
-/
set_option linter.unusedVariables false
namespace Verif.Bllgamma
open Verif.Py Verif.Running Complex
local notation "conj" => starRingEnd ℂ

/-- The form factors.  /repo/flavio/physics/bdecays/formfactors/b_gamma/bgamma.py:15-19. -/
structure FF where
  v : ℝ
  a : ℝ
  tv : ℝ
  ta : ℝ

/-- The part of the parameters and running quantities that is used.  /repo/flavio/physics/bdecays/bllgamma.py:38-44. -/
structure Inp where
  par : String → ℝ
  mb : ℝ
  alphaE : ℝ
  xiT : ℂ

/-- The total Wilson coefficients that are used.  /repo/flavio/physics/bdecays/bllgamma.py:50-51,83. -/
structure Wc where
  C1 : ℂ
  C2 : ℂ
  C7 : ℂ
  C9 : ℂ
  C10 : ℂ

/-- One pole form factor.  /repo/flavio/physics/bdecays/formfactors/b_gamma/bgamma.py:15-18. -/
noncomputable def pole (beta delta fB mB q2 : ℝ) : Except PyErr ℝ := pyDiv (beta * fB * mB) (delta + mB / 2 * (1 - q2 / mB ^ 2))

/-- `ff` (`m_B` is not zero).  /repo/flavio/physics/bdecays/formfactors/b_gamma/bgamma.py:6-19. -/
noncomputable def kmFF (q : Inp) (B : String) (q2 : ℝ) : Except PyErr FF := do
  let fB := q.par ("f_" ++ B)
  let mB := q.par ("m_" ++ B)
  let v ← pole (q.par "B->gamma KM betav") (q.par "B->gamma KM deltav") fB mB q2
  let a ← pole (q.par "B->gamma KM betaa") (q.par "B->gamma KM deltaa") fB mB q2
  let tv ← pole (q.par "B->gamma KM betatv") (q.par "B->gamma KM deltatv") fB mB q2
  let ta ← pole (q.par "B->gamma KM betata") (q.par "B->gamma KM deltata") fB mB q2
  pure ⟨v, a, tv, ta⟩

/-- `prefactor`.  /repo/flavio/physics/bdecays/bllgamma.py:38-44. -/
noncomputable def prefactor (q : Inp) (B : String) : ℝ :=
  q.par "GF" ^ 2 / (2 ^ 10 * Real.pi ^ 4) * ‖q.xiT‖ ^ 2 * q.alphaE ^ 3 * q.par ("m_" ++ B) ^ 5

/-- `resonances` (a list for each of the two mesons).  /repo/flavio/physics/bdecays/bllgamma.py:55. -/
def resonances : String → List String
  | "Bs" => ["phi"]
  | "B0" => ["rho0", "omega"]
  | _ => []

/-- `fVtofVemfactors`.  /repo/flavio/physics/bdecays/bllgamma.py:57. -/
noncomputable def emFactor : String → ℝ
  | "phi" => -1 / 3
  | "rho0" => 1 / Real.sqrt 2
  | "omega" => 1 / (3 * Real.sqrt 2)
  | _ => 0

/-- `resgV`.  /repo/flavio/physics/bdecays/bllgamma.py:59-61. -/
noncomputable def resgV (q : Inp) : String → ℝ
  | "phi" => -q.par "Bs->phi BSZ a0_T1"
  | "rho0" => 1 / Real.sqrt 2 * q.par "B->rho BSZ a0_T1"
  | "omega" => -1 / Real.sqrt 2 * q.par "B->omega BSZ a0_T1"
  | _ => 0

/-- The contribution of one resonance.  /repo/flavio/physics/bdecays/bllgamma.py:63-66. -/
noncomputable def resTerm (q : Inp) (B V : String) (s : ℝ) : ℂ :=
  let fV := emFactor V * q.par ("f_" ++ V)
  ((2 * fV * resgV q V * q.par ("m_" ++ B) ^ 2 * s / q.par ("m_" ++ V) : ℝ) : ℂ)
    / ((q.par ("m_" ++ B) ^ 2 * s - q.par ("m_" ++ V) ^ 2 : ℝ) + I * (q.par ("m_" ++ V) / q.par ("tau_" ++ V) : ℝ))

/-- The sum over resonances.  /repo/flavio/physics/bdecays/bllgamma.py:62-66. -/
noncomputable def resSum (q : Inp) (B : String) (s : ℝ) : ℂ := ((resonances B).map fun V => resTerm q B V s).sum

/-- First result of `getfft`.  /repo/flavio/physics/bdecays/bllgamma.py:46-68. -/
noncomputable def fftv (q : Inp) (B : String) (s : ℝ) (ff ff0 : FF) (wc : Wc) : ℂ :=
  ff.tv + ff0.tv + 16 / 3 * (-wc.C1 - wc.C2 / 3) / wc.C7 * (q.par ("f_" ++ B) : ℝ) / (q.mb : ℝ) - resSum q B s

/-- Second result of `getfft`.  /repo/flavio/physics/bdecays/bllgamma.py:46-68. -/
noncomputable def ffta (q : Inp) (B : String) (s : ℝ) (ff ff0 : FF) (wc : Wc) : ℂ := ff.ta + ff0.ta - resSum q B s

/-- `getF1`; `tv`, `ta` are the two results of `getfft`.  /repo/flavio/physics/bdecays/bllgamma.py:70-78. -/
noncomputable def getF1 (s mbh : ℝ) (ff : FF) (tv ta : ℂ) (wc : Wc) : ℝ :=
  (‖wc.C9‖ ^ 2 + ‖wc.C10‖ ^ 2) * ff.v ^ 2 + 4 * mbh ^ 2 / s ^ 2 * ‖wc.C7 * tv‖ ^ 2 + 4 * mbh / s * ff.v * (wc.C7 * ta * conj wc.C9).re

/-- `getF2`.  /repo/flavio/physics/bdecays/bllgamma.py:80-88. -/
noncomputable def getF2 (s mbh : ℝ) (ff : FF) (tv ta : ℂ) (wc : Wc) : ℝ :=
  (‖wc.C9‖ ^ 2 + ‖wc.C10‖ ^ 2) * ff.a ^ 2 + 4 * mbh ^ 2 / s ^ 2 * ‖wc.C7 * ta‖ ^ 2 + 4 * mbh / s * ff.a * (wc.C7 * ta * conj wc.C9).re

/-- `B10`.  /repo/flavio/physics/bdecays/bllgamma.py:91-98. -/
noncomputable def B10 (s mbh mlh : ℝ) (ff : FF) (tv ta : ℂ) (wc : Wc) : ℝ :=
  (s + 4 * mlh ^ 2) * (getF1 s mbh ff tv ta wc + getF2 s mbh ff tv ta wc) - 8 * mlh ^ 2 * ‖wc.C10‖ ^ 2 * (ff.v ^ 2 + ff.a ^ 2)

/-- `B12`.  /repo/flavio/physics/bdecays/bllgamma.py:102-107. -/
noncomputable def B12 (s mbh : ℝ) (ff : FF) (tv ta : ℂ) (wc : Wc) : ℝ := s * (getF1 s mbh ff tv ta wc + getF2 s mbh ff tv ta wc)

/-- `B120`.  /repo/flavio/physics/bdecays/bllgamma.py:109-119. -/
noncomputable def B120 (s mbh mlh : ℝ) (ff : FF) (tv : ℂ) (wc : Wc) : ℝ :=
  -16 * mlh ^ 2 * (1 - s) * (ff.v * (wc.C9 * conj wc.C10).re + 2 * mbh / s * (conj wc.C10 * tv * wc.C7).re)

/-- `dG1dsMN`.  /repo/flavio/physics/bdecays/bllgamma.py:122-126. -/
noncomputable def dG1 (P s mbh mlh : ℝ) (ff : FF) (tv ta : ℂ) (wc : Wc) : ℝ :=
  P * (1 - s) ^ 3 * Real.sqrt (1 - 4 * mlh ^ 2 / s) * (B10 s mbh mlh ff tv ta wc + (s - 4 * mlh ^ 2) / (3 * s) * B12 s mbh ff tv ta wc)

/-- `dG2dsMN`; `r` is `f_B/m_B`.  /repo/flavio/physics/bdecays/bllgamma.py:128-134. -/
noncomputable def dG2 (P s mlh r : ℝ) (wc : Wc) : ℝ :=
  16 * P * (r * ‖wc.C10‖ * mlh) ^ 2 / (1 - s)
    * (-8 * Real.sqrt (s - 4 * mlh ^ 2) * Real.sqrt s + 4 * Real.artanh (Real.sqrt (1 - 4 * mlh ^ 2 / s)) * (1 + s - mlh ^ 2 * (1 - s) ^ 2))

/-- `dG12dsMN`.  /repo/flavio/physics/bdecays/bllgamma.py:136-140. -/
noncomputable def dG12 (P s mbh mlh r : ℝ) (ff : FF) (tv : ℂ) (wc : Wc) : ℝ :=
  4 * P * r * (1 - s) * Real.artanh (Real.sqrt (1 - 4 * mlh ^ 2 / s)) * B120 s mbh mlh ff tv wc

/-- `dGdsMN`.  /repo/flavio/physics/bdecays/bllgamma.py:142-143. -/
noncomputable def dGds (q : Inp) (B lep : String) (wc : Wc) (ff ff0 : FF) (s : ℝ) : ℝ :=
  let mB := q.par ("m_" ++ B)
  let P := prefactor q B
  let tv := fftv q B s ff ff0 wc
  let ta := ffta q B s ff ff0 wc
  let mlh := q.par ("m_" ++ lep) / mB
  dG1 P s (q.mb / mB) mlh ff tv ta wc + dG2 P s mlh (q.par ("f_" ++ B) / mB) wc + dG12 P s (q.mb / mB) mlh (q.par ("f_" ++ B) / mB) ff tv wc

open Classical in
/-- `bllg_dbrdq2` for `B` one of `Bs`, `B0`; `none` stands for an infinity.  /repo/flavio/physics/bdecays/bllgamma.py:146-164. -/
noncomputable def dbr (q : Inp) (B lep : String) (wc : Wc) (q2 : ℝ) : Except PyErr (Option ℝ) := do
  let mB := q.par ("m_" ++ B)
  let ff ← kmFF q B q2
  let ff0 ← kmFF q B 0
  if q2 ≤ 4 * q.par ("m_" ++ lep) ^ 2 ∨ q2 > mB ^ 2 then pure (some 0)
  else if q2 = mB ^ 2 then pure none
  else pure (some (q.par ("tau_" ++ B) * dGds q B lep wc ff ff0 (q2 / mB ^ 2)))

/-- The value of `bllg_dbrdq2` as a number (zero where there is none): the integrand of the binned observable.  /repo/flavio/physics/bdecays/bllgamma.py:172-173. -/
noncomputable def dbrVal (q : Inp) (B lep : String) (wc : Wc) (q2 : ℝ) : ℝ :=
  match dbr q B lep wc q2 with
  | .ok (some x) => x
  | _ => 0

/-- `bllg_dbrdq2_int`.  /repo/flavio/physics/bdecays/bllgamma.py:171-174. -/
noncomputable def dbrInt (nint : Angular.Nint) (q : Inp) (B lep : String) (wc : Wc) (a b : ℝ) : ℝ := nint (dbrVal q B lep wc) a b (5 / 1000) / (b - a)

/-- The names of the observables, in the order of the loops.  /repo/flavio/physics/bdecays/bllgamma.py:186-204. -/
def names : List String :=
  ["e", "mu"].flatMap fun l => ["Bs", "B0"].flatMap fun B => ["<dBR/dq2>(" ++ B ++ "->" ++ l ++ l ++ "gamma)", "dBR/dq2(" ++ B ++ "->" ++ l ++ l ++ "gamma)"]

end Verif.Bllgamma
