import Verif.Physics.Running
import Mathlib.Analysis.SpecialFunctions.Pow.Real
import Mathlib.Algebra.BigOperators.Fin
/-!
# Beta functions, kinetic-scheme masses and transverse decay constants
(`flavio/physics/running/betafunctions.py`, `masses.py`, and `get_f_perp` of `running.py`)
-/
set_option linter.unusedVariables false
namespace Verif.Rge
open Verif.Py Verif.Running

/-- The coefficient matrix of `beta_qcd` (rows: power of α_s, columns: power of α_e).
/repo/flavio/physics/running/betafunctions.py:11-18. -/
noncomputable def bQcd (f : ℝ) : Fin 3 → Fin 3 → ℝ :=
  ![![(33 - 2 * f) / 3, -(22 / 9), 4945 / 243],
    ![102 - (38 * f) / 3, -(308 / 27), 0],
    ![1428.5 - (5033 * f) / 18 + (325 * f ^ 2) / 54, 0, 0]]

/-- `beta_qcd`.  /repo/flavio/physics/running/betafunctions.py:7-23. -/
noncomputable def betaQcd (als ale mu f : ℝ) : Except PyErr ℝ := do
  let q ← pyDiv (-1 / 2 / Real.pi) mu
  pure (q * als ^ 2 * ∑ ps : Fin 3, ∑ pe : Fin 3, (als / 4 / Real.pi) ^ (ps : ℕ) * (ale / 4 / Real.pi) ^ (pe : ℕ) * bQcd f ps pe)

/-- The coefficient matrix of `beta_qed` (rows: power of α_e).  /repo/flavio/physics/running/betafunctions.py:30-33. -/
noncomputable def bQed : Fin 2 → Fin 2 → ℝ := ![![80 / 9, 176 / 9], ![464 / 27, 0]]

/-- `beta_qed`.  /repo/flavio/physics/running/betafunctions.py:25-38. -/
noncomputable def betaQed (ale als mu f : ℝ) : Except PyErr ℝ := do
  let q ← pyDiv (1 / 2 / Real.pi) mu
  pure (q * ale ^ 2 * ∑ pe : Fin 2, ∑ ps : Fin 2, (ale / 4 / Real.pi) ^ (pe : ℕ) * (als / 4 / Real.pi) ^ (ps : ℕ) * bQed pe ps)

/-- `beta_qcd_qed` (and `betafunctions_qcd_qed_nf`).  /repo/flavio/physics/running/betafunctions.py:40-50. -/
noncomputable def betaQcdQed (als ale mu nf : ℝ) : Except PyErr (ℝ × ℝ) := do
  let bs ← betaQcd als ale mu nf
  let be ← betaQed ale als mu nf
  pure (bs, be)

/-! ## Kinetic masses; positive mass and scale only (a zero or negative one is an exception or a numpy infinity, not modelled) -/

/-- `fKsFromMs1`.  /repo/flavio/physics/running/masses.py:11-13. -/
noncomputable def f1 (Mu M : ℝ) : ℝ := -(4 / 3) * (1 - (4 / 3) * (Mu / M) - (Mu ^ 2 / (2 * M ^ 2)))

/-- `fKsFromMs2`; `z3` is `zeta(3)`.  /repo/flavio/physics/running/masses.py:14-21. -/
noncomputable def f2 (z3 Mu M Nf : ℝ) : ℝ :=
  let b0 := 11 - 2 * Nf / 3
  let p := Real.pi;
  (((1 / 3) * Real.log (M / (2 * Mu)) + 13 / 18) * b0 - p ^ 2 / 3 + 23 / 18) * Mu ^ 2 / M ^ 2
    + (((8 / 9) * Real.log (M / (2 * Mu)) + 64 / 27) * b0 - 8 * p ^ 2 / 9 + 92 / 27) * Mu / M
    - (p ^ 2 / 12 + 71 / 96) * b0
    + z3 / 6 - p ^ 2 / 9 * Real.log 2 + 7 * p ^ 2 / 12 + 23 / 72

/-- `fKsFromMs3`.  /repo/flavio/physics/running/masses.py:23-28. -/
noncomputable def f3 (z3 Mu M Nf : ℝ) : ℝ :=
  let b0 := 11 - 2 * Nf / 3
  let p := Real.pi;
  -(b0 / 2) ^ 2 * (2353 / 2592 + 13 / 36 * p ^ 2 + 7 / 6 * z3
    - 16 / 9 * Mu / M * ((Real.log (M / (2 * Mu)) + 8 / 3) ^ 2 + 67 / 36 - p ^ 2 / 6)
    - 2 / 3 * Mu ^ 2 / M ^ 2 * ((Real.log (M / (2 * Mu)) + 13 / 6) ^ 2 + 10 / 9 - p ^ 2 / 6))

/-- `s[:nl+1].sum()` for a list of four terms (Python slices: a negative bound counts from the end).
/repo/flavio/physics/running/masses.py:36, :49. -/
noncomputable def sliceSum (s : List ℝ) (nl : ℤ) : ℝ :=
  let k := nl + 1
  (s.take (if 0 ≤ k then k.toNat else (k + s.length).toNat)).sum

/-- `mKS2mMS`.  /repo/flavio/physics/running/masses.py:30-37. -/
noncomputable def ks2ms (z3 M Nf asM Mu : ℝ) (nl : ℤ) : ℝ :=
  M * sliceSum [1, asM / Real.pi * f1 Mu M, (asM / Real.pi) ^ 2 * f2 z3 Mu M Nf, (asM / Real.pi) ^ 3 * f3 z3 Mu M Nf] nl

/-- `convert` in `mMS2mKS`.  /repo/flavio/physics/running/masses.py:40-50. -/
noncomputable def convert (z3 MS Nf asM Mu : ℝ) (nl : ℤ) (M : ℝ) : ℝ :=
  let s1 := -(asM / Real.pi) * f1 Mu M
  let s2 := -(asM / Real.pi) ^ 2 * f2 z3 Mu M Nf
  let s2 := s2 + s1 ^ 2
  MS * sliceSum [1, s1, s2, -(asM / Real.pi) ^ 3 * f3 z3 Mu M Nf] nl

/-- `mMS2mKS`.  /repo/flavio/physics/running/masses.py:39-54. -/
noncomputable def ms2ks (z3 MS Nf asM Mu : ℝ) (nl : ℤ) : ℝ :=
  convert z3 MS Nf asM Mu nl (convert z3 MS Nf asM Mu nl (convert z3 MS Nf asM Mu nl MS))

/-! ## Transverse decay constants -/

/-- `_rg_factor_f_perp`; `al scale nf` is `get_alpha_s` (assumed positive).  /repo/flavio/physics/running/running.py:339-352. -/
noncomputable def rgFactor (al : ℝ → Nat → ℝ) (start stop : ℝ) (nf : Nat) : ℝ :=
  (al stop nf / al start nf) ^ (4 / (33 - 2 * (nf : ℝ)))

/-- The loop of `get_f_perp`.  `none`: falling out of the loop returns `None` (`min(inf, scale)` makes this
impossible, see `C122_total`).  /repo/flavio/physics/running/running.py:326-337. -/
noncomputable def fperpLoop (al : ℝ → Nat → ℝ) (t : Thr) (scale : ℝ) (nfOut : Option Nat) : List Nat → ℝ → ℝ → Option ℝ
  | [], _, _ => none
  | nf :: l, f, start =>
    let stop := if nfOut = some nf then scale else upStop t nf scale
    let f' := rgFactor al start stop nf * f
    if stop = scale then some f' else fperpLoop al t scale nfOut l f' (t.at (nf + 1))

/-- `get_f_perp`, as a function of the input value at 2 GeV.  /repo/flavio/physics/running/running.py:313-337. -/
noncomputable def getFPerp (al : ℝ → Nat → ℝ) (t : Thr) (f scale : ℝ) (nfOut : Option Nat) : Option ℝ :=
  if scale = 2 then some f else fperpLoop al t scale nfOut [3, 4, 5, 6] f 2

end Verif.Rge
