import Verif.Physics.Kdecays.KllTheorems
import Verif.Physics.Angular.Nunu
/-!
# `K → π ν ν̄` (`flavio/physics/kdecays/kpinunu.py`)

Parameters are a total function of their names; the CKM matrix, the top-quark function `X_t`, `alpha_e` at the two scales and the Wilson
coefficients returned by `get_wc` are inputs; division by zero is an error (numpy: `nan` with a warning).
-/
set_option linter.unusedVariables false
namespace Verif.Kpinunu
open Verif.Py Verif.Running Verif.Ckm Complex

/-- What the predictions read: parameters, CKM matrix, `X_t`, `alpha_e` at `m_Z` and at the kaon scale.
/repo/flavio/physics/kdecays/kpinunu.py:7-52. -/
structure Inp where
  par : String → ℝ
  V : Mat
  Xt : ℝ
  alphaZ : ℝ
  alpha : ℝ

/-- `ckm.xi(q, 'ds')(par)` for the up-type quark number `k`.  /repo/flavio/physics/kdecays/kpinunu.py:11-12. -/
noncomputable def xiDS (d : Inp) (k : Fin 3) : ℂ := xiKlIj d.V k k 0 1

/-- `kpinunu_charm` (powers of non-negative floats).  /repo/flavio/physics/kdecays/kpinunu.py:29-36. -/
noncomputable def charm (d : Inp) : ℝ :=
  0.379 * (d.par "m_c" / 1.3) ^ (2.155 : ℝ) * (d.par "alpha_s" / 0.1187) ^ (-1.417 : ℝ)

/-- The left-handed coefficient with the SM contribution for equal flavours.  /repo/flavio/physics/kdecays/kpinunu.py:13-18. -/
noncomputable def clTot (d : Inp) (np : String → ℂ) (nu1 nu2 : String) : ℂ :=
  if nu1 = nu2 then np ("CL_sd" ++ nu1 ++ nu2) + (Nunu.clSM d.Xt (d.par "s2w") d.alphaZ d.alpha : ℂ) else np ("CL_sd" ++ nu1 ++ nu2)

/-- `kpinunu_amplitude`.  /repo/flavio/physics/kdecays/kpinunu.py:7-27. -/
noncomputable def amplitude (d : Inp) (np : String → ℂ) (nu1 nu2 : String) : ℂ :=
  let X := -(clTot d np nu1 nu2 + np ("CR_sd" ++ nu1 ++ nu2)) * (d.par "s2w" : ℂ)
  let amp := xiDS d 2 * X
  if nu1 = nu2 then amp + xiDS d 1 * ((charm d + d.par "deltaPcu" : ℝ) : ℂ) * ((‖d.V 0 1‖ : ℝ) : ℂ) ^ 4 else amp

/-- `kappa_nu_tilde`.  /repo/flavio/physics/kdecays/kpinunu.py:38-52. -/
noncomputable def kappaTilde (d : Inp) (charge : String) : Except PyErr ℝ := do
  let kt ← (if charge = "plus" then .ok (d.par "kappa_plus_tilde") else if charge = "long" then .ok (d.par "kappa_L_tilde") else .error .valueError)
  let rs ← pyDiv (0.231 ^ 2) (d.par "s2w" ^ 2)
  pure (kt * (1 / 0.225 ^ 8) * (d.alpha ^ 2 * 127.9 ^ 2) * rs)

/-- `br_kplus_pinunu`.  /repo/flavio/physics/kdecays/kpinunu.py:54-58. -/
noncomputable def brPlus (d : Inp) (np : String → ℂ) (nu1 nu2 : String) : Except PyErr ℝ := do
  let k ← kappaTilde d "plus"
  let r ← pyDiv (‖amplitude d np nu1 nu2‖ ^ 2 * k) (‖d.V 0 1‖ ^ 2)
  pure (r / 3)

/-- `br_klong_pinunu`.  /repo/flavio/physics/kdecays/kpinunu.py:60-64. -/
noncomputable def brLong (d : Inp) (np : String → ℂ) (nu1 nu2 : String) : Except PyErr ℝ := do
  let k ← kappaTilde d "long"
  let r ← pyDiv ((amplitude d np nu1 nu2).im ^ 2 * k) (‖d.V 0 1‖ ^ 2)
  pure (r / 3)

/-- The list `f`.  /repo/flavio/physics/kdecays/kpinunu.py:68. -/
def nus : List String := ["nue", "numu", "nutau"]

/-- The double comprehension over `f`.  /repo/flavio/physics/kdecays/kpinunu.py:69. -/
def pairs : List (String × String) := nus.flatMap (fun a => nus.map (fun b => (a, b)))

/-- `sum` of a list of results.  /repo/flavio/physics/kdecays/kpinunu.py:69-70. -/
noncomputable def sumAll (f : String → String → Except PyErr ℝ) : Except PyErr ℝ := do
  let l ← pairs.mapM (fun p => f p.1 p.2)
  pure l.sum

/-- `br_kplus_pinunu_summed`.  /repo/flavio/physics/kdecays/kpinunu.py:66-70. -/
noncomputable def brPlusSummed (d : Inp) (np : String → ℂ) : Except PyErr ℝ := sumAll (brPlus d np)

/-- `br_klong_pinunu_summed`.  /repo/flavio/physics/kdecays/kpinunu.py:72-76. -/
noncomputable def brLongSummed (d : Inp) (np : String → ℂ) : Except PyErr ℝ := sumAll (brLong d np)

end Verif.Kpinunu
