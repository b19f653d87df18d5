import Verif.Physics.Bdecays.Bll
/-!
# `K⁰ → ℓ₁⁺ ℓ₂⁻` (`flavio/physics/kdecays/kll.py`) and the semi-leptonic SM coefficients
(`wilsoncoefficients_sm_sl` of `flavio/physics/kdecays/wilsoncoefficients.py`)

Parameters are a total function of their names (a missing name is a `KeyError`, not modelled); the CKM matrix and the
Wilson coefficients returned by `get_wc` are inputs; division by zero is the `ZeroDivisionError` of Python floats.
-/
set_option linter.unusedVariables false
namespace Verif.Kll
open Verif.Py Verif.Running Verif.Bll Verif.Common Verif.Ckm Complex

/-- What the predictions read: the parameter dictionary and the CKM matrix.  /repo/flavio/physics/kdecays/kll.py:88-98. -/
structure Inp where
  par : String → ℝ
  V : Mat

/-- `ckm.xi('t', 'sd')(par)`.  /repo/flavio/physics/kdecays/kll.py:36. -/
noncomputable def xiT (d : Inp) : ℂ := xiKlIj d.V 2 2 1 0

/-- `ckm.xi('c', 'sd')(par)`.  /repo/flavio/physics/kdecays/kll.py:80. -/
noncomputable def xiC (d : Inp) : ℂ := xiKlIj d.V 1 1 1 0

/-- `wc_dict['C10_t']` (`x ** 1.53` of a non-negative float).  /repo/flavio/physics/kdecays/wilsoncoefficients.py:51. -/
noncomputable def c10t (d : Inp) : ℝ := -4.10 * (d.par "m_t" / 173.1) ^ (1.53 : ℝ)

/-- `wc_dict['C10_c']`.  /repo/flavio/physics/kdecays/wilsoncoefficients.py:52-55. -/
noncomputable def c10c (d : Inp) : Except PyErr ℝ := do
  let r ← pyDiv (-0.115) (d.par "s2w")
  pure (r * ‖d.V 0 1‖ ^ 4)

/-- Division of complex numbers. (Used for `getWc`, /repo/flavio/physics/kdecays/kll.py:81.) -/
noncomputable def cDiv (a b : ℂ) : Except PyErr ℂ := if b = 0 then .error .zeroDivisionError else .ok (a / b)

/-- `get_wc`: the SM part of `C10` is added for equal flavours; `np` are the coefficients without prefix of the quark
flavours.  /repo/flavio/physics/kdecays/kll.py:72-85. -/
noncomputable def getWc (d : Inp) (np : String → ℂ) (l1 l2 : String) : Except PyErr (String → ℂ) :=
  if l1 = l2 then do
    let cc ← c10c d
    let r ← cDiv (xiC d) (xiT d)
    pure (Function.update np ("C10_sd" ++ l1 ++ l2) ((c10t d : ℂ) + r * (cc : ℂ) + np ("C10_sd" ++ l1 ++ l2)))
  else pure np

/-- `amplitudes`.  /repo/flavio/physics/kdecays/kll.py:12-37. -/
noncomputable def amplitudes (d : Inp) (wc : String → ℂ) (l1 l2 : String) : Except PyErr (ℂ × ℂ) := do
  let ml1 := d.par ("m_" ++ l1)
  let ml2 := d.par ("m_" ++ l2)
  let mK := d.par "m_K0"
  let qqll := "sd" ++ l1 ++ l2
  let C9m := wc ("C9_" ++ qqll) - wc ("C9p_" ++ qqll)
  let C10m := wc ("C10_" ++ qqll) - wc ("C10p_" ++ qqll)
  let CPm := wc ("CP_" ++ qqll) - wc ("CPp_" ++ qqll)
  let CSm := wc ("CS_" ++ qqll) - wc ("CSp_" ++ qqll)
  let rp ← pyDiv (ml2 + ml1) mK
  let rm ← pyDiv (ml2 - ml1) mK
  pure (xiT d * (rp * C10m + mK * CPm), xiT d * (rm * C9m + mK * CSm))

/-- `amplitudes_LD`: the pair `(S, P)`.  /repo/flavio/physics/kdecays/kll.py:40-53. -/
noncomputable def amplitudesLD (d : Inp) (K l : String) : Except PyErr (ℂ × ℂ) := do
  let r ← pyDiv (2 * d.par ("m_" ++ l)) (d.par ("m_" ++ K))
  let pre ← pyDiv r (d.par "s2w")
  let AS : ℂ := 2.49e-4 * (-2.821 + 1.216 * I)
  let AL : ℂ := 2.02e-4 * ((d.par "chi_disp(KL->gammagamma)" : ℂ) - 5.21 * I)
  pure (pre * AS, -pre * AL)

/-- The long-distance part used by `amplitudes_eff`.  /repo/flavio/physics/kdecays/kll.py:58-62. -/
noncomputable def ldPart (d : Inp) (K l1 l2 : String) (ld : Bool) : Except PyErr (ℂ × ℂ) :=
  if l1 ≠ l2 ∨ ld = false then .ok (0, 0) else amplitudesLD d K l1

/-- `amplitudes_eff`: the pair `(Peff, Seff)`; both branches are plain `if`s, and without either the names are
unbound.  /repo/flavio/physics/kdecays/kll.py:55-69. -/
noncomputable def amplitudesEff (d : Inp) (wc : String → ℂ) (K l1 l2 : String) (ld : Bool) : Except PyErr (ℂ × ℂ) := do
  let PS ← amplitudes d wc l1 l2
  let L ← ldPart d K l1 l2 ld
  if K = "KL" then pure ((PS.1.re : ℂ) + L.2, (PS.2.im : ℂ))
  else if K = "KS" ∧ l1 = l2 then pure ((PS.1.im : ℂ), (PS.2.re : ℂ) + L.1)
  else .error .unboundLocalError

/-- `br_kll`.  /repo/flavio/physics/kdecays/kll.py:88-106. -/
noncomputable def brKll (d : Inp) (np : String → ℂ) (K l1 l2 : String) (ld : Bool) : Except PyErr ℝ := do
  let wc ← getWc d np l1 l2
  let ml1 := d.par ("m_" ++ l1)
  let ml2 := d.par ("m_" ++ l2)
  let mK := d.par "m_K0"
  let N := 4 * d.par "GF" / Real.sqrt 2 * d.par "alpha_e" / (4 * Real.pi)
  let sl ← pySqrt (lambdaK (mK ^ 2) (ml1 ^ 2) (ml2 ^ 2))
  let beta ← pyDiv sl (mK ^ 2)
  let rp ← pyDiv ((ml1 + ml2) ^ 2) (mK ^ 2)
  let bp ← pySqrt (1 - rp)
  let rm ← pyDiv ((ml1 - ml2) ^ 2) (mK ^ 2)
  let bm ← pySqrt (1 - rm)
  let pre := 2 * |N| ^ 2 / 32 / Real.pi * mK ^ 3 * d.par ("tau_" ++ K) * beta * d.par "f_K0" ^ 2
  let A ← amplitudesEff d wc K l1 l2 ld
  pure (pre * (bm ^ 2 * ‖A.1‖ ^ 2 + bp ^ 2 * ‖A.2‖ ^ 2))

/-- The prediction for one lepton combination, `br_kll_fct`.  /repo/flavio/physics/kdecays/kll.py:110-113. -/
noncomputable def predOne (d : Inp) (np : String → ℂ) (K l1 l2 : String) : Except PyErr ℝ := brKll d np K l1 l2 true

/-- The prediction summed over the two charge assignments, `br_kll_fct_lsum`.  /repo/flavio/physics/kdecays/kll.py:115-118. -/
noncomputable def predSum (d : Inp) (np : String → ℂ) (K l1 l2 : String) : Except PyErr ℝ := do
  let a ← brKll d np K l1 l2 true
  let b ← brKll d np K l2 l1 true
  pure (a + b)

/-- The observables registered with the meson and leptons of their prediction function; `true` means the sum over both charge
assignments.  /repo/flavio/physics/kdecays/kll.py:124-147. -/
def registry : List (String × (String × String × String × Bool)) :=
  [("BR(KL->ee)", ("KL", "e", "e", false)), ("BR(KS->ee)", ("KS", "e", "e", false)),
   ("BR(KL->mumu)", ("KL", "mu", "mu", false)), ("BR(KS->mumu)", ("KS", "mu", "mu", false)),
   ("BR(KL->emu,mue)", ("KL", "e", "mu", true)), ("BR(KS->emu,mue)", ("KS", "e", "mu", true))]

/-- Prediction of a registered observable.  /repo/flavio/physics/kdecays/kll.py:124-147. -/
noncomputable def predict (d : Inp) (np : String → ℂ) (r : String × String × String × Bool) : Except PyErr ℝ :=
  if r.2.2.2 then predSum d np r.1 r.2.1 r.2.2.1 else predOne d np r.1 r.2.1 r.2.2.1

end Verif.Kll
