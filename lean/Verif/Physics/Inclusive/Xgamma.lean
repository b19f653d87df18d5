import Verif.Physics.Running
import Mathlib.Analysis.Complex.Basic
import Mathlib.Algebra.BigOperators.Fin
/-!
# Inclusive radiative decays B → X_q γ (`flavio/physics/bdecays/bxgamma.py`)

Inputs: `at = α_s/4π` at the scale `bxgamma`, the coefficients `wctot_dict(…)` of the two transitions, and the CKM
combinations; `abs`, `.conj()` and the matrix products are those of complex numbers.
-/
set_option linter.unusedVariables false
namespace Verif.Xgamma
open Verif.Py Verif.Running Complex

/-- `ka1_r`.  /repo/flavio/physics/bdecays/bxgamma.py:12-19. -/
noncomputable def ka1r : Fin 8 → Fin 8 → ℝ := ![
    ![0.00289054, -0.0173432, -0.000837297, 0.00013955, -0.0158512, -0.101529, 0.0913267, -0.00166875],
    ![-0.0173432, 0.104059, 0.00502378, -0.000837297, 0.0951075, 0.609174, -0.54796, 0.0100125],
    ![-0.000837297, 0.00502378, 0.028828, -0.00480467, 0.318696, -0.0282896, 8.32249, -0.0187533],
    ![0.00013955, -0.000837297, -0.00480467, 0.000800779, -0.053116, 0.00471493, -1.61065, 0.00312556],
    ![-0.0158512, 0.0951075, 0.318696, -0.053116, 3.54919, -0.0840081, 122.732, -0.258893],
    ![-0.101529, 0.609174, -0.0282896, 0.00471493, -0.0840081, 1.80697, 19.5562, 0.108369],
    ![0.0913267, -0.54796, 8.32249, -1.61065, 122.732, 19.5562, 5.61819, -0.50728],
    ![-0.00166875, 0.0100125, -0.0187533, 0.00312556, -0.258893, 0.108369, -0.50728, 0.452362]]

/-- `ka2_r`.  /repo/flavio/physics/bdecays/bxgamma.py:20-24. -/
noncomputable def ka2r : Fin 8 → Fin 8 → ℝ := ![
    ![0.114381, -0.686288, 0, 0, 0, 0, 9.11217, 0.215745],
    ![-0.686288, 4.11773, 0, 0, 0, 0, -8.85918, -1.29447],
    ![0, 0, 0, 0, 0, 0, 0, 0],
    ![0, 0, 0, 0, 0, 0, 0, 0],
    ![0, 0, 0, 0, 0, 0, 0, 0],
    ![0, 0, 0, 0, 0, 0, 0, 0],
    ![9.11217, -8.85918, 0, 0, 0, 0, -37.3173, -13.4112],
    ![0.215745, -1.29447, 0, 0, 0, 0, -13.4112, 22.3184]]

/-- `ka1_i`.  /repo/flavio/physics/bdecays/bxgamma.py:28-35. -/
noncomputable def ka1i : Fin 8 → Fin 8 → ℝ := ![
    ![0, 0, -0.007562956672, 0.001260492779, -0.09028834311, 0.0163641251, 0.1092317551, 0.006116280995],
    ![0, 0, 0.04537774003, -0.007562956672, 0.5417300587, -0.0981847506, -0.6553905309, -0.03669768597],
    ![0.007562956672, -0.04537774003, 0, 0, 0, 0.2722664402, 1.085982646, 0],
    ![-0.001260492779, 0.007562956672, 0, 0, 0, -0.04537774003, -1.221446177, 0],
    ![0.09028834311, -0.5417300587, 0, 0, 0, 3.250380352, 17.37572233, 0],
    ![-0.0163641251, 0.0981847506, -0.2722664402, 0.04537774003, -3.250380352, 0, -16.57524067, -0.2201548215],
    ![-0.1092317551, 0.6553905309, -1.085982646, 1.221446177, -17.37572233, 16.57524067, 0, 2.792526803],
    ![-0.006116280995, 0.03669768597, 0, 0, 0, 0.2201548215, -2.792526803, 0]]

/-- `np.dot(v, np.dot(K, v.conj()))`.  /repo/flavio/physics/bdecays/bxgamma.py:77-80, :101-102. -/
noncomputable def quad (K : Fin 8 → Fin 8 → ℝ) (v : Fin 8 → ℂ) : ℂ := ∑ i, v i * ∑ j, (K i j : ℂ) * (starRingEnd ℂ) (v j)

/-- `coeffs`, read from the dictionary.  /repo/flavio/physics/bdecays/bxgamma.py:73, :75. -/
def vec (wc : String → ℂ) (bq : String) : Fin 8 → ℂ :=
  ![wc ("C1_" ++ bq), wc ("C2_" ++ bq), wc ("C3_" ++ bq), wc ("C4_" ++ bq), wc ("C5_" ++ bq), wc ("C6_" ++ bq), wc ("C7eff_" ++ bq), wc ("C8eff_" ++ bq)]
/-- `coeffs_p`.  /repo/flavio/physics/bdecays/bxgamma.py:74, :76. -/
def vecP (wc : String → ℂ) (bq : String) : Fin 8 → ℂ :=
  ![wc ("C1p_" ++ bq), wc ("C2p_" ++ bq), wc ("C3p_" ++ bq), wc ("C4p_" ++ bq), wc ("C5p_" ++ bq), wc ("C6p_" ++ bq), wc ("C7effp_" ++ bq), wc ("C8effp_" ++ bq)]

/-- `PE0_BR_BXgamma` (`a` is `α_s/4π`, `ru` the ratio of CKM factors).  /repo/flavio/physics/bdecays/bxgamma.py:61-85. -/
noncomputable def peBR (a : ℝ) (wc : String → ℂ) (ru : ℂ) (q : String) (E0 : ℝ) : Except PyErr ℝ :=
  let bq := "b" ++ q
  if E0 ≠ 1.6 then .error .valueError
  else
    let P0 := ‖wc ("C7eff_" ++ bq)‖ ^ 2 + ‖wc ("C7effp_" ++ bq)‖ ^ 2
    let P1 := a * (quad ka1r (vec wc bq)).re
    let P1p := a * (quad ka1r (vecP wc bq)).re
    let P2 := a ^ 2 * (quad ka2r (vec wc bq)).re
    let P2p := a ^ 2 * (quad ka2r (vecP wc bq)).re
    let Prest := P1 + P2 + P1p + P2p
    let PVub := -0.0296854 * ru.re + 0.123411 * ‖ru‖ ^ 2
    .ok (P0 + Prest + PVub)

/-- `PE0_ACP_BXgamma`.  /repo/flavio/physics/bdecays/bxgamma.py:87-105. -/
noncomputable def peACP (a : ℝ) (wc : String → ℂ) (ru : ℂ) (q : String) (E0 : ℝ) : Except PyErr ℝ :=
  let bq := "b" ++ q
  if E0 ≠ 1.6 then .error .valueError
  else
    let P1 := a * (quad ka1i (vec wc bq)).im
    let P1p := a * (quad ka1i (vecP wc bq)).im
    let PVub := 0.0596211 * ru.im
    .ok (P1 + P1p + PVub)

/-- What the observables read: coefficients per transition, CKM factors `ξ_t`, `ξ_u` per transition, `V_cb`, parameters.
/repo/flavio/physics/bdecays/bxgamma.py:44-52, :107-121. -/
structure Inp where
  a : ℝ
  par : String → ℝ
  wc : String → String → ℂ
  xit : String → ℂ
  xiu : String → ℂ
  Vcb : ℂ

/-- `xi('u',bq)/xi('t',bq)`. /repo/flavio/physics/bdecays/bxgamma.py:82, :103. -/
noncomputable def Inp.ru (d : Inp) (q : String) : ℂ := d.xiu ("b" ++ q) / d.xit ("b" ++ q)

/-- `BRBXgamma` (the quotients are numpy ones; a vanishing `V_cb` or `C_BXlnu` gives inf/nan there and is not represented
here: Lean's quotient is then 0).  /repo/flavio/physics/bdecays/bxgamma.py:37-59. -/
noncomputable def br (d : Inp) (q : String) (E0 : ℝ) : Except PyErr ℝ := do
  let alphaem : ℝ := 1 / 137.035999139
  let PE0 ← peBR d.a (d.wc ("b" ++ q)) (d.ru q) q E0
  let Punc := 0.1249 * d.par ("delta_BX" ++ q ++ "gamma")
  let Pnon : ℝ := 0.00381745
  pure (d.par "BR(B->Xcenu)_exp" * ‖d.xit ("b" ++ q)‖ ^ 2 / ‖d.Vcb‖ ^ 2 * 6 * alphaem / Real.pi / d.par "C_BXlnu" * (PE0 + Pnon + Punc))

/-- `ACPBXgamma` (the final quotient is a numpy one: no exception).  /repo/flavio/physics/bdecays/bxgamma.py:107-121. -/
noncomputable def acp (d : Inp) (E0 : ℝ) : Except PyErr ℝ := do
  let pd ← peBR d.a (d.wc "bd") (d.ru "d") "d" E0
  let ps ← peBR d.a (d.wc "bs") (d.ru "s") "s" E0
  let ad ← peACP d.a (d.wc "bd") (d.ru "d") "d" E0
  let as ← peACP d.a (d.wc "bs") (d.ru "s") "s" E0
  let brd := ‖d.xit "bd"‖ ^ 2 * pd
  let brs := ‖d.xit "bs"‖ ^ 2 * ps
  let asd := ‖d.xit "bd"‖ ^ 2 * ad
  let ass := ‖d.xit "bs"‖ ^ 2 * as
  pure ((ass + asd) / (brs + brd))

/-- Registered observables.  /repo/flavio/physics/bdecays/bxgamma.py:125-142. -/
noncomputable def registry (d : Inp) : List (String × Except PyErr ℝ) :=
  [("BR(B->Xsgamma)", br d "s" 1.6), ("BR(B->Xdgamma)", br d "d" 1.6), ("ACP(B->Xgamma)", acp d 1.6)]

end Verif.Xgamma
