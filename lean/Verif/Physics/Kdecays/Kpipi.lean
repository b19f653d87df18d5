import Verif.Physics.Kdecays.Kll
/-!
# `K → ππ` and `ε'/ε` (`flavio/physics/kdecays/kpipi.py`, `wilsoncoefficients_sm_fourquark` of `flavio/physics/kdecays/wilsoncoefficients.py`)

Parameters are a total function of their names; the CKM matrix, the running strange-quark mass and the Wilson coefficients returned by `get_wc`
are inputs; the two parameters of the isospin are `Iso.I0`, `Iso.I2` (the dictionary keys 0 and 2). Division by zero is an error (for the
numpy numbers of the CKM matrix: `nan` with a warning).
-/
set_option linter.unusedVariables false
namespace Verif.Kpipi
open Verif.Py Verif.Running Verif.Ckm Complex
local notation "conj" => starRingEnd ℂ

/-- The keys 0 and 2 of the dictionaries.  /repo/flavio/physics/kdecays/kpipi.py:37. -/
inductive Iso | I0 | I2
  deriving DecidableEq

/-- What the predictions read: parameters, CKM matrix, strange-quark mass, the scale `kpipi` of the configuration.
/repo/flavio/physics/kdecays/kpipi.py:105-110. -/
structure Inp where
  par : String → ℝ
  V : Mat
  ms : ℝ
  scale : ℝ

/-- `Kpipi_matrixelements_SM`; the operator index is 1 to 10.  /repo/flavio/physics/kdecays/kpipi.py:13-37. -/
noncomputable def meSM (d : Inp) : Iso → ℕ → ℝ
  | .I0, 3 => d.par "Kpipi M0 3"
  | .I0, 4 => d.par "Kpipi M0 4"
  | .I0, 5 => d.par "Kpipi M0 5"
  | .I0, 6 => d.par "Kpipi M0 6"
  | .I0, 7 => d.par "Kpipi M0 7"
  | .I0, 8 => d.par "Kpipi M0 8"
  | .I0, 9 => d.par "Kpipi M0 9"
  | .I0, 1 => 1 / 3 * (d.par "Kpipi M0 3" + 2 * d.par "Kpipi M0 9")
  | .I0, 2 => 1 / 3 * (-2 * d.par "Kpipi M0 3" + 3 * d.par "Kpipi M0 4" + 2 * d.par "Kpipi M0 9")
  | .I0, 10 => -d.par "Kpipi M0 3" + d.par "Kpipi M0 4" + d.par "Kpipi M0 9"
  | .I2, 7 => d.par "Kpipi M2 7"
  | .I2, 8 => d.par "Kpipi M2 8"
  | .I2, 9 => d.par "Kpipi M2 9"
  | .I2, 1 => 2 / 3 * d.par "Kpipi M2 9"
  | .I2, 2 => 2 / 3 * d.par "Kpipi M2 9"
  | .I2, 10 => d.par "Kpipi M2 9"
  | _, _ => 0

/-- The first loop: matrix elements given by the SM ones for both isospins, and the scalar and tensor `d` operators.
/repo/flavio/physics/kdecays/kpipi.py:53-62. -/
noncomputable def meBase (d : Inp) (i : Iso) : List (String × ℝ) :=
  [("CVLL_sduu", meSM d i 1 / 4), ("CVLLt_sduu", meSM d i 2 / 4),
   ("CVLR_sduu", (meSM d i 5 / 3 + 2 * meSM d i 7 / 3) / 4), ("CVLRt_sduu", (meSM d i 6 / 3 + 2 * meSM d i 8 / 3) / 4),
   ("CVLL_sddd", (2 * meSM d i 3 / 3 - 2 * meSM d i 9 / 3) / 4), ("CVLR_sddd", (2 * meSM d i 5 / 3 - 2 * meSM d i 7 / 3) / 4),
   ("CSRL_sddd", (meSM d i 6 / 3 - meSM d i 8 / 3) / 4),
   ("CSRR_sddd", match i with | .I0 => d.par "Kpipi M0 SLL2_d" | .I2 => d.par "Kpipi M2 SLL2_d"),
   ("CTRR_sddd", match i with
      | .I0 => -8 * d.par "Kpipi M0 SLL1_d" - 4 * d.par "Kpipi M0 SLL2_d"
      | .I2 => -8 * d.par "Kpipi M2 SLL1_d" - 4 * d.par "Kpipi M2 SLL2_d")]

/-- `M[i][k]`. (Used for `meUp`, /repo/flavio/physics/kdecays/kpipi.py:64-80.) -/
noncomputable def val (l : List (String × ℝ)) (k : String) : ℝ := (Dict.get? l k).getD 0

/-- The second and third loop: for isospin 2 the isospin and Fierz relations, for isospin 0 further parameters.
/repo/flavio/physics/kdecays/kpipi.py:63-79. -/
noncomputable def meUp (d : Inp) : Iso → List (String × ℝ)
  | .I2 =>
    let M := val (meBase d .I2)
    [("CSRL_sduu", -M "CSRL_sddd"), ("CSRR_sduu", -M "CSRR_sddd"), ("CTRR_sduu", -M "CTRR_sddd"),
     ("CSRLt_sduu", 1 / 2 * M "CVLR_sddd"), ("CSRRt_sduu", -(-1 / 2 * M "CSRR_sddd" - 1 / 8 * M "CTRR_sddd")),
     ("CTRRt_sduu", -(-6 * M "CSRR_sddd" + 1 / 2 * M "CTRR_sddd")), ("C8_sd", 0)]
  | .I0 =>
    [("CSRL_sduu", d.par "Kpipi M0 SLR2_u"), ("CSRLt_sduu", d.par "Kpipi M0 SLR1_u"), ("CSRR_sduu", d.par "Kpipi M0 SLL2_u"),
     ("CSRRt_sduu", d.par "Kpipi M0 SLL1_u"), ("CTRR_sduu", -d.par "Kpipi M0 SLL4_u"), ("CTRRt_sduu", -d.par "Kpipi M0 SLL3_u"),
     ("C8_sd", -d.ms * d.par "Kpipi M0 g-" / 2)]

/-- Pairs of an operator and the operator it is the parity image of, in the order of the last loop.
/repo/flavio/physics/kdecays/kpipi.py:80-96. -/
def mirrors : List (String × String) :=
  [("CVRR_sduu", "CVLL_sduu"), ("CVRRt_sduu", "CVLLt_sduu"), ("CVRR_sddd", "CVLL_sddd"), ("CVRL_sduu", "CVLR_sduu"),
   ("CVRLt_sduu", "CVLRt_sduu"), ("CVRL_sddd", "CVLR_sddd"), ("CSLR_sduu", "CSRL_sduu"), ("CSLRt_sduu", "CSRLt_sduu"),
   ("CSLR_sddd", "CSRL_sddd"), ("CSLL_sduu", "CSRR_sduu"), ("CSLLt_sduu", "CSRRt_sduu"), ("CSLL_sddd", "CSRR_sddd"),
   ("CTLL_sduu", "CTRR_sduu"), ("CTLLt_sduu", "CTRRt_sduu"), ("CTLL_sddd", "CTRR_sddd"), ("C8p_sd", "C8_sd")]

/-- `Kpipi_matrixelements_NP`.  /repo/flavio/physics/kdecays/kpipi.py:40-97. -/
noncomputable def meNP (d : Inp) (i : Iso) : List (String × ℝ) :=
  let M := meBase d i ++ meUp d i
  M ++ mirrors.map (fun p => (p.1, -val M p.2))

/-- The table `_yz`, one row per coefficient.  /repo/flavio/physics/kdecays/wilsoncoefficients.py:10-19. -/
noncomputable def yz : List (String × (ℝ × ℝ × ℝ)) :=
  [("z1", (-0.4036, -0.4092, -0.4150)), ("z2", (1.2084, 1.2120, 1.2157)), ("y3", (0.0275, 0.0280, 0.0285)), ("y4", (-0.0555, -0.0563, -0.0571)),
   ("y5", (0.0054, 0.0052, 0.0050)), ("y6", (-0.0849, -0.0867, -0.0887)), ("y7/al", (-0.0404, -0.0403, -0.0402)), ("y8/al", (0.1207, 0.1234, 0.1261)),
   ("y9/al", (-1.3936, -1.3981, -1.4027)), ("y10/al", (0.4997, 0.5071, 0.5146))]

/-- `scipy.interpolate.interp1d(…, fill_value="extrapolate")` with the three knots.  /repo/flavio/physics/kdecays/wilsoncoefficients.py:22. -/
noncomputable def interp (y : ℝ × ℝ × ℝ) (x : ℝ) : ℝ :=
  if x ≤ 0.1185 then (y.2.1 - y.1) / (0.1185 - 0.1179) * (x - 0.1179) + y.1
  else (y.2.2 - y.2.1) / (0.1191 - 0.1185) * (x - 0.1185) + y.2.1

/-- Name and divisor of a coefficient after the renaming loop.  /repo/flavio/physics/kdecays/wilsoncoefficients.py:36-37. -/
noncomputable def rename : List (String × (String × ℝ)) :=
  [("y7/al", ("y7", 128)), ("y8/al", ("y8", 128)), ("y9/al", ("y9", 128)), ("y10/al", ("y10", 128))]

/-- One entry after the renaming. (Used for `wcFourquark`, /repo/flavio/physics/kdecays/wilsoncoefficients.py:36-37.) -/
noncomputable def renamed (e : String × ℝ) : String × ℝ :=
  match Dict.get? rename e.1 with
  | some r => (r.1, e.2 / r.2)
  | none => e

/-- `wilsoncoefficients_sm_fourquark` (the renamed entries are moved to the end of the dictionary, where they are already).
/repo/flavio/physics/kdecays/wilsoncoefficients.py:25-38. -/
noncomputable def wcFourquark (alphaS scale : ℝ) : Except PyErr (Dict String ℝ) :=
  if scale ≠ 1.3 then .error .valueError
  else .ok ((yz.map (fun r => (r.1, interp r.2 alphaS))).map renamed)

/-- `wc.get('y{}'.format(j), 0)` and `wc.get('z{}'.format(j), 0)`.  /repo/flavio/physics/kdecays/kpipi.py:120-121. -/
noncomputable def coef (wc : Dict String ℝ) (x : String) (j : ℕ) : ℝ := (Dict.get? wc (x ++ toString j)).getD 0

/-- The list `k` of operators.  /repo/flavio/physics/kdecays/kpipi.py:111-115. -/
def opsK (vma vpa : Bool) : List ℕ := [1, 2] ++ (if vma then [3, 4, 9, 10] else []) ++ (if vpa then [5, 6, 7, 8] else [])

/-- The CKM factor `ckm.xi(q, 'ds')`.  /repo/flavio/physics/kdecays/kpipi.py:106, 110, 134. -/
noncomputable def xiDS (d : Inp) (q : Fin 3) : ℂ := xiKlIj d.V q q 0 1

/-- The contribution of one operator.  /repo/flavio/physics/kdecays/kpipi.py:119-125. -/
noncomputable def dA (d : Inp) (wc : Dict String ℝ) (tau : ℂ) (sc : Bool) (i : Iso) (j : ℕ) : Except PyErr ℂ := do
  let pref := ((d.par "GF" / Real.sqrt 2 : ℝ) : ℂ) * xiDS d 0
  let x := pref * (meSM d i j : ℂ) * ((coef wc "z" j : ℂ) + tau * (coef wc "y" j : ℂ))
  if sc ∧ i = .I0 ∧ j ∈ [7, 8, 9, 10] then do
    let a ← pyDiv 1 (d.par "epsp a")
    let b ← pyDiv a (1 - d.par "Omegahat_eff")
    pure ((x.re : ℂ) + I * b * x.im)
  else pure x

/-- `Kpipi_amplitudes_SM` for one isospin.  /repo/flavio/physics/kdecays/kpipi.py:100-127. -/
noncomputable def ampSM (d : Inp) (vma vpa sc : Bool) (i : Iso) : Except PyErr ℂ := do
  let wc ← wcFourquark (d.par "alpha_s") d.scale
  let tau ← Kll.cDiv (-xiDS d 2) (xiDS d 0)
  let l ← (opsK vma vpa).mapM (fun j => dA d wc tau sc i j)
  pure l.sum

/-- `Kpipi_amplitudes_NP` for one isospin.  /repo/flavio/physics/kdecays/kpipi.py:130-141. -/
noncomputable def ampNP (d : Inp) (wc : String → ℂ) (i : Iso) : ℂ :=
  ((meNP d i).map (fun e => -(((4 * d.par "GF" / Real.sqrt 2 : ℝ) : ℂ) * xiDS d 2) * (e.2 : ℂ) * conj (wc e.1))).sum

/-- `epsprime_SM`.  /repo/flavio/physics/kdecays/kpipi.py:143-156. -/
noncomputable def epsSM (d : Inp) : Except PyErr ℝ := do
  let A0 ← ampSM d true true false .I0
  let A2 ← ampSM d true true false .I2
  let p ← pyDiv (-d.par "omega+") (Real.sqrt 2 * d.par "eps_K")
  let r0 ← pyDiv A0.im (d.par "ReA0(K->pipi)")
  let ia ← pyDiv 1 (d.par "epsp a")
  let r2 ← pyDiv (ia * A2.im) (d.par "ReA2(K->pipi)")
  pure (p * (r0 * (1 - d.par "Omegahat_eff") - r2))

/-- `epsprime_NP`.  /repo/flavio/physics/kdecays/kpipi.py:159-171. -/
noncomputable def epsNP (d : Inp) (wc : String → ℂ) : Except PyErr ℝ := do
  let q ← pyDiv (-d.par "omega+") (d.par "epsp a")
  let p ← pyDiv q (Real.sqrt 2 * d.par "eps_K")
  let r0 ← pyDiv (ampNP d wc .I0).im (d.par "ReA0(K->pipi)")
  let r2 ← pyDiv (ampNP d wc .I2).im (d.par "ReA2(K->pipi)")
  pure (p * (r0 - r2))

/-- `epsprime`.  /repo/flavio/physics/kdecays/kpipi.py:173-176. -/
noncomputable def eps (d : Inp) (wc : String → ℂ) : Except PyErr ℝ := do
  let a ← epsSM d
  let b ← epsNP d wc
  pure (a + b)

end Verif.Kpipi
