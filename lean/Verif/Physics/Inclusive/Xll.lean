import Verif.Physics.Inclusive.XllQed
import Verif.Physics.Kdecays.KllTheorems
/-!
# B → X_q ℓℓ (`flavio/physics/bdecays/bxll.py`)

The quark-level inputs (pole masses, couplings at the `bxll` scale, CKM factors, the dictionary of total Wilson coefficients
per lepton, the four-quark matrix elements `Y`, `Yu`, `delta_C7`, `delta_C9` as functions of q²) are fields of `Env`;
everything that `bxll.py` computes from them is modelled.  Divisions by `mb`, `C_BXlnu`, `|Vcb|` and `f_u` are those of the
reals (the `ZeroDivisionError` for a vanishing input is not represented); warnings and citations are not modelled.
-/
set_option linter.unusedVariables false
namespace Verif.Xll
open Verif.Py Verif Verif.Running Verif.FormFactors Verif.BxllQed Complex

/-- Everything the functions read through `par`, the configuration and other modules, for one quark flavour.
/repo/flavio/physics/bdecays/bxll.py:13-32,34-50. -/
structure Env where
  /-- `par['m_'+lep]` -/
  mass : String → ℝ
  mb : ℝ
  mc : ℝ
  alphas : ℝ
  alphae : ℝ
  /-- the renormalisation scale `bxll` -/
  scale : ℝ
  /-- `par['alpha_s']` -/
  alphas0 : ℝ
  /-- the MSbar mass at the scale -/
  mbMS : ℝ
  xit : ℂ
  xiu : ℂ
  vcb : ℂ
  cBXlnu : ℝ
  brSL : ℝ
  l1 : ℝ
  l2 : ℝ
  /-- `par['delta_…']` -/
  delta : String → ℝ
  /-- `wctot_dict` in the sector of the lepton -/
  wc : String → String → ℂ
  /-- `Y`, `Yu`, `delta_C7`, `delta_C9` of `matrixelements`, for the lepton's dictionary, as functions of q² -/
  y : String → ℝ → ℂ
  yu : String → ℝ → ℂ
  dC7 : String → ℝ → ℂ
  dC9 : String → ℝ → ℂ

/-- `bxll_br_prefactor`.  /repo/flavio/physics/bdecays/bxll.py:24-32. -/
noncomputable def prefactor (E : Env) : ℝ :=
  E.alphae^2/4/Real.pi^2 / E.mb^2 * E.brSL/E.cBXlnu * ‖E.xit‖^2/‖E.vcb‖^2

/-- `sigma`.  /repo/flavio/physics/bdecays/bxll.py:228-229. -/
noncomputable def sigma (s : ℝ) : Except PyErr ℝ := do
  let l ← pyLog s
  let l1 ← pyLog (1 - s)
  pure (-4/3 * li2 s - 2/3 * l * l1 - 2/9 * Real.pi^2 - l1 - 2/9 * (1-s) * l1)

/-- `sigma9`.  /repo/flavio/physics/bdecays/bxll.py:224-225. -/
noncomputable def sigma9 (s : ℝ) : Except PyErr ℝ := do
  let x ← sigma s
  pure (x + 3/2)

/-- `sigma7` (the scale and the mass are positive).  /repo/flavio/physics/bdecays/bxll.py:226-227. -/
noncomputable def sigma7 (s scale mb : ℝ) : Except PyErr ℝ := do
  let x ← sigma s
  pure (x + 1/6 - 8/3 * Real.log (scale/mb))

/-- `tau77`.  /repo/flavio/physics/bdecays/bxll.py:230-231. -/
noncomputable def tau77 (s : ℝ) : ℝ :=
  - 2/(9 * (2+s)) * (2 * (1-s)^2 * Real.log (1-s) + (6 * s * (2-2 * s-s^2))/((1-s)^2) * Real.log s + (11-7 * s-10 * s^2)/(1-s))

/-- `tau99`.  /repo/flavio/physics/bdecays/bxll.py:232-233. -/
noncomputable def tau99 (s : ℝ) : ℝ :=
  -4/(9 * (1+2 * s)) * (2 * (1-s)^2 * Real.log (1-s) + (3 * s * (1+s) * (1-2 * s))/((1-s)^2) * Real.log s + (3 * (1-3 * s^2))/(1-s))

/-- `tau79`.  /repo/flavio/physics/bdecays/bxll.py:234-235. -/
noncomputable def tau79 (s : ℝ) : ℝ :=
  - (4 * (1-s)^2)/(9 * s) * Real.log (1-s) - (4 * s * (3-2 * s))/(9 * (1-s)^2) * Real.log s - (2 * (5-3 * s))/(9 * (1-s))

/-- `f7`.  /repo/flavio/physics/bdecays/bxll.py:240-241. -/
noncomputable def f7 (s : ℝ) : ℝ :=
  1/(6 * (s-1)^2) * (24 * (1+13*s -4*s^2) * li2 (Real.sqrt s) + 12 * (1-17*s+6*s^2) * li2 s + 6*s * (6-7*s) * Real.log s
    + 24 * (1-s)^2*Real.log s * Real.log (1-s) + 12 * (-13+16*s-3*s^2) * (Real.log (1 - Real.sqrt s) - Real.log (1-s))
    + 39 - 2*Real.pi^2 + 252*s - 26*Real.pi^2*s + 21*s^2 + 8*Real.pi^2*s^2 - 180 * Real.sqrt s - 132*s * Real.sqrt s)

/-- `f9`.  /repo/flavio/physics/bdecays/bxll.py:242-243. -/
noncomputable def f9 (s : ℝ) : ℝ :=
  -1/(6 * (s-1)^2) * (48 * s * (-5 + 2*s) * li2 (Real.sqrt s) + 24 * (-1+7*s-3*s^2) * li2 s + 6*s * (-6+7*s) * Real.log s
    - 24 * (1-s)^2 * Real.log s * Real.log (1-s) + 24 * (5-7*s+2*s^2) * (Real.log (1 - Real.sqrt s) - Real.log (1-s))
    - 21 - 156*s + 20*Real.pi^2*s + 9*s^2 - 8*Real.pi^2*s^2 + 120 * Real.sqrt s + 48*s * Real.sqrt s)

/-- `tau710`: the second term is a Python division.  /repo/flavio/physics/bdecays/bxll.py:236-237. -/
noncomputable def tau710 (s : ℝ) : Except PyErr ℝ := do
  let p ← pyDiv 1 (3 * (1-3*s))
  pure (-5/2 + p - 1/3 * (s * (6-7 * s) * Real.log s)/((1-s)^2) - 1/9 * ((3-7 * s + 4 * s^2) * Real.log (1-s))/s + (f7 s)/3)

/-- `tau910`.  /repo/flavio/physics/bdecays/bxll.py:238-239. -/
noncomputable def tau910 (s : ℝ) : ℝ :=
  -5/2 + 1/(3 * (1-s)) - 1/3 * (s * (6-7*s) * Real.log s)/((1-s)^2) - 2/9 * ((3-5 * s + 2 * s^2) * Real.log (1-s))/s + (f9 s)/3

/-- The keys `7 7p v vp a ap s sp p pp` of `wc_eff`.  /repo/flavio/physics/bdecays/bxll.py:53-66. -/
structure WcEff where
  c7 : ℂ
  c7p : ℂ
  v : ℂ
  vp : ℂ
  a : ℂ
  ap : ℂ
  s : ℂ
  sp : ℂ
  p : ℂ
  pp : ℂ

/-- `inclusive_wc`, the entry `wc_eff`.  /repo/flavio/physics/bdecays/bxll.py:34-67. -/
noncomputable def inclusiveWc (E : Env) (q2 : ℝ) (q lep : String) : Except PyErr WcEff := do
  let w := E.wc lep
  let yq2 := E.y lep q2 + (E.xiu/E.xit) * E.yu lep q2
  let s7 ← sigma7 (q2/E.mb^2) E.scale E.mb
  let b7 : ℝ := 1 + E.alphas/Real.pi * s7
  let s9 ← sigma9 (q2/E.mb^2)
  let b9 : ℝ := 1 + E.alphas/Real.pi * s9
  let ll := lep ++ lep
  pure { c7 := w ("C7eff_b" ++ q) * b7 + E.dC7 lep q2
         c7p := w ("C7effp_b" ++ q) * b7
         v := w ("C9_b" ++ q ++ ll) * b9 + E.dC9 lep q2 + yq2
         vp := w ("C9p_b" ++ q ++ ll) * b9
         a := w ("C10_b" ++ q ++ ll) * b9
         ap := w ("C10p_b" ++ q ++ ll) * b9
         s := E.mbMS * w ("CS_b" ++ q ++ ll)
         sp := E.mbMS * w ("CSp_b" ++ q ++ ll)
         p := E.mbMS * w ("CP_b" ++ q ++ ll)
         pp := E.mbMS * w ("CPp_b" ++ q ++ ll) }

/-- Real part of `x * y.conjugate()`. (Specification.) -/
noncomputable def reC (x y : ℂ) : ℝ := (x * (starRingEnd ℂ) y).re

/-- `f_ll`.  /repo/flavio/physics/bdecays/bxll.py:189-202. -/
noncomputable def fll (sh mlh alphas : ℝ) (c7 c9 c10 cs cp : ℂ) : ℝ :=
  (1-sh)^2 * Real.sqrt (1-4*mlh^2/sh) * (
    4*‖c7‖^2*(1+2/sh) * (1+2*mlh^2/sh) * (1 + alphas/Real.pi * tau77 sh)
    + 12*reC c7 c9 * (1+2*mlh^2/sh) * (1 + alphas/Real.pi * tau79 sh)
    + (‖c9‖^2 + ‖c10‖^2) * (1 + 2*sh + 2*mlh^2*(1-sh)/sh) * (1 + alphas/Real.pi * tau99 sh)
    + 3/2 * sh * ((1-4*mlh^2/sh) * ‖cs‖^2 + ‖cp‖^2)
    + 6*mlh^2 * (‖c9‖^2 - ‖c10‖^2)
    + 6 * mlh * reC cp c10)

/-- `f_ll_ha`.  /repo/flavio/physics/bdecays/bxll.py:204-221. -/
noncomputable def fllHa (sh mlh alphas : ℝ) (w : WcEff) : Except PyErr ℝ := do
  let t9 := tau910 sh
  let t7 ← tau710 sh
  pure (-4*(1-sh)^2 * (sh*reC w.v w.a * (1 + alphas/Real.pi * t9) + 2*reC w.c7 w.a * (1 + alphas/Real.pi * t7)
    - sh*reC w.vp w.ap * (1 + alphas/Real.pi * t9) - 2*reC w.c7p w.ap * (1 + alphas/Real.pi * t7)))

/-- Assignment `m[i, j] = v`. (Specification.) -/
def upd (m : ℕ → ℕ → ℂ) (i j : ℕ) (v : ℂ) : ℕ → ℕ → ℂ := fun a b => if a = i ∧ b = j then v else m a b

/-- The array `wc1_10` with a leading zero.  /repo/flavio/physics/bdecays/bxll.py:248-249,282-283. -/
def wcVec (w : String → ℂ) (q lep : String) (i : ℕ) : ℂ :=
  let bq := "b" ++ q
  let bqll := bq ++ lep ++ lep
  (([0] : List ℂ) ++ ["C1_" ++ bq, "C2_" ++ bq, "C3_" ++ bq, "C4_" ++ bq, "C5_" ++ bq, "C6_" ++ bq, "C7eff_" ++ bq,
    "C8eff_" ++ bq, "C9_" ++ bqll, "C10_" ++ bqll].map w).getD i 0

/-- `np.dot(wc, np.dot(m, wc.conj()))` for 11 × 11 arrays. (Specification.) -/
noncomputable def dot (v : ℕ → ℂ) (m : ℕ → ℕ → ℂ) : ℂ :=
  ∑ i ∈ Finset.range 11, v i * ∑ j ∈ Finset.range 11, m i j * (starRingEnd ℂ) (v j)

/-- `np.zeros`. (Specification.) -/
def zeros : ℕ → ℕ → ℂ := fun _ _ => 0

/-- `Phill_pc_mb2`.  /repo/flavio/physics/bdecays/bxll.py:245-275. -/
noncomputable def phiPc (I : String) (sh l1 l2 mb : ℝ) (w : String → ℂ) (q lep : String) : Except PyErr ℝ := do
  let v := wcVec w q lep
  let r (x : ℝ) : ℂ := x
  let (chi1, chi2) ← (
    if I = "T" then
      .ok (upd (upd (upd zeros 7 7 (r (4/(3*sh) * (1-sh) * (5 * sh+3)))) 7 9 (r (4 * (1-sh)^2))) 9 9 (r (-sh/3 * (1-sh) * (3 * sh+5))),
        upd (upd (upd zeros 7 7 (r (4/sh * (3 * sh^2+2 * sh-9)))) 7 9 (r (4 * (9 * sh^2-6 * sh-7)))) 9 9 (r (sh * (15 * sh^2-14 * sh-5))))
    else if I = "L" then
      .ok (upd (upd (upd zeros 7 7 (r (2/3 * (sh-1) * (3 * sh+13)))) 7 9 (r (2 * (1-sh)^2))) 9 9 (r (1/6 * (1-sh) * (13 * sh+3))),
        upd (upd (upd zeros 7 7 (r (2 * (15 * sh^2-6 * sh-13)))) 7 9 (r (2 * (3 * sh^2-6 * sh-1)))) 9 9 (r (1/2 * (-17 * sh^2+10 * sh+3))))
    else if I = "A" then
      .ok (upd (upd zeros 7 10 (r (-4/3 * (3 * sh^2+2 * sh+3)))) 9 10 (r (-2/3 * sh * (3 * sh^2+2 * sh+3))),
        upd (upd zeros 7 10 (r (-4 * (9 * sh^2-10 * sh-7)))) 9 10 (r (-2 * sh * (15 * sh^2-14 * sh-9))))
    else .error .valueError : Except PyErr ((ℕ → ℕ → ℂ) × (ℕ → ℕ → ℂ)))
  pure (((l1/mb^2 : ℝ) * dot v chi1 + (l2/mb^2 : ℝ) * dot v chi2 : ℂ).re)

/-- `sigmaij_I` and the kinematical prefactors.  /repo/flavio/physics/bdecays/bxll.py:314-354. -/
noncomputable def sigmaij (I : String) (i j : ℕ) (sh : ℝ) : Except PyErr ℝ :=
  if I = "T" ∧ i = 7 ∧ j = 7 then .ok (8*(1-sh)^2/sh)
  else if I = "T" ∧ i = 7 ∧ j = 9 then .ok (8*(1-sh)^2)
  else if I = "T" ∧ i = 9 ∧ j = 9 then .ok (2*sh*(1-sh)^2)
  else if I = "L" ∧ i = 7 ∧ j = 7 then .ok (4*(1-sh)^2)
  else if I = "L" ∧ i = 7 ∧ j = 9 then .ok (4*(1-sh)^2)
  else if I = "L" ∧ i = 9 ∧ j = 9 then .ok ((1-sh)^2)
  else if I = "BR" ∧ i = 7 ∧ j = 7 then .ok (4*(1-sh)^2 + 8*(1-sh)^2/sh)
  else if I = "BR" ∧ i = 7 ∧ j = 9 then .ok (4*(1-sh)^2 + 8*(1-sh)^2)
  else if I = "BR" ∧ i = 9 ∧ j = 9 then .ok ((1-sh)^2 + 2*sh*(1-sh)^2)
  else if I = "A" ∧ i = 7 ∧ j = 10 then .ok (-8*(1-sh)^2)
  else if I = "A" ∧ i = 9 ∧ j = 10 then .ok (-4*sh*(1-sh)^2)
  else .error .valueError

/-- The array `e` of `Phill_logqed`, filled in the order of the code: `e[1,7]` is computed before `e[2,7]` is set.
/repo/flavio/physics/bdecays/bxll.py:277-311. -/
noncomputable def qedMatrix (I : String) (sh mb ml alphas alphae scale mc : ℝ) : Except PyErr (ℕ → ℕ → ℂ) := do
  let ast := alphas/(4*Real.pi)
  let k := alphae/alphas
  let term (si sj wi wj : ℕ) : Except PyErr ℂ := do
    let s ← sigmaij I si sj sh
    let w ← wem I wi wj sh mb ml scale mc
    pure (((8 * ast * k * s : ℝ) : ℂ) * w)
  if I = "T" ∨ I = "L" ∨ I = "BR" then do
    let e := upd zeros 7 7 (← term 7 7 7 7)
    let e := upd e 7 9 (← term 7 9 7 9)
    let e := upd e 9 9 (← term 9 9 9 9)
    let e := upd e 2 9 (← term 9 9 2 9)
    let e := upd e 2 2 (← term 9 9 2 2)
    let e := upd e 1 1 (16/9 * e 2 2)
    let e := upd e 10 10 (e 9 9)
    let e := upd e 1 2 (8/3 * e 2 2)
    let e := upd e 1 7 (4/3 * e 2 7)
    let e := upd e 1 9 (4/3 * e 2 9)
    pure (upd e 2 7 (← term 7 9 2 7))
  else if I = "A" then do
    let e := upd zeros 7 10 (← term 7 10 7 10)
    let e := upd e 9 10 (← term 9 10 9 10)
    let e := upd e 2 10 (← term 9 10 2 10)
    pure (upd e 1 10 (4/3 * e 2 10))
  else .error .valueError

/-- `Phill_logqed`.  /repo/flavio/physics/bdecays/bxll.py:277-311. -/
noncomputable def phiQed (I : String) (sh mb ml alphas alphae : ℝ) (w : String → ℂ) (q lep : String) (mc scale : ℝ) :
    Except PyErr ℝ := do
  let e ← qedMatrix I sh mb ml alphas alphae scale mc
  pure (dot (wcVec w q lep) e).re

/-- `_bxll_dbrdq2_unnorm`.  /repo/flavio/physics/bdecays/bxll.py:69-91. -/
noncomputable def unnorm (E : Env) (q2 : ℝ) (q lep : String) (qed pc : Bool) : Except PyErr ℝ := do
  let ml := E.mass lep
  if q2 < 4*ml^2 ∨ q2 > E.mb^2 then pure 0
  else do
    let w ← inclusiveWc E q2 q lep
    let sh := q2/E.mb^2
    let mlh := ml/E.mb
    let phi := fll sh mlh E.alphas w.c7 w.v w.a w.s w.p
    let phi := phi + fll sh mlh E.alphas w.c7p w.vp w.ap w.sp w.pp
    let x ← if qed then phiQed "BR" sh E.mb ml E.alphas E.alphae (E.wc lep) q lep E.mc E.scale else pure 0
    let phi := phi + x
    if pc then do
      let x ← phiPc "L" sh E.l1 E.l2 E.mb (E.wc lep) q lep
      let phi := phi + x
      let x ← phiPc "T" sh E.l1 E.l2 E.mb (E.wc lep) q lep
      pure (phi + x)
    else pure phi

/-- `f_u`.  /repo/flavio/physics/bdecays/bxll.py:356-371. -/
noncomputable def fu (alphae alphas alphas0 mb l1 l2 : ℝ) : ℝ :=
  let ast := alphas/4/Real.pi
  let k := alphae/alphas
  let eta := alphas0/alphas
  let phi1 := 50/3 - 8*Real.pi^2/3
  1 + ast * phi1 + k*(12/23*(1-1/eta)) + l1/(2*mb^2) - 9*l2/(2*mb^2)

/-- The fudge factor.  /repo/flavio/physics/bdecays/bxll.py:102-109,141-148. -/
noncomputable def unc (E : Env) (q2 : ℝ) (q lep : String) : ℝ :=
  if q2 < 12 then
    if lep = "tau" then 1 else 1 + E.delta ("delta_BX" ++ q ++ lep ++ lep ++ " low")
  else 1 + E.delta ("delta_BX" ++ q ++ lep ++ lep ++ " high")

/-- `_bxll_dbrdq2`.  /repo/flavio/physics/bdecays/bxll.py:93-110. -/
noncomputable def dbr1 (E : Env) (q2 : ℝ) (q lep : String) (qed pc : Bool) : Except PyErr ℝ := do
  if q2 < 4*(E.mass lep)^2 ∨ q2 > E.mb^2 then pure 0
  else do
    let phi ← unnorm E q2 q lep qed pc
    pure (prefactor E * phi / fu E.alphae E.alphas E.alphas0 E.mb E.l1 E.l2 * unc E q2 q lep)

/-- `bxll_dbrdq2`.  /repo/flavio/physics/bdecays/bxll.py:112-121. -/
noncomputable def dbrdq2 (E : Env) (q2 : ℝ) (q lep : String) : Except PyErr ℝ := do
  if lep = "l" then do
    let a ← dbr1 E q2 q "e" true true
    let b ← dbr1 E q2 q "mu" true true
    pure ((a + b)/2)
  else dbr1 E q2 q lep true true

/-- `_bxll_afb_num`.  /repo/flavio/physics/bdecays/bxll.py:123-149. -/
noncomputable def afbNum1 (E : Env) (q2 : ℝ) (q lep : String) (qed pc : Bool) : Except PyErr ℝ := do
  let ml := E.mass lep
  if q2 < 4*ml^2 ∨ q2 > E.mb^2 then pure 0
  else do
    let w ← inclusiveWc E q2 q lep
    let sh := q2/E.mb^2
    let mlh := ml/E.mb
    let phi ← fllHa sh mlh E.alphas w
    let x ← if qed ∧ q2 < 14 then phiQed "A" sh E.mb ml E.alphas E.alphae (E.wc lep) q lep E.mc E.scale else pure 0
    let phi := phi + x
    let x ← if pc then phiPc "A" sh E.l1 E.l2 E.mb (E.wc lep) q lep else pure 0
    let phi := phi + x
    pure (3/4 * phi * unc E q2 q lep)

/-- `bxll_afb_num`.  /repo/flavio/physics/bdecays/bxll.py:151-160. -/
noncomputable def afbNum (E : Env) (q2 : ℝ) (q lep : String) (qed pc : Bool) : Except PyErr ℝ := do
  if lep = "l" then do
    let a ← afbNum1 E q2 q "e" qed pc
    let b ← afbNum1 E q2 q "mu" qed pc
    pure ((a + b)/2)
  else afbNum1 E q2 q lep qed pc

open Classical in
/-- `bxll_afb_den`; `qed` is the value of the keyword `include_qed` (default `True`).
/repo/flavio/physics/bdecays/bxll.py:162-179. -/
noncomputable def afbDen (E : Env) (q2 : ℝ) (q lep : String) (qed pc : Bool) : Except PyErr ℝ := do
  let qed' := if q2 > 14 then false else qed
  if lep = "l" then do
    let a ← unnorm E q2 q "e" qed' pc
    let b ← unnorm E q2 q "mu" qed' pc
    pure ((a + b)/2)
  else unnorm E q2 q lep qed' pc

open Classical in
/-- `bxll_afb`.  /repo/flavio/physics/bdecays/bxll.py:181-187. -/
noncomputable def afb (E : Env) (q2 : ℝ) (q lep : String) (qed pc : Bool) : Except PyErr ℝ := do
  let num ← afbNum E q2 q lep qed pc
  let den ← afbDen E q2 q lep qed pc
  if den = 0 then pure 0 else pure (num/den)

/-- `nintegrate` on a function that may raise.  /repo/flavio/math/integrate.py:15-19. -/
abbrev Quad := (ℝ → Except PyErr ℝ) → ℝ → ℝ → Except PyErr ℝ

/-- `bxll_br_int`, `bxll_br_int_func`.  /repo/flavio/physics/bdecays/bxll.py:375-383. -/
noncomputable def brInt (quad : Quad) (E : Env) (q lep : String) (q2min q2max : ℝ) : Except PyErr ℝ :=
  quad (fun q2 => dbrdq2 E q2 q lep) q2min q2max

open Classical in
/-- `bxll_br_int_ratio_func`.  /repo/flavio/physics/bdecays/bxll.py:385-392. -/
noncomputable def brRatio (quad : Quad) (E : Env) (q lnum lden : String) (q2min q2max : ℝ) : Except PyErr ℝ := do
  let num ← brInt quad E q lnum q2min q2max
  if num = 0 then pure 0
  else do
    let den ← brInt quad E q lden q2min q2max
    pyDiv num den

open Classical in
/-- `bxll_afb_int_func`.  /repo/flavio/physics/bdecays/bxll.py:399-417. -/
noncomputable def afbInt (quad : Quad) (E : Env) (q lep : String) (q2min q2max : ℝ) : Except PyErr ℝ := do
  let num ← quad (fun q2 => afbNum E q2 q lep true true) q2min q2max
  if num = 0 then pure 0
  else do
    let den ← quad (fun q2 => afbDen E q2 q lep true true) q2min q2max
    pyDiv num den

/-- What an observable computes. (Specification.) -/
inductive Kind
  /-- `bxll_br_int_func(q, l)` -/
  | brBin (q l : String)
  /-- `bxll_dbrdq2_func(q, l)` -/
  | br (q l : String)
  /-- `bxll_afb_int_func(q, l)` -/
  | afbBin (q l : String)
  /-- `bxll_afb_func(q, l)` -/
  | afb (q l : String)
  /-- `bxll_br_int_ratio_func(q, l1, l2)` -/
  | ratio (q l1 l2 : String)
deriving DecidableEq

/-- The names, arguments and functions registered at import.  /repo/flavio/physics/bdecays/bxll.py:427-481. -/
def registry : List (String × List String × Kind) :=
  (["e", "mu", "tau", "l"].flatMap fun l => ["s", "d"].flatMap fun q =>
    [("<BR>(B->X" ++ q ++ l ++ l ++ ")", ["q2min", "q2max"], Kind.brBin q l),
     ("dBR/dq2(B->X" ++ q ++ l ++ l ++ ")", ["q2"], Kind.br q l)]
    ++ (if l ≠ "tau" then
      [("<AFB>(B->X" ++ q ++ l ++ l ++ ")", ["q2min", "q2max"], Kind.afbBin q l),
       ("AFB(B->X" ++ q ++ l ++ l ++ ")", ["q2"], Kind.afb q l)] else []))
  ++ ([("mu", "e"), ("tau", "mu")].flatMap fun l => ["s", "d"].map fun q =>
    ("<R" ++ l.1 ++ l.2 ++ ">(B->X" ++ q ++ "ll)", ["q2min", "q2max"], Kind.ratio q l.1 l.2))

end Verif.Xll
