import Verif.Physics.Inclusive.XlnuTheorems
import Verif.Physics.FormFactors.Hqet
import Verif.Physics.Kdecays.KllTheorems
/-!
# Four-quark matrix elements (`flavio/physics/bdecays/matrixelements.py`)

Real inputs (`q²`, masses, scale; scale and masses are positive or, for a quark mass, zero).  The tabulated functions `F_17`, `F_27`
and the tabulated `s F_19`, `s F_29` (`scipy` interpolations of data files) are inputs.  `cmath.log(0)` raises `ValueError`.
`SeidelB` is an input (`Env.seidelB`); caching and citations are not modelled.
-/
set_option linter.unusedVariables false
namespace Verif.MatrixElements
open Verif.Py Verif Verif.Running Verif.FormFactors Complex

/-- `cmath.log` of a real argument. (Specification.) -/
noncomputable def cLog (x : ℝ) : Except PyErr ℂ := if x = 0 then .error .valueError else .ok (Complex.log (x : ℂ))

/-- `h`: the massless branch.  /repo/flavio/physics/bdecays/matrixelements.py:18-19. -/
noncomputable def h0 (s mu : ℝ) : ℂ := 8/27 + (4*I*Real.pi)/9 + (8*Complex.log mu)/9 - (4*Complex.log s)/9

/-- `h`: the branch `s = 0`.  /repo/flavio/physics/bdecays/matrixelements.py:20-21. -/
noncomputable def hs0 (mq mu : ℝ) : ℂ := -4/9 * (1 + Complex.log ((mq^2/mu^2 : ℝ) : ℂ))

/-- `h`: the general branch.  /repo/flavio/physics/bdecays/matrixelements.py:22-28. -/
noncomputable def hgen (s mq mu : ℝ) : ℂ :=
  let z : ℝ := 4 * mq^2/s
  let A : ℂ := if 1 < z then ((Real.arctan (1/Real.sqrt (z-1)) : ℝ) : ℂ)
    else Complex.log ((1 + Xlnu.csqrt ((1-z : ℝ) : ℂ))/Xlnu.csqrt (z : ℂ)) - I*Real.pi/2;
  -4/9 * Complex.log ((mq^2/mu^2 : ℝ) : ℂ) + 8/27 + 4/9*(z : ℂ) - 4/9*(2 + z) * ((Real.sqrt |z - 1| : ℝ) : ℂ) * A

open Classical in
/-- `h`.  /repo/flavio/physics/bdecays/matrixelements.py:16-28. -/
noncomputable def h (s mq mu : ℝ) : Except PyErr ℂ :=
  if mq = 0 then (if s = 0 then .error .valueError else .ok (h0 s mu))
  else if s = 0 then .ok (hs0 mq mu)
  else .ok (hgen s mq mu)

/-- Coefficients `C1 … C6`, `C8eff` of the transition. (Specification.) -/
structure Wc where
  c1 : ℂ
  c2 : ℂ
  c3 : ℂ
  c4 : ℂ
  c5 : ℂ
  c6 : ℂ
  c8 : ℂ

/-- `Y`.  /repo/flavio/physics/bdecays/matrixelements.py:30-45. -/
noncomputable def Y (q2 : ℝ) (w : Wc) (mb mc scale : ℝ) : Except PyErr ℂ := do
  let fc := 4/3*w.c1 + w.c2 + 6*w.c3 + 60*w.c5
  let fb := 7*w.c3 + 4/3*w.c4 + 76*w.c5 + 64/3*w.c6
  let fu := w.c3 + 4/3*w.c4 + 16*w.c5 + 64/3*w.c6
  let f4 := 4/3*w.c3 + 64/9*w.c5 + 64/27*w.c6
  let hc ← h q2 mc scale
  let hb ← h q2 mb scale
  let hu ← h q2 0 scale
  pure (hc*fc - 1/2*hb*fb - 1/2*hu*fu + f4)

/-- `Yu`.  /repo/flavio/physics/bdecays/matrixelements.py:47-52. -/
noncomputable def Yu (q2 : ℝ) (w : Wc) (mc scale : ℝ) : Except PyErr ℂ := do
  let hc ← h q2 mc scale
  let hu ← h q2 0 scale
  pure ((4/3*w.c1 + w.c2)*(hc - hu))

/-- `F_89`.  /repo/flavio/physics/bdecays/matrixelements.py:125-135. -/
noncomputable def F89 (ls : ℂ) (sh : ℝ) : ℂ :=
  104/9 - 32/27*Real.pi^2 + (1184/27 - 40/9*Real.pi^2)*sh + (14212/135 - 32/3*Real.pi^2)*sh^2 + (193444/945 - 560/27*Real.pi^2)*sh^3
    + 16/9*ls*(1 + sh + sh^2 + sh^3)

open Classical in
/-- `F_87`.  /repo/flavio/physics/bdecays/matrixelements.py:137-148. -/
noncomputable def F87 (lmu : ℂ) (sh : ℝ) : ℂ :=
  if sh = 0 then (-4*(33 + 24*lmu + 6*I*Real.pi - 2*Real.pi^2))/27
  else -32/9*lmu + 8/27*Real.pi^2 - 44/9 - 8/9*I*Real.pi + (4/3*Real.pi^2 - 40/3)*sh + (32/9*Real.pi^2 - 316/9)*sh^2
    + (200/27*Real.pi^2 - 658/9)*sh^3 - 8/9*Complex.log sh*(sh + sh^2 + sh^3)

/-- `acot` for real arguments.  /repo/flavio/physics/bdecays/matrixelements.py:155-156. -/
noncomputable def acot (x : ℝ) : ℝ := Real.pi/2 - Real.arctan x

/-- `SeidelA` for `q² ≥ 0` (`0 < sh < 1`, so that all logarithms and roots are real).
/repo/flavio/physics/bdecays/matrixelements.py:158-174. -/
noncomputable def seidelGen (sh mb mu : ℝ) : ℂ :=
  let z := 4/sh
  let r := Real.sqrt (z - 1)
  ((-104/243*Real.log (mb^2/mu^2) + 4*sh/(27*(1 - sh))*(li2 sh + Real.log sh*Real.log (1 - sh))
    + 1/(729*(1 - sh)^2)*(6*sh*(29 - 47*sh)*Real.log sh + 785 - 1600*sh + 833*sh^2)
    - 2/(243*(1 - sh)^3)*(2*r*(-4 + 9*sh - 15*sh^2 + 4*sh^3)*acot r + 9*sh^3*Real.log sh^2)
    + 2*sh/(243*(1 - sh)^4)*(36*acot r^2 + Real.pi^2*(-4 + 9*sh - 9*sh^2 + 3*sh^3)) : ℝ) : ℂ)
  + I*((1/(729*(1 - sh)^2)*(6*Real.pi*(20 - 49*sh + 47*sh^2)) - 2/(243*(1 - sh)^3)*(18*Real.pi*sh*(1 - 2*sh)*Real.log sh) : ℝ) : ℂ)

open Classical in
/-- `SeidelA`.  /repo/flavio/physics/bdecays/matrixelements.py:158-174. -/
noncomputable def seidelA (q2 mb mu : ℝ) : ℂ :=
  if q2 = 0 then 1/729*(833 + 120*I*Real.pi - 312*(Real.log (mb^2/mu^2) : ℂ))
  else seidelGen (min (q2/mb^2) 0.999) mb mu

/-- Riemann's zeta function at 3.  /repo/flavio/math/functions.py:8-10. -/
noncomputable def zeta3 : ℝ := ∑' n : ℕ, 1/((n:ℝ) + 1)^3

/-- `SeidelC` (for `q² = 0` the logarithm raises).  /repo/flavio/physics/bdecays/matrixelements.py:205-210. -/
noncomputable def seidelC (q2 mu : ℝ) : Except PyErr ℂ := do
  let l ← cLog (q2/mu^2)
  pure (-16/81*l + 428/243 - 64/27*zeta3 + 16/81*Real.pi*I)

/-- The functions and numbers that `delta_C7`, `delta_C9` read from other modules, the data files, and `SeidelB`.
/repo/flavio/physics/bdecays/matrixelements.py:58-122,176-203,225-234,244-253. -/
structure Env where
  alphas : ℝ
  mb : ℝ
  /-- pole mass -/
  mc : ℝ
  /-- `par['m_c BVgamma']` -/
  mcBVgamma : ℝ
  xit : ℂ
  xiu : ℂ
  f17 : ℝ → ℝ → ℝ → ℂ
  f27 : ℝ → ℝ → ℝ → ℂ
  /-- tabulated `s F_19`, `s F_29` -/
  sf19 : ℝ → ℝ → ℝ → ℂ
  sf29 : ℝ → ℝ → ℝ → ℂ
  seidelB : ℝ → ℝ → ℝ → ℂ

open Classical in
/-- `F_19`.  /repo/flavio/physics/bdecays/matrixelements.py:84-96. -/
noncomputable def Env.f19 (E : Env) (muh z sh : ℝ) : ℂ := if sh = 0 then 0 else E.sf19 muh z sh/sh
open Classical in
/-- `F_29`.  /repo/flavio/physics/bdecays/matrixelements.py:110-122. -/
noncomputable def Env.f29 (E : Env) (muh z sh : ℝ) : ℂ := if sh = 0 then 0 else E.sf29 muh z sh/sh

/-- `Fu_17`.  /repo/flavio/physics/bdecays/matrixelements.py:212-213. -/
noncomputable def fu17 (q2 mb mu : ℝ) : ℂ := -seidelA q2 mb mu
/-- `Fu_27`.  /repo/flavio/physics/bdecays/matrixelements.py:215-216. -/
noncomputable def fu27 (q2 mb mu : ℝ) : ℂ := -(-6*seidelA q2 mb mu)
/-- `Fu_19`.  /repo/flavio/physics/bdecays/matrixelements.py:218-219. -/
noncomputable def fu19 (E : Env) (q2 mb mu : ℝ) : Except PyErr ℂ := do
  let c ← seidelC q2 mu
  pure (-(E.seidelB q2 mb mu + 4*c))
/-- `Fu_29`.  /repo/flavio/physics/bdecays/matrixelements.py:221-222. -/
noncomputable def fu29 (E : Env) (q2 mb mu : ℝ) : Except PyErr ℂ := do
  let c ← seidelC q2 mu
  pure (-(-6*E.seidelB q2 mb mu + 3*c))

/-- `delta_C7`.  /repo/flavio/physics/bdecays/matrixelements.py:225-242. -/
noncomputable def deltaC7 (E : Env) (w : Wc) (q2 scale : ℝ) : ℂ :=
  let muh := scale/E.mb
  let sh := q2/E.mb^2
  let z := E.mcBVgamma^2/E.mb^2
  let lmu := Complex.log ((scale/E.mb : ℝ) : ℂ)
  let tmp := w.c1*E.f17 muh z sh + w.c2*E.f27 muh z sh
  let dt := w.c8*F87 lmu sh + tmp
  let du := tmp + w.c1*fu17 q2 E.mb scale + w.c2*fu27 q2 E.mb scale;
  -(E.alphas/(4*Real.pi))*(dt - E.xiu/E.xit*du)

/-- `delta_C9`.  /repo/flavio/physics/bdecays/matrixelements.py:244-262. -/
noncomputable def deltaC9 (E : Env) (w : Wc) (q2 scale : ℝ) : Except PyErr ℂ := do
  let muh := scale/E.mb
  let sh := q2/E.mb^2
  let z := E.mc^2/E.mb^2
  let ls ← cLog sh
  let tmp := w.c1*E.f19 muh z sh + w.c2*E.f29 muh z sh
  let dt := w.c8*F89 ls sh + tmp
  let a ← fu19 E q2 E.mb scale
  let b ← fu29 E q2 E.mb scale
  let du := tmp + w.c1*a + w.c2*b
  pure (-(E.alphas/(4*Real.pi))*(dt - E.xiu/E.xit*du))

end Verif.MatrixElements
