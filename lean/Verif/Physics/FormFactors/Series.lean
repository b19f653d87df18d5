import Verif.Physics.FormFactors.Z
/-!
# Series parametrisations of form factors
(`flavio/physics/bdecays/formfactors/b_p/{bcl,bcl_lmvd,bsz}.py`, `b_v/{bsz,sse}.py`, `lambdab_12/sse.py`,
`flavio/physics/ddecays/formfactors/{bcl,bsz}.py`)

The parameter dictionary is a partial function from names to real numbers; reading a missing name raises `KeyError`.
Writes to it (`b_v/bsz.py`, `lambdab_12/sse.py`) are modelled by returning the updated dictionary.  Citations are not modelled.
-/
set_option linter.unusedVariables false
set_option linter.unusedSimpArgs false
namespace Verif.FormFactors
open Verif.Py Verif.Running Verif.Bll Verif.Angular

/-- The parameter dictionary `par`.  /repo/flavio/physics/bdecays/formfactors/b_p/bcl.py:36-48. -/
abbrev Par := String → Option ℝ

/-- `par[k]`.  /repo/flavio/physics/bdecays/formfactors/b_p/bcl.py:44. -/
def Par.get (par : Par) (k : String) : Except PyErr ℝ :=
  match par k with
  | some v => .ok v
  | none => .error .keyError

/-- `par[k] = v`.  /repo/flavio/physics/bdecays/formfactors/b_v/bsz.py:53-54. -/
def Par.put (par : Par) (k : String) (v : ℝ) : Par := fun k' => if k' = k then some v else par k'

/-- `[ par[pre + str(j) + '_' + i] for j in l ]`.  /repo/flavio/physics/bdecays/formfactors/b_p/bcl.py:52. -/
def coeffs (par : Par) (pre i : String) : List ℕ → Except PyErr (List ℝ)
  | [] => .ok []
  | j :: l => do
    let v ← par.get (pre ++ toString j ++ "_" ++ i)
    let r ← coeffs par pre i l
    return v :: r

/-- `pole`: a resonance mass of zero means no pole (`None` cannot occur as a parameter value).
/repo/flavio/physics/bdecays/formfactors/b_p/bcl.py:7-10, b_p/bcl_lmvd.py:5-8, b_p/bsz.py:8-11. -/
noncomputable def pole (mres q2 : ℝ) : Except PyErr ℝ :=
  if mres = 0 then .ok 1 else pyDiv 1 (1 - q2 / mres ^ 2)

/-- `param_fplusT`.  /repo/flavio/physics/bdecays/formfactors/b_p/bcl.py:22-26. -/
noncomputable def paramFplusT (mB mP : ℝ) (a : List ℝ) (q2 : ℝ) (t0 : T0) : Except PyErr ℝ := do
  let Z ← z mB mP q2 t0
  let n := a.length
  return ∑ k ∈ Finset.range n, a.getD k 0 * (Z ^ k - (-1:ℝ) ^ ((k:ℤ) - (n:ℤ)) * k / n * Z ^ n)

/-- `param_f0`.  /repo/flavio/physics/bdecays/formfactors/b_p/bcl.py:28-31. -/
noncomputable def paramF0 (mB mP : ℝ) (a : List ℝ) (q2 : ℝ) (t0 : T0) : Except PyErr ℝ := do
  let Z ← z mB mP q2 t0
  return ∑ k ∈ Finset.range a.length, a.getD k 0 * Z ^ k

/-- `process_dict` of the BCL and BSZ parametrisations: the mesons of a transition.
/repo/flavio/physics/bdecays/formfactors/b_p/bcl.py:15-19, b_p/bsz.py:17-21. -/
def processP : String → Except PyErr (String × String)
  | "B->K" => .ok ("B0", "K0")
  | "Bs->K" => .ok ("Bs", "K+")
  | "B->D" => .ok ("B+", "D0")
  | "B->pi" => .ok ("B+", "pi0")
  | _ => .error .keyError

/-- `process_dict` of the `D` decays.  /repo/flavio/physics/ddecays/formfactors/bcl.py:14-16. -/
def processD : String → Except PyErr (String × String)
  | "D->K" => .ok ("D0", "K+")
  | "D->pi" => .ok ("D0", "pi+")
  | _ => .error .keyError

/-- `t0 == 0`.  /repo/flavio/physics/bdecays/formfactors/b_p/bcl.py:53. -/
def T0.isZero : T0 → Prop
  | .num x => x = 0
  | _ => False

/-- The evaluation of the three form factors of BCL.  /repo/flavio/physics/bdecays/formfactors/b_p/bcl.py:65-68,
/repo/flavio/physics/ddecays/formfactors/bcl.py:42-45. -/
noncomputable def bclEval (chL mpl m0 mB mP : ℝ) (ap aT a0 : List ℝ) (q2 : ℝ) (t0 : T0) : Except PyErr FFP := do
  let p1 ← pole mpl q2
  let fp ← paramFplusT mB mP ap q2 t0
  let p2 ← pole mpl q2
  let fT ← paramFplusT mB mP aT q2 t0
  let p3 ← pole m0 q2
  let f0 ← paramF0 mB mP a0 q2 t0
  return ⟨chL * p1 * fp, chL * p3 * f0, chL * p2 * fT⟩

/-- The `n`-th coefficient of `f0` in `bcl.ff` of the `B` and the `D` decays.
/repo/flavio/physics/bdecays/formfactors/b_p/bcl.py:61-63, /repo/flavio/physics/ddecays/formfactors/bcl.py:38-40. -/
noncomputable def bclLast (mpl m0 mB mP : ℝ) (ap a0 : List ℝ) (n : ℕ) (t0 : T0) : Except PyErr ℝ := do
  let p1 ← pole mpl 0
  let fp ← paramFplusT mB mP ap 0 t0
  let p3 ← pole m0 0
  let f0 ← paramF0 mB mP a0 0 t0
  let Z ← z mB mP 0 t0
  pyDiv (p3 * f0 - p1 * fp) (Z ^ (n - 1))

open Classical in
/-- The `f0` coefficients in `bcl.ff`.  /repo/flavio/physics/bdecays/formfactors/b_p/bcl.py:53-64. -/
noncomputable def bclF0 (par : Par) (process : String) (mpl m0 mB mP : ℝ) (ap : List ℝ) (n : ℕ) (t0 : T0) :
    Except PyErr (List ℝ) :=
  if t0.isZero then do
    let r ← coeffs par (process ++ " BCL a") "f0" ((List.range n).drop 1)
    return ap.take 1 ++ r
  else do
    let r ← coeffs par (process ++ " BCL a") "f0" (List.range (n - 1))
    let l ← bclLast mpl m0 mB mP ap r n t0
    return r ++ [l]

/-- `bcl.ff` for `B` decays (`n ≥ 1`).  /repo/flavio/physics/bdecays/formfactors/b_p/bcl.py:33-69. -/
noncomputable def bclFF (process : String) (q2 : ℝ) (par : Par) (n : ℕ) (t0 : T0) : Except PyErr FFP := do
  let pd ← processP process
  let mpl ← par.get (process ++ " BCL m+")
  let m0 ← par.get (process ++ " BCL m0")
  let mB ← par.get ("m_" ++ pd.1)
  let mP ← par.get ("m_" ++ pd.2)
  let chL := (par (process ++ " BCL chL")).getD 1
  let ap ← coeffs par (process ++ " BCL a") "f+" (List.range n)
  let aT ← coeffs par (process ++ " BCL a") "fT" (List.range n)
  let a0 ← bclF0 par process mpl m0 mB mP ap n t0
  bclEval chL mpl m0 mB mP ap aT a0 q2 t0

/-- `bcl.ff` for `D` decays.  /repo/flavio/physics/ddecays/formfactors/bcl.py:19-46. -/
noncomputable def bclFFD (process : String) (q2 : ℝ) (par : Par) (n : ℕ) (t0 : T0) : Except PyErr FFP := do
  let pd ← processD process
  let mpl ← par.get (process ++ " BCL m+")
  let m0 ← par.get (process ++ " BCL m0")
  let mB ← par.get ("m_" ++ pd.1)
  let mP ← par.get ("m_" ++ pd.2)
  let ap ← coeffs par (process ++ " BCL a") "f+" (List.range n)
  let aT ← coeffs par (process ++ " BCL a") "fT" (List.range n)
  let r ← coeffs par (process ++ " BCL a") "f0" (List.range (n - 1))
  let l ← bclLast mpl m0 mB mP ap r n t0
  bclEval 1 mpl m0 mB mP ap aT (r ++ [l]) q2 t0

/-- The `n`-th coefficient of `f0` in `bcl.ff_isgurwise`.
/repo/flavio/physics/bdecays/formfactors/b_p/bcl.py:88-90. -/
noncomputable def bclLastIW (mpl m0 mB mP : ℝ) (ap a0 : List ℝ) (n : ℕ) (t0 : T0) : Except PyErr ℝ := do
  let p1 ← pole mpl 0
  let fp ← paramFplusT mB mP ap 0 t0
  let p3 ← pole m0 0
  let f0 ← paramF0 mB mP a0 0 t0
  let Z ← z mB mP 0 t0
  pyDiv (p1 * fp - p3 * f0) (Z ^ (n - 1))

/-- `bcl.ff_isgurwise` with `isgur_wise` (whose mass look-ups repeat successful ones).
/repo/flavio/physics/bdecays/formfactors/b_p/bcl.py:71-96, b_p/isgurwise.py:9-15. -/
noncomputable def bclFFIW (process : String) (q2 : ℝ) (par : Par) (n : ℕ) (t0 : T0) : Except PyErr FFP := do
  let pd ← processP process
  let mpl ← par.get (process ++ " BCL m+")
  let m0 ← par.get (process ++ " BCL m0")
  let mB ← par.get ("m_" ++ pd.1)
  let mP ← par.get ("m_" ++ pd.2)
  let ap ← coeffs par (process ++ " BCL a") "f+" (List.range n)
  let r ← coeffs par (process ++ " BCL a") "f0" (List.range (n - 1))
  let l ← bclLastIW mpl m0 mB mP ap r n t0
  let p1 ← pole mpl q2
  let fp ← paramFplusT mB mP ap q2 t0
  let p3 ← pole m0 q2
  let f0 ← paramF0 mB mP (r ++ [l]) q2 t0
  let aT ← par.get (process ++ " IW a_T")
  return ⟨p1 * fp, p3 * f0, p1 * fp * (1 + aT)⟩

/-- `param_fplusT` of LMVD (`b_i` non-empty).  /repo/flavio/physics/bdecays/formfactors/b_p/bcl_lmvd.py:17-23. -/
noncomputable def lmvdFplusT (mB mP : ℝ) (b : List ℝ) (q2 : ℝ) (t0 : T0) : Except PyErr ℝ := do
  let Z ← z mB mP q2 t0
  let Z0 ← z mB mP 0 t0
  let n := b.length
  return b.getD 0 0 * (1 + ∑ k ∈ Finset.Ico 1 n, b.getD k 0 *
    (Z ^ k - Z0 ^ k - (-1:ℝ) ^ ((k:ℤ) - (n:ℤ)) * k / n * (Z ^ n - Z0 ^ n)))

/-- `param_f0` of LMVD.  /repo/flavio/physics/bdecays/formfactors/b_p/bcl_lmvd.py:25-31. -/
noncomputable def lmvdF0 (mB mP : ℝ) (b : List ℝ) (q2 : ℝ) (t0 : T0) : Except PyErr ℝ := do
  let Z ← z mB mP q2 t0
  let Z0 ← z mB mP 0 t0
  return b.getD 0 0 * (1 + ∑ k ∈ Finset.Ico 1 b.length, b.getD k 0 * (Z ^ k - Z0 ^ k))

/-- `process_dict` of LMVD.  /repo/flavio/physics/bdecays/formfactors/b_p/bcl_lmvd.py:13-14. -/
def processLMVD : String → Except PyErr (String × String)
  | "B->pi" => .ok ("B+", "pi0")
  | _ => .error .keyError

/-- `[ par[process + ' BCL b_' + i + '^' + str(j)] for j in l ]`.
/repo/flavio/physics/bdecays/formfactors/b_p/bcl_lmvd.py:48,54. -/
def coeffsB (par : Par) (pre : String) : List ℕ → Except PyErr (List ℝ)
  | [] => .ok []
  | j :: l => do
    let v ← par.get (pre ++ "^" ++ toString j)
    let r ← coeffsB par pre l
    return v :: r

/-- `bcl_lmvd.ff`.  /repo/flavio/physics/bdecays/formfactors/b_p/bcl_lmvd.py:33-56. -/
noncomputable def lmvdFF (process : String) (q2 : ℝ) (par : Par) (n : ℕ) (t0 : T0) : Except PyErr FFP := do
  let pd ← processLMVD process
  let mpl ← par.get (process ++ " BCL LMVD m+")
  let m0 ← par.get (process ++ " BCL LMVD m0")
  let mB ← par.get (process ++ " BCL LMVD m_" ++ pd.1)
  let mP ← par.get (process ++ " BCL LMVD m_" ++ pd.2)
  let p0 ← par.get (process ++ " BCL f_+(0)")
  let bp ← coeffsB par (process ++ " BCL b_+") ((List.range n).drop 1)
  let t ← par.get (process ++ " BCL f_T(0)")
  let bT ← coeffsB par (process ++ " BCL b_T") ((List.range n).drop 1)
  let p1 ← pole mpl q2
  let fp ← lmvdFplusT mB mP (p0 :: bp) q2 t0
  let p2 ← pole mpl q2
  let fT ← lmvdFplusT mB mP (t :: bT) q2 t0
  let b0 ← coeffsB par (process ++ " BCL b_0") ((List.range (n + 1)).drop 1)
  let p3 ← pole m0 q2
  let f0 ← lmvdF0 mB mP (p0 :: b0) q2 t0
  return ⟨p1 * fp, p3 * f0, p2 * fT⟩

/-- `zs`: the powers of `z(q²) - z(0)`.  /repo/flavio/physics/bdecays/formfactors/b_p/bsz.py:24-28, b_v/bsz.py:8-12. -/
noncomputable def zsBSZ (mB mP q2 : ℝ) (t0 : T0) : Except PyErr (List ℝ) := do
  let zq ← z mB mP q2 t0
  let z0 ← z mB mP 0 t0
  return [1, zq - z0, (zq - z0) ^ 2]

/-- `np.dot` of two one-dimensional arrays: `ValueError` when the lengths differ.
/repo/flavio/physics/bdecays/formfactors/b_p/bsz.py:53-55. -/
noncomputable def dot (a b : List ℝ) : Except PyErr ℝ :=
  if a.length = b.length then .ok (List.zipWith (· * ·) a b).sum else .error .valueError

/-- `pole(..) * np.dot(a, zs(..)[:n])`.  /repo/flavio/physics/bdecays/formfactors/b_p/bsz.py:53-55. -/
noncomputable def bszTerm (mres mB mP : ℝ) (a : List ℝ) (q2 : ℝ) (n : ℕ) (t0 : T0) : Except PyErr ℝ := do
  let p ← pole mres q2
  let zs ← zsBSZ mB mP q2 t0
  let d ← dot a (zs.take n)
  return p * d

/-- `bsz.ff` for `B → P` and `D → P` (the functions differ only in `process_dict`).
/repo/flavio/physics/bdecays/formfactors/b_p/bsz.py:31-56, /repo/flavio/physics/ddecays/formfactors/bsz.py:12-36. -/
noncomputable def bszFF (proc : String → Except PyErr (String × String)) (process : String) (q2 : ℝ) (par : Par) (n : ℕ)
    (t0 : T0) : Except PyErr FFP := do
  let pd ← proc process
  let mpl ← par.get (process ++ " BCL m+")
  let m0 ← par.get (process ++ " BCL m0")
  let mB ← par.get ("m_" ++ pd.1)
  let mP ← par.get ("m_" ++ pd.2)
  let ap ← coeffs par (process ++ " BSZ a") "f+" (List.range n)
  let aT ← coeffs par (process ++ " BSZ a") "fT" (List.range n)
  let a00 ← par.get (process ++ " BSZ a0_f+")
  let r ← coeffs par (process ++ " BSZ a") "f0" ((List.range n).drop 1)
  let fp ← bszTerm mpl mB mP ap q2 n t0
  let fT ← bszTerm mpl mB mP aT q2 n t0
  let f0 ← bszTerm m0 mB mP (a00 :: r) q2 n t0
  return ⟨fp, f0, fT⟩

/-- `process_dict` of the BSZ parametrisation of `B → V`.
/repo/flavio/physics/bdecays/formfactors/b_v/bsz.py:20-26. -/
def processV : String → Except PyErr (String × String)
  | "B->K*" => .ok ("B0", "K*0")
  | "B->rho" => .ok ("B0", "rho0")
  | "B->omega" => .ok ("B0", "omega")
  | "Bs->phi" => .ok ("Bs", "phi")
  | "Bs->K*" => .ok ("Bs", "K*0")
  | "B->D*" => .ok ("B0", "D*0")
  | _ => .error .keyError

/-- `pole` for `B → V`: no special treatment of zero; `m**2` of zero raises `ZeroDivisionError`.
/repo/flavio/physics/bdecays/formfactors/b_v/bsz.py:14-17, b_v/sse.py:9-12, lambdab_12/sse.py:11-13. -/
noncomputable def poleV (m q2 : ℝ) : Except PyErr ℝ := do
  let r ← pyDiv q2 (m ^ 2)
  pyDiv 1 (1 - r)

/-- One pass of the loop over the form factors of `b_v/bsz.py`.
/repo/flavio/physics/bdecays/formfactors/b_v/bsz.py:56-57. -/
noncomputable def bszVTerm (par : Par) (pre i : String) (mres mB mV q2 : ℝ) (n : ℕ) : Except PyErr ℝ := do
  let a ← coeffs par (pre ++ " a") i (List.range n)
  let p ← poleV mres q2
  let zs ← zsBSZ mB mV q2 .none
  let d ← dot a (zs.take n)
  return p * d

/-- The two assignments to the parameter dictionary.  /repo/flavio/physics/bdecays/formfactors/b_v/bsz.py:53-55. -/
noncomputable def bszVPar (par : Par) (pre : String) (mB mV : ℝ) : Except PyErr Par := do
  let a0 ← par.get (pre ++ " a0_A0")
  let d ← pyDiv (8 * mB * mV) (mB ^ 2 - mV ^ 2)
  let v ← pyDiv a0 d
  let par1 := par.put (pre ++ " a0_A12") v
  let t1 ← par1.get (pre ++ " a0_T1")
  return par1.put (pre ++ " a0_T2") t1

/-- `bsz.ff` for `B → V`: the form factors and the parameter dictionary afterwards.
/repo/flavio/physics/bdecays/formfactors/b_v/bsz.py:29-58. -/
noncomputable def bszVFF (process : String) (q2 : ℝ) (par : Par) (n : ℕ) : Except PyErr (FFV × Par) := do
  let pd ← processV process
  let m0 ← par.get (process ++ " BCL m0")
  let m1m ← par.get (process ++ " BCL m1-")
  let m1p ← par.get (process ++ " BCL m1+")
  let mB ← par.get ("m_" ++ pd.1)
  let mV ← par.get ("m_" ++ pd.2)
  let par' ← bszVPar par (process ++ " BSZ") mB mV
  let A0 ← bszVTerm par' (process ++ " BSZ") "A0" m0 mB mV q2 n
  let A1 ← bszVTerm par' (process ++ " BSZ") "A1" m1p mB mV q2 n
  let A12 ← bszVTerm par' (process ++ " BSZ") "A12" m1p mB mV q2 n
  let V ← bszVTerm par' (process ++ " BSZ") "V" m1m mB mV q2 n
  let T1 ← bszVTerm par' (process ++ " BSZ") "T1" m1m mB mV q2 n
  let T2 ← bszVTerm par' (process ++ " BSZ") "T2" m1p mB mV q2 n
  let T23 ← bszVTerm par' (process ++ " BSZ") "T23" m1p mB mV q2 n
  return (⟨A0, A1, A12, V, T1, T2, T23⟩, par')

/-- `zs` of the simplified series expansion: powers of `z`.
/repo/flavio/physics/bdecays/formfactors/b_v/sse.py:5-7, lambdab_12/sse.py:5-9. -/
noncomputable def zsSSE (mB mV q2 t0 : ℝ) : Except PyErr (List ℝ) := do
  let zq ← z mB mV q2 (.num t0)
  return [1, zq, zq ^ 2]

/-- `process_dict` of `b_v/sse.py` with the resonance masses `mres_bsz` of the transition.
/repo/flavio/physics/bdecays/formfactors/b_v/sse.py:14-22. -/
noncomputable def processSSE : String → Except PyErr (String × String × ℝ × ℝ × ℝ)
  | "B->K*" => .ok ("B0", "K*0", 5.366, 5.414, 5.829)
  | "Bs->phi" => .ok ("Bs", "phi", 5.366, 5.414, 5.829)
  | "Bs->K*" => .ok ("Bs", "K*0", 5.279, 5.324, 5.716)
  | _ => .error .keyError

/-- `[ par[process + ' SSE ' + i.lower() + '_a' + str(j)] for j in l ]`.
/repo/flavio/physics/bdecays/formfactors/b_v/sse.py:42. -/
def coeffsSSE (par : Par) (pre : String) : List ℕ → Except PyErr (List ℝ)
  | [] => .ok []
  | j :: l => do
    let v ← par.get (pre ++ "_a" ++ toString j)
    let r ← coeffsSSE par pre l
    return v :: r

/-- One pass of the loop of `b_v/sse.py`.  /repo/flavio/physics/bdecays/formfactors/b_v/sse.py:42-43. -/
noncomputable def sseTerm (par : Par) (pre : String) (mres mB mV q2 : ℝ) (n : ℕ) : Except PyErr ℝ := do
  let a ← coeffsSSE par pre (List.range n)
  let p ← poleV mres q2
  let zs ← zsSSE mB mV q2 12
  let d ← dot a (zs.take n)
  return p * d

/-- `sse.ff` for `B → V`.  /repo/flavio/physics/bdecays/formfactors/b_v/sse.py:24-44. -/
noncomputable def sseFF (process : String) (q2 : ℝ) (par : Par) (n : ℕ) : Except PyErr FFV := do
  let pd ← processSSE process
  let mB ← par.get ("m_" ++ pd.1)
  let mV ← par.get ("m_" ++ pd.2.1)
  let A0 ← sseTerm par (process ++ " SSE a0") pd.2.2.1 mB mV q2 n
  let A1 ← sseTerm par (process ++ " SSE a1") pd.2.2.2.2 mB mV q2 n
  let A12 ← sseTerm par (process ++ " SSE a12") pd.2.2.2.2 mB mV q2 n
  let V ← sseTerm par (process ++ " SSE v") pd.2.2.2.1 mB mV q2 n
  let T1 ← sseTerm par (process ++ " SSE t1") pd.2.2.2.1 mB mV q2 n
  let T2 ← sseTerm par (process ++ " SSE t2") pd.2.2.2.2 mB mV q2 n
  let T23 ← sseTerm par (process ++ " SSE t23") pd.2.2.2.2 mB mV q2 n
  return ⟨A0, A1, A12, V, T1, T2, T23⟩

/-- The ten `Λb → X` form factors.  /repo/flavio/physics/bdecays/formfactors/lambdab_12/sse.py:15-25. -/
structure FFL where
  fA0 : ℝ
  fAperp : ℝ
  fAt : ℝ
  fT0 : ℝ
  fT50 : ℝ
  fT5perp : ℝ
  fTperp : ℝ
  fV0 : ℝ
  fVperp : ℝ
  fVt : ℝ

/-- One pass of the loop of `lambdab_12/sse.py`.  /repo/flavio/physics/bdecays/formfactors/lambdab_12/sse.py:56-57. -/
noncomputable def lambdabTerm (par : Par) (pre i : String) (mres mB mP t0 q2 : ℝ) (n : ℕ) : Except PyErr ℝ := do
  let a ← coeffs par (pre ++ " a") i (List.range n)
  let p ← poleV mres q2
  let zs ← zsSSE mB mP q2 t0
  let d ← dot a (zs.take n)
  return p * d

/-- `lambdab_12.sse.ff` for `Lambdab->Lambda`, the only process known, and the parameters afterwards.
/repo/flavio/physics/bdecays/formfactors/lambdab_12/sse.py:5-58. -/
noncomputable def lambdabFF (process : String) (q2 : ℝ) (par : Par) (n : ℕ) : Except PyErr (FFL × Par) :=
  if process = "Lambdab->Lambda" then do
    let mX ← par.get "m_Lambda"
    let mP ← par.get "m_K+"
    let pre := process ++ " SSE"
    let a ← par.get (pre ++ " a0_fA0")
    let par1 := par.put (pre ++ " a0_fAperp") a
    let b ← par1.get (pre ++ " a0_fT50")
    let par' := par1.put (pre ++ " a0_fT5perp") b
    let mLb ← par'.get "m_Lambdab"
    let mB ← par'.get "m_B+"
    let t0 := (mLb - mX) ^ 2
    let fA0 ← lambdabTerm par' pre "fA0" 5.750 mB mP t0 q2 n
    let fAperp ← lambdabTerm par' pre "fAperp" 5.750 mB mP t0 q2 n
    let fAt ← lambdabTerm par' pre "fAt" 5.367 mB mP t0 q2 n
    let fT0 ← lambdabTerm par' pre "fT0" 5.416 mB mP t0 q2 n
    let fT50 ← lambdabTerm par' pre "fT50" 5.750 mB mP t0 q2 n
    let fT5perp ← lambdabTerm par' pre "fT5perp" 5.750 mB mP t0 q2 n
    let fTperp ← lambdabTerm par' pre "fTperp" 5.416 mB mP t0 q2 n
    let fV0 ← lambdabTerm par' pre "fV0" 5.416 mB mP t0 q2 n
    let fVperp ← lambdabTerm par' pre "fVperp" 5.416 mB mP t0 q2 n
    let fVt ← lambdabTerm par' pre "fVt" 5.711 mB mP t0 q2 n
    return (⟨fA0, fAperp, fAt, fT0, fT50, fT5perp, fTperp, fV0, fVperp, fVt⟩, par')
  else .error .keyError

end Verif.FormFactors
