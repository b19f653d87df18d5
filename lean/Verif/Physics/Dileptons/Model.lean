import Verif.Physics.Zdecays.Z
import Verif.Physics.Angular.Bins
import Verif.Physics.Kdecays.KllTheorems
/-!
# Lepton pairs at the LHC: `pp → ℓ⁺ℓ⁻` and `pp → ℓν`

`flavio/physics/dileptons/ppll.py` and `pplnu.py`.  Floats are real numbers, `numpy` arrays of shape `(3, 3, 3, 3)` are
functions of four indices.  The dictionary of effective coefficients with keys `'CVLL_eu'`, ... is a record for each quark
charge.  The parton luminosity (`parton.PLumi(...).L`), the integrator (`nintegrate`), the CKM matrix and the SMEFT
coefficients in the symmetrised basis (`wcxf2arrays_symmetrized`) are arguments; a division by zero in the SM amplitude
(masses, widths or `s` zero) is not modelled: the theorems that need it assume the arguments to be in range.
-/
set_option linter.unusedVariables false
namespace Verif.Dileptons
open Verif.Py Verif.Running Complex

local notation "conj" => starRingEnd ℂ

/-- An array of shape `(3, 3, 3, 3)`.  /repo/flavio/physics/dileptons/ppll.py:62. -/
abbrev Arr := Fin 3 → Fin 3 → Fin 3 → Fin 3 → ℂ

/-- A chirality (`'L'` or `'R'`).  /repo/flavio/physics/dileptons/ppll.py:34-41. -/
inductive Chi | L | R
deriving DecidableEq, Repr

/-- The quark charge (`'u'` or `'d'`).  /repo/flavio/physics/dileptons/ppll.py:50. -/
inductive UD | u | d
deriving DecidableEq, Repr

/-- The quark in `_QN`.  /repo/flavio/physics/dileptons/ppll.py:29. -/
def UD.fm : UD → Zpole.Fm | .u => .u | .d => .d

/-- `g2`, with the running to 1 TeV.  /repo/flavio/physics/dileptons/ppll.py:21-22, /repo/flavio/physics/dileptons/pplnu.py:18-19. -/
noncomputable def g2 (p : Zpole.Par) : ℝ := 4 * Real.pi * p.alphaE / p.s2w * 0.9608

/-- `gp2`.  /repo/flavio/physics/dileptons/ppll.py:23. -/
noncomputable def gp2 (p : Zpole.Par) : ℝ := 4 * Real.pi * p.alphaE / (1 - p.s2w) * 1.0272

/-- `s2w` at 1 TeV.  /repo/flavio/physics/dileptons/ppll.py:25. -/
noncomputable def s2w' (p : Zpole.Par) : ℝ := gp2 p / (g2 p + gp2 p)

/-- `gZq`, `gZl`.  /repo/flavio/physics/dileptons/ppll.py:25-41. -/
noncomputable def gZ (p : Zpole.Par) (f : Zpole.Fm) (X : Chi) : ℝ :=
  let par := { p with s2w := s2w' p }
  let gV := Real.sqrt (g2 p + gp2 p) * Zpole.gVSM f par
  let gA := Real.sqrt (g2 p + gp2 p) * Zpole.gASM f
  match X with
  | .L => gV + gA
  | .R => gV - gA

/-- `F_qqll_SM`.  /repo/flavio/physics/dileptons/ppll.py:12-43. -/
noncomputable def smAmp (p : Zpole.Par) (q : UD) (Xq Xl : Chi) (s : ℝ) : ℂ :=
  ((g2 p * s2w' p * q.fm.q * (-1) / s : ℝ) : ℂ) + ((gZ p q.fm Xq * gZ p .e Xl : ℝ) : ℂ) / (((s - p.mZ ^ 2 : ℝ) : ℂ) + I * ((p.mZ * (1 / p.tauZ) : ℝ) : ℂ))

/-- `np.einsum('ij,kl->ijkl', np.eye(3), np.eye(3))`.  /repo/flavio/physics/dileptons/ppll.py:47. -/
def eye : Arr := fun i j k l => (if i = j then 1 else 0) * (if k = l then 1 else 0)

/-- The effective coefficients `CV{Xl}{Xq}_e{q}`, `CSRL_e{q}`, `CSRR_e{q}`, `CTRR_e{q}` for one quark charge.
/repo/flavio/physics/dileptons/ppll.py:49-54. -/
structure Amp where
  VLL : Arr
  VLR : Arr
  VRL : Arr
  VRR : Arr
  SRL : Arr
  SRR : Arr
  TRR : Arr

/-- The dictionary of effective coefficients.  /repo/flavio/physics/dileptons/ppll.py:48. -/
abbrev WcEff := UD → Amp

/-- `wceff_qqll_sm`.  /repo/flavio/physics/dileptons/ppll.py:46-55. -/
noncomputable def wcSM (p : Zpole.Par) (s : ℝ) : WcEff := fun q =>
  { VLL := fun i j k l => smAmp p q .L .L s * eye i j k l
    VLR := fun i j k l => smAmp p q .R .L s * eye i j k l
    VRL := fun i j k l => smAmp p q .L .R s * eye i j k l
    VRR := fun i j k l => smAmp p q .R .R s * eye i j k l
    SRL := 0
    SRR := 0
    TRR := 0 }

/-- The SMEFT coefficients used (`C`, Warsaw up basis, redundant).  /repo/flavio/physics/dileptons/ppll.py:65-68. -/
structure Smeft where
  lq1 : Arr
  lq3 : Arr
  qe : Arr
  eu : Arr
  ed : Arr
  lu : Arr
  ld : Arr
  ledq : Arr
  lequ1 : Arr
  lequ3 : Arr

/-- `wceff_qqll_np`.  /repo/flavio/physics/dileptons/ppll.py:58-86. -/
noncomputable def wcNP (C : Smeft) (V : Fin 3 → Fin 3 → ℂ) : WcEff
  | .u =>
    { VLL := fun i j k l => C.lq1 i j k l - C.lq3 i j k l
      VRR := C.eu
      VLR := C.lu
      VRL := fun i j k l => C.qe k l i j
      SRL := 0
      SRR := fun i j k l => -C.lequ1 i j k l
      TRR := fun i j k l => -C.lequ3 i j k l }
  | .d =>
    { VLL := fun i j k l => ∑ m, ∑ n, (C.lq1 i j m n + C.lq3 i j m n) * conj (V m k) * V n l
      VRR := C.ed
      VLR := C.ld
      VRL := fun i j k l => ∑ m, ∑ n, C.qe m n i j * conj (V m k) * V n l
      SRL := fun i j k l => ∑ m, C.ledq i j k m * V m l
      SRR := 0
      TRR := 0 }

/-- `add_dict((wc_eff, wc_eff_np))`: both dictionaries have the same keys.  /repo/flavio/physics/dileptons/ppll.py:190. -/
def addWc (a b : WcEff) : WcEff := fun q =>
  { VLL := (a q).VLL + (b q).VLL
    VLR := (a q).VLR + (b q).VLR
    VRL := (a q).VRL + (b q).VRL
    VRR := (a q).VRR + (b q).VRR
    SRL := (a q).SRL + (b q).SRL
    SRR := (a q).SRR + (b q).SRR
    TRR := (a q).TRR + (b q).TRR }

/-- `pdf_flavor`.  /repo/flavio/physics/dileptons/ppll.py:90, /repo/flavio/physics/dileptons/pplnu.py:100. -/
def pdfFlavor : String → Except PyErr ℤ
  | "d" => .ok 1
  | "u" => .ok 2
  | "s" => .ok 3
  | "c" => .ok 4
  | "b" => .ok 5
  | _ => .error .keyError

/-- `fermion_indices`.  /repo/flavio/physics/dileptons/ppll.py:91-100. -/
def fermionIndices : String → Except PyErr (String × Fin 3)
  | "u" => .ok ("u", 0)
  | "c" => .ok ("u", 1)
  | "d" => .ok ("d", 0)
  | "s" => .ok ("d", 1)
  | "b" => .ok ("d", 2)
  | "e" => .ok ("e", 0)
  | "mu" => .ok ("e", 1)
  | "tau" => .ok ("e", 2)
  | _ => .error .keyError

/-- The entries `wc_eff['C..._e{}'.format(q)]`; there is none for `q = 'e'`.  /repo/flavio/physics/dileptons/ppll.py:122. -/
def getAmp (wc : WcEff) : String → Except PyErr Amp
  | "u" => .ok (wc .u)
  | "d" => .ok (wc .d)
  | _ => .error .keyError

/-- The sum of squares `S`.  /repo/flavio/physics/dileptons/ppll.py:120-132. -/
noncomputable def sumSq (A : Amp) (il i1 i2 : Fin 3) : ℝ :=
  ‖A.VLL il il i1 i2‖ ^ 2 + ‖A.VLR il il i1 i2‖ ^ 2 + ‖A.VRL il il i1 i2‖ ^ 2 + ‖A.VRR il il i1 i2‖ ^ 2
    + 3 / 4 * ‖A.SRL il il i1 i2‖ ^ 2 + 3 / 4 * ‖A.SRR il il i1 i2‖ ^ 2 + 4 * ‖A.TRR il il i1 i2‖ ^ 2
    + 3 / 4 * ‖A.SRL il il i2 i1‖ ^ 2 + 3 / 4 * ‖A.SRR il il i2 i1‖ ^ 2 + 4 * ‖A.TRR il il i2 i1‖ ^ 2

/-- `sigma_qqll_partonic`.  /repo/flavio/physics/dileptons/ppll.py:103-133. -/
noncomputable def sigmaPartonic (sh : ℝ) (q1 q2 l : String) (wc : WcEff) : Except PyErr ℝ := do
  let a ← fermionIndices q1
  let b ← fermionIndices q2
  if a.1 ≠ b.1 then throw .valueError
  let c ← fermionIndices l
  let A ← getAmp wc a.1
  return sh / (144 * Real.pi) * sumSq A c.2 a.2 b.2

/-- `'duscb'`.  /repo/flavio/physics/dileptons/ppll.py:153-154. -/
def quarks : List String := ["d", "u", "s", "c", "b"]

/-- The body of the loops over the quarks.  /repo/flavio/physics/dileptons/ppll.py:155-164. -/
noncomputable def quarkStep (lumi : ℤ → ℤ → ℝ → ℝ) (s tau : ℝ) (l : String) (wc : WcEff) (q1 : String) (sigma : ℝ) (q2 : String) : Except PyErr ℝ := do
  let a ← fermionIndices q1
  let b ← fermionIndices q2
  if a.1 ≠ b.1 then return sigma
  let i1 ← pdfFlavor q1
  let i2 ← pdfFlavor q2
  let sh := tau * s
  let y ← sigmaPartonic sh q1 q2 l wc
  if y ≠ 0 then return sigma + 2 * lumi i1 (-i2) tau * y
  return sigma

/-- `dsigma_dtau_qqll`; `lumi` is the luminosity of the PDF member and scale.  /repo/flavio/physics/dileptons/ppll.py:136-165. -/
noncomputable def dsigma (lumi : ℤ → ℤ → ℝ → ℝ) (s tau : ℝ) (l : String) (wc : WcEff) : Except PyErr ℝ :=
  quarks.foldlM (fun sigma q1 => quarks.foldlM (quarkStep lumi s tau l wc q1) sigma) 0

/-- The number in a result. (Used for `integral`, /repo/flavio/physics/dileptons/ppll.py:192.) -/
noncomputable def val : Except PyErr ℝ → ℝ
  | .ok x => x
  | .error _ => 0

/-- `nintegrate(f, a, b, epsrel=1e-5)`: an exception in the integrand is passed on; for the integrands used here it does not
depend on the integration variable (`dsigma_eq`, `dsigmaNu_eq`).  /repo/flavio/physics/dileptons/ppll.py:192, /repo/flavio/physics/dileptons/pplnu.py:158. -/
noncomputable def integral (nint : Angular.Nint) (f : ℝ → Except PyErr ℝ) (a b : ℝ) : Except PyErr ℝ :=
  match f a with
  | .error e => .error e
  | .ok _ => .ok (nint (fun t => val (f t)) a b 1e-5)

/-- What the cross sections depend on: parameters, CKM matrix, SMEFT coefficients at a scale, luminosity at a scale squared
for a PDF member, and the member.  /repo/flavio/physics/dileptons/ppll.py:65,71,150-152. -/
structure Inp where
  p : Zpole.Par
  mW : ℝ
  tauW : ℝ
  V : Fin 3 → Fin 3 → ℂ
  C : ℝ → Smeft
  lumi : ℝ → ℤ → ℤ → ℤ → ℝ → ℝ
  member : ℝ

/-- `int(x)`. (Used for `sigmaInt`, /repo/flavio/physics/dileptons/ppll.py:151.) -/
noncomputable def pyInt (x : ℝ) : ℤ := if 0 ≤ x then ⌊x⌋ else ⌈x⌉

/-- `sigma_qqll_int`.  /repo/flavio/physics/dileptons/ppll.py:168-192. -/
noncomputable def sigmaInt (nint : Angular.Nint) (q : Inp) (s qmin qmax : ℝ) (l : String) (Q2 scale : ℝ) (newphys : Bool) : Except PyErr ℝ :=
  let wc (tau : ℝ) : WcEff := if newphys then addWc (wcSM q.p (tau * s)) (wcNP (q.C scale) q.V) else wcSM q.p (tau * s)
  integral nint (fun tau => dsigma (q.lumi Q2 (pyInt q.member)) s tau l (wc tau)) (qmin ^ 2 / s) (qmax ^ 2 / s)

/-- `R_sigma_qqll_int`.  /repo/flavio/physics/dileptons/ppll.py:195-211. -/
noncomputable def ratio (nint : Angular.Nint) (q : Inp) (s qmin qmax : ℝ) (l : String) : Except PyErr ℝ := do
  let scale := (qmin + qmax) / 2
  let Q2 := scale ^ 2
  let sm ← sigmaInt nint q s qmin qmax l Q2 scale false
  let np ← sigmaInt nint q s qmin qmax l Q2 scale true
  pyDiv np sm

/-- `R_sigma_qqll_int_fct_lhc13`.  /repo/flavio/physics/dileptons/ppll.py:214-218. -/
noncomputable def ratio13 (nint : Angular.Nint) (q : Inp) (l : String) (qmin qmax : ℝ) : Except PyErr ℝ :=
  ratio nint q (13000 ^ 2) qmin qmax l

/-- The names of the observables.  /repo/flavio/physics/dileptons/ppll.py:222-233, /repo/flavio/physics/dileptons/pplnu.py:187-198. -/
def names : List String :=
  (["e", "mu"].map fun l => "R_13(pp->" ++ l ++ l ++ ")") ++ (["e", "mu"].map fun l => "R_13(pp->" ++ l ++ "nu)")

/-! ## `pp → ℓν` -/

/-- `F_qqlnu_SM`.  /repo/flavio/physics/dileptons/pplnu.py:11-21. -/
noncomputable def smAmpNu (q : Inp) (s : ℝ) : ℂ :=
  ((g2 q.p / 2 : ℝ) : ℂ) / (((s - q.mW ^ 2 : ℝ) : ℂ) + I * ((q.mW * (1 / q.tauW) : ℝ) : ℂ))

/-- The effective coefficients `CVLL_enuud`, `CSRL_enuud`, `CSRR_enuud`, `CTRR_enuud`.  /repo/flavio/physics/dileptons/pplnu.py:29-30. -/
structure AmpNu where
  VLL : Arr
  SRL : Arr
  SRR : Arr
  TRR : Arr

/-- `wceff_qqlnu_sm`.  /repo/flavio/physics/dileptons/pplnu.py:24-32. -/
noncomputable def wcSMNu (q : Inp) (s : ℝ) : AmpNu :=
  { VLL := fun i j k l => ∑ m, smAmpNu q s * eye i j m l * q.V k m
    SRL := 0
    SRR := 0
    TRR := 0 }

/-- `wceff_qqlnu_np`; `np.einsum('jilk', x)` without an output orders the indices alphabetically.
/repo/flavio/physics/dileptons/pplnu.py:34-54. -/
noncomputable def wcNPNu (C : Smeft) (V : Fin 3 → Fin 3 → ℂ) : AmpNu :=
  { VLL := fun i j k l => 2 * ∑ m, C.lq3 i j k m * V m l
    SRL := fun i j k l => conj (C.ledq j i l k)
    SRR := fun i j k l => ∑ m, conj (C.lequ1 j i m k) * V m l
    TRR := fun i j k l => ∑ m, conj (C.lequ3 j i m k) * V m l }

/-- `add_dict((wc_eff, wc_eff_np))`.  /repo/flavio/physics/dileptons/pplnu.py:155. -/
def addNu (a b : AmpNu) : AmpNu := ⟨a.VLL + b.VLL, a.SRL + b.SRL, a.SRR + b.SRR, a.TRR + b.TRR⟩

/-- `fermion_indices`.  /repo/flavio/physics/dileptons/pplnu.py:56. -/
def nuIndices : String → Except PyErr (Fin 3)
  | "u" => .ok 0
  | "d" => .ok 0
  | "c" => .ok 1
  | "s" => .ok 1
  | "t" => .ok 2
  | "b" => .ok 2
  | "e" => .ok 0
  | "mu" => .ok 1
  | "tau" => .ok 2
  | _ => .error .keyError

/-- `prefac1`.  /repo/flavio/physics/dileptons/pplnu.py:75-80. -/
noncomputable def prefac1 (tau umin umax : ℝ) : ℝ :=
  if tau > umax then umax * Real.sqrt (1 - umax / tau) - umin * Real.sqrt (1 - umin / tau) else -umin * Real.sqrt (1 - umin / tau)

/-- `prefac2`.  /repo/flavio/physics/dileptons/pplnu.py:75-80. -/
noncomputable def prefac2 (tau umin umax : ℝ) : ℝ :=
  if tau > umax then tau * (Real.sqrt (1 - umax / tau) - Real.sqrt (1 - umin / tau)) else -tau * Real.sqrt (1 - umin / tau)

/-- The sum over the neutrinos.  /repo/flavio/physics/dileptons/pplnu.py:82-98. -/
noncomputable def partialVal (s tau umin umax : ℝ) (A : AmpNu) (il i1 i2 : Fin 3) : ℝ :=
  (∑ inu : Fin 3, s * (prefac1 tau umin umax * (16 * ‖A.TRR il inu i1 i2‖ ^ 2 + ‖A.VLL il inu i1 i2‖ ^ 2)
    - prefac2 tau umin umax * (3 * ‖A.SRL il inu i1 i2‖ ^ 2 + 3 * ‖A.SRR il inu i1 i2‖ ^ 2 + 16 * ‖A.TRR il inu i1 i2‖ ^ 2 + 4 * ‖A.VLL il inu i1 i2‖ ^ 2))) / (576 * Real.pi)

/-- `dsigma_dtau_qqlnu_partial`.  /repo/flavio/physics/dileptons/pplnu.py:58-98. -/
noncomputable def partialNu (s tau umin umax : ℝ) (q1 q2 l : String) (A : AmpNu) : Except PyErr ℝ := do
  let i1 ← nuIndices q1
  let i2 ← nuIndices q2
  let il ← nuIndices l
  return partialVal s tau umin umax A il i1 i2

/-- The body of the loops over the quarks.  /repo/flavio/physics/dileptons/pplnu.py:120-127. -/
noncomputable def nuStep (lumi : ℤ → ℤ → ℝ → ℝ) (s tau umin umax : ℝ) (l : String) (A : AmpNu) (q1 : String) (sigma : ℝ) (q2 : String) : Except PyErr ℝ := do
  let i1 ← pdfFlavor q1
  let i2 ← pdfFlavor q2
  let y ← partialNu s tau umin umax q1 q2 l A
  if y ≠ 0 then
    let sigma := sigma + 2 * lumi i1 (-i2) tau * y
    return sigma + 2 * lumi i2 (-i1) tau * y
  return sigma

/-- `dsigma_dtau_qqlnu`.  /repo/flavio/physics/dileptons/pplnu.py:102-128. -/
noncomputable def dsigmaNu (lumi : ℤ → ℤ → ℝ → ℝ) (s tau umin umax : ℝ) (l : String) (A : AmpNu) : Except PyErr ℝ :=
  ["u", "c"].foldlM (fun sigma q1 => ["d", "s", "b"].foldlM (nuStep lumi s tau umin umax l A q1) sigma) 0

/-- `sigma_qqlnu_int`.  /repo/flavio/physics/dileptons/pplnu.py:130-158. -/
noncomputable def sigmaNuInt (nint : Angular.Nint) (q : Inp) (s mTmin mTmax : ℝ) (l : String) (Q2 scale : ℝ) (newphys : Bool) : Except PyErr ℝ :=
  let umin := mTmin ^ 2 / s
  let umax := mTmax ^ 2 / s
  let wc (tau : ℝ) : AmpNu := if newphys then addNu (wcSMNu q (tau * s)) (wcNPNu (q.C scale) q.V) else wcSMNu q (tau * s)
  integral nint (fun tau => dsigmaNu (q.lumi Q2 (pyInt q.member)) s tau umin umax l (wc tau)) umin 1

/-- `R_sigma_qqlnu_int`.  /repo/flavio/physics/dileptons/pplnu.py:160-176. -/
noncomputable def ratioNu (nint : Angular.Nint) (q : Inp) (s mTmin mTmax : ℝ) (l : String) : Except PyErr ℝ := do
  let scale := (mTmin + mTmax) / 2
  let Q2 := scale ^ 2
  let sm ← sigmaNuInt nint q s mTmin mTmax l Q2 scale false
  let np ← sigmaNuInt nint q s mTmin mTmax l Q2 scale true
  pyDiv np sm

/-- `R_sigma_qqlnu_int_fct_lhc13`.  /repo/flavio/physics/dileptons/pplnu.py:179-183. -/
noncomputable def ratioNu13 (nint : Angular.Nint) (q : Inp) (l : String) (mTmin mTmax : ℝ) : Except PyErr ℝ :=
  ratioNu nint q (13000 ^ 2) mTmin mTmax l

end Verif.Dileptons
