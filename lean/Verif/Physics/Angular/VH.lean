import Mathlib.Analysis.SpecialFunctions.Complex.Arg
import Verif.Physics.Angular.VBounds
/-!
# The interference coefficients of neutral-meson mixing (`angularcoeffs_h_v`) and the time-averaged `B_s`
observables (`flavio/physics/bdecays/angular.py`, `flavio/physics/bdecays/bvll/observables_bs.py`)

The entries are transcribed term by term from the source.
-/
set_option linter.unusedVariables false
set_option linter.unusedSimpArgs false
namespace Verif.Angular
open Verif.Common Complex ComplexConjugate

/-- `G[0,0,0]` of `angularcoeffs_h_Gbasis_v` (before the prefactor).
/repo/flavio/physics/bdecays/angular.py:111-118. -/
noncomputable def h000 (qp : ℂ) (H Ht : AmpV) (la E1 E2 ml1 ml2 q2 : ℝ) : ℝ :=
    4 / 9 * (3 * E1 * E2 + la / (4 * q2)) * (2 * (-qp * Ht.plV * conj H.plV).re + 2 * (-qp * Ht.miV * conj
    H.miV).re + 2 * (-qp * Ht.zeV * conj H.zeV).re + 2 * (-qp * Ht.plA * conj H.plA).re + 2 * (-qp * Ht.miA
    * conj H.miA).re + 2 * (-qp * Ht.zeA * conj H.zeA).re) + 4 * ml1 * ml2 / 3 * (2 * (-qp * Ht.plV * conj
    H.plV).re + 2 * (-qp * Ht.miV * conj H.miV).re + 2 * (-qp * Ht.zeV * conj H.zeV).re - 2 * (-qp * Ht.plA
    * conj H.plA).re - 2 * (-qp * Ht.miA * conj H.miA).re - 2 * (-qp * Ht.zeA * conj H.zeA).re) + 4 / 3 *
    (E1 * E2 - ml1 * ml2 + la / (4 * q2)) * 2 * (-qp * Ht.S * conj H.S).re + 4 / 3 * (E1 * E2 + ml1 * ml2 +
    la / (4 * q2)) * 2 * (-qp * Ht.P * conj H.P).re + 16 / 9 * (3 * (E1 * E2 + ml1 * ml2) - la / (4 * q2))
    * (2 * (-qp * Ht.plTt * conj H.plTt).re + 2 * (-qp * Ht.miTt * conj H.miTt).re + 2 * (-qp * Ht.zeTt *
    conj H.zeTt).re) + 8 / 9 * (3 * (E1 * E2 - ml1 * ml2) - la / (4 * q2)) * (2 * (-qp * Ht.plT * conj
    H.plT).re + 2 * (-qp * Ht.miT * conj H.miT).re + 2 * (-qp * Ht.zeT * conj H.zeT).re) + 16 / 3 * (ml1 *
    E2 + ml2 * E1) * (-qp * Ht.plV * conj H.plTt + conj (-qp) * H.plV * conj Ht.plTt + (-qp * Ht.miV * conj
    H.miTt + conj (-qp) * H.miV * conj Ht.miTt) + (-qp * Ht.zeV * conj H.zeTt + conj (-qp) * H.zeV * conj
    Ht.zeTt)).im + 8 * Real.sqrt 2 / 3 * (ml1 * E2 - ml2 * E1) * (-qp * Ht.plA * conj H.plT + conj (-qp) *
    H.plA * conj Ht.plT + (-qp * Ht.miA * conj H.miT + conj (-qp) * H.miA * conj Ht.miT) + (-qp * Ht.zeA *
    conj H.zeT + conj (-qp) * H.zeA * conj Ht.zeT)).im

/-- `G[0,1,0]` of `angularcoeffs_h_Gbasis_v` (before the prefactor).
/repo/flavio/physics/bdecays/angular.py:119-126. -/
noncomputable def h010 (qp : ℂ) (H Ht : AmpV) (la E1 E2 ml1 ml2 q2 : ℝ) : ℝ :=
    4 * Real.sqrt la / 3 * ((-qp * Ht.plV * conj H.plA + conj (-qp) * H.plV * conj Ht.plA - (-qp * Ht.miV *
    conj H.miA + conj (-qp) * H.miV * conj Ht.miA)).re + 2 * Real.sqrt 2 / q2 * (ml1 ^ 2 - ml2 ^ 2) * (-qp
    * Ht.plT * conj H.plTt + conj (-qp) * H.plT * conj Ht.plTt - (-qp * Ht.miT * conj H.miTt + conj (-qp) *
    H.miT * conj Ht.miTt)).re + 2 * (ml1 + ml2) / Real.sqrt q2 * (-qp * Ht.plA * conj H.plTt + conj (-qp) *
    H.plA * conj Ht.plTt - (-qp * Ht.miA * conj H.miTt + conj (-qp) * H.miA * conj Ht.miTt)).im + Real.sqrt
    2 * (ml1 - ml2) / Real.sqrt q2 * (-qp * Ht.plV * conj H.plT + conj (-qp) * H.plV * conj Ht.plT - (-qp *
    Ht.miV * conj H.miT + conj (-qp) * H.miV * conj Ht.miT)).im - (ml1 - ml2) / Real.sqrt q2 * (-qp *
    Ht.zeA * conj H.P + conj (-qp) * H.zeA * conj Ht.P).re - (ml1 + ml2) / Real.sqrt q2 * (-qp * Ht.zeV *
    conj H.S + conj (-qp) * H.zeV * conj Ht.S).re + (((Real.sqrt 2 : ℝ) : ℂ) * (-qp * Ht.zeT * conj H.P +
    conj (-qp) * H.zeT * conj Ht.P) + 2 * (-qp * Ht.zeTt * conj H.S + conj (-qp) * H.zeTt * conj Ht.S)).im)

/-- `G[0,2,0]` of `angularcoeffs_h_Gbasis_v` (before the prefactor).
/repo/flavio/physics/bdecays/angular.py:127-129. -/
noncomputable def h020 (qp : ℂ) (H Ht : AmpV) (la E1 E2 ml1 ml2 q2 : ℝ) : ℝ :=
    -2 / 9 * la / q2 * (-2 * (-qp * Ht.plV * conj H.plV).re - 2 * (-qp * Ht.miV * conj H.miV).re + 2 * 2 *
    (-qp * Ht.zeV * conj H.zeV).re - 2 * (-qp * Ht.plA * conj H.plA).re - 2 * (-qp * Ht.miA * conj
    H.miA).re + 2 * 2 * (-qp * Ht.zeA * conj H.zeA).re - 2 * (-2 * (-qp * Ht.plT * conj H.plT).re - 2 *
    (-qp * Ht.miT * conj H.miT).re + 2 * 2 * (-qp * Ht.zeT * conj H.zeT).re) - 4 * (-2 * (-qp * Ht.plTt *
    conj H.plTt).re - 2 * (-qp * Ht.miTt * conj H.miTt).re + 2 * 2 * (-qp * Ht.zeTt * conj H.zeTt).re))

/-- `G[2,0,0]` of `angularcoeffs_h_Gbasis_v` (before the prefactor).
/repo/flavio/physics/bdecays/angular.py:130-137. -/
noncomputable def h200 (qp : ℂ) (H Ht : AmpV) (la E1 E2 ml1 ml2 q2 : ℝ) : ℝ :=
    -4 / 9 * (3 * E1 * E2 + la / (4 * q2)) * (2 * (-qp * Ht.plV * conj H.plV).re + 2 * (-qp * Ht.miV * conj
    H.miV).re - 2 * 2 * (-qp * Ht.zeV * conj H.zeV).re + 2 * (-qp * Ht.plA * conj H.plA).re + 2 * (-qp *
    Ht.miA * conj H.miA).re - 2 * 2 * (-qp * Ht.zeA * conj H.zeA).re) - 4 * ml1 * ml2 / 3 * (2 * (-qp *
    Ht.plV * conj H.plV).re + 2 * (-qp * Ht.miV * conj H.miV).re - 2 * 2 * (-qp * Ht.zeV * conj H.zeV).re -
    2 * (-qp * Ht.plA * conj H.plA).re - 2 * (-qp * Ht.miA * conj H.miA).re + 2 * 2 * (-qp * Ht.zeA * conj
    H.zeA).re) + 8 / 3 * (E1 * E2 - ml1 * ml2 + la / (4 * q2)) * 2 * (-qp * Ht.S * conj H.S).re + 8 / 3 *
    (E1 * E2 + ml1 * ml2 + la / (4 * q2)) * 2 * (-qp * Ht.P * conj H.P).re - 16 / 9 * (3 * (E1 * E2 + ml1 *
    ml2) - la / (4 * q2)) * (2 * (-qp * Ht.plTt * conj H.plTt).re + 2 * (-qp * Ht.miTt * conj H.miTt).re -
    2 * 2 * (-qp * Ht.zeTt * conj H.zeTt).re) - 8 / 9 * (3 * (E1 * E2 - ml1 * ml2) - la / (4 * q2)) * (2 *
    (-qp * Ht.plT * conj H.plT).re + 2 * (-qp * Ht.miT * conj H.miT).re - 2 * 2 * (-qp * Ht.zeT * conj
    H.zeT).re) - 16 / 3 * (ml1 * E2 + ml2 * E1) * (-qp * Ht.plV * conj H.plTt + conj (-qp) * H.plV * conj
    Ht.plTt + (-qp * Ht.miV * conj H.miTt + conj (-qp) * H.miV * conj Ht.miTt) - 2 * (-qp * Ht.zeV * conj
    H.zeTt + conj (-qp) * H.zeV * conj Ht.zeTt)).im - 8 * Real.sqrt 2 / 3 * (ml1 * E2 - ml2 * E1) * (-qp *
    Ht.plA * conj H.plT + conj (-qp) * H.plA * conj Ht.plT + (-qp * Ht.miA * conj H.miT + conj (-qp) *
    H.miA * conj Ht.miT) - 2 * (-qp * Ht.zeA * conj H.zeT + conj (-qp) * H.zeA * conj Ht.zeT)).im

/-- `G[2,1,0]` of `angularcoeffs_h_Gbasis_v` (before the prefactor).
/repo/flavio/physics/bdecays/angular.py:138-143. -/
noncomputable def h210 (qp : ℂ) (H Ht : AmpV) (la E1 E2 ml1 ml2 q2 : ℝ) : ℝ :=
    -4 * Real.sqrt la / 3 * ((-qp * Ht.plV * conj H.plA + conj (-qp) * H.plV * conj Ht.plA - (-qp * Ht.miV
    * conj H.miA + conj (-qp) * H.miV * conj Ht.miA)).re + 2 * Real.sqrt 2 * (ml1 ^ 2 - ml2 ^ 2) / q2 *
    (-qp * Ht.plT * conj H.plTt + conj (-qp) * H.plT * conj Ht.plTt - (-qp * Ht.miT * conj H.miTt + conj
    (-qp) * H.miT * conj Ht.miTt)).re + 2 * (ml1 + ml2) / Real.sqrt q2 * (-qp * Ht.plA * conj H.plTt + conj
    (-qp) * H.plA * conj Ht.plTt - (-qp * Ht.miA * conj H.miTt + conj (-qp) * H.miA * conj Ht.miTt)).im +
    Real.sqrt 2 * (ml1 - ml2) / Real.sqrt q2 * (-qp * Ht.plV * conj H.plT + conj (-qp) * H.plV * conj
    Ht.plT - (-qp * Ht.miV * conj H.miT + conj (-qp) * H.miV * conj Ht.miT)).im + 2 * (ml1 - ml2) /
    Real.sqrt q2 * (-qp * Ht.zeA * conj H.P + conj (-qp) * H.zeA * conj Ht.P).re + 2 * (ml1 + ml2) /
    Real.sqrt q2 * (-qp * Ht.zeV * conj H.S + conj (-qp) * H.zeV * conj Ht.S).re - 2 * (((Real.sqrt 2 : ℝ)
    : ℂ) * (-qp * Ht.zeT * conj H.P + conj (-qp) * H.zeT * conj Ht.P) + 2 * (-qp * Ht.zeTt * conj H.S +
    conj (-qp) * H.zeTt * conj Ht.S)).im)

/-- `G[2,2,0]` of `angularcoeffs_h_Gbasis_v` (before the prefactor).
/repo/flavio/physics/bdecays/angular.py:144-145. -/
noncomputable def h220 (qp : ℂ) (H Ht : AmpV) (la E1 E2 ml1 ml2 q2 : ℝ) : ℝ :=
    -2 / 9 * la / q2 * (2 * (-qp * Ht.plV * conj H.plV).re + 2 * (-qp * Ht.miV * conj H.miV).re + 4 * 2 *
    (-qp * Ht.zeV * conj H.zeV).re + 2 * (-qp * Ht.plA * conj H.plA).re + 2 * (-qp * Ht.miA * conj
    H.miA).re + 4 * 2 * (-qp * Ht.zeA * conj H.zeA).re - 2 * (2 * (-qp * Ht.plT * conj H.plT).re + 2 * (-qp
    * Ht.miT * conj H.miT).re + 4 * 2 * (-qp * Ht.zeT * conj H.zeT).re) - 4 * (2 * (-qp * Ht.plTt * conj
    H.plTt).re + 2 * (-qp * Ht.miTt * conj H.miTt).re + 4 * 2 * (-qp * Ht.zeTt * conj H.zeTt).re))

/-- `G[2,1,1]` of `angularcoeffs_h_Gbasis_v` (before the prefactor).
/repo/flavio/physics/bdecays/angular.py:146-152. -/
noncomputable def h211 (qp : ℂ) (H Ht : AmpV) (la E1 E2 ml1 ml2 q2 : ℝ) : ℂ :=
    ((4 / Real.sqrt 3 * Real.sqrt la : ℝ) : ℂ) * (-qp * Ht.plV * conj H.zeA + conj (-qp) * H.plV * conj
    Ht.zeA + (-qp * Ht.plA * conj H.zeV + conj (-qp) * H.plA * conj Ht.zeV) - (-qp * Ht.zeV * conj H.miA +
    conj (-qp) * H.zeV * conj Ht.miA) - (-qp * Ht.zeA * conj H.miV + conj (-qp) * H.zeA * conj Ht.miV) +
    (((ml1 + ml2) / Real.sqrt q2 : ℝ) : ℂ) * (-qp * Ht.plV * conj H.S + conj (-qp) * H.plV * conj Ht.S +
    (-qp * Ht.S * conj H.miV + conj (-qp) * H.S * conj Ht.miV)) - ((Real.sqrt 2 : ℝ) : ℂ) * I * (-qp * Ht.P
    * conj H.miT + conj (-qp) * H.P * conj Ht.miT - (-qp * Ht.plT * conj H.P + conj (-qp) * H.plT * conj
    Ht.P) + ((Real.sqrt 2 : ℝ) : ℂ) * (-qp * Ht.S * conj H.miTt + conj (-qp) * H.S * conj Ht.miTt - (-qp *
    Ht.plTt * conj H.S + conj (-qp) * H.plTt * conj Ht.S))) + (((ml1 - ml2) / Real.sqrt q2 : ℝ) : ℂ) * (-qp
    * Ht.plA * conj H.P + conj (-qp) * H.plA * conj Ht.P + (-qp * Ht.P * conj H.miA + conj (-qp) * H.P *
    conj Ht.miA)) - 2 * I * ((ml1 + ml2 : ℝ) : ℂ) / ((Real.sqrt q2 : ℝ) : ℂ) * (-qp * Ht.plA * conj H.zeTt
    + conj (-qp) * H.plA * conj Ht.zeTt + (-qp * Ht.zeTt * conj H.miA + conj (-qp) * H.zeTt * conj Ht.miA)
    - (-qp * Ht.plTt * conj H.zeA + conj (-qp) * H.plTt * conj Ht.zeA) - (-qp * Ht.zeA * conj H.miTt + conj
    (-qp) * H.zeA * conj Ht.miTt)) - ((Real.sqrt 2 : ℝ) : ℂ) * I * ((ml1 - ml2 : ℝ) : ℂ) / ((Real.sqrt q2 :
    ℝ) : ℂ) * (-qp * Ht.plV * conj H.zeT + conj (-qp) * H.plV * conj Ht.zeT + (-qp * Ht.zeT * conj H.miV +
    conj (-qp) * H.zeT * conj Ht.miV) - (-qp * Ht.plT * conj H.zeV + conj (-qp) * H.plT * conj Ht.zeV) -
    (-qp * Ht.zeV * conj H.miT + conj (-qp) * H.zeV * conj Ht.miT)) + ((2 * Real.sqrt 2 * (ml1 ^ 2 - ml2 ^
    2) / q2 : ℝ) : ℂ) * (-qp * Ht.plT * conj H.zeTt + conj (-qp) * H.plT * conj Ht.zeTt + (-qp * Ht.plTt *
    conj H.zeT + conj (-qp) * H.plTt * conj Ht.zeT) - (-qp * Ht.zeT * conj H.miTt + conj (-qp) * H.zeT *
    conj Ht.miTt) - (-qp * Ht.zeTt * conj H.miT + conj (-qp) * H.zeTt * conj Ht.miT)))

/-- `G[2,2,1]` of `angularcoeffs_h_Gbasis_v` (before the prefactor).
/repo/flavio/physics/bdecays/angular.py:153-154. -/
noncomputable def h221 (qp : ℂ) (H Ht : AmpV) (la E1 E2 ml1 ml2 q2 : ℝ) : ℂ :=
    ((4 / 3 * la / q2 : ℝ) : ℂ) * (-qp * Ht.plV * conj H.zeV + conj (-qp) * H.plV * conj Ht.zeV + (-qp *
    Ht.zeV * conj H.miV + conj (-qp) * H.zeV * conj Ht.miV) + (-qp * Ht.plA * conj H.zeA + conj (-qp) *
    H.plA * conj Ht.zeA) + (-qp * Ht.zeA * conj H.miA + conj (-qp) * H.zeA * conj Ht.miA) - 2 * (-qp *
    Ht.plT * conj H.zeT + conj (-qp) * H.plT * conj Ht.zeT + (-qp * Ht.zeT * conj H.miT + conj (-qp) *
    H.zeT * conj Ht.miT) + 2 * (-qp * Ht.plTt * conj H.zeTt + conj (-qp) * H.plTt * conj Ht.zeTt + (-qp *
    Ht.zeTt * conj H.miTt + conj (-qp) * H.zeTt * conj Ht.miTt))))

/-- `G[2,2,2]` of `angularcoeffs_h_Gbasis_v` (before the prefactor).
/repo/flavio/physics/bdecays/angular.py:155-155. -/
noncomputable def h222 (qp : ℂ) (H Ht : AmpV) (la E1 E2 ml1 ml2 q2 : ℝ) : ℂ :=
    ((-8 / 3 * la / q2 : ℝ) : ℂ) * (-qp * Ht.plV * conj H.miV + conj (-qp) * H.plV * conj Ht.miV + (-qp *
    Ht.plA * conj H.miA + conj (-qp) * H.plA * conj Ht.miA) - 2 * (-qp * Ht.plT * conj H.miT + conj (-qp) *
    H.plT * conj Ht.miT + 2 * (-qp * Ht.plTt * conj H.miTt + conj (-qp) * H.plTt * conj Ht.miTt)))

/-- `angularcoeffs_h_Gbasis_v` without the prefactor, as a function of `qp` (the code sets `qp = -exp(i phi)`).
/repo/flavio/physics/bdecays/angular.py:102-155. -/
noncomputable def hbasisV0 (qp : ℂ) (H Ht : AmpV) (q2 ml1 ml2 : ℝ) : GV :=
  let la := laGa q2 ml1 ml2
  let E1 := energy q2 ml1 ml2 ml1
  let E2 := energy q2 ml1 ml2 ml2
  { g000 := h000 qp H Ht la E1 E2 ml1 ml2 q2
    g010 := h010 qp H Ht la E1 E2 ml1 ml2 q2
    g020 := h020 qp H Ht la E1 E2 ml1 ml2 q2
    g200 := h200 qp H Ht la E1 E2 ml1 ml2 q2
    g210 := h210 qp H Ht la E1 E2 ml1 ml2 q2
    g220 := h220 qp H Ht la E1 E2 ml1 ml2 q2
    g211 := h211 qp H Ht la E1 E2 ml1 ml2 q2
    g221 := h221 qp H Ht la E1 E2 ml1 ml2 q2
    g222 := h222 qp H Ht la E1 E2 ml1 ml2 q2 }

/-- `angularcoeffs_h_Gbasis_v`.  /repo/flavio/physics/bdecays/angular.py:102-157. -/
noncomputable def hbasisV (phi : ℝ) (H Ht : AmpV) (q2 mB mV ml1 ml2 : ℝ) : GV :=
  (hbasisV0 (-Complex.exp (I * phi)) H Ht q2 ml1 ml2).scale (phaseSpace (2 ^ 9 * Real.pi ^ 3) q2 mB mV ml1 ml2)

/-- `angularcoeffs_h_v`.  /repo/flavio/physics/bdecays/angular.py:182-187. -/
noncomputable def angularHV (phi : ℝ) (H Ht : AmpV) (q2 mB mV ml1 ml2 : ℝ) : JV :=
  signflip (gToG (hbasisV phi H Ht q2 mB mV ml1 ml2))

/-- **Specification.** Sum of two sets of amplitudes. -/
def AmpV.add (H K : AmpV) : AmpV :=
  ⟨H.plV + K.plV, H.miV + K.miV, H.zeV + K.zeV, H.plA + K.plA, H.miA + K.miA, H.zeA + K.zeA, H.plT + K.plT,
   H.miT + K.miT, H.zeT + K.zeT, H.plTt + K.plTt, H.miTt + K.miTt, H.zeTt + K.zeTt, H.S + K.S, H.P + K.P⟩

/-- **Specification.** All amplitudes multiplied by a complex number. -/
def AmpV.smul (w : ℂ) (H : AmpV) : AmpV :=
  ⟨w * H.plV, w * H.miV, w * H.zeV, w * H.plA, w * H.miA, w * H.zeA, w * H.plT, w * H.miT, w * H.zeT, w * H.plTt,
   w * H.miTt, w * H.zeTt, w * H.S, w * H.P⟩

theorem pol_sq (a b : ℂ) : ‖a + b‖ ^ 2 = ‖a‖ ^ 2 + ‖b‖ ^ 2 + 2 * (b * conj a).re := by
  rw [Complex.sq_norm, Complex.sq_norm, Complex.sq_norm, normSq_add]
  simp; ring

theorem pol000 (qp : ℂ) (H Ht : AmpV) (la E1 E2 m1 m2 q2 : ℝ) : h000 qp H Ht la E1 E2 m1 m2 q2
    = g000 (H.add (Ht.smul (-qp))) la E1 E2 m1 m2 q2 - g000 H la E1 E2 m1 m2 q2
      - g000 (Ht.smul (-qp)) la E1 E2 m1 m2 q2 := by
  unfold h000 g000 AmpV.add AmpV.smul
  simp only [pol_sq, map_add, map_mul, mul_add, add_mul, add_re, add_im, sub_re, sub_im, mul_assoc]
  ring_nf

theorem pol010 (qp : ℂ) (H Ht : AmpV) (la E1 E2 m1 m2 q2 : ℝ) : h010 qp H Ht la E1 E2 m1 m2 q2
    = g010 (H.add (Ht.smul (-qp))) la E1 E2 m1 m2 q2 - g010 H la E1 E2 m1 m2 q2
      - g010 (Ht.smul (-qp)) la E1 E2 m1 m2 q2 := by
  unfold h010 g010 AmpV.add AmpV.smul
  simp only [pol_sq, map_add, map_mul, mul_add, add_mul, add_re, add_im, sub_re, sub_im, mul_assoc]
  ring_nf

theorem pol020 (qp : ℂ) (H Ht : AmpV) (la E1 E2 m1 m2 q2 : ℝ) : h020 qp H Ht la E1 E2 m1 m2 q2
    = g020 (H.add (Ht.smul (-qp))) la E1 E2 m1 m2 q2 - g020 H la E1 E2 m1 m2 q2
      - g020 (Ht.smul (-qp)) la E1 E2 m1 m2 q2 := by
  unfold h020 g020 AmpV.add AmpV.smul
  simp only [pol_sq, map_add, map_mul, mul_add, add_mul, add_re, add_im, sub_re, sub_im, mul_assoc]
  ring_nf

theorem pol200 (qp : ℂ) (H Ht : AmpV) (la E1 E2 m1 m2 q2 : ℝ) : h200 qp H Ht la E1 E2 m1 m2 q2
    = g200 (H.add (Ht.smul (-qp))) la E1 E2 m1 m2 q2 - g200 H la E1 E2 m1 m2 q2
      - g200 (Ht.smul (-qp)) la E1 E2 m1 m2 q2 := by
  unfold h200 g200 AmpV.add AmpV.smul
  simp only [pol_sq, map_add, map_mul, mul_add, add_mul, add_re, add_im, sub_re, sub_im, mul_assoc]
  ring_nf

theorem pol210 (qp : ℂ) (H Ht : AmpV) (la E1 E2 m1 m2 q2 : ℝ) : h210 qp H Ht la E1 E2 m1 m2 q2
    = g210 (H.add (Ht.smul (-qp))) la E1 E2 m1 m2 q2 - g210 H la E1 E2 m1 m2 q2
      - g210 (Ht.smul (-qp)) la E1 E2 m1 m2 q2 := by
  unfold h210 g210 AmpV.add AmpV.smul
  simp only [pol_sq, map_add, map_mul, mul_add, add_mul, add_re, add_im, sub_re, sub_im, mul_assoc]
  ring_nf

theorem pol220 (qp : ℂ) (H Ht : AmpV) (la E1 E2 m1 m2 q2 : ℝ) : h220 qp H Ht la E1 E2 m1 m2 q2
    = g220 (H.add (Ht.smul (-qp))) la E1 E2 m1 m2 q2 - g220 H la E1 E2 m1 m2 q2
      - g220 (Ht.smul (-qp)) la E1 E2 m1 m2 q2 := by
  unfold h220 g220 AmpV.add AmpV.smul
  simp only [pol_sq, map_add, map_mul, mul_add, add_mul, add_re, add_im, sub_re, sub_im, mul_assoc]
  ring_nf

theorem pol211 (qp : ℂ) (H Ht : AmpV) (la E1 E2 m1 m2 q2 : ℝ) : h211 qp H Ht la E1 E2 m1 m2 q2
    = g211 (H.add (Ht.smul (-qp))) la E1 E2 m1 m2 q2 - g211 H la E1 E2 m1 m2 q2
      - g211 (Ht.smul (-qp)) la E1 E2 m1 m2 q2 := by
  unfold h211 g211 AmpV.add AmpV.smul
  simp only [map_add, map_mul]
  ring

theorem pol221 (qp : ℂ) (H Ht : AmpV) (la E1 E2 m1 m2 q2 : ℝ) : h221 qp H Ht la E1 E2 m1 m2 q2
    = g221 (H.add (Ht.smul (-qp))) la E1 E2 m1 m2 q2 - g221 H la E1 E2 m1 m2 q2
      - g221 (Ht.smul (-qp)) la E1 E2 m1 m2 q2 := by
  unfold h221 g221 AmpV.add AmpV.smul
  simp only [map_add, map_mul]
  ring

theorem pol222 (qp : ℂ) (H Ht : AmpV) (la E1 E2 m1 m2 q2 : ℝ) : h222 qp H Ht la E1 E2 m1 m2 q2
    = g222 (H.add (Ht.smul (-qp))) la E1 E2 m1 m2 q2 - g222 H la E1 E2 m1 m2 q2
      - g222 (Ht.smul (-qp)) la E1 E2 m1 m2 q2 := by
  unfold h222 g222 AmpV.add AmpV.smul
  simp only [map_add, map_mul]
  ring

end Verif.Angular
