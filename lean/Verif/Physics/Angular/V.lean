import Mathlib.Analysis.Complex.Norm
import Mathlib.Analysis.Complex.Trigonometric
import Mathlib.Analysis.Real.Pi.Bounds
import Verif.Physics.Angular.Kinematics
/-!
# `B → V ℓ₁ ℓ₂`: angular coefficients (`flavio/physics/bdecays/angular.py`)

The entries of the `G` basis are transcribed term by term from the source.
-/
set_option linter.unusedVariables false
namespace Verif.Angular
open Verif.Common Complex ComplexConjugate

/-- The dictionary of helicity amplitudes `H` of a `B → V` transition: keys `('pl'|'mi'|'0', 'V'|'A'|'T'|'Tt')`
(`'0'` is written `ze`), `'S'` and `'P'`.  /repo/flavio/physics/bdecays/angular.py:21-38. -/
structure AmpV where
  plV : ℂ
  miV : ℂ
  zeV : ℂ
  plA : ℂ
  miA : ℂ
  zeA : ℂ
  plT : ℂ
  miT : ℂ
  zeT : ℂ
  plTt : ℂ
  miTt : ℂ
  zeTt : ℂ
  S : ℂ
  P : ℂ

/-- `G[0,0,0]` of `angularcoeffs_general_Gbasis_v` (before the prefactor).
/repo/flavio/physics/bdecays/angular.py:54-61. -/
noncomputable def g000 (H : AmpV) (la E1 E2 ml1 ml2 q2 : ℝ) : ℝ :=
    4 / 9 * (3 * E1 * E2 + la / (4 * q2)) * (‖H.plV‖ ^ 2 + ‖H.miV‖ ^ 2 + ‖H.zeV‖ ^ 2 + ‖H.plA‖ ^ 2 +
    ‖H.miA‖ ^ 2 + ‖H.zeA‖ ^ 2) + 4 * ml1 * ml2 / 3 * (‖H.plV‖ ^ 2 + ‖H.miV‖ ^ 2 + ‖H.zeV‖ ^ 2 - ‖H.plA‖ ^ 2
    - ‖H.miA‖ ^ 2 - ‖H.zeA‖ ^ 2) + 4 / 3 * (E1 * E2 - ml1 * ml2 + la / (4 * q2)) * ‖H.S‖ ^ 2 + 4 / 3 * (E1
    * E2 + ml1 * ml2 + la / (4 * q2)) * ‖H.P‖ ^ 2 + 16 / 9 * (3 * (E1 * E2 + ml1 * ml2) - la / (4 * q2)) *
    (‖H.plTt‖ ^ 2 + ‖H.miTt‖ ^ 2 + ‖H.zeTt‖ ^ 2) + 8 / 9 * (3 * (E1 * E2 - ml1 * ml2) - la / (4 * q2)) *
    (‖H.plT‖ ^ 2 + ‖H.miT‖ ^ 2 + ‖H.zeT‖ ^ 2) + 16 / 3 * (ml1 * E2 + ml2 * E1) * (H.plV * conj H.plTt +
    H.miV * conj H.miTt + H.zeV * conj H.zeTt).im + 8 * Real.sqrt 2 / 3 * (ml1 * E2 - ml2 * E1) * (H.plA *
    conj H.plT + H.miA * conj H.miT + H.zeA * conj H.zeT).im

/-- `G[0,1,0]` of `angularcoeffs_general_Gbasis_v` (before the prefactor).
/repo/flavio/physics/bdecays/angular.py:62-69. -/
noncomputable def g010 (H : AmpV) (la E1 E2 ml1 ml2 q2 : ℝ) : ℝ :=
    4 * Real.sqrt la / 3 * ((H.plV * conj H.plA - H.miV * conj H.miA).re + 2 * Real.sqrt 2 / q2 * (ml1 ^ 2
    - ml2 ^ 2) * (H.plT * conj H.plTt - H.miT * conj H.miTt).re + 2 * (ml1 + ml2) / Real.sqrt q2 * (H.plA *
    conj H.plTt - H.miA * conj H.miTt).im + Real.sqrt 2 * (ml1 - ml2) / Real.sqrt q2 * (H.plV * conj H.plT
    - H.miV * conj H.miT).im - (ml1 - ml2) / Real.sqrt q2 * (H.zeA * conj H.P).re - (ml1 + ml2) / Real.sqrt
    q2 * (H.zeV * conj H.S).re + (((Real.sqrt 2 : ℝ) : ℂ) * H.zeT * conj H.P + 2 * H.zeTt * conj H.S).im)

/-- `G[0,2,0]` of `angularcoeffs_general_Gbasis_v` (before the prefactor).
/repo/flavio/physics/bdecays/angular.py:70-72. -/
noncomputable def g020 (H : AmpV) (la E1 E2 ml1 ml2 q2 : ℝ) : ℝ :=
    -2 / 9 * la / q2 * (-‖H.plV‖ ^ 2 - ‖H.miV‖ ^ 2 + 2 * ‖H.zeV‖ ^ 2 - ‖H.plA‖ ^ 2 - ‖H.miA‖ ^ 2 + 2 *
    ‖H.zeA‖ ^ 2 - 2 * (-‖H.plT‖ ^ 2 - ‖H.miT‖ ^ 2 + 2 * ‖H.zeT‖ ^ 2) - 4 * (-‖H.plTt‖ ^ 2 - ‖H.miTt‖ ^ 2 +
    2 * ‖H.zeTt‖ ^ 2))

/-- `G[2,0,0]` of `angularcoeffs_general_Gbasis_v` (before the prefactor).
/repo/flavio/physics/bdecays/angular.py:73-80. -/
noncomputable def g200 (H : AmpV) (la E1 E2 ml1 ml2 q2 : ℝ) : ℝ :=
    -4 / 9 * (3 * E1 * E2 + la / (4 * q2)) * (‖H.plV‖ ^ 2 + ‖H.miV‖ ^ 2 - 2 * ‖H.zeV‖ ^ 2 + ‖H.plA‖ ^ 2 +
    ‖H.miA‖ ^ 2 - 2 * ‖H.zeA‖ ^ 2) - 4 * ml1 * ml2 / 3 * (‖H.plV‖ ^ 2 + ‖H.miV‖ ^ 2 - 2 * ‖H.zeV‖ ^ 2 -
    ‖H.plA‖ ^ 2 - ‖H.miA‖ ^ 2 + 2 * ‖H.zeA‖ ^ 2) + 8 / 3 * (E1 * E2 - ml1 * ml2 + la / (4 * q2)) * ‖H.S‖ ^
    2 + 8 / 3 * (E1 * E2 + ml1 * ml2 + la / (4 * q2)) * ‖H.P‖ ^ 2 - 16 / 9 * (3 * (E1 * E2 + ml1 * ml2) -
    la / (4 * q2)) * (‖H.plTt‖ ^ 2 + ‖H.miTt‖ ^ 2 - 2 * ‖H.zeTt‖ ^ 2) - 8 / 9 * (3 * (E1 * E2 - ml1 * ml2)
    - la / (4 * q2)) * (‖H.plT‖ ^ 2 + ‖H.miT‖ ^ 2 - 2 * ‖H.zeT‖ ^ 2) - 16 / 3 * (ml1 * E2 + ml2 * E1) *
    (H.plV * conj H.plTt + H.miV * conj H.miTt - 2 * H.zeV * conj H.zeTt).im - 8 * Real.sqrt 2 / 3 * (ml1 *
    E2 - ml2 * E1) * (H.plA * conj H.plT + H.miA * conj H.miT - 2 * H.zeA * conj H.zeT).im

/-- `G[2,1,0]` of `angularcoeffs_general_Gbasis_v` (before the prefactor).
/repo/flavio/physics/bdecays/angular.py:81-86. -/
noncomputable def g210 (H : AmpV) (la E1 E2 ml1 ml2 q2 : ℝ) : ℝ :=
    -4 * Real.sqrt la / 3 * ((H.plV * conj H.plA - H.miV * conj H.miA).re + 2 * Real.sqrt 2 * (ml1 ^ 2 -
    ml2 ^ 2) / q2 * (H.plT * conj H.plTt - H.miT * conj H.miTt).re + 2 * (ml1 + ml2) / Real.sqrt q2 *
    (H.plA * conj H.plTt - H.miA * conj H.miTt).im + Real.sqrt 2 * (ml1 - ml2) / Real.sqrt q2 * (H.plV *
    conj H.plT - H.miV * conj H.miT).im + 2 * (ml1 - ml2) / Real.sqrt q2 * (H.zeA * conj H.P).re + 2 * (ml1
    + ml2) / Real.sqrt q2 * (H.zeV * conj H.S).re - 2 * (((Real.sqrt 2 : ℝ) : ℂ) * H.zeT * conj H.P + 2 *
    H.zeTt * conj H.S).im)

/-- `G[2,2,0]` of `angularcoeffs_general_Gbasis_v` (before the prefactor).
/repo/flavio/physics/bdecays/angular.py:87-88. -/
noncomputable def g220 (H : AmpV) (la E1 E2 ml1 ml2 q2 : ℝ) : ℝ :=
    -2 / 9 * la / q2 * (‖H.plV‖ ^ 2 + ‖H.miV‖ ^ 2 + 4 * ‖H.zeV‖ ^ 2 + ‖H.plA‖ ^ 2 + ‖H.miA‖ ^ 2 + 4 *
    ‖H.zeA‖ ^ 2 - 2 * (‖H.plT‖ ^ 2 + ‖H.miT‖ ^ 2 + 4 * ‖H.zeT‖ ^ 2) - 4 * (‖H.plTt‖ ^ 2 + ‖H.miTt‖ ^ 2 + 4
    * ‖H.zeTt‖ ^ 2))

/-- `G[2,1,1]` of `angularcoeffs_general_Gbasis_v` (before the prefactor).
/repo/flavio/physics/bdecays/angular.py:89-95. -/
noncomputable def g211 (H : AmpV) (la E1 E2 ml1 ml2 q2 : ℝ) : ℂ :=
    ((4 / Real.sqrt 3 * Real.sqrt la : ℝ) : ℂ) * (H.plV * conj H.zeA + H.plA * conj H.zeV - H.zeV * conj
    H.miA - H.zeA * conj H.miV + (((ml1 + ml2) / Real.sqrt q2 : ℝ) : ℂ) * (H.plV * conj H.S + H.S * conj
    H.miV) - ((Real.sqrt 2 : ℝ) : ℂ) * I * (H.P * conj H.miT - H.plT * conj H.P + ((Real.sqrt 2 : ℝ) : ℂ) *
    (H.S * conj H.miTt - H.plTt * conj H.S)) + (((ml1 - ml2) / Real.sqrt q2 : ℝ) : ℂ) * (H.plA * conj H.P +
    H.P * conj H.miA) - 2 * I * ((ml1 + ml2 : ℝ) : ℂ) / ((Real.sqrt q2 : ℝ) : ℂ) * (H.plA * conj H.zeTt +
    H.zeTt * conj H.miA - H.plTt * conj H.zeA - H.zeA * conj H.miTt) - ((Real.sqrt 2 : ℝ) : ℂ) * I * ((ml1
    - ml2 : ℝ) : ℂ) / ((Real.sqrt q2 : ℝ) : ℂ) * (H.plV * conj H.zeT + H.zeT * conj H.miV - H.plT * conj
    H.zeV - H.zeV * conj H.miT) + ((2 * Real.sqrt 2 * (ml1 ^ 2 - ml2 ^ 2) / q2 : ℝ) : ℂ) * (H.plT * conj
    H.zeTt + H.plTt * conj H.zeT - H.zeT * conj H.miTt - H.zeTt * conj H.miT))

/-- `G[2,2,1]` of `angularcoeffs_general_Gbasis_v` (before the prefactor).
/repo/flavio/physics/bdecays/angular.py:96-97. -/
noncomputable def g221 (H : AmpV) (la E1 E2 ml1 ml2 q2 : ℝ) : ℂ :=
    ((4 / 3 * la / q2 : ℝ) : ℂ) * (H.plV * conj H.zeV + H.zeV * conj H.miV + H.plA * conj H.zeA + H.zeA *
    conj H.miA - 2 * (H.plT * conj H.zeT + H.zeT * conj H.miT + 2 * (H.plTt * conj H.zeTt + H.zeTt * conj
    H.miTt)))

/-- `G[2,2,2]` of `angularcoeffs_general_Gbasis_v` (before the prefactor).
/repo/flavio/physics/bdecays/angular.py:98-98. -/
noncomputable def g222 (H : AmpV) (la E1 E2 ml1 ml2 q2 : ℝ) : ℂ :=
    ((-8 / 3 * la / q2 : ℝ) : ℂ) * (H.plV * conj H.miV + H.plA * conj H.miA - 2 * (H.plT * conj H.miT + 2 *
    H.plTt * conj H.miTt))

/-- The dictionary `G` returned by the two `G`-basis functions.  /repo/flavio/physics/bdecays/angular.py:53-100. -/
structure GV where
  g000 : ℝ
  g010 : ℝ
  g020 : ℝ
  g200 : ℝ
  g210 : ℝ
  g220 : ℝ
  g211 : ℂ
  g221 : ℂ
  g222 : ℂ

/-- `{k: prefactor*v for k, v in G.items()}`.  /repo/flavio/physics/bdecays/angular.py:100 and :157. -/
noncomputable def GV.scale (f : ℝ) (G : GV) : GV :=
  { g000 := f * G.g000, g010 := f * G.g010, g020 := f * G.g020, g200 := f * G.g200, g210 := f * G.g210,
    g220 := f * G.g220, g211 := (f : ℂ) * G.g211, g221 := (f : ℂ) * G.g221, g222 := (f : ℂ) * G.g222 }

/-- `angularcoeffs_general_Gbasis_v` without the prefactor.  /repo/flavio/physics/bdecays/angular.py:47-98. -/
noncomputable def gbasisV0 (H : AmpV) (q2 ml1 ml2 : ℝ) : GV :=
  let la := laGa q2 ml1 ml2
  let E1 := energy q2 ml1 ml2 ml1
  let E2 := energy q2 ml1 ml2 ml2
  { g000 := g000 H la E1 E2 ml1 ml2 q2, g010 := g010 H la E1 E2 ml1 ml2 q2
    g020 := g020 H la E1 E2 ml1 ml2 q2, g200 := g200 H la E1 E2 ml1 ml2 q2
    g210 := g210 H la E1 E2 ml1 ml2 q2, g220 := g220 H la E1 E2 ml1 ml2 q2
    g211 := g211 H la E1 E2 ml1 ml2 q2, g221 := g221 H la E1 E2 ml1 ml2 q2
    g222 := g222 H la E1 E2 ml1 ml2 q2 }

/-- `angularcoeffs_general_Gbasis_v` (the quark masses passed by the caller are not used by the function).
/repo/flavio/physics/bdecays/angular.py:47-100. -/
noncomputable def gbasisV (H : AmpV) (q2 mB mV ml1 ml2 : ℝ) : GV :=
  (gbasisV0 H q2 ml1 ml2).scale (phaseSpace (2 ^ 9 * Real.pi ^ 3) q2 mB mV ml1 ml2)

/-- A dictionary of the twelve angular coefficients (keys `'1s' '1c' '2s' '2c' '6s' '6c' 3 4 5 7 8 9`).
/repo/flavio/physics/bdecays/angular.py:159-173. -/
structure JV where
  j1s : ℝ
  j1c : ℝ
  j2s : ℝ
  j2c : ℝ
  j6s : ℝ
  j6c : ℝ
  j3 : ℝ
  j4 : ℝ
  j5 : ℝ
  j7 : ℝ
  j8 : ℝ
  j9 : ℝ

/-- `G_to_g`.  /repo/flavio/physics/bdecays/angular.py:159-173. -/
noncomputable def gToG (G : GV) : JV :=
  { j1s := 1 / 32 * (8 * G.g000 + 2 * G.g020 - 4 * G.g200 - G.g220)
    j1c := 1 / 16 * (4 * G.g000 + G.g020 + 4 * G.g200 + G.g220)
    j2s := 3 / 32 * (2 * G.g020 - G.g220)
    j2c := 3 / 16 * (G.g020 + G.g220)
    j6s := 1 / 8 * (2 * G.g010 - G.g210)
    j6c := 1 / 4 * (G.g010 + G.g210)
    j3 := 3 / 32 * G.g222.re
    j4 := 3 / 32 * G.g221.re
    j5 := Real.sqrt 3 / 16 * G.g211.re
    j7 := Real.sqrt 3 / 16 * G.g211.im
    j8 := 3 / 32 * G.g221.im
    j9 := 3 / 32 * G.g222.im }

/-- The change of convention `J = ±8*4/3 * g` with `signflip = [4, '6s', '6c', 7, 9]`.
/repo/flavio/physics/bdecays/angular.py:175-187. -/
noncomputable def signflip (g : JV) : JV :=
  { j1s := 8 * 4 / 3 * g.j1s, j1c := 8 * 4 / 3 * g.j1c, j2s := 8 * 4 / 3 * g.j2s, j2c := 8 * 4 / 3 * g.j2c
    j6s := -8 * 4 / 3 * g.j6s, j6c := -8 * 4 / 3 * g.j6c, j3 := 8 * 4 / 3 * g.j3, j4 := -8 * 4 / 3 * g.j4
    j5 := 8 * 4 / 3 * g.j5, j7 := -8 * 4 / 3 * g.j7, j8 := 8 * 4 / 3 * g.j8, j9 := -8 * 4 / 3 * g.j9 }

/-- `angularcoeffs_general_v`.  /repo/flavio/physics/bdecays/angular.py:175-180. -/
noncomputable def angularV (H : AmpV) (q2 mB mV ml1 ml2 : ℝ) : JV :=
  signflip (gToG (gbasisV H q2 mB mV ml1 ml2))

end Verif.Angular
