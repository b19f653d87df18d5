import Mathlib.Data.Complex.Basic
import Mathlib.Data.Rat.Cast.Order
import Verif.Py.Basic
/-!
# `e⁺e⁻ → W⁺W⁻`

`flavio/physics/scattering/ee_ww.py`.  The tables below were copied from the source by a script.  Energies, bin edges and
table entries are the decimal numbers of the source (rationals); a comparison `E == 161.3` of floats is modelled by equality
of rationals, so two decimals that round to the same float are not identified.  Floating point rounding of the result is not
modelled.
-/
set_option linter.unusedVariables false
namespace Verif.EeWW
open Verif.Py

/-- The SMEFT coefficients of the Warsaw basis that are read.  /repo/flavio/physics/scattering/ee_ww.py:9-15, 18-25. -/
inductive Key | W | phiWB | phiD | phil3_11 | phil3_22 | ll_1221 | phil1_11 | phie_11
deriving DecidableEq, Repr

/-- The coefficients as returned by `get_wcxf`: a coefficient that is not set is 0.
/repo/flavio/physics/scattering/ee_ww.py:110-114. -/
abbrev Coeffs := Key → ℂ

/-- `-0.196 * C['phiWB'] - 0.088 * C['phiD'] + ...`.  /repo/flavio/physics/scattering/ee_ww.py:9-15. -/
def comb (C : Coeffs) (l : List (Key × ℚ)) : ℂ := l.foldl (fun acc t => acc + (t.2 : ℂ) * C t.1) 0

/-- The table in `ee_WW`.  /repo/flavio/physics/scattering/ee_ww.py:6-107. -/
def totTable : List (ℚ × List (Key × ℚ)) :=
  [
   -- /repo/flavio/physics/scattering/ee_ww.py:8-16
   (161.3, [(.phiWB, -0.196), (.phiD, -0.088), (.phil3_11, 0.069), (.phil3_22, -0.175), (.ll_1221, 0.087), (.phil1_11, -0.001), (.phie_11, -0.001)]),
   -- /repo/flavio/physics/scattering/ee_ww.py:17-26
   (172.1, [(.W, -0.001), (.phiWB, -0.186), (.phiD, -0.086), (.phil3_11, 0.072), (.phil3_22, -0.172), (.ll_1221, 0.086), (.phil1_11, -0.005), (.phie_11, -0.006)]),
   -- /repo/flavio/physics/scattering/ee_ww.py:27-36
   (182.7, [(.W, -0.002), (.phiWB, -0.18), (.phiD, -0.085), (.phil3_11, 0.076), (.phil3_22, -0.171), (.ll_1221, 0.086), (.phil1_11, -0.009), (.phie_11, -0.009)]),
   -- /repo/flavio/physics/scattering/ee_ww.py:37-46
   (188.6, [(.W, -0.002), (.phiWB, -0.178), (.phiD, -0.085), (.phil3_11, 0.078), (.phil3_22, -0.171), (.ll_1221, 0.086), (.phil1_11, -0.012), (.phie_11, -0.011)]),
   -- /repo/flavio/physics/scattering/ee_ww.py:47-56
   (191.6, [(.W, -0.003), (.phiWB, -0.178), (.phiD, -0.086), (.phil3_11, 0.079), (.phil3_22, -0.171), (.ll_1221, 0.086), (.phil1_11, -0.013), (.phie_11, -0.012)]),
   -- /repo/flavio/physics/scattering/ee_ww.py:57-66
   (195.5, [(.W, -0.003), (.phiWB, -0.177), (.phiD, -0.085), (.phil3_11, 0.081), (.phil3_22, -0.171), (.ll_1221, 0.086), (.phil1_11, -0.014), (.phie_11, -0.013)]),
   -- /repo/flavio/physics/scattering/ee_ww.py:67-76
   (199.5, [(.W, -0.003), (.phiWB, -0.176), (.phiD, -0.085), (.phil3_11, 0.082), (.phil3_22, -0.171), (.ll_1221, 0.085), (.phil1_11, -0.016), (.phie_11, -0.013)]),
   -- /repo/flavio/physics/scattering/ee_ww.py:77-86
   (201.6, [(.W, -0.004), (.phiWB, -0.176), (.phiD, -0.086), (.phil3_11, 0.083), (.phil3_22, -0.171), (.ll_1221, 0.086), (.phil1_11, -0.016), (.phie_11, -0.014)]),
   -- /repo/flavio/physics/scattering/ee_ww.py:87-96
   (204.9, [(.W, -0.004), (.phiWB, -0.175), (.phiD, -0.086), (.phil3_11, 0.084), (.phil3_22, -0.17), (.ll_1221, 0.085), (.phil1_11, -0.018), (.phie_11, -0.014)]),
   -- /repo/flavio/physics/scattering/ee_ww.py:97-106
   (206.6, [(.W, -0.004), (.phiWB, -0.175), (.phiD, -0.086), (.phil3_11, 0.085), (.phil3_22, -0.171), (.ll_1221, 0.086), (.phil1_11, -0.018), (.phie_11, -0.015)])]

/-- `ee_WW`.  /repo/flavio/physics/scattering/ee_ww.py:6-107. -/
noncomputable def eeWW (C : Coeffs) (E : ℚ) : Except PyErr ℝ :=
  match totTable.find? (fun r => E == r.1) with
  | some r => .ok (1 + 1e6 * (comb C r.2).re)
  | none => .error .valueError

/-- A block `if (thetamin, thetamax) == ...` of `ee_WW_diff`: the edges, the SM value and the linear terms.
/repo/flavio/physics/scattering/ee_ww.py:119-121. -/
structure Bin where
  lo : ℚ
  hi : ℚ
  sm : ℚ
  lin : List (Key × ℚ)

/-- The bins at 182.66 GeV.  /repo/flavio/physics/scattering/ee_ww.py:118-148. -/
def bins0 : List Bin :=
  [
   ⟨-1, -0.8, 0.702,
     [(.phiD, -1.20275), (.phiWB, -1.90731), (.W, -0.627597), (.phie_11, -0.282334), (.phil1_11, -1.50752), (.phil3_11, 1.72957), (.phil3_22, -1.68816), (.ll_1221, 0.844082)]⟩,
   ⟨-0.8, -0.6, 0.841,
     [(.phiD, -1.29583), (.phiWB, -2.1494), (.W, -0.582821), (.phie_11, -0.301465), (.phil1_11, -1.43009), (.phil3_11, 1.84714), (.phil3_22, -1.99663), (.ll_1221, 0.998316)]⟩,
   ⟨-0.6, -0.4, 1.011,
     [(.phiD, -1.40852), (.phiWB, -2.43772), (.W, -0.527908), (.phie_11, -0.315814), (.phil1_11, -1.33484), (.phil3_11, 1.98417), (.phil3_22, -2.36628), (.ll_1221, 1.18314)]⟩,
   ⟨-0.4, -0.2, 1.181,
     [(.phiD, -1.53366), (.phiWB, -2.76037), (.W, -0.458975), (.phie_11, -0.325379), (.phil1_11, -1.21185), (.phil3_11, 2.15893), (.phil3_22, -2.81657), (.ll_1221, 1.40829)]⟩,
   ⟨-0.2, 0.0, 1.402,
     [(.phiD, -1.65497), (.phiWB, -3.08765), (.W, -0.369852), (.phie_11, -0.330162), (.phil1_11, -1.0454), (.phil3_11, 2.40228), (.phil3_22, -3.37424), (.ll_1221, 1.68712)]⟩,
   ⟨0, 0.2, 1.731,
     [(.phiD, -1.73519), (.phiWB, -3.3478), (.W, -0.250124), (.phie_11, -0.330162), (.phil1_11, -0.808946), (.phil3_11, 2.76975), (.phil3_22, -4.07596), (.ll_1221, 2.03798)]⟩,
   ⟨0.2, 0.4, 2.189,
     [(.phiD, -1.68486), (.phiWB, -3.36256), (.W, -0.0806916), (.phie_11, -0.325379), (.phil1_11, -0.453783), (.phil3_11, 3.36979), (.phil3_22, -4.96981), (.ll_1221, 2.4849)]⟩,
   ⟨0.4, 0.6, 2.822,
     [(.phiD, -1.27057), (.phiWB, -2.65627), (.W, 0.177727), (.phie_11, -0.315814), (.phil1_11, 0.120226), (.phil3_11, 4.43694), (.phil3_22, -6.10597), (.ll_1221, 3.05298)]⟩,
   ⟨0.6, 0.8, 3.806,
     [(.phiD, 0.189999), (.phiWB, 0.180739), (.W, 0.621186), (.phie_11, -0.301465), (.phil1_11, 1.15795), (.phil3_11, 6.5407), (.phil3_22, -7.46705), (.ll_1221, 3.73352)]⟩,
   ⟨0.8, 1.0, 5.434,
     [(.phiD, 4.6912), (.phiWB, 9.23155), (.W, 1.56709), (.phie_11, -0.282334), (.phil1_11, 3.46857), (.phil3_11, 10.9466), (.phil3_22, -8.69668), (.ll_1221, 4.34834)]⟩]

/-- The bins at 189.09 GeV.  /repo/flavio/physics/scattering/ee_ww.py:149-179. -/
def bins1 : List Bin :=
  [
   ⟨-1, -0.8, 0.661,
     [(.phiD, -1.07736), (.phiWB, -1.57947), (.W, -0.666332), (.phie_11, -0.339143), (.phil1_11, -1.59121), (.phil3_11, 1.74493), (.phil3_22, -1.46699), (.ll_1221, 0.733497)]⟩,
   ⟨-0.8, -0.6, 0.781,
     [(.phiD, -1.20021), (.phiWB, -1.88528), (.W, -0.625057), (.phie_11, -0.363508), (.phil1_11, -1.52971), (.phil3_11, 1.85182), (.phil3_22, -1.78514), (.ll_1221, 0.892572)]⟩,
   ⟨-0.6, -0.4, 0.928,
     [(.phiD, -1.35429), (.phiWB, -2.26048), (.W, -0.574047), (.phie_11, -0.381782), (.phil1_11, -1.45229), (.phil3_11, 1.97097), (.phil3_22, -2.16953), (.ll_1221, 1.08476)]⟩,
   ⟨-0.4, -0.2, 1.137,
     [(.phiD, -1.54063), (.phiWB, -2.71114), (.W, -0.50939), (.phie_11, -0.393964), (.phil1_11, -1.34913), (.phil3_11, 2.11777), (.phil3_22, -2.64662), (.ll_1221, 1.32331)]⟩,
   ⟨-0.2, 0.0, 1.403,
     [(.phiD, -1.75649), (.phiWB, -3.23742), (.W, -0.424752), (.phie_11, -0.400056), (.phil1_11, -1.20432), (.phil3_11, 2.31874), (.phil3_22, -3.25554), (.ll_1221, 1.62777)]⟩,
   ⟨0, 0.2, 1.715,
     [(.phiD, -1.9878), (.phiWB, -3.819), (.W, -0.309149), (.phie_11, -0.400056), (.phil1_11, -0.990249), (.phil3_11, 2.62303), (.phil3_22, -4.05586), (.ll_1221, 2.02793)]⟩,
   ⟨0.2, 0.4, 2.187,
     [(.phiD, -2.18582), (.phiWB, -4.36863), (.W, -0.141698), (.phie_11, -0.393964), (.phil1_11, -0.654462), (.phil3_11, 3.13082), (.phil3_22, -5.14082), (.ll_1221, 2.57041)]⟩,
   ⟨0.4, 0.6, 2.946,
     [(.phiD, -2.18545), (.phiWB, -4.56602), (.W, 0.122875), (.phie_11, -0.381782), (.phil1_11, -0.0832134), (.phil3_11, 4.07421), (.phil3_22, -6.65501), (.ll_1221, 3.3275)]⟩,
   ⟨0.6, 0.8, 4.122,
     [(.phiD, -1.36585), (.phiWB, -3.1581), (.W, 0.605199), (.phie_11, -0.363508), (.phil1_11, 1.02656), (.phil3_11, 6.08696), (.phil3_22, -8.77845), (.ll_1221, 4.38922)]⟩,
   ⟨0.8, 1.0, 6.253,
     [(.phiD, 2.71439), (.phiWB, 4.78193), (.W, 1.78025), (.phie_11, -0.339143), (.phil1_11, 3.86816), (.phil3_11, 10.8483), (.phil3_22, -11.4077), (.ll_1221, 5.70384)]⟩]

/-- The bins at 198.38 GeV.  /repo/flavio/physics/scattering/ee_ww.py:180-210. -/
def bins2 : List Bin :=
  [
   ⟨-1, -0.8, 0.542,
     [(.phiD, -0.891093), (.phiWB, -1.13999), (.W, -0.687801), (.phie_11, -0.398332), (.phil1_11, -1.63042), (.phil3_11, 1.73185), (.phil3_22, -1.18765), (.ll_1221, 0.593825)]⟩,
   ⟨-0.8, -0.6, 0.664,
     [(.phiD, -1.02746), (.phiWB, -1.47321), (.W, -0.652105), (.phie_11, -0.429644), (.phil1_11, -1.59301), (.phil3_11, 1.83664), (.phil3_22, -1.49608), (.ll_1221, 0.748039)]⟩,
   ⟨-0.6, -0.4, 0.835,
     [(.phiD, -1.20082), (.phiWB, -1.88519), (.W, -0.60767), (.phie_11, -0.453128), (.phil1_11, -1.54211), (.phil3_11, 1.94724), (.phil3_22, -1.86891), (.ll_1221, 0.934454)]⟩,
   ⟨-0.4, -0.2, 1.021,
     [(.phiD, -1.41938), (.phiWB, -2.39746), (.W, -0.55083), (.phie_11, -0.468784), (.phil1_11, -1.46867), (.phil3_11, 2.07634), (.phil3_22, -2.33786), (.ll_1221, 1.16893)]⟩,
   ⟨-0.2, 0.0, 1.265,
     [(.phiD, -1.6932), (.phiWB, -3.03789), (.W, -0.475536), (.phie_11, -0.476613), (.phil1_11, -1.3578), (.phil3_11, 2.24604), (.phil3_22, -2.95221), (.ll_1221, 1.4761)]⟩,
   ⟨0, 0.2, 1.666,
     [(.phiD, -2.0323), (.phiWB, -3.8387), (.W, -0.371028), (.phie_11, -0.476613), (.phil1_11, -1.18294), (.phil3_11, 2.49817), (.phil3_22, -3.79255), (.ll_1221, 1.89628)]⟩,
   ⟨0.2, 0.4, 2.161,
     [(.phiD, -2.43623), (.phiWB, -4.81872), (.W, -0.216107), (.phie_11, -0.468784), (.phil1_11, -0.891835), (.phil3_11, 2.92119), (.phil3_22, -4.99905), (.ll_1221, 2.49953)]⟩,
   ⟨0.4, 0.6, 3.003,
     [(.phiD, -2.84154), (.phiWB, -5.88317), (.W, 0.0376931), (.phie_11, -0.453128), (.phil1_11, -0.364955), (.phil3_11, 3.73339), (.phil3_22, -6.8322), (.ll_1221, 3.4161)]⟩,
   ⟨0.6, 0.8, 4.428,
     [(.phiD, -2.81406), (.phiWB, -6.20575), (.W, 0.531897), (.phie_11, -0.429644), (.phil1_11, 0.746691), (.phil3_11, 5.61057), (.phil3_22, -9.78752), (.ll_1221, 4.89376)]⟩,
   ⟨0.8, 1.0, 7.236,
     [(.phiD, 0.48308), (.phiWB, -0.169772), (.W, 1.95866), (.phie_11, -0.398332), (.phil1_11, 4.14993), (.phil3_11, 10.8574), (.phil3_22, -14.4185), (.ll_1221, 7.20925)]⟩]

/-- The bins at 205.92 GeV.  /repo/flavio/physics/scattering/ee_ww.py:211-241. -/
def bins3 : List Bin :=
  [
   ⟨-1, -0.8, 0.532,
     [(.phiD, -0.761008), (.phiWB, -0.854014), (.W, -0.687161), (.phie_11, -0.430144), (.phil1_11, -1.62101), (.phil3_11, 1.69882), (.phil3_22, -1.00547), (.ll_1221, 0.502733)]⟩,
   ⟨-0.8, -0.6, 0.642,
     [(.phiD, -0.897142), (.phiWB, -1.18526), (.W, -0.655711), (.phie_11, -0.466585), (.phil1_11, -1.60237), (.phil3_11, 1.80701), (.phil3_22, -1.29823), (.ll_1221, 0.649116)]⟩,
   ⟨-0.6, -0.4, 0.77,
     [(.phiD, -1.07023), (.phiWB, -1.5929), (.W, -0.616408), (.phie_11, -0.493916), (.phil1_11, -1.57151), (.phil3_11, 1.91745), (.phil3_22, -1.65052), (.ll_1221, 0.82526)]⟩,
   ⟨-0.4, -0.2, 0.972,
     [(.phiD, -1.29164), (.phiWB, -2.1051), (.W, -0.565886), (.phie_11, -0.512137), (.phil1_11, -1.52021), (.phil3_11, 2.04138), (.phil3_22, -2.09565), (.ll_1221, 1.04782)]⟩,
   ⟨-0.2, 0.0, 1.231,
     [(.phiD, -1.57752), (.phiWB, -2.76261), (.W, -0.498529), (.phie_11, -0.521247), (.phil1_11, -1.43482), (.phil3_11, 2.19851), (.phil3_22, -2.68666), (.ll_1221, 1.34333)]⟩,
   ⟨0, 0.2, 1.561,
     [(.phiD, -1.95043), (.phiWB, -3.6244), (.W, -0.404205), (.phie_11, -0.521247), (.phil1_11, -1.29067), (.phil3_11, 2.42638), (.phil3_22, -3.51324), (.ll_1221, 1.75662)]⟩,
   ⟨0.2, 0.4, 2.056,
     [(.phiD, -2.43792), (.phiWB, -4.76978), (.W, -0.262564), (.phie_11, -0.512137), (.phil1_11, -1.03824), (.phil3_11, 2.80557), (.phil3_22, -4.73908), (.ll_1221, 2.36954)]⟩,
   ⟨0.4, 0.6, 2.903,
     [(.phiD, -3.04602), (.phiWB, -6.25554), (.W, -0.025645), (.phie_11, -0.493916), (.phil1_11, -0.56081), (.phil3_11, 3.54114), (.phil3_22, -6.69335), (.ll_1221, 3.34668)]⟩,
   ⟨0.6, 0.8, 4.445,
     [(.phiD, -3.52096), (.phiWB, -7.6554), (.W, 0.454436), (.phie_11, -0.466585), (.phil1_11, 0.501528), (.phil3_11, 5.31438), (.phil3_22, -10.1079), (.ll_1221, 5.05394)]⟩,
   ⟨0.8, 1.0, 7.783,
     [(.phiD, -0.937901), (.phiWB, -3.27287), (.W, 2.01826), (.phie_11, -0.430144), (.phil1_11, 4.19449), (.phil3_11, 10.9353), (.phil3_22, -16.273), (.ll_1221, 8.13651)]⟩]

/-- The energies in `ee_WW_diff`.  /repo/flavio/physics/scattering/ee_ww.py:117-242. -/
def diffTable : List (ℚ × List Bin) := [(182.66, bins0), (189.09, bins1), (198.38, bins2), (205.92, bins3)]

/-- `ee_WW_diff`.  The blocks for the energies are tried one after the other; inside a block the bins are.  No energy
appears twice.  /repo/flavio/physics/scattering/ee_ww.py:117-242. -/
noncomputable def eeWWdiff (C : Coeffs) (E tmin tmax : ℚ) : Except PyErr ℝ :=
  match diffTable.find? (fun r => E == r.1) with
  | some r =>
    match r.2.find? (fun b => tmin == b.lo && tmax == b.hi) with
    | some b => .ok (((b.sm : ℂ) + 246.22 ^ 2 * comb C b.lin).re)
    | none => .error .valueError
  | none => .error .valueError

/-- `ee_WW_obs`: the coefficients are those at the scale `config['renormalization scale']['ee_ww']`; `getWcxf` is
`wc_obj.get_wcxf(sector='all', scale=scale, par=par, eft='SMEFT', basis='Warsaw')`.
/repo/flavio/physics/scattering/ee_ww.py:110-114. -/
noncomputable def eeWWobs (scale : Except PyErr ℚ) (getWcxf : ℚ → Except PyErr Coeffs) (E : ℚ) : Except PyErr ℝ := do
  let s ← scale
  let C ← getWcxf s
  eeWW C E

/-- `ee_WW_diff_obs`.  /repo/flavio/physics/scattering/ee_ww.py:244-248. -/
noncomputable def eeWWdiffObs (scale : Except PyErr ℚ) (getWcxf : ℚ → Except PyErr Coeffs) (E tmin tmax : ℚ) : Except PyErr ℝ := do
  let s ← scale
  let C ← getWcxf s
  eeWWdiff C E tmin tmax

end Verif.EeWW
