import Mathlib.Analysis.SpecialFunctions.Trigonometric.Basic
import Mathlib.Analysis.Complex.Basic
import Verif.Physics.Mixing.Box
/-!
# Higgs production, decay, width and signal strengths
(`flavio/physics/higgs/production.py`, `decay.py`, `width.py`, `signalstrength.py`)

The dictionary of SMEFT Wilson coefficients is a function from names to complex numbers (a missing name has the value 0, as in `wcxf`).
-/
set_option linter.unusedVariables false
namespace Verif.Higgs
open Verif.Py Verif.Running

/-- A dictionary of Wilson coefficients.  Argument `C` of the functions of /repo/flavio/physics/higgs/decay.py:10-118. -/
abbrev WC := String → ℂ

/-- The shift of the Fermi constant that appears in most expressions.  /repo/flavio/physics/higgs/decay.py:16. -/
noncomputable def gf (C : WC) : ℂ := C "ll_1221" / 2 - C "phil3_22" - C "phil3_11"

/-- `h_gg`.  /repo/flavio/physics/higgs/decay.py:10-22. -/
noncomputable def hGg (C : WC) : ℝ :=
  let np := 39.29 * C "phiG" + 0.121 * (C "phiBox" - C "phiD" / 4) + 0.061 * gf C - 0.129 * C "uphi_33" + 0.123 * C "uphi_22"
    + 0.239 * C "dphi_33" + 0.025 * C "dphi_22"
  1 + 10 ^ 6 * np.re

/-- `h_gaga`.  /repo/flavio/physics/higgs/decay.py:24-40. -/
noncomputable def hGaga (C : WC) : ℝ :=
  let np := -45.78 * C "phiB" - 13.75 * C "phiW" + (25.09 - 0.242) * C "phiWB" + 0.121 * C "phiBox" - 0.141 * C "phiD" + 0.127 * gf C
    + 0.035 * C "uphi_33" - 0.034 * C "uphi_22" - 0.017 * C "dphi_33" - 0.043 * C "ephi_33" - 0.008 * C "ephi_22"
  1 + 10 ^ 6 * np.re

/-- `h_ww`.  /repo/flavio/physics/higgs/decay.py:42-53. -/
noncomputable def hWw (C : WC) : ℝ :=
  let np := -0.092 * C "phiW" - 0.386 * C "phiWB" - 0.205 * C "phiD" + 0.121 * C "phiBox" + 0.144 * C "ll_1221" - 0.167 * C "phil3_11"
    - 0.167 * C "phil3_22"
  1 + 10 ^ 6 * np.re

/-- `h_zz`.  /repo/flavio/physics/higgs/decay.py:55-65. -/
noncomputable def hZz (C : WC) : ℝ :=
  let np := 0.329 * C "phiB" - 0.386 * C "phiW" + 0.149 * C "phiWB" - 0.039 * C "phiD" + 0.118 * C "phiBox" + 0.198 * gf C
  1 + 10 ^ 6 * np.re

/-- `BR_SM`.  /repo/flavio/physics/higgs/width.py:8-14. -/
noncomputable def brBB : ℝ := 0.5807
/-- `BR_SM['WW']`.  /repo/flavio/physics/higgs/width.py:10. -/
noncomputable def brWW : ℝ := 0.2154
/-- `BR_SM['ZZ']`.  /repo/flavio/physics/higgs/width.py:11. -/
noncomputable def brZZ : ℝ := 0.02643
/-- `BR_SM['gg']`.  /repo/flavio/physics/higgs/width.py:12. -/
noncomputable def brGG : ℝ := 0.08179
/-- `BR_SM['tautau']`.  /repo/flavio/physics/higgs/width.py:13. -/
noncomputable def brTT : ℝ := 0.06256

/-- `h_vv`.  /repo/flavio/physics/higgs/decay.py:67-73. -/
noncomputable def hVv (C : WC) : ℝ :=
  let dww := hWw C - 1
  let dzz := hZz C - 1
  (brWW * (1 + dww) + brZZ * (1 + dzz)) / (brWW + brZZ)

/-- `h_zga`.  /repo/flavio/physics/higgs/decay.py:75-82. -/
noncomputable def hZga (C : WC) : ℝ :=
  let np := 14.89 * C "phiB" - 14.89 * C "phiW" + 9.377 * C "phiWB"
  1 + 10 ^ 6 * np.re

/-- `h_bb`.  /repo/flavio/physics/higgs/decay.py:84-91. -/
noncomputable def hBb (C : WC) : ℝ :=
  let np := -0.03 * C "phiD" + 0.121 * C "phiBox" + 0.061 * gf C - 5.05 * C "dphi_33"
  1 + 10 ^ 6 * np.re

/-- `h_cc`.  /repo/flavio/physics/higgs/decay.py:93-100. -/
noncomputable def hCc (C : WC) : ℝ :=
  let np := -0.03 * C "phiD" + 0.121 * C "phiBox" + 0.061 * gf C - 16.49 * C "uphi_22"
  1 + 10 ^ 6 * np.re

/-- `h_tautau`.  /repo/flavio/physics/higgs/decay.py:102-109. -/
noncomputable def hTautau (C : WC) : ℝ :=
  let np := -0.03 * C "phiD" + 0.121 * C "phiBox" + 0.061 * gf C - 11.88 * C "ephi_33"
  1 + 10 ^ 6 * np.re

/-- `h_mumu`.  /repo/flavio/physics/higgs/decay.py:111-118. -/
noncomputable def hMumu (C : WC) : ℝ :=
  let np := -0.03 * C "phiD" + 0.121 * C "phiBox" + 0.061 * gf C - 199.8 * C "ephi_22"
  1 + 10 ^ 6 * np.re

/-- `ggF`.  /repo/flavio/physics/higgs/production.py:9-21. -/
noncomputable def ggF (C : WC) : ℝ :=
  let np := 35.86 * C "phiG" + 0.121 * (C "phiBox" - C "phiD" / 4) + 0.061 * gf C - 0.129 * C "uphi_33" + 0.123 * C "uphi_22"
    + 0.239 * C "dphi_33" + 0.025 * C "dphi_22"
  1 + 10 ^ 6 * np.re

/-- `hw`.  /repo/flavio/physics/higgs/production.py:23-34. -/
noncomputable def hw (C : WC) : ℝ :=
  let np := 0.891 * C "phiW" - 0.187 * C "phiWB" - 0.115 * C "phiD" + 0.121 * C "phiBox" + 0.173 * gf C + 1.85 * C "phiq3_11"
    + 0.126 * C "phiq3_22"
  1 + 10 ^ 6 * np.re

/-- `hz`.  /repo/flavio/physics/higgs/production.py:36-54. -/
noncomputable def hz (C : WC) : ℝ :=
  let np := 0.098 * C "phiB" + 0.721 * C "phiW" + 0.217 * C "phiWB" - 0.015 * C "phiD" + 0.122 * C "phiBox" + 0.152 * gf C
    - 0.187 * C "phiq1_11" + 1.699 * C "phiq3_11" + 0.456 * C "phiu_11" - 0.148 * C "phid_11" + 0.044 * C "phiq1_22"
    + 0.16 * C "phiq3_22" + 0.028 * C "phiu_22" - 0.02 * C "phid_22"
  1 + 10 ^ 6 * np.re

/-- `hv`.  /repo/flavio/physics/higgs/production.py:56-64. -/
noncomputable def hv (C : WC) : ℝ :=
  let dw := hw C - 1
  let dz := hz C - 1
  (1.380 * (1 + dw) + 0.8696 * (1 + dz)) / (1.380 + 0.8696)

/-- `tth`.  /repo/flavio/physics/higgs/production.py:66-76. -/
noncomputable def tth (C : WC) : ℝ :=
  let np := -0.030 * C "phiD" + 0.118 * C "phiBox" - 0.853 * C "uG_33" + 0.146 * C "G" + 0.557 * C "phiG" + 0.060 * gf C - 0.119 * C "uphi_33"
  1 + 10 ^ 6 * np.re

/-- `vv_h`.  /repo/flavio/physics/higgs/production.py:78-96. -/
noncomputable def vvH (C : WC) : ℝ :=
  let np := -0.002 * C "phiB" - 0.088 * C "phiW" - 0.319 * C "phiWB" - 0.168 * C "phiD" + 0.121 * C "phiBox" + 0.277 * gf C
    + 0.014 * C "phiq1_11" - 0.384 * C "phiq3_11" - 0.027 * C "phiu_11" + 0.008 * C "phid_11" - 0.004 * C "phiq1_22"
    - 0.075 * C "phiq3_22" - 0.004 * C "phiu_22" + 0.002 * C "phid_22"
  1 + 10 ^ 6 * np.re

/-- `Gamma_rel_SM`.  /repo/flavio/physics/higgs/width.py:18. -/
noncomputable def gammaRelSM : ℝ := 4.101e-3 / 125.10

/-- `Gamma_rel_ff`.  /repo/flavio/physics/higgs/width.py:21-24. -/
noncomputable def gammaRelFF (y : ℂ) (nc : ℝ) : ℝ := ‖y‖ ^ 2 * nc / (8 * Real.pi)

/-- The format `'{}phi_{}{}'` for the four light quarks, in the order of the loops.  /repo/flavio/physics/higgs/width.py:44-47. -/
def lightKeys : List String := ["u", "d"].flatMap fun q => [(1 : ℕ), 2].map fun i => q ++ "phi_" ++ toString i ++ toString i

/-- `Gamma_h` for `GF = par['GF']`; `1 / GF` raises for `GF = 0`.  /repo/flavio/physics/higgs/width.py:27-50. -/
noncomputable def gammaH (GF : ℝ) (C : WC) : Except PyErr ℝ := do
  let rBB := (hBb C - 1) * brBB
  let rTT := (hTautau C - 1) * brTT
  let rWW := (hWw C - 1) * brWW
  let rZZ := (hZz C - 1) * brZZ
  let rGG := (hGg C - 1) * brGG
  let lin := rBB + rTT + rWW + rZZ + rGG
  let inv ← pyDiv 1 GF
  let quad := (lightKeys.map fun k => gammaRelFF ((inv / 2 : ℝ) * C k) 3 / gammaRelSM).sum
  pure (1 + lin + quad)

/-- `prod_modes` (name of the function and the string in the name of the observable).  /repo/flavio/physics/higgs/signalstrength.py:9-40. -/
def prodModes : List (String × String) :=
  [("ggF", "gg"), ("hw", "Wh"), ("hz", "Zh"), ("hv", "Vh"), ("tth", "tth"), ("vv_h", "VBF")]

/-- `decay_modes`.  /repo/flavio/physics/higgs/signalstrength.py:42-88. -/
def decayModes : List (String × String) :=
  [("h_bb", "bb"), ("h_cc", "cc"), ("h_tautau", "tautau"), ("h_mumu", "mumu"), ("h_ww", "WW"), ("h_zz", "ZZ"), ("h_vv", "VV"),
   ("h_zga", "Zgamma"), ("h_gaga", "gammagamma")]

/-- `getattr(production, name)`.  /repo/flavio/physics/higgs/signalstrength.py:95. -/
noncomputable def prodFn : String → Except PyErr (WC → ℝ)
  | "ggF" => .ok ggF
  | "hw" => .ok hw
  | "hz" => .ok hz
  | "hv" => .ok hv
  | "tth" => .ok tth
  | "vv_h" => .ok vvH
  | _ => .error .attributeError

/-- `getattr(decay, name)`.  /repo/flavio/physics/higgs/signalstrength.py:96. -/
noncomputable def decFn : String → Except PyErr (WC → ℝ)
  | "h_gg" => .ok hGg
  | "h_gaga" => .ok hGaga
  | "h_ww" => .ok hWw
  | "h_zz" => .ok hZz
  | "h_vv" => .ok hVv
  | "h_zga" => .ok hZga
  | "h_bb" => .ok hBb
  | "h_cc" => .ok hCc
  | "h_tautau" => .ok hTautau
  | "h_mumu" => .ok hMumu
  | _ => .error .attributeError

/-- `higgs_signalstrength` after the Wilson coefficients have been obtained.  /repo/flavio/physics/higgs/signalstrength.py:91-97. -/
noncomputable def signal (GF : ℝ) (C : WC) (p d : String) : Except PyErr ℝ := do
  let fp ← prodFn p
  let fd ← decFn d
  let w ← gammaH GF C
  pyDiv (fp C * fd C) w

/-- `obs_name` in `make_obs_higgs`.  /repo/flavio/physics/higgs/signalstrength.py:105. -/
def obsName (p d : String) : String := "mu_" ++ p ++ "(h->" ++ d ++ ")"

/-- The predictions registered by the loops at the end of the module, in order: the name of the observable and the pair of functions it calls.
/repo/flavio/physics/higgs/signalstrength.py:100-119. -/
def registered : List (String × String × String) :=
  prodModes.flatMap fun p => decayModes.map fun d => (obsName p.2 d.2, p.1, d.1)

end Verif.Higgs
