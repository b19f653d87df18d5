import Verif.Physics.AngularUnit
import Verif.Physics.BetaUnit
import Verif.Physics.Qcdf.Model
import Mathlib.Tactic.FieldSimp
import Mathlib.Tactic.Positivity
/-!
# The unit of energy: quark loops and QCD factorisation

Continues `AngularUnit.lean`: `flavio/physics/bdecays/matrixelements.py`, `flavio/physics/bdecays/bvll/qcdf.py`.
-/
set_option linter.unusedVariables false
set_option linter.unusedSimpArgs false
namespace Verif.EnergyUnit
open Verif.Py Verif.Running Complex
open Verif.MatrixElements (Wc)

/-! ## Quark loops -/

theorem logc {x : ℝ} (hx : 0 < x) {y : ℝ} (hy : y ≠ 0) : Complex.log ((x * y : ℝ) : ℂ) = (Real.log x : ℂ) + Complex.log (y : ℂ) := by
  rw [ofReal_mul]
  exact Complex.log_ofReal_mul hx (by exact_mod_cast hy)

theorem ratio2 {x : ℝ} (hx : x ≠ 0) (a b : ℝ) : (x * a) ^ 2 / (x * b) ^ 2 = a ^ 2 / b ^ 2 := by
  rw [mul_pow, mul_pow, mul_div_mul_left _ _ (pow_ne_zero 2 hx)]

theorem h_unit {x : ℝ} (hx : 0 < x) (s mq mu : ℝ) (hmu : mu ≠ 0) :
    MatrixElements.h (x ^ 2 * s) (x * mq) (x * mu) = MatrixElements.h s mq mu := by
  have hx' := hx.ne'
  have h2 : x ^ 2 ≠ 0 := pow_ne_zero 2 hx'
  have hz : 4 * (x * mq) ^ 2 / (x ^ 2 * s) = 4 * mq ^ 2 / s := by
    rw [show 4 * (x * mq) ^ 2 = x ^ 2 * (4 * mq ^ 2) by ring, mul_div_mul_left _ _ h2]
  unfold MatrixElements.h
  simp only [mul_eq_zero, hx', h2, false_or]
  split_ifs with h1 h3 h3
  · rfl
  · congr 1
    unfold MatrixElements.h0
    rw [logc hx hmu, logc (by positivity : (0 : ℝ) < x ^ 2) h3, Real.log_pow]
    push_cast; ring
  · unfold MatrixElements.hs0; rw [ratio2 hx']
  · unfold MatrixElements.hgen; rw [ratio2 hx']; simp only [hz]

theorem cLog_unit {x : ℝ} (hx : x ≠ 0) (a b : ℝ) : MatrixElements.cLog (x ^ 2 * a / (x * b) ^ 2) = MatrixElements.cLog (a / b ^ 2) := by
  rw [mul_pow, mul_div_mul_left _ _ (pow_ne_zero 2 hx)]

theorem seidelA_unit {x : ℝ} (hx : 0 < x) (q2 mb mu : ℝ) :
    MatrixElements.seidelA (x ^ 2 * q2) (x * mb) (x * mu) = MatrixElements.seidelA q2 mb mu := by
  have hx' := hx.ne'
  unfold MatrixElements.seidelA
  simp only [mul_eq_zero, pow_ne_zero 2 hx', false_or]
  rw [ratio2 hx', mul_pow x mb, mul_div_mul_left _ _ (pow_ne_zero 2 hx')]
  unfold MatrixElements.seidelGen
  rw [ratio2 hx']

/-- The environment of the two-loop matrix elements in the new unit; the tabulated functions take ratios (specification). -/
noncomputable def envUnit (x : ℝ) (E : MatrixElements.Env) : MatrixElements.Env :=
  { E with mb := x * E.mb, mc := x * E.mc, mcBVgamma := x * E.mcBVgamma
           seidelB := fun q2 mb mu => E.seidelB (q2 / x ^ 2) (mb / x) (mu / x) }

/-- **C165 (quark loops).** The one-loop functions `h`, `Y`, `Yu` and the corrections to `C7` and `C9` are pure numbers, with the
same exceptions, for every `q2` and all masses. -/
theorem C165_loops {x : ℝ} (hx : 0 < x) (E : MatrixElements.Env) (w : Wc) (s q2 mq mb mc mu : ℝ) (hmu : mu ≠ 0) :
    MatrixElements.h (x ^ 2 * s) (x * mq) (x * mu) = MatrixElements.h s mq mu ∧
    MatrixElements.Y (x ^ 2 * q2) w (x * mb) (x * mc) (x * mu) = MatrixElements.Y q2 w mb mc mu ∧
    MatrixElements.Yu (x ^ 2 * q2) w (x * mc) (x * mu) = MatrixElements.Yu q2 w mc mu ∧
    MatrixElements.deltaC7 (envUnit x E) w (x ^ 2 * q2) (x * mu) = MatrixElements.deltaC7 E w q2 mu ∧
    MatrixElements.deltaC9 (envUnit x E) w (x ^ 2 * q2) (x * mu) = MatrixElements.deltaC9 E w q2 mu := by
  have hx' := hx.ne'
  have H := fun s mq => h_unit hx s mq mu hmu
  have H0 : ∀ s, MatrixElements.h (x ^ 2 * s) 0 (x * mu) = MatrixElements.h s 0 mu := by
    intro s; have := H s 0; rwa [mul_zero] at this
  have e1 : ∀ a b : ℝ, x * a / (x * b) = a / b := fun a b => mul_div_mul_left _ _ hx'
  have e2 : ∀ a b : ℝ, x ^ 2 * a / (x * b) ^ 2 = a / b ^ 2 := fun a b => by rw [mul_pow, mul_div_mul_left _ _ (pow_ne_zero 2 hx')]
  have e3 : ∀ a : ℝ, x ^ 2 * a / x ^ 2 = a := fun a => mul_div_cancel_left₀ _ (pow_ne_zero 2 hx')
  have e4 : ∀ a : ℝ, x * a / x = a := fun a => mul_div_cancel_left₀ _ hx'
  refine ⟨H s mq, ?_, ?_, ?_, ?_⟩
  · unfold MatrixElements.Y; rw [H, H, H0]
  · unfold MatrixElements.Yu; rw [H, H0]
  · simp only [MatrixElements.deltaC7, MatrixElements.fu17, MatrixElements.fu27, envUnit, e1, e2, ratio2 hx', seidelA_unit hx]
  · simp only [MatrixElements.deltaC9, MatrixElements.fu19, MatrixElements.fu29, MatrixElements.seidelC, MatrixElements.Env.f19,
      MatrixElements.Env.f29, envUnit, e1, e2, e3, e4, ratio2 hx']

/-! ## QCD factorisation -/

/-- The small imaginary part of the squared masses in the new unit (specification). -/
noncomputable def fnUnit (x : ℝ) (F : Qcdf.Fn) : Qcdf.Fn := { F with eps := x ^ 2 * F.eps }

/-- The parameters in the new unit; the prefactor contains the Fermi constant (specification). -/
noncomputable def qcdfPar (x : ℝ) (P : Qcdf.Par) : Qcdf.Par :=
  { P with mB := x * P.mB, mV := x * P.mV, mb := x * P.mb, mc := x * P.mc, fB := x * P.fB, fPara := x * P.fPara, fPerp := x * P.fPerp
           pref := P.pref / (x : ℂ) ^ 2 }

variable {x : ℝ}

theorem enV_unit (hx : 0 < x) (mB mV q2 : ℝ) : Qcdf.enV (x * mB) (x * mV) (x ^ 2 * q2) = x * Qcdf.enV mB mV q2 := by
  have hx' := hx.ne'
  unfold Qcdf.enV
  rw [show (x * mB) ^ 2 - x ^ 2 * q2 + (x * mV) ^ 2 = x * (x * (mB ^ 2 - q2 + mV ^ 2)) by ring,
    show 2 * (x * mB) = x * (2 * mB) by ring, mul_div_mul_left _ _ hx', mul_div_assoc]

theorem l1_unit (F : Qcdf.Fn) (z : ℂ) : Qcdf.l1 (fnUnit x F) z = Qcdf.l1 F z := rfl

theorem b0_unit (hx : 0 < x) (F : Qcdf.Fn) (s mq : ℝ) : Qcdf.b0 (fnUnit x F) (x ^ 2 * s) (x * mq) = Qcdf.b0 F s mq := by
  have hx' := hx.ne'
  have hxc : (x : ℂ) ^ 2 ≠ 0 := pow_ne_zero 2 (by exact_mod_cast hx')
  have h1 : 4 * (x * mq) ^ 2 / (x ^ 2 * s) = 4 * mq ^ 2 / s := by
    rw [show 4 * (x * mq) ^ 2 = x ^ 2 * (4 * mq ^ 2) by ring, mul_div_mul_left _ _ (pow_ne_zero 2 hx')]
  have h2 : 4 * ((((x * mq) ^ 2 : ℝ) : ℂ) - ((fnUnit x F).eps : ℂ) * I) / ((x ^ 2 * s : ℝ) : ℂ)
      = 4 * (((mq ^ 2 : ℝ) : ℂ) - (F.eps : ℂ) * I) / (s : ℂ) := by
    rw [show 4 * ((((x * mq) ^ 2 : ℝ) : ℂ) - ((fnUnit x F).eps : ℂ) * I) = (x : ℂ) ^ 2 * (4 * (((mq ^ 2 : ℝ) : ℂ) - (F.eps : ℂ) * I)) by
      simp only [fnUnit]; push_cast; ring]
    push_cast
    rw [mul_div_mul_left _ _ hxc]
  unfold Qcdf.b0
  simp only [mul_eq_zero, pow_ne_zero 2 hx', false_or, h1, h2]

theorem b0diff_unit (hx : 0 < x) (F : Qcdf.Fn) (q2 u mq mB : ℝ) (hq : q2 ≠ 0 → q2 * u + mB ^ 2 * (1 - u) ≠ 0) :
    Qcdf.b0diff (fnUnit x F) (x ^ 2 * q2) u (x * mq) (x * mB) = Qcdf.b0diff F q2 u mq mB := by
  have hx' := hx.ne'
  have h2 : x ^ 2 ≠ 0 := pow_ne_zero 2 hx'
  unfold Qcdf.b0diff
  simp only [mul_eq_zero, hx', h2, false_or]
  split_ifs with h1 h3
  · rfl
  · congr 1
    have L : ∀ y : ℝ, y ≠ 0 → Complex.log (-((2 / (x ^ 2 * y) : ℝ) : ℂ)) = (Real.log ((x ^ 2)⁻¹) : ℂ) + Complex.log (-((2 / y : ℝ) : ℂ)) := by
      intro y hy
      have := logc (x := (x ^ 2)⁻¹) (by positivity) (y := -(2 / y)) (neg_ne_zero.2 (div_ne_zero two_ne_zero hy))
      rw [← ofReal_neg, ← ofReal_neg, ← this]
      congr 2
      field_simp
    rw [show x ^ 2 * q2 * u + (x * mB) ^ 2 * (1 - u) = x ^ 2 * (q2 * u + mB ^ 2 * (1 - u)) by ring]
    have a := L q2 h3
    have b := L _ (hq h3)
    push_cast at a b ⊢
    rw [a, b]; ring
  · congr 1
    rw [show (1 - u) * (x * mB) ^ 2 + u * (x ^ 2 * q2) = x ^ 2 * ((1 - u) * mB ^ 2 + u * q2) by ring, b0_unit hx, b0_unit hx]

theorem i1_unit (hx : 0 < x) (F : Qcdf.Fn) (q2 u mq mB : ℝ) :
    Qcdf.i1 (fnUnit x F) (x ^ 2 * q2) u (x * mq) (x * mB) = Qcdf.i1 F q2 u mq mB := by
  have hx' := hx.ne'
  have hxc : (x : ℂ) ^ 2 ≠ 0 := pow_ne_zero 2 (by exact_mod_cast hx')
  have hm : (((x * mq) ^ 2 : ℝ) : ℂ) - ((fnUnit x F).eps : ℂ) * I = (x : ℂ) ^ 2 * (((mq ^ 2 : ℝ) : ℂ) - (F.eps : ℂ) * I) := by
    simp only [fnUnit]; push_cast; ring
  have hd : ∀ (m : ℂ) (s : ℝ), (x : ℂ) ^ 2 * m / ((x ^ 2 * s : ℝ) : ℂ) = m / (s : ℂ) := by
    intro m s; push_cast; rw [mul_div_mul_left _ _ hxc]
  have hd2 : ∀ (m : ℂ) (s : ℝ), 2 * ((x : ℂ) ^ 2 * m) / ((x ^ 2 * s : ℝ) : ℂ) = 2 * m / (s : ℂ) := by
    intro m s; rw [← hd (2 * m) s]; ring
  unfold Qcdf.i1
  simp only [hm, l1_unit, mul_eq_zero, pow_ne_zero 2 hx', false_or]
  rw [show (1 - u) * (x * mB) ^ 2 + u * (x ^ 2 * q2) = x ^ 2 * ((1 - u) * mB ^ 2 + u * q2) by ring,
    show (1 - u) * ((x * mB) ^ 2 - x ^ 2 * q2) = x ^ 2 * ((1 - u) * (mB ^ 2 - q2)) by ring]
  simp only [hd, hd2]

theorem tPerp_unit (hx : 0 < x) (F : Qcdf.Fn) (P : Qcdf.Par) (q2 u mq : ℝ) (hq : q2 ≠ 0 → q2 * u + P.mB ^ 2 * (1 - u) ≠ 0) :
    Qcdf.tPerp (fnUnit x F) (qcdfPar x P) (x ^ 2 * q2) u (x * mq) = Qcdf.tPerp F P q2 u mq := by
  have hx' := hx.ne'
  have h2 : x ^ 2 ≠ 0 := pow_ne_zero 2 hx'
  have r1 : mq ^ 2 / ((1 - u) * P.mB ^ 2) = (x * mq) ^ 2 / ((1 - u) * (x * P.mB) ^ 2) := by
    rw [show (1 - u) * (x * P.mB) ^ 2 = x ^ 2 * ((1 - u) * P.mB ^ 2) by ring, mul_pow, mul_div_mul_left _ _ h2]
  have r2 : 2 * (x * mq) ^ 2 / ((1 - u) * (x * P.mB) ^ 2) = 2 * mq ^ 2 / ((1 - u) * P.mB ^ 2) := by
    rw [mul_div_assoc, mul_div_assoc, r1]
  have r3 : 2 * (x * P.mB) / ((1 - u) * (x * Qcdf.enV P.mB P.mV q2)) = 2 * P.mB / ((1 - u) * Qcdf.enV P.mB P.mV q2) := by
    rw [show 2 * (x * P.mB) = x * (2 * P.mB) by ring, show (1 - u) * (x * Qcdf.enV P.mB P.mV q2) = x * ((1 - u) * Qcdf.enV P.mB P.mV q2) by ring,
      mul_div_mul_left _ _ hx']
  have r4 : x ^ 2 * q2 / ((1 - u) ^ 2 * (x * Qcdf.enV P.mB P.mV q2) ^ 2) = q2 / ((1 - u) ^ 2 * Qcdf.enV P.mB P.mV q2 ^ 2) := by
    rw [show (1 - u) ^ 2 * (x * Qcdf.enV P.mB P.mV q2) ^ 2 = x ^ 2 * ((1 - u) ^ 2 * Qcdf.enV P.mB P.mV q2 ^ 2) by ring, mul_div_mul_left _ _ h2]
  unfold Qcdf.tPerp
  rw [show (qcdfPar x P).mB = x * P.mB from rfl, show (qcdfPar x P).mV = x * P.mV from rfl]
  simp only [mul_eq_zero, h2, false_or, l1_unit, enV_unit hx, i1_unit hx, b0diff_unit hx F q2 u mq P.mB hq, ← r1, r2, r3, r4]

theorem tPara_unit (hx : 0 < x) (F : Qcdf.Fn) (P : Qcdf.Par) (q2 u mq : ℝ) (hq : q2 ≠ 0 → q2 * u + P.mB ^ 2 * (1 - u) ≠ 0) :
    Qcdf.tPara (fnUnit x F) (qcdfPar x P) (x ^ 2 * q2) u (x * mq) = Qcdf.tPara F P q2 u mq := by
  have hx' := hx.ne'
  have h2 : x ^ 2 ≠ 0 := pow_ne_zero 2 hx'
  have r3 : 2 * (x * P.mB) / ((1 - u) * (x * Qcdf.enV P.mB P.mV q2)) = 2 * P.mB / ((1 - u) * Qcdf.enV P.mB P.mV q2) := by
    rw [show 2 * (x * P.mB) = x * (2 * P.mB) by ring, show (1 - u) * (x * Qcdf.enV P.mB P.mV q2) = x * ((1 - u) * Qcdf.enV P.mB P.mV q2) by ring,
      mul_div_mul_left _ _ hx']
  have r4 : ((1 - u) * (x * P.mB) ^ 2 + u * (x ^ 2 * q2)) / ((1 - u) ^ 2 * (x * Qcdf.enV P.mB P.mV q2) ^ 2)
      = ((1 - u) * P.mB ^ 2 + u * q2) / ((1 - u) ^ 2 * Qcdf.enV P.mB P.mV q2 ^ 2) := by
    rw [show (1 - u) ^ 2 * (x * Qcdf.enV P.mB P.mV q2) ^ 2 = x ^ 2 * ((1 - u) ^ 2 * Qcdf.enV P.mB P.mV q2 ^ 2) by ring,
      show (1 - u) * (x * P.mB) ^ 2 + u * (x ^ 2 * q2) = x ^ 2 * ((1 - u) * P.mB ^ 2 + u * q2) by ring, mul_div_mul_left _ _ h2]
  unfold Qcdf.tPara
  rw [show (qcdfPar x P).mB = x * P.mB from rfl, show (qcdfPar x P).mV = x * P.mV from rfl]
  simp only [enV_unit hx, i1_unit hx, b0diff_unit hx F q2 u mq P.mB hq, r3, r4]

/-- A complex multiple of the ratio of two masses. -/
theorem ratioC (hx : 0 < x) (c : ℂ) (a b : ℝ) : c * ((x * a : ℝ) : ℂ) / ((x * b : ℝ) : ℂ) = c * (a : ℂ) / (b : ℂ) := by
  have hxc : (x : ℂ) ≠ 0 := by exact_mod_cast hx.ne'
  push_cast
  rw [show c * ((x : ℂ) * a) = x * (c * a) by ring, mul_div_mul_left _ _ hxc]

theorem ratioC2 (hx : 0 < x) (c : ℂ) (a b : ℝ) : c * ((x * a : ℝ) : ℂ) / (2 * ((x * b : ℝ) : ℂ)) = c * (a : ℂ) / (2 * (b : ℂ)) := by
  have hxc : (x : ℂ) ≠ 0 := by exact_mod_cast hx.ne'
  push_cast
  rw [show c * ((x : ℂ) * a) = x * (c * a) by ring, show (2 : ℂ) * (x * b) = x * (2 * b) by ring, mul_div_mul_left _ _ hxc]

theorem ratioC1 (hx : 0 < x) (a b : ℝ) : ((x * a : ℝ) : ℂ) / ((x * b : ℝ) : ℂ) = (a : ℂ) / (b : ℂ) := by
  have := ratioC hx 1 a b
  simpa using this

theorem frac (hx : 0 < x) (u q2 m : ℝ) : u * (x ^ 2 * q2) / (x * m) ^ 2 = u * q2 / m ^ 2 := by
  rw [show u * (x ^ 2 * q2) = x ^ 2 * (u * q2) by ring, mul_pow, mul_div_mul_left _ _ (pow_ne_zero 2 hx.ne')]

theorem kernels_unit (hx : 0 < x) (F : Qcdf.Fn) (P : Qcdf.Par) (w : Wc) (B V : String) (q2 u scale : ℝ) (hs : scale ≠ 0)
    (hq : q2 ≠ 0 → q2 * u + P.mB ^ 2 * (1 - u) ≠ 0) :
    Qcdf.paraMinusWA (qcdfPar x P) w B V = Qcdf.paraMinusWA P w B V ∧
    Qcdf.perpPlusO8 (qcdfPar x P) w B V (x ^ 2 * q2) u = Qcdf.perpPlusO8 P w B V q2 u ∧
    Qcdf.paraMinusO8 (qcdfPar x P) w B V (x ^ 2 * q2) u = Qcdf.paraMinusO8 P w B V q2 u ∧
    Qcdf.perpPlusQSS (fnUnit x F) (qcdfPar x P) w B V (x ^ 2 * q2) u = Qcdf.perpPlusQSS F P w B V q2 u ∧
    Qcdf.paraPlusQSS (fnUnit x F) (qcdfPar x P) w B V (x ^ 2 * q2) u = Qcdf.paraPlusQSS F P w B V q2 u ∧
    Qcdf.paraMinusQSS (qcdfPar x P) w B V (x ^ 2 * q2) u (x * scale) = Qcdf.paraMinusQSS P w B V q2 u scale := by
  have hx' := hx.ne'
  have c34 : Qcdf.cq34 (qcdfPar x P) w B V = Qcdf.cq34 P w B V := rfl
  have mB : (qcdfPar x P).mB = x * P.mB := rfl
  have mb : (qcdfPar x P).mb = x * P.mb := rfl
  have mc : (qcdfPar x P).mc = x * P.mc := rfl
  have al : (qcdfPar x P).alphaS = P.alphaS := rfl
  have eu : (qcdfPar x P).epsU = P.epsU := rfl
  have t := fun m => tPerp_unit hx F P q2 u m hq
  have t0 : Qcdf.tPerp (fnUnit x F) (qcdfPar x P) (x ^ 2 * q2) u 0 = Qcdf.tPerp F P q2 u 0 := by have := t 0; rwa [mul_zero] at this
  have p := fun m => tPara_unit hx F P q2 u m hq
  have p0 : Qcdf.tPara (fnUnit x F) (qcdfPar x P) (x ^ 2 * q2) u 0 = Qcdf.tPara F P q2 u 0 := by have := p 0; rwa [mul_zero] at this
  have hh := fun s m => h_unit hx s m scale hs
  have h0 : ∀ s, MatrixElements.h (x ^ 2 * s) 0 (x * scale) = MatrixElements.h s 0 scale := by
    intro s; have := hh s 0; rwa [mul_zero] at this
  have f1 : x ^ 2 * q2 / (x * P.mB) ^ 2 = q2 / P.mB ^ 2 := by simpa using frac hx 1 q2 P.mB
  refine ⟨?_, ?_, ?_, ?_, ?_, ?_⟩
  · unfold Qcdf.paraMinusWA; simp only [c34, mB, mb, ratioC hx]
  · unfold Qcdf.perpPlusO8
    rw [mB, al, frac hx]
  · unfold Qcdf.paraMinusO8
    rw [mB, al, frac hx]
  · unfold Qcdf.perpPlusQSS; simp only [mB, mb, mc, al, eu, t, t0, ratioC2 hx, ratioC1 hx]
  · unfold Qcdf.paraPlusQSS; simp only [mB, mb, mc, al, eu, p, p0, ratioC hx]
  · unfold Qcdf.paraMinusQSS
    rw [mB, mb, mc, al, eu, show (1 - u) * (x * P.mB) ^ 2 + u * (x ^ 2 * q2) = x ^ 2 * ((1 - u) * P.mB ^ 2 + u * q2) by ring, hh, hh, h0]
    simp only [ratioC hx]

theorem lB_unit (hx : 0 < x) (F : Qcdf.Fn) (P : Qcdf.Par) (q2 : ℝ) :
    Qcdf.lBminus (fnUnit x F) (qcdfPar x P) (x ^ 2 * q2) = (x : ℂ) * Qcdf.lBminus F P q2 ∧ Qcdf.lBplus (qcdfPar x P) = x * Qcdf.lBplus P := by
  have hx' := hx.ne'
  have hxc : (x : ℂ) ≠ 0 := by exact_mod_cast hx'
  have w : 2 * (x * P.mB - x * P.mb) / 3 = x * (2 * (P.mB - P.mb) / 3) := by ring
  have q : ∀ a b : ℝ, x ^ 2 * a / (x * P.mB) / (x * b) = a / P.mB / b := by
    intro a b
    rw [div_div, div_div, show x * P.mB * (x * b) = x ^ 2 * (P.mB * b) by ring, mul_div_mul_left _ _ (pow_ne_zero 2 hx')]
  constructor
  · unfold Qcdf.lBminus
    rw [show (qcdfPar x P).mB = x * P.mB from rfl, show (qcdfPar x P).mb = x * P.mb from rfl, show (fnUnit x F).ei = F.ei from rfl, w]
    simp only
    rw [show -(x ^ 2 * q2) = x ^ 2 * (-q2) by ring, q, q]
    generalize 2 * (P.mB - P.mb) / 3 = w0
    rw [show Real.exp (-q2 / P.mB / w0) / (x * w0) = x⁻¹ * (Real.exp (-q2 / P.mB / w0) / w0) by
      rw [mul_comm x w0, ← div_div]; ring]
    generalize Real.exp (-q2 / P.mB / w0) / w0 = e
    push_cast
    rw [mul_assoc, one_div, mul_inv, inv_inv, ← one_div]
  · unfold Qcdf.lBplus
    rw [show (qcdfPar x P).mB = x * P.mB from rfl, show (qcdfPar x P).mb = x * P.mb from rfl, w]

theorem quad_congr {rule : List (ℝ × ℝ)} {f g : ℝ → Except PyErr ℂ} (h : ∀ n ∈ rule, f n.1 = g n.1) : Qcdf.quad rule f = Qcdf.quad rule g := by
  unfold Qcdf.quad
  congr 1
  induction rule with
  | nil => rfl
  | cons a l ih =>
    rw [List.mapM_cons, List.mapM_cons, h a (by simp), ih (fun n hn => h n (by simp [hn]))]

theorem uSing_unit (hx : 0 < x) (mB mc q2 : ℝ) :
    pyDiv ((x * mB) ^ 2 - 4 * (x * mc) ^ 2) (-(x ^ 2 * q2) + (x * mB) ^ 2) = pyDiv (mB ^ 2 - 4 * mc ^ 2) (-q2 + mB ^ 2) := by
  rw [show (x * mB) ^ 2 - 4 * (x * mc) ^ 2 = x ^ 2 * (mB ^ 2 - 4 * mc ^ 2) by ring,
    show -(x ^ 2 * q2) + (x * mB) ^ 2 = x ^ 2 * (-q2 + mB ^ 2) by ring]
  have h2 : x ^ 2 ≠ 0 := pow_ne_zero 2 hx.ne'
  unfold pyDiv
  by_cases hb : -q2 + mB ^ 2 = 0
  · rw [if_pos hb, if_pos (by rw [hb, mul_zero])]
  · rw [if_neg hb, if_neg (mul_ne_zero h2 hb), mul_div_mul_left _ _ h2]

/-- The nodes of the quadrature lie in the interval of integration, at none of which the quark virtuality vanishes.
(Specification.) -/
def Nodes (rule : List (ℝ × ℝ)) (mB q2 : ℝ) : Prop := ∀ n ∈ rule, q2 ≠ 0 → q2 * n.1 + mB ^ 2 * (1 - n.1) ≠ 0

/-- For the physical momenta the condition holds for all nodes in `[0, 1]`. -/
theorem nodes_phys {rule : List (ℝ × ℝ)} {mB q2 : ℝ} (h : ∀ n ∈ rule, 0 ≤ n.1 ∧ n.1 ≤ 1) (hB : mB ≠ 0) (hq : 0 ≤ q2) : Nodes rule mB q2 := by
  intro n hn h0
  obtain ⟨a, b⟩ := h n hn
  have hq' : 0 < q2 := lt_of_le_of_ne hq (Ne.symm h0)
  have hB' : 0 < mB ^ 2 := by positivity
  rcases eq_or_lt_of_le a with ha | ha
  · rw [← ha]; simp [hB]
  · have : 0 < q2 * n.1 := mul_pos hq' ha
    have : 0 ≤ mB ^ 2 * (1 - n.1) := mul_nonneg hB'.le (by linarith)
    intro hc
    linarith [mul_pos hq' ha]

theorem TPara_unit (hx : 0 < x) (F : Qcdf.Fn) (P : Qcdf.Par) (w : Wc) (B V : String) (q2 scale : ℝ) (rule : List (ℝ × ℝ)) (k : Qcdf.Incl)
    (hs : scale ≠ 0) (hn : Nodes rule P.mB q2) :
    Qcdf.TPara (fnUnit x F) (qcdfPar x P) w B V (x ^ 2 * q2) (x * scale) rule k = Qcdf.TPara F P w B V q2 scale rule k := by
  have hx' := hx.ne'
  have hxc : (x : ℂ) ≠ 0 := by exact_mod_cast hx'
  obtain ⟨l1, l2⟩ := lB_unit hx F P q2
  have N : Real.pi ^ 2 / 3 * (qcdfPar x P).fB * (qcdfPar x P).fPara / (qcdfPar x P).mB
      * ((qcdfPar x P).mV / Qcdf.enV (qcdfPar x P).mB (qcdfPar x P).mV (x ^ 2 * q2))
      = x * (Real.pi ^ 2 / 3 * P.fB * P.fPara / P.mB * (P.mV / Qcdf.enV P.mB P.mV q2)) := by
    show Real.pi ^ 2 / 3 * (x * P.fB) * (x * P.fPara) / (x * P.mB) * (x * P.mV / Qcdf.enV (x * P.mB) (x * P.mV) (x ^ 2 * q2)) = _
    rw [enV_unit hx, mul_div_mul_left _ _ hx', show Real.pi ^ 2 / 3 * (x * P.fB) * (x * P.fPara) = x * (x * (Real.pi ^ 2 / 3 * P.fB * P.fPara)) by ring,
      mul_div_mul_left _ _ hx']
    ring
  have c1 : ∀ (a : ℝ) (b : ℂ), ((x * a : ℝ) : ℂ) / ((x : ℂ) * b) = (a : ℂ) / b := by
    intro a b; push_cast; rw [mul_div_mul_left _ _ hxc]
  have c2 : ∀ (a b : ℝ), ((x * a : ℝ) : ℂ) / ((x * b : ℝ) : ℂ) = (a : ℂ) / (b : ℂ) := fun a b => ratioC1 hx a b
  unfold Qcdf.TPara
  split_ifs with hk
  · rfl
  · simp only [N, l1, l2, c1, c2]
    rw [show (qcdfPar x P).mB = x * P.mB from rfl, show (qcdfPar x P).mc = x * P.mc from rfl, uSing_unit hx,
      show (qcdfPar x P).a1Para = P.a1Para from rfl, show (qcdfPar x P).a2Para = P.a2Para from rfl]
    congr 1
    funext us
    refine quad_congr fun n hmem => ?_
    obtain ⟨k1, _, k3, _, k5, k6⟩ := kernels_unit hx F P w B V q2 n.1 scale hs (hn n hmem)
    rw [k1, k3, k5, k6]

theorem TPerp_unit (hx : 0 < x) (F : Qcdf.Fn) (P : Qcdf.Par) (w : Wc) (B V : String) (q2 scale : ℝ) (rule : List (ℝ × ℝ)) (k : Qcdf.Incl)
    (hs : scale ≠ 0) (hn : Nodes rule P.mB q2) :
    Qcdf.TPerp (fnUnit x F) (qcdfPar x P) w B V (x ^ 2 * q2) (x * scale) rule k = Qcdf.TPerp F P w B V q2 scale rule k := by
  have hx' := hx.ne'
  have hxc : (x : ℂ) ≠ 0 := by exact_mod_cast hx'
  obtain ⟨_, l2⟩ := lB_unit hx F P q2
  have N : Real.pi ^ 2 / 3 * (qcdfPar x P).fB * (qcdfPar x P).fPerp / (qcdfPar x P).mB = x * (Real.pi ^ 2 / 3 * P.fB * P.fPerp / P.mB) := by
    show Real.pi ^ 2 / 3 * (x * P.fB) * (x * P.fPerp) / (x * P.mB) = _
    rw [show Real.pi ^ 2 / 3 * (x * P.fB) * (x * P.fPerp) = x * (x * (Real.pi ^ 2 / 3 * P.fB * P.fPerp)) by ring, mul_div_mul_left _ _ hx',
      mul_div_assoc]
  have f1 : x ^ 2 * q2 / (x * P.mB) ^ 2 = q2 / P.mB ^ 2 := by simpa using frac hx 1 q2 P.mB
  have r1 : x * P.fPara / (x * P.fPerp) = P.fPara / P.fPerp := mul_div_mul_left _ _ hx'
  have c2 : ∀ (a b : ℝ), ((x * a : ℝ) : ℂ) / ((x * b : ℝ) : ℂ) = (a : ℂ) / (b : ℂ) := fun a b => ratioC1 hx a b
  have wa1 : Qcdf.perpWA1 (qcdfPar x P) w B V = (Qcdf.perpWA1 P w B V).map ((x : ℂ)⁻¹ * ·) := by
    unfold Qcdf.perpWA1
    refine bind_scaled _ _ _ _ fun e => ?_
    show Except.ok _ = Except.ok _
    congr 1
    show -(e.2 : ℂ) * 4 / ((x * P.mb : ℝ) : ℂ) * _ = _
    push_cast
    rw [mul_comm (x : ℂ) P.mb, ← div_div]; ring
  have wa2 : Qcdf.perpWA2 (qcdfPar x P) w B V = (Qcdf.perpWA2 P w B V).map ((x : ℂ)⁻¹ * ·) := by
    unfold Qcdf.perpWA2
    refine bind_scaled _ _ _ _ fun e => ?_
    rw [show Qcdf.cq34 (qcdfPar x P) w B V = Qcdf.cq34 P w B V from rfl]
    refine bind_scaled _ _ _ _ fun c => ?_
    show Except.ok _ = Except.ok _
    congr 1
    show (e.2 : ℂ) * 2 / ((x * P.mb : ℝ) : ℂ) * _ = _
    push_cast
    rw [mul_comm (x : ℂ) P.mb, ← div_div]; ring
  have ai : ∀ (b : Bool) (y : Except PyErr ℂ) (g : ℂ), Qcdf.addIf b (y.map (g * ·)) = (Qcdf.addIf b y).map (g * ·) := by
    intro b y g
    cases b with
    | true => rfl
    | false => show Except.ok (0 : ℂ) = Except.ok (g * 0); rw [mul_zero]
  unfold Qcdf.TPerp
  split_ifs with hk
  · rfl
  · rw [wa1, wa2]
    simp only [N, l2, c2, ai, map_bind]
    rw [show (qcdfPar x P).mB = x * P.mB from rfl, show (qcdfPar x P).mc = x * P.mc from rfl, uSing_unit hx,
      show (qcdfPar x P).a1Perp = P.a1Perp from rfl, show (qcdfPar x P).a2Perp = P.a2Perp from rfl,
      show (qcdfPar x P).fPara = x * P.fPara from rfl, show (qcdfPar x P).fPerp = x * P.fPerp from rfl,
      show (qcdfPar x P).mV = x * P.mV from rfl, f1, r1]
    congr 1
    funext us
    have q : ∀ (Nr : ℝ) (ph a : ℂ), ((x * Nr : ℝ) : ℂ) * ph * ((x : ℂ)⁻¹ * a) = (Nr : ℂ) * ph * a := by
      intro Nr ph a; push_cast; field_simp
    have q' : ∀ (n f y : ℂ) (g : ℝ), n * f * (((x * P.mV) / g : ℝ) : ℂ) * ((x : ℂ)⁻¹ * y) = n * f * ((P.mV / g : ℝ) : ℂ) * y := by
      intro n f y g; rw [mul_div_assoc]; push_cast; field_simp
    simp only [q, q']
    congr 1
    refine quad_congr fun n hmem => ?_
    obtain ⟨_, k2, _, k4, _, _⟩ := kernels_unit hx F P w B V q2 n.1 scale hs (hn n hmem)
    simp only [k2, k4, frac hx]

/-- **C165 (QCD factorisation).** The two functions `T` of `B → V l l` are pure numbers and the amplitudes are inverse energies
— the dimension of the form-factor amplitudes they are added to (`C165_angular`) — with the same exceptions, for all
contributions, every quadrature rule and all parameters. -/
theorem C165_qcdf (hx : 0 < x) (F : Qcdf.Fn) (P : Qcdf.Par) (w : Wc) (B V : String) (q2 scale : ℝ) (rule : List (ℝ × ℝ)) (k : Qcdf.Incl)
    (hs : scale ≠ 0) (hB : P.mB ≠ 0) (hq : 0 ≤ q2) (hr : ∀ n ∈ rule, 0 ≤ n.1 ∧ n.1 ≤ 1) :
    Qcdf.TPara (fnUnit x F) (qcdfPar x P) w B V (x ^ 2 * q2) (x * scale) rule k = Qcdf.TPara F P w B V q2 scale rule k ∧
    Qcdf.TPerp (fnUnit x F) (qcdfPar x P) w B V (x ^ 2 * q2) (x * scale) rule k = Qcdf.TPerp F P w B V q2 scale rule k ∧
    Qcdf.transQcdf (fnUnit x F) (qcdfPar x P) w B V (x ^ 2 * q2) (x * scale) rule k
      = (Qcdf.transQcdf F P w B V q2 scale rule k).map (fun t =>
          { zL := t.zL / x, zR := t.zR / x, perL := t.perL / x, perR := t.perR / x, parL := t.parL / x, parR := t.parR / x }) := by
  have hx' := hx.ne'
  have hxc : (x : ℂ) ≠ 0 := by exact_mod_cast hx'
  have hn := nodes_phys hr hB hq
  refine ⟨TPara_unit hx F P w B V q2 scale rule k hs hn, TPerp_unit hx F P w B V q2 scale rule k hs hn, ?_⟩
  unfold Qcdf.transQcdf
  rw [TPara_unit hx F P w B V q2 scale rule k hs hn, TPerp_unit hx F P w B V q2 scale rule k hs hn]
  simp only
  refine bind_scaled _ _ _ _ fun Tp => ?_
  refine bind_scaled _ _ _ _ fun Tl => ?_
  simp only [mul_eq_zero, pow_ne_zero 2 hx', false_or]
  by_cases h0 : q2 = 0
  · rw [if_pos h0, if_pos h0]; rfl
  · rw [if_neg h0, if_neg h0]
    have hq' : 0 < q2 := lt_of_le_of_ne hq (Ne.symm h0)
    have hqc : (q2 : ℂ) ≠ 0 := by exact_mod_cast h0
    have cs : Xlnu.csqrt ((x ^ 2 * q2 : ℝ) : ℂ) = (x : ℂ) * Xlnu.csqrt (q2 : ℂ) := by
      rw [Xlnu.csqrt_ofReal (by positivity), Xlnu.csqrt_ofReal hq, Real.sqrt_mul (by positivity), Real.sqrt_sq hx.le]
      push_cast; rfl
    have d1 : ((x * P.mB) ^ 2 - x ^ 2 * q2 : ℝ) = x ^ 2 * (P.mB ^ 2 - q2) := by ring
    have d2 : ((x * P.mB) ^ 2 * (x * P.mV) : ℝ) = x ^ 3 * (P.mB ^ 2 * P.mV) := by ring
    have m1 : (qcdfPar x P).mB = x * P.mB := rfl
    have m2 : (qcdfPar x P).mV = x * P.mV := rfl
    have m3 : (qcdfPar x P).mb = x * P.mb := rfl
    have m4 : (qcdfPar x P).pref = P.pref / (x : ℂ) ^ 2 := rfl
    have eP : P.pref / (x : ℂ) ^ 2 / 4 * (Real.sqrt 2 : ℝ) * 2 * ((x ^ 2 * (P.mB ^ 2 - q2) : ℝ) : ℂ) * ((x * P.mb : ℝ) : ℂ) / ((x ^ 2 * q2 : ℝ) : ℂ) * Tp
        = P.pref / 4 * (Real.sqrt 2 : ℝ) * 2 * ((P.mB ^ 2 - q2 : ℝ) : ℂ) * (P.mb : ℂ) / (q2 : ℂ) * Tp / (x : ℂ) := by
      push_cast; field_simp
    have eZ : P.pref / (x : ℂ) ^ 2 / 4 * ((x * P.mb : ℝ) : ℂ) * (((x ^ 2 * (P.mB ^ 2 - q2)) ^ 2 : ℝ) : ℂ)
          / (((x ^ 3 * (P.mB ^ 2 * P.mV) : ℝ) : ℂ) * ((x : ℂ) * Xlnu.csqrt (q2 : ℂ))) * Tl
        = P.pref / 4 * (P.mb : ℂ) * (((P.mB ^ 2 - q2) ^ 2 : ℝ) : ℂ) / (((P.mB ^ 2 * P.mV : ℝ) : ℂ) * Xlnu.csqrt (q2 : ℂ)) * Tl / (x : ℂ) := by
      push_cast
      rw [show ((x : ℂ) ^ 3 * (P.mB ^ 2 * P.mV)) * (x * Xlnu.csqrt (q2 : ℂ)) = x ^ 4 * ((P.mB ^ 2 * P.mV) * Xlnu.csqrt (q2 : ℂ)) by ring,
        show P.pref / (x : ℂ) ^ 2 / 4 * (x * P.mb) * (x ^ 2 * (P.mB ^ 2 - q2)) ^ 2 = x ^ 4 * (P.pref / 4 * P.mb * (P.mB ^ 2 - q2) ^ 2 / x) by
          field_simp, mul_div_mul_left _ _ (pow_ne_zero 4 hxc)]
      ring
    simp only [m1, m2, m3, m4, d1, d2, cs, eP, eZ]
    show Except.ok _ = Except.ok _
    simp only [neg_div]

end Verif.EnergyUnit
