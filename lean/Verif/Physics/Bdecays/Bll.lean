import Mathlib.Analysis.Real.Sqrt
import Mathlib.Analysis.Complex.Norm
import Mathlib.Analysis.SpecialFunctions.ImproperIntegrals
import Mathlib.Analysis.SpecialFunctions.Gamma.Basic
import Verif.Physics.Ckm
import Verif.Physics.Common
import Verif.Physics.Running
import Verif.Physics.Angular.Kinematics
import Verif.Physics.Mixing.AmplitudeTheorems
/-!
# Leptonic decays `B_q → l1 l2` (`flavio/physics/bdecays/bll.py`)

Simplifications: parameters and Wilson coefficients are total functions of their names (a missing name is a
`KeyError`, not modelled here); the results of the running (`get_mb`, `get_ms`, `get_md`, `get_alpha`) and the CKM
matrix are inputs; the numbers are real/complex numbers, and division by zero is the `ZeroDivisionError` of Python
floats (for numpy scalars it would be `nan` with a warning).
-/
set_option linter.unusedVariables false
set_option linter.unusedSimpArgs false
set_option linter.unusedSectionVars false
namespace Verif.Bll
open Verif.Py Complex Verif.Ckm Verif.Common Verif.Running Verif.Mixing

/-- The two mesons for which the functions are defined.  /repo/flavio/physics/bdecays/bll.py:38. -/
inductive BMes | B0 | Bs
  deriving DecidableEq

/-- Name of the meson in parameter names.  /repo/flavio/physics/bdecays/bll.py:38. -/
def BMes.name : BMes → String
  | .B0 => "B0"
  | .Bs => "Bs"

/-- `meson_quark[B]`.  /repo/flavio/physics/bdecays/common.py:17-50. -/
def BMes.quarks : BMes → List Char
  | .B0 => ['b', 'd']
  | .Bs => ['b', 's']

/-- `meson_quark[B]` as a string (prefix of the sector).  /repo/flavio/physics/bdecays/bll.py:64. -/
def BMes.qq (B : BMes) : String := String.ofList B.quarks

/-- The lepton names.  /repo/flavio/physics/bdecays/bll.py:39. -/
inductive Lep | e | mu | tau
  deriving DecidableEq

/-- The lepton names as strings.  /repo/flavio/physics/bdecays/bll.py:39. -/
def Lep.name : Lep → String
  | .e => "e"
  | .mu => "mu"
  | .tau => "tau"

/-- The inputs: parameter dictionary, running quark masses and coupling, CKM matrix.
(Used for `amplitudes`, /repo/flavio/physics/bdecays/bll.py:51-62, :89-100.) -/
structure Inputs where
  par : String → ℝ
  mb : ℝ
  ms : ℝ
  md : ℝ
  alphaE : ℝ
  V : Mat

/-- `math.sqrt` (`ValueError` for negative arguments).  /repo/flavio/physics/bdecays/bll.py:69-70. -/
noncomputable def pySqrt (x : ℝ) : Except PyErr ℝ := if x < 0 then .error .valueError else .ok (Real.sqrt x)

/-- `br_lifetime_corr`.  /repo/flavio/physics/bdecays/bll.py:14-30. -/
noncomputable def brLifetimeCorr (y A : ℝ) : Except PyErr ℝ := pyDiv (1 - y ^ 2) (1 + A * y)

/-- The mass of the spectator quark.  /repo/flavio/physics/bdecays/bll.py:59-62. -/
def mspec (q : Inputs) : BMes → ℝ
  | .Bs => q.ms
  | .B0 => q.md

/-- `qqll`.  /repo/flavio/physics/bdecays/bll.py:64. -/
def sector (B : BMes) (l1 l2 : Lep) : String := B.qq ++ l1.name ++ l2.name

/-- The difference of a coefficient and its chirality-flipped partner.  /repo/flavio/physics/bdecays/bll.py:66-69. -/
def minus (wc : String → ℂ) (c s : String) : ℂ := wc (c ++ "_" ++ s) - wc (c ++ "p_" ++ s)

/-- `amplitudes`.  /repo/flavio/physics/bdecays/bll.py:32-72. -/
noncomputable def amplitudes (q : Inputs) (wc : String → ℂ) (B : BMes) (l1 l2 : Lep) : Except PyErr (ℂ × ℂ) :=
  let m1 := q.par ("m_" ++ l1.name)
  let m2 := q.par ("m_" ++ l2.name)
  let mB := q.par ("m_" ++ B.name)
  let s := sector B l1 l2
  pyDiv ((m1 - m2) ^ 2) (mB ^ 2) >>= fun xm => pySqrt (1 - xm) >>= fun bm =>
  pyDiv ((m1 + m2) ^ 2) (mB ^ 2) >>= fun xp => pySqrt (1 - xp) >>= fun bp =>
  pyDiv (mB * q.mb) (q.mb + mspec q B) >>= fun r =>
    .ok (bm * (((m2 + m1) / mB : ℝ) * minus wc "C10" s + r * minus wc "CP" s),
         bp * (((m2 - m1) / mB : ℝ) * minus wc "C9" s + r * minus wc "CS" s))

/-- The last line of `ADeltaGamma`.  /repo/flavio/physics/bdecays/bll.py:74-77. -/
noncomputable def adgOf (P S : ℂ) : Except PyErr ℝ :=
  pyDiv ((P ^ 2).re - (S ^ 2).re) (‖P‖ ^ 2 + ‖S‖ ^ 2)

/-- `ADeltaGamma`.  /repo/flavio/physics/bdecays/bll.py:74-77. -/
noncomputable def aDeltaGamma (q : Inputs) (wc : String → ℂ) (B : BMes) (l : Lep) : Except PyErr ℝ :=
  amplitudes q wc B l l >>= fun ps => adgOf ps.1 ps.2

/-- `N`.  /repo/flavio/physics/bdecays/bll.py:96-101. -/
noncomputable def normN (q : Inputs) (B : BMes) : Except PyErr ℂ :=
  xi 't' B.quarks >>= fun f =>
    .ok (f q.V * 4 * q.par "GF" / Real.sqrt 2 * q.alphaE / (4 * Real.pi))

/-- `br_inst`.  /repo/flavio/physics/bdecays/bll.py:79-106. -/
noncomputable def brInst (q : Inputs) (wc : String → ℂ) (B : BMes) (l1 l2 : Lep) : Except PyErr ℝ :=
  let m1 := q.par ("m_" ++ l1.name)
  let m2 := q.par ("m_" ++ l2.name)
  let mB := q.par ("m_" ++ B.name)
  normN q B >>= fun N =>
  pySqrt (lambdaK (mB ^ 2) (m1 ^ 2) (m2 ^ 2)) >>= fun sl =>
  pyDiv sl (mB ^ 2) >>= fun beta =>
  amplitudes q wc B l1 l2 >>= fun ps =>
    .ok (‖N‖ ^ 2 / 32 / Real.pi * mB ^ 3 * q.par ("tau_" ++ B.name) * beta * q.par ("f_" ++ B.name) ^ 2 *
      (‖ps.1‖ ^ 2 + ‖ps.2‖ ^ 2))

/-- `y = par['DeltaGamma/Gamma_'+B]/2.`  /repo/flavio/physics/bdecays/bll.py:114. -/
noncomputable def yOf (q : Inputs) (B : BMes) : ℝ := q.par ("DeltaGamma/Gamma_" ++ B.name) / 2

/-- `br_timeint`.  /repo/flavio/physics/bdecays/bll.py:108-117. -/
noncomputable def brTimeint (q : Inputs) (wc : String → ℂ) (B : BMes) (l1 l2 : Lep) : Except PyErr ℝ :=
  if l1 ≠ l2 then .error .valueError else
    brInst q wc B l1 l1 >>= fun br0 =>
    aDeltaGamma q wc B l1 >>= fun A =>
    brLifetimeCorr (yOf q B) A >>= fun corr => pyDiv br0 corr

/-- The return line of `tau_ll`.  /repo/flavio/physics/bdecays/bll.py:166. -/
noncomputable def tauOf (y A tau : ℝ) : Except PyErr ℝ :=
  pyDiv ((1 + y ^ 2 + 2 * y * A) * tau) ((-1 + y ^ 2) * (1 + y * A)) >>= fun r => .ok (-r)

/-- `tau_ll`.  /repo/flavio/physics/bdecays/bll.py:146-166. -/
noncomputable def tauLL (q : Inputs) (wc : String → ℂ) (B : BMes) (l : Lep) : Except PyErr ℝ :=
  aDeltaGamma q wc B l >>= fun A =>
    tauOf (1 / 2 * q.par ("DeltaGamma/Gamma_" ++ B.name)) A (q.par ("tau_" ++ B.name))

/-- `bqll_obs_lsum`; `getWc` is `wc_obj.get_wc(sector, scale, par)`.
/repo/flavio/physics/bdecays/bll.py:129-135. -/
noncomputable def lsum (f : Inputs → (String → ℂ) → BMes → Lep → Lep → Except PyErr ℝ)
    (getWc : String → String → ℂ) (q : Inputs) (B : BMes) (l1 l2 : Lep) : Except PyErr ℝ :=
  if l1 = l2 then .error .valueError else
    f q (getWc (sector B l1 l2)) B l1 l2 >>= fun a =>
    f q (getWc (sector B l2 l1)) B l2 l1 >>= fun b => .ok (a + b)

/-- `bqll_obs`; `totWc` is `wctot_dict` (Standard Model plus new physics), `getWc` new physics only.
/repo/flavio/physics/bdecays/bll.py:119-127. -/
noncomputable def bqllObs (f : Inputs → (String → ℂ) → BMes → Lep → Lep → Except PyErr ℝ)
    (totWc getWc : String → String → ℂ) (q : Inputs) (B : BMes) (l1 l2 : Lep) : Except PyErr ℝ :=
  if l1 = l2 then f q (totWc (sector B l1 l2)) B l1 l2 else f q (getWc (sector B l1 l2)) B l1 l2

/-! ## Specification -/

/-- The untagged time-dependent decay rate, normalised to one at `t = 0` (arXiv:1204.1737, eq. (21)):
`e^{-t/τ} [cosh(y t/τ) + A sinh(y t/τ)]`. (Specification.) -/
noncomputable def untagged (τ y A t : ℝ) : ℝ :=
  Real.exp (-t / τ) * (Real.cosh (y * t / τ) + A * Real.sinh (y * t / τ))

/-- Physical kinematics of a two-body decay to leptons: positive meson mass, non-negative lepton masses, at or above
threshold, positive quark masses. (Specification.) -/
structure Physical (q : Inputs) (B : BMes) (l1 l2 : Lep) : Prop where
  mB : 0 < q.par ("m_" ++ B.name)
  m1 : 0 ≤ q.par ("m_" ++ l1.name)
  m2 : 0 ≤ q.par ("m_" ++ l2.name)
  thr : q.par ("m_" ++ l1.name) + q.par ("m_" ++ l2.name) ≤ q.par ("m_" ++ B.name)
  mb : 0 < q.mb
  msp : 0 ≤ mspec q B

/-! ## Integrals -/

theorem untagged_eq (τ y A t : ℝ) (hτ : τ ≠ 0) :
    untagged τ y A t = (1 + A) / 2 * Real.exp (-((1 - y) / τ * t)) + (1 - A) / 2 * Real.exp (-((1 + y) / τ * t)) := by
  unfold untagged
  rw [Real.cosh_eq, Real.sinh_eq]
  have e1 : Real.exp (-((1 - y) / τ * t)) = Real.exp (-t / τ) * Real.exp (y * t / τ) := by
    rw [← Real.exp_add]; congr 1; field_simp; ring
  have e2 : Real.exp (-((1 + y) / τ * t)) = Real.exp (-t / τ) * Real.exp (-(y * t / τ)) := by
    rw [← Real.exp_add]; congr 1; field_simp; ring
  rw [e1, e2]; ring

theorem int_exp {k : ℝ} (hk : 0 < k) : ∫ t in Set.Ioi (0:ℝ), Real.exp (-(k * t)) = 1 / k := by
  have := integral_exp_mul_Ioi (a := -k) (by linarith) 0
  simp only [neg_mul] at this
  rw [this]; simp

theorem integrable_exp' {k : ℝ} (hk : 0 < k) :
    MeasureTheory.IntegrableOn (fun t : ℝ => Real.exp (-(k * t))) (Set.Ioi 0) := by
  have := integrableOn_exp_mul_Ioi (a := -k) (by linarith) 0
  simpa only [neg_mul] using this

theorem int_t_exp {k : ℝ} (hk : 0 < k) : ∫ t in Set.Ioi (0:ℝ), t * Real.exp (-(k * t)) = 1 / k ^ 2 := by
  have h := Real.integral_rpow_mul_exp_neg_mul_Ioi (a := 2) (r := k) two_pos hk
  rw [show (2:ℝ) - 1 = 1 by norm_num] at h
  simp only [Real.rpow_one] at h
  rw [h, show (2:ℝ) = 1 + 1 by norm_num, Real.Gamma_add_one one_ne_zero, Real.Gamma_one,
    show (1:ℝ) + 1 = 2 by norm_num, Real.rpow_two]; field_simp

theorem integrable_t_exp {k : ℝ} (hk : 0 < k) :
    MeasureTheory.IntegrableOn (fun t : ℝ => t * Real.exp (-(k * t))) (Set.Ioi 0) := by
  apply MeasureTheory.Integrable.of_integral_ne_zero
  rw [int_t_exp hk]; positivity

theorem int_untagged {τ y : ℝ} (A : ℝ) (hτ : 0 < τ) (hy : |y| < 1) :
    ∫ t in Set.Ioi (0:ℝ), untagged τ y A t = τ * (1 + A * y) / (1 - y ^ 2) := by
  obtain ⟨h1, h2⟩ := abs_lt.1 hy
  have a1 : 0 < 1 - y := by linarith
  have a2 : 0 < 1 + y := by linarith
  have k1 : 0 < (1 - y) / τ := by positivity
  have k2 : 0 < (1 + y) / τ := by positivity
  have : (fun t => untagged τ y A t) = fun t => (1 + A) / 2 * Real.exp (-((1 - y) / τ * t)) +
      (1 - A) / 2 * Real.exp (-((1 + y) / τ * t)) := by
    funext t; exact untagged_eq τ y A t hτ.ne'
  rw [this, MeasureTheory.integral_add ((integrable_exp' k1).const_mul _) ((integrable_exp' k2).const_mul _),
    MeasureTheory.integral_const_mul, MeasureTheory.integral_const_mul, int_exp k1, int_exp k2]
  have : (1 - y ^ 2) ≠ 0 := by nlinarith
  field_simp
  ring

theorem int_t_untagged {τ y : ℝ} (A : ℝ) (hτ : 0 < τ) (hy : |y| < 1) :
    ∫ t in Set.Ioi (0:ℝ), t * untagged τ y A t = τ ^ 2 * (1 + y ^ 2 + 2 * y * A) / (1 - y ^ 2) ^ 2 := by
  obtain ⟨h1, h2⟩ := abs_lt.1 hy
  have a1 : 0 < 1 - y := by linarith
  have a2 : 0 < 1 + y := by linarith
  have k1 : 0 < (1 - y) / τ := by positivity
  have k2 : 0 < (1 + y) / τ := by positivity
  have : (fun t => t * untagged τ y A t) = fun t => (1 + A) / 2 * (t * Real.exp (-((1 - y) / τ * t))) +
      (1 - A) / 2 * (t * Real.exp (-((1 + y) / τ * t))) := by
    funext t; rw [untagged_eq τ y A t hτ.ne']; ring
  rw [this, MeasureTheory.integral_add ((integrable_t_exp k1).const_mul _) ((integrable_t_exp k2).const_mul _),
    MeasureTheory.integral_const_mul, MeasureTheory.integral_const_mul, int_t_exp k1, int_t_exp k2]
  have : (1 - y ^ 2) ≠ 0 := by nlinarith
  rw [show 1 - y ^ 2 = (1 - y) * (1 + y) by ring]
  field_simp
  ring

/-! ## Evaluation -/

theorem pySqrt_nonneg {x : ℝ} (h : 0 ≤ x) : pySqrt x = .ok (Real.sqrt x) := by
  unfold pySqrt; rw [if_neg (not_lt.2 h)]

theorem sqrt_arg {a b M : ℝ} (hM : 0 < M) (h : a ^ 2 ≤ M ^ 2) : 0 ≤ 1 - a ^ 2 / M ^ 2 := by
  have : a ^ 2 / M ^ 2 ≤ 1 := by rw [div_le_one (by positivity)]; exact h
  linarith

/-- The value of the amplitudes in the physical region. -/
theorem amplitudes_eq {q : Inputs} {B : BMes} {l1 l2 : Lep} (h : Physical q B l1 l2) (wc : String → ℂ) :
    amplitudes q wc B l1 l2 = .ok
      (Real.sqrt (1 - (q.par ("m_" ++ l1.name) - q.par ("m_" ++ l2.name)) ^ 2 / q.par ("m_" ++ B.name) ^ 2) *
        (((q.par ("m_" ++ l2.name) + q.par ("m_" ++ l1.name)) / q.par ("m_" ++ B.name) : ℝ) *
            minus wc "C10" (sector B l1 l2) +
          (q.par ("m_" ++ B.name) * q.mb / (q.mb + mspec q B) : ℝ) * minus wc "CP" (sector B l1 l2)),
       Real.sqrt (1 - (q.par ("m_" ++ l1.name) + q.par ("m_" ++ l2.name)) ^ 2 / q.par ("m_" ++ B.name) ^ 2) *
        (((q.par ("m_" ++ l2.name) - q.par ("m_" ++ l1.name)) / q.par ("m_" ++ B.name) : ℝ) *
            minus wc "C9" (sector B l1 l2) +
          (q.par ("m_" ++ B.name) * q.mb / (q.mb + mspec q B) : ℝ) * minus wc "CS" (sector B l1 l2))) := by
  obtain ⟨hB, h1, h2, ht, hb, hs⟩ := h
  unfold amplitudes
  simp only []
  rw [pyDiv_ne (by positivity), ok_bind_eq, pySqrt_nonneg (sqrt_arg (b := 0) hB (by nlinarith)), ok_bind_eq,
    pyDiv_ne (by positivity), ok_bind_eq, pySqrt_nonneg (sqrt_arg (b := 0) hB (by nlinarith)), ok_bind_eq,
    pyDiv_ne (by positivity), ok_bind_eq]

theorem xi_t_quarks (B : BMes) : ∃ f, xi 't' B.quarks = .ok f := by cases B <;> exact ⟨_, rfl⟩

theorem normN_eq (q : Inputs) (B : BMes) : ∃ f, xi 't' B.quarks = .ok f ∧
    normN q B = .ok (f q.V * 4 * q.par "GF" / Real.sqrt 2 * q.alphaE / (4 * Real.pi)) := by
  obtain ⟨f, hf⟩ := xi_t_quarks B
  refine ⟨f, hf, ?_⟩
  unfold normN; rw [hf, ok_bind_eq]

theorem lambdaK_nonneg (a b c : ℝ) : 0 ≤ lambdaK a b c := by
  unfold lambdaK; split_ifs with h
  · exact le_rfl
  · exact not_lt.1 h

theorem brInst_eq {q : Inputs} {B : BMes} {l1 l2 : Lep} (h : Physical q B l1 l2) (wc : String → ℂ) :
    ∃ (N P S : ℂ), normN q B = .ok N ∧ amplitudes q wc B l1 l2 = .ok (P, S) ∧
      brInst q wc B l1 l2 = .ok (‖N‖ ^ 2 / 32 / Real.pi * q.par ("m_" ++ B.name) ^ 3 * q.par ("tau_" ++ B.name) *
        (Real.sqrt (lambdaK (q.par ("m_" ++ B.name) ^ 2) (q.par ("m_" ++ l1.name) ^ 2) (q.par ("m_" ++ l2.name) ^ 2)) /
          q.par ("m_" ++ B.name) ^ 2) * q.par ("f_" ++ B.name) ^ 2 * (‖P‖ ^ 2 + ‖S‖ ^ 2)) := by
  obtain ⟨f, -, hN⟩ := normN_eq q B
  refine ⟨_, _, _, hN, amplitudes_eq h wc, ?_⟩
  have hB : q.par ("m_" ++ B.name) ^ 2 ≠ 0 := pow_ne_zero _ h.mB.ne'
  unfold brInst
  simp only [hN, ok_bind_eq, pySqrt_nonneg (lambdaK_nonneg _ _ _), pyDiv_ne hB, amplitudes_eq h wc]

/-! ## Theorems -/

theorem re_sq_le (z : ℂ) : |(z ^ 2).re| ≤ ‖z‖ ^ 2 := by
  calc |(z ^ 2).re| ≤ ‖z ^ 2‖ := abs_re_le_norm _
    _ = ‖z‖ ^ 2 := norm_pow z 2

/-- **C88 (range of the rate asymmetry).** The asymmetry `A_ΔΓ` lies in `[-1, 1]` whenever it is defined, and it is
defined in the whole physical region unless both amplitudes vanish. -/
theorem C88_asymmetry_range (q : Inputs) (wc : String → ℂ) (B : BMes) (l : Lep) :
    (∀ A, aDeltaGamma q wc B l = .ok A → -1 ≤ A ∧ A ≤ 1) ∧
    (Physical q B l l → (∃ A, aDeltaGamma q wc B l = .ok A) ∨
      amplitudes q wc B l l = .ok (0, 0)) := by
  refine ⟨fun A hA => ?_, fun h => ?_⟩
  · unfold aDeltaGamma at hA
    obtain ⟨ps, -, hA⟩ := bind_eq_ok hA
    unfold adgOf pyDiv at hA
    split_ifs at hA with hz
    cases hA
    have hp : 0 < ‖ps.1‖ ^ 2 + ‖ps.2‖ ^ 2 := lt_of_le_of_ne (by positivity) (Ne.symm hz)
    have h1 := abs_le.1 (re_sq_le ps.1)
    have h2 := abs_le.1 (re_sq_le ps.2)
    constructor
    · rw [le_div_iff₀ hp]; linarith
    · rw [div_le_iff₀ hp]; linarith
  · obtain ⟨P, S, hPS⟩ : ∃ P S, amplitudes q wc B l l = .ok (P, S) := ⟨_, _, amplitudes_eq h wc⟩
    unfold aDeltaGamma
    rw [hPS, ok_bind_eq]
    by_cases hz : ‖P‖ ^ 2 + ‖S‖ ^ 2 = 0
    · right
      have e1 : ‖P‖ = 0 := by nlinarith [sq_nonneg ‖P‖, sq_nonneg ‖S‖]
      have e2 : ‖S‖ = 0 := by nlinarith [sq_nonneg ‖P‖, sq_nonneg ‖S‖]
      rw [norm_eq_zero.1 e1, norm_eq_zero.1 e2]
    · left
      exact ⟨_, pyDiv_ne hz⟩

/-- **C88 (Standard Model value of the asymmetry).** If the scalar coefficients are chirality symmetric
(`C_S = C_S'`, in particular both zero) and the pseudoscalar amplitude is real and non-zero, then `A_ΔΓ = 1`; if
instead the scalar amplitude is the only one and real, `A_ΔΓ = -1`. -/
theorem C88_asymmetry_SM {q : Inputs} {B : BMes} {l : Lep} (h : Physical q B l l) (wc : String → ℂ) (P S : ℂ)
    (ha : amplitudes q wc B l l = .ok (P, S)) :
    (wc ("CS_" ++ sector B l l) = wc ("CSp_" ++ sector B l l) → P.im = 0 → P ≠ 0 →
      aDeltaGamma q wc B l = .ok 1) ∧
    (P = 0 → S.im = 0 → S ≠ 0 → aDeltaGamma q wc B l = .ok (-1)) := by
  have key : ∀ z : ℂ, z.im = 0 → z ≠ 0 → (z ^ 2).re = ‖z‖ ^ 2 ∧ ‖z‖ ^ 2 ≠ 0 := by
    intro z hz h0
    refine ⟨?_, pow_ne_zero _ (norm_ne_zero_iff.2 h0)⟩
    rw [← normSq_eq_norm_sq, normSq_apply, pow_two, mul_re, hz]; ring
  unfold aDeltaGamma
  rw [ha, ok_bind_eq]
  constructor
  · intro hs hi h0
    have e := amplitudes_eq h wc
    rw [ha] at e
    injection e with e
    have hS : S = 0 := by
      rw [(Prod.mk.inj e).2]
      unfold minus
      rw [show "CS" ++ "_" ++ sector B l l = "CS_" ++ sector B l l from rfl,
        show "CS" ++ "p_" ++ sector B l l = "CSp_" ++ sector B l l from rfl, hs]
      simp
    obtain ⟨k1, k2⟩ := key P hi h0
    unfold adgOf
    rw [hS]
    simp only [norm_zero]
    rw [pyDiv_ne (by simpa using k2)]
    congr 1
    rw [k1]
    simp [h0]
  · intro hP hi h0
    obtain ⟨k1, k2⟩ := key S hi h0
    unfold adgOf
    rw [hP]
    simp only [norm_zero]
    rw [pyDiv_ne (by simpa using k2)]
    congr 1
    rw [k1]
    simp only [ne_eq, OfNat.ofNat_ne_zero, not_false_eq_true, zero_pow, zero_re, zero_sub, zero_add]
    exact neg_div_self k2

theorem one_add_pos {A y : ℝ} (hA : -1 ≤ A ∧ A ≤ 1) (hy : |y| < 1) : 0 < 1 + A * y := by
  have : |A * y| < 1 := by
    rw [abs_mul]
    have : |A| ≤ 1 := abs_le.2 hA
    nlinarith [abs_nonneg A, abs_nonneg y]
  linarith [(abs_lt.1 this).1]

/-- **C88 (time-integrated branching ratio).** For equal leptons, `|y| < 1`, a positive lifetime and a defined
asymmetry, the time-integrated branching ratio is the instantaneous one times the integral over all times of the
untagged decay rate (normalised to one at `t = 0`) divided by the lifetime; for different leptons it raises
`ValueError`; with `y = 0` it is the instantaneous one. -/
theorem C88_time_integrated (q : Inputs) (wc : String → ℂ) (B : BMes) :
    (∀ (l : Lep) (br A : ℝ), brInst q wc B l l = .ok br → aDeltaGamma q wc B l = .ok A →
      0 < q.par ("tau_" ++ B.name) → |q.par ("DeltaGamma/Gamma_" ++ B.name) / 2| < 1 →
      brTimeint q wc B l l = .ok (br *
        ((∫ t in Set.Ioi (0:ℝ), untagged (q.par ("tau_" ++ B.name)) (q.par ("DeltaGamma/Gamma_" ++ B.name) / 2) A t) /
          q.par ("tau_" ++ B.name)))) ∧
    (∀ l1 l2, l1 ≠ l2 → brTimeint q wc B l1 l2 = .error .valueError) ∧
    (∀ (l : Lep) (br A : ℝ), brInst q wc B l l = .ok br → aDeltaGamma q wc B l = .ok A →
      q.par ("DeltaGamma/Gamma_" ++ B.name) = 0 → brTimeint q wc B l l = .ok br) := by
  refine ⟨fun l br A hbr hA hτ hy => ?_, fun l1 l2 hl => ?_, fun l br A hbr hA hy => ?_⟩
  · have hr := (C88_asymmetry_range q wc B l).1 A hA
    have hp := one_add_pos hr hy
    have hy2 : 1 - (q.par ("DeltaGamma/Gamma_" ++ B.name) / 2) ^ 2 ≠ 0 := by
      obtain ⟨h1, h2⟩ := abs_lt.1 hy; nlinarith
    unfold brTimeint
    rw [if_neg (by simp), hbr, ok_bind_eq, hA, ok_bind_eq]
    unfold brLifetimeCorr yOf
    rw [pyDiv_ne hp.ne', ok_bind_eq, pyDiv_ne (div_ne_zero hy2 hp.ne'), int_untagged A hτ hy]
    congr 1
    have := hp.ne'
    field_simp
  · unfold brTimeint; rw [if_pos hl]
  · unfold brTimeint
    rw [if_neg (by simp), hbr, ok_bind_eq, hA, ok_bind_eq]
    unfold brLifetimeCorr yOf
    rw [hy, pyDiv_ne (by norm_num), ok_bind_eq, pyDiv_ne (by norm_num)]
    congr 1; norm_num

/-- **C88 (effective lifetime).** The effective lifetime is the mean decay time `∫ t Γ(t) dt / ∫ Γ(t) dt` of the
untagged rate; it lies between the two mass-eigenstate lifetimes `τ/(1+|y|)` and `τ/(1-|y|)`; it is `τ` without a
width difference and `τ/(1-y)` when `A_ΔΓ = 1` (the Standard Model). -/
theorem C88_effective_lifetime (q : Inputs) (wc : String → ℂ) (B : BMes) (l : Lep) (A : ℝ)
    (hA : aDeltaGamma q wc B l = .ok A) (hτ : 0 < q.par ("tau_" ++ B.name))
    (hy : |q.par ("DeltaGamma/Gamma_" ++ B.name) / 2| < 1) :
    ∃ T, tauLL q wc B l = .ok T ∧
      T = (∫ t in Set.Ioi (0:ℝ), t * untagged (q.par ("tau_" ++ B.name))
              (q.par ("DeltaGamma/Gamma_" ++ B.name) / 2) A t) /
          (∫ t in Set.Ioi (0:ℝ), untagged (q.par ("tau_" ++ B.name))
              (q.par ("DeltaGamma/Gamma_" ++ B.name) / 2) A t) ∧
      q.par ("tau_" ++ B.name) / (1 + |q.par ("DeltaGamma/Gamma_" ++ B.name) / 2|) ≤ T ∧
      T ≤ q.par ("tau_" ++ B.name) / (1 - |q.par ("DeltaGamma/Gamma_" ++ B.name) / 2|) ∧
      (q.par ("DeltaGamma/Gamma_" ++ B.name) = 0 → T = q.par ("tau_" ++ B.name)) ∧
      (A = 1 → T = q.par ("tau_" ++ B.name) / (1 - q.par ("DeltaGamma/Gamma_" ++ B.name) / 2)) := by
  have hr := (C88_asymmetry_range q wc B l).1 A hA
  have hp := one_add_pos hr hy
  unfold tauLL tauOf
  rw [hA, ok_bind_eq]
  rw [show 1 / 2 * q.par ("DeltaGamma/Gamma_" ++ B.name) = q.par ("DeltaGamma/Gamma_" ++ B.name) / 2 by ring]
  set y := q.par ("DeltaGamma/Gamma_" ++ B.name) / 2 with hyd
  set τ := q.par ("tau_" ++ B.name)
  have hy1 := abs_lt.1 hy
  have hm : 0 < 1 - y ^ 2 := by nlinarith
  have hp' : 1 + y * A ≠ 0 := by rw [mul_comm]; exact hp.ne'
  have hp'' : 0 < 1 + y * A := by rw [mul_comm]; exact hp
  have hm' : (-1 + y ^ 2) ≠ 0 := by linarith
  have hm'' := hm.ne'
  rw [pyDiv_ne (mul_ne_zero hm' hp'), ok_bind_eq]
  have hT : -((1 + y ^ 2 + 2 * y * A) * τ / ((-1 + y ^ 2) * (1 + y * A))) =
      τ * (1 + y ^ 2 + 2 * y * A) / ((1 - y ^ 2) * (1 + y * A)) := by
    rw [show (-1 + y ^ 2) * (1 + y * A) = -((1 - y ^ 2) * (1 + y * A)) by ring, div_neg, neg_neg, mul_comm τ]
  refine ⟨_, rfl, ?_, ?_, ?_, ?_, ?_⟩
  · rw [int_untagged A hτ hy, int_t_untagged A hτ hy, hT]
    rw [mul_comm A y]
    field_simp
  · rw [hT, div_le_div_iff₀ (by positivity) (by positivity)]
    rcases abs_cases y with ⟨e, h0⟩ | ⟨e, h0⟩ <;> rw [e]
    · have : 0 ≤ y * (1 + A) * (1 + y) ^ 2 := by
        have : 0 ≤ 1 + A := by linarith
        positivity
      nlinarith [mul_nonneg hτ.le this]
    · have : 0 ≤ (-y) * (1 - A) * (1 - y) ^ 2 := by
        have h1 : 0 ≤ 1 - A := by linarith
        have h2 : 0 ≤ -y := by linarith
        positivity
      nlinarith [mul_nonneg hτ.le this]
  · rw [hT, div_le_div_iff₀ (by positivity) (by linarith)]
    rcases abs_cases y with ⟨e, h0⟩ | ⟨e, h0⟩ <;> rw [e]
    · have : 0 ≤ y * (1 - A) * (1 - y) ^ 2 := by
        have h1 : 0 ≤ 1 - A := by linarith
        positivity
      nlinarith [mul_nonneg hτ.le this]
    · have : 0 ≤ (-y) * (1 + A) * (1 + y) ^ 2 := by
        have h1 : 0 ≤ 1 + A := by linarith
        have h2 : 0 ≤ -y := by linarith
        positivity
      nlinarith [mul_nonneg hτ.le this]
  · intro h0
    have h0' : y = 0 := by rw [hyd, h0]; simp
    rw [hT, h0']; simp
  · intro h1
    rw [hT, h1, div_eq_div_iff (by rw [h1] at hp''; positivity) (by linarith)]
    ring

/-- **C88 (sign and phase space of the rate).** In the physical region the instantaneous branching ratio is defined,
and non-negative for a non-negative lifetime; its phase-space factor is the product of the factors
`√(1-(m1±m2)²/m_B²)` that also multiply the amplitudes, so at threshold the rate vanishes. -/
theorem C88_rate {q : Inputs} {B : BMes} {l1 l2 : Lep} (h : Physical q B l1 l2) (wc : String → ℂ) :
    ∃ (N P S : ℂ), normN q B = .ok N ∧ amplitudes q wc B l1 l2 = .ok (P, S) ∧
      brInst q wc B l1 l2 = .ok (‖N‖ ^ 2 * q.par ("m_" ++ B.name) ^ 3 * q.par ("f_" ++ B.name) ^ 2 *
        q.par ("tau_" ++ B.name) / (32 * Real.pi) *
        (Real.sqrt (1 - (q.par ("m_" ++ l1.name) - q.par ("m_" ++ l2.name)) ^ 2 / q.par ("m_" ++ B.name) ^ 2) *
          Real.sqrt (1 - (q.par ("m_" ++ l1.name) + q.par ("m_" ++ l2.name)) ^ 2 / q.par ("m_" ++ B.name) ^ 2)) *
        (‖P‖ ^ 2 + ‖S‖ ^ 2)) ∧
      (∀ br, brInst q wc B l1 l2 = .ok br → 0 ≤ q.par ("tau_" ++ B.name) → 0 ≤ br) ∧
      (q.par ("m_" ++ l1.name) + q.par ("m_" ++ l2.name) = q.par ("m_" ++ B.name) →
        brInst q wc B l1 l2 = .ok 0) := by
  obtain ⟨N, P, S, hN, ha, hb⟩ := brInst_eq h wc
  have hB := h.mB
  have hsq : Real.sqrt (lambdaK (q.par ("m_" ++ B.name) ^ 2) (q.par ("m_" ++ l1.name) ^ 2)
        (q.par ("m_" ++ l2.name) ^ 2)) / q.par ("m_" ++ B.name) ^ 2 =
      Real.sqrt (1 - (q.par ("m_" ++ l1.name) - q.par ("m_" ++ l2.name)) ^ 2 / q.par ("m_" ++ B.name) ^ 2) *
        Real.sqrt (1 - (q.par ("m_" ++ l1.name) + q.par ("m_" ++ l2.name)) ^ 2 / q.par ("m_" ++ B.name) ^ 2) := by
    have hl := Angular.laGa_eq (q.par ("m_" ++ B.name) ^ 2) _ _ h.m1 h.m2
      (pow_le_pow_left₀ (add_nonneg h.m1 h.m2) h.thr 2)
    unfold Angular.laGa at hl
    rw [hl, ← Real.sqrt_mul (sqrt_arg (b := 0) hB (by nlinarith [h.m1, h.m2, h.thr]))]
    rw [← Real.sqrt_sq (by positivity : 0 ≤ q.par ("m_" ++ B.name) ^ 2), ← Real.sqrt_div' _ (by positivity),
      Real.sqrt_sq (by positivity : 0 ≤ q.par ("m_" ++ B.name) ^ 2)]
    congr 1
    field_simp
  have hval : brInst q wc B l1 l2 = .ok (‖N‖ ^ 2 * q.par ("m_" ++ B.name) ^ 3 * q.par ("f_" ++ B.name) ^ 2 *
        q.par ("tau_" ++ B.name) / (32 * Real.pi) *
        (Real.sqrt (1 - (q.par ("m_" ++ l1.name) - q.par ("m_" ++ l2.name)) ^ 2 / q.par ("m_" ++ B.name) ^ 2) *
          Real.sqrt (1 - (q.par ("m_" ++ l1.name) + q.par ("m_" ++ l2.name)) ^ 2 / q.par ("m_" ++ B.name) ^ 2)) *
        (‖P‖ ^ 2 + ‖S‖ ^ 2)) := by
    rw [hb, hsq]
    congr 1
    have := Real.pi_ne_zero
    field_simp
  refine ⟨N, P, S, hN, ha, hval, fun br hbr hτ => ?_, fun ht => ?_⟩
  · rw [hval] at hbr; cases hbr
    have := Real.pi_pos
    positivity
  · rw [hval, ht, div_self (by positivity : q.par ("m_" ++ B.name) ^ 2 ≠ 0)]
    simp

/-- The rate in terms of the amplitudes and masses only: it depends on the coefficients through the four
differences. -/
theorem brInst_congr {q : Inputs} {B : BMes} {l1 l2 : Lep} (wc wc' : String → ℂ)
    (h10 : minus wc "C10" (sector B l1 l2) = minus wc' "C10" (sector B l1 l2))
    (hP : minus wc "CP" (sector B l1 l2) = minus wc' "CP" (sector B l1 l2))
    (h9 : minus wc "C9" (sector B l1 l2) = minus wc' "C9" (sector B l1 l2))
    (hS : minus wc "CS" (sector B l1 l2) = minus wc' "CS" (sector B l1 l2)) :
    amplitudes q wc B l1 l2 = amplitudes q wc' B l1 l2 ∧ brInst q wc B l1 l2 = brInst q wc' B l1 l2 := by
  have : amplitudes q wc B l1 l2 = amplitudes q wc' B l1 l2 := by
    unfold amplitudes; simp only [h10, hP, h9, hS]
  exact ⟨this, by unfold brInst; rw [this]⟩

/-- **C88 (which coefficients matter).** (i) Only the differences between left- and right-handed coefficients
matter: adding the same number to a coefficient and its primed partner changes no observable. (ii) For equal leptons
`C9` and `C9'` do not matter. (iii) Helicity suppression: for massless leptons without (pseudo)scalar coefficients
both amplitudes vanish, so the branching ratio is zero. -/
theorem C88_coefficients {q : Inputs} {B : BMes} {l1 l2 : Lep} (wc : String → ℂ) :
    (∀ (wc' d : String → ℂ), (∀ c ∈ ["C9", "C10", "CS", "CP"],
        wc' (c ++ "_" ++ sector B l1 l2) = wc (c ++ "_" ++ sector B l1 l2) + d c ∧
        wc' (c ++ "p_" ++ sector B l1 l2) = wc (c ++ "p_" ++ sector B l1 l2) + d c) →
      brInst q wc' B l1 l2 = brInst q wc B l1 l2 ∧
      (l1 = l2 → brTimeint q wc' B l1 l2 = brTimeint q wc B l1 l2 ∧ tauLL q wc' B l1 = tauLL q wc B l1 ∧
        aDeltaGamma q wc' B l1 = aDeltaGamma q wc B l1)) ∧
    (∀ wc' : String → ℂ, l1 = l2 → (∀ c ∈ ["C10", "C10p", "CS", "CSp", "CP", "CPp"],
        wc' (c ++ "_" ++ sector B l1 l2) = wc (c ++ "_" ++ sector B l1 l2)) →
      brInst q wc' B l1 l2 = brInst q wc B l1 l2 ∧ brTimeint q wc' B l1 l2 = brTimeint q wc B l1 l2 ∧
      tauLL q wc' B l1 = tauLL q wc B l1 ∧ aDeltaGamma q wc' B l1 = aDeltaGamma q wc B l1) ∧
    (Physical q B l1 l2 → q.par ("m_" ++ l1.name) = 0 → q.par ("m_" ++ l2.name) = 0 →
      (∀ c ∈ ["CS", "CSp", "CP", "CPp"], wc (c ++ "_" ++ sector B l1 l2) = 0) →
      brInst q wc B l1 l2 = .ok 0) := by
  have fin : ∀ wc' : String → ℂ, l1 = l2 → amplitudes q wc' B l1 l2 = amplitudes q wc B l1 l2 →
      brInst q wc' B l1 l2 = brInst q wc B l1 l2 ∧ brTimeint q wc' B l1 l2 = brTimeint q wc B l1 l2 ∧
      tauLL q wc' B l1 = tauLL q wc B l1 ∧ aDeltaGamma q wc' B l1 = aDeltaGamma q wc B l1 := by
    intro wc' hl ha
    subst hl
    have hb : brInst q wc' B l1 l1 = brInst q wc B l1 l1 := by unfold brInst; rw [ha]
    have hA : aDeltaGamma q wc' B l1 = aDeltaGamma q wc B l1 := by unfold aDeltaGamma; rw [ha]
    exact ⟨hb, by unfold brTimeint; rw [hb, hA], by unfold tauLL; rw [hA], hA⟩
  refine ⟨fun wc' d hd => ?_, fun wc' hl hc => ?_, fun h h1 h2 hc => ?_⟩
  · have hm : ∀ c ∈ ["C9", "C10", "CS", "CP"], minus wc' c (sector B l1 l2) = minus wc c (sector B l1 l2) := by
      intro c hcm
      unfold minus
      rw [(hd c hcm).1, (hd c hcm).2]; ring
    obtain ⟨ha, hb⟩ := brInst_congr (q := q) (B := B) (l1 := l1) (l2 := l2) wc' wc (hm "C10" (by simp))
      (hm "CP" (by simp)) (hm "C9" (by simp)) (hm "CS" (by simp))
    exact ⟨hb, fun hl => (fin wc' hl ha).2⟩
  · apply fin wc' hl
    have hx : ∀ c ∈ ["C10", "CS", "CP"], minus wc' c (sector B l1 l2) = minus wc c (sector B l1 l2) := by
      intro c hcm
      unfold minus
      fin_cases hcm
      · rw [hc "C10" (by simp)]; exact congrArg _ (hc "C10p" (by simp))
      · rw [hc "CS" (by simp)]; exact congrArg _ (hc "CSp" (by simp))
      · rw [hc "CP" (by simp)]; exact congrArg _ (hc "CPp" (by simp))
    unfold amplitudes
    subst hl
    simp only [hx "C10" (by simp), hx "CS" (by simp), hx "CP" (by simp), sub_self, zero_div, ofReal_zero, zero_mul]
  · obtain ⟨N, P, S, -, ha, hb⟩ := brInst_eq h wc
    have e := amplitudes_eq h wc
    have hs : minus wc "CS" (sector B l1 l2) = 0 := by
      unfold minus
      rw [hc "CS" (by simp), show "CS" ++ "p_" ++ sector B l1 l2 = "CSp" ++ "_" ++ sector B l1 l2 from rfl,
        hc "CSp" (by simp), sub_zero]
    have hp : minus wc "CP" (sector B l1 l2) = 0 := by
      unfold minus
      rw [hc "CP" (by simp), show "CP" ++ "p_" ++ sector B l1 l2 = "CPp" ++ "_" ++ sector B l1 l2 from rfl,
        hc "CPp" (by simp), sub_zero]
    rw [ha, h1, h2, hs, hp] at e
    simp only [add_zero, sub_zero, zero_div, ofReal_zero, zero_mul, mul_zero] at e
    injection e with e
    obtain ⟨e1, e2⟩ := Prod.mk.inj e
    rw [hb, e1, e2]; simp

/-- **C88 (exchange of the leptons).** The branching ratio to `l1 l2` with given coefficients is the one to `l2 l1`
with the same coefficients except for the sign of `C9` and `C9'`. -/
theorem C88_lepton_exchange {q : Inputs} {B : BMes} {l1 l2 : Lep} (h : Physical q B l1 l2) (wc wc' : String → ℂ)
    (h10 : ∀ c ∈ ["C10", "C10p", "CS", "CSp", "CP", "CPp"],
      wc' (c ++ "_" ++ sector B l2 l1) = wc (c ++ "_" ++ sector B l1 l2))
    (h9 : ∀ c ∈ ["C9", "C9p"], wc' (c ++ "_" ++ sector B l2 l1) = -wc (c ++ "_" ++ sector B l1 l2)) :
    amplitudes q wc' B l2 l1 = amplitudes q wc B l1 l2 ∧ brInst q wc' B l2 l1 = brInst q wc B l1 l2 := by
  have h' : Physical q B l2 l1 := ⟨h.mB, h.m2, h.m1, by rw [add_comm]; exact h.thr, h.mb, h.msp⟩
  have hm : ∀ c ∈ ["C10", "CS", "CP"], minus wc' c (sector B l2 l1) = minus wc c (sector B l1 l2) := by
    intro c hcm
    unfold minus
    fin_cases hcm
    · rw [h10 "C10" (by simp)]; exact congrArg _ (h10 "C10p" (by simp))
    · rw [h10 "CS" (by simp)]; exact congrArg _ (h10 "CSp" (by simp))
    · rw [h10 "CP" (by simp)]; exact congrArg _ (h10 "CPp" (by simp))
  have hm9 : minus wc' "C9" (sector B l2 l1) = -minus wc "C9" (sector B l1 l2) := by
    unfold minus
    rw [h9 "C9" (by simp), show "C9" ++ "p_" ++ sector B l2 l1 = "C9p" ++ "_" ++ sector B l2 l1 from rfl,
      h9 "C9p" (by simp), show "C9" ++ "p_" ++ sector B l1 l2 = "C9p" ++ "_" ++ sector B l1 l2 from rfl]
    ring
  have ha : amplitudes q wc' B l2 l1 = amplitudes q wc B l1 l2 := by
    rw [amplitudes_eq h wc, amplitudes_eq h' wc', hm "C10" (by simp), hm "CS" (by simp), hm "CP" (by simp), hm9]
    have t : ∀ a b M : ℝ, (((a - b) / M : ℝ) : ℂ) = -((b - a) / M : ℝ) := by
      intro a b M; rw [← ofReal_neg]; congr 1; ring
    rw [t (q.par ("m_" ++ l1.name)), neg_mul_neg, add_comm (q.par ("m_" ++ l2.name)) (q.par ("m_" ++ l1.name)),
      sub_sq_comm]
  refine ⟨ha, ?_⟩
  unfold brInst
  rw [ha]
  have hk : lambdaK (q.par ("m_" ++ B.name) ^ 2) (q.par ("m_" ++ l2.name) ^ 2) (q.par ("m_" ++ l1.name) ^ 2) =
      lambdaK (q.par ("m_" ++ B.name) ^ 2) (q.par ("m_" ++ l1.name) ^ 2) (q.par ("m_" ++ l2.name) ^ 2) := by
    have : kallen (q.par ("m_" ++ B.name) ^ 2) (q.par ("m_" ++ l2.name) ^ 2) (q.par ("m_" ++ l1.name) ^ 2) =
      kallen (q.par ("m_" ++ B.name) ^ 2) (q.par ("m_" ++ l1.name) ^ 2) (q.par ("m_" ++ l2.name) ^ 2) := by
      unfold kallen; ring
    unfold lambdaK; rw [this]
  simp only [hk]

/-- **C88 (rephasing).** The branching ratio does not change if the quark fields are rephased (the CKM matrix is
multiplied by phases) or if all coefficients are multiplied by a common phase. -/
theorem C88_rephasing {q : Inputs} {B : BMes} {l1 l2 : Lep} (hph : Physical q B l1 l2) (wc : String → ℂ) (u : ℂ)
    (hu : ‖u‖ = 1) {p r : Fin 3 → ℂ} (hp : ∀ i, ‖p i‖ = 1) (hr : ∀ i, ‖r i‖ = 1) :
    brInst { q with V := rephase q.V p r } (fun k => u * wc k) B l1 l2 = brInst q wc B l1 l2 := by
  have hph' : Physical { q with V := rephase q.V p r } B l1 l2 := ⟨hph.mB, hph.m1, hph.m2, hph.thr, hph.mb, by
    have := hph.msp; cases B <;> exact this⟩
  obtain ⟨N, P, S, hN, ha, hb⟩ := brInst_eq hph wc
  obtain ⟨N', P', S', hN', ha', hb'⟩ := brInst_eq hph' (fun k => u * wc k)
  have hmn : ∀ c s, minus (fun k => u * wc k) c s = u * minus wc c s := by
    intro c s; unfold minus; ring
  have hms : mspec { q with V := rephase q.V p r } B = mspec q B := by cases B <;> rfl
  have eP : P' = u * P ∧ S' = u * S := by
    rw [amplitudes_eq hph wc] at ha
    rw [amplitudes_eq hph' (fun k => u * wc k)] at ha'
    injection ha with ha
    injection ha' with ha'
    obtain ⟨a1, a2⟩ := Prod.mk.inj ha
    obtain ⟨b1, b2⟩ := Prod.mk.inj ha'
    rw [← a1, ← b1, ← a2, ← b2]
    simp only [hmn, hms]
    constructor <;> ring
  have eN : ‖N'‖ = ‖N‖ := by
    obtain ⟨f, hf, hv⟩ := normN_eq q B
    obtain ⟨f', hf', hv'⟩ := normN_eq { q with V := rephase q.V p r } B
    rw [hf] at hf'; cases hf'
    rw [hN] at hv; cases hv
    rw [hN'] at hv'; cases hv'
    have : ‖f (rephase q.V p r)‖ = ‖f q.V‖ := by
      cases B <;> (cases hf; simp [xiKlIj, rephase, hp, hr])
    simp only [norm_mul, norm_div, this]
  rw [hb, hb', eP.1, eP.2, eN]
  simp only [norm_mul, hu, one_mul]

/-- **C88 (lepton-flavour violating sum, and which coefficients are used).** The sum observable raises `ValueError`
for equal flavours; otherwise it is the sum of the two branching ratios, each with the coefficients of its own sector,
and is symmetric in the leptons. A single branching ratio uses the total coefficients iff the flavours are equal. -/
theorem C88_flavour_sum (totWc getWc : String → String → ℂ) (q : Inputs) (B : BMes) (l1 l2 : Lep) :
    (l1 = l2 → lsum brInst getWc q B l1 l2 = .error .valueError) ∧
    (∀ a b, l1 ≠ l2 → bqllObs brInst totWc getWc q B l1 l2 = .ok a → bqllObs brInst totWc getWc q B l2 l1 = .ok b →
      lsum brInst getWc q B l1 l2 = .ok (a + b) ∧ lsum brInst getWc q B l2 l1 = .ok (a + b)) ∧
    (l1 = l2 → bqllObs brInst totWc getWc q B l1 l2 = brInst q (totWc (sector B l1 l2)) B l1 l2) ∧
    (l1 ≠ l2 → bqllObs brInst totWc getWc q B l1 l2 = brInst q (getWc (sector B l1 l2)) B l1 l2) := by
  refine ⟨fun h => by unfold lsum; rw [if_pos h], fun a b h ha hb => ?_, fun h => by unfold bqllObs; rw [if_pos h],
    fun h => by unfold bqllObs; rw [if_neg h]⟩
  unfold bqllObs at ha hb
  rw [if_neg h] at ha
  rw [if_neg (Ne.symm h)] at hb
  unfold lsum
  rw [if_neg h, if_neg (Ne.symm h), ha, ok_bind_eq, hb, ok_bind_eq]
  constructor
  · rfl
  · rw [ok_bind_eq, ok_bind_eq, add_comm]

/-! ## A concrete case -/

/-- Sample parameters: `m_Bs = 5`, `m_mu = 1/10`, … (Specification.) -/
noncomputable def samplePar (s : String) : ℝ :=
  if s = "m_Bs" then 5 else if s = "m_mu" then 1 / 10 else if s = "m_e" then 0 else
  if s = "tau_Bs" then 2 else if s = "f_Bs" then 1 / 4 else if s = "DeltaGamma/Gamma_Bs" then 1 / 8 else
  if s = "GF" then 1 else 0

/-- Sample inputs. (Specification.) -/
noncomputable def sampleInputs : Inputs := ⟨samplePar, 4, 1 / 10, 0, 1 / 128, fun _ _ => 1⟩

theorem sample_physical : Physical sampleInputs .Bs .mu .mu ∧ Physical sampleInputs .Bs .e .mu := by
  have e1 : samplePar ("m_" ++ BMes.Bs.name) = 5 := by unfold samplePar; rw [if_pos (by decide)]
  have e2 : samplePar ("m_" ++ Lep.mu.name) = 1 / 10 := by
    unfold samplePar; rw [if_neg (by decide), if_pos (by decide)]
  have e3 : samplePar ("m_" ++ Lep.e.name) = 0 := by
    unfold samplePar; rw [if_neg (by decide), if_neg (by decide), if_pos (by decide)]
  constructor <;> constructor <;> simp only [sampleInputs, e1, e2, e3, mspec] <;> norm_num

/-- Only `C10` is non-zero: the Standard Model pattern. (Specification.) -/
noncomputable def sampleWc (s : String) : ℂ := if s = "C10_bsmumu" then -4 else 0

/-- **C88 (a concrete case meets the hypotheses).** With only `C10` the asymmetry is defined and equal to one, the
lifetime is positive and `|y| < 1`, so the theorems above apply. -/
theorem C88_sample : aDeltaGamma sampleInputs sampleWc .Bs .mu = .ok 1 ∧ 0 < sampleInputs.par ("tau_" ++ BMes.Bs.name) ∧
    |sampleInputs.par ("DeltaGamma/Gamma_" ++ BMes.Bs.name) / 2| < 1 ∧
    ∃ br, brInst sampleInputs sampleWc .Bs .mu .mu = .ok br ∧
      brTimeint sampleInputs sampleWc .Bs .mu .mu = .ok (br * (16 / 15)) := by
  have e1 : samplePar ("m_" ++ BMes.Bs.name) = 5 := by unfold samplePar; rw [if_pos (by decide)]
  have e2 : samplePar ("m_" ++ Lep.mu.name) = 1 / 10 := by
    unfold samplePar; rw [if_neg (by decide), if_pos (by decide)]
  have e4 : samplePar ("tau_" ++ BMes.Bs.name) = 2 := by
    unfold samplePar
    rw [if_neg (by decide), if_neg (by decide), if_neg (by decide), if_pos (by decide)]
  have e5 : samplePar ("DeltaGamma/Gamma_" ++ BMes.Bs.name) = 1 / 8 := by
    unfold samplePar
    rw [if_neg (by decide), if_neg (by decide), if_neg (by decide), if_neg (by decide), if_neg (by decide),
      if_pos (by decide)]
  obtain ⟨hp, -⟩ := sample_physical
  have s10 : minus sampleWc "C10" (sector .Bs .mu .mu) = -4 := by
    unfold minus sampleWc; rw [if_pos (by decide), if_neg (by decide)]; simp
  have s0 : ∀ c ∈ ["CP", "CS", "C9"], minus sampleWc c (sector .Bs .mu .mu) = 0 := by
    intro c hc
    unfold minus sampleWc
    fin_cases hc <;> rw [if_neg (by decide), if_neg (by decide)] <;> simp
  have ha := amplitudes_eq hp sampleWc
  rw [s10, s0 "CP" (by simp), s0 "CS" (by simp), s0 "C9" (by simp)] at ha
  have hA : aDeltaGamma sampleInputs sampleWc .Bs .mu = .ok 1 := by
    refine (C88_asymmetry_SM hp sampleWc _ _ ha).1 ?_ ?_ ?_
    · unfold sampleWc; rw [if_neg (by decide), if_neg (by decide)]
    · simp only [sampleInputs, e1, e2]; simp
    · simp only [sampleInputs, e1, e2]; norm_num
  have hτ : 0 < sampleInputs.par ("tau_" ++ BMes.Bs.name) := by simp only [sampleInputs, e4]; norm_num
  have hy : |sampleInputs.par ("DeltaGamma/Gamma_" ++ BMes.Bs.name) / 2| < 1 := by
    simp only [sampleInputs, e5]; rw [abs_lt]; norm_num
  obtain ⟨N, P, S, -, -, hb⟩ := brInst_eq hp sampleWc
  refine ⟨hA, hτ, hy, _, hb, ?_⟩
  rw [(C88_time_integrated sampleInputs sampleWc .Bs).1 .mu _ 1 hb hA hτ hy, int_untagged 1 hτ hy]
  simp only [sampleInputs, e4, e5]
  congr 2
  norm_num

end Verif.Bll
