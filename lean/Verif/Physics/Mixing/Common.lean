import Mathlib.Analysis.SpecialFunctions.Complex.Arg
import Mathlib.Analysis.SpecialFunctions.Pow.Real
import Mathlib.Tactic.FieldSimp
import Mathlib.Tactic.Linarith
import Mathlib.Tactic.LinearCombination
import Verif.Py.Basic
import Verif.Py.ExceptLemmas
/-!
# Meson-antimeson mixing: `flavio/physics/mesonmixing/common.py` and the formulas of `observables.py`

Complex numbers are exact; `cmath.sqrt` is the principal square root (signed zeros are not modelled),
`cmath.phase` is `Complex.arg`.  The amplitudes `M12`, `G12` are arbitrary complex numbers.
-/
set_option linter.unusedVariables false
namespace Verif.Mixing
open Verif.Py Complex
open scoped ComplexConjugate

/-- `cmath.sqrt`. (Used for `qOverP`, /repo/flavio/physics/mesonmixing/common.py:34-39.) -/
noncomputable def csqrt (z : ℂ) : ℂ := z ^ (2⁻¹ : ℂ)

/-- `q_over_p`.  /repo/flavio/physics/mesonmixing/common.py:34-39. -/
noncomputable def qOverP (M12 G12 : ℂ) : ℂ :=
  open Classical in
  if 2 * M12 - I * G12 = 0 then -1
  else -csqrt ((2 * conj M12 - I * conj G12) / (2 * M12 - I * G12))

/-- `DeltaM`.  /repo/flavio/physics/mesonmixing/common.py:24-27. -/
noncomputable def deltaM (M12 G12 : ℂ) : ℝ := -2 * (qOverP M12 G12 * (M12 - I / 2 * G12)).re

/-- `DeltaGamma`.  /repo/flavio/physics/mesonmixing/common.py:29-32. -/
noncomputable def deltaGamma (M12 G12 : ℂ) : ℝ := -4 * (qOverP M12 G12 * (M12 - I / 2 * G12)).im

/-- `a_fs` for non-zero amplitudes (`G12 = 0` or `M12 = 0` raises `ZeroDivisionError`).
/repo/flavio/physics/mesonmixing/common.py:41-47. -/
noncomputable def aFs (M12 G12 : ℂ) : Except PyErr ℝ :=
  open Classical in
  if G12 = 0 then .error .zeroDivisionError
  else if M12 = 0 then .error .zeroDivisionError
  else .ok (‖G12‖ / ‖M12‖ * Real.sin (arg (-M12 / G12)))

/-- `DeltaM_12`.  /repo/flavio/physics/mesonmixing/observables.py:31-35. -/
noncomputable def deltaM12 (M12 G12 : ℂ) : ℝ := -deltaM M12 G12

/-- `DeltaM_positive`.  /repo/flavio/physics/mesonmixing/observables.py:37-40. -/
noncomputable def deltaMPositive (M12 G12 : ℂ) : ℝ := |deltaM M12 G12|

/-- `DeltaGamma_B`.  /repo/flavio/physics/mesonmixing/observables.py:50-61. -/
noncomputable def deltaGammaB (M12 G12 : ℂ) : ℝ :=
  if deltaM M12 G12 > 0 then deltaGamma M12 G12 else -deltaGamma M12 G12

/-- `x`.  /repo/flavio/physics/mesonmixing/observables.py:70-72. -/
noncomputable def xMix (M12 G12 : ℂ) (tau : ℝ) : ℝ := deltaM12 M12 G12 * tau

/-- `y`.  /repo/flavio/physics/mesonmixing/observables.py:74-76. -/
noncomputable def yMix (M12 G12 : ℂ) (tau : ℝ) : ℝ := deltaGamma M12 G12 * tau / 2

/-- `x12`.  /repo/flavio/physics/mesonmixing/observables.py:78-81. -/
noncomputable def x12 (M12 : ℂ) (tau : ℝ) : ℝ := 2 * ‖M12‖ * tau

/-- `y12`.  /repo/flavio/physics/mesonmixing/observables.py:83-86. -/
noncomputable def y12 (G12 : ℂ) (tau : ℝ) : ℝ := ‖G12‖ * tau

/-- `phi12`.  /repo/flavio/physics/mesonmixing/observables.py:92-95. -/
noncomputable def phi12 (M12 G12 : ℂ) : ℝ := arg (M12 / G12)

/-- `x12Im`.  /repo/flavio/physics/mesonmixing/observables.py:88-90. -/
noncomputable def x12Im (M12 G12 : ℂ) (tau : ℝ) : ℝ := x12 M12 tau * Real.sin (phi12 M12 G12)

/-- The prediction of `phi_D`.  /repo/flavio/physics/mesonmixing/observables.py:210. -/
noncomputable def phiD (M12 G12 : ℂ) : ℝ := arg (-qOverP M12 G12)

/-- `epsK` (`DeltaM_K0 = 0` raises `ZeroDivisionError`).
/repo/flavio/physics/mesonmixing/observables.py:97-101. -/
noncomputable def epsK (kappa dmk : ℝ) (M12 : ℂ) : Except PyErr ℝ :=
  if dmk = 0 then .error .zeroDivisionError else .ok (kappa * M12.im / dmk / Real.sqrt 2)

/-- The ratio `q/p` used in `S`: the sign that makes `DeltaM` positive.
/repo/flavio/physics/mesonmixing/observables.py:113-116. -/
noncomputable def qpPositive (M12 G12 : ℂ) : ℂ :=
  if deltaM M12 G12 < 0 then -qOverP M12 G12 else qOverP M12 G12

/-- `S`; `A`, `Abar` are the decay amplitude and its CP conjugate (`Abar = 0` raises
`ZeroDivisionError`).  /repo/flavio/physics/mesonmixing/observables.py:111-120. -/
noncomputable def sMix (M12 G12 A Abar : ℂ) (etaCP : ℝ) : Except PyErr ℝ :=
  open Classical in
  if Abar = 0 then .error .zeroDivisionError
  else .ok (-2 * (etaCP * qpPositive M12 G12 * A / Abar).im /
    (1 + ‖etaCP * qpPositive M12 G12 * A / Abar‖ ^ 2))

/-! ## The square root -/

theorem csqrt_sq (z : ℂ) : csqrt z ^ 2 = z := by
  have := cpow_nat_inv_pow z (n := 2) (by norm_num)
  unfold csqrt; exact_mod_cast this

theorem csqrt_re_nonneg (z : ℂ) : 0 ≤ (csqrt z).re := by
  unfold csqrt; rw [cpow_inv_two_re]; exact Real.sqrt_nonneg _

/-- Twice the off-diagonal element `H12 = M12 - i/2 G12`, and `H21`.
Used for /repo/flavio/physics/mesonmixing/common.py:24-39. -/
noncomputable def A12 (M12 G12 : ℂ) : ℂ := 2 * M12 - I * G12
/-- Helper for /repo/flavio/physics/mesonmixing/common.py:24-39. -/
noncomputable def A21 (M12 G12 : ℂ) : ℂ := 2 * conj M12 - I * conj G12

/-- The difference of the eigenvalues as the code computes it.
Used for /repo/flavio/physics/mesonmixing/common.py:24-39. -/
noncomputable def wdiff (M12 G12 : ℂ) : ℂ := -(qOverP M12 G12 * A12 M12 G12)

theorem deltaM_eq (M G : ℂ) : deltaM M G = (wdiff M G).re := by
  unfold deltaM wdiff A12
  have : qOverP M G * (2 * M - I * G) = 2 * (qOverP M G * (M - I / 2 * G)) := by ring
  rw [this, neg_re, show (2 : ℂ) = ((2 : ℝ) : ℂ) by norm_num, re_ofReal_mul]; ring

theorem deltaGamma_eq (M G : ℂ) : deltaGamma M G = 2 * (wdiff M G).im := by
  unfold deltaGamma wdiff A12
  have : qOverP M G * (2 * M - I * G) = 2 * (qOverP M G * (M - I / 2 * G)) := by ring
  rw [this, neg_im, show (2 : ℂ) = ((2 : ℝ) : ℂ) by norm_num, im_ofReal_mul]; ring

theorem qp_sq {M G : ℂ} (h : A12 M G ≠ 0) : qOverP M G ^ 2 * A12 M G = A21 M G := by
  unfold qOverP
  have h' : 2 * M - I * G ≠ 0 := h
  rw [if_neg h', neg_sq, csqrt_sq]
  exact div_mul_cancel₀ _ h

theorem wdiff_sq {M G : ℂ} (h : A12 M G ≠ 0) : wdiff M G ^ 2 = A12 M G * A21 M G := by
  rw [← qp_sq h]; unfold wdiff; ring

theorem prod_eq (M G : ℂ) : A12 M G * A21 M G =
    ((4 * ‖M‖ ^ 2 - ‖G‖ ^ 2 : ℝ) : ℂ) - I * ((4 * (M * conj G).re : ℝ) : ℂ) := by
  unfold A12 A21
  rw [← normSq_eq_norm_sq, ← normSq_eq_norm_sq]
  apply Complex.ext
  · simp [normSq_apply]; ring
  · simp [normSq_apply]; ring

/-! ## Specification -/

/-- The effective Hamiltonian of a meson-antimeson system with CPT symmetry, average mass `m` and width
`Γ`: `H = [[m - iΓ/2, M12 - iG12/2], [M12* - iG12*/2, m - iΓ/2]]`.  `(p, q)` is an eigenvector with
eigenvalue `ev`. (Specification.) -/
def Eigen (m Γ : ℝ) (M12 G12 p q ev : ℂ) : Prop :=
  (p ≠ 0 ∨ q ≠ 0) ∧
  (m - I * Γ / 2) * p + (M12 - I * G12 / 2) * q = ev * p ∧
  (conj M12 - I * conj G12 / 2) * p + (m - I * Γ / 2) * q = ev * q

/-- The mass and the width of a state with eigenvalue `ev = M - iΓ/2`. (Specification.) -/
noncomputable def massOf (ev : ℂ) : ℝ := ev.re
/-- (Specification.) -/
noncomputable def widthOf (ev : ℂ) : ℝ := -2 * ev.im

/-! ## C86 -/

/-- **C86 (eigenstates)** Unless `M12 = i G12 / 2`, the states `(1, q/p)` and `(1, -q/p)` are the mass
eigenstates of the effective Hamiltonian, `DeltaM` is the mass of the second minus that of the first and
`DeltaGamma` the width of the first minus that of the second. -/
theorem C86_eigenstates (m Γ : ℝ) (M12 G12 : ℂ) (h : 2 * M12 - I * G12 ≠ 0) :
    ∃ e1 e2, Eigen m Γ M12 G12 1 (qOverP M12 G12) e1 ∧ Eigen m Γ M12 G12 1 (-qOverP M12 G12) e2 ∧
      deltaM M12 G12 = massOf e2 - massOf e1 ∧ deltaGamma M12 G12 = widthOf e1 - widthOf e2 := by
  have hq := qp_sq (M := M12) (G := G12) h
  unfold A12 A21 at hq
  refine ⟨m - I * Γ / 2 - wdiff M12 G12 / 2, m - I * Γ / 2 + wdiff M12 G12 / 2,
    ⟨Or.inl one_ne_zero, ?_, ?_⟩, ⟨Or.inl one_ne_zero, ?_, ?_⟩, ?_, ?_⟩
  · unfold wdiff A12; ring
  · unfold wdiff A12; linear_combination (-1 / 2) * hq
  · unfold wdiff A12; ring
  · unfold wdiff A12; linear_combination (-1 / 2) * hq
  · rw [deltaM_eq]
    unfold massOf
    have : (wdiff M12 G12 / 2).re = (wdiff M12 G12).re / 2 := by
      rw [show (2 : ℂ) = ((2 : ℝ) : ℂ) by norm_num, div_ofReal_re]
    rw [add_re, sub_re _ (wdiff M12 G12 / 2), this]; ring
  · rw [deltaGamma_eq]
    unfold widthOf
    have : (wdiff M12 G12 / 2).im = (wdiff M12 G12).im / 2 := by
      rw [show (2 : ℂ) = ((2 : ℝ) : ℂ) by norm_num, div_ofReal_im]
    rw [add_im, sub_im _ (wdiff M12 G12 / 2), this]; ring

/-- **C86 (relations)** The exact relations between the eigenvalue differences and the amplitudes:
`ΔM² - ΔΓ²/4 = 4|M12|² - |Γ12|²` and `ΔM ΔΓ = -4 Re(M12 Γ12*)`. -/
theorem C86_relations (M12 G12 : ℂ) (h : 2 * M12 - I * G12 ≠ 0) :
    deltaM M12 G12 ^ 2 - deltaGamma M12 G12 ^ 2 / 4 = 4 * ‖M12‖ ^ 2 - ‖G12‖ ^ 2 ∧
    deltaM M12 G12 * deltaGamma M12 G12 = -4 * (M12 * conj G12).re := by
  have hw := wdiff_sq (M := M12) (G := G12) h
  rw [prod_eq] at hw
  have h1 := congrArg Complex.re hw
  have h2 := congrArg Complex.im hw
  rw [pow_two] at h1 h2
  simp only [mul_re, mul_im, sub_re, sub_im, ofReal_re, ofReal_im, I_re, I_im] at h1 h2
  rw [deltaM_eq, deltaGamma_eq]
  constructor <;> [linear_combination h1; skip]
  have : (M12 * conj G12).re = (M12 * conj G12).re := rfl
  simp only [mul_re] at *
  linear_combination h2

/-- **C86 (conventions)** `DeltaM_positive` is never negative; `DeltaGamma_B` is the width difference in the
convention with positive mass difference: together they satisfy the same relations. -/
theorem C86_positive (M12 G12 : ℂ) (h : 2 * M12 - I * G12 ≠ 0) :
    0 ≤ deltaMPositive M12 G12 ∧
    deltaMPositive M12 G12 ^ 2 - deltaGammaB M12 G12 ^ 2 / 4 = 4 * ‖M12‖ ^ 2 - ‖G12‖ ^ 2 ∧
    deltaMPositive M12 G12 * deltaGammaB M12 G12 = -4 * (M12 * conj G12).re := by
  obtain ⟨h1, h2⟩ := C86_relations M12 G12 h
  refine ⟨abs_nonneg _, ?_, ?_⟩
  · unfold deltaMPositive deltaGammaB
    rw [sq_abs]
    split
    · exact h1
    · rw [neg_sq]; exact h1
  · unfold deltaMPositive deltaGammaB
    split
    · rename_i hd
      rw [abs_of_pos hd]; exact h2
    · rename_i hd
      rw [abs_of_nonpos (not_lt.1 hd)]; linarith

/-- The mass and width differences are determined by their relations up to a common sign. -/
theorem square_root_unique {a b c d : ℝ} (ha : 0 ≤ a) (hc : 0 ≤ c) (h1 : a ^ 2 - b ^ 2 / 4 = c ^ 2 - d ^ 2 / 4)
    (h2 : a * b = c * d) : a = c ∧ (a ≠ 0 → b = d) := by
  have hsq : (a ^ 2 - c ^ 2) * (a ^ 2 + d ^ 2 / 4) = 0 := by
    have : a ^ 2 * b ^ 2 = c ^ 2 * d ^ 2 := by rw [← mul_pow, ← mul_pow, h2]
    nlinarith
  have hac : a = c := by
    rcases mul_eq_zero.1 hsq with h | h
    · have : (a - c) * (a + c) = 0 := by ring_nf; linarith
      rcases mul_eq_zero.1 this with h | h
      · linarith
      · have : a = 0 ∧ c = 0 := ⟨by linarith, by linarith⟩
        rw [this.1, this.2]
    · have ha0 : a = 0 := by nlinarith [sq_nonneg a, sq_nonneg d]
      have hd0 : d = 0 := by nlinarith [sq_nonneg a, sq_nonneg d]
      subst ha0 hd0
      have : c ^ 2 + b ^ 2 / 4 = 0 := by linarith
      have : c = 0 := by nlinarith [sq_nonneg c, sq_nonneg b]
      rw [this]
  refine ⟨hac, fun h0 => ?_⟩
  subst hac
  exact mul_left_cancel₀ h0 h2

theorem norm_conj_mul_phase {u M : ℂ} (hu : ‖u‖ = 1) : ‖u * M‖ = ‖M‖ := by rw [norm_mul, hu, one_mul]

theorem conj_mul_self_of_norm {u : ℂ} (hu : ‖u‖ = 1) : u * conj u = 1 := by
  rw [mul_conj, normSq_eq_norm_sq, hu]; norm_num

theorem phase_inner {u M G : ℂ} (hu : ‖u‖ = 1) : (u * M) * conj (u * G) = M * conj G := by
  rw [map_mul]
  linear_combination (M * conj G) * conj_mul_self_of_norm hu

theorem A12_phase (u M G : ℂ) : 2 * (u * M) - I * (u * G) = u * (2 * M - I * G) := by ring

theorem A12_phase_ne {u M G : ℂ} (hu : ‖u‖ = 1) (h : 2 * M - I * G ≠ 0) : 2 * (u * M) - I * (u * G) ≠ 0 := by
  rw [A12_phase]
  exact mul_ne_zero (by rintro rfl; simp at hu) h

/-- **C86 (rephasing)** Multiplying both amplitudes by a common phase (a change of the phase convention of
the meson states) changes neither `DeltaM_positive` nor `DeltaGamma_B` (for non-zero mass difference) nor
the asymmetry `a_fs`, `|q/p|`, `x12`, `y12`, `phi12`. -/
theorem C86_rephasing (u M12 G12 : ℂ) (hu : ‖u‖ = 1) (h : 2 * M12 - I * G12 ≠ 0) (tau : ℝ) :
    deltaMPositive (u * M12) (u * G12) = deltaMPositive M12 G12 ∧
    (deltaM M12 G12 ≠ 0 → deltaGammaB (u * M12) (u * G12) = deltaGammaB M12 G12) ∧
    aFs (u * M12) (u * G12) = aFs M12 G12 ∧ ‖qOverP (u * M12) (u * G12)‖ = ‖qOverP M12 G12‖ ∧
    x12 (u * M12) tau = x12 M12 tau ∧ y12 (u * G12) tau = y12 G12 tau ∧
    phi12 (u * M12) (u * G12) = phi12 M12 G12 := by
  have hu0 : u ≠ 0 := by rintro rfl; simp at hu
  have h' := A12_phase_ne hu h
  obtain ⟨a1, a2, a3⟩ := C86_positive M12 G12 h
  obtain ⟨b1, b2, b3⟩ := C86_positive (u * M12) (u * G12) h'
  rw [norm_conj_mul_phase hu, norm_conj_mul_phase hu] at b2
  rw [phase_inner hu] at b3
  obtain ⟨c1, c2⟩ := square_root_unique b1 a1 (b2.trans a2.symm) (b3.trans a3.symm)
  refine ⟨c1, ?_, ?_, ?_, ?_, ?_, ?_⟩
  · intro hd
    refine c2 ?_
    rw [c1]
    exact abs_ne_zero.2 hd
  · unfold aFs
    simp only [mul_eq_zero, hu0, false_or, norm_conj_mul_phase hu]
    rw [← mul_neg, mul_div_mul_left _ _ hu0]
  · have e1 := qp_sq (M := M12) (G := G12) h
    have e2 := qp_sq (M := u * M12) (G := u * G12) h'
    have n1 := congrArg norm e1
    have n2 := congrArg norm e2
    unfold A12 A21 at n1 n2
    rw [A12_phase] at n2
    have hcj : 2 * conj (u * M12) - I * conj (u * G12) = conj u * (2 * conj M12 - I * conj G12) := by
      rw [map_mul, map_mul]; ring
    rw [hcj] at n2
    simp only [norm_mul, norm_pow, hu, one_mul, norm_conj] at n1 n2
    have hA : 0 < ‖2 * M12 - I * G12‖ := norm_pos_iff.2 h
    have : ‖qOverP (u * M12) (u * G12)‖ ^ 2 = ‖qOverP M12 G12‖ ^ 2 :=
      mul_right_cancel₀ hA.ne' (n2.trans n1.symm)
    exact (sq_eq_sq₀ (norm_nonneg _) (norm_nonneg _)).1 this
  · unfold x12; rw [norm_conj_mul_phase hu]
  · unfold y12; rw [norm_conj_mul_phase hu]
  · unfold phi12; rw [mul_div_mul_left _ _ hu0]

/-- **C86 (phase convention of `x_D`)** `DeltaM_12`, `DeltaGamma_12` and hence `x_D`, `y_D` are *not* invariant:
with `M12 = 1/2` and `M12 = -1/2` (and `G12 = 0`) `DeltaM_12` has opposite signs. -/
theorem C86_signed_differences_depend_on_phases :
    deltaM12 (1 / 2) 0 = -1 ∧ deltaM12 (-1 * (1 / 2)) (-1 * 0) = 1 := by
  have hs : csqrt 1 = 1 := by simp [csqrt]
  constructor
  · unfold deltaM12 deltaM qOverP
    rw [if_neg (by norm_num)]
    have : (2 * conj (1 / 2 : ℂ) - I * conj 0) / (2 * (1 / 2) - I * 0) = 1 := by
      have : conj (2 : ℂ) = 2 := map_ofNat _ 2
      simp [this]
    rw [this, hs]; norm_num
  · unfold deltaM12 deltaM qOverP
    rw [if_neg (by norm_num)]
    have : (2 * conj (-1 * (1 / 2) : ℂ) - I * conj (-1 * 0)) / (2 * (-1 * (1 / 2)) - I * (-1 * 0)) = 1 := by
      have : conj (2 : ℂ) = 2 := map_ofNat _ 2
      simp [this]
    rw [this, hs]; norm_num

theorem norm_A12 (M G : ℂ) : ‖2 * M - I * G‖ ^ 2 = 4 * ‖M‖ ^ 2 + ‖G‖ ^ 2 - 4 * (M * conj G).im := by
  simp only [← normSq_eq_norm_sq, normSq_apply, sub_re, sub_im, mul_re, mul_im, I_re, I_im, conj_re, conj_im,
    re_ofNat, im_ofNat]
  ring

theorem norm_A21 (M G : ℂ) : ‖2 * conj M - I * conj G‖ ^ 2 = 4 * ‖M‖ ^ 2 + ‖G‖ ^ 2 + 4 * (M * conj G).im := by
  simp only [← normSq_eq_norm_sq, normSq_apply, sub_re, sub_im, mul_re, mul_im, I_re, I_im, conj_re, conj_im,
    re_ofNat, im_ofNat]
  ring

theorem norm_qp {M G : ℂ} (h : 2 * M - I * G ≠ 0) :
    ‖qOverP M G‖ ^ 4 * (4 * ‖M‖ ^ 2 + ‖G‖ ^ 2 - 4 * (M * conj G).im) =
      4 * ‖M‖ ^ 2 + ‖G‖ ^ 2 + 4 * (M * conj G).im := by
  rw [← norm_A12, ← norm_A21]
  have e := congrArg norm (qp_sq (M := M) (G := G) h)
  unfold A12 A21 at e
  simp only [norm_mul, norm_pow] at e
  rw [← e]; ring

/-- **C86 (CP violation in mixing)** `|q/p| = 1` exactly if `Im(M12 Γ12*) = 0`, and it is larger than 1 exactly
if this imaginary part is positive. -/
theorem C86_qp_modulus (M12 G12 : ℂ) (h : 2 * M12 - I * G12 ≠ 0) :
    (‖qOverP M12 G12‖ = 1 ↔ (M12 * conj G12).im = 0) ∧ (1 < ‖qOverP M12 G12‖ ↔ 0 < (M12 * conj G12).im) := by
  have e := norm_qp h
  have hA : 0 < 4 * ‖M12‖ ^ 2 + ‖G12‖ ^ 2 - 4 * (M12 * conj G12).im := by
    rw [← norm_A12]; exact pow_pos (norm_pos_iff.2 h) 2
  have hn := norm_nonneg (qOverP M12 G12)
  generalize ‖qOverP M12 G12‖ = r at *
  have key : (r ^ 4 - 1) * (4 * ‖M12‖ ^ 2 + ‖G12‖ ^ 2 - 4 * (M12 * conj G12).im) = 8 * (M12 * conj G12).im := by
    linear_combination e
  constructor
  · constructor
    · rintro rfl; linarith
    · intro h0
      rw [h0, mul_zero] at key
      have : r ^ 4 = 1 := by
        rcases mul_eq_zero.1 (key.trans (mul_zero 8)) with h | h
        · linarith
        · rw [h0] at hA; linarith
      exact (pow_eq_one_iff_of_nonneg hn (by norm_num)).1 this
  · constructor
    · intro h1
      have : 1 < r ^ 4 := one_lt_pow₀ h1 (by norm_num)
      have := mul_pos (sub_pos.2 this) hA
      linarith
    · intro h0
      by_contra hc
      push Not at hc
      have : r ^ 4 ≤ 1 := pow_le_one₀ hn hc
      nlinarith

/-- **C86 (flavour-specific asymmetry)** For non-zero amplitudes `a_fs` is `Im(Γ12/M12)`; the asymmetry
`(1 - |q/p|⁴)/(1 + |q/p|⁴)` is `a_fs` divided by `1 + |Γ12/M12|²/4`; and a vanishing amplitude raises
`ZeroDivisionError`. -/
theorem C86_a_fs (M12 G12 : ℂ) :
    (M12 = 0 ∨ G12 = 0 → aFs M12 G12 = .error .zeroDivisionError) ∧
    (M12 ≠ 0 → G12 ≠ 0 → ∃ a, aFs M12 G12 = .ok a ∧ a = (G12 / M12).im ∧
      (2 * M12 - I * G12 ≠ 0 →
        (1 - ‖qOverP M12 G12‖ ^ 4) / (1 + ‖qOverP M12 G12‖ ^ 4) = a / (1 + (‖G12‖ / ‖M12‖) ^ 2 / 4))) := by
  constructor
  · rintro (h | h)
    · unfold aFs
      rw [if_pos h]
      split <;> rfl
    · unfold aFs; rw [if_pos h]
  · intro hM hG
    have nM := norm_pos_iff.2 hM
    have nG := norm_pos_iff.2 hG
    have ha : ‖G12‖ / ‖M12‖ * Real.sin (arg (-M12 / G12)) = (G12 / M12).im := by
      rw [sin_arg]
      have h1 : ‖-M12 / G12‖ = ‖M12‖ / ‖G12‖ := by rw [norm_div, norm_neg]
      have h2 : (-M12 / G12).im = -((M12 * conj G12).im / ‖G12‖ ^ 2) := by
        rw [neg_div, neg_im, div_eq_mul_inv, inv_def, ← mul_assoc, mul_comm, normSq_eq_norm_sq, im_ofReal_mul]
        ring
      have h3 : (G12 / M12).im = -((M12 * conj G12).im / ‖M12‖ ^ 2) := by
        rw [div_eq_mul_inv, inv_def, ← mul_assoc, mul_comm, normSq_eq_norm_sq, im_ofReal_mul]
        have : (G12 * conj M12).im = -(M12 * conj G12).im := by
          simp only [mul_im, conj_re, conj_im]; ring
        rw [this]; ring
      rw [h1, h2, h3]
      field_simp
    refine ⟨(G12 / M12).im, ?_, rfl, ?_⟩
    · unfold aFs
      rw [if_neg hG, if_neg hM, ha]
    · intro h
      have e := norm_qp h
      have h3 : (G12 / M12).im = -((M12 * conj G12).im / ‖M12‖ ^ 2) := by
        rw [div_eq_mul_inv, inv_def, ← mul_assoc, mul_comm, normSq_eq_norm_sq, im_ofReal_mul]
        have : (G12 * conj M12).im = -(M12 * conj G12).im := by
          simp only [mul_im, conj_re, conj_im]; ring
        rw [this]; ring
      rw [h3]
      have hr : 0 < 1 + ‖qOverP M12 G12‖ ^ 4 := by positivity
      have hd : 0 < 1 + (‖G12‖ / ‖M12‖) ^ 2 / 4 := by positivity
      rw [div_eq_div_iff hr.ne' hd.ne']
      field_simp
      nlinarith [e]

/-- **C86 (range of S)** The mixing-induced asymmetry lies between -1 and 1. -/
theorem C86_S_range (M12 G12 A Abar : ℂ) (eta s : ℝ) (h : sMix M12 G12 A Abar eta = .ok s) : |s| ≤ 1 := by
  unfold sMix at h
  split at h
  · cases h
  · injection h with h
    rw [← h]
    generalize (↑eta * qpPositive M12 G12 * A / Abar) = z
    have h1 : |z.im| ≤ ‖z‖ := abs_im_le_norm z
    have h0 := norm_nonneg z
    rw [abs_div, abs_of_pos (show (0 : ℝ) < 1 + ‖z‖ ^ 2 by positivity), div_le_one (by positivity), abs_mul]
    rw [show |(-2 : ℝ)| = 2 by norm_num]
    nlinarith [sq_nonneg (‖z‖ - 1)]

/-- The sign-fixed `q/p` makes the mass difference positive. -/
theorem qpPositive_re (M G : ℂ) : (-(qpPositive M G * A12 M G)).re = |deltaM M G| := by
  unfold qpPositive
  have h := deltaM_eq M G
  unfold wdiff at h
  split
  · rename_i hd
    rw [abs_of_neg hd, h, neg_mul, neg_neg, neg_re, neg_neg]
  · rename_i hd
    rw [abs_of_nonneg (not_lt.1 hd), h]

theorem qpPositive_sq {M G : ℂ} (h : A12 M G ≠ 0) : qpPositive M G ^ 2 * A12 M G = A21 M G := by
  unfold qpPositive
  split
  · rw [neg_sq]; exact qp_sq h
  · exact qp_sq h

/-- The sign-fixed ratio is the only square root with a positive mass difference. -/
theorem qpPositive_unique {M G z : ℂ} (h : A12 M G ≠ 0) (hd : deltaM M G ≠ 0) (h1 : z ^ 2 * A12 M G = A21 M G)
    (h2 : 0 ≤ (-(z * A12 M G)).re) : z = qpPositive M G := by
  have hs : z ^ 2 = qpPositive M G ^ 2 := mul_right_cancel₀ h (h1.trans (qpPositive_sq h).symm)
  rcases sq_eq_sq_iff_eq_or_eq_neg.1 hs with h3 | h3
  · exact h3
  · exfalso
    have h4 := qpPositive_re M G
    rw [h3, neg_mul, neg_neg] at h2
    rw [neg_re] at h4
    have : 0 < |deltaM M G| := abs_pos.2 hd
    linarith

theorem qpPositive_phase {u M G : ℂ} (hu : ‖u‖ = 1) (h : 2 * M - I * G ≠ 0) (hd : deltaM M G ≠ 0) :
    qpPositive (u * M) (u * G) = conj u ^ 1 * (conj u * u) * qpPositive M G := by
  have hu1 : conj u * u = 1 := by rw [mul_comm]; exact conj_mul_self_of_norm hu
  have h' := A12_phase_ne hu h
  have hd' : deltaM (u * M) (u * G) ≠ 0 := by
    have := (C86_rephasing u M G hu h 1).1
    unfold deltaMPositive at this
    rw [← abs_ne_zero, this, abs_ne_zero]; exact hd
  symm
  apply qpPositive_unique h' hd'
  · unfold A12 A21
    rw [A12_phase, hu1, mul_one, pow_one]
    have := qpPositive_sq (M := M) (G := G) h
    unfold A12 A21 at this
    rw [map_mul, map_mul]
    linear_combination (conj u) * this + conj u * qpPositive M G ^ 2 * (2 * M - I * G) * hu1
  · unfold A12
    rw [A12_phase, hu1, mul_one, pow_one]
    have : conj u * qpPositive M G * (u * (2 * M - I * G)) = qpPositive M G * A12 M G := by
      unfold A12; linear_combination qpPositive M G * (2 * M - I * G) * hu1
    rw [this, qpPositive_re]
    exact abs_nonneg _

/-- **C86 (rephasing of S)** `S` does not depend on the phase convention of the meson states: multiplying
`M12`, `G12` and the ratio of the decay amplitudes by a common phase leaves it unchanged. -/
theorem C86_S_rephasing (u M12 G12 A Abar A' Abar' : ℂ) (eta : ℝ) (hu : ‖u‖ = 1) (h : 2 * M12 - I * G12 ≠ 0)
    (hd : deltaM M12 G12 ≠ 0) (h0 : Abar ≠ 0) (h0' : Abar' ≠ 0) (hr : A' / Abar' = u * (A / Abar)) :
    sMix (u * M12) (u * G12) A' Abar' eta = sMix M12 G12 A Abar eta := by
  have hu1 : conj u * u = 1 := by rw [mul_comm]; exact conj_mul_self_of_norm hu
  have : (eta : ℂ) * qpPositive (u * M12) (u * G12) * A' / Abar' = eta * qpPositive M12 G12 * A / Abar := by
    rw [qpPositive_phase hu h hd, mul_div_assoc, hr, hu1, pow_one, mul_one, mul_div_assoc]
    linear_combination (eta * qpPositive M12 G12 * (A / Abar)) * hu1
  unfold sMix
  rw [if_neg h0, if_neg h0', this]

/-- **C86 (no width)** Without absorptive part and without direct CP violation (as in the B⁰ system to good
approximation): the mass difference is `2|M12|` and `S = eta sin(arg(M12* A/Abar))`. -/
theorem C86_S_without_width (M12 A Abar : ℂ) (eta : ℝ) (hM : M12 ≠ 0) (hA : ‖A‖ = ‖Abar‖) (h0 : Abar ≠ 0)
    (he : eta = 1 ∨ eta = -1) :
    deltaMPositive M12 0 = 2 * ‖M12‖ ∧
    sMix M12 0 A Abar eta = .ok (eta * Real.sin (arg (conj M12 * A / Abar))) := by
  have h : 2 * M12 - I * 0 ≠ 0 := by simpa using hM
  have nM := norm_pos_iff.2 hM
  have nA : ‖Abar‖ ≠ 0 := norm_ne_zero_iff.2 h0
  obtain ⟨a1, a2, a3⟩ := C86_positive M12 0 h
  simp only [norm_zero, map_zero, mul_zero, zero_re] at a2 a3
  have hDM : deltaMPositive M12 0 = 2 * ‖M12‖ := by
    obtain ⟨c, _⟩ := square_root_unique a1 (show 0 ≤ 2 * ‖M12‖ by positivity) (b := deltaGammaB M12 0) (d := 0)
      (by rw [a2]; ring) (by rw [a3]; ring)
    exact c
  refine ⟨hDM, ?_⟩
  have hd : deltaM M12 0 ≠ 0 := by
    have : |deltaM M12 0| = 2 * ‖M12‖ := hDM
    rw [← abs_ne_zero, this]; positivity
  have hq : -(conj M12 / ‖M12‖) = qpPositive M12 0 := by
    apply qpPositive_unique h hd
    · unfold A12 A21
      have hmm := mul_conj M12
      rw [normSq_eq_norm_sq] at hmm
      have hne : ((‖M12‖ : ℝ) : ℂ) ≠ 0 := by exact_mod_cast nM.ne'
      simp only [mul_zero, sub_zero, map_zero]
      field_simp
      push_cast at hmm
      linear_combination conj M12 * hmm
    · unfold A12
      have : -(-(conj M12 / ↑‖M12‖) * (2 * M12 - I * 0)) = ((2 * ‖M12‖ : ℝ) : ℂ) := by
        have hmm := mul_conj M12
        rw [normSq_eq_norm_sq] at hmm
        have hne : ((‖M12‖ : ℝ) : ℂ) ≠ 0 := by exact_mod_cast nM.ne'
        push_cast at hmm ⊢
        field_simp
        linear_combination 2 * hmm
      rw [this, ofReal_re]; positivity
  unfold sMix
  rw [if_neg h0, ← hq]
  have hz : (eta : ℂ) * -(conj M12 / ‖M12‖) * A / Abar = ((-(eta / ‖M12‖) : ℝ) : ℂ) * (conj M12 * A / Abar) := by
    push_cast; ring
  rw [hz, im_ofReal_mul, norm_mul, norm_real, Real.norm_eq_abs]
  have hnz : ‖conj M12 * A / Abar‖ = ‖M12‖ := by
    rw [norm_div, norm_mul, norm_conj, hA, mul_div_assoc, div_self nA, mul_one]
  rw [hnz, sin_arg, hnz]
  congr 1
  have : |(-(eta / ‖M12‖))| = 1 / ‖M12‖ := by
    rw [abs_neg, abs_div, abs_of_pos nM]
    rcases he with rfl | rfl <;> norm_num
  rw [this]
  field_simp
  ring

/-- **C86 (CP conjugation)** Complex conjugation of the amplitudes inverts `q/p` up to a sign, keeps
`DeltaM_positive`, and flips the sign of `a_fs`. -/
theorem C86_cp_conjugate (M12 G12 : ℂ) (h : 2 * M12 - I * G12 ≠ 0) (h' : 2 * conj M12 - I * conj G12 ≠ 0) :
    deltaMPositive (conj M12) (conj G12) = deltaMPositive M12 G12 ∧
    (qOverP (conj M12) (conj G12) * qOverP M12 G12 = 1 ∨ qOverP (conj M12) (conj G12) * qOverP M12 G12 = -1) ∧
    (M12 ≠ 0 → G12 ≠ 0 → ∃ a, aFs M12 G12 = .ok a ∧ aFs (conj M12) (conj G12) = .ok (-a)) := by
  refine ⟨?_, ?_, ?_⟩
  · obtain ⟨a1, a2, a3⟩ := C86_positive M12 G12 h
    obtain ⟨b1, b2, b3⟩ := C86_positive (conj M12) (conj G12) h'
    rw [norm_conj, norm_conj] at b2
    have : (conj M12 * conj (conj G12)).re = (M12 * conj G12).re := by
      simp only [mul_re, conj_re, conj_im]; ring
    rw [this] at b3
    exact (square_root_unique b1 a1 (b2.trans a2.symm) (b3.trans a3.symm)).1
  · have e1 := qp_sq (M := M12) (G := G12) h
    have e2 := qp_sq (M := conj M12) (G := conj G12) h'
    unfold A12 A21 at e1 e2
    rw [conj_conj, conj_conj] at e2
    have : (qOverP (conj M12) (conj G12) * qOverP M12 G12) ^ 2 = 1 := by
      have hm : (qOverP (conj M12) (conj G12) * qOverP M12 G12) ^ 2 * (2 * M12 - I * G12) = 1 * (2 * M12 - I * G12) := by
        rw [mul_pow, mul_assoc, e1, e2, one_mul]
      exact mul_right_cancel₀ h hm
    simpa using sq_eq_sq_iff_eq_or_eq_neg.1 (this.trans (one_pow 2).symm)
  · intro hM hG
    obtain ⟨a, ha, ha2, _⟩ := (C86_a_fs M12 G12).2 hM hG
    obtain ⟨b, hb, hb2, _⟩ := (C86_a_fs (conj M12) (conj G12)).2 (by simpa using hM) (by simpa using hG)
    refine ⟨a, ha, ?_⟩
    rw [hb, hb2, ha2, ← map_div₀, conj_im]

/-- **C86 (range of `phi_D`)** The phase of `-q/p` reported as `phi_D` always lies in `(-π/2, π/2]`. -/
theorem C86_phi_D_range (M12 G12 : ℂ) : -(Real.pi / 2) ≤ phiD M12 G12 ∧ phiD M12 G12 ≤ Real.pi / 2 := by
  have h : 0 ≤ (-qOverP M12 G12).re := by
    unfold qOverP
    split
    · simp
    · rw [neg_neg]; exact csqrt_re_nonneg _
  have := abs_arg_le_pi_div_two_iff.2 h
  exact abs_le.1 this

/-- **C86 fails for `phi12`.** The documentation defines `phi12 = arg(-M12/Γ12)`; the code returns
`arg(M12/Γ12)`: for `M12 = Γ12 = 1` 0 instead of π. -/
theorem C86_phi12_sign_fails : phi12 1 1 = 0 ∧ arg (-(1 : ℂ) / 1) = Real.pi := by
  constructor
  · unfold phi12; simp
  · rw [div_one]; exact arg_neg_one

/-- **C86 (epsilon_K)** linear in the imaginary part of `M12`: it vanishes for a real amplitude and flips
sign under complex conjugation. -/
theorem C86_epsK (kappa dmk : ℝ) (h : dmk ≠ 0) (M12 : ℂ) :
    ∃ e, epsK kappa dmk M12 = .ok e ∧ epsK kappa dmk (conj M12) = .ok (-e) ∧ (M12.im = 0 → e = 0) ∧
      e * (Real.sqrt 2 * dmk) = kappa * M12.im := by
  refine ⟨kappa * M12.im / dmk / Real.sqrt 2, ?_, ?_, ?_, ?_⟩
  · unfold epsK; rw [if_neg h]
  · unfold epsK; rw [if_neg h, conj_im]; congr 1; ring
  · intro h0; rw [h0]; simp
  · have : Real.sqrt 2 ≠ 0 := by positivity
    field_simp

/-- Non-vacuity: amplitudes with CP violation in mixing. -/
example : (2 * (1 + I) - I * (1 : ℂ) ≠ 0) ∧ ((1 + I) * conj (1 : ℂ)).im ≠ 0 := by
  refine ⟨?_, by simp⟩
  intro h
  have := congrArg Complex.re h
  simp at this

end Verif.Mixing
