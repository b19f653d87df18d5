import Verif.Physics.Inclusive.XgammaTheorems
import Mathlib.Tactic.NormNum
import Mathlib.Tactic.FinCases
import Mathlib.Tactic.Linarith
import Mathlib.Tactic.IntervalCases
set_option linter.unusedVariables false
set_option linter.unusedSimpArgs false
set_option linter.unusedTactic false
set_option linter.unreachableTactic false
/-! The interference tables of `B -> X_q gamma` against colour algebra: a photon emitted from the charm loop sees `O1` and
`O2` (and `O3` and `O4`) only through one colour factor, so the tabulated rates may depend on `C1` and `C2` only through
`C2 - C1/6`. -/
namespace Verif.Xgamma
open Complex

local notation "conj" => starRingEnd ℂ

/-- (Specification.) The coefficients with the part of `C1` absorbed in `C2`: `C1 -> 0`, `C2 -> C2 - C1/6`. -/
noncomputable def merge12 (v : Fin 8 → ℂ) : Fin 8 → ℂ := ![0, v 1 - v 0 / 6, v 2, v 3, v 4, v 5, v 6, v 7]
/-- (Specification.) The same for `C4` absorbed in `C3`: `C4 -> 0`, `C3 -> C3 - C4/6`. -/
noncomputable def merge34 (v : Fin 8 → ℂ) : Fin 8 → ℂ := ![v 0, v 1, v 2 - v 3 / 6, 0, v 4, v 5, v 6, v 7]

/-- Moving the argument of the form along a direction the table (nearly) annihilates. -/
theorem quad_shift (K : Fin 8 → Fin 8 → ℝ) (v w : Fin 8 → ℂ) (c : ℂ) (e : Fin 8 → ℝ) (ε : ℝ)
    (hv : ∀ i, v i = w i + c * e i)
    (hrow : ∀ j, |∑ i, e i * K i j| * ‖v j‖ ≤ ε * ‖v j‖)
    (hcol : ∀ i, |∑ j, K i j * e j| * ‖w i‖ ≤ ε * ‖w i‖) :
    ‖quad K v - quad K w‖ ≤ ε * ‖c‖ * (∑ i, ‖v i‖ + ∑ i, ‖w i‖) := by
  have key : quad K v - quad K w
      = c * ∑ j, ((∑ i, e i * K i j : ℝ) : ℂ) * conj (v j) + conj c * ∑ i, w i * ((∑ j, K i j * e j : ℝ) : ℂ) := by
    have h1 : quad K v = quad K w + (c * ∑ i, (e i : ℂ) * ∑ j, (K i j : ℂ) * conj (v j))
        + ∑ i, w i * ∑ j, (K i j : ℂ) * (conj c * (e j : ℂ)) := by
      have hc : ∀ j, conj (v j) = conj (w j) + conj c * (e j : ℂ) := by
        intro j; rw [hv j]; simp
      have : quad K v = ∑ i, w i * ∑ j, (K i j : ℂ) * conj (v j) + c * ∑ i, (e i : ℂ) * ∑ j, (K i j : ℂ) * conj (v j) := by
        unfold quad
        rw [Finset.mul_sum, ← Finset.sum_add_distrib]
        refine Finset.sum_congr rfl fun i _ => ?_
        rw [hv i]; ring
      rw [this]
      have : ∑ i, w i * ∑ j, (K i j : ℂ) * conj (v j)
          = quad K w + ∑ i, w i * ∑ j, (K i j : ℂ) * (conj c * (e j : ℂ)) := by
        unfold quad
        rw [← Finset.sum_add_distrib]
        refine Finset.sum_congr rfl fun i _ => ?_
        rw [← mul_add, ← Finset.sum_add_distrib]
        congr 1
        refine Finset.sum_congr rfl fun j _ => ?_
        rw [hc j]; ring
      rw [this]; ring
    rw [h1]
    have e1 : ∑ i, (e i : ℂ) * ∑ j, (K i j : ℂ) * conj (v j) = ∑ j, ((∑ i, e i * K i j : ℝ) : ℂ) * conj (v j) := by
      simp only [Finset.mul_sum]
      rw [Finset.sum_comm]
      refine Finset.sum_congr rfl fun j _ => ?_
      push_cast
      rw [Finset.sum_mul]
      exact Finset.sum_congr rfl fun i _ => by ring
    have e2 : ∑ i, w i * ∑ j, (K i j : ℂ) * (conj c * (e j : ℂ)) = conj c * ∑ i, w i * ((∑ j, K i j * e j : ℝ) : ℂ) := by
      rw [Finset.mul_sum]
      refine Finset.sum_congr rfl fun i _ => ?_
      push_cast
      rw [Finset.mul_sum, Finset.mul_sum, Finset.mul_sum]
      exact Finset.sum_congr rfl fun j _ => by ring
    rw [e1, e2]; ring
  rw [key]
  have b1 : ‖∑ j, ((∑ i, e i * K i j : ℝ) : ℂ) * conj (v j)‖ ≤ ε * ∑ j, ‖v j‖ := by
    rw [Finset.mul_sum]
    refine (norm_sum_le _ _).trans (Finset.sum_le_sum fun j _ => ?_)
    rw [norm_mul, Complex.norm_real, Real.norm_eq_abs, RCLike.norm_conj]
    exact hrow j
  have b2 : ‖∑ i, w i * ((∑ j, K i j * e j : ℝ) : ℂ)‖ ≤ ε * ∑ j, ‖w j‖ := by
    rw [Finset.mul_sum]
    refine (norm_sum_le _ _).trans (Finset.sum_le_sum fun j _ => ?_)
    rw [norm_mul, Complex.norm_real, Real.norm_eq_abs, mul_comm]
    exact hcol j
  calc _ ≤ ‖c‖ * (ε * ∑ j, ‖v j‖) + ‖c‖ * (ε * ∑ j, ‖w j‖) := by
        refine (norm_add_le _ _).trans ?_
        rw [norm_mul, norm_mul, RCLike.norm_conj]
        exact add_le_add (mul_le_mul_of_nonneg_left b1 (norm_nonneg _)) (mul_le_mul_of_nonneg_left b2 (norm_nonneg _))
    _ = _ := by ring

/-- (Specification.) The direction `C1 = 1, C2 = 1/6`. -/
noncomputable def e12 : Fin 8 → ℝ := ![1, 1/6, 0, 0, 0, 0, 0, 0]
/-- (Specification.) The direction `C4 = 1, C3 = 1/6`. -/
noncomputable def e34 : Fin 8 → ℝ := ![0, 0, 1/6, 1, 0, 0, 0, 0]

theorem merge12_eq (v : Fin 8 → ℂ) (i : Fin 8) : v i = merge12 v i + v 0 * e12 i := by
  fin_cases i <;> simp [merge12, e12] <;> ring
theorem merge34_eq (v : Fin 8 → ℂ) (i : Fin 8) : v i = merge34 v i + v 3 * e34 i := by
  fin_cases i <;> simp [merge34, e34] <;> ring

theorem row12_1 (j : Fin 8) : |∑ i, e12 i * ka1r i j| ≤ 1 / 10 ^ 7 ∧ |∑ i, ka1r j i * e12 i| ≤ 1 / 10 ^ 7 := by
  constructor <;> rw [abs_le] <;> constructor <;> fin_cases j <;> simp [Fin.sum_univ_eight, e12, ka1r] <;> norm_num
theorem row12_i (j : Fin 8) : |∑ i, e12 i * ka1i i j| ≤ 1 / 10 ^ 10 ∧ |∑ i, ka1i j i * e12 i| ≤ 1 / 10 ^ 10 := by
  constructor <;> rw [abs_le] <;> constructor <;> fin_cases j <;> simp [Fin.sum_univ_eight, e12, ka1i] <;> norm_num
theorem row12_2 (j : Fin 8) (hj : j ≠ 6) : |∑ i, e12 i * ka2r i j| ≤ 1 / 10 ^ 6 ∧ |∑ i, ka2r j i * e12 i| ≤ 1 / 10 ^ 6 := by
  constructor <;> rw [abs_le] <;> constructor <;> fin_cases j <;> first | exact absurd rfl hj | (simp [Fin.sum_univ_eight, e12, ka2r] <;> norm_num)
theorem row34_1 (j : Fin 8) (hj : j ≠ 6) : |∑ i, e34 i * ka1r i j| ≤ 1 / 10 ^ 7 ∧ |∑ i, ka1r j i * e34 i| ≤ 1 / 10 ^ 7 := by
  constructor <;> rw [abs_le] <;> constructor <;> fin_cases j <;> first | exact absurd rfl hj | (simp [Fin.sum_univ_eight, e34, ka1r] <;> norm_num)
theorem row34_i (j : Fin 8) (hj : j ≠ 6) : |∑ i, e34 i * ka1i i j| ≤ 1 / 10 ^ 10 ∧ |∑ i, ka1i j i * e34 i| ≤ 1 / 10 ^ 10 := by
  constructor <;> rw [abs_le] <;> constructor <;> fin_cases j <;> first | exact absurd rfl hj | (simp [Fin.sum_univ_eight, e34, ka1i] <;> norm_num)

theorem small {s ε n : ℝ} (h : |s| ≤ ε) (hn : 0 ≤ n) : |s| * n ≤ ε * n := mul_le_mul_of_nonneg_right h hn

/-- The first-order terms of the rate and of the asymmetry see the current-current coefficients `C1` and `C2` only through
`C2 - C1/6`, to the digits the tables are given with. -/
theorem C123_colour (v : Fin 8 → ℂ) :
    |(quad ka1r v).re - (quad ka1r (merge12 v)).re| ≤ 1 / 10 ^ 7 * ‖v 0‖ * (∑ i, ‖v i‖ + ∑ i, ‖merge12 v i‖) ∧
    |(quad ka1i v).im - (quad ka1i (merge12 v)).im| ≤ 1 / 10 ^ 10 * ‖v 0‖ * (∑ i, ‖v i‖ + ∑ i, ‖merge12 v i‖) := by
  constructor
  · rw [← Complex.sub_re]
    exact (Complex.abs_re_le_norm _).trans (quad_shift ka1r v (merge12 v) (v 0) e12 _ (merge12_eq v)
      (fun j => small (row12_1 j).1 (norm_nonneg _)) (fun j => small (row12_1 j).2 (norm_nonneg _)))
  · rw [← Complex.sub_im]
    exact (Complex.abs_im_le_norm _).trans (quad_shift ka1i v (merge12 v) (v 0) e12 _ (merge12_eq v)
      (fun j => small (row12_i j).1 (norm_nonneg _)) (fun j => small (row12_i j).2 (norm_nonneg _)))

/-- Without the electromagnetic dipole (`C7eff = 0`) the second-order term of the rate sees `C1`, `C2` only through
`C2 - C1/6` too, and the first-order terms see `C3`, `C4` only through `C3 - C4/6`. -/
theorem C123_colour_no_dipole (v : Fin 8 → ℂ) (h7 : v 6 = 0) :
    |(quad ka2r v).re - (quad ka2r (merge12 v)).re| ≤ 1 / 10 ^ 6 * ‖v 0‖ * (∑ i, ‖v i‖ + ∑ i, ‖merge12 v i‖) ∧
    |(quad ka1r v).re - (quad ka1r (merge34 v)).re| ≤ 1 / 10 ^ 7 * ‖v 3‖ * (∑ i, ‖v i‖ + ∑ i, ‖merge34 v i‖) ∧
    |(quad ka1i v).im - (quad ka1i (merge34 v)).im| ≤ 1 / 10 ^ 10 * ‖v 3‖ * (∑ i, ‖v i‖ + ∑ i, ‖merge34 v i‖) := by
  have m12 : merge12 v 6 = 0 := h7
  have m34 : merge34 v 6 = 0 := h7
  have S : ∀ (f : Fin 8 → ℝ) (w : Fin 8 → ℂ) (ε : ℝ), w 6 = 0 → (∀ j, j ≠ 6 → |f j| ≤ ε) → ∀ j, |f j| * ‖w j‖ ≤ ε * ‖w j‖ := by
    intro f w ε hw hf j
    by_cases hj : j = 6
    · subst hj; simp [hw]
    · exact small (hf j hj) (norm_nonneg _)
  refine ⟨?_, ?_, ?_⟩
  · rw [← Complex.sub_re]
    exact (Complex.abs_re_le_norm _).trans (quad_shift ka2r v (merge12 v) (v 0) e12 _ (merge12_eq v)
      (S _ v _ h7 fun j hj => (row12_2 j hj).1) (S _ _ _ m12 fun j hj => (row12_2 j hj).2))
  · rw [← Complex.sub_re]
    exact (Complex.abs_re_le_norm _).trans (quad_shift ka1r v (merge34 v) (v 3) e34 _ (merge34_eq v)
      (S _ v _ h7 fun j hj => (row34_1 j hj).1) (S _ _ _ m34 fun j hj => (row34_1 j hj).2))
  · rw [← Complex.sub_im]
    exact (Complex.abs_im_le_norm _).trans (quad_shift ka1i v (merge34 v) (v 3) e34 _ (merge34_eq v)
      (S _ v _ h7 fun j hj => (row34_i j hj).1) (S _ _ _ m34 fun j hj => (row34_i j hj).2))

end Verif.Xgamma
