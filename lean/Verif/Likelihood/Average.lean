import Mathlib.LinearAlgebra.Matrix.NonsingularInverse
import Mathlib.LinearAlgebra.Matrix.PosDef
import Mathlib.Data.Real.Basic
import Mathlib.Tactic.Ring
import Mathlib.Tactic.LinearCombination
import Mathlib.LinearAlgebra.Matrix.Notation
import Mathlib.Tactic.NormNum
import Mathlib.Algebra.Order.Star.Real

/-!
# Weighted average of `MeasurementCovariance.compute` (C78)

The random sampling (`get_random_all`, `np.mean`, `np.cov`) is not modelled: the average starts from
the list of weights `W_i = inv(Σ_i)` and means `x_i`, one for each measurement.  A measurement that
does not constrain an observable has infinite variance for it, i.e. a zero row and column in `W_i`;
that `np.linalg.inv` returns this for a matrix with infinite diagonal entries is an assumption.
Real numbers replace floats.
-/
set_option linter.unusedSectionVars false

namespace Verif.Likelihood
open Matrix

variable {n : Type} [Fintype n] [DecidableEq n]

/-- `np.linalg.inv(np.sum(weights, axis=0))` (for one observable `1/np.sum(weights)`).
/repo/flavio/statistics/likelihood.py:491-498. -/
noncomputable def weightedCovariance (ms : List (Matrix n n ℝ × (n → ℝ))) : Matrix n n ℝ :=
  ((ms.map Prod.fst).sum)⁻¹

/-- `weighted_covariance . sum(W_i . x_i)`.  /repo/flavio/statistics/likelihood.py:493-501. -/
noncomputable def weightedMean (ms : List (Matrix n n ℝ × (n → ℝ))) : n → ℝ :=
  weightedCovariance ms *ᵥ (ms.map fun m => m.1 *ᵥ m.2).sum

/-- χ² of one measurement. (Specification.) -/
def chi2 (W : Matrix n n ℝ) (μ x : n → ℝ) : ℝ := (x - μ) ⬝ᵥ (W *ᵥ (x - μ))

/-- A quadratic form around any point with matching gradient. -/
theorem chi2_expand (W : Matrix n n ℝ) (hW : W.IsSymm) (μ x y : n → ℝ) :
    chi2 W μ x = chi2 W y x + 2 * ((x - y) ⬝ᵥ (W *ᵥ (y - μ))) + chi2 W μ y := by
  have hsym : ∀ u v : n → ℝ, u ⬝ᵥ (W *ᵥ v) = v ⬝ᵥ (W *ᵥ u) := by
    intro u v
    rw [dotProduct_mulVec, ← mulVec_transpose, hW.eq, dotProduct_comm]
  unfold chi2
  have hx : x - μ = (x - y) + (y - μ) := by abel
  rw [hx, mulVec_add, dotProduct_add, add_dotProduct, add_dotProduct]
  rw [hsym (y - μ) (x - y)]
  ring

theorem sum_chi2 (ms : List (Matrix n n ℝ × (n → ℝ))) (hW : ∀ m ∈ ms, m.1.IsSymm) (x y : n → ℝ) :
    (ms.map fun m => chi2 m.1 m.2 x).sum =
      chi2 (ms.map Prod.fst).sum y x +
      2 * ((x - y) ⬝ᵥ ((ms.map Prod.fst).sum *ᵥ y - (ms.map fun m => m.1 *ᵥ m.2).sum)) +
      (ms.map fun m => chi2 m.1 m.2 y).sum := by
  induction ms with
  | nil => simp [chi2]
  | cons m ms ih =>
    simp only [List.map_cons, List.sum_cons]
    rw [ih (fun m hm => hW m (by simp [hm])), chi2_expand m.1 (hW m (by simp)) m.2 x y]
    unfold chi2
    simp only [add_mulVec, dotProduct_add, mulVec_sub, dotProduct_sub]
    ring

/-- **C78.** If the weights are symmetric and their sum is invertible, the sum of the χ² of all
measurements is, up to a constant, the χ² of the single pair (weighted mean, weighted covariance). -/
theorem C78_average_reproduces_chi2 (ms : List (Matrix n n ℝ × (n → ℝ)))
    (hW : ∀ m ∈ ms, m.1.IsSymm) (hinv : IsUnit (ms.map Prod.fst).sum.det) :
    ∃ K : ℝ, ∀ x, (ms.map fun m => chi2 m.1 m.2 x).sum =
      chi2 (weightedCovariance ms)⁻¹ (weightedMean ms) x + K := by
  refine ⟨(ms.map fun m => chi2 m.1 m.2 (weightedMean ms)).sum, fun x => ?_⟩
  rw [sum_chi2 ms hW x (weightedMean ms)]
  have h1 : (ms.map Prod.fst).sum *ᵥ weightedMean ms = (ms.map fun m => m.1 *ᵥ m.2).sum := by
    unfold weightedMean weightedCovariance
    rw [mulVec_mulVec, mul_nonsing_inv _ hinv, one_mulVec]
  have h2 : (weightedCovariance ms)⁻¹ = (ms.map Prod.fst).sum := by
    unfold weightedCovariance
    rw [nonsing_inv_nonsing_inv _ hinv]
  rw [h1, h2, sub_self, dotProduct_zero]
  ring

/-- **C78.** For positive semidefinite weights the weighted mean is the best fit point. -/
theorem C78_mean_minimises (ms : List (Matrix n n ℝ × (n → ℝ)))
    (hW : ∀ m ∈ ms, m.1.PosSemidef) (hinv : IsUnit (ms.map Prod.fst).sum.det) (x : n → ℝ) :
    (ms.map fun m => chi2 m.1 m.2 (weightedMean ms)).sum ≤ (ms.map fun m => chi2 m.1 m.2 x).sum := by
  have hsym : ∀ m ∈ ms, m.1.IsSymm := fun m hm => by
    have := (hW m hm).1
    rwa [IsHermitian, conjTranspose_eq_transpose_of_trivial] at this
  rw [sum_chi2 ms hsym x (weightedMean ms)]
  have h1 : (ms.map Prod.fst).sum *ᵥ weightedMean ms = (ms.map fun m => m.1 *ᵥ m.2).sum := by
    unfold weightedMean weightedCovariance
    rw [mulVec_mulVec, mul_nonsing_inv _ hinv, one_mulVec]
  have hpos : 0 ≤ chi2 (ms.map Prod.fst).sum (weightedMean ms) x := by
    have : (ms.map Prod.fst).sum.PosSemidef := by
      clear h1 hinv hsym
      induction ms with
      | nil => simpa using PosSemidef.zero
      | cons m ms ih =>
        simp only [List.map_cons, List.sum_cons]
        exact (hW m (by simp)).add (ih (fun m hm => hW m (by simp [hm])))
    have := this.dotProduct_mulVec_nonneg (x - weightedMean ms)
    simpa [chi2] using this
  rw [h1, sub_self, dotProduct_zero]
  linarith

/-- **C78.** The order of the measurements does not matter. -/
theorem C78_order_irrelevant (ms ms' : List (Matrix n n ℝ × (n → ℝ))) (h : ms.Perm ms') :
    weightedMean ms = weightedMean ms' ∧ weightedCovariance ms = weightedCovariance ms' := by
  have h1 : weightedCovariance ms = weightedCovariance ms' := by
    unfold weightedCovariance
    rw [(h.map Prod.fst).sum_eq]
  refine ⟨?_, h1⟩
  unfold weightedMean
  rw [h1, (h.map fun m => m.1 *ᵥ m.2).sum_eq]

/-- Non-vacuity: two measurements of the first and one of the second of two observables. -/
example : let ms : List (Matrix (Fin 2) (Fin 2) ℝ × (Fin 2 → ℝ)) :=
      [(!![1, 0; 0, 2], ![3, 5]), (!![4, 0; 0, 0], ![8, 0])]
    (∀ m ∈ ms, m.1.IsSymm) ∧ IsUnit (ms.map Prod.fst).sum.det := by
  refine ⟨?_, ?_⟩
  · intro m hm
    simp only [List.mem_cons, List.not_mem_nil, or_false] at hm
    rcases hm with rfl | rfl
    · ext i j; fin_cases i <;> fin_cases j <;> rfl
    · ext i j; fin_cases i <;> fin_cases j <;> rfl
  · rw [isUnit_iff_ne_zero]
    simp [Matrix.det_fin_two]
    norm_num

end Verif.Likelihood
