import Verif.Probability.Multivariate
import Mathlib.Analysis.Matrix.PosDef
import Mathlib.Analysis.Matrix.Spectrum
import Mathlib.Tactic.FieldSimp
import Mathlib.Tactic.Positivity
import Mathlib.LinearAlgebra.Matrix.Notation
import Mathlib.Algebra.Order.Star.Real
/-!
# C42, C74, C36 (multivariate): the multivariate normal distribution
-/
set_option linter.unusedSectionVars false
set_option linter.unusedSimpArgs false
set_option linter.unusedVariables false
set_option linter.unusedDecidableInType false
namespace Verif.Probability
open Verif.Py Matrix

variable {n : ℕ}

/-! ## Positive definiteness -/

theorem isHermitian_iff_symm {a : Matrix (Fin n) (Fin n) ℝ} : a.IsHermitian ↔ ∀ i j, a i j = a j i := by
  constructor
  · intro h i j
    have := congrFun (congrFun h j) i
    simpa [Matrix.conjTranspose_apply] using this
  · intro h
    ext i j
    rw [Matrix.conjTranspose_apply, h j i]; rfl

theorem eigPos_iff {a : Matrix (Fin n) (Fin n) ℝ} (h : ∀ i j, a i j = a j i) : EigPos a ↔ a.PosDef := by
  have hH := isHermitian_iff_symm.2 h
  unfold EigPos
  simp only [Module.End.hasEigenvalue_iff_mem_spectrum, Matrix.spectrum_toLin']
  rw [hH.posDef_iff_eigenvalues_pos, hH.spectrum_real_eq_range_eigenvalues]
  simp

theorem scale_eq (cov : Matrix (Fin n) (Fin n) ℝ) :
    scale cov = Matrix.diagonal (fun i => (Real.sqrt (cov i i))⁻¹) * cov *
      Matrix.diagonal (fun i => (Real.sqrt (cov i i))⁻¹) := by
  ext i j
  rw [Matrix.mul_diagonal, Matrix.diagonal_mul]
  simp only [scale, Matrix.of_apply]
  rw [div_eq_mul_inv, mul_inv]
  ring

theorem scale_posDef {cov : Matrix (Fin n) (Fin n) ℝ} (hpos : ∀ i, 0 < cov i i) :
    (scale cov).PosDef ↔ cov.PosDef := by
  rw [scale_eq]
  have hU : IsUnit (Matrix.diagonal (fun i => (Real.sqrt (cov i i))⁻¹)) := by
    rw [Matrix.isUnit_iff_isUnit_det, Matrix.det_diagonal, isUnit_iff_ne_zero, Finset.prod_ne_zero_iff]
    intro i _
    exact inv_ne_zero (Real.sqrt_ne_zero'.2 (hpos i))
  have := Matrix.IsUnit.posDef_star_left_conjugate_iff (x := cov) hU
  rwa [show star (Matrix.diagonal (fun i => (Real.sqrt (cov i i))⁻¹)) =
    Matrix.diagonal (fun i => (Real.sqrt (cov i i))⁻¹) by
      rw [Matrix.star_eq_conjTranspose, Matrix.diagonal_conjTranspose]; rfl] at this

/-- A constructor call with a symmetric covariance succeeds exactly for positive definite matrices. -/
theorem finish_ok_iff {d : MVN n} (h : ∀ i j, d.cov i j = d.cov j i) :
    d.finish = .ok d ↔ d.cov.PosDef := by
  have hs : ∀ i j, d.scaledCov i j = d.scaledCov j i := fun i j => by
    simp only [MVN.scaledCov, scale, Matrix.of_apply, h i j, mul_comm]
  unfold MVN.finish
  constructor
  · intro hok
    split at hok
    · rename_i hc
      exact (scale_posDef hc.1).1 ((eigPos_iff hs).1 hc.2)
    · cases hok
  · intro hp
    have hd : ∀ i, 0 < d.cov i i := fun i => hp.diag_pos
    rw [if_pos ⟨hd, (eigPos_iff hs).2 ((scale_posDef hd).2 hp)⟩]

theorem finish_eq {d e : MVN n} (h : d.finish = .ok e) : e = d := by
  unfold MVN.finish at h
  split at h
  · injection h with h; exact h.symm
  · cases h

/-! ## C42 -/

/-- Specification: a matrix with entries on and above the diagonal only. -/
def UpperTriangular (a : Matrix (Fin n) (Fin n) ℝ) : Prop := ∀ i j, j < i → a i j = 0

/-- Specification: the symmetric matrix with the given entries on and above the diagonal. -/
def completed (a : Matrix (Fin n) (Fin n) ℝ) : Matrix (Fin n) (Fin n) ℝ :=
  Matrix.of fun i j => if i ≤ j then a i j else a j i

theorem allcloseT_of_symm {a : Matrix (Fin n) (Fin n) ℝ} (h : ∀ i j, a i j = a j i) : allcloseT a := by
  intro i j
  rw [h i j, sub_self, abs_zero]
  positivity

theorem symmetrise_symm {a : Matrix (Fin n) (Fin n) ℝ} (h : ∀ i j, a i j = a j i) : symmetrise a = a := by
  unfold symmetrise
  rw [if_pos (allcloseT_of_symm h)]

theorem symmetrise_diag (a : Matrix (Fin n) (Fin n) ℝ) (i : Fin n) : symmetrise a i i = a i i := by
  unfold symmetrise
  split
  · rfl
  · simp

theorem symmetrise_upper {a : Matrix (Fin n) (Fin n) ℝ} (h : UpperTriangular a) (hc : ¬ allcloseT a) :
    symmetrise a = completed a := by
  unfold symmetrise
  rw [if_neg hc]
  ext i j
  simp only [Matrix.sub_apply, Matrix.add_apply, Matrix.transpose_apply, completed, Matrix.of_apply,
    Matrix.diagonal_apply]
  rcases lt_trichotomy i j with hij | rfl | hij
  · rw [if_pos hij.le, if_neg hij.ne, h j i hij]; ring
  · simp
  · rw [if_neg (not_le.2 hij), if_neg hij.ne', h i j hij]; ring

theorem completed_symm (a : Matrix (Fin n) (Fin n) ℝ) (i j : Fin n) : completed a i j = completed a j i := by
  simp only [completed, Matrix.of_apply]
  rcases lt_trichotomy i j with hij | rfl | hij
  · rw [if_pos hij.le, if_neg (not_le.2 hij)]
  · rfl
  · rw [if_neg (not_le.2 hij), if_pos hij.le]

/-- Entries above numpy's tolerance make an upper triangular matrix "not symmetric". -/
theorem not_allclose_of_entry {a : Matrix (Fin n) (Fin n) ℝ} (h : UpperTriangular a)
    (hbig : ∃ i j, i < j ∧ 1 / 10 ^ 8 < |a i j|) : ¬ allcloseT a := by
  obtain ⟨i, j, hij, hb⟩ := hbig
  intro hc
  have := hc i j
  rw [h j i hij] at this
  simp only [sub_zero, abs_zero, mul_zero, add_zero] at this
  exact absurd this (not_le.2 hb)

/-- **C42 (standard deviations and correlation)** The covariance is `σ_i σ_j ρ_ij`; the correlation is the unit
matrix if none is given, `1` on and `ρ` off the diagonal for a number, and the given matrix if it is symmetric. -/
theorem C42_from_correlation_partial (c : Fin n → ℝ) (arr : Bool) (sd : Fin n → ℝ) (corr : CorrArg n) (d : MVN n)
    (h : mkMVN c arr none (some sd) corr = .ok d) :
    d.central = c ∧ d.sd = sd ∧ (∀ i j, d.cov i j = sd i * sd j * d.corr i j) ∧
    (corr = .none → ∀ i j, d.corr i j = if i = j then 1 else 0) ∧
    (∀ rho, corr = .number rho → ∀ i j, d.corr i j = if i = j then 1 else rho) ∧
    (∀ m, corr = .matrix m → (∀ i j, m i j = m j i) → d.corr = m) ∧
    (∀ m, corr = .matrix m → UpperTriangular m → (∃ i j, i < j ∧ 1 / 10 ^ 8 < |m i j|) →
      d.corr = completed m) := by
  have := finish_eq (h : MVN.finish _ = _)
  subst this
  refine ⟨rfl, rfl, fun i j => rfl, ?_, ?_, ?_, ?_⟩
  · rintro rfl i j
    show (1 : Matrix (Fin n) (Fin n) ℝ) i j = _
    rw [Matrix.one_apply]
  · rintro rho rfl i j
    show (1 + rho • (Matrix.of (fun _ _ => (1 : ℝ)) - 1) : Matrix (Fin n) (Fin n) ℝ) i j = _
    simp only [Matrix.add_apply, Matrix.smul_apply, Matrix.sub_apply, Matrix.of_apply, Matrix.one_apply,
      smul_eq_mul]
    split <;> ring
  · rintro m rfl hm
    exact symmetrise_symm hm
  · rintro m rfl hu hb
    exact symmetrise_upper hu (not_allclose_of_entry hu hb)

/-- **C42 (covariance)** A symmetric covariance is kept; an upper triangular one with an off-diagonal entry above
`1e-8` is completed symmetrically.  Standard deviations are the roots of the diagonal, the correlation has unit
diagonal and satisfies `cov_ij = σ_i σ_j ρ_ij`. -/
theorem C42_from_covariance_partial (c : Fin n → ℝ) (arr : Bool) (cov : Matrix (Fin n) (Fin n) ℝ)
    (sd : Option (Fin n → ℝ)) (corr : CorrArg n) (d : MVN n) (h : mkMVN c arr (some cov) sd corr = .ok d) :
    d.central = c ∧
    ((∀ i j, cov i j = cov j i) → d.cov = cov) ∧
    (UpperTriangular cov → (∃ i j, i < j ∧ 1 / 10 ^ 8 < |cov i j|) → d.cov = completed cov) ∧
    (∀ i, 0 < d.sd i ∧ d.sd i ^ 2 = cov i i) ∧ (∀ i, d.corr i i = 1) ∧
    ∀ i j, d.cov i j = d.sd i * d.sd j * d.corr i j := by
  have h' : MVN.finish _ = _ := h
  have he := finish_eq h'
  have hpos : ∀ i, 0 < symmetrise cov i i := by
    unfold MVN.finish at h'
    split at h'
    · rename_i hc; exact hc.1
    · cases h'
  subst he
  refine ⟨rfl, symmetrise_symm, fun hu hb => symmetrise_upper hu (not_allclose_of_entry hu hb), fun i => ?_,
    fun i => ?_, fun i j => ?_⟩
  · refine ⟨Real.sqrt_pos.2 (hpos i), ?_⟩
    show Real.sqrt (symmetrise cov i i) ^ 2 = _
    rw [Real.sq_sqrt (hpos i).le, symmetrise_diag]
  · show (if i = i then (1 : ℝ) else _) = 1
    rw [if_pos rfl]
  · show symmetrise cov i j = Real.sqrt (symmetrise cov i i) * Real.sqrt (symmetrise cov j j) *
      (if i = j then (1 : ℝ) else
        symmetrise cov i j / (Real.sqrt (symmetrise cov i i) * Real.sqrt (symmetrise cov j j)))
    split
    · rename_i hij
      subst hij
      rw [mul_one, Real.mul_self_sqrt (hpos i).le]
    · have h1 := Real.sqrt_ne_zero'.2 (hpos i)
      have h2 := Real.sqrt_ne_zero'.2 (hpos j)
      field_simp

/-- **C42 (round trip)** Rebuilding the distribution from the covariance of one built from positive standard
deviations and a symmetric correlation matrix with unit diagonal gives back the same standard deviations,
correlation and covariance. -/
theorem C42_round_trip (c : Fin n → ℝ) (arr : Bool) (sd : Fin n → ℝ) (m : Matrix (Fin n) (Fin n) ℝ) (d : MVN n)
    (hsd : ∀ i, 0 < sd i) (hm : ∀ i j, m i j = m j i) (hm1 : ∀ i, m i i = 1)
    (h : mkMVN c arr none (some sd) (.matrix m) = .ok d) :
    mkMVN c arr (some d.cov) none .none = .ok d := by
  have he := finish_eq (h : MVN.finish _ = _)
  have hs : CorrArg.toMatrix (.matrix m) = m := symmetrise_symm hm
  have hcov : ∀ i j, d.cov i j = sd i * sd j * m i j := by
    intro i j; rw [he]; show sd i * sd j * (CorrArg.toMatrix (.matrix m)) i j = _; rw [hs]
  have hsym : ∀ i j, d.cov i j = d.cov j i := fun i j => by rw [hcov, hcov, hm i j]; ring
  have hdiag : ∀ i, Real.sqrt (d.cov i i) = sd i := fun i => by
    rw [hcov, hm1, mul_one, ← sq, Real.sqrt_sq (hsd i).le]
  have hd : mvnOfCov c arr d.cov = d := by
    unfold mvnOfCov
    rw [symmetrise_symm hsym]
    have h1 : d.central = c := by rw [he]
    have h2 : d.isArray = arr := by rw [he]
    have h3 : d.sd = sd := by rw [he]
    have h4 : d.corr = m := by rw [he]; exact hs
    have h5 : (Matrix.of fun i j => if i = j then 1 else
        d.cov i j / (Real.sqrt (d.cov i i) * Real.sqrt (d.cov j j))) = m := by
      ext i j
      rw [Matrix.of_apply]
      split
      · rename_i hij; rw [hij, hm1]
      · rw [hdiag, hdiag, hcov]
        have := (hsd i).ne'
        have := (hsd j).ne'
        field_simp
    rw [h5]
    simp only [hdiag]
    cases d
    simp_all
  show MVN.finish _ = _
  rw [hd]
  have := (finish_ok_iff (d := d) hsym).2
  refine this ?_
  have h' : MVN.finish _ = _ := h
  have hok := h'
  rw [← he] at hok
  exact (finish_ok_iff hsym).1 hok

/-- **C42 (neither)** Without covariance and standard deviation the constructor raises `ValueError`. -/
theorem C42_nothing_given (c : Fin n → ℝ) (arr : Bool) (corr : CorrArg n) :
    mkMVN c arr none none corr = .error .valueError := rfl

/-- **C42 (positive definite)** A symmetric covariance is accepted iff it is positive definite. -/
theorem C42_positive_definite (c : Fin n → ℝ) (arr : Bool) (cov : Matrix (Fin n) (Fin n) ℝ)
    (hs : ∀ i j, cov i j = cov j i) (sd : Option (Fin n → ℝ)) (corr : CorrArg n) :
    (∃ d, mkMVN c arr (some cov) sd corr = .ok d) ↔ cov.PosDef := by
  have hcov : (mvnOfCov c arr cov).cov = cov := symmetrise_symm hs
  have key := finish_ok_iff (d := mvnOfCov c arr cov) (by rw [hcov]; exact hs)
  rw [hcov] at key
  rw [← key]
  constructor
  · rintro ⟨d, hd⟩
    have hd' : (mvnOfCov c arr cov).finish = _ := hd
    rw [finish_eq hd'] at hd'
    exact hd'
  · exact fun h => ⟨_, h⟩

/-- An upper triangular covariance of two branching ratios of order `1e-10` with 50 % correlation. (Specification.) -/
noncomputable def tinyCov : Matrix (Fin 2) (Fin 2) ℝ := !![1 / 10 ^ 20, 5 / 10 ^ 21; 0, 1 / 10 ^ 20]

/-- **C42 fails for tiny entries**: an upper triangular covariance whose entries are all below `1e-8` passes
numpy's symmetry test and is stored with a zero below the diagonal (the documentation promises a reflection). -/
theorem C42_tiny_covariance_not_completed (c : Fin 2 → ℝ) (arr : Bool) :
    UpperTriangular tinyCov ∧ ∃ d, mkMVN c arr (some tinyCov) none .none = .ok d ∧
      d.cov 0 1 = 5 / 10 ^ 21 ∧ d.cov 1 0 = 0 := by
  have hc : allcloseT tinyCov := by
    intro i j
    fin_cases i <;> fin_cases j <;> norm_num [tinyCov, abs_le]
  have hs : symmetrise tinyCov = tinyCov := by unfold symmetrise; rw [if_pos hc]
  refine ⟨?_, mvnOfCov c arr tinyCov, ?_, ?_, ?_⟩
  · intro i j hij
    fin_cases i <;> fin_cases j <;> simp_all [tinyCov]
  · show MVN.finish _ = _
    unfold MVN.finish
    rw [if_pos]
    constructor
    · intro i
      show 0 < symmetrise tinyCov i i
      rw [hs]
      fin_cases i <;> norm_num [tinyCov]
    · intro μ hμ
      obtain ⟨v, hv⟩ := hμ.exists_hasEigenvector
      have hv1 : Matrix.toLin' (scale (symmetrise tinyCov)) v = μ • v := hv.apply_eq_smul
      rw [hs, Matrix.toLin'_apply] at hv1
      have h1 := congrFun hv1 1
      have h0 := congrFun hv1 0
      have hsq : Real.sqrt (tinyCov 1 1) ≠ 0 := Real.sqrt_ne_zero'.2 (by norm_num [tinyCov])
      have hsq0 : Real.sqrt (tinyCov 0 0) ≠ 0 := Real.sqrt_ne_zero'.2 (by norm_num [tinyCov])
      have e11 : scale tinyCov 1 1 = 1 := by
        simp only [scale, Matrix.of_apply]
        rw [Real.mul_self_sqrt (by norm_num [tinyCov])]
        exact div_self (by norm_num [tinyCov])
      have e00 : scale tinyCov 0 0 = 1 := by
        simp only [scale, Matrix.of_apply]
        rw [Real.mul_self_sqrt (by norm_num [tinyCov])]
        exact div_self (by norm_num [tinyCov])
      have e10 : scale tinyCov 1 0 = 0 := by
        simp only [scale, Matrix.of_apply]
        rw [show tinyCov 1 0 = 0 by simp [tinyCov], zero_div]
      simp only [Matrix.mulVec, dotProduct, Fin.sum_univ_two, e10, e11, e00, zero_mul, zero_add, one_mul,
        Pi.smul_apply, smul_eq_mul] at h1 h0
      by_cases hv1z : v 1 = 0
      · rw [hv1z, mul_zero, add_zero] at h0
        have hv0 : v 0 ≠ 0 := by
          intro hv0
          apply hv.2
          ext i
          fin_cases i
          · exact hv0
          · exact hv1z
        have : μ = 1 := by
          have : μ * v 0 = 1 * v 0 := by linarith
          exact mul_right_cancel₀ hv0 this
        rw [this]; norm_num
      · have : μ = 1 := by
          have : μ * v 1 = 1 * v 1 := by linarith
          exact mul_right_cancel₀ hv1z this
        rw [this]; norm_num
  · show symmetrise tinyCov 0 1 = _
    rw [hs]; simp [tinyCov]
  · show symmetrise tinyCov 1 0 = _
    rw [hs]; simp [tinyCov]

/-- The unit covariance in any dimension is accepted (the hypotheses above are satisfiable). -/
theorem mk_one (c : Fin n → ℝ) (arr : Bool) : ∃ d, mkMVN c arr (some 1) none .none = .ok d := by
  rw [C42_positive_definite c arr 1 (fun i j => by rw [Matrix.one_apply, Matrix.one_apply]; simp [eq_comm])]
  exact Matrix.PosDef.one

/-- A correlated example: `σ = (1, 2)`, `ρ = 1/2`. -/
example : ∃ d, mkMVN ![0, 0] false none (some ![1, 2]) (.matrix !![1, 1/2; 1/2, 1]) = .ok d ∧
    d.cov 0 1 = 1 := by
  have hsy : symmetrise !![(1 : ℝ), 1/2; 1/2, 1] = !![1, 1/2; 1/2, 1] := symmetrise_symm fun i j => by
    fin_cases i <;> fin_cases j <;> rfl
  have key := (finish_ok_iff (d := { central := ![0, 0], isArray := false,
                                     cov := Matrix.of fun i j => ![1, 2] i * ![1, 2] j * symmetrise !![(1 : ℝ), 1/2; 1/2, 1] i j,
                                     sd := ![1, 2], corr := symmetrise !![(1 : ℝ), 1/2; 1/2, 1] })
    (fun i j => by
      rw [hsy]
      fin_cases i <;> fin_cases j <;> norm_num)).2 (by
      rw [hsy]
      refine Matrix.PosDef.of_dotProduct_mulVec_pos ?_ fun {x} hx => ?_
      · rw [isHermitian_iff_symm]
        intro i j
        fin_cases i <;> fin_cases j <;> norm_num
      · have : x 0 ≠ 0 ∨ x 1 ≠ 0 := by
          by_contra hcon
          push Not at hcon
          exact hx (by ext i; fin_cases i; exacts [hcon.1, hcon.2])
        simp only [dotProduct, Matrix.mulVec, Fin.sum_univ_two, Matrix.of_apply, star_trivial]
        norm_num
        rcases this with h | h
        · nlinarith [sq_nonneg (x 0 + 4 * x 1), sq_nonneg (2 * x 1 + x 0 / 2), pow_pos (abs_pos.2 h) 2, sq_abs (x 0)]
        · nlinarith [sq_nonneg (x 0 + x 1), pow_pos (abs_pos.2 h) 2, sq_abs (x 1)])
  refine ⟨_, key, ?_⟩
  simp only [hsy, Matrix.of_apply]
  norm_num

/-! ## C74: the log-PDF -/

theorem diag_quadratic {cov : Matrix (Fin n) (Fin n) ℝ} (hp : cov.PosDef) (v : Fin n → ℝ) :
    (fun i => v i / Real.sqrt (cov i i)) ⬝ᵥ ((scale cov)⁻¹ *ᵥ fun i => v i / Real.sqrt (cov i i)) =
      v ⬝ᵥ (cov⁻¹ *ᵥ v) := by
  have hne : ∀ i, Real.sqrt (cov i i) ≠ 0 := fun i => Real.sqrt_ne_zero'.2 hp.diag_pos
  have hdet : IsUnit cov.det := (Matrix.isUnit_iff_isUnit_det _).1 hp.isUnit
  have hinv : (scale cov)⁻¹ = Matrix.diagonal (fun i => Real.sqrt (cov i i)) * cov⁻¹ *
      Matrix.diagonal (fun i => Real.sqrt (cov i i)) := by
    apply Matrix.inv_eq_right_inv
    rw [scale_eq]
    have h1 : Matrix.diagonal (fun i => (Real.sqrt (cov i i))⁻¹) *
        Matrix.diagonal (fun i => Real.sqrt (cov i i)) = 1 := by
      rw [Matrix.diagonal_mul_diagonal, ← Matrix.diagonal_one]
      congr 1
      funext i
      exact inv_mul_cancel₀ (hne i)
    calc _ = Matrix.diagonal (fun i => (Real.sqrt (cov i i))⁻¹) * (cov *
          (Matrix.diagonal (fun i => (Real.sqrt (cov i i))⁻¹) * Matrix.diagonal (fun i => Real.sqrt (cov i i))) *
          cov⁻¹) * Matrix.diagonal (fun i => Real.sqrt (cov i i)) := by
            simp only [Matrix.mul_assoc]
      _ = 1 := by rw [h1, Matrix.mul_one, Matrix.mul_nonsing_inv _ hdet, Matrix.mul_one, h1]
  have hv : Matrix.diagonal (fun i => Real.sqrt (cov i i)) *ᵥ (fun i => v i / Real.sqrt (cov i i)) = v := by
    funext i
    rw [Matrix.mulVec_diagonal]
    exact mul_div_cancel₀ _ (hne i)
  rw [hinv, ← Matrix.mulVec_mulVec, hv, ← Matrix.mulVec_mulVec]
  simp only [dotProduct]
  refine Finset.sum_congr rfl fun i _ => ?_
  rw [Matrix.mulVec_diagonal]
  have := hne i
  field_simp

/-- **C74** In spite of the rescaling, `logpdf` of a multivariate normal with symmetric covariance is
`-½ (n log 2π + log det Σ + (x-μ)ᵀ Σ⁻¹ (x-μ))`. -/
theorem C74_logpdf (d : MVN n) (hp : d.cov.PosDef) (x : Fin n → ℝ) :
    d.logpdf x = -(1 / 2) * (n * Real.log (2 * Real.pi) + Real.log d.cov.det +
      (x - d.central) ⬝ᵥ (d.cov⁻¹ *ᵥ (x - d.central))) := by
  have hs : d.scaledCov.PosDef := (scale_posDef fun i => hp.diag_pos).2 hp
  unfold MVN.logpdf mvnTextbook
  rw [abs_of_pos hs.det_pos, abs_of_pos hp.det_pos]
  have hv : ((fun i => x i / d.err i) - fun i => d.central i / d.err i) =
      fun i => (x - d.central) i / Real.sqrt (d.cov i i) := by
    funext i
    simp only [Pi.sub_apply, MVN.err]
    ring
  rw [hv]
  show -(1 / 2) * (_ + _ + _ ⬝ᵥ ((scale d.cov)⁻¹ *ᵥ _)) + _ = _
  rw [diag_quadratic hp]
  ring

theorem mk_symm_posDef {c : Fin n → ℝ} {arr : Bool} {cov : Matrix (Fin n) (Fin n) ℝ} {d : MVN n}
    (hs : ∀ i j, cov i j = cov j i) (h : mkMVNCov c arr cov = .ok d) : d.cov = cov ∧ cov.PosDef :=
  ⟨(C42_from_covariance_partial c arr cov none .none d h).2.1 hs, (C42_positive_definite c arr cov hs none .none).1 ⟨d, h⟩⟩

/-- **C74 (constructed)** The same for every distribution constructed from a symmetric covariance. -/
theorem C74_logpdf_of_constructor (c : Fin n → ℝ) (arr : Bool) (cov : Matrix (Fin n) (Fin n) ℝ)
    (hs : ∀ i j, cov i j = cov j i) (d : MVN n) (h : mkMVN c arr (some cov) none .none = .ok d) (x : Fin n → ℝ) :
    d.logpdf x = -(1 / 2) * (n * Real.log (2 * Real.pi) + Real.log cov.det +
      (x - c) ⬝ᵥ (cov⁻¹ *ᵥ (x - c))) := by
  obtain ⟨h1, h2⟩ := mk_symm_posDef hs h
  rw [C74_logpdf d (by rw [h1]; exact h2), h1, (C42_from_covariance_partial c arr cov none .none d h).1]

/-! ## C36 (multivariate, without `exclude`) -/

/-- **C36 (multivariate)** `delta_logpdf` of a multivariate normal is `-½ (x-μ)ᵀ Σ⁻¹ (x-μ)`; it vanishes exactly
at the central value and is negative elsewhere. -/
theorem C36_multivariate (d : MVN n) (hp : d.cov.PosDef) (x : Fin n → ℝ) :
    d.deltaLogpdf x = -(1 / 2) * ((x - d.central) ⬝ᵥ (d.cov⁻¹ *ᵥ (x - d.central))) ∧
    d.deltaLogpdf x ≤ 0 ∧ (d.deltaLogpdf x = 0 ↔ x = d.central) := by
  have h1 : d.deltaLogpdf x = -(1 / 2) * ((x - d.central) ⬝ᵥ (d.cov⁻¹ *ᵥ (x - d.central))) := by
    unfold MVN.deltaLogpdf
    rw [C74_logpdf d hp, C74_logpdf d hp, sub_self d.central]
    simp only [zero_dotProduct]
    ring
  by_cases hx : x = d.central
  · subst hx
    rw [h1]
    simp
  · have hpos : 0 < (x - d.central) ⬝ᵥ (d.cov⁻¹ *ᵥ (x - d.central)) := by
      have := hp.inv.dotProduct_mulVec_pos (sub_ne_zero.2 hx)
      simpa using this
    refine ⟨h1, by rw [h1]; linarith, fun h => absurd h (by rw [h1]; linarith), fun h => absurd h hx⟩

end Verif.Probability
