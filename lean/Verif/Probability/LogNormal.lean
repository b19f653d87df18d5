import Verif.Probability.Integrals
import Mathlib.MeasureTheory.Function.Jacobian
import Mathlib.Analysis.SpecialFunctions.ExpDeriv
/-!
# C72: the log-normal PDF, and the supports of the closed-form distributions
-/
set_option linter.unusedSectionVars false
set_option linter.unusedSimpArgs false
set_option linter.unusedVariables false
namespace Verif.Probability
open Verif.Py MeasureTheory Set

theorem lognorm_at {m s : ℝ} (hm : 0 < m) (hs : 0 < s) (t : ℝ) :
    expP (lognormLogpdf (Real.exp t) m s) * Real.exp t = Real.exp (normalLogpdf t (Real.log m) s) := by
  have ht := Real.exp_pos t
  have h2 := sqrt2pi_pos
  unfold lognormLogpdf
  rw [if_neg (not_le.2 ht)]
  show Real.exp _ * Real.exp t = _
  rw [← Real.exp_add]
  congr 1
  unfold normalLogpdf
  rw [Real.log_div ht.ne' hm.ne', Real.log_exp, Real.log_mul (by positivity) h2.ne',
    Real.log_mul hs.ne' ht.ne', Real.log_exp, Real.log_mul h2.ne' hs.ne']
  field_simp
  ring

/-- **C72 (log-normal, shape)** With `c` the central value and `f` the factor, the variable `log (x / c)` is
normally distributed around 0 with standard deviation `log f`: the PDF at `x = c e^t`, times the Jacobian
`|c| e^t`, is the normal PDF at `t`.  The PDF vanishes on the other side of 0. -/
theorem C72_lognormal_shape (c f : ℝ) (hc : c ≠ 0) (hf : 1 < f) :
    (∀ t, expP ((UDist.logNormal c f).logpdf (c * Real.exp t)) * (|c| * Real.exp t) =
      expP ((UDist.normal 0 (Real.log f)).logpdf t)) ∧
    ∀ x, x * c ≤ 0 → expP ((UDist.logNormal c f).logpdf x) = 0 := by
  have hs := Real.log_pos hf
  have ha := abs_pos.2 hc
  have hsg : (if c < 0 then (-1 : ℝ) else 1) * c = |c| := by
    split
    · rename_i h; rw [abs_of_neg h]; ring
    · rename_i h; rw [abs_of_nonneg (not_lt.1 h)]; ring
  constructor
  · intro t
    show expP (lognormLogpdf _ _ _) * _ = Real.exp (normalLogpdf t 0 (Real.log f))
    rw [← mul_assoc (if c < 0 then (-1 : ℝ) else 1), hsg, Real.exp_log ha]
    have h := lognorm_at ha hs (Real.log |c| + t)
    rw [Real.exp_add, Real.exp_log ha] at h
    rw [h]
    congr 1
    unfold normalLogpdf
    ring_nf
  · intro x hx
    show expP (lognormLogpdf _ _ _) = 0
    unfold lognormLogpdf
    rw [if_pos]
    · rfl
    · split
      · rename_i h; nlinarith
      · rename_i h
        have : 0 < c := lt_of_le_of_ne (not_lt.1 h) (Ne.symm hc)
        by_contra hcon
        push Not at hcon
        nlinarith

theorem lognorm_integral {m s : ℝ} (hm : 0 < m) (hs : 0 < s) : ∫ x, expP (lognormLogpdf x m s) = 1 := by
  have h0 : ∀ x, x ∉ Ioi (0 : ℝ) → expP (lognormLogpdf x m s) = 0 := by
    intro x hx
    unfold lognormLogpdf
    rw [if_pos (not_lt.1 hx)]; rfl
  rw [← setIntegral_eq_integral_of_forall_compl_eq_zero h0]
  have himg : Real.exp '' univ = Ioi (0 : ℝ) := by rw [image_univ, Real.range_exp]
  rw [← himg, integral_image_eq_integral_abs_deriv_smul MeasurableSet.univ
    (fun x _ => (Real.hasDerivAt_exp x).hasDerivWithinAt) Real.exp_injective.injOn]
  rw [setIntegral_univ]
  have : (fun x => |Real.exp x| • expP (lognormLogpdf (Real.exp x) m s)) =
      fun x => expP ((UDist.normal (Real.log m) s).logpdf x) := by
    funext x
    rw [smul_eq_mul, abs_of_pos (Real.exp_pos x), mul_comm, lognorm_at hm hs]
    rfl
  rw [this]
  exact C72_normal _ s hs

/-- **C72 (log-normal)** The log-normal PDF integrates to 1 for both signs of the central value. -/
theorem C72_lognormal (c f : ℝ) (hc : c ≠ 0) (hf : 1 < f) :
    ∫ x, expP ((UDist.logNormal c f).logpdf x) = 1 := by
  have hs := Real.log_pos hf
  have ha := abs_pos.2 hc
  have key := lognorm_integral ha hs
  rcases lt_or_gt_of_ne hc with h | h
  · have : (fun x => expP ((UDist.logNormal c f).logpdf x)) =
        fun x => (fun z => expP (lognormLogpdf z |c| (Real.log f))) (-x) := by
      funext x
      show expP (lognormLogpdf _ _ _) = _
      rw [if_pos h, Real.exp_log ha, neg_one_mul]
    rw [this, integral_neg_eq_self (fun z => expP (lognormLogpdf z |c| (Real.log f)))]
    exact key
  · have : (fun x => expP ((UDist.logNormal c f).logpdf x)) =
        fun x => expP (lognormLogpdf x |c| (Real.log f)) := by
      funext x
      show expP (lognormLogpdf _ _ _) = _
      rw [if_neg (not_lt.2 h.le), Real.exp_log ha, one_mul]
    rw [this]; exact key

/-- **C34 (supports)** Exactly which range the numerical tabulations use: six standard deviations on each
side of a (half-)Gaussian, the whole range of a box, six factors above a positive log-normal. -/
theorem C34_supports (c s r l f : ℝ) (lo hi k : ℤ) :
    (UDist.normal c s).support = (c - 6 * s, c + 6 * s) ∧
    (UDist.asym c r l).support = (c - 6 * l, c + 6 * r) ∧
    (0 ≤ s → (UDist.half c s).support = (c, c + 6 * s)) ∧
    (s ≤ 0 → (UDist.half c s).support = (c + 6 * s, c)) ∧
    (0 ≤ s → ∀ L cl, (UDist.gaussianLimit L cl s).support = (0, 6 * s)) ∧
    (UDist.uniform c s).support = (c - s, c + s) ∧
    (UDist.discrete lo hi k).support = ((lo : ℝ), (hi : ℝ)) ∧
    (UDist.delta c).support = (c, c) ∧
    (0 < c → 1 < f → (UDist.logNormal c f).support = (0, c * f ^ 6)) := by
  refine ⟨rfl, rfl, fun h => ?_, fun h => ?_, fun h L cl => ?_, rfl, rfl, rfl, fun h hf => ?_⟩
  · show (min _ _, max _ _) = _
    rw [min_eq_left (by linarith), max_eq_right (by linarith)]
  · show (min _ _, max _ _) = _
    rw [min_eq_right (by linarith), max_eq_left (by linarith)]
  · show (min _ _, max _ _) = _
    rw [zero_add, min_eq_left (by linarith), max_eq_right (by linarith)]
  · show (if c < 0 then _ else _) = _
    rw [if_neg (not_lt.2 h.le), Real.exp_add, abs_of_pos h, Real.exp_log h, mul_comm 6, Real.exp_mul,
      Real.exp_log (by linarith)]
    norm_cast

example : ∫ x, expP ((UDist.logNormal (-3) 2).logpdf x) = 1 := C72_lognormal _ _ (by norm_num) (by norm_num)

end Verif.Probability
