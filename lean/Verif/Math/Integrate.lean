import Mathlib.Analysis.SpecialFunctions.Integrals.Basic
import Mathlib.Tactic.Linarith
import Mathlib.Tactic.Positivity
import Mathlib.Tactic.FieldSimp
import Mathlib.Tactic.LinearCombination
import Mathlib.Tactic.NormNum
import Mathlib.Tactic.IntervalCases
/-!
# Numerical integration (`flavio/math/integrate.py`)

`nintegrate_fast` with the default number `N = 5` of points: the integrand is sampled on `np.linspace(a, b, 5)`, interpolated
with a cubic spline (`interp1d(kind='cubic')`: not-a-knot boundary conditions, so that with five points the only interior
knot is the middle one), and the spline is integrated with the trapezoidal rule on `np.linspace(a, b, 20)`.
-/
set_option linter.unusedVariables false
set_option linter.unusedSimpArgs false
set_option linter.unusedSectionVars false
namespace Verif.Integrate

/-- `np.linspace(a, b, n)[k]`.  /repo/flavio/math/integrate.py:22, 25. -/
noncomputable def linspace (a b : ℝ) (n k : ℕ) : ℝ := a + k * ((b - a) / (n - 1))

/-- `scipy.interpolate.interp1d(x, y, kind='cubic')` for the five points `x = np.linspace(a, b, 5)`, as a specification of
the external function: a cubic polynomial to the left and to the right of the middle point with continuous second
derivative, through the five points.  /repo/flavio/math/integrate.py:24. -/
def IsSpline (a b : ℝ) (y : ℕ → ℝ) (s : ℝ → ℝ) : Prop :=
  (∃ c0 c1 c2 c3 d : ℝ, ∀ x, s x = c0 + c1 * (x - linspace a b 5 2) + c2 * (x - linspace a b 5 2) ^ 2 +
    c3 * (x - linspace a b 5 2) ^ 3 + d * (max (x - linspace a b 5 2) 0) ^ 3) ∧
  ∀ i < 5, s (linspace a b 5 i) = y i

/-- `np.trapz(y, x=x)` for `n + 1` points.  /repo/flavio/math/integrate.py:27. -/
noncomputable def trapz (n : ℕ) (x y : ℕ → ℝ) : ℝ := ∑ k ∈ Finset.range n, (x (k + 1) - x k) * (y k + y (k + 1)) / 2

/-- `nintegrate_fast(f, a, b)`, given the spline `s` that scipy returns for the values `f(x)` at the five points.
Simplification: the interpolation is an argument specified by `IsSpline`; `a = b` (scipy raises `ValueError`) and other `N`
are not modelled.  /repo/flavio/math/integrate.py:21-27. -/
noncomputable def nintegrateFast (interp : (a b : ℝ) → (ℕ → ℝ) → ℝ → ℝ) (f : ℝ → ℝ) (a b : ℝ) : ℝ :=
  let y := fun i => f (linspace a b 5 i)
  let s := interp a b y
  trapz 19 (linspace a b 20) (fun k => s (linspace a b 20 k))

/-- `nintegrate_complex(func, a, b)`, given `scipy.integrate.quad`.  /repo/flavio/math/integrate.py:29-36. -/
noncomputable def nintegrateComplex (quad : (ℝ → ℝ) → ℝ → ℝ → ℝ) (f : ℝ → ℂ) (a b : ℝ) : ℂ :=
  quad (fun x => (f x).re) a b + Complex.I * quad (fun x => (f x).im) a b

/-- Specification: scipy returns the spline. -/
def Interpolates (interp : (a b : ℝ) → (ℕ → ℝ) → ℝ → ℝ) : Prop := ∀ a b y, a ≠ b → IsSpline a b y (interp a b y)

variable {interp : (a b : ℝ) → (ℕ → ℝ) → ℝ → ℝ}

theorem max_mul_cube {H u : ℝ} : (max (H * u) 0) ^ 3 =
    if 0 ≤ H then H ^ 3 * (max u 0) ^ 3 else H ^ 3 * (u ^ 3 - (max u 0) ^ 3) := by
  split
  next h =>
    rcases le_total 0 u with hu | hu
    · rw [max_eq_left (mul_nonneg h hu), max_eq_left hu]; ring
    · rw [max_eq_right (mul_nonpos_of_nonneg_of_nonpos h hu), max_eq_right hu]; ring
  next h =>
    push Not at h
    rcases le_total 0 u with hu | hu
    · rw [max_eq_right (mul_nonpos_of_nonpos_of_nonneg h.le hu), max_eq_left hu]; ring
    · rw [max_eq_left (mul_nonneg_of_nonpos_of_nonpos h.le hu), max_eq_right hu]; ring

/-- In units of the distance of the points, with the middle point as origin. -/
theorem spline_scaled {a b : ℝ} {s : ℝ → ℝ} {y : ℕ → ℝ} (h : IsSpline a b y s) :
    ∃ c0 c1 c2 c3 d : ℝ, ∀ u, s (linspace a b 5 2 + (b - a) / 4 * u) = c0 + c1 * u + c2 * u ^ 2 + c3 * u ^ 3 + d * (max u 0) ^ 3 := by
  obtain ⟨⟨c0, c1, c2, c3, d, hs⟩, -⟩ := h
  by_cases hH : 0 ≤ (b - a) / 4
  · refine ⟨c0, c1 * ((b - a) / 4), c2 * ((b - a) / 4) ^ 2, c3 * ((b - a) / 4) ^ 3, d * ((b - a) / 4) ^ 3, fun u => ?_⟩
    rw [hs, add_sub_cancel_left, max_mul_cube, if_pos hH]; ring
  · refine ⟨c0, c1 * ((b - a) / 4), c2 * ((b - a) / 4) ^ 2, (c3 + d) * ((b - a) / 4) ^ 3, -d * ((b - a) / 4) ^ 3, fun u => ?_⟩
    rw [hs, add_sub_cancel_left, max_mul_cube, if_neg hH]; ring

theorem fine_eq (a b : ℝ) (k : ℕ) : linspace a b 20 k = linspace a b 5 2 + (b - a) / 4 * (4 * k / 19 - 2) := by
  unfold linspace; norm_num; ring
theorem coarse_eq (a b : ℝ) (k : ℕ) : linspace a b 5 k = linspace a b 5 2 + (b - a) / 4 * (k - 2) := by
  unfold linspace; norm_num; ring

/-- **C162.** The result is the weighted sum of the five values with explicit positive weights, whatever the integrand. -/
theorem C162_weights (hi : Interpolates interp) (f : ℝ → ℝ) (a b : ℝ) (hab : a ≠ b) :
    nintegrateFast interp f a b = (b - a) * (22201 / 260642 * f a + 42960 / 130321 * f (a + (b - a) / 4) +
      22200 / 130321 * f (a + (b - a) / 2) + 42960 / 130321 * f (a + 3 * (b - a) / 4) + 22201 / 260642 * f b) := by
  have h := hi a b (fun i => f (linspace a b 5 i)) hab
  have e0 : f a = (interp a b fun i => f (linspace a b 5 i)) (linspace a b 5 0) := by
    rw [h.2 0 (by norm_num)]; congr 1; unfold linspace; norm_num
  have e1 : f (a + (b - a) / 4) = (interp a b fun i => f (linspace a b 5 i)) (linspace a b 5 1) := by
    rw [h.2 1 (by norm_num)]; congr 1; unfold linspace; norm_num
  have e2 : f (a + (b - a) / 2) = (interp a b fun i => f (linspace a b 5 i)) (linspace a b 5 2) := by
    rw [h.2 2 (by norm_num)]; congr 1; unfold linspace; norm_num; ring
  have e3 : f (a + 3 * (b - a) / 4) = (interp a b fun i => f (linspace a b 5 i)) (linspace a b 5 3) := by
    rw [h.2 3 (by norm_num)]; congr 1; unfold linspace; norm_num; ring
  have e4 : f b = (interp a b fun i => f (linspace a b 5 i)) (linspace a b 5 4) := by
    rw [h.2 4 (by norm_num)]; congr 1; unfold linspace; norm_num; ring
  rw [e0, e1, e2, e3, e4]
  unfold nintegrateFast
  dsimp only
  obtain ⟨c0, c1, c2, c3, d, hs⟩ := spline_scaled h
  generalize (interp a b fun i => f (linspace a b 5 i)) = s at hs ⊢
  have hc : ∀ k : ℕ, s (linspace a b 5 k) = c0 + c1 * (k - 2) + c2 * (k - 2) ^ 2 + c3 * (k - 2) ^ 3 + d * (max ((k : ℝ) - 2) 0) ^ 3 :=
    fun k => by rw [coarse_eq, hs]
  have hf : ∀ k : ℕ, s (linspace a b 20 k) = c0 + c1 * (4 * k / 19 - 2) + c2 * (4 * k / 19 - 2) ^ 2 + c3 * (4 * k / 19 - 2) ^ 3 +
      d * (max (4 * (k : ℝ) / 19 - 2) 0) ^ 3 := fun k => by rw [fine_eq, hs]
  have hd : ∀ k : ℕ, linspace a b 20 (k + 1) - linspace a b 20 k = (b - a) / 19 := fun k => by
    unfold linspace; push_cast; ring
  unfold trapz
  simp only [hd, hc, hf, Finset.sum_range_succ, Finset.sum_range_zero]
  norm_num
  ring

/-- **C162.** The spline exists and is unique, so that the result is determined by the integrand. -/
theorem C162_spline_unique (a b : ℝ) (hab : a ≠ b) (y : ℕ → ℝ) : ∃! s, IsSpline a b y s := by
  have hH : (b - a) / 4 ≠ 0 := div_ne_zero (sub_ne_zero.2 (Ne.symm hab)) (by norm_num)
  refine existsUnique_of_exists_of_unique ?_ ?_
  · have key : ∀ H : ℝ, H = (b - a) / 4 → ∃ s, IsSpline a b y s := by
      intro H hHe
      rcases lt_or_gt_of_ne hH with hneg | hpos
      · -- mirrored
        let D := -(y 0 - 4 * y 1 + 6 * y 2 - 4 * y 3 + y 4) / 4
        let C2 := (y 1 + y 3) / 2 - y 2 + D / 2
        let C3 := (y 4 - y 0 - 2 * (y 3 - y 1)) / 12 + D / 2
        let C1 := (y 3 - y 1) / 2 - C3 + D / 2
        refine ⟨fun x => y 2 + C1 / H * (x - linspace a b 5 2) + C2 / H ^ 2 * (x - linspace a b 5 2) ^ 2 +
          (C3 / H ^ 3 - D / H ^ 3) * (x - linspace a b 5 2) ^ 3 + D / H ^ 3 * (max (x - linspace a b 5 2) 0) ^ 3,
          ⟨_, _, _, _, _, fun x => rfl⟩, ?_⟩
        intro i hi
        have hx : linspace a b 5 i - linspace a b 5 2 = H * ((i : ℝ) - 2) := by rw [coarse_eq, hHe]; ring
        simp only [hx, max_mul_cube, if_neg (not_le.2 (hHe ▸ hneg))]
        have hH0 : H ≠ 0 := hHe ▸ hH
        interval_cases i <;> simp only [C1, C2, C3, D] <;> norm_num <;> field_simp <;> ring
      · let D := (y 0 - 4 * y 1 + 6 * y 2 - 4 * y 3 + y 4) / 4
        let C2 := (y 1 + y 3) / 2 - y 2 - D / 2
        let C3 := (y 4 - y 0 - 2 * (y 3 - y 1)) / 12 - D / 2
        let C1 := (y 3 - y 1) / 2 - C3 - D / 2
        refine ⟨fun x => y 2 + C1 / H * (x - linspace a b 5 2) + C2 / H ^ 2 * (x - linspace a b 5 2) ^ 2 +
          C3 / H ^ 3 * (x - linspace a b 5 2) ^ 3 + D / H ^ 3 * (max (x - linspace a b 5 2) 0) ^ 3,
          ⟨_, _, _, _, _, fun x => rfl⟩, ?_⟩
        intro i hi
        have hx : linspace a b 5 i - linspace a b 5 2 = H * ((i : ℝ) - 2) := by rw [coarse_eq, hHe]; ring
        simp only [hx, max_mul_cube, if_pos (show 0 ≤ H from hHe ▸ hpos.le)]
        have hH0 : H ≠ 0 := hHe ▸ hH
        interval_cases i <;> simp only [C1, C2, C3, D] <;> norm_num <;> field_simp <;> ring
    exact key _ rfl
  · intro s t hs ht
    obtain ⟨c0, c1, c2, c3, d, h1⟩ := spline_scaled hs
    obtain ⟨e0, e1, e2, e3, f, h2⟩ := spline_scaled ht
    have q : ∀ i : ℕ, i < 5 → c0 + c1 * (i - 2) + c2 * (i - 2) ^ 2 + c3 * (i - 2) ^ 3 + d * (max ((i : ℝ) - 2) 0) ^ 3 =
        e0 + e1 * (i - 2) + e2 * (i - 2) ^ 2 + e3 * (i - 2) ^ 3 + f * (max ((i : ℝ) - 2) 0) ^ 3 := fun i hi => by
      rw [← h1, ← h2, ← coarse_eq, hs.2 i hi, ht.2 i hi]
    have q0 := q 0 (by norm_num)
    have q1 := q 1 (by norm_num)
    have q2 := q 2 (by norm_num)
    have q3 := q 3 (by norm_num)
    have q4 := q 4 (by norm_num)
    norm_num at q0 q1 q2 q3 q4
    have hd : d = f := by linarith
    have h0 : c0 = e0 := by linarith
    have hc2 : c2 = e2 := by linarith
    have hc3 : c3 = e3 := by linarith
    have hc1 : c1 = e1 := by linarith
    funext x
    have hx : x = linspace a b 5 2 + (b - a) / 4 * ((x - linspace a b 5 2) / ((b - a) / 4)) := by
      rw [mul_div_cancel₀ _ hH]; ring
    rw [hx, h1, h2, hd, h0, hc1, hc2, hc3]

/-- **C162.** If the integrand lies between two constants on the interval, so does the average: no overshooting. -/
theorem C162_bounds (hi : Interpolates interp) (f : ℝ → ℝ) (a b m M : ℝ) (hab : a < b)
    (hf : ∀ x, a ≤ x → x ≤ b → m ≤ f x ∧ f x ≤ M) :
    m * (b - a) ≤ nintegrateFast interp f a b ∧ nintegrateFast interp f a b ≤ M * (b - a) := by
  rw [C162_weights hi f a b hab.ne]
  have h : 0 < b - a := sub_pos.2 hab
  have p0 := hf a le_rfl hab.le
  have p1 := hf (a + (b - a) / 4) (by linarith) (by linarith)
  have p2 := hf (a + (b - a) / 2) (by linarith) (by linarith)
  have p3 := hf (a + 3 * (b - a) / 4) (by linarith) (by linarith)
  have p4 := hf b hab.le le_rfl
  rw [mul_comm m, mul_comm M]
  constructor <;> refine mul_le_mul_of_nonneg_left ?_ h.le <;> linarith [p0.1, p0.2, p1.1, p1.2, p2.1, p2.2, p3.1, p3.2, p4.1, p4.2]

/-- **C162.** Monotone in the integrand (in particular a non-negative integrand gives a non-negative result). -/
theorem C162_monotone (hi : Interpolates interp) (f g : ℝ → ℝ) (a b : ℝ) (hab : a < b)
    (hf : ∀ x, a ≤ x → x ≤ b → f x ≤ g x) : nintegrateFast interp f a b ≤ nintegrateFast interp g a b := by
  rw [C162_weights hi f a b hab.ne, C162_weights hi g a b hab.ne]
  have h : 0 < b - a := sub_pos.2 hab
  refine mul_le_mul_of_nonneg_left ?_ h.le
  linarith [hf a le_rfl hab.le, hf (a + (b - a) / 4) (by linarith) (by linarith),
    hf (a + (b - a) / 2) (by linarith) (by linarith), hf (a + 3 * (b - a) / 4) (by linarith) (by linarith), hf b hab.le le_rfl]

/-- **C162.** Linear in the integrand. -/
theorem C162_linear (hi : Interpolates interp) (f g : ℝ → ℝ) (c a b : ℝ) (hab : a ≠ b) :
    nintegrateFast interp (fun x => f x + c * g x) a b = nintegrateFast interp f a b + c * nintegrateFast interp g a b := by
  rw [C162_weights hi _ a b hab, C162_weights hi _ a b hab, C162_weights hi _ a b hab]
  ring

/-- **C162.** Exchanging the limits changes the sign. -/
theorem C162_orientation (hi : Interpolates interp) (f : ℝ → ℝ) (a b : ℝ) (hab : a ≠ b) :
    nintegrateFast interp f b a = -nintegrateFast interp f a b := by
  rw [C162_weights hi _ a b hab, C162_weights hi _ b a hab.symm]
  have e1 : b + (a - b) / 4 = a + 3 * (b - a) / 4 := by ring
  have e2 : b + (a - b) / 2 = a + (b - a) / 2 := by ring
  have e3 : b + 3 * (a - b) / 4 = a + (b - a) / 4 := by ring
  rw [e1, e2, e3]; ring

/-- **C162.** For a cubic polynomial the error is `h²/12 (f'(b) - f'(a))` with `h = (b - a)/19`; in particular affine
integrands are integrated exactly. -/
theorem C162_cubic (hi : Interpolates interp) (p0 p1 p2 p3 a b : ℝ) (hab : a ≠ b) :
    nintegrateFast interp (fun x => p0 + p1 * x + p2 * x ^ 2 + p3 * x ^ 3) a b =
      (∫ x in a..b, (p0 + p1 * x + p2 * x ^ 2 + p3 * x ^ 3)) +
        ((b - a) / 19) ^ 2 / 12 * ((p1 + 2 * p2 * b + 3 * p3 * b ^ 2) - (p1 + 2 * p2 * a + 3 * p3 * a ^ 2)) := by
  have hint : (∫ x in a..b, (p0 + p1 * x + p2 * x ^ 2 + p3 * x ^ 3)) =
      (p0 * b + p1 * b ^ 2 / 2 + p2 * b ^ 3 / 3 + p3 * b ^ 4 / 4) - (p0 * a + p1 * a ^ 2 / 2 + p2 * a ^ 3 / 3 + p3 * a ^ 4 / 4) := by
    refine intervalIntegral.integral_eq_sub_of_hasDerivAt (f := fun x : ℝ => p0 * x + p1 * x ^ 2 / 2 + p2 * x ^ 3 / 3 + p3 * x ^ 4 / 4) (fun x _ => ?_) ?_
    · have := ((((hasDerivAt_id x).const_mul p0).add (((hasDerivAt_pow 2 x).const_mul p1).div_const 2)).add
        (((hasDerivAt_pow 3 x).const_mul p2).div_const 3)).add (((hasDerivAt_pow 4 x).const_mul p3).div_const 4)
      refine this.congr_deriv ?_
      simp; ring
    · exact Continuous.intervalIntegrable (by fun_prop) _ _
  rw [C162_weights hi _ a b hab, hint]
  ring

/-- **C162.** The error is bounded by the variation of the integrand on the interval times its length. -/
theorem C162_error (hi : Interpolates interp) (f : ℝ → ℝ) (a b m M : ℝ) (hab : a < b) (hc : ContinuousOn f (Set.Icc a b))
    (hf : ∀ x, a ≤ x → x ≤ b → m ≤ f x ∧ f x ≤ M) :
    |nintegrateFast interp f a b - ∫ x in a..b, f x| ≤ (M - m) * (b - a) := by
  have hb := C162_bounds hi f a b m M hab hf
  have hint : IntervalIntegrable f MeasureTheory.volume a b := ContinuousOn.intervalIntegrable (by rwa [Set.uIcc_of_le hab.le])
  have h1 : m * (b - a) ≤ ∫ x in a..b, f x := by
    have := intervalIntegral.integral_mono_on hab.le (intervalIntegrable_const (c := m)) hint (fun x hx => (hf x hx.1 hx.2).1)
    simpa [mul_comm] using this
  have h2 : ∫ x in a..b, f x ≤ M * (b - a) := by
    have := intervalIntegral.integral_mono_on hab.le hint (intervalIntegrable_const (c := M)) (fun x hx => (hf x hx.1 hx.2).2)
    simpa [mul_comm] using this
  rw [abs_le]; constructor <;> nlinarith [hb.1, hb.2]

/-- **C162.** `nintegrate_complex` is the complex integral if the real integrations are exact. -/
theorem C162_complex (quad : (ℝ → ℝ) → ℝ → ℝ → ℝ) (hq : ∀ f a b, quad f a b = ∫ x in a..b, f x) (f : ℝ → ℂ) (a b : ℝ)
    (hf : IntervalIntegrable f MeasureTheory.volume a b) : nintegrateComplex quad f a b = ∫ x in a..b, f x := by
  unfold nintegrateComplex
  rw [hq, hq]
  have h1 := Complex.reCLM.intervalIntegral_comp_comm hf
  have h2 := Complex.imCLM.intervalIntegral_comp_comm hf
  simp only [Complex.reCLM_apply, Complex.imCLM_apply] at h1 h2
  rw [h1, h2, mul_comm]
  exact Complex.re_add_im _

/-- Non-vacuity: there is such an interpolation. -/
theorem C162_nonvacuous : ∃ interp : (a b : ℝ) → (ℕ → ℝ) → ℝ → ℝ, Interpolates interp := by
  classical
  refine ⟨fun a b y => if h : a ≠ b then (C162_spline_unique a b h y).choose else 0, ?_⟩
  intro a b y h
  simp only [dif_pos h]
  exact (C162_spline_unique a b h y).choose_spec.1

end Verif.Integrate
