import Verif.Physics.Inclusive.XllQed
import Mathlib.Analysis.SpecialFunctions.Log.Basic
set_option linter.unusedVariables false
set_option linter.unusedSimpArgs false
namespace Verif.BxllQed
open Verif.Py Verif Complex

local notation "conj" => starRingEnd ℂ

/-- Close a polynomial identity after naming the inverses. -/
macro "fin " x:term : tactic => `(tactic| (
  simp only [div_eq_mul_inv, mul_inv]
  generalize ((1 - $x)^2)⁻¹ = u
  ring))

/-- The QED-corrected quadratic form in `C2, C7, C9` with kinematic weights `σ77, σ79, σ99`. (Specification.) -/
noncomputable def qform (w22 w27 w29 w77 w79 w99 : ℂ) (σ77 σ79 σ99 : ℝ) (C2 C7 C9 : ℂ) : ℝ :=
  (σ99*(w22*C2*conj C2 + w29*C2*conj C9 + w99*C9*conj C9) + σ79*(w27*C2*conj C7 + w79*C7*conj C9) + σ77*w77*C7*conj C7 : ℂ).re

/-- Renormalisation-scale consistency of the longitudinal and transverse tables: changing the scale from 5 GeV to `μ` is exactly
compensated by the shift `C9 → C9 + (8/9) log(μ/5) C2`, for every kinematic point, all masses and all complex coefficients. -/
theorem C129_scale (sh mb ml mc μ : ℝ) (σ77 σ79 σ99 : ℝ) (C2 C7 C9 : ℂ) :
    qform (wem_22_HL_low sh mb ml μ mc) (wem_27_HL_low sh mb ml μ mc) (wem_29_HL_low sh mb ml μ mc) (wem_77_HL_low sh mb ml μ mc)
        (wem_79_HL_low sh mb ml μ mc) (wem_99_HL_low sh mb ml μ mc) σ77 σ79 σ99 C2 C7 C9
      = qform (wem_22_HL_low sh mb ml 5 mc) (wem_27_HL_low sh mb ml 5 mc) (wem_29_HL_low sh mb ml 5 mc) (wem_77_HL_low sh mb ml 5 mc)
        (wem_79_HL_low sh mb ml 5 mc) (wem_99_HL_low sh mb ml 5 mc) σ77 σ79 σ99 C2 C7 (C9 + ((8/9*Real.log (μ/5) : ℝ) : ℂ)*C2) ∧
    qform (wem_22_HT_low sh mb ml μ mc) (wem_27_HT_low sh mb ml μ mc) (wem_29_HT_low sh mb ml μ mc) (wem_77_HT_low sh mb ml μ mc)
        (wem_79_HT_low sh mb ml μ mc) (wem_99_HT_low sh mb ml μ mc) σ77 σ79 σ99 C2 C7 C9
      = qform (wem_22_HT_low sh mb ml 5 mc) (wem_27_HT_low sh mb ml 5 mc) (wem_29_HT_low sh mb ml 5 mc) (wem_77_HT_low sh mb ml 5 mc)
        (wem_79_HT_low sh mb ml 5 mc) (wem_99_HT_low sh mb ml 5 mc) σ77 σ79 σ99 C2 C7 (C9 + ((8/9*Real.log (μ/5) : ℝ) : ℂ)*C2) := by
  have key : ∀ (a22 a27r a27i a29r a29i a77 a79 a99 b22 b27r b27i b29r b29i b77 b79 b99 k : ℝ),
      a77 = b77 → a79 = b79 → a99 = b99 → a27r = b27r + k*b79 → a27i = b27i → a29r = b29r + 2*k*b99 → a29i = b29i →
      a22 = b22 + k*b29r + k^2*b99 →
      qform a22 (a27r + I*a27i) (a29r + I*a29i) a77 a79 a99 σ77 σ79 σ99 C2 C7 C9 =
      qform b22 (b27r + I*b27i) (b29r + I*b29i) b77 b79 b99 σ77 σ79 σ99 C2 C7 (C9 + (k:ℂ)*C2) := by
    intro a22 a27r a27i a29r a29i a77 a79 a99 b22 b27r b27i b29r b29i b77 b79 b99 k h1 h2 h3 h4 h5 h6 h7 h8
    subst h1 h2 h3 h4 h5 h6 h7 h8
    simp only [qform, Complex.add_re, Complex.mul_re, Complex.mul_im, Complex.add_im, Complex.conj_re, Complex.conj_im, Complex.ofReal_re, Complex.ofReal_im,
      Complex.I_re, Complex.I_im, map_add, map_mul, Complex.conj_ofReal]
    ring
  constructor
  · refine key _ _ _ _ _ _ _ _ _ _ _ _ _ _ _ _ _ rfl rfl rfl ?_ rfl ?_ rfl ?_
    · simp only [wem_27_HL_low_re, wem_79_HL_low, show (5:ℝ)/5 = 1 by norm_num, Real.log_one]; fin sh
    · simp only [wem_29_HL_low_re, wem_99_HL_low, show (5:ℝ)/5 = 1 by norm_num, Real.log_one]; fin sh
    · simp only [wem_22_HL_low, wem_29_HL_low_re, wem_99_HL_low, show (5:ℝ)/5 = 1 by norm_num, Real.log_one]; fin sh
  · refine key _ _ _ _ _ _ _ _ _ _ _ _ _ _ _ _ _ rfl rfl rfl ?_ rfl ?_ rfl ?_
    · simp only [wem_27_HT_low_re, wem_79_HT_low, show (5:ℝ)/5 = 1 by norm_num, Real.log_one]; fin sh
    · simp only [wem_29_HT_low_re, wem_99_HT_low, show (5:ℝ)/5 = 1 by norm_num, Real.log_one]; fin sh
    · simp only [wem_22_HT_low, wem_29_HT_low_re, wem_99_HT_low, show (5:ℝ)/5 = 1 by norm_num, Real.log_one]; fin sh

/-- The part of the (9,9) entry enhanced by the collinear logarithm. (Specification.) -/
noncomputable def coll99 (sh mb ml : ℝ) : ℝ :=
  Real.log (mb^2/ml^2)*(-1 - 3*sh + 12*sh^2 - 8*sh^3 + 6*(1-sh)^2*(1 + 2*sh)*Real.log (1 - sh) - 3*(1 - 6*sh^2 + 4*sh^3)*Real.log sh)/(6*(1-sh)^2*(1 + 2*sh))

/-- The same for the tables of the total rate, at low and high `q²`, entry by entry, and for the asymmetry: the real parts run
as the shift of `C9` demands. -/
theorem C129_scale_rate (sh mb ml mc μ : ℝ) :
    let k := 8/9*Real.log (μ/5)
    (wem_22_low sh mb ml μ mc = wem_22_low sh mb ml 5 mc + k*wem_29_re_low sh mb ml 5 mc + k^2*coll99 sh mb ml) ∧
    (wem_22_high sh mb ml μ mc = wem_22_high sh mb ml 5 mc + k*wem_29_re_high sh mb ml 5 mc + k^2*coll99 sh mb ml) ∧
    (wem_29_re_low sh mb ml μ mc = wem_29_re_low sh mb ml 5 mc + 2*k*coll99 sh mb ml) ∧
    (wem_29_re_high sh mb ml μ mc = wem_29_re_high sh mb ml 5 mc + 2*k*coll99 sh mb ml) ∧
    (wem_27_low sh mb ml μ mc = wem_27_low sh mb ml 5 mc + ((k*wem_79_low sh mb ml μ mc : ℝ) : ℂ)) ∧
    (wem_27_high sh mb ml μ mc = wem_27_high sh mb ml 5 mc + ((k*wem_79_high sh mb ml μ mc : ℝ) : ℂ)) ∧
    (wem_210_HA_low sh mb ml μ mc = wem_210_HA_low sh mb ml 5 mc + ((k*wem_910_HA_low sh mb ml μ mc : ℝ) : ℂ)) := by
  intro k
  have h5 : Real.log ((5:ℝ)/5) = 0 := by norm_num
  have hs : (-1 + sh)^2 = (1 - sh)^2 := by ring
  have hk : Real.log (μ/5) = 9/8*k := by simp only [k]; ring
  refine ⟨?_, ?_, ?_, ?_, ?_, ?_, ?_⟩
  · simp only [wem_22_low, wem_29_re_low, coll99, h5, hk, qL, hs]; fin sh
  · simp only [wem_22_high, wem_29_re_high, coll99, h5, hk, qL, hs]; fin sh
  · simp only [wem_29_re_low, coll99, h5, hk, qL, hs]; fin sh
  · simp only [wem_29_re_high, coll99, h5, hk, qL, hs]; fin sh
  · simp only [wem_27_low, wem_27_re_low, wem_27_im_low, wem_79_low, h5, hk]; push_cast; ring
  · simp only [wem_27_high, wem_27_re_high, wem_27_im_high, wem_79_high, h5, hk]; push_cast; ring
  · simp only [wem_210_HA_low, wem_910_HA_low, h5, hk]; push_cast; ring

/-- FINDING: the imaginary part of the (2,9) entry of the total rate is a copy of the real part, at low and at high `q²`, although
the functions for the imaginary part exist and differ. -/
theorem C129_imaginary_witness :
    (∀ sh mb ml μ mc, (wem_29_low sh mb ml μ mc).im = (wem_29_low sh mb ml μ mc).re) ∧
    (∀ sh mb ml μ mc, (wem_29_high sh mb ml μ mc).im = (wem_29_high sh mb ml μ mc).re) ∧
    (∀ mb ml mc : ℝ, Real.log (mb^2/ml^2) ≠ 0 → (wem_29_low (1/4) mb ml 5 mc).im ≠ wem_29_im_low (1/4) mb ml 5 mc ∧
      (wem_29_high (3/4) mb ml 5 mc).im ≠ wem_29_im_high (3/4) mb ml 5 mc) := by
  refine ⟨fun sh mb ml μ mc => by simp [wem_29_low], fun sh mb ml μ mc => by simp [wem_29_high], fun mb ml mc h => ?_⟩
  have h5 : Real.log ((5:ℝ)/5) = 0 := by norm_num
  have e1 : (wem_29_low (1/4) mb ml 5 mc).im = wem_29_re_low (1/4) mb ml 5 mc := by simp [wem_29_low]
  have e2 : (wem_29_high (3/4) mb ml 5 mc).im = wem_29_re_high (3/4) mb ml 5 mc := by simp [wem_29_high]
  rw [e1, e2]
  simp only [wem_29_re_low, wem_29_im_low, wem_29_re_high, wem_29_im_high, h5]
  generalize Real.log (mb^2/ml^2) = L at *
  constructor
  · intro hh
    apply h
    norm_num at hh
    linarith
  · intro hh
    apply h
    norm_num at hh
    linarith

/-- FINDING: the absorptive part of the asymmetry's (2,10) entry switches on at `sh = (4 m_c²/m_b²)²`, below the charm
threshold `4 m_c²/m_b²`. -/
theorem C129_threshold_witness :
    (∀ sh mb ml μ mc : ℝ, sh < (4*mc^2/mb^2)^2 → (wem_210_HA_low sh mb ml μ mc).im = 0) ∧
    (∀ ml μ : ℝ, Real.log (1/ml^2) ≠ 0 → (1/8 : ℝ) < 4*(1/4)^2/1^2 ∧ (wem_210_HA_low (1/8) 1 ml μ (1/4)).im ≠ 0) := by
  constructor
  · intro sh mb ml μ mc h
    have : unitStep (sh - (4*mc^2/mb^2)^2) = 0 := by rw [unitStep, if_neg (by linarith)]
    simp only [wem_210_HA_low, this, mul_zero, Complex.ofReal_zero, add_zero, Complex.ofReal_im]
  · intro ml μ h
    refine ⟨by norm_num, ?_⟩
    have hu : unitStep (1/8 - (4*(1/4)^2/1^2)^2) = 1 := by rw [unitStep, if_pos (by norm_num)]
    simp only [wem_210_HA_low, hu, Complex.add_im, Complex.ofReal_im, Complex.mul_im, Complex.I_re, Complex.I_im, Complex.ofReal_re, zero_mul, zero_add, one_mul]
    norm_num
    simpa using h

/-- Which corrections exist: below `sh = 1/2` the rate, both helicity components and the asymmetry; above only the total rate –
everything else is a `KeyError`. -/
theorem C129_domain (sh mb ml μ mc : ℝ) (h : 0.5 ≤ sh) (i j : ℕ) :
    wem "A" i j sh mb ml μ mc = .error .keyError ∧ wem "L" i j sh mb ml μ mc = .error .keyError ∧ wem "T" i j sh mb ml μ mc = .error .keyError := by
  have hn : ¬ sh < 0.5 := not_lt.mpr h
  have key : ∀ X : String, X ≠ "BR" → wem X i j sh mb ml μ mc = .error .keyError := by
    intro X hX
    have : (dictHigh sh mb ml μ mc).lookup (X, i, j) = none := by
      have hf : ∀ a b : ℕ, ((X, i, j) == ("BR", a, b)) = false := fun a b => by
        rw [beq_eq_false_iff_ne]; intro h; exact hX (Prod.mk.inj h).1
      simp only [dictHigh, List.lookup_cons, hf, List.lookup_nil]
    simp only [wem, if_neg hn, this]
  exact ⟨key _ (by decide), key _ (by decide), key _ (by decide)⟩

/-- The entries (7,7), (7,9) and (9,9) of the rate use one and the same function on both sides of `sh = 1/2`. -/
theorem C129_no_jump (sh mb ml μ mc : ℝ) :
    wem "BR" 7 7 sh mb ml μ mc = .ok (wem_77_low sh mb ml μ mc) ∧ wem "BR" 7 9 sh mb ml μ mc = .ok (wem_79_low sh mb ml μ mc) ∧
    wem "BR" 9 9 sh mb ml μ mc = .ok (wem_99_low sh mb ml μ mc) := by
  have e7 : wem_77_high sh mb ml μ mc = wem_77_low sh mb ml μ mc := rfl
  have e79 : wem_79_high sh mb ml μ mc = wem_79_low sh mb ml μ mc := rfl
  have e9 : wem_99_high sh mb ml μ mc = wem_99_low sh mb ml μ mc := rfl
  by_cases h : sh < 0.5
  · simp only [wem, if_pos h]; exact ⟨rfl, rfl, rfl⟩
  · simp only [wem, if_neg h, ← e7, ← e79, ← e9]; exact ⟨rfl, rfl, rfl⟩

end Verif.BxllQed
