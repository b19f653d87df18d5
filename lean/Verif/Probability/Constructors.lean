import Verif.Probability.Dist
import Mathlib.Tactic.Positivity
/-!
# C34, C36: constructors, supports, modes and `delta_logpdf` of the univariate classes
-/
set_option linter.unusedSectionVars false
set_option linter.unusedSimpArgs false
set_option linter.unusedVariables false
namespace Verif.Probability
open Verif.Py

/-! ## Specification -/

/-- The central value lies in the support interval. (Specification.) -/
def UDist.CentralInSupport (d : UDist) : Prop := d.support.1 ≤ d.central ∧ d.central ≤ d.support.2

/-- The central value is a mode: the PDF is largest there (and not zero). (Specification.) -/
def UDist.CentralIsMode (d : UDist) : Prop := d.logpdf d.central ≠ ⊥ ∧ ∀ x, d.logpdf x ≤ d.logpdf d.central

/-- The constructor call succeeds with `d` if the arguments are valid, and raises `ValueError` otherwise.
(Specification.) -/
def Validates (valid : Prop) (r : Except PyErr UDist) (d : UDist) : Prop :=
  (valid → r = .ok d) ∧ (¬ valid → r = .error .valueError)

/-! ## Lemmas -/

theorem sqrt2pi_pos : 0 < Real.sqrt (2 * Real.pi) := Real.sqrt_pos.2 (by positivity)

theorem normalLogpdf_le (x c s : ℝ) : normalLogpdf x c s ≤ normalLogpdf c c s := by
  unfold normalLogpdf
  have : 0 ≤ (x - c) ^ 2 / s ^ 2 / 2 := by positivity
  have h2 : -(x - c) ^ 2 / s ^ 2 / 2 = -((x - c) ^ 2 / s ^ 2 / 2) := by ring
  rw [h2]
  simp only [sub_self]
  norm_num
  linarith

theorem coe_ne_bot (v : ℝ) : (v : LogP) ≠ ⊥ := WithBot.coe_ne_bot

theorem normalPdf_center (c s : ℝ) : normalPdf c c s = 1 / (Real.sqrt (2 * Real.pi) * s) := by
  unfold normalPdf; simp

/-- The scale factors of the two half-Gaussians. -/
theorem asym_factor_left {c r l : ℝ} (hr : 0 < r) (hl : 0 < l) :
    2 * normalPdf c c r / (normalPdf c c l + normalPdf c c r) = 2 * l / (r + l) := by
  rw [normalPdf_center, normalPdf_center]
  have := sqrt2pi_pos
  field_simp

theorem asym_factor_right {c r l : ℝ} (hr : 0 < r) (hl : 0 < l) :
    2 * normalPdf c c l / (normalPdf c c l + normalPdf c c r) = 2 * r / (r + l) := by
  rw [normalPdf_center, normalPdf_center]
  have := sqrt2pi_pos
  field_simp

/-- Both branches agree at the central value. -/
theorem asym_match {c r l : ℝ} (hr : 0 < r) (hl : 0 < l) :
    Real.log (2 * l / (r + l)) + normalLogpdf c c l = Real.log (2 * r / (r + l)) + normalLogpdf c c r := by
  have h2 := sqrt2pi_pos
  unfold normalLogpdf
  simp only [sub_self]
  have h3 : (2 : ℝ) ≠ 0 := by norm_num
  have hrl : r + l ≠ 0 := by positivity
  have e1 : Real.log (2 * l / (r + l)) = Real.log 2 + Real.log l - Real.log (r + l) := by
    rw [Real.log_div (by positivity) hrl, Real.log_mul h3 (ne_of_gt hl)]
  have e2 : Real.log (2 * r / (r + l)) = Real.log 2 + Real.log r - Real.log (r + l) := by
    rw [Real.log_div (by positivity) hrl, Real.log_mul h3 (ne_of_gt hr)]
  rw [e1, e2, Real.log_mul (ne_of_gt h2) (ne_of_gt hl), Real.log_mul (ne_of_gt h2) (ne_of_gt hr)]
  ring

theorem asymLogpdf_eq {c r l : ℝ} (hr : 0 < r) (hl : 0 < l) (x : ℝ) :
    asymLogpdf c r l x = if x < c then Real.log (2 * l / (r + l)) + normalLogpdf x c l
      else Real.log (2 * r / (r + l)) + normalLogpdf x c r := by
  unfold asymLogpdf
  simp only
  rw [asym_factor_left hr hl, asym_factor_right hr hl]

theorem asymLogpdf_le {c r l : ℝ} (hr : 0 < r) (hl : 0 < l) (x : ℝ) :
    asymLogpdf c r l x ≤ asymLogpdf c r l c := by
  rw [asymLogpdf_eq hr hl, asymLogpdf_eq hr hl, if_neg (lt_irrefl c)]
  split
  · rw [← asym_match hr hl]
    linarith [normalLogpdf_le x c l]
  · linarith [normalLogpdf_le x c r]

theorem halfLogpdf_center (c s : ℝ) :
    halfLogpdf c s c = ((Real.log 2 + normalLogpdf c c |s| : ℝ) : LogP) := by
  unfold halfLogpdf
  rw [sub_self, mul_zero, if_neg (lt_irrefl _)]

theorem halfLogpdf_le (c s x : ℝ) : halfLogpdf c s x ≤ halfLogpdf c s c := by
  rw [halfLogpdf_center]
  unfold halfLogpdf
  split
  · exact bot_le
  · exact WithBot.coe_le_coe.2 (by linarith [normalLogpdf_le x c |s|])

/-! ## C34 -/

/-- **C34 (normal)** -/
theorem C34_normal (c s : ℝ) :
    Validates (0 < s) (mkNormal c s) (.normal c s) ∧
    (0 < s → (UDist.normal c s).CentralInSupport ∧ (UDist.normal c s).CentralIsMode) := by
  refine ⟨⟨fun h => if_neg (not_le.2 h), fun h => if_pos (not_lt.1 h)⟩, fun h => ⟨⟨?_, ?_⟩, coe_ne_bot _, fun x => ?_⟩⟩
  · simp only [UDist.support, UDist.central]; linarith
  · simp only [UDist.support, UDist.central]; linarith
  · exact WithBot.coe_le_coe.2 (normalLogpdf_le x c s)

/-- **C34 (asymmetric normal)** -/
theorem C34_asymmetric (c r l : ℝ) :
    Validates (0 < r ∧ 0 < l) (mkAsym c r l) (.asym c r l) ∧
    (0 < r ∧ 0 < l → (UDist.asym c r l).CentralInSupport ∧ (UDist.asym c r l).CentralIsMode) := by
  refine ⟨⟨fun h => if_neg ?_, fun h => if_pos ?_⟩, fun h => ⟨⟨?_, ?_⟩, coe_ne_bot _, fun x => ?_⟩⟩
  · rintro (h1 | h1) <;> linarith
  · by_contra hc
    rw [not_or] at hc
    exact h ⟨not_le.1 hc.1, not_le.1 hc.2⟩
  · simp only [UDist.support, UDist.central]; linarith
  · simp only [UDist.support, UDist.central]; linarith
  · exact WithBot.coe_le_coe.2 (asymLogpdf_le h.1 h.2 x)

/-- **C34 (half-normal)** for either sign of the standard deviation. -/
theorem C34_half_normal (c s : ℝ) :
    Validates (s ≠ 0) (mkHalf c s) (.half c s) ∧
    (s ≠ 0 → (UDist.half c s).CentralInSupport ∧ (UDist.half c s).CentralIsMode ∧
      ∀ x, (UDist.half c s).logpdf x = ⊥ ↔ (0 < s ∧ x < c ∨ s < 0 ∧ c < x)) := by
  refine ⟨⟨fun h => if_neg h, fun h => if_pos (not_not.1 h)⟩, fun h => ⟨⟨min_le_left _ _, le_max_left _ _⟩,
    ⟨?_, fun x => halfLogpdf_le c s x⟩, fun x => ?_⟩⟩
  · show halfLogpdf c s c ≠ ⊥
    rw [halfLogpdf_center]; exact coe_ne_bot _
  · show halfLogpdf c s x = ⊥ ↔ _
    unfold halfLogpdf npSign
    rcases lt_or_gt_of_ne h with hs | hs
    · rw [if_pos hs]
      constructor
      · intro hb
        split at hb
        · exact Or.inr ⟨hs, by linarith⟩
        · exact absurd hb (coe_ne_bot _)
      · rintro (⟨h1, _⟩ | ⟨_, h2⟩)
        · linarith
        · rw [if_pos (by linarith)]
    · rw [if_neg (show ¬ s < 0 by linarith), if_neg h]
      constructor
      · intro hb
        split at hb
        · exact Or.inl ⟨hs, by linarith⟩
        · exact absurd hb (coe_ne_bot _)
      · rintro (⟨_, h2⟩ | ⟨h1, _⟩)
        · rw [if_pos (by linarith)]
        · linarith

/-- **C34 (Gaussian upper limit)** For a confidence level strictly between 0 and 1, given that the quantile
function of the standard normal distribution is positive above 1/2. -/
theorem C34_gaussian_upper_limit (ppf : ℝ → ℝ) (hppf : ∀ p, 1 / 2 < p → p < 1 → 0 < ppf p) (limit cl : ℝ)
    (h0 : cl ≠ 0) (h1 : cl ≠ 1) :
    ∃ s, Validates (0 < limit ∧ 0 ≤ cl ∧ cl ≤ 1) (mkGaussianLimit ppf limit cl) (.gaussianLimit limit cl s) ∧
      (0 < limit ∧ 0 ≤ cl ∧ cl ≤ 1 → 0 < s ∧ (UDist.gaussianLimit limit cl s).central = 0 ∧
        (UDist.gaussianLimit limit cl s).CentralInSupport ∧ (UDist.gaussianLimit limit cl s).CentralIsMode) := by
  refine ⟨limit / ppf (0.5 + cl / 2), ⟨?_, ?_⟩, ?_⟩
  · rintro ⟨h2, h3, h4⟩
    have hp : 0 < ppf (0.5 + cl / 2) := by
      refine hppf _ ?_ ?_
      · have := lt_of_le_of_ne h3 (Ne.symm h0); norm_num; linarith
      · have := lt_of_le_of_ne h4 h1; norm_num; linarith
    unfold mkGaussianLimit
    rw [if_neg (by rintro (h | h) <;> linarith), if_neg (by linarith), if_neg (ne_of_gt (div_pos h2 hp))]
  · intro hn
    unfold mkGaussianLimit
    by_cases h2 : cl > 1 ∨ cl < 0
    · rw [if_pos h2]
    · rw [if_neg h2]
      rw [not_or, not_lt, not_lt] at h2
      rw [if_pos]
      by_contra h3
      exact hn ⟨not_le.1 h3, h2.2, h2.1⟩
  · rintro ⟨h2, h3, h4⟩
    have hp : 0 < ppf (0.5 + cl / 2) := by
      refine hppf _ ?_ ?_
      · have := lt_of_le_of_ne h3 (Ne.symm h0); norm_num; linarith
      · have := lt_of_le_of_ne h4 h1; norm_num; linarith
    refine ⟨div_pos h2 hp, rfl, ⟨min_le_left _ _, le_max_left _ _⟩, ?_, fun x => halfLogpdf_le 0 _ x⟩
    show halfLogpdf 0 _ 0 ≠ ⊥
    rw [halfLogpdf_center]; exact coe_ne_bot _

/-- **C34 (log-normal, positive central value)** The central value is the median, not the mode, so only
the support is claimed. -/
theorem C34_lognormal_partial (c f : ℝ) :
    Validates (c ≠ 0 ∧ 1 < f) (mkLogNormal c f) (.logNormal c f) ∧
    (0 < c ∧ 1 < f → (UDist.logNormal c f).CentralInSupport ∧ (UDist.logNormal c f).logpdf c ≠ ⊥) := by
  refine ⟨⟨?_, ?_⟩, ?_⟩
  · rintro ⟨h1, h2⟩
    unfold mkLogNormal
    rw [if_neg h1, if_neg (by linarith)]
  · intro h
    unfold mkLogNormal
    by_cases h1 : c = 0
    · rw [if_pos h1]
    · rw [if_neg h1, if_pos]
      by_contra h2
      exact h ⟨h1, not_le.1 h2⟩
  · rintro ⟨h1, h2⟩
    refine ⟨?_, ?_⟩
    · unfold UDist.CentralInSupport UDist.support
      simp only [if_neg (not_lt.2 h1.le), UDist.central]
      refine ⟨h1.le, ?_⟩
      rw [Real.exp_add, Real.exp_log (abs_pos.2 (ne_of_gt h1)), abs_of_pos h1]
      have : 0 ≤ 6 * Real.log f := by have := Real.log_nonneg h2.le; linarith
      have := Real.one_le_exp this
      nlinarith
    · show lognormLogpdf _ _ _ ≠ ⊥
      unfold lognormLogpdf
      rw [if_neg (not_lt.2 h1.le), if_neg (by linarith)]
      exact coe_ne_bot _

/-- **C34 fails for negative log-normals.** For every negative central value the "support" is the pair of
a positive number and 0: the boundaries are in the wrong order, the sign is wrong and the central value
is below both. -/
theorem C34_lognormal_negative_support (c f : ℝ) (hc : c < 0) :
    0 < (UDist.logNormal c f).support.1 ∧ (UDist.logNormal c f).support.2 = 0 ∧
    ¬ (UDist.logNormal c f).CentralInSupport := by
  have h : (UDist.logNormal c f).support = (Real.exp (Real.log |c| - 6 * Real.log f), 0) := by
    unfold UDist.support; simp only [if_pos hc]
  refine ⟨by rw [h]; exact Real.exp_pos _, by rw [h], fun hcs => ?_⟩
  have h1 := hcs.1
  rw [h] at h1
  have := Real.exp_pos (Real.log |c| - 6 * Real.log f)
  simp only [UDist.central] at h1
  linarith

theorem uniform_center {c h : ℝ} (hh : 0 < h) :
    (UDist.uniform c h).logpdf (UDist.uniform c h).central = ((-Real.log (2 * h) : ℝ) : LogP) := by
  show (if c < c - h ∨ c + h ≤ c then ⊥ else ((-Real.log (2 * h) : ℝ) : LogP)) = _
  rw [if_neg (by rintro (h1 | h1) <;> linarith)]

/-- **C34 (uniform)** Nothing is rejected; for positive half-range the support is the range, the PDF is
`1/(2h)` on it (excluding the upper end) and zero elsewhere, and the central value is a mode. -/
theorem C34_uniform (c h : ℝ) :
    mkUniform c h = .ok (.uniform c h) ∧
    (0 < h → (UDist.uniform c h).CentralInSupport ∧ (UDist.uniform c h).CentralIsMode ∧
      ∀ x, expP ((UDist.uniform c h).logpdf x) = if c - h ≤ x ∧ x < c + h then 1 / (2 * h) else 0) := by
  refine ⟨rfl, fun hh => ⟨⟨?_, ?_⟩, ⟨?_, fun x => ?_⟩, fun x => ?_⟩⟩
  · simp only [UDist.support, UDist.central]; linarith
  · simp only [UDist.support, UDist.central]; linarith
  · rw [uniform_center hh]
    exact coe_ne_bot _
  · rw [uniform_center hh]
    simp only [UDist.logpdf]
    split
    · exact bot_le
    · exact le_refl _
  · simp only [UDist.logpdf]
    by_cases hx : c - h ≤ x ∧ x < c + h
    · rw [if_pos hx, if_neg (by rintro (h1 | h1) <;> linarith [hx.1, hx.2])]
      show Real.exp (-Real.log (2 * h)) = _
      rw [Real.exp_neg, Real.exp_log (by linarith), one_div]
    · rw [if_neg hx, if_pos]
      · rfl
      · by_contra hc
        rw [not_or, not_lt, not_le] at hc
        exact hx hc

/-- **C34 (delta)** -/
theorem C34_delta (c : ℝ) :
    mkDelta c = .ok (.delta c) ∧ (UDist.delta c).CentralInSupport ∧ (UDist.delta c).CentralIsMode ∧
    (∀ x, (UDist.delta c).logpdf x = ⊥ ↔ x ≠ c) := by
  have h0 : (UDist.delta c).logpdf c = ((0 : ℝ) : LogP) := by simp only [UDist.logpdf, if_true]
  refine ⟨rfl, ⟨le_refl _, le_refl _⟩, ⟨?_, fun x => ?_⟩, fun x => ?_⟩
  · simp only [UDist.central]; rw [h0]; exact coe_ne_bot _
  · simp only [UDist.central]; rw [h0]
    simp only [UDist.logpdf]
    split
    · exact le_refl _
    · exact bot_le
  · simp only [UDist.logpdf]
    constructor
    · intro h hx
      rw [if_pos hx] at h
      exact coe_ne_bot _ h
    · intro h; rw [if_neg h]

/-- **C34 (discrete uniform)** A central value different from 0 is accepted iff it is in the interval; the
default central value is in the interval and is a mode. -/
theorem C34_discrete_partial (lo hi : ℤ) (hle : lo ≤ hi) :
    (∀ c : ℤ, c ≠ 0 → Validates (lo ≤ c ∧ c ≤ hi) (mkDiscrete lo hi (some c)) (.discrete lo hi c)) ∧
    (∃ c, mkDiscrete lo hi none = .ok (.discrete lo hi c) ∧ lo ≤ c ∧ c ≤ hi) ∧
    (∀ c, lo ≤ c → c ≤ hi → (UDist.discrete lo hi c).CentralInSupport ∧ (UDist.discrete lo hi c).CentralIsMode) := by
  refine ⟨fun c hc => ⟨fun h => ?_, fun h => ?_⟩, ⟨_, rfl, ?_, ?_⟩, fun c h1 h2 => ⟨⟨?_, ?_⟩, ?_⟩⟩
  · unfold mkDiscrete
    simp only
    rw [if_neg (by omega)]
  · unfold mkDiscrete
    simp only
    rw [if_pos (by omega)]
  · rcases Int.le_total 0 (lo + hi) with h | h
    · rw [Int.tdiv_eq_ediv_of_nonneg h]; omega
    · have : Int.tdiv (lo + hi) 2 = -((-(lo + hi)) / 2) := by
        rw [← Int.tdiv_eq_ediv_of_nonneg (by omega), Int.neg_tdiv, neg_neg]
      rw [this]; omega
  · rcases Int.le_total 0 (lo + hi) with h | h
    · rw [Int.tdiv_eq_ediv_of_nonneg h]; omega
    · have : Int.tdiv (lo + hi) 2 = -((-(lo + hi)) / 2) := by
        rw [← Int.tdiv_eq_ediv_of_nonneg (by omega), Int.neg_tdiv, neg_neg]
      rw [this]; omega
  · simp only [UDist.support, UDist.central]; exact_mod_cast h1
  · simp only [UDist.support, UDist.central]; exact_mod_cast h2
  · have hc : (UDist.discrete lo hi c).logpdf c = ((-Real.log (hi + 1 - lo) : ℝ) : LogP) := by
      simp only [UDist.logpdf]
      rw [if_pos ⟨c, h1, h2, rfl⟩]
    refine ⟨by simp only [UDist.central]; rw [hc]; exact coe_ne_bot _, fun x => ?_⟩
    simp only [UDist.central]
    rw [hc]
    simp only [UDist.logpdf]
    split
    · exact le_refl _
    · exact bot_le

/-- **C34 fails for a discrete uniform distribution with central value 0**: whatever the interval, the
range check is skipped, so that the central value may have zero probability. -/
theorem C34_discrete_zero_not_checked (lo hi : ℤ) :
    mkDiscrete lo hi (some 0) = .ok (.discrete lo hi 0) ∧
    (0 < lo → (UDist.discrete lo hi 0).logpdf (UDist.discrete lo hi 0).central = ⊥ ∧
      ¬ (UDist.discrete lo hi 0).CentralInSupport) := by
  refine ⟨by unfold mkDiscrete; simp, fun h => ⟨?_, fun hc => ?_⟩⟩
  · have hn : ¬ ∃ k : ℤ, lo ≤ k ∧ k ≤ hi ∧ (((0 : ℤ) : ℝ)) = k := by
      rintro ⟨k, h1, h2, h3⟩
      have : k = 0 := by exact_mod_cast h3.symm
      omega
    exact if_neg hn
  · have := hc.1
    simp only [UDist.support, UDist.central] at this
    have : lo ≤ 0 := by exact_mod_cast this
    omega

/-! ## C36 -/

theorem subP_self {v : LogP} (h : v ≠ ⊥) : subP v v = .fin 0 := by
  cases v with
  | none => exact absurd rfl h
  | some r => show FloatVal.fin (r - r) = _; rw [sub_self]

theorem subP_le {u v : LogP} (h : v ≠ ⊥) (hle : u ≤ v) :
    subP u v = .negInf ∨ ∃ r, subP u v = .fin r ∧ r ≤ 0 := by
  cases v with
  | none => exact absurd rfl h
  | some b =>
    cases u with
    | none => exact Or.inl rfl
    | some a => exact Or.inr ⟨a - b, rfl, by have := WithBot.coe_le_coe.1 hle; linarith⟩

/-- **C36 (univariate)** If the central value is a mode (by C34: normal, asymmetric, half-normal, limit,
uniform with positive range, delta), `delta_logpdf` is 0 at the central value and elsewhere `-inf` or a
number that is at most 0. -/
theorem C36_mode (d : UDist) (h : d.CentralIsMode) (x : ℝ) :
    d.deltaLogpdf d.central = .fin 0 ∧
    (d.deltaLogpdf x = .negInf ∨ ∃ r, d.deltaLogpdf x = .fin r ∧ r ≤ 0) :=
  ⟨subP_self h.1, subP_le h.1 (h.2 x)⟩

/-- **C36 (definition)** Whenever both log-PDF values are finite, `delta_logpdf` is their difference; in
particular it is 0 at the central value for every distribution with finite log-PDF there. -/
theorem C36_difference (d : UDist) (x a b : ℝ) (h1 : d.logpdf x = a) (h2 : d.logpdf d.central = b) :
    d.deltaLogpdf x = .fin (a - b) := by
  unfold UDist.deltaLogpdf; rw [h1, h2]; rfl

/-- **C36 (normal)** explicitly: `-(x - c)² / (2σ²)`. -/
theorem C36_normal (c s x : ℝ) :
    (UDist.normal c s).deltaLogpdf x = .fin (-((x - c) ^ 2 / (2 * s ^ 2))) := by
  rw [C36_difference _ x _ _ rfl rfl]
  congr 1
  unfold normalLogpdf
  simp only [UDist.central, sub_self]
  ring_nf

example : (UDist.normal 1 2).CentralIsMode := ((C34_normal 1 2).2 (by norm_num)).2
example : (UDist.half 1 (-2)).CentralIsMode := ((C34_half_normal 1 (-2)).2 (by norm_num)).2.1

end Verif.Probability
