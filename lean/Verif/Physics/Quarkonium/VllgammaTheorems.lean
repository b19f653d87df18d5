import Verif.Physics.Quarkonium.Vllgamma
import Verif.Physics.Quarkonium.VllTheorems
import Mathlib.Analysis.SpecialFunctions.Integrals.Basic
import Mathlib.Analysis.Complex.ExponentialBounds
/-!
# Theorems about `V → ℓ₁⁺ ℓ₂⁻ γ` of quarkonium (C116)
-/
set_option linter.unusedVariables false
set_option linter.unusedSimpArgs false
set_option linter.unusedSectionVars false
namespace Verif.Quarkonium
open Verif.Py Verif.Running Verif.Common Complex

/-! ## Lemmas on the kinematic functions -/

/-- Integral over the dilepton mass of `(1-x)(x-μ)² f(x)`, `x` the squared dilepton mass in units of the meson mass,
from the threshold `μ = y²` to the end point. (Specification.) -/
noncomputable def spectrum (y : ℝ) (f : ℝ → ℝ) : ℝ := ∫ x in (y ^ 2)..1, (1 - x) * (x - y ^ 2) ^ 2 * f x

theorem ftc {y : ℝ} (hy : 0 < y) (hy1 : y ≤ 1) (f Φ : ℝ → ℝ)
    (hd : ∀ x, 0 < x → HasDerivAt Φ ((1 - x) * (x - y ^ 2) ^ 2 * f x) x)
    (hc : ∀ x, 0 < x → ContinuousAt f x) : spectrum y f = Φ 1 - Φ (y ^ 2) := by
  have h0 : 0 < y ^ 2 := by positivity
  have h1 : y ^ 2 ≤ 1 := by nlinarith
  have hpos : ∀ x ∈ Set.uIcc (y ^ 2) 1, 0 < x := by
    intro x hx; rw [Set.uIcc_of_le h1] at hx; exact lt_of_lt_of_le h0 hx.1
  unfold spectrum
  apply intervalIntegral.integral_eq_sub_of_hasDerivAt
  · intro x hx; exact hd x (hpos x hx)
  · apply ContinuousOn.intervalIntegrable
    intro x hx
    have := hc x (hpos x hx)
    apply ContinuousAt.continuousWithinAt
    fun_prop

theorem spectrum_nonneg {y : ℝ} (hy : 0 < y) (hy1 : y ≤ 1) (f : ℝ → ℝ) (hf : ∀ x, 0 < x → x ≤ 1 → 0 ≤ f x) : 0 ≤ spectrum y f := by
  have h0 : 0 < y ^ 2 := by positivity
  have h1 : y ^ 2 ≤ 1 := by nlinarith
  apply intervalIntegral.integral_nonneg h1
  intro x hx
  have := hf x (lt_of_lt_of_le h0 hx.1) hx.2
  have := sub_nonneg.2 hx.2
  positivity

/-- The general antiderivative: `p`, `q (1-x)`, `r/x` squared, over `x`. -/
theorem quad_int {y : ℝ} (hy : 0 < y) (hy1 : y ≤ 1) (p q r : ℝ) :
    spectrum y (fun x => (p + q * (1 - x) + r / x) ^ 2 / x) =
      2 * kFS y * p ^ 2 + 2 * kFtS y * q ^ 2 + (-(1 + 2 * y ^ 2) * Real.log (y ^ 2) - 5 / 2 + 2 * y ^ 2 + (y ^ 2) ^ 2 / 2) * r ^ 2
      + 2 * (kFhP y + 1 / 12) * (p * q) + 2 * (kFPA y / y) * (p * r) + 2 * (kFtPA y / y) * (q * r) := by
  have hy0 : y ≠ 0 := hy.ne'
  have hm : y ^ 2 ≠ 0 := pow_ne_zero 2 hy0
  rw [ftc hy hy1 _ (fun x =>
      p ^ 2 * ((y ^ 2) ^ 2 * Real.log x - (2 * y ^ 2 + (y ^ 2) ^ 2) * x + (1 + 2 * y ^ 2) * x ^ 2 / 2 - x ^ 3 / 3)
      + q ^ 2 * ((y ^ 2) ^ 2 * Real.log x - (2 * y ^ 2 + 3 * (y ^ 2) ^ 2) * x + (1 + 6 * y ^ 2 + 3 * (y ^ 2) ^ 2) * x ^ 2 / 2
          - (3 + 6 * y ^ 2 + (y ^ 2) ^ 2) * x ^ 3 / 3 + (3 + 2 * y ^ 2) * x ^ 4 / 4 - x ^ 5 / 5)
      + r ^ 2 * (-((y ^ 2) ^ 2 / 2) * (x⁻¹) ^ 2 + (2 * y ^ 2 + (y ^ 2) ^ 2) * x⁻¹ + (1 + 2 * y ^ 2) * Real.log x - x)
      + 2 * (p * q) * ((y ^ 2) ^ 2 * Real.log x - (2 * y ^ 2 + 2 * (y ^ 2) ^ 2) * x + (1 + 4 * y ^ 2 + (y ^ 2) ^ 2) * x ^ 2 / 2
          - (2 + 2 * y ^ 2) * x ^ 3 / 3 + x ^ 4 / 4)
      + 2 * (p * r) * (-(y ^ 2) ^ 2 * x⁻¹ - (2 * y ^ 2 + (y ^ 2) ^ 2) * Real.log x + (1 + 2 * y ^ 2) * x - x ^ 2 / 2)
      + 2 * (q * r) * (-(y ^ 2) ^ 2 * x⁻¹ - (2 * y ^ 2 + 2 * (y ^ 2) ^ 2) * Real.log x + (1 + 4 * y ^ 2 + (y ^ 2) ^ 2) * x
          - (1 + y ^ 2) * x ^ 2 + x ^ 3 / 3)) ?_ ?_]
  · unfold kFS kFtS kFhP kFPA kFtPA
    simp only [hm, hy0, if_false, Real.log_one]
    generalize Real.log (y ^ 2) = L
    field_simp
    ring
  · intro x hx
    have hx0 : x ≠ 0 := hx.ne'
    have dl := Real.hasDerivAt_log hx0
    have di : HasDerivAt (fun x : ℝ => x⁻¹) (-(x ^ 2)⁻¹) x := hasDerivAt_inv hx0
    have d1 := hasDerivAt_id x
    have d2 := hasDerivAt_pow 2 x
    have d3 := hasDerivAt_pow 3 x
    have d4 := hasDerivAt_pow 4 x
    have d5 := hasDerivAt_pow 5 x
    have h := ((((((((dl.const_mul ((y ^ 2) ^ 2)).sub (d1.const_mul (2 * y ^ 2 + (y ^ 2) ^ 2))).add ((d2.const_mul (1 + 2 * y ^ 2)).div_const 2)).sub (d3.div_const 3)).const_mul (p ^ 2)).add
      (((((((dl.const_mul ((y ^ 2) ^ 2)).sub (d1.const_mul (2 * y ^ 2 + 3 * (y ^ 2) ^ 2))).add ((d2.const_mul (1 + 6 * y ^ 2 + 3 * (y ^ 2) ^ 2)).div_const 2)).sub
        ((d3.const_mul (3 + 6 * y ^ 2 + (y ^ 2) ^ 2)).div_const 3)).add ((d4.const_mul (3 + 2 * y ^ 2)).div_const 4)).sub (d5.div_const 5)).const_mul (q ^ 2))).add
      ((((((di.pow 2).const_mul (-((y ^ 2) ^ 2 / 2))).add (di.const_mul (2 * y ^ 2 + (y ^ 2) ^ 2))).add (dl.const_mul (1 + 2 * y ^ 2))).sub d1).const_mul (r ^ 2))).add
      ((((((dl.const_mul ((y ^ 2) ^ 2)).sub (d1.const_mul (2 * y ^ 2 + 2 * (y ^ 2) ^ 2))).add ((d2.const_mul (1 + 4 * y ^ 2 + (y ^ 2) ^ 2)).div_const 2)).sub
        ((d3.const_mul (2 + 2 * y ^ 2)).div_const 3)).add (d4.div_const 4)).const_mul (2 * (p * q)))).add
      (((((di.const_mul (-(y ^ 2) ^ 2)).sub (dl.const_mul (2 * y ^ 2 + (y ^ 2) ^ 2))).add (d1.const_mul (1 + 2 * y ^ 2))).sub (d2.div_const 2)).const_mul (2 * (p * r)))
    have h' := h.add
      ((((((di.const_mul (-(y ^ 2) ^ 2)).sub (dl.const_mul (2 * y ^ 2 + 2 * (y ^ 2) ^ 2))).add (d1.const_mul (1 + 4 * y ^ 2 + (y ^ 2) ^ 2))).sub
        (d2.const_mul (1 + y ^ 2))).add (d3.div_const 3)).const_mul (2 * (q * r)))
    refine HasDerivAt.congr_deriv h' ?_
    push_cast
    field_simp
    ring
  · intro x hx
    have hx0 : x ≠ 0 := hx.ne'
    fun_prop (disch := assumption)

theorem spectrum_int {y : ℝ} (hy : 0 < y) (hy1 : y ≤ 1) {f : ℝ → ℝ} (hc : ∀ x, 0 < x → ContinuousAt f x) :
    IntervalIntegrable (fun x => (1 - x) * (x - y ^ 2) ^ 2 * f x) MeasureTheory.volume (y ^ 2) 1 := by
  have h0 : 0 < y ^ 2 := by positivity
  have h1 : y ^ 2 ≤ 1 := by nlinarith
  apply ContinuousOn.intervalIntegrable
  intro x hx
  rw [Set.uIcc_of_le h1] at hx
  have := hc x (lt_of_lt_of_le h0 hx.1)
  apply ContinuousAt.continuousWithinAt
  fun_prop

theorem spectrum_lin {y : ℝ} (hy : 0 < y) (hy1 : y ≤ 1) {f g : ℝ → ℝ} (hf : ∀ x, 0 < x → ContinuousAt f x)
    (hg : ∀ x, 0 < x → ContinuousAt g x) (a b : ℝ) :
    spectrum y (fun x => a * f x + b * g x) = a * spectrum y f + b * spectrum y g := by
  unfold spectrum
  rw [← intervalIntegral.integral_const_mul, ← intervalIntegral.integral_const_mul,
    ← intervalIntegral.integral_add ((spectrum_int hy hy1 hf).const_mul a) ((spectrum_int hy hy1 hg).const_mul b)]
  congr 1; funext x; ring

theorem spectrum_congr {y : ℝ} (hy : 0 < y) (hy1 : y ≤ 1) {f g : ℝ → ℝ} (h : ∀ x, 0 < x → f x = g x) : spectrum y f = spectrum y g := by
  have h0 : 0 < y ^ 2 := by positivity
  have h1 : y ^ 2 ≤ 1 := by nlinarith
  unfold spectrum
  apply intervalIntegral.integral_congr
  intro x hx
  rw [Set.uIcc_of_le h1] at hx
  simp only [h x (lt_of_lt_of_le h0 hx.1)]

/-- Cross terms by polarisation. -/
theorem polar {y : ℝ} (hy : 0 < y) (hy1 : y ≤ 1) (p q r p' q' r' : ℝ) :
    2 * spectrum y (fun x => (p + q * (1 - x) + r / x) * (p' + q' * (1 - x) + r' / x) / x) =
      spectrum y (fun x => ((p + p') + (q + q') * (1 - x) + (r + r') / x) ^ 2 / x)
      - spectrum y (fun x => (p + q * (1 - x) + r / x) ^ 2 / x) - spectrum y (fun x => (p' + q' * (1 - x) + r' / x) ^ 2 / x) := by
  have c1 : ∀ p q r p' q' r' : ℝ, ∀ x, 0 < x → ContinuousAt (fun x => (p + q * (1 - x) + r / x) * (p' + q' * (1 - x) + r' / x) / x) x := by
    intro p q r p' q' r' x hx
    have hx0 : x ≠ 0 := hx.ne'
    fun_prop (disch := assumption)
  have c2 : ∀ p q r : ℝ, ∀ x, 0 < x → ContinuousAt (fun x => (p + q * (1 - x) + r / x) ^ 2 / x) x := by
    intro p q r x hx
    have hx0 : x ≠ 0 := hx.ne'
    fun_prop (disch := assumption)
  have e : spectrum y (fun x => ((p + p') + (q + q') * (1 - x) + (r + r') / x) ^ 2 / x) =
      spectrum y (fun x => 1 * (1 * ((p + q * (1 - x) + r / x) ^ 2 / x) + 1 * ((p' + q' * (1 - x) + r' / x) ^ 2 / x))
        + 2 * ((p + q * (1 - x) + r / x) * (p' + q' * (1 - x) + r' / x) / x)) := by
    apply spectrum_congr hy hy1
    intro x hx
    have hx0 : x ≠ 0 := hx.ne'
    field_simp
    ring
  have c3 : ∀ x, 0 < x → ContinuousAt (fun x => 1 * ((p + q * (1 - x) + r / x) ^ 2 / x) + 1 * ((p' + q' * (1 - x) + r' / x) ^ 2 / x)) x :=
    fun x hx => ((c2 p q r x hx).const_mul 1).add ((c2 p' q' r' x hx).const_mul 1)
  rw [e, spectrum_lin hy hy1 c3 (c1 p q r p' q' r') 1 2, spectrum_lin hy hy1 (c2 p q r) (c2 p' q' r') 1 1]
  ring

/-- The inequality `4 (1 - μ³) + 3 μ (μ² + 3) log μ ≥ 0` on `(0, 1]`. -/
theorem log_bound {m : ℝ} (h0 : 0 < m) (h1 : m ≤ 1) : 0 ≤ 4 * (1 - m ^ 3) + 3 * m * (m ^ 2 + 3) * Real.log m := by
  have hd : ∀ x, 0 < x → HasDerivAt (fun x => Real.log x + 4 / 3 * ((1 - x ^ 3) / (3 * x + x ^ 3)))
      ((x - 1) ^ 3 * (x ^ 2 + 3 * x + 4) / (x ^ 2 * (3 + x ^ 2) ^ 2)) x := by
    intro x hx
    have hx0 : x ≠ 0 := hx.ne'
    have hden : 3 * x + x ^ 3 ≠ 0 := by positivity
    have h := (Real.hasDerivAt_log hx0).add ((((hasDerivAt_pow 3 x).const_sub 1).div (((hasDerivAt_id x).const_mul 3).add (hasDerivAt_pow 3 x)) hden).const_mul (4 / 3))
    refine HasDerivAt.congr_deriv h ?_
    simp only [id, Pi.add_apply]
    push_cast
    have : 3 + x ^ 2 ≠ 0 := by positivity
    field_simp
    ring
  have hanti : AntitoneOn (fun x => Real.log x + 4 / 3 * ((1 - x ^ 3) / (3 * x + x ^ 3))) (Set.Icc m 1) := by
    apply antitoneOn_of_deriv_nonpos (convex_Icc m 1)
    · intro x hx; exact (hd x (lt_of_lt_of_le h0 hx.1)).continuousAt.continuousWithinAt
    · intro x hx
      rw [interior_Icc] at hx
      exact (hd x (lt_trans h0 hx.1)).differentiableAt.differentiableWithinAt
    · intro x hx
      rw [interior_Icc] at hx
      have hx0 := lt_trans h0 hx.1
      rw [(hd x hx0).deriv]
      have h3 : (x - 1) ^ 3 ≤ 0 := by
        have : x - 1 ≤ 0 := by linarith [hx.2]
        nlinarith [sq_nonneg (x - 1)]
      apply div_nonpos_of_nonpos_of_nonneg
      · exact mul_nonpos_of_nonpos_of_nonneg h3 (by positivity)
      · positivity
  have h := hanti ⟨le_refl m, h1⟩ ⟨h1, le_refl 1⟩ h1
  simp only [Real.log_one] at h
  have hden : 0 < 3 * m + m ^ 3 := by positivity
  have h' : 0 ≤ Real.log m + 4 / 3 * ((1 - m ^ 3) / (3 * m + m ^ 3)) := by
    refine le_trans ?_ h; norm_num
  have := mul_nonneg h' (by positivity : 0 ≤ 3 * (3 * m + m ^ 3))
  have e : (Real.log m + 4 / 3 * ((1 - m ^ 3) / (3 * m + m ^ 3))) * (3 * (3 * m + m ^ 3)) = 4 * (1 - m ^ 3) + 3 * m * (m ^ 2 + 3) * Real.log m := by
    field_simp
    ring
  rwa [e] at this

/-- The quadratic form of the rate with `1/12` added to `Fhat_P` is non-negative. -/
theorem quad_nonneg {y : ℝ} (hy : 0 ≤ y) (hy1 : y ≤ 1) (p q a : ℝ) :
    0 ≤ kFS y * p ^ 2 + kFtS y * q ^ 2 + kFA y * a ^ 2 + (kFhP y + 1 / 12) * (p * q) + kFPA y * (p * a) + kFtPA y * (q * a) := by
  rcases hy.eq_or_lt with h0 | h0
  · subst h0
    unfold kFS kFtS kFhP kFPA kFtPA kFA
    norm_num
    nlinarith [sq_nonneg (2 * p + q), sq_nonneg a, sq_nonneg q, sq_nonneg p]
  · have hy0 : y ≠ 0 := h0.ne'
    have hm : y ^ 2 ≠ 0 := pow_ne_zero 2 hy0
    have hn := spectrum_nonneg h0 hy1 (fun x => (p + q * (1 - x) + (y * a) / x) ^ 2 / x) (fun x hx _ => by positivity)
    rw [quad_int h0 hy1] at hn
    have hl := log_bound (m := y ^ 2) (by positivity) (by nlinarith)
    have e : kFA y = (-(1 + 2 * y ^ 2) * Real.log (y ^ 2) - 5 / 2 + 2 * y ^ 2 + (y ^ 2) ^ 2 / 2) * y ^ 2 / 2
        + (4 * (1 - (y ^ 2) ^ 3) + 3 * y ^ 2 * ((y ^ 2) ^ 2 + 3) * Real.log (y ^ 2)) / 18 := by
      unfold kFA; simp only [hm, if_false]; ring
    rw [e]
    have e2 : 2 * (kFPA y / y) * (p * (y * a)) = 2 * kFPA y * (p * a) := by field_simp
    have e3 : 2 * (kFtPA y / y) * (q * (y * a)) = 2 * kFtPA y * (q * a) := by field_simp
    rw [e2, e3] at hn
    have := mul_nonneg hl (sq_nonneg a)
    nlinarith only [hn, this]

/-! ## Specification -/

/-- The couplings for the channel `(h, l)` with the lepton named first in the vector coefficients first. (Specification.) -/
noncomputable def gSpec (d : Inp) (V qq sec h l : String) (c : CeFF) : GWC :=
  let N : ℂ := 2 * d.par ("m_" ++ V) * d.par ("f_" ++ V)
  let M : ℂ := 4 * d.par ("m_" ++ V) ^ 2 * d.par ("f_" ++ V)
  let C := d.wc sec
  let RR := fun a b => C ("CSRR_" ++ a ++ b ++ qq)
  let RL := fun a b => C ("CSRL_" ++ a ++ b ++ qq)
  let k := starRingEnd ℂ
  { SR := N * (RR h l + RL h l)
    SL := N * k (RR l h + RL l h)
    PR := N * (RR h l - RL h l)
    PL := -(N * k (RR l h - RL l h))
    AR := -(N * (C ("CVRR_" ++ h ++ l ++ qq) - C ("CVLR_" ++ qq ++ h ++ l)))
    AL := N * (C ("CVLL_" ++ h ++ l ++ qq) - C ("CVLR_" ++ h ++ l ++ qq))
    StR := M * c.ij
    StL := M * k c.ji
    PtR := M * c.tij
    PtL := M * k c.tji }

/-- The arguments with the flavour indices exchanged. (Specification.) -/
def CeFF.swap (c : CeFF) : CeFF := ⟨c.ji, c.ij, c.tji, c.tij⟩

/-- The couplings of the conjugate channel. (Specification.) -/
noncomputable def conjG (g : GWC) : GWC :=
  let k := starRingEnd ℂ
  ⟨k g.SL, k g.SR, -k g.PL, -k g.PR, k g.AR, k g.AL, k g.StL, k g.StR, k g.PtL, k g.PtR⟩

/-- Interference of `P` and `P̃`. (Specification.) -/
noncomputable def imPP (g : GWC) : ℝ := (g.PL * (starRingEnd ℂ) g.PtL + g.PR * (starRingEnd ℂ) g.PtR).im

/-- Common prefactor. (Specification.) -/
noncomputable def pref (d : Inp) (V : String) (Q : ℝ) : ℝ := d.aem V * Q ^ 2 * d.par ("tau_" ++ V) * d.par ("m_" ++ V) / (192 * Real.pi ^ 2)

/-! ## Lemmas on the rate -/

theorem gwc_of (d : Inp) (V : String) (hV : V ∈ mesonsV) (sec h l : String) (hc : (sec, h, l) ∈ lfvChannels) (c : CeFF) :
    getWClfv d V h l c = .ok (gSpec d V (quarksOf V) sec h l c) ∧
    getWClfv d V l h c = .ok (conjG (gSpec d V (quarksOf V) sec h l c.swap)) := by
  simp only [lfvChannels, List.mem_cons, List.not_mem_nil, or_false, Prod.mk.injEq] at hc
  have e1 : wcSector "mu" "e" = .ok "mue" := by decide
  have e2 : wcSector "e" "mu" = .ok "mue" := by decide
  have e3 : wcSector "tau" "e" = .ok "taue" := by decide
  have e4 : wcSector "e" "tau" = .ok "taue" := by decide
  have e5 : wcSector "tau" "mu" = .ok "mutau" := by decide
  have e6 : wcSector "mu" "tau" = .ok "mutau" := by decide
  have c2 : (starRingEnd ℂ) 2 = 2 := map_ofNat _ 2
  have c4 : (starRingEnd ℂ) 4 = 4 := map_ofNat _ 4
  have b1 : bilinear "mue" = "mue" := by decide
  have b2 : bilinear "taue" = "taue" := by decide
  have b3 : bilinear "mutau" = "taumu" := by decide
  have n1 : (("mue" : String) = "e" ++ "mu") = False := eq_false (by decide)
  have n2 : (("mue" : String) = "mu" ++ "e") = True := eq_true (by decide)
  have n3 : (("taue" : String) = "e" ++ "tau") = False := eq_false (by decide)
  have n4 : (("taue" : String) = "tau" ++ "e") = True := eq_true (by decide)
  have n5 : (("taumu" : String) = "mu" ++ "tau") = False := eq_false (by decide)
  have n6 : (("taumu" : String) = "tau" ++ "mu") = True := eq_true (by decide)
  have a1 : ∀ s : String, "mu" ++ ("e" ++ s) = "mue" ++ s := fun s => by rw [← String.append_assoc]; rfl
  have a2 : ∀ s : String, "tau" ++ ("e" ++ s) = "taue" ++ s := fun s => by rw [← String.append_assoc]; rfl
  have a3 : ∀ s : String, "tau" ++ ("mu" ++ s) = "taumu" ++ s := fun s => by rw [← String.append_assoc]; rfl
  have a4 : ("mu" ++ "e" : String) = "mue" := by decide
  have a5 : ("tau" ++ "e" : String) = "taue" := by decide
  have a6 : ("tau" ++ "mu" : String) = "taumu" := by decide
  rcases hc with ⟨rfl, rfl, rfl⟩ | ⟨rfl, rfl, rfl⟩ | ⟨rfl, rfl, rfl⟩ <;> refine ⟨?_, ?_⟩ <;> unfold getWClfv <;>
    simp only [e1, e2, e3, e4, e5, e6, b1, b2, b3, mq_ok hV, Bind.bind, Except.bind, pure, Except.pure, conjIf, n1, n2, n3, n4, n5, n6, if_true, if_false] <;>
    show Except.ok _ = Except.ok _ <;> congr 1 <;> unfold gSpec <;> (try unfold conjG) <;> simp only [CeFF.swap] <;> congr 1 <;>
    simp only [String.append_assoc, a1, a2, a3, a4, a5, a6, map_mul, map_sub, map_add, map_neg, map_pow, conj_ofReal, Complex.conj_conj, c2, c4] <;> ring

theorem br_heavy1 (d : Inp) (V : String) (Q : ℝ) (l1 l2 : String) (c : CeFF) (g : GWC) (hg : getWClfv d V l1 l2 c = .ok g)
    (hm : d.par ("m_" ++ V) ≠ 0) (h : d.par ("m_" ++ l2) < d.par ("m_" ++ l1)) :
    vllgBr d V Q l1 l2 c = .ok (pref d V Q * bracket g (d.par ("m_" ++ l1) / d.par ("m_" ++ V))
      (g.AL * (starRingEnd ℂ) g.PL + g.AR * (starRingEnd ℂ) g.PR).re (g.AL * (starRingEnd ℂ) g.PtL + g.AR * (starRingEnd ℂ) g.PtR).im) := by
  unfold vllgBr interf
  rw [hg]
  simp only [Bind.bind, Except.bind, pure, Except.pure, if_neg (not_lt.2 h.le), if_pos h, Mixing.pyDiv_ne hm]
  rfl

theorem br_heavy2 (d : Inp) (V : String) (Q : ℝ) (l1 l2 : String) (c : CeFF) (g : GWC) (hg : getWClfv d V l1 l2 c = .ok g)
    (hm : d.par ("m_" ++ V) ≠ 0) (h : d.par ("m_" ++ l1) < d.par ("m_" ++ l2)) :
    vllgBr d V Q l1 l2 c = .ok (pref d V Q * bracket g (d.par ("m_" ++ l2) / d.par ("m_" ++ V))
      (-(g.AL * (starRingEnd ℂ) g.PR + g.AR * (starRingEnd ℂ) g.PL).re) (-(g.AL * (starRingEnd ℂ) g.PtR + g.AR * (starRingEnd ℂ) g.PtL).im)) := by
  unfold vllgBr interf
  rw [hg]
  simp only [Bind.bind, Except.bind, pure, Except.pure, if_pos h, Mixing.pyDiv_ne hm]
  rfl

theorem hs_eq (y : ℝ) : kFhS y = kFhP y + 1 / 12 := by
  unfold kFhS
  simp only []
  by_cases h : y ^ 2 = 0
  · rw [if_pos h]; unfold kFhP; simp only [h, if_true]; norm_num
  · rw [if_neg h]

theorem bracket1 (g : GWC) {y : ℝ} (hy : 0 ≤ y) (hy1 : y ≤ 1) :
    0 ≤ bracket g y (g.AL * (starRingEnd ℂ) g.PL + g.AR * (starRingEnd ℂ) g.PR).re (g.AL * (starRingEnd ℂ) g.PtL + g.AR * (starRingEnd ℂ) g.PtR).im
      + imPP g / 12 := by
  have k := fun p q a => quad_nonneg hy hy1 p q a
  have h1 := k g.PL.re (-g.PtL.im) g.AL.re
  have h2 := k g.PL.im g.PtL.re g.AL.im
  have h3 := k g.PR.re (-g.PtR.im) g.AR.re
  have h4 := k g.PR.im g.PtR.re g.AR.im
  have h5 := k g.SL.re g.StL.re 0
  have h6 := k g.SL.im g.StL.im 0
  have h7 := k g.SR.re g.StR.re 0
  have h8 := k g.SR.im g.StR.im 0
  unfold bracket imPP
  rw [hs_eq]
  simp only [nsq, add_re, add_im, mul_re, mul_im, conj_re, conj_im]
  nlinarith only [h1, h2, h3, h4, h5, h6, h7, h8]

theorem bracket2 (g : GWC) {y : ℝ} (hy : 0 ≤ y) (hy1 : y ≤ 1) :
    0 ≤ bracket g y (-(g.AL * (starRingEnd ℂ) g.PR + g.AR * (starRingEnd ℂ) g.PL).re) (-(g.AL * (starRingEnd ℂ) g.PtR + g.AR * (starRingEnd ℂ) g.PtL).im)
      + imPP g / 12 := by
  have k := fun p q a => quad_nonneg hy hy1 p q a
  have h1 := k g.PL.re (-g.PtL.im) (-g.AR.re)
  have h2 := k g.PL.im g.PtL.re (-g.AR.im)
  have h3 := k g.PR.re (-g.PtR.im) (-g.AL.re)
  have h4 := k g.PR.im g.PtR.re (-g.AL.im)
  have h5 := k g.SL.re g.StL.re 0
  have h6 := k g.SL.im g.StL.im 0
  have h7 := k g.SR.re g.StR.re 0
  have h8 := k g.SR.im g.StR.im 0
  unfold bracket imPP
  rw [hs_eq]
  simp only [nsq, add_re, add_im, mul_re, mul_im, conj_re, conj_im]
  nlinarith only [h1, h2, h3, h4, h5, h6, h7, h8]

/-! ## Theorems -/

/-- The kinematic functions are the spectra they should be (`x` the squared dilepton mass, `μ = y²` the threshold), six of
the seven; each of these is non-negative and vanishes at `y = 1`, where phase space closes.  The seventh, `Fhat_P`, is the
spectrum of the same interference as `Fhat_S` short of a constant `1/12`, and is `-1/12` at the threshold `y = 1`. -/
theorem C116_kinematics (y : ℝ) (hy : 0 < y) (hy1 : y ≤ 1) :
    kFS y = spectrum y (fun x => 1 / x) / 2 ∧
    kFtS y = spectrum y (fun x => (1 - x) ^ 2 / x) / 2 ∧
    kFhS y = spectrum y (fun x => (1 - x) / x) ∧
    kFPA y = y * spectrum y (fun x => 1 / x ^ 2) ∧
    kFtPA y = y * spectrum y (fun x => (1 - x) / x ^ 2) ∧
    kFA y = spectrum y (fun x => (8 * x + y ^ 2) / (6 * x ^ 2)) ∧
    (∀ k ∈ [kFS, kFtS, kFhS, kFPA, kFtPA, kFA], 0 ≤ k y ∧ k 1 = 0) ∧
    kFhP y = spectrum y (fun x => (1 - x) / x) - 1 / 12 ∧ kFhP 1 = -(1 / 12) := by
  have hy0 : y ≠ 0 := hy.ne'
  have hm : y ^ 2 ≠ 0 := pow_ne_zero 2 hy0
  have a1 : kFS y = spectrum y (fun x => 1 / x) / 2 := by
    have h := quad_int hy hy1 1 0 0
    rw [show spectrum y (fun x => 1 / x) = spectrum y (fun x => (1 + 0 * (1 - x) + 0 / x) ^ 2 / x) from
      spectrum_congr hy hy1 (fun x hx => by ring), h]; ring
  have a2 : kFtS y = spectrum y (fun x => (1 - x) ^ 2 / x) / 2 := by
    have h := quad_int hy hy1 0 1 0
    rw [show spectrum y (fun x => (1 - x) ^ 2 / x) = spectrum y (fun x => (0 + 1 * (1 - x) + 0 / x) ^ 2 / x) from
      spectrum_congr hy hy1 (fun x hx => by ring), h]; ring
  have a3 : kFhP y + 1 / 12 = spectrum y (fun x => (1 - x) / x) := by
    have h := polar hy hy1 1 0 0 0 1 0
    rw [quad_int hy hy1, quad_int hy hy1, quad_int hy hy1] at h
    have e : spectrum y (fun x => (1 - x) / x) = spectrum y (fun x => (1 + 0 * (1 - x) + 0 / x) * (0 + 1 * (1 - x) + 0 / x) / x) :=
      spectrum_congr hy hy1 (fun x hx => by ring)
    rw [← e] at h
    linarith
  have a4 : kFPA y = y * spectrum y (fun x => 1 / x ^ 2) := by
    have h := polar hy hy1 1 0 0 0 0 1
    rw [quad_int hy hy1, quad_int hy hy1, quad_int hy hy1] at h
    have e : spectrum y (fun x => 1 / x ^ 2) = spectrum y (fun x => (1 + 0 * (1 - x) + 0 / x) * (0 + 0 * (1 - x) + 1 / x) / x) :=
      spectrum_congr hy hy1 (fun x hx => by have := hx.ne'; field_simp; ring)
    rw [← e] at h
    have h2 : spectrum y (fun x => 1 / x ^ 2) = kFPA y / y := by linarith
    rw [h2]; field_simp
  have a5 : kFtPA y = y * spectrum y (fun x => (1 - x) / x ^ 2) := by
    have h := polar hy hy1 0 1 0 0 0 1
    rw [quad_int hy hy1, quad_int hy hy1, quad_int hy hy1] at h
    have e : spectrum y (fun x => (1 - x) / x ^ 2) = spectrum y (fun x => (0 + 1 * (1 - x) + 0 / x) * (0 + 0 * (1 - x) + 1 / x) / x) :=
      spectrum_congr hy hy1 (fun x hx => by have := hx.ne'; field_simp; ring)
    rw [← e] at h
    have h2 : spectrum y (fun x => (1 - x) / x ^ 2) = kFtPA y / y := by linarith
    rw [h2]; field_simp
  have a6 : kFA y = spectrum y (fun x => (8 * x + y ^ 2) / (6 * x ^ 2)) := by
    have c1 : ∀ x : ℝ, 0 < x → ContinuousAt (fun x : ℝ => 1 / x) x := fun x hx => by have := hx.ne'; fun_prop (disch := assumption)
    have c2 : ∀ x : ℝ, 0 < x → ContinuousAt (fun x : ℝ => 1 / x ^ 2) x := fun x hx => by
      have := pow_ne_zero 2 hx.ne'; fun_prop (disch := assumption)
    have e : spectrum y (fun x => (8 * x + y ^ 2) / (6 * x ^ 2)) = spectrum y (fun x => (4 / 3) * (1 / x) + (y ^ 2 / 6) * (1 / x ^ 2)) :=
      spectrum_congr hy hy1 (fun x hx => by have := hx.ne'; field_simp; ring)
    rw [e, spectrum_lin hy hy1 c1 c2]
    have b1 : spectrum y (fun x => 1 / x) = 2 * kFS y := by linarith
    have b2 : spectrum y (fun x => 1 / x ^ 2) = kFPA y / y := by rw [a4]; field_simp
    rw [b1, b2]
    unfold kFA kFS kFPA
    simp only [hm, hy0, if_false]
    field_simp
    ring
  refine ⟨a1, a2, by rw [hs_eq]; exact a3, a4, a5, a6, ?_, by linarith, ?_⟩
  · intro k hk
    simp only [List.mem_cons, List.not_mem_nil, or_false] at hk
    rcases hk with rfl | rfl | rfl | rfl | rfl | rfl
    · refine ⟨?_, by unfold kFS; norm_num⟩
      rw [a1]; exact div_nonneg (spectrum_nonneg hy hy1 _ fun x hx h1 => by positivity) (by norm_num)
    · refine ⟨?_, by unfold kFtS; norm_num⟩
      rw [a2]; exact div_nonneg (spectrum_nonneg hy hy1 _ fun x hx h1 => by positivity) (by norm_num)
    · refine ⟨?_, by unfold kFhS kFhP; norm_num⟩
      rw [hs_eq, a3]; exact spectrum_nonneg hy hy1 _ fun x hx h1 => by have := sub_nonneg.2 h1; positivity
    · refine ⟨?_, by unfold kFPA; norm_num⟩
      rw [a4]; exact mul_nonneg hy.le (spectrum_nonneg hy hy1 _ fun x hx h1 => by positivity)
    · refine ⟨?_, by unfold kFtPA; norm_num⟩
      rw [a5]; exact mul_nonneg hy.le (spectrum_nonneg hy hy1 _ fun x hx h1 => by have := sub_nonneg.2 h1; positivity)
    · refine ⟨?_, by unfold kFA; norm_num⟩
      rw [a6]; exact spectrum_nonneg hy hy1 _ fun x hx h1 => by positivity
  · unfold kFhP; norm_num

theorem pairs_chan {l1 l2 : String} (h : (l1, l2) ∈ pairs6) : ∃ sec, (sec, l1, l2) ∈ lfvChannels ∨ (sec, l2, l1) ∈ lfvChannels := by
  simp only [pairs6, List.mem_cons, List.not_mem_nil, or_false, Prod.mk.injEq] at h
  rcases h with ⟨rfl, rfl⟩ | ⟨rfl, rfl⟩ | ⟨rfl, rfl⟩ | ⟨rfl, rfl⟩ | ⟨rfl, rfl⟩ | ⟨rfl, rfl⟩
  · exact ⟨"mue", by decide⟩
  · exact ⟨"mue", by decide⟩
  · exact ⟨"taue", by decide⟩
  · exact ⟨"taue", by decide⟩
  · exact ⟨"mutau", by decide⟩
  · exact ⟨"mutau", by decide⟩

theorem tilde_zero (d : Inp) (V : String) (l1 l2 : String) (c : CeFF) (g : GWC) (h : getWClfv d V l1 l2 c = .ok g)
    (h1 : c.tij = 0) (h2 : c.tji = 0) : g.PtL = 0 ∧ g.PtR = 0 := by
  unfold getWClfv at h
  obtain ⟨a, -, h⟩ := Kll.fbind h
  obtain ⟨b, -, h⟩ := Kll.fbind h
  injection h with h
  rw [← h]
  simp [h1, h2]

/-- Exchanging the two leptons together with the flavour indices of the user arguments does not change the branching
ratio, whatever the (complex) coefficients; hence the combined prediction — which hands the same arguments to both
orderings — is the sum over the two index assignments, and twice the single-charge value for the default arguments. -/
theorem C116_charge (d : Inp) (V : String) (Q : ℝ) (hV : V ∈ mesonsV) (l1 l2 : String) (hl : (l1, l2) ∈ pairs6) (c : CeFF)
    (hm : d.par ("m_" ++ V) ≠ 0) (hne : d.par ("m_" ++ l1) ≠ d.par ("m_" ++ l2)) :
    (∃ x, vllgBr d V Q l1 l2 c = .ok x ∧ vllgBr d V Q l2 l1 c.swap = .ok x) ∧
    (∃ x y, vllgBr d V Q l1 l2 c = .ok x ∧ vllgBr d V Q l1 l2 c.swap = .ok y ∧ vllgBrComb d V Q l1 l2 c = .ok (x + y)) := by
  have main : ∀ sec h l, (sec, h, l) ∈ lfvChannels → d.par ("m_" ++ h) ≠ d.par ("m_" ++ l) → ∀ c : CeFF,
      ∃ x, vllgBr d V Q h l c = .ok x ∧ vllgBr d V Q l h c.swap = .ok x := by
    intro sec h l hc hne c
    obtain ⟨g1, -⟩ := gwc_of d V hV sec h l hc c
    obtain ⟨-, g2⟩ := gwc_of d V hV sec h l hc c.swap
    rw [show c.swap.swap = c from rfl] at g2
    obtain ⟨g, hg⟩ : ∃ g, gSpec d V (quarksOf V) sec h l c = g := ⟨_, rfl⟩
    rw [hg] at g1 g2
    rcases lt_or_gt_of_ne hne with hlt | hlt
    · refine ⟨_, br_heavy2 d V Q h l c g g1 hm hlt, ?_⟩
      rw [br_heavy1 d V Q l h c.swap _ g2 hm hlt]
      congr 2
      unfold bracket conjG
      simp only [nsq, add_re, add_im, mul_re, mul_im, conj_re, conj_im, neg_re, neg_im]
      ring
    · refine ⟨_, br_heavy1 d V Q h l c g g1 hm hlt, ?_⟩
      rw [br_heavy2 d V Q l h c.swap _ g2 hm hlt]
      congr 2
      unfold bracket conjG
      simp only [nsq, add_re, add_im, mul_re, mul_im, conj_re, conj_im, neg_re, neg_im]
      ring
  have both : ∀ c : CeFF, ∃ x, vllgBr d V Q l1 l2 c = .ok x ∧ vllgBr d V Q l2 l1 c.swap = .ok x := by
    intro c
    obtain ⟨sec, h | h⟩ := pairs_chan hl
    · exact main sec l1 l2 h hne c
    · obtain ⟨x, h1, h2⟩ := main sec l2 l1 h (Ne.symm hne) c.swap
      exact ⟨x, h2, h1⟩
  refine ⟨both c, ?_⟩
  obtain ⟨x, hx, -⟩ := both c
  obtain ⟨y, hy, hy'⟩ := both c.swap
  rw [show c.swap.swap = c from rfl] at hy'
  refine ⟨x, y, hx, hy, ?_⟩
  unfold vllgBrComb
  rw [hx, hy']; rfl

/-- At every physical point the branching ratio plus `1/12` of the `P`–`P̃` interference is non-negative (it is the rate with
the spectrum of the interference complete); so the branching ratio itself is non-negative whenever that interference is
not positive, in particular whenever the two `CeFFtilde` arguments are left at their default. -/
theorem C116_nonneg (d : Inp) (V : String) (Q : ℝ) (hV : V ∈ mesonsV) (l1 l2 : String) (hl : (l1, l2) ∈ pairs6) (c : CeFF)
    (hm : 0 < d.par ("m_" ++ V)) (hne : d.par ("m_" ++ l1) ≠ d.par ("m_" ++ l2))
    (h1 : 0 ≤ d.par ("m_" ++ l1)) (h2 : 0 ≤ d.par ("m_" ++ l2)) (h1' : d.par ("m_" ++ l1) ≤ d.par ("m_" ++ V))
    (h2' : d.par ("m_" ++ l2) ≤ d.par ("m_" ++ V)) (hτ : 0 ≤ d.par ("tau_" ++ V)) (ha : 0 ≤ d.aem V) :
    ∃ g x, getWClfv d V l1 l2 c = .ok g ∧ vllgBr d V Q l1 l2 c = .ok x ∧
      0 ≤ x + pref d V Q * (imPP g / 12) ∧ (imPP g ≤ 0 → 0 ≤ x) ∧ (c.tij = 0 → c.tji = 0 → 0 ≤ x) := by
  have hp : 0 ≤ pref d V Q := by
    unfold pref
    have := Real.pi_pos
    positivity
  obtain ⟨g, hg⟩ : ∃ g, getWClfv d V l1 l2 c = .ok g := by
    obtain ⟨sec, h | h⟩ := pairs_chan hl
    · exact ⟨_, (gwc_of d V hV sec l1 l2 h c).1⟩
    · exact ⟨_, (gwc_of d V hV sec l2 l1 h c).2⟩
  have fin : ∀ b : ℝ, 0 ≤ b + imPP g / 12 → 0 ≤ pref d V Q * b + pref d V Q * (imPP g / 12) ∧ (imPP g ≤ 0 → 0 ≤ pref d V Q * b) ∧
      (c.tij = 0 → c.tji = 0 → 0 ≤ pref d V Q * b) := by
    intro b hb
    have h0 : imPP g ≤ 0 → 0 ≤ pref d V Q * b := fun h => mul_nonneg hp (by linarith)
    refine ⟨by rw [← mul_add]; exact mul_nonneg hp hb, h0, fun t1 t2 => h0 ?_⟩
    obtain ⟨z1, z2⟩ := tilde_zero d V l1 l2 c g hg t1 t2
    unfold imPP; rw [z1, z2]; simp
  rcases lt_or_gt_of_ne hne with hlt | hlt
  · refine ⟨g, _, hg, br_heavy2 d V Q l1 l2 c g hg hm.ne' hlt, fin _ (bracket2 g (div_nonneg h2 hm.le) ((div_le_one hm).2 h2'))⟩
  · refine ⟨g, _, hg, br_heavy1 d V Q l1 l2 c g hg hm.ne' hlt, fin _ (bracket1 g (div_nonneg h1 hm.le) ((div_le_one hm).2 h1'))⟩

/-- A point with `m_{J/ψ} = 2`, `m_τ = 1`, `m_e = 0`, one scalar coefficient. (Specification.) -/
noncomputable def exG : Inp :=
  { par := fun k => if k = "m_J/psi" then 2 else if k = "m_e" then 0 else 1
    wc := fun _ k => if k = "CSRL_etaucc" then 1 else 0
    aem := fun _ => 1 }

/-- Finding.  Because `Fhat_P` lacks `1/12`, the predicted branching ratio is negative at points inside the physical
region: here `m_τ = m_V/2`. -/
theorem C116_negative_finding : ∃ (d : Inp) (c : CeFF) (x : ℝ), 0 < d.aem "J/psi" ∧ 0 < d.par ("tau_" ++ "J/psi") ∧
    d.par ("m_" ++ "tau") = d.par ("m_" ++ "J/psi") / 2 ∧ 0 < d.par ("m_" ++ "J/psi") ∧ d.par ("m_" ++ "e") = 0 ∧
    vllgBr d "J/psi" (charge "J/psi") "tau" "e" c = .ok x ∧ x < 0 := by
  have k1 : exG.par ("m_" ++ "J/psi") = 2 := by simp [exG]
  have k2 : exG.par ("m_" ++ "tau") = 1 := by simp [exG]
  have k3 : exG.par ("m_" ++ "e") = 0 := by simp [exG]
  have k4 : exG.par ("tau_" ++ "J/psi") = 1 := by simp [exG]
  have k5 : exG.par ("f_" ++ "J/psi") = 1 := by simp [exG]
  have k6 : exG.aem "J/psi" = 1 := rfl
  have hg := (gwc_of exG "J/psi" (by decide) "taue" "tau" "e" (by decide) ⟨0, 0, 0, I⟩).1
  have hw : gSpec exG "J/psi" (quarksOf "J/psi") "taue" "tau" "e" ⟨0, 0, 0, I⟩ = ⟨0, 4, 0, 4, 0, 0, 0, 0, 0, -(16 * I)⟩ := by
    have hq : quarksOf "J/psi" = "cc" := by decide
    unfold gSpec
    rw [hq, k1, k5]
    have q1 : exG.wc "taue" ("CSRR_" ++ "tau" ++ "e" ++ "cc") = 0 := by simp [exG]
    have q2 : exG.wc "taue" ("CSRL_" ++ "tau" ++ "e" ++ "cc") = 0 := by simp [exG]
    have q3 : exG.wc "taue" ("CSRR_" ++ "e" ++ "tau" ++ "cc") = 0 := by simp [exG]
    have q4 : exG.wc "taue" ("CSRL_" ++ "e" ++ "tau" ++ "cc") = 1 := by simp [exG]
    have q5 : exG.wc "taue" ("CVRR_" ++ "tau" ++ "e" ++ "cc") = 0 := by simp [exG]
    have q6 : exG.wc "taue" ("CVLR_" ++ "cc" ++ "tau" ++ "e") = 0 := by simp [exG]
    have q7 : exG.wc "taue" ("CVLL_" ++ "tau" ++ "e" ++ "cc") = 0 := by simp [exG]
    have q8 : exG.wc "taue" ("CVLR_" ++ "tau" ++ "e" ++ "cc") = 0 := by simp [exG]
    simp only [q1, q2, q3, q4, q5, q6, q7, q8]
    congr 1 <;> simp <;> norm_num
  rw [hw] at hg
  refine ⟨exG, ⟨0, 0, 0, I⟩, _, by rw [k6]; norm_num, by rw [k4]; norm_num, by rw [k1, k2]; norm_num, by rw [k1]; norm_num, k3,
    br_heavy1 exG "J/psi" _ "tau" "e" _ _ hg (by rw [k1]; norm_num) (by rw [k2, k3]; norm_num), ?_⟩
  have hp : 0 < pref exG "J/psi" (charge "J/psi") := by
    unfold pref charge
    rw [k1, k4, k6, if_pos rfl]
    have := Real.pi_pos
    positivity
  refine mul_neg_of_pos_of_neg hp ?_
  rw [k1, k2]
  have hl : Real.log (1 / 4) = -(2 * Real.log 2) := by
    rw [show (1 / 4 : ℝ) = (2 ^ 2)⁻¹ by norm_num, Real.log_inv, Real.log_pow]; push_cast; ring
  have h2 := Real.log_two_gt_d9
  have h2' := Real.log_two_lt_d9
  have v1 : kFS (1 / 2) < 1 / 40 := by
    unfold kFS; simp only []; rw [if_neg (by norm_num), show ((1 / 2 : ℝ)) ^ 2 = 1 / 4 by norm_num, hl]; linarith
  have v2 : kFtS (1 / 2) < 1 / 300 := by
    unfold kFtS; simp only []; rw [if_neg (by norm_num), show ((1 / 2 : ℝ)) ^ 2 = 1 / 4 by norm_num, hl]; linarith
  have v3 : kFhP (1 / 2) < -(6 / 100) := by
    unfold kFhP; simp only []; rw [if_neg (by norm_num), show ((1 / 2 : ℝ)) ^ 2 = 1 / 4 by norm_num, hl]; linarith
  unfold bracket
  simp only [nsq, add_re, add_im, mul_re, mul_im, conj_re, conj_im, neg_re, neg_im, zero_re, zero_im, re_ofNat, im_ofNat, I_re, I_im]
  norm_num
  linarith

/-- Finding.  At the kinematic limit `m_ℓ = m_V` of the heavier lepton, where no phase space is left, the prediction is
`-1/12` of the `P`–`P̃` interference instead of zero. -/
theorem C116_threshold_finding (d : Inp) (V : String) (Q : ℝ) (l1 l2 : String) (c : CeFF) (g : GWC)
    (hg : getWClfv d V l1 l2 c = .ok g) (hm : 0 < d.par ("m_" ++ V)) (h1 : d.par ("m_" ++ l1) = d.par ("m_" ++ V))
    (h2 : d.par ("m_" ++ l2) < d.par ("m_" ++ V)) :
    vllgBr d V Q l1 l2 c = .ok (-(pref d V Q * (imPP g / 12))) := by
  rw [br_heavy1 d V Q l1 l2 c g hg hm.ne' (by rw [h1]; exact h2), h1, div_self hm.ne']
  congr 1
  have k := (C116_kinematics 1 one_pos le_rfl).2.2.2.2.2.2
  have k0 := fun f hf => (k.1 f hf).2
  unfold bracket
  rw [k0 kFA (by simp), k0 kFS (by simp), k0 kFPA (by simp), k0 kFtS (by simp), k0 kFhS (by simp), k0 kFtPA (by simp), k.2.2]
  unfold imPP
  ring

/-- Leptons of equal mass are not handled: whatever the couplings, no value is returned (a message is printed and the
computation fails on an unbound name). -/
theorem C116_equal_masses (d : Inp) (V : String) (Q : ℝ) (hV : V ∈ mesonsV) (l1 l2 : String) (hl : (l1, l2) ∈ pairs6) (c : CeFF)
    (h : d.par ("m_" ++ l1) = d.par ("m_" ++ l2)) : vllgBr d V Q l1 l2 c = .error .unboundLocalError := by
  obtain ⟨g, hg⟩ : ∃ g, getWClfv d V l1 l2 c = .ok g := by
    obtain ⟨sec, h | h⟩ := pairs_chan hl
    · exact ⟨_, (gwc_of d V hV sec l1 l2 h c).1⟩
    · exact ⟨_, (gwc_of d V hV sec l2 l1 h c).2⟩
  unfold vllgBr interf
  rw [hg]
  simp only [Bind.bind, Except.bind, h, lt_irrefl, if_false]

/-- The photon mode reads neither tensor nor dipole coefficients, nor any coefficient of another sector. -/
theorem C116_reads (d d' : Inp) (V : String) (Q : ℝ) (hV : V ∈ mesonsV) (sec h l : String) (hc : (sec, h, l) ∈ lfvChannels) (c : CeFF)
    (hp : d.par = d'.par) (ha : d.aem = d'.aem)
    (hw : ∀ C ∈ ["CSRR_", "CSRL_", "CVRR_", "CVLL_", "CVLR_"], ∀ k, d.wc sec (C ++ k) = d'.wc sec (C ++ k)) :
    vllgBr d V Q h l c = vllgBr d' V Q h l c := by
  have e : gSpec d V (quarksOf V) sec h l c = gSpec d' V (quarksOf V) sec h l c := by
    unfold gSpec
    simp only [String.append_assoc, hp, hw "CSRR_" (by decide), hw "CSRL_" (by decide), hw "CVRR_" (by decide), hw "CVLL_" (by decide), hw "CVLR_" (by decide)]
  unfold vllgBr
  rw [(gwc_of d V hV sec h l hc c).1, (gwc_of d' V hV sec h l hc c).1, e, hp, ha]

/-- The registry: for every meson and every pair of different leptons one branching ratio and one ratio, in both orders
singly and combined, under distinct names, bound to the functions of that meson and those leptons. -/
theorem C116_registry : registryG.length = 120 ∧ (registryG.map Reg.name).Nodup ∧
    (∀ r ∈ registryG, r.M ∈ mesonsV ∧ (r.l1, r.l2) ∈ pairs6) ∧
    ∀ V ∈ mesonsV, ∀ p ∈ pairs6,
      (⟨"BR(" ++ V ++ "->" ++ (p.1 ++ p.2) ++ "gamma)", .br, V, p.1, p.2⟩ : Reg) ∈ registryG ∧
      (⟨"R(" ++ V ++ "->" ++ (p.1 ++ p.2) ++ "gamma)", .ratio, V, p.1, p.2⟩ : Reg) ∈ registryG ∧
      ∃ q ∈ [p, (p.2, p.1)],
        (⟨"BR(" ++ V ++ "->" ++ (p.1 ++ p.2 ++ "," ++ p.2 ++ p.1) ++ "gamma)", .brComb, V, q.1, q.2⟩ : Reg) ∈ registryG ∧
        (⟨"R(" ++ V ++ "->" ++ (p.1 ++ p.2 ++ "," ++ p.2 ++ p.1) ++ "gamma)", .ratioComb, V, q.1, q.2⟩ : Reg) ∈ registryG := by
  decide +kernel

/-- The values behind the four kinds of registered names: the combined modes sum both orderings, the ratios divide by the
branching ratio of `e⁺e⁻` (and fail iff it is zero). -/
theorem C116_predictions (d : Inp) (M l1 l2 n : String) (c : CeFF) (x y xe : ℝ) (hx : vllgBr d M (charge M) l1 l2 c = .ok x)
    (hy : vllgBr d M (charge M) l2 l1 c = .ok y) (he : vllBr d M (charge M) "e" "e" = .ok xe) :
    predictG d ⟨n, .br, M, l1, l2⟩ c = .ok x ∧ predictG d ⟨n, .brComb, M, l1, l2⟩ c = .ok (x + y) ∧
    predictG d ⟨n, .ratio, M, l1, l2⟩ c = (if xe = 0 then .error .zeroDivisionError else .ok (x / xe)) ∧
    predictG d ⟨n, .ratioComb, M, l1, l2⟩ c = (if xe = 0 then .error .zeroDivisionError else .ok ((x + y) / xe)) := by
  refine ⟨hx, ?_, ?_, ?_⟩
  · simp only [predictG, vllgBrComb, hx, hy, Bind.bind, Except.bind, pure, Except.pure]
  · simp only [predictG, vllgRatio, hx, hy, he, Bind.bind, Except.bind, pure, Except.pure, pyDiv]
  · simp only [predictG, vllgRatioComb, hx, hy, he, Bind.bind, Except.bind, pure, Except.pure, pyDiv]

/-- The hypotheses of the positivity statement are met by the example point, for arbitrary untilded arguments. -/
example (a b : ℂ) : ∃ x, vllgBr exG "J/psi" (charge "J/psi") "tau" "e" ⟨a, b, 0, 0⟩ = .ok x ∧ 0 ≤ x := by
  have k1 : exG.par ("m_" ++ "J/psi") = 2 := by simp [exG]
  have k2 : exG.par ("m_" ++ "tau") = 1 := by simp [exG]
  have k3 : exG.par ("m_" ++ "e") = 0 := by simp [exG]
  have k4 : exG.par ("tau_" ++ "J/psi") = 1 := by simp [exG]
  have k6 : exG.aem "J/psi" = 1 := rfl
  obtain ⟨g, x, -, h, -, -, h3⟩ := C116_nonneg exG "J/psi" (charge "J/psi") (by decide) "tau" "e" (by decide) ⟨a, b, 0, 0⟩
    (by rw [k1]; norm_num) (by rw [k2, k3]; norm_num) (by rw [k2]; norm_num) (by rw [k3]) (by rw [k1, k2]; norm_num)
    (by rw [k1, k3]; norm_num) (by rw [k4]; norm_num) (by rw [k6]; norm_num)
  exact ⟨x, h, h3 rfl rfl⟩

end Verif.Quarkonium
