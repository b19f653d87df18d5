import Verif.Physics.MatrixElements.Model
import Mathlib.Analysis.SpecialFunctions.Trigonometric.ArctanDeriv
import Mathlib.Analysis.SpecialFunctions.Log.NegMulLog
import Mathlib.Analysis.Calculus.Deriv.MeanValue
/-!
# Properties of `matrixelements.py` (C133: loop functions; C134: their use)
-/
set_option linter.unusedVariables false
set_option linter.unusedSimpArgs false
namespace Verif.MatrixElements
open Verif.Py Verif Verif.Running Verif.FormFactors Complex Filter Topology

theorem clog (x : ℝ) (hx : 0 ≤ x) : Complex.log (x : ℂ) = (Real.log x : ℂ) := (Complex.ofReal_log hx).symm

/-- Below threshold the loop function is real. -/
theorem hgen_below (s mq mu : ℝ) (hz : 1 < 4*mq^2/s) : hgen s mq mu =
    ((-4/9*Real.log (mq^2/mu^2) + 8/27 + 4/9*(4*mq^2/s)
      - 4/9*(2 + 4*mq^2/s)*Real.sqrt (4*mq^2/s - 1)*Real.arctan (1/Real.sqrt (4*mq^2/s - 1)) : ℝ) : ℂ) := by
  simp only [hgen, if_pos hz, clog _ (show 0 ≤ mq^2/mu^2 by positivity), abs_of_pos (sub_pos.mpr hz)]
  push_cast
  ring

/-- Above threshold. -/
theorem hgen_above (s mq mu : ℝ) (hs : 0 < s) (hz : 4*mq^2/s ≤ 1) : hgen s mq mu =
    ((-4/9*Real.log (mq^2/mu^2) + 8/27 + 4/9*(4*mq^2/s)
      - 4/9*(2 + 4*mq^2/s)*Real.sqrt (1 - 4*mq^2/s)*Real.log ((1 + Real.sqrt (1 - 4*mq^2/s))/Real.sqrt (4*mq^2/s)) : ℝ) : ℂ)
    + I*((2*Real.pi/9*(2 + 4*mq^2/s)*Real.sqrt (1 - 4*mq^2/s) : ℝ) : ℂ) := by
  have h0 : 0 ≤ 4*mq^2/s := by positivity
  have ha : |4*mq^2/s - 1| = 1 - 4*mq^2/s := by rw [abs_of_nonpos (by linarith)]; ring
  have e : ((1 + Xlnu.csqrt ((1 - 4*mq^2/s : ℝ) : ℂ))/Xlnu.csqrt ((4*mq^2/s : ℝ) : ℂ))
      = (((1 + Real.sqrt (1 - 4*mq^2/s))/Real.sqrt (4*mq^2/s) : ℝ) : ℂ) := by
    rw [Xlnu.csqrt_ofReal (by linarith), Xlnu.csqrt_ofReal h0]; push_cast; rfl
  simp only [hgen, if_neg (not_lt.mpr hz), clog _ (show 0 ≤ mq^2/mu^2 by positivity), ha, e,
    clog _ (show 0 ≤ (1 + Real.sqrt (1 - 4*mq^2/s))/Real.sqrt (4*mq^2/s) by positivity)]
  push_cast
  ring

theorem h_ok (s mq mu : ℝ) (hh : s ≠ 0 ∨ mq ≠ 0) : ∃ x, h s mq mu = .ok x := by
  simp only [h]
  split_ifs with h1 h2 h3
  · rcases hh with hh | hh
    · exact absurd h2 hh
    · exact absurd h1 hh
  · exact ⟨_, rfl⟩
  · exact ⟨_, rfl⟩
  · exact ⟨_, rfl⟩

/-- The loop function cannot be evaluated for a massless quark at zero momentum, and only there. -/
theorem C133_domain (s mq mu : ℝ) : h s mq mu = .error .valueError ↔ s = 0 ∧ mq = 0 := by
  constructor
  · intro he
    by_contra hc
    rw [not_and_or] at hc
    obtain ⟨x, hx⟩ := h_ok s mq mu hc
    rw [hx] at he; cases he
  · rintro ⟨rfl, rfl⟩
    simp [h]

/-- Renormalisation group: in every branch the scale dependence is `8/9 log μ`. -/
theorem C133_scale (s mq mu mu' : ℝ) (hmu : 0 < mu) (hmu' : 0 < mu') (hh : s ≠ 0 ∨ mq ≠ 0) :
    ∃ x y, h s mq mu = .ok x ∧ h s mq mu' = .ok y ∧ x - y = ((8/9*Real.log (mu/mu') : ℝ) : ℂ) := by
  have hl : Real.log (mu/mu') = Real.log mu - Real.log mu' := Real.log_div hmu.ne' hmu'.ne'
  have hm : ∀ m : ℝ, mq ≠ 0 → 0 < m → Complex.log ((mq^2/m^2 : ℝ) : ℂ) = ((Real.log (mq^2) - 2*Real.log m : ℝ) : ℂ) := by
    intro m hq hm
    rw [clog _ (by positivity), Real.log_div (by positivity) (by positivity), Real.log_pow]
    norm_num
  by_cases h1 : mq = 0
  · have h2 : s ≠ 0 := hh.resolve_right (not_not.mpr h1)
    refine ⟨_, _, by simp only [h, if_pos h1, if_neg h2]; rfl, by simp only [h, if_pos h1, if_neg h2]; rfl, ?_⟩
    simp only [h0, clog _ hmu.le, clog _ hmu'.le, hl]
    push_cast
    ring
  · by_cases h2 : s = 0
    · refine ⟨_, _, by simp only [h, if_neg h1, if_pos h2]; rfl, by simp only [h, if_neg h1, if_pos h2]; rfl, ?_⟩
      simp only [hs0, hm _ h1 hmu, hm _ h1 hmu', hl]
      push_cast
      ring
    · refine ⟨_, _, by simp only [h, if_neg h1, if_neg h2]; rfl, by simp only [h, if_neg h1, if_neg h2]; rfl, ?_⟩
      simp only [hgen, hm _ h1 hmu, hm _ h1 hmu', hl]
      push_cast
      ring

/-- Unitarity: the imaginary part vanishes below the threshold `s = 4 m²` and is the (non-negative) two-particle phase space
`(2π/9)(2 + z)√(1 - z)`, `z = 4m²/s`, above it, for massive and massless quarks alike. -/
theorem C133_cut (s mq mu : ℝ) (hs : 0 < s) (hmu : 0 < mu) (x : ℂ) (hx : h s mq mu = .ok x) :
    (s < 4*mq^2 → x.im = 0) ∧ (4*mq^2 ≤ s → x.im = 2*Real.pi/9*(2 + 4*mq^2/s)*Real.sqrt (1 - 4*mq^2/s) ∧ 0 ≤ x.im) := by
  by_cases h1 : mq = 0
  · subst h1
    refine ⟨fun hc => by norm_num at hc; linarith, fun _ => ?_⟩
    simp only [h, if_true, if_neg hs.ne', Except.ok.injEq] at hx
    subst hx
    have e : (h0 s mu).im = 2*Real.pi/9*(2 + 4*0^2/s)*Real.sqrt (1 - 4*0^2/s) := by
      have e1 : h0 s mu = ((8/27 + 8/9*Real.log mu - 4/9*Real.log s : ℝ) : ℂ) + ((4*Real.pi/9 : ℝ) : ℂ)*I := by
        simp only [h0, clog _ hmu.le, clog _ hs.le]; push_cast; ring
      rw [e1, Complex.add_im, Complex.ofReal_im, Complex.mul_im, Complex.ofReal_re, Complex.ofReal_im, Complex.I_re, Complex.I_im]
      norm_num
      ring
    rw [e]
    exact ⟨rfl, by positivity⟩
  · simp only [h, if_neg h1, if_neg hs.ne', Except.ok.injEq] at hx
    subst hx
    refine ⟨fun hc => ?_, fun hc => ?_⟩
    · rw [hgen_below s mq mu (by rw [lt_div_iff₀ hs]; linarith), Complex.ofReal_im]
    · rw [hgen_above s mq mu hs (by rw [div_le_one hs]; exact hc)]
      have e : ∀ a b : ℝ, ((a:ℂ) + I*(b:ℂ)).im = b := by intro a b; simp
      rw [e]
      exact ⟨rfl, by positivity⟩

theorem arctan_bounds (u : ℝ) (hu : 0 ≤ u) : u - u^3/3 ≤ Real.arctan u ∧ Real.arctan u ≤ u - u^3/3 + u^5/5 := by
  have hp : ∀ x : ℝ, 0 < 1 + x^2 := fun x => by positivity
  have d1 : ∀ x : ℝ, HasDerivAt (fun x => Real.arctan x - (x - x^3/3)) (x^4/(1+x^2)) x := by
    intro x
    have := (Real.hasDerivAt_arctan x).sub ((hasDerivAt_id x).sub ((hasDerivAt_pow 3 x).div_const 3))
    refine this.congr_deriv ?_
    have := (hp x).ne'
    field_simp
    ring
  have d2 : ∀ x : ℝ, HasDerivAt (fun x => (x - x^3/3 + x^5/5) - Real.arctan x) (x^6/(1+x^2)) x := by
    intro x
    have := (((hasDerivAt_id x).sub ((hasDerivAt_pow 3 x).div_const 3)).add ((hasDerivAt_pow 5 x).div_const 5)).sub (Real.hasDerivAt_arctan x)
    refine this.congr_deriv ?_
    have := (hp x).ne'
    field_simp
    ring
  have m1 := monotone_of_deriv_nonneg (fun x => (d1 x).differentiableAt) (fun x => by rw [(d1 x).deriv]; positivity)
  have m2 := monotone_of_deriv_nonneg (fun x => (d2 x).differentiableAt) (fun x => by rw [(d2 x).deriv]; have := hp x; positivity)
  have a := m1 hu
  have b := m2 hu
  norm_num at a b
  constructor <;> linarith

/-- The branch for `s = 0` is the limit of the general branch. -/
theorem C133_zero_momentum (mq mu : ℝ) (hq : 0 < mq) (hmu : 0 < mu) :
    Tendsto (fun s => hgen s mq mu) (𝓝[>] 0) (𝓝 (hs0 mq mu)) := by
  have hv : hs0 mq mu = ((-4/9*(1 + Real.log (mq^2/mu^2)) : ℝ) : ℂ) := by
    simp only [hs0, clog _ (show 0 ≤ mq^2/mu^2 by positivity)]; push_cast; ring
  have hU : Tendsto (fun s : ℝ => s/(4*mq^2 - s)) (𝓝[>] 0) (𝓝 0) := by
    have : ContinuousAt (fun s : ℝ => s/(4*mq^2 - s)) 0 := by
      apply ContinuousAt.div continuousAt_id (continuousAt_const.sub continuousAt_id)
      show 4*mq^2 - 0 ≠ 0
      rw [sub_zero]; positivity
    have h := this.tendsto
    simp only [zero_div] at h
    exact h.mono_left nhdsWithin_le_nhds
  have hbound : ∀ᶠ s in 𝓝[>] (0:ℝ), ‖hgen s mq mu - hs0 mq mu‖ ≤ 4/9*(s/(4*mq^2 - s) + 3/5*(s/(4*mq^2 - s))^2 + 1/5*(s/(4*mq^2 - s))) := by
    have h1 : ∀ᶠ s in 𝓝[>] (0:ℝ), s < 4*mq^2 := mem_nhdsWithin_of_mem_nhds (gt_mem_nhds (show (0:ℝ) < 4*mq^2 by positivity))
    filter_upwards [h1, self_mem_nhdsWithin] with s hs1 hs0'
    have hs : 0 < s := hs0'
    have hz : 1 < 4*mq^2/s := by rw [lt_div_iff₀ hs]; linarith
    rw [hgen_below s mq mu hz, hv, ← Complex.ofReal_sub, Complex.norm_real, Real.norm_eq_abs]
    set r := Real.sqrt (4*mq^2/s - 1) with hr
    have hr0 : 0 < r := Real.sqrt_pos.mpr (by linarith)
    have hr2 : r^2 = 4*mq^2/s - 1 := Real.sq_sqrt (by linarith)
    set u := 1/r with hu
    have hu0 : 0 < u := by positivity
    have hu2 : s/(4*mq^2 - s) = u^2 := by
      rw [hu, div_pow, hr2]
      have : 4*mq^2 - s ≠ 0 := by linarith
      have := hs.ne'
      have : 4*mq^2/s - 1 ≠ 0 := by linarith
      field_simp
    have hzz : 4*mq^2/s = 1 + 1/u^2 := by
      have : 1/u^2 = r^2 := by rw [hu]; field_simp
      rw [this, hr2]; ring
    have hru : r = 1/u := by rw [hu]; field_simp
    obtain ⟨b1, b2⟩ := arctan_bounds u hu0.le
    rw [hu2, hzz, hru]
    set R := Real.arctan u - (u - u^3/3) with hR
    have e : Real.arctan u = u - u^3/3 + R := by rw [hR]; ring
    have hR0 : 0 ≤ R := by rw [hR]; linarith
    have hR1 : R ≤ u^5/5 := by rw [hR]; linarith
    rw [e]
    have e2 : -4/9*Real.log (mq^2/mu^2) + 8/27 + 4/9*(1 + 1/u^2) - 4/9*(2 + (1 + 1/u^2))*(1/u)*(u - u^3/3 + R) - -4/9*(1 + Real.log (mq^2/mu^2))
        = 4/9*(u^2 - (3*u^2 + 1)*(R/u^3)) := by field_simp; ring
    rw [e2]
    have hq1 : R/u^3 ≤ u^2/5 := by rw [div_le_iff₀ (by positivity)]; nlinarith
    have hq0 : 0 ≤ R/u^3 := by positivity
    generalize R/u^3 = w at *
    have hw : (3*u^2+1)*w ≤ (3*u^2+1)*(u^2/5) := mul_le_mul_of_nonneg_left hq1 (by positivity)
    have hw0 : 0 ≤ (3*u^2+1)*w := by positivity
    have hu2p : 0 < u^2 := by positivity
    rw [abs_le]
    constructor <;> nlinarith
  have hlim : Tendsto (fun s : ℝ => 4/9*(s/(4*mq^2 - s) + 3/5*(s/(4*mq^2 - s))^2 + 1/5*(s/(4*mq^2 - s)))) (𝓝[>] 0) (𝓝 0) := by
    have := ((hU.add ((hU.pow 2).const_mul (3/5))).add (hU.const_mul (1/5))).const_mul (4/9)
    simpa using this
  rw [tendsto_iff_norm_sub_tendsto_zero]
  exact squeeze_zero' (Eventually.of_forall fun s => norm_nonneg _) hbound hlim

/-- The massless branch is the limit of the general branch. -/
theorem C133_massless (s mu : ℝ) (hs : 0 < s) (hmu : 0 < mu) :
    Tendsto (fun m => hgen s m mu) (𝓝[>] 0) (𝓝 (h0 s mu)) := by
  let f : ℝ → ℝ := fun z => (2 + z)*Real.sqrt (1 - z)/2
  let Φ : ℝ → ℂ := fun z => ((-4/9*Real.log (s/4) + 8/9*Real.log mu + 8/27 + 4/9*z - 4/9*(2 + z)*Real.sqrt (1 - z)*Real.log (1 + Real.sqrt (1 - z))
    - 4/9*(z*Real.log z)*(z*(3 + z)/(4*(f z + 1))) : ℝ) : ℂ) + I*((2*Real.pi/9*(2 + z)*Real.sqrt (1 - z) : ℝ) : ℂ)
  have hf0 : f 0 = 1 := by simp [f]
  have hfc : Continuous f := by simp only [f]; fun_prop
  have hΦ : ContinuousAt Φ 0 := by
    have c1 : ContinuousAt (fun z : ℝ => Real.log (1 + Real.sqrt (1 - z))) 0 := by
      apply ContinuousAt.log
      · fun_prop
      · norm_num
    have c2 : ContinuousAt (fun z : ℝ => z*Real.log z) 0 := Real.continuous_mul_log.continuousAt
    have c3 : ContinuousAt (fun z : ℝ => z*(3 + z)/(4*(f z + 1))) 0 := by
      apply ContinuousAt.div (by fun_prop) (by fun_prop)
      rw [hf0]; norm_num
    simp only [Φ]
    fun_prop
  have hΦ0 : Φ 0 = h0 s mu := by
    simp only [Φ, h0, clog _ hmu.le, clog _ hs.le]
    norm_num
    rw [Real.log_div hs.ne' (by norm_num)]
    have : Real.log 4 = 2*Real.log 2 := by rw [show (4:ℝ) = 2^2 by norm_num, Real.log_pow]; norm_num
    rw [this]
    have h2 : Complex.log 2 = ((Real.log 2 : ℝ) : ℂ) := by rw [← clog 2 (by norm_num)]; norm_num
    push_cast
    rw [h2]
    ring
  have hz : Tendsto (fun m : ℝ => 4*m^2/s) (𝓝[>] 0) (𝓝 0) := by
    have : Continuous (fun m : ℝ => 4*m^2/s) := by fun_prop
    have h := this.tendsto 0
    norm_num at h
    exact h.mono_left nhdsWithin_le_nhds
  have hev : ∀ᶠ m in 𝓝[>] (0:ℝ), Φ (4*m^2/s) = hgen s m mu := by
    have h1 : ∀ᶠ m in 𝓝[>] (0:ℝ), 4*m^2/s < 1 := hz.eventually (gt_mem_nhds (by norm_num))
    filter_upwards [h1, self_mem_nhdsWithin] with m hm hm0
    have hm' : 0 < m := hm0
    rw [hgen_above s m mu hs hm.le]
    set z := 4*m^2/s with hzdef
    have hz0 : 0 < z := by positivity
    have hmz : m^2/mu^2 = z*(s/4)/mu^2 := by rw [hzdef]; field_simp
    have l1 : Real.log (m^2/mu^2) = Real.log z + Real.log (s/4) - 2*Real.log mu := by
      rw [hmz, Real.log_div (by positivity) (by positivity), Real.log_mul hz0.ne' (by positivity), Real.log_pow]; norm_num
    have l2 : Real.log ((1 + Real.sqrt (1-z))/Real.sqrt z) = Real.log (1 + Real.sqrt (1-z)) - Real.log z/2 := by
      rw [Real.log_div (by positivity) (by positivity), Real.log_sqrt hz0.le]
    have hfz : z*(3+z)/(4*(f z + 1))*z = 1 - f z := by
      have hfp : 0 ≤ f z := by simp only [f]; positivity
      have h4 : 4*(f z + 1) ≠ 0 := by linarith
      have hf2 : (f z)^2 = (2+z)^2*(1-z)/4 := by
        simp only [f, div_pow, mul_pow, Real.sq_sqrt (sub_nonneg.mpr hm.le)]; norm_num
      field_simp
      have : 4*(1 - f z)*(f z + 1) = z^2*(3+z) := by
        have : 4*(1 - f z)*(f z + 1) = 4 - 4*(f z)^2 := by ring
        rw [this, hf2]; ring
      linarith
    simp only [Φ]
    congr 2
    rw [l1, l2]
    have e : 4/9*(z*Real.log z)*(z*(3 + z)/(4*(f z + 1))) = 4/9*Real.log z*(1 - f z) := by rw [← hfz]; ring
    rw [e]
    simp only [f]
    ring
  have hc : Tendsto (fun m : ℝ => Φ (4*m^2/s)) (𝓝[>] 0) (𝓝 (Φ 0)) := hΦ.tendsto.comp hz
  rw [hΦ0] at hc
  exact hc.congr' hev

/-- The loop function is continuous across the threshold. -/
theorem C133_threshold (mq mu : ℝ) (hq : 0 < mq) : ContinuousAt (fun s => hgen s mq mu) (4*mq^2) := by
  have hs0 : 0 < 4*mq^2 := by positivity
  let A : ℝ → ℂ := fun s => if 1 < 4*mq^2/s then ((Real.arctan (1/Real.sqrt (4*mq^2/s-1)) : ℝ) : ℂ)
    else Complex.log ((1 + Xlnu.csqrt ((1-4*mq^2/s : ℝ) : ℂ))/Xlnu.csqrt ((4*mq^2/s : ℝ) : ℂ)) - I*Real.pi/2
  have hzc : ContinuousAt (fun s : ℝ => 4*mq^2/s) (4*mq^2) := by
    apply ContinuousAt.div continuousAt_const continuousAt_id; exact hs0.ne'
  have hz1 : 4*mq^2/(4*mq^2) = 1 := div_self hs0.ne'
  have hbd : ∀ᶠ s in 𝓝 (4*mq^2), ‖A s‖ ≤ Real.pi + Real.log 4 := by
    have h1 : ∀ᶠ s in 𝓝 (4*mq^2), 1/4 < 4*mq^2/s := by
      refine hzc.eventually (lt_mem_nhds ?_); show 1/4 < 4*mq^2/(4*mq^2); rw [hz1]; norm_num
    have h2 : ∀ᶠ s in 𝓝 (4*mq^2), 0 < s := lt_mem_nhds hs0
    have hl4 : 0 < Real.log 4 := Real.log_pos (by norm_num)
    filter_upwards [h1, h2] with s hz hs
    simp only [A]
    split_ifs with hc
    · rw [Complex.norm_real, Real.norm_eq_abs, abs_of_nonneg (Real.arctan_nonneg.mpr (by positivity))]
      have := Real.arctan_lt_pi_div_two (1/Real.sqrt (4*mq^2/s-1))
      linarith [Real.pi_pos]
    · have hc' := not_lt.mp hc
      have h0 : 0 ≤ 4*mq^2/s := by linarith
      rw [Xlnu.csqrt_ofReal (by linarith), Xlnu.csqrt_ofReal h0]
      have e : ((1 + ((Real.sqrt (1 - 4*mq^2/s) : ℝ) : ℂ))/((Real.sqrt (4*mq^2/s) : ℝ) : ℂ))
          = (((1 + Real.sqrt (1 - 4*mq^2/s))/Real.sqrt (4*mq^2/s) : ℝ) : ℂ) := by push_cast; rfl
      have hq0 : 0 < Real.sqrt (4*mq^2/s) := Real.sqrt_pos.mpr (by linarith)
      have hqh : 1/2 ≤ Real.sqrt (4*mq^2/s) := by
        rw [Real.le_sqrt (by norm_num) h0]; norm_num; linarith
      have hq1 : Real.sqrt (4*mq^2/s) ≤ 1 := by rw [Real.sqrt_le_one]; exact hc'
      have hp1 : Real.sqrt (1 - 4*mq^2/s) ≤ 1 := by rw [Real.sqrt_le_one]; linarith
      have hp0 := Real.sqrt_nonneg (1 - 4*mq^2/s)
      rw [e, clog _ (by positivity)]
      have x1 : 1 ≤ (1 + Real.sqrt (1 - 4*mq^2/s))/Real.sqrt (4*mq^2/s) := by rw [le_div_iff₀ hq0]; linarith
      have x2 : (1 + Real.sqrt (1 - 4*mq^2/s))/Real.sqrt (4*mq^2/s) ≤ 4 := by rw [div_le_iff₀ hq0]; linarith
      have y1 := Real.log_nonneg x1
      have y2 := Real.log_le_log (by linarith) x2
      calc _ ≤ ‖((Real.log ((1 + Real.sqrt (1 - 4*mq^2/s))/Real.sqrt (4*mq^2/s)) : ℝ) : ℂ)‖ + ‖I*(Real.pi:ℂ)/2‖ := norm_sub_le _ _
        _ = Real.log ((1 + Real.sqrt (1 - 4*mq^2/s))/Real.sqrt (4*mq^2/s)) + Real.pi/2 := by
            rw [Complex.norm_real, Real.norm_eq_abs, abs_of_nonneg y1]; simp [abs_of_pos Real.pi_pos]
        _ ≤ _ := by linarith [Real.pi_pos]
  have hsq : Tendsto (fun s : ℝ => ((Real.sqrt |4*mq^2/s - 1| : ℝ) : ℂ)*A s) (𝓝 (4*mq^2)) (𝓝 0) := by
    have t1 : Tendsto (fun s : ℝ => Real.sqrt |4*mq^2/s - 1| * (Real.pi + Real.log 4)) (𝓝 (4*mq^2)) (𝓝 0) := by
      have c : ContinuousAt (fun s : ℝ => Real.sqrt |4*mq^2/s - 1| * (Real.pi + Real.log 4)) (4*mq^2) :=
        ((hzc.sub continuousAt_const).abs.sqrt).mul continuousAt_const
      have h := c.tendsto
      simp only [hz1, sub_self, abs_zero, Real.sqrt_zero, zero_mul] at h
      exact h
    rw [tendsto_zero_iff_norm_tendsto_zero]
    refine squeeze_zero' (Eventually.of_forall fun _ => norm_nonneg _) ?_ t1
    filter_upwards [hbd] with s hb
    rw [norm_mul, Complex.norm_real, Real.norm_eq_abs, abs_of_nonneg (Real.sqrt_nonneg _)]
    exact mul_le_mul_of_nonneg_left hb (Real.sqrt_nonneg _)
  have hz' : Tendsto (fun s : ℝ => ((4*mq^2/s : ℝ) : ℂ)) (𝓝 (4*mq^2)) (𝓝 ((1:ℝ):ℂ)) := by
    have h := hzc.tendsto
    rw [hz1] at h
    exact (Complex.continuous_ofReal.tendsto 1).comp h
  have key : (fun s => hgen s mq mu) = fun s => (-4/9*Complex.log ((mq^2/mu^2 : ℝ) : ℂ) + 8/27 + 4/9*((4*mq^2/s : ℝ) : ℂ))
      - 4/9*(2 + ((4*mq^2/s : ℝ) : ℂ))*(((Real.sqrt |4*mq^2/s - 1| : ℝ) : ℂ)*A s) := by
    funext s
    simp only [hgen, A]
    ring
  have hval : hgen (4*mq^2) mq mu = (-4/9*Complex.log ((mq^2/mu^2 : ℝ) : ℂ) + 8/27 + 4/9*((1:ℝ):ℂ)) - 4/9*(2 + ((1:ℝ):ℂ))*0 := by
    simp only [hgen, hz1, sub_self, abs_zero, Real.sqrt_zero, lt_irrefl, if_false]
    simp
  show Tendsto _ _ (𝓝 (hgen (4*mq^2) mq mu))
  rw [hval, key]
  exact (tendsto_const_nhds.add (hz'.const_mul _)).sub (((tendsto_const_nhds.add hz').const_mul _).mul hsq)

end Verif.MatrixElements
