import Verif.Physics.Lambdab.Model
import Mathlib.Analysis.SpecialFunctions.Integrals.Basic
/-!
# C106: `Λb → Λ(→ p π) ℓ⁺ ℓ⁻`
-/
set_option linter.unusedVariables false
set_option linter.unusedSimpArgs false
set_option maxHeartbeats 1000000
namespace Verif.Lambdab
open Verif.Angular Verif.FormFactors Complex MeasureTheory Set
local notation "conj" => starRingEnd ℂ

/-! ## Specification: the angular distribution -/

/-- The angular distribution in terms of the coefficients: `c, s` cosine and sine of the lepton angle, `c', s'` of the hadron angle, `φ` the azimuthal angle.  (Specification.) -/
noncomputable def dist (K : Ks) (c s c' s' φ : ℝ) : ℝ :=
  (K.ss1 * s ^ 2 + K.cc1 * c ^ 2 + K.c1 * c) + (K.ss2 * s ^ 2 + K.cc2 * c ^ 2 + K.c2 * c) * c'
    + (K.sc3 * s * c + K.s3 * s) * s' * Real.sin φ + (K.sc4 * s * c + K.s4 * s) * s' * Real.cos φ

/-- The probability density from the helicity amplitudes, for leptons of one chirality (`ε = 1` for left-handed, `-1` for right-handed ones).  The `Λb` has helicity `-1/2` with
`(λ_Λ, λ_V) = (1/2, 1), (-1/2, 0)` or `1/2` with `(1/2, 0), (-1/2, -1)`; the lepton pair contributes `d¹`, the decay `Λ → p π` `d^{1/2}` with the weights `1 ± α` of the two proton helicities.
`c, s` are cosine and sine of the lepton angle, `C, S` cosine and sine of half the hadron angle.  (Specification.) -/
noncomputable def dens (alpha eps : ℝ) (x : Four) (c s C S φ : ℝ) : ℝ :=
  let hpp := (x.perp1 + x.para1) / (Real.sqrt 2 : ℂ)
  let hmm := (x.perp1 - x.para1) / (Real.sqrt 2 : ℂ)
  let hp0 := (x.perp0 + x.para0) / (Real.sqrt 2 : ℂ)
  let hm0 := (x.perp0 - x.para0) / (Real.sqrt 2 : ℂ)
  let dPlus : ℝ := (1 + eps * c) / 2
  let dMinus : ℝ := (1 - eps * c) / 2
  let d0 : ℝ := -eps * s / Real.sqrt 2
  let ph := exp (-(I * φ))
  (1 + alpha) * ‖hpp * dPlus * C + hm0 * d0 * ph * S‖ ^ 2
    + (1 - alpha) * ‖hpp * dPlus * (-S : ℝ) + hm0 * d0 * ph * C‖ ^ 2
    + ((1 + alpha) * ‖hp0 * d0 * C + hmm * dMinus * ph * S‖ ^ 2
    + (1 - alpha) * ‖hp0 * d0 * (-S : ℝ) + hmm * dMinus * ph * C‖ ^ 2)

/-- The coefficients of `cos φ` are real parts. (Specification.) -/
noncomputable def sc4Re (ta : Ta) (alpha : ℝ) : ℝ := alpha / Real.sqrt 2 * (ta.R.perp1 * conj ta.R.para0 - ta.R.para1 * conj ta.R.perp0
      + ta.L.perp1 * conj ta.L.para0 - ta.L.para1 * conj ta.L.perp0).re
/-- The coefficients of `cos φ` are real parts. (Specification.) -/
noncomputable def s4Re (ta : Ta) (alpha : ℝ) : ℝ := alpha / Real.sqrt 2 * (ta.R.perp1 * conj ta.R.perp0 - ta.R.para1 * conj ta.R.para0
      - ta.L.perp1 * conj ta.L.perp0 + ta.L.para1 * conj ta.L.para0).re

theorem nsq (z : ℂ) : ‖z‖ ^ 2 = z.re ^ 2 + z.im ^ 2 := by
  rw [Complex.sq_norm, Complex.normSq_apply]; ring

theorem pair_sum (u v : ℂ) (alpha C S : ℝ) (h : C ^ 2 + S ^ 2 = 1) :
    (1 + alpha) * ‖u * (C : ℝ) + v * (S : ℝ)‖ ^ 2 + (1 - alpha) * ‖u * (-S : ℝ) + v * (C : ℝ)‖ ^ 2 =
      ‖u‖ ^ 2 + ‖v‖ ^ 2 + alpha * ((‖u‖ ^ 2 - ‖v‖ ^ 2) * (C ^ 2 - S ^ 2) + 2 * (u * conj v).re * (2 * C * S)) := by
  simp only [nsq, Complex.add_re, Complex.add_im, Complex.mul_re, Complex.mul_im, Complex.ofReal_re, Complex.ofReal_im, Complex.conj_re, Complex.conj_im]
  linear_combination (u.re ^ 2 + u.im ^ 2 + v.re ^ 2 + v.im ^ 2) * h

theorem dens_eq (alpha eps : ℝ) (he : eps ^ 2 = 1) (x : Four) (c s C S φ : ℝ) (h1 : c ^ 2 + s ^ 2 = 1) (h2 : C ^ 2 + S ^ 2 = 1) :
    dens alpha eps x c s C S φ =
      (1 / 4 * (‖x.perp1‖ ^ 2 + ‖x.para1‖ ^ 2) * (1 + c ^ 2) + 1 / 2 * (‖x.perp0‖ ^ 2 + ‖x.para0‖ ^ 2) * s ^ 2 + eps * (x.perp1 * conj x.para1).re * c)
      + alpha * (1 / 2 * (x.perp1 * conj x.para1).re * (1 + c ^ 2) + (x.perp0 * conj x.para0).re * s ^ 2
        + eps * 1 / 2 * (‖x.perp1‖ ^ 2 + ‖x.para1‖ ^ 2) * c) * (C ^ 2 - S ^ 2)
      + alpha / Real.sqrt 2 * ((x.perp1 * conj x.perp0 - x.para1 * conj x.para0).im * s * c
        - eps * (x.perp1 * conj x.para0 - x.para1 * conj x.perp0).im * s) * (2 * C * S) * Real.sin φ
      + alpha / Real.sqrt 2 * ((x.perp1 * conj x.para0 - x.para1 * conj x.perp0).re * s * c
        - eps * (x.perp1 * conj x.perp0 - x.para1 * conj x.para0).re * s) * (2 * C * S) * Real.cos φ := by
  have hr : 0 < Real.sqrt 2 := by positivity
  have hr2 : Real.sqrt 2 ^ 2 = 2 := Real.sq_sqrt (by norm_num)
  have hre : (exp (-(I * φ))).re = Real.cos φ := by
    rw [show -(I * (φ:ℂ)) = ((-φ : ℝ) : ℂ) * I by push_cast; ring, Complex.exp_ofReal_mul_I_re, Real.cos_neg]
  have him : (exp (-(I * φ))).im = -Real.sin φ := by
    rw [show -(I * (φ:ℂ)) = ((-φ : ℝ) : ℂ) * I by push_cast; ring, Complex.exp_ofReal_mul_I_im, Real.sin_neg]
  have hph : ‖exp (-(I * φ))‖ ^ 2 = 1 := by rw [nsq, hre, him]; linarith [Real.sin_sq_add_cos_sq φ]
  have e1 := pair_sum ((x.perp1 + x.para1) / (Real.sqrt 2 : ℂ) * ((1 + eps * c) / 2 : ℝ)) ((x.perp0 - x.para0) / (Real.sqrt 2 : ℂ) * (-eps * s / Real.sqrt 2 : ℝ) * exp (-(I * φ))) alpha C S h2
  have e2 := pair_sum ((x.perp0 + x.para0) / (Real.sqrt 2 : ℂ) * (-eps * s / Real.sqrt 2 : ℝ)) ((x.perp1 - x.para1) / (Real.sqrt 2 : ℂ) * ((1 - eps * c) / 2 : ℝ) * exp (-(I * φ))) alpha C S h2
  have e3 := congrArg₂ (· + ·) e1 e2
  refine Eq.trans (show dens alpha eps x c s C S φ = _ from e3) ?_
  clear e1 e2 e3
  simp only [norm_mul, mul_pow, hph, mul_one]
  simp only [norm_div, Complex.norm_real, div_pow, Real.norm_eq_abs, sq_abs, hr2]
  simp only [nsq, Complex.add_re, Complex.add_im, Complex.sub_re, Complex.sub_im, Complex.mul_re, Complex.mul_im, Complex.ofReal_re, Complex.ofReal_im,
    Complex.div_ofReal_re, Complex.div_ofReal_im, Complex.conj_re, Complex.conj_im, hre, him, map_mul]
  have hc : c ^ 2 = 1 - s ^ 2 := by linarith
  generalize Real.cos φ = cp at *
  generalize Real.sin φ = sp at *
  generalize x.perp1.re = a1
  generalize x.perp1.im = a2
  generalize x.para1.re = b1
  generalize x.para1.im = b2
  generalize x.perp0.re = c1
  generalize x.perp0.im = c2
  generalize x.para0.re = d1
  generalize x.para0.im = d2
  simp only [div_eq_mul_inv]
  have hw : (Real.sqrt 2)⁻¹ ^ 2 = 1 / 2 := by rw [inv_pow, hr2]; norm_num
  generalize (Real.sqrt 2)⁻¹ = w at *
  have hs : s ^ 2 = 1 - c ^ 2 := by linarith
  have hw3 : w ^ 3 = w / 2 := by rw [pow_succ, hw]; ring
  have hw4 : w ^ 4 = 1 / 4 := by rw [show (4:ℕ) = 2 * 2 from rfl, pow_mul, hw]; norm_num
  ring_nf
  simp only [he, hw, hw3, hw4]
  ring_nf

/-- The rate density in the cosines `c`, `c'` of the lepton and hadron angles and the azimuth `φ`: the sum over both lepton chiralities of the helicity densities.  (Specification.) -/
noncomputable def rho (ta : Ta) (alpha c c' φ : ℝ) : ℝ :=
  dens alpha 1 ta.L c (Real.sqrt (1 - c ^ 2)) (Real.sqrt ((1 + c') / 2)) (Real.sqrt ((1 - c') / 2)) φ
    + dens alpha (-1) ta.R c (Real.sqrt (1 - c ^ 2)) (Real.sqrt ((1 + c') / 2)) (Real.sqrt ((1 - c') / 2)) φ

/-- The rate with `c` in `[a, b]` and `c'` in `[a', b']`.  (Specification.) -/
noncomputable def rateIn (ta : Ta) (alpha a b a' b' : ℝ) : ℝ :=
  3 / (8 * Real.pi) * ∫ c in a..b, ∫ c' in a'..b', ∫ φ in (0:ℝ)..2 * Real.pi, rho ta alpha c c' φ

theorem dens_sum (ta : Ta) (alpha c s C S φ : ℝ) (h1 : c ^ 2 + s ^ 2 = 1) (h2 : C ^ 2 + S ^ 2 = 1) :
    dens alpha 1 ta.L c s C S φ + dens alpha (-1) ta.R c s C S φ
      = dist { angCoeff ta alpha with sc4 := sc4Re ta alpha, s4 := s4Re ta alpha } c s (C ^ 2 - S ^ 2) (2 * C * S) φ := by
  rw [dens_eq alpha 1 (by norm_num) ta.L c s C S φ h1 h2, dens_eq alpha (-1) (by norm_num) ta.R c s C S φ h1 h2]
  simp only [dist, angCoeff, sc4Re, s4Re, Complex.add_re, Complex.add_im, Complex.sub_re, Complex.sub_im]
  have h3 : (2 * ta.R.perp0 * conj ta.R.para0).re = 2 * (ta.R.perp0 * conj ta.R.para0).re := by
    rw [mul_assoc, show (2:ℂ) = ((2:ℝ):ℂ) by norm_num, Complex.re_ofReal_mul]
  have h4 : (2 * ta.L.perp0 * conj ta.L.para0).re = 2 * (ta.L.perp0 * conj ta.L.para0).re := by
    rw [mul_assoc, show (2:ℂ) = ((2:ℝ):ℂ) by norm_num, Complex.re_ofReal_mul]
  rw [h3, h4]
  have hc : c ^ 2 = 1 - s ^ 2 := by linarith
  rw [hc]
  ring

theorem half (c' : ℝ) (h : |c'| ≤ 1) :
    Real.sqrt ((1 + c') / 2) ^ 2 + Real.sqrt ((1 - c') / 2) ^ 2 = 1 ∧ Real.sqrt ((1 + c') / 2) ^ 2 - Real.sqrt ((1 - c') / 2) ^ 2 = c' := by
  have h := abs_le.1 h
  rw [Real.sq_sqrt (by linarith), Real.sq_sqrt (by linarith)]
  constructor <;> ring

theorem rho_eq (ta : Ta) (alpha c c' φ : ℝ) (hc : |c| ≤ 1) (hc' : |c'| ≤ 1) :
    rho ta alpha c c' φ = dist { angCoeff ta alpha with sc4 := sc4Re ta alpha, s4 := s4Re ta alpha } c (Real.sqrt (1 - c ^ 2)) c'
      (2 * Real.sqrt ((1 + c') / 2) * Real.sqrt ((1 - c') / 2)) φ := by
  have h : c ^ 2 ≤ 1 := by rw [← sq_abs]; exact pow_le_one₀ (abs_nonneg _) hc
  rw [rho, dens_sum _ _ _ _ _ _ _ (by rw [Real.sq_sqrt (by linarith)]; ring) (half c' hc').1, (half c' hc').2]

theorem int_phi (K : Ks) (c s c' s' : ℝ) : ∫ φ in (0:ℝ)..2 * Real.pi, dist K c s c' s' φ =
    2 * Real.pi * ((K.ss1 * s ^ 2 + K.cc1 * c ^ 2 + K.c1 * c) + (K.ss2 * s ^ 2 + K.cc2 * c ^ 2 + K.c2 * c) * c') := by
  have h : ∀ A B D : ℝ, ∫ φ in (0:ℝ)..2 * Real.pi, (A + B * Real.sin φ + D * Real.cos φ) = 2 * Real.pi * A := by
    intro A B D
    rw [intervalIntegral.integral_add (Continuous.intervalIntegrable (by fun_prop) _ _) (Continuous.intervalIntegrable (by fun_prop) _ _),
      intervalIntegral.integral_add (Continuous.intervalIntegrable (by fun_prop) _ _) (Continuous.intervalIntegrable (by fun_prop) _ _)]
    simp
  simp only [dist]
  exact h _ _ _

theorem int_lin (A B a b : ℝ) : ∫ x in a..b, (A + B * x) = A * (b - a) + B * ((b ^ 2 - a ^ 2) / 2) := by
  rw [intervalIntegral.integral_add (Continuous.intervalIntegrable (by fun_prop) _ _) (Continuous.intervalIntegrable (by fun_prop) _ _), intervalIntegral.integral_const_mul]
  simp; ring

theorem int_quad (A B D a b : ℝ) : ∫ x in a..b, (A + B * x + D * x ^ 2) = A * (b - a) + B * ((b ^ 2 - a ^ 2) / 2) + D * ((b ^ 3 - a ^ 3) / 3) := by
  rw [intervalIntegral.integral_add (Continuous.intervalIntegrable (by fun_prop) _ _) (Continuous.intervalIntegrable (by fun_prop) _ _), int_lin]
  simp; norm_num

theorem mem_abs {a b x : ℝ} (ha : -1 ≤ a) (hb : b ≤ 1) (hab : a ≤ b) (h : x ∈ Set.uIcc a b) : |x| ≤ 1 := by
  rw [Set.uIcc_of_le hab] at h
  exact abs_le.2 ⟨by linarith [h.1], by linarith [h.2]⟩

theorem rateIn_eq (ta : Ta) (alpha a b a' b' : ℝ) (ha : -1 ≤ a) (hb : b ≤ 1) (hab : a ≤ b) (ha' : -1 ≤ a') (hb' : b' ≤ 1) (hab' : a' ≤ b') :
    rateIn ta alpha a b a' b' =
      3 / 4 * (((angCoeff ta alpha).ss1 * ((b - a) - (b ^ 3 - a ^ 3) / 3) + (angCoeff ta alpha).cc1 * ((b ^ 3 - a ^ 3) / 3) + (angCoeff ta alpha).c1 * ((b ^ 2 - a ^ 2) / 2)) * (b' - a')
        + ((angCoeff ta alpha).ss2 * ((b - a) - (b ^ 3 - a ^ 3) / 3) + (angCoeff ta alpha).cc2 * ((b ^ 3 - a ^ 3) / 3) + (angCoeff ta alpha).c2 * ((b ^ 2 - a ^ 2) / 2))
          * ((b' ^ 2 - a' ^ 2) / 2)) := by
  rw [rateIn]
  set K := angCoeff ta alpha with hK
  have e : ∫ c in a..b, ∫ c' in a'..b', ∫ φ in (0:ℝ)..2 * Real.pi, rho ta alpha c c' φ
      = ∫ c in a..b, (2 * Real.pi * (K.ss1 * (b' - a') + K.ss2 * ((b' ^ 2 - a' ^ 2) / 2)) + 2 * Real.pi * (K.c1 * (b' - a') + K.c2 * ((b' ^ 2 - a' ^ 2) / 2)) * c
        + 2 * Real.pi * ((K.cc1 - K.ss1) * (b' - a') + (K.cc2 - K.ss2) * ((b' ^ 2 - a' ^ 2) / 2)) * c ^ 2) := by
    refine intervalIntegral.integral_congr (fun c hc => ?_)
    have hc1 := mem_abs ha hb hab hc
    have h : c ^ 2 ≤ 1 := by rw [← sq_abs]; exact pow_le_one₀ (abs_nonneg _) hc1
    have e2 : ∫ c' in a'..b', ∫ φ in (0:ℝ)..2 * Real.pi, rho ta alpha c c' φ
        = ∫ c' in a'..b', (2 * Real.pi * (K.ss1 * (1 - c ^ 2) + K.cc1 * c ^ 2 + K.c1 * c) + 2 * Real.pi * (K.ss2 * (1 - c ^ 2) + K.cc2 * c ^ 2 + K.c2 * c) * c') := by
      refine intervalIntegral.integral_congr (fun c' hc' => ?_)
      have hc1' := mem_abs ha' hb' hab' hc'
      have e3 : ∫ φ in (0:ℝ)..2 * Real.pi, rho ta alpha c c' φ = ∫ φ in (0:ℝ)..2 * Real.pi, dist { angCoeff ta alpha with sc4 := sc4Re ta alpha, s4 := s4Re ta alpha } c
          (Real.sqrt (1 - c ^ 2)) c' (2 * Real.sqrt ((1 + c') / 2) * Real.sqrt ((1 - c') / 2)) φ :=
        intervalIntegral.integral_congr (fun φ _ => rho_eq ta alpha c c' φ hc1 hc1')
      simp only [e3, int_phi, Real.sq_sqrt (show (0:ℝ) ≤ 1 - c ^ 2 by linarith)]
      rw [← hK]
      ring
    simp only [e2, int_lin]
    ring
  rw [e, int_quad]
  have := Real.pi_pos.ne'
  field_simp
  ring

/-! ## C106 -/

/-- The observables of the program are the total rate and the forward–backward asymmetries (in the lepton angle, the hadron angle, and both) of the angular distribution computed from helicity amplitudes. -/
theorem C106_angular (ta : Ta) (alpha : ℝ) :
    dG (angCoeff ta alpha) = rateIn ta alpha (-1) 1 (-1) 1
    ∧ afblNum (angCoeff ta alpha) = rateIn ta alpha 0 1 (-1) 1 - rateIn ta alpha (-1) 0 (-1) 1
    ∧ afbhNum (angCoeff ta alpha) = rateIn ta alpha (-1) 1 0 1 - rateIn ta alpha (-1) 1 (-1) 0
    ∧ afblhNum (angCoeff ta alpha) = (rateIn ta alpha 0 1 0 1 - rateIn ta alpha (-1) 0 0 1) - (rateIn ta alpha 0 1 (-1) 0 - rateIn ta alpha (-1) 0 (-1) 0) := by
  simp only [dG, afblNum, afbhNum, afblhNum]
  refine ⟨?_, ?_, ?_, ?_⟩ <;> (repeat rw [rateIn_eq]) <;> norm_num <;> ring

/-- The longitudinal fraction is the fraction of the rate in the amplitudes with a longitudinally polarised lepton pair; the rate is the sum of the squared amplitudes. -/
theorem C106_longitudinal (ta : Ta) (alpha : ℝ) :
    dG (angCoeff ta alpha) = (‖ta.L.perp0‖ ^ 2 + ‖ta.L.para0‖ ^ 2 + ‖ta.R.perp0‖ ^ 2 + ‖ta.R.para0‖ ^ 2)
        + (‖ta.L.perp1‖ ^ 2 + ‖ta.L.para1‖ ^ 2 + ‖ta.R.perp1‖ ^ 2 + ‖ta.R.para1‖ ^ 2)
    ∧ flNum (angCoeff ta alpha) = ‖ta.L.perp0‖ ^ 2 + ‖ta.L.para0‖ ^ 2 + ‖ta.R.perp0‖ ^ 2 + ‖ta.R.para0‖ ^ 2 := by
  simp only [dG, flNum, angCoeff]; constructor <;> ring

/-- With the coefficients of `cos φ` replaced by real parts, the coefficients of the program give the density from helicity amplitudes, which is non-negative for `|α| ≤ 1`. -/
theorem C106_density (ta : Ta) (alpha c c' φ : ℝ) (hc : |c| ≤ 1) (hc' : |c'| ≤ 1) (hα : |alpha| ≤ 1) :
    dist { angCoeff ta alpha with sc4 := sc4Re ta alpha, s4 := s4Re ta alpha } c (Real.sqrt (1 - c ^ 2)) c' (Real.sqrt (1 - c' ^ 2)) φ = rho ta alpha c c' φ
    ∧ 0 ≤ rho ta alpha c c' φ := by
  constructor
  · rw [rho_eq _ _ _ _ _ hc hc']
    have h := abs_le.1 hc'
    congr 1
    rw [mul_assoc, ← Real.sqrt_mul (by linarith), show (1 + c') / 2 * ((1 - c') / 2) = (1 - c' ^ 2) / 2 ^ 2 by ring, Real.sqrt_div' _ (by norm_num), Real.sqrt_sq (by norm_num)]
    ring
  · have h := abs_le.1 hα
    have h1 : 0 ≤ 1 + alpha := by linarith
    have h2 : 0 ≤ 1 - alpha := by linarith
    simp only [rho, dens]
    positivity

/-- Finding: the program takes imaginary instead of real parts for the coefficients of `cos φ`.  For real amplitudes these vanish, although the true coefficients do not. -/
theorem C106_k4_witness : ∃ ta : Ta, (angCoeff ta 1).sc4 = 0 ∧ (angCoeff ta 1).s4 = 0 ∧ sc4Re ta 1 ≠ 0 ∧ s4Re ta 1 ≠ 0 := by
  refine ⟨⟨⟨1, 0, 1, 1⟩, ⟨0, 0, 0, 0⟩⟩, ?_⟩
  simp [angCoeff, sc4Re, s4Re]

theorem re_le (z w : ℂ) : 2 * |(z * conj w).re| ≤ ‖z‖ ^ 2 + ‖w‖ ^ 2 := by
  have h := Complex.abs_re_le_norm (z * conj w)
  rw [norm_mul, Complex.norm_conj] at h
  nlinarith [sq_nonneg (‖z‖ - ‖w‖)]

/-- The asymmetries are bounded by the rate: `|AFBl| ≤ 3/4 (1 - FL)`, `|AFBh| ≤ |α|/2`, `|AFBlh| ≤ 3/8 |α| (1 - FL)`, `0 ≤ FL ≤ 1` (all multiplied by the rate). -/
theorem C106_bounds (ta : Ta) (alpha : ℝ) :
    0 ≤ flNum (angCoeff ta alpha) ∧ flNum (angCoeff ta alpha) ≤ dG (angCoeff ta alpha)
    ∧ |afblNum (angCoeff ta alpha)| ≤ 3 / 4 * (dG (angCoeff ta alpha) - flNum (angCoeff ta alpha))
    ∧ |afbhNum (angCoeff ta alpha)| ≤ |alpha| / 2 * dG (angCoeff ta alpha)
    ∧ |afblhNum (angCoeff ta alpha)| ≤ 3 / 8 * |alpha| * (dG (angCoeff ta alpha) - flNum (angCoeff ta alpha)) := by
  obtain ⟨h1, h2⟩ := C106_longitudinal ta alpha
  have r1 := re_le ta.R.perp1 ta.R.para1
  have r2 := re_le ta.L.perp1 ta.L.para1
  have r3 := re_le ta.R.perp0 ta.R.para0
  have r4 := re_le ta.L.perp0 ta.L.para0
  rw [h1, h2]
  refine ⟨by positivity, by have : 0 ≤ (‖ta.L.perp1‖ ^ 2 + ‖ta.L.para1‖ ^ 2 + ‖ta.R.perp1‖ ^ 2 + ‖ta.R.para1‖ ^ 2) := by positivity
                            linarith, ?_, ?_, ?_⟩
  · simp only [afblNum, angCoeff, Complex.sub_re, abs_mul, abs_neg]
    have := abs_sub (ta.R.perp1 * conj ta.R.para1).re (ta.L.perp1 * conj ta.L.para1).re
    rw [abs_of_pos (show (0:ℝ) < 3 / 2 by norm_num)]
    linarith
  · have e : afbhNum (angCoeff ta alpha) = alpha * ((ta.R.perp1 * conj ta.R.para1).re + (ta.L.perp1 * conj ta.L.para1).re + (ta.R.perp0 * conj ta.R.para0).re + (ta.L.perp0 * conj ta.L.para0).re) := by
      have h3 : (2 * ta.R.perp0 * conj ta.R.para0).re = 2 * (ta.R.perp0 * conj ta.R.para0).re := by
        rw [mul_assoc, show (2:ℂ) = ((2:ℝ):ℂ) by norm_num, Complex.re_ofReal_mul]
      have h4 : (2 * ta.L.perp0 * conj ta.L.para0).re = 2 * (ta.L.perp0 * conj ta.L.para0).re := by
        rw [mul_assoc, show (2:ℂ) = ((2:ℝ):ℂ) by norm_num, Complex.re_ofReal_mul]
      simp only [afbhNum, angCoeff, Complex.add_re, h3, h4]; ring
    rw [e, abs_mul]
    have hb : |(ta.R.perp1 * conj ta.R.para1).re + (ta.L.perp1 * conj ta.L.para1).re + (ta.R.perp0 * conj ta.R.para0).re + (ta.L.perp0 * conj ta.L.para0).re|
        ≤ 1 / 2 * ((‖ta.L.perp0‖ ^ 2 + ‖ta.L.para0‖ ^ 2 + ‖ta.R.perp0‖ ^ 2 + ‖ta.R.para0‖ ^ 2) + (‖ta.L.perp1‖ ^ 2 + ‖ta.L.para1‖ ^ 2 + ‖ta.R.perp1‖ ^ 2 + ‖ta.R.para1‖ ^ 2)) := by
      rw [abs_le]
      have a1 := abs_le.1 (show |(ta.R.perp1 * conj ta.R.para1).re| ≤ (‖ta.R.perp1‖ ^ 2 + ‖ta.R.para1‖ ^ 2) / 2 by linarith)
      have a2 := abs_le.1 (show |(ta.L.perp1 * conj ta.L.para1).re| ≤ (‖ta.L.perp1‖ ^ 2 + ‖ta.L.para1‖ ^ 2) / 2 by linarith)
      have a3 := abs_le.1 (show |(ta.R.perp0 * conj ta.R.para0).re| ≤ (‖ta.R.perp0‖ ^ 2 + ‖ta.R.para0‖ ^ 2) / 2 by linarith)
      have a4 := abs_le.1 (show |(ta.L.perp0 * conj ta.L.para0).re| ≤ (‖ta.L.perp0‖ ^ 2 + ‖ta.L.para0‖ ^ 2) / 2 by linarith)
      constructor <;> linarith [a1.1, a1.2, a2.1, a2.2, a3.1, a3.2, a4.1, a4.2]
    calc _ ≤ |alpha| * _ := mul_le_mul_of_nonneg_left hb (abs_nonneg _)
      _ = _ := by ring
  · have e : afblhNum (angCoeff ta alpha) = alpha * (-(3 / 8) * (‖ta.R.perp1‖ ^ 2 - ‖ta.L.perp1‖ ^ 2 + ‖ta.R.para1‖ ^ 2 - ‖ta.L.para1‖ ^ 2)) := by
      simp only [afblhNum, angCoeff]; ring
    rw [e, abs_mul]
    have hb : |-(3 / 8) * (‖ta.R.perp1‖ ^ 2 - ‖ta.L.perp1‖ ^ 2 + ‖ta.R.para1‖ ^ 2 - ‖ta.L.para1‖ ^ 2)| ≤ 3 / 8 * (‖ta.L.perp1‖ ^ 2 + ‖ta.L.para1‖ ^ 2 + ‖ta.R.perp1‖ ^ 2 + ‖ta.R.para1‖ ^ 2) := by
      rw [abs_le]
      constructor <;> linarith [sq_nonneg ‖ta.R.perp1‖, sq_nonneg ‖ta.L.perp1‖, sq_nonneg ‖ta.R.para1‖, sq_nonneg ‖ta.L.para1‖]
    calc _ ≤ |alpha| * _ := mul_le_mul_of_nonneg_left hb (abs_nonneg _)
      _ = _ := by ring

end Verif.Lambdab
