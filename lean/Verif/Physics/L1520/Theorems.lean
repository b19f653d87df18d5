import Verif.Physics.L1520.Model
import Mathlib.Analysis.SpecialFunctions.Integrals.Basic
/-!
# C107: `Λb → Λ(1520)(→ N K) ℓ⁺ ℓ⁻`: the angular distribution
-/
set_option linter.unusedVariables false
set_option linter.unusedSimpArgs false
set_option maxHeartbeats 2000000
namespace Verif.L1520
open Verif.Angular Verif.Py Verif.Running Complex MeasureTheory Set
local notation "conj" => starRingEnd ℂ

/-! ## Specification: the angular distribution -/

/-- The angular distribution in terms of the coefficients: `c, s` cosine and sine of the lepton angle, `c', s'` of the hadron angle, `φ` the azimuthal angle.  (Specification.) -/
noncomputable def dist (L : Ls) (c s c' s' φ : ℝ) : ℝ :=
  c' ^ 2 * (L.c1 * c + L.cc1 * c ^ 2 + L.ss1 * s ^ 2) + s' ^ 2 * (L.c2 * c + L.cc2 * c ^ 2 + L.ss2 * s ^ 2)
    + s' ^ 2 * (L.ss3 * s ^ 2 * Real.cos φ ^ 2 + L.ss4 * s ^ 2 * Real.sin φ * Real.cos φ)
    + s' * c' * Real.cos φ * (L.s5 * s + L.sc5 * s * c) + s' * c' * Real.sin φ * (L.s6 * s + L.sc6 * s * c)

/-- The Wigner functions `d^{3/2}_{m, 1/2}` and `d^{3/2}_{m, -1/2}` for `m = 3/2, 1/2, -1/2, -3/2`; `C, S` are cosine and sine of half the angle.  (Specification.) -/
noncomputable def d3p (C S : ℝ) : ℝ := -Real.sqrt 3 * C ^ 2 * S
/-- See `d3p`. (Specification.) -/
def d1p (C S : ℝ) : ℝ := C * (3 * C ^ 2 - 2)
/-- See `d3p`. (Specification.) -/
def dm1p (C S : ℝ) : ℝ := S * (2 - 3 * S ^ 2)
/-- See `d3p`. (Specification.) -/
noncomputable def dm3p (C S : ℝ) : ℝ := Real.sqrt 3 * C * S ^ 2
/-- See `d3p`. (Specification.) -/
noncomputable def d3m (C S : ℝ) : ℝ := Real.sqrt 3 * C * S ^ 2
/-- See `d3p`. (Specification.) -/
def d1m (C S : ℝ) : ℝ := S * (3 * S ^ 2 - 2)
/-- See `d3p`. (Specification.) -/
def dm1m (C S : ℝ) : ℝ := C * (3 * C ^ 2 - 2)
/-- See `d3p`. (Specification.) -/
noncomputable def dm3m (C S : ℝ) : ℝ := Real.sqrt 3 * C ^ 2 * S

/-- The density from helicity amplitudes for leptons of one chirality (`ε = -1` left-handed, `1` right-handed).  A `Λb` of spin component `1/2` decays to a `Λ(1520)` of spin component `1/2, -1/2, 3/2` and a
lepton pair of spin component `0, 1, -1`, one of spin component `-1/2` to the reversed ones; the lepton pair contributes `d¹`, the `Λ(1520)` the functions `d^{3/2}`, with both nucleon helicities
added incoherently.  (Specification.) -/
noncomputable def dens (eps : ℝ) (x : Six) (c s C S φ : ℝ) : ℝ :=
  let dPlus : ℝ := (1 + eps * c) / 2
  let dMinus : ℝ := (1 - eps * c) / 2
  let d0 : ℝ := -eps * s / Real.sqrt 2
  let u := (x.aperp0 + x.apara0) * d0
  let v := -((x.aperp1 + x.apara1) * dPlus * exp (-(I * φ)))
  let w := -((x.bperp1 - x.bpara1) * dMinus * exp (I * φ))
  let u' := (x.aperp0 - x.apara0) * d0
  let v' := -((x.aperp1 - x.apara1) * dMinus * exp (I * φ))
  let w' := -((x.bperp1 + x.bpara1) * dPlus * exp (-(I * φ)))
  (‖u * d1p C S + v * dm1p C S + w * d3p C S‖ ^ 2 + ‖u * d1m C S + v * dm1m C S + w * d3m C S‖ ^ 2)
    + (‖u' * dm1p C S + v' * d1p C S + w' * dm3p C S‖ ^ 2 + ‖u' * dm1m C S + v' * d1m C S + w' * dm3m C S‖ ^ 2)

theorem nsq (z : ℂ) : ‖z‖ ^ 2 = z.re ^ 2 + z.im ^ 2 := by
  rw [Complex.sq_norm, Complex.normSq_apply]; ring

theorem quad3 (u v w : ℂ) (a b e : ℝ) : ‖u * (a:ℝ) + v * (b:ℝ) + w * (e:ℝ)‖ ^ 2 =
    a ^ 2 * ‖u‖ ^ 2 + b ^ 2 * ‖v‖ ^ 2 + e ^ 2 * ‖w‖ ^ 2 + 2 * (a * b) * (u * conj v).re + 2 * (a * e) * (u * conj w).re + 2 * (b * e) * (v * conj w).re := by
  simp only [nsq, Complex.add_re, Complex.add_im, Complex.mul_re, Complex.mul_im, Complex.ofReal_re, Complex.ofReal_im, Complex.conj_re, Complex.conj_im]
  ring

theorem tri1 (u v w : ℂ) (C S : ℝ) (h : C ^ 2 + S ^ 2 = 1) :
    ‖u * d1p C S + v * dm1p C S + w * d3p C S‖ ^ 2 + ‖u * d1m C S + v * dm1m C S + w * d3m C S‖ ^ 2 =
      (1 + 3 * (C ^ 2 - S ^ 2) ^ 2) / 4 * (‖u‖ ^ 2 + ‖v‖ ^ 2) + 3 / 4 * (2 * C * S) ^ 2 * ‖w‖ ^ 2
        - Real.sqrt 3 * (2 * C * S) * (C ^ 2 - S ^ 2) * (u * conj w).re - Real.sqrt 3 / 2 * (2 * C * S) ^ 2 * (v * conj w).re := by
  have h3 : Real.sqrt 3 ^ 2 = 3 := Real.sq_sqrt (by norm_num)
  rw [quad3, quad3]
  simp only [d1p, dm1p, d3p, d1m, dm1m, d3m]
  generalize ‖u‖ = U
  generalize ‖v‖ = V
  generalize ‖w‖ = W
  generalize (u * conj v).re = X
  generalize (u * conj w).re = Y
  generalize (v * conj w).re = Z
  generalize Real.sqrt 3 = r at *
  have hS : S ^ 2 = 1 - C ^ 2 := by linarith
  have hS4 : S ^ 4 = (1 - C ^ 2) ^ 2 := by rw [← hS]; ring
  have hS6 : S ^ 6 = (1 - C ^ 2) ^ 3 := by rw [← hS]; ring
  have hS3 : S ^ 3 = S * (1 - C ^ 2) := by rw [← hS]; ring
  have hS5 : S ^ 5 = S * (1 - C ^ 2) ^ 2 := by rw [← hS]; ring
  ring_nf
  simp only [h3, hS, hS4, hS6, hS3, hS5]
  ring

theorem tri2 (u v w : ℂ) (C S : ℝ) (h : C ^ 2 + S ^ 2 = 1) :
    ‖u * dm1p C S + v * d1p C S + w * dm3p C S‖ ^ 2 + ‖u * dm1m C S + v * d1m C S + w * dm3m C S‖ ^ 2 =
      (1 + 3 * (C ^ 2 - S ^ 2) ^ 2) / 4 * (‖u‖ ^ 2 + ‖v‖ ^ 2) + 3 / 4 * (2 * C * S) ^ 2 * ‖w‖ ^ 2
        + Real.sqrt 3 * (2 * C * S) * (C ^ 2 - S ^ 2) * (u * conj w).re - Real.sqrt 3 / 2 * (2 * C * S) ^ 2 * (v * conj w).re := by
  have h3 : Real.sqrt 3 ^ 2 = 3 := Real.sq_sqrt (by norm_num)
  rw [quad3, quad3]
  simp only [d1p, dm1p, dm3p, d1m, dm1m, dm3m]
  generalize ‖u‖ = U
  generalize ‖v‖ = V
  generalize ‖w‖ = W
  generalize (u * conj v).re = X
  generalize (u * conj w).re = Y
  generalize (v * conj w).re = Z
  generalize Real.sqrt 3 = r at *
  have hS : S ^ 2 = 1 - C ^ 2 := by linarith
  have hS4 : S ^ 4 = (1 - C ^ 2) ^ 2 := by rw [← hS]; ring
  have hS6 : S ^ 6 = (1 - C ^ 2) ^ 3 := by rw [← hS]; ring
  have hS3 : S ^ 3 = S * (1 - C ^ 2) := by rw [← hS]; ring
  have hS5 : S ^ 5 = S * (1 - C ^ 2) ^ 2 := by rw [← hS]; ring
  ring_nf
  simp only [h3, hS, hS4, hS6, hS3, hS5]
  ring

theorem dens_eq (eps : ℝ) (he : eps ^ 2 = 1) (x : Six) (c s C S φ : ℝ) (h1 : c ^ 2 + s ^ 2 = 1) (h2 : C ^ 2 + S ^ 2 = 1) :
    dens eps x c s C S φ =
      (1 + 3 * (C ^ 2 - S ^ 2) ^ 2) / 4 * (s ^ 2 * (‖x.aperp0‖ ^ 2 + ‖x.apara0‖ ^ 2) + (‖x.aperp1‖ ^ 2 + ‖x.apara1‖ ^ 2) * (1 + c ^ 2) / 2 + 2 * eps * c * (x.aperp1 * conj x.apara1).re)
      + 3 / 4 * (2 * C * S) ^ 2 * ((‖x.bperp1‖ ^ 2 + ‖x.bpara1‖ ^ 2) * (1 + c ^ 2) / 2 + 2 * eps * c * (x.bperp1 * conj x.bpara1).re)
      + Real.sqrt (3 / 2) * (2 * C * S) * (C ^ 2 - S ^ 2) * s * (Real.cos φ * (-eps * ((x.bperp1 * conj x.apara0).re - (x.bpara1 * conj x.aperp0).re) + c * ((x.bperp1 * conj x.aperp0).re - (x.bpara1 * conj x.apara0).re))
        + Real.sin φ * (-eps * ((x.bpara1 * conj x.apara0).im - (x.bperp1 * conj x.aperp0).im) - c * ((x.bperp1 * conj x.apara0).im - (x.bpara1 * conj x.aperp0).im)))
      - Real.sqrt 3 / 4 * (2 * C * S) ^ 2 * s ^ 2 * ((2 * Real.cos φ ^ 2 - 1) * ((x.bperp1 * conj x.aperp1).re - (x.bpara1 * conj x.apara1).re)
        - 2 * Real.sin φ * Real.cos φ * ((x.bperp1 * conj x.apara1).im - (x.bpara1 * conj x.aperp1).im)) := by
  have hr2 : Real.sqrt 2 ^ 2 = 2 := Real.sq_sqrt (by norm_num)
  have hw : (Real.sqrt 2)⁻¹ ^ 2 = 1 / 2 := by rw [inv_pow, hr2]; norm_num
  have h32 : Real.sqrt (3 / 2) = Real.sqrt 3 * (Real.sqrt 2)⁻¹ := by rw [Real.sqrt_div' _ (by norm_num), div_eq_mul_inv]
  have hre : (exp (-(I * φ))).re = Real.cos φ := by
    rw [show -(I * (φ:ℂ)) = ((-φ : ℝ) : ℂ) * I by push_cast; ring, Complex.exp_ofReal_mul_I_re, Real.cos_neg]
  have him : (exp (-(I * φ))).im = -Real.sin φ := by
    rw [show -(I * (φ:ℂ)) = ((-φ : ℝ) : ℂ) * I by push_cast; ring, Complex.exp_ofReal_mul_I_im, Real.sin_neg]
  have hre2 : (exp (I * φ)).re = Real.cos φ := by rw [mul_comm, Complex.exp_ofReal_mul_I_re]
  have him2 : (exp (I * φ)).im = Real.sin φ := by rw [mul_comm, Complex.exp_ofReal_mul_I_im]
  have hcs : Real.sin φ ^ 2 = 1 - Real.cos φ ^ 2 := by linarith [Real.sin_sq_add_cos_sq φ]
  have hph : ‖exp (-(I * φ))‖ ^ 2 = 1 := by rw [nsq, hre, him]; linarith [Real.sin_sq_add_cos_sq φ]
  have hph2 : ‖exp (I * φ)‖ ^ 2 = 1 := by rw [nsq, hre2, him2]; linarith [Real.sin_sq_add_cos_sq φ]
  simp only [dens]
  rw [tri1 _ _ _ _ _ h2, tri2 _ _ _ _ _ h2, h32]
  simp only [norm_neg, norm_mul, mul_pow, hph, hph2, mul_one, Complex.norm_real, Real.norm_eq_abs, sq_abs]
  simp only [nsq, Complex.add_re, Complex.add_im, Complex.sub_re, Complex.sub_im, Complex.neg_re, Complex.neg_im, Complex.mul_re, Complex.mul_im, Complex.ofReal_re, Complex.ofReal_im,
    Complex.conj_re, Complex.conj_im, hre, him, hre2, him2, map_mul, map_neg]
  generalize x.aperp1.re = a1
  generalize x.aperp1.im = a2
  generalize x.apara1.re = b1
  generalize x.apara1.im = b2
  generalize x.aperp0.re = c1
  generalize x.aperp0.im = c2
  generalize x.apara0.re = d1
  generalize x.apara0.im = d2
  generalize x.bperp1.re = e1
  generalize x.bperp1.im = e2
  generalize x.bpara1.re = f1
  generalize x.bpara1.im = f2
  generalize C ^ 2 - S ^ 2 = X
  generalize 2 * C * S = Y
  simp only [div_eq_mul_inv]
  generalize (Real.sqrt 2)⁻¹ = w at *
  generalize Real.sqrt 3 = r at *
  generalize Real.cos φ = cp at *
  generalize Real.sin φ = sp at *
  have hs : s ^ 2 = 1 - c ^ 2 := by linarith
  have hs3 : s ^ 3 = s * (1 - c ^ 2) := by rw [← hs]; ring
  have hw3 : w ^ 3 = w / 2 := by rw [pow_succ, hw]; ring
  have hw4 : w ^ 4 = 1 / 4 := by rw [show (4:ℕ) = 2 * 2 from rfl, pow_mul, hw]; norm_num
  have he3 : eps ^ 3 = eps := by rw [pow_succ, he, one_mul]
  ring_nf
  simp only [he, he3, hw, hw3, hw4, hcs]
  ring_nf
  simp only [hs, hs3, hcs]
  ring

/-- The rate density in the cosines `c`, `c'` of the lepton and hadron angles and the azimuth `φ` (`br` the branching fraction of the decay to the final state).  (Specification.) -/
noncomputable def rho (ta : Ta) (br c c' φ : ℝ) : ℝ :=
  br * (dens (-1) ta.L c (Real.sqrt (1 - c ^ 2)) (Real.sqrt ((1 + c') / 2)) (Real.sqrt ((1 - c') / 2)) φ
    + dens 1 ta.R c (Real.sqrt (1 - c ^ 2)) (Real.sqrt ((1 + c') / 2)) (Real.sqrt ((1 - c') / 2)) φ)

/-- The rate with `c` in `[a, b]` and `c'` in `[a', b']`.  (Specification.) -/
noncomputable def rateIn (ta : Ta) (br a b a' b' : ℝ) : ℝ :=
  3 / (8 * Real.pi) * ∫ c in a..b, ∫ c' in a'..b', ∫ φ in (0:ℝ)..2 * Real.pi, rho ta br c c' φ

theorem dens_sum (ta : Ta) (br c s C S φ : ℝ) (h1 : c ^ 2 + s ^ 2 = 1) (h2 : C ^ 2 + S ^ 2 = 1) :
    br * (dens (-1) ta.L c s C S φ + dens 1 ta.R c s C S φ) = dist (angCoeff ta br) c s (C ^ 2 - S ^ 2) (2 * C * S) φ := by
  rw [dens_eq 1 (by norm_num) ta.R c s C S φ h1 h2, dens_eq (-1) (by norm_num) ta.L c s C S φ h1 h2]
  simp only [dist, angCoeff]
  have h3 : (C ^ 2 - S ^ 2) ^ 2 + (2 * C * S) ^ 2 = 1 := by
    have : (C ^ 2 - S ^ 2) ^ 2 + (2 * C * S) ^ 2 = (C ^ 2 + S ^ 2) ^ 2 := by ring
    rw [this, h2, one_pow]
  generalize C ^ 2 - S ^ 2 = X at *
  generalize 2 * C * S = Y at *
  have hX : X ^ 2 = 1 - Y ^ 2 := by linarith
  have hc : c ^ 2 = 1 - s ^ 2 := by linarith
  rw [hX, hc]
  ring

theorem half (c' : ℝ) (h : |c'| ≤ 1) :
    Real.sqrt ((1 + c') / 2) ^ 2 + Real.sqrt ((1 - c') / 2) ^ 2 = 1 ∧ Real.sqrt ((1 + c') / 2) ^ 2 - Real.sqrt ((1 - c') / 2) ^ 2 = c'
    ∧ 2 * Real.sqrt ((1 + c') / 2) * Real.sqrt ((1 - c') / 2) = Real.sqrt (1 - c' ^ 2) := by
  have h := abs_le.1 h
  refine ⟨?_, ?_, ?_⟩
  · rw [Real.sq_sqrt (by linarith), Real.sq_sqrt (by linarith)]; ring
  · rw [Real.sq_sqrt (by linarith), Real.sq_sqrt (by linarith)]; ring
  · rw [mul_assoc, ← Real.sqrt_mul (by linarith), show (1 + c') / 2 * ((1 - c') / 2) = (1 - c' ^ 2) / 2 ^ 2 by ring, Real.sqrt_div' _ (by norm_num), Real.sqrt_sq (by norm_num)]
    ring

theorem rho_eq (ta : Ta) (br c c' φ : ℝ) (hc : |c| ≤ 1) (hc' : |c'| ≤ 1) :
    rho ta br c c' φ = dist (angCoeff ta br) c (Real.sqrt (1 - c ^ 2)) c' (Real.sqrt (1 - c' ^ 2)) φ := by
  have h : c ^ 2 ≤ 1 := by rw [← sq_abs]; exact pow_le_one₀ (abs_nonneg _) hc
  rw [rho, dens_sum _ _ _ _ _ _ _ (by rw [Real.sq_sqrt (by linarith)]; ring) (half c' hc').1, (half c' hc').2.1, (half c' hc').2.2]

theorem int_phi (L : Ls) (c s c' s' : ℝ) : ∫ φ in (0:ℝ)..2 * Real.pi, dist L c s c' s' φ =
    2 * Real.pi * (c' ^ 2 * (L.c1 * c + L.cc1 * c ^ 2 + L.ss1 * s ^ 2) + s' ^ 2 * (L.c2 * c + L.cc2 * c ^ 2 + (L.ss2 + L.ss3 / 2) * s ^ 2)) := by
  have h : ∀ A B D E F : ℝ, ∫ φ in (0:ℝ)..2 * Real.pi, (A + B * Real.cos φ ^ 2 + D * (Real.sin φ * Real.cos φ) + E * Real.cos φ + F * Real.sin φ) = 2 * Real.pi * (A + B / 2) := by
    intro A B D E F
    have hh : ∀ φ : ℝ, HasDerivAt (fun φ => A * φ + B * (φ / 2 + Real.sin φ * Real.cos φ / 2) + D * (Real.sin φ ^ 2 / 2) + E * Real.sin φ + F * (-Real.cos φ))
        (A + B * Real.cos φ ^ 2 + D * (Real.sin φ * Real.cos φ) + E * Real.cos φ + F * Real.sin φ) φ := by
      intro φ
      have s1 := Real.hasDerivAt_sin φ
      have c1 := Real.hasDerivAt_cos φ
      have := (((((hasDerivAt_id φ).const_mul A).add ((((hasDerivAt_id φ).div_const 2).add ((s1.mul c1).div_const 2)).const_mul B)).add (((s1.pow 2).div_const 2).const_mul D)).add (s1.const_mul E)).add
        (c1.neg.const_mul F)
      refine this.congr_deriv ?_
      have := Real.sin_sq_add_cos_sq φ
      simp
      linear_combination (-B / 2) * this
    rw [intervalIntegral.integral_eq_sub_of_hasDerivAt (fun x _ => hh x) (Continuous.intervalIntegrable (by fun_prop) _ _)]
    simp
    ring
  have e : ∀ φ, dist L c s c' s' φ = (c' ^ 2 * (L.c1 * c + L.cc1 * c ^ 2 + L.ss1 * s ^ 2) + s' ^ 2 * (L.c2 * c + L.cc2 * c ^ 2 + L.ss2 * s ^ 2))
      + (s' ^ 2 * (L.ss3 * s ^ 2)) * Real.cos φ ^ 2 + (s' ^ 2 * (L.ss4 * s ^ 2)) * (Real.sin φ * Real.cos φ) + (s' * c' * (L.s5 * s + L.sc5 * s * c)) * Real.cos φ
      + (s' * c' * (L.s6 * s + L.sc6 * s * c)) * Real.sin φ := fun φ => by simp only [dist]; ring
  simp only [e]
  rw [h]
  ring

theorem int_quad (A B D a b : ℝ) : ∫ x in a..b, (A + B * x + D * x ^ 2) = A * (b - a) + B * ((b ^ 2 - a ^ 2) / 2) + D * ((b ^ 3 - a ^ 3) / 3) := by
  have hh : ∀ x : ℝ, HasDerivAt (fun x => A * x + B * (x ^ 2 / 2) + D * (x ^ 3 / 3)) (A + B * x + D * x ^ 2) x := by
    intro x
    refine ((((hasDerivAt_id x).const_mul A).add (((hasDerivAt_pow 2 x).div_const 2).const_mul B)).add (((hasDerivAt_pow 3 x).div_const 3).const_mul D)).congr_deriv ?_
    simp
  rw [intervalIntegral.integral_eq_sub_of_hasDerivAt (fun x _ => hh x) (Continuous.intervalIntegrable (by fun_prop) _ _)]
  ring

theorem mem_abs {a b x : ℝ} (ha : -1 ≤ a) (hb : b ≤ 1) (hab : a ≤ b) (h : x ∈ Set.uIcc a b) : |x| ≤ 1 := by
  rw [Set.uIcc_of_le hab] at h
  exact abs_le.2 ⟨by linarith [h.1], by linarith [h.2]⟩

theorem rateIn_eq (ta : Ta) (br a b a' b' : ℝ) (ha : -1 ≤ a) (hb : b ≤ 1) (hab : a ≤ b) (ha' : -1 ≤ a') (hb' : b' ≤ 1) (hab' : a' ≤ b') :
    rateIn ta br a b a' b' =
      3 / 4 * (((angCoeff ta br).ss1 * ((b - a) - (b ^ 3 - a ^ 3) / 3) + (angCoeff ta br).cc1 * ((b ^ 3 - a ^ 3) / 3) + (angCoeff ta br).c1 * ((b ^ 2 - a ^ 2) / 2)) * ((b' ^ 3 - a' ^ 3) / 3)
        + (((angCoeff ta br).ss2 + (angCoeff ta br).ss3 / 2) * ((b - a) - (b ^ 3 - a ^ 3) / 3) + (angCoeff ta br).cc2 * ((b ^ 3 - a ^ 3) / 3) + (angCoeff ta br).c2 * ((b ^ 2 - a ^ 2) / 2))
          * ((b' - a') - (b' ^ 3 - a' ^ 3) / 3)) := by
  rw [rateIn]
  set K := angCoeff ta br with hK
  have e : ∫ c in a..b, ∫ c' in a'..b', ∫ φ in (0:ℝ)..2 * Real.pi, rho ta br c c' φ
      = ∫ c in a..b, (2 * Real.pi * (K.ss1 * ((b' ^ 3 - a' ^ 3) / 3) + (K.ss2 + K.ss3 / 2) * ((b' - a') - (b' ^ 3 - a' ^ 3) / 3))
        + 2 * Real.pi * (K.c1 * ((b' ^ 3 - a' ^ 3) / 3) + K.c2 * ((b' - a') - (b' ^ 3 - a' ^ 3) / 3)) * c
        + 2 * Real.pi * ((K.cc1 - K.ss1) * ((b' ^ 3 - a' ^ 3) / 3) + (K.cc2 - (K.ss2 + K.ss3 / 2)) * ((b' - a') - (b' ^ 3 - a' ^ 3) / 3)) * c ^ 2) := by
    refine intervalIntegral.integral_congr (fun c hc => ?_)
    have hc1 := mem_abs ha hb hab hc
    have h : c ^ 2 ≤ 1 := by rw [← sq_abs]; exact pow_le_one₀ (abs_nonneg _) hc1
    have e2 : ∫ c' in a'..b', ∫ φ in (0:ℝ)..2 * Real.pi, rho ta br c c' φ
        = ∫ c' in a'..b', (2 * Real.pi * (K.c2 * c + K.cc2 * c ^ 2 + (K.ss2 + K.ss3 / 2) * (1 - c ^ 2)) + 0 * c'
          + 2 * Real.pi * ((K.c1 * c + K.cc1 * c ^ 2 + K.ss1 * (1 - c ^ 2)) - (K.c2 * c + K.cc2 * c ^ 2 + (K.ss2 + K.ss3 / 2) * (1 - c ^ 2))) * c' ^ 2) := by
      refine intervalIntegral.integral_congr (fun c' hc' => ?_)
      have hc1' := mem_abs ha' hb' hab' hc'
      have h' : c' ^ 2 ≤ 1 := by rw [← sq_abs]; exact pow_le_one₀ (abs_nonneg _) hc1'
      have e3 : ∫ φ in (0:ℝ)..2 * Real.pi, rho ta br c c' φ = ∫ φ in (0:ℝ)..2 * Real.pi, dist (angCoeff ta br) c (Real.sqrt (1 - c ^ 2)) c' (Real.sqrt (1 - c' ^ 2)) φ :=
        intervalIntegral.integral_congr (fun φ _ => rho_eq ta br c c' φ hc1 hc1')
      simp only [e3, int_phi, Real.sq_sqrt (show (0:ℝ) ≤ 1 - c ^ 2 by linarith), Real.sq_sqrt (show (0:ℝ) ≤ 1 - c' ^ 2 by linarith)]
      rw [← hK]
      ring
    simp only [e2, int_quad]
    ring
  rw [e, int_quad]
  have := Real.pi_pos.ne'
  field_simp
  ring

/-! ## C107 -/

/-- All twelve coefficients: the angular distribution of the program is the density from helicity amplitudes, and it is non-negative. -/
theorem C107_density (ta : Ta) (br c c' φ : ℝ) (hc : |c| ≤ 1) (hc' : |c'| ≤ 1) (hbr : 0 ≤ br) :
    dist (angCoeff ta br) c (Real.sqrt (1 - c ^ 2)) c' (Real.sqrt (1 - c' ^ 2)) φ = rho ta br c c' φ ∧ 0 ≤ rho ta br c c' φ := by
  refine ⟨(rho_eq _ _ _ _ _ hc hc').symm, ?_⟩
  simp only [rho, dens]
  positivity

/-- The CP averaged rate and lepton side asymmetry are integrals of the angular distribution; the hadron side and the combined asymmetry vanish, as the program assumes. -/
theorem C107_angular (ta tb : Ta) (br : ℝ) :
    dG (angCoeff ta br) (angCoeff tb br) = (rateIn ta br (-1) 1 (-1) 1 + rateIn tb br (-1) 1 (-1) 1) / 2
    ∧ afblNum (angCoeff ta br) (angCoeff tb br)
        = ((rateIn ta br 0 1 (-1) 1 - rateIn ta br (-1) 0 (-1) 1) + (rateIn tb br 0 1 (-1) 1 - rateIn tb br (-1) 0 (-1) 1)) / 2
    ∧ rateIn ta br (-1) 1 0 1 - rateIn ta br (-1) 1 (-1) 0 = 0
    ∧ (rateIn ta br 0 1 0 1 - rateIn ta br (-1) 0 0 1) - (rateIn ta br 0 1 (-1) 0 - rateIn ta br (-1) 0 (-1) 0) = 0 := by
  simp only [dG, afblNum]
  refine ⟨?_, ?_, ?_, ?_⟩ <;> (repeat rw [rateIn_eq]) <;> norm_num <;> ring

/-- The sum of the squared amplitudes with longitudinal and with transverse lepton pair.  (Specification.) -/
noncomputable def sqL (t : Ta) : ℝ := ‖t.L.aperp0‖ ^ 2 + ‖t.L.apara0‖ ^ 2 + ‖t.R.aperp0‖ ^ 2 + ‖t.R.apara0‖ ^ 2
/-- See `sqL`. (Specification.) -/
noncomputable def sqT (t : Ta) : ℝ :=
  ‖t.L.aperp1‖ ^ 2 + ‖t.L.apara1‖ ^ 2 + ‖t.L.bperp1‖ ^ 2 + ‖t.L.bpara1‖ ^ 2 + ‖t.R.aperp1‖ ^ 2 + ‖t.R.apara1‖ ^ 2 + ‖t.R.bperp1‖ ^ 2 + ‖t.R.bpara1‖ ^ 2

theorem sqL_nonneg (t : Ta) : 0 ≤ sqL t := by unfold sqL; positivity
theorem sqT_nonneg (t : Ta) : 0 ≤ sqT t := by unfold sqT; positivity

/-- The rate is the sum of the squared amplitudes, `FL` the longitudinal part. -/
theorem C107_longitudinal (ta tb : Ta) (br : ℝ) :
    dG (angCoeff ta br) (angCoeff tb br) = br * ((sqL ta + sqT ta) + (sqL tb + sqT tb)) / 2
    ∧ flNum (angCoeff ta br) (angCoeff tb br) = br * (sqL ta + sqL tb) / 2 := by
  simp only [dG, flNum, angCoeff, sqL, sqT]; constructor <;> ring

theorem prod_le (z w : ℂ) : 2 * |(z * conj w).re| ≤ ‖z‖ ^ 2 + ‖w‖ ^ 2 ∧ 2 * |(z * conj w).im| ≤ ‖z‖ ^ 2 + ‖w‖ ^ 2 := by
  have h := Complex.abs_re_le_norm (z * conj w)
  have h' := Complex.abs_im_le_norm (z * conj w)
  rw [norm_mul, Complex.norm_conj] at h h'
  constructor <;> nlinarith [sq_nonneg (‖z‖ - ‖w‖)]

/-- The twelve coefficients.  (Specification.) -/
def coeffs : List (Ls → ℝ) := [Ls.c1, Ls.cc1, Ls.ss1, Ls.c2, Ls.cc2, Ls.ss2, Ls.ss3, Ls.ss4, Ls.s5, Ls.sc5, Ls.s6, Ls.sc6]

theorem coeff_le (ta : Ta) (br : ℝ) (hbr : 0 ≤ br) (g : Ls → ℝ) (hg : g ∈ coeffs) : |g (angCoeff ta br)| ≤ br * (sqL ta + sqT ta) := by
  have h3 : Real.sqrt 3 ≤ 2 := by rw [Real.sqrt_le_left (by norm_num)]; norm_num
  have h30 : 0 ≤ Real.sqrt 3 := Real.sqrt_nonneg _
  have h32 : Real.sqrt (3 / 2) ≤ 2 := by rw [Real.sqrt_le_left (by norm_num)]; norm_num
  have h320 : 0 ≤ Real.sqrt (3 / 2) := Real.sqrt_nonneg _
  have hle : ∀ x y k : ℝ, 0 ≤ k → |x| ≤ y → ∀ z, z = k * x → |z| ≤ k * y := by
    intro x y k hk hx z hz
    rw [hz, abs_mul, abs_of_nonneg hk]
    exact mul_le_mul_of_nonneg_left hx hk
  have A (z w : ℂ) := abs_le.1 (show |(z * conj w).re| ≤ (‖z‖ ^ 2 + ‖w‖ ^ 2) / 2 by linarith [(prod_le z w).1])
  have B (z w : ℂ) := abs_le.1 (show |(z * conj w).im| ≤ (‖z‖ ^ 2 + ‖w‖ ^ 2) / 2 by linarith [(prod_le z w).2])
  have n (z : ℂ) : 0 ≤ ‖z‖ ^ 2 := by positivity
  have n1 := n ta.L.aperp1; have n2 := n ta.L.apara1; have n3 := n ta.L.aperp0; have n4 := n ta.L.apara0; have n5 := n ta.L.bperp1; have n6 := n ta.L.bpara1
  have m1 := n ta.R.aperp1; have m2 := n ta.R.apara1; have m3 := n ta.R.aperp0; have m4 := n ta.R.apara0; have m5 := n ta.R.bperp1; have m6 := n ta.R.bpara1
  have scale : ∀ (k x y : ℝ), 0 ≤ k → k ≤ 2 → |x| ≤ y / 2 → |k * x| ≤ y := by
    intro k x y hk hk2 hx
    rw [abs_mul, abs_of_nonneg hk]
    nlinarith [abs_nonneg x]
  simp only [coeffs, List.mem_cons, List.not_mem_nil, or_false] at hg
  unfold sqL sqT
  rcases hg with rfl | rfl | rfl | rfl | rfl | rfl | rfl | rfl | rfl | rfl | rfl | rfl
  · refine hle (-2 * ((ta.L.aperp1 * conj ta.L.apara1).re - (ta.R.aperp1 * conj ta.R.apara1).re)) _ br hbr ?_ _ (by simp only [angCoeff]; ring)
    have a1 := A ta.L.aperp1 ta.L.apara1; have a2 := A ta.R.aperp1 ta.R.apara1
    rw [abs_le]; constructor <;> linarith [a1.1, a1.2, a2.1, a2.2]
  · refine hle (‖ta.L.apara1‖ ^ 2 + ‖ta.L.aperp1‖ ^ 2 + ‖ta.R.apara1‖ ^ 2 + ‖ta.R.aperp1‖ ^ 2) _ br hbr ?_ _ (by simp only [angCoeff])
    rw [abs_le]; constructor <;> linarith
  · refine hle (1 / 2 * (2 * (‖ta.L.apara0‖ ^ 2 + ‖ta.L.aperp0‖ ^ 2) + ‖ta.L.apara1‖ ^ 2 + ‖ta.L.aperp1‖ ^ 2
      + 2 * (‖ta.R.apara0‖ ^ 2 + ‖ta.R.aperp0‖ ^ 2) + ‖ta.R.apara1‖ ^ 2 + ‖ta.R.aperp1‖ ^ 2)) _ br hbr ?_ _ (by simp only [angCoeff]; ring)
    rw [abs_le]; constructor <;> linarith
  · refine hle (-1 / 2 * ((ta.L.aperp1 * conj ta.L.apara1).re + 3 * (ta.L.bperp1 * conj ta.L.bpara1).re
      - (ta.R.aperp1 * conj ta.R.apara1).re - 3 * (ta.R.bperp1 * conj ta.R.bpara1).re)) _ br hbr ?_ _ (by simp only [angCoeff]; ring)
    have a1 := A ta.L.aperp1 ta.L.apara1; have a2 := A ta.R.aperp1 ta.R.apara1; have a3 := A ta.L.bperp1 ta.L.bpara1; have a4 := A ta.R.bperp1 ta.R.bpara1
    rw [abs_le]; constructor <;> linarith [a1.1, a1.2, a2.1, a2.2, a3.1, a3.2, a4.1, a4.2]
  · refine hle (1 / 4 * (‖ta.L.apara1‖ ^ 2 + ‖ta.L.aperp1‖ ^ 2 + 3 * (‖ta.L.bpara1‖ ^ 2 + ‖ta.L.bperp1‖ ^ 2)
      + ‖ta.R.apara1‖ ^ 2 + ‖ta.R.aperp1‖ ^ 2 + 3 * (‖ta.R.bpara1‖ ^ 2 + ‖ta.R.bperp1‖ ^ 2))) _ br hbr ?_ _ (by simp only [angCoeff]; ring)
    rw [abs_le]; constructor <;> linarith
  · refine hle (1 / 8 * (2 * ‖ta.L.apara0‖ ^ 2 + ‖ta.L.apara1‖ ^ 2 + 2 * ‖ta.L.aperp0‖ ^ 2 + ‖ta.L.aperp1‖ ^ 2
      + 3 * (‖ta.L.bpara1‖ ^ 2 + ‖ta.L.bperp1‖ ^ 2)
      + 2 * ‖ta.R.apara0‖ ^ 2 + ‖ta.R.apara1‖ ^ 2 + 2 * ‖ta.R.aperp0‖ ^ 2 + ‖ta.R.aperp1‖ ^ 2
      + 3 * (‖ta.R.bpara1‖ ^ 2 + ‖ta.R.bperp1‖ ^ 2))
      + Real.sqrt 3 * (1 / 4 * (-(ta.L.bpara1 * conj ta.L.apara1).re + (ta.L.bperp1 * conj ta.L.aperp1).re - (ta.R.bpara1 * conj ta.R.apara1).re + (ta.R.bperp1 * conj ta.R.aperp1).re)))
      _ br hbr ?_ _ (by simp only [angCoeff]; ring)
    have a1 := A ta.L.bpara1 ta.L.apara1; have a2 := A ta.L.bperp1 ta.L.aperp1; have a3 := A ta.R.bpara1 ta.R.apara1; have a4 := A ta.R.bperp1 ta.R.aperp1
    have hx := scale (Real.sqrt 3) (1 / 4 * (-(ta.L.bpara1 * conj ta.L.apara1).re + (ta.L.bperp1 * conj ta.L.aperp1).re - (ta.R.bpara1 * conj ta.R.apara1).re + (ta.R.bperp1 * conj ta.R.aperp1).re))
      (1 / 4 * (‖ta.L.apara1‖ ^ 2 + ‖ta.L.aperp1‖ ^ 2 + ‖ta.L.bpara1‖ ^ 2 + ‖ta.L.bperp1‖ ^ 2 + ‖ta.R.apara1‖ ^ 2 + ‖ta.R.aperp1‖ ^ 2 + ‖ta.R.bpara1‖ ^ 2 + ‖ta.R.bperp1‖ ^ 2)) h30 h3
      (by rw [abs_le]; constructor <;> linarith [a1.1, a1.2, a2.1, a2.2, a3.1, a3.2, a4.1, a4.2])
    have hx := abs_le.1 hx
    rw [abs_le]; constructor <;> linarith [hx.1, hx.2]
  · refine hle (Real.sqrt 3 * (1 / 2 * ((ta.L.bpara1 * conj ta.L.apara1).re - (ta.L.bperp1 * conj ta.L.aperp1).re
      + (ta.R.bpara1 * conj ta.R.apara1).re - (ta.R.bperp1 * conj ta.R.aperp1).re))) _ br hbr (scale _ _ _ h30 h3 ?_) _ (by simp only [angCoeff]; ring)
    have a1 := A ta.L.bpara1 ta.L.apara1; have a2 := A ta.L.bperp1 ta.L.aperp1; have a3 := A ta.R.bpara1 ta.R.apara1; have a4 := A ta.R.bperp1 ta.R.aperp1
    rw [abs_le]; constructor <;> linarith [a1.1, a1.2, a2.1, a2.2, a3.1, a3.2, a4.1, a4.2]
  · refine hle (Real.sqrt 3 * (1 / 2 * ((ta.L.bperp1 * conj ta.L.apara1).im - (ta.L.bpara1 * conj ta.L.aperp1).im
      + (ta.R.bperp1 * conj ta.R.apara1).im - (ta.R.bpara1 * conj ta.R.aperp1).im))) _ br hbr (scale _ _ _ h30 h3 ?_) _ (by simp only [angCoeff]; ring)
    have a1 := B ta.L.bperp1 ta.L.apara1; have a2 := B ta.L.bpara1 ta.L.aperp1; have a3 := B ta.R.bperp1 ta.R.apara1; have a4 := B ta.R.bpara1 ta.R.aperp1
    rw [abs_le]; constructor <;> linarith [a1.1, a1.2, a2.1, a2.2, a3.1, a3.2, a4.1, a4.2]
  · refine hle (Real.sqrt (3 / 2) * ((ta.L.bperp1 * conj ta.L.apara0).re - (ta.L.bpara1 * conj ta.L.aperp0).re
      - (ta.R.bperp1 * conj ta.R.apara0).re + (ta.R.bpara1 * conj ta.R.aperp0).re)) _ br hbr (scale _ _ _ h320 h32 ?_) _ (by simp only [angCoeff]; ring)
    have a1 := A ta.L.bperp1 ta.L.apara0; have a2 := A ta.L.bpara1 ta.L.aperp0; have a3 := A ta.R.bperp1 ta.R.apara0; have a4 := A ta.R.bpara1 ta.R.aperp0
    rw [abs_le]; constructor <;> linarith [a1.1, a1.2, a2.1, a2.2, a3.1, a3.2, a4.1, a4.2]
  · refine hle (Real.sqrt (3 / 2) * (-(ta.L.bpara1 * conj ta.L.apara0).re + (ta.L.bperp1 * conj ta.L.aperp0).re
      - (ta.R.bpara1 * conj ta.R.apara0).re + (ta.R.bperp1 * conj ta.R.aperp0).re)) _ br hbr (scale _ _ _ h320 h32 ?_) _ (by simp only [angCoeff]; ring)
    have a1 := A ta.L.bpara1 ta.L.apara0; have a2 := A ta.L.bperp1 ta.L.aperp0; have a3 := A ta.R.bpara1 ta.R.apara0; have a4 := A ta.R.bperp1 ta.R.aperp0
    rw [abs_le]; constructor <;> linarith [a1.1, a1.2, a2.1, a2.2, a3.1, a3.2, a4.1, a4.2]
  · refine hle (Real.sqrt (3 / 2) * ((ta.L.bpara1 * conj ta.L.apara0).im - (ta.L.bperp1 * conj ta.L.aperp0).im
      - (ta.R.bpara1 * conj ta.R.apara0).im + (ta.R.bperp1 * conj ta.R.aperp0).im)) _ br hbr (scale _ _ _ h320 h32 ?_) _ (by simp only [angCoeff]; ring)
    have a1 := B ta.L.bpara1 ta.L.apara0; have a2 := B ta.L.bperp1 ta.L.aperp0; have a3 := B ta.R.bpara1 ta.R.apara0; have a4 := B ta.R.bperp1 ta.R.aperp0
    rw [abs_le]; constructor <;> linarith [a1.1, a1.2, a2.1, a2.2, a3.1, a3.2, a4.1, a4.2]
  · refine hle (Real.sqrt (3 / 2) * (-((ta.L.bperp1 * conj ta.L.apara0).im - (ta.L.bpara1 * conj ta.L.aperp0).im
      + (ta.R.bperp1 * conj ta.R.apara0).im - (ta.R.bpara1 * conj ta.R.aperp0).im))) _ br hbr (scale _ _ _ h320 h32 ?_) _ (by simp only [angCoeff]; ring)
    have a1 := B ta.L.bperp1 ta.L.apara0; have a2 := B ta.L.bpara1 ta.L.aperp0; have a3 := B ta.R.bperp1 ta.R.apara0; have a4 := B ta.R.bpara1 ta.R.aperp0
    rw [abs_le]; constructor <;> linarith [a1.1, a1.2, a2.1, a2.2, a3.1, a3.2, a4.1, a4.2]

/-- Bounds of all numerators by the rate. -/
theorem C107_bounds (ta tb : Ta) (br : ℝ) (hbr : 0 ≤ br) :
    0 ≤ flNum (angCoeff ta br) (angCoeff tb br) ∧ flNum (angCoeff ta br) (angCoeff tb br) ≤ dG (angCoeff ta br) (angCoeff tb br)
    ∧ |afblNum (angCoeff ta br) (angCoeff tb br)| ≤ 3 / 4 * (dG (angCoeff ta br) (angCoeff tb br) - flNum (angCoeff ta br) (angCoeff tb br))
    ∧ (∀ g ∈ coeffs, |obsS g (angCoeff ta br) (angCoeff tb br)| ≤ dG (angCoeff ta br) (angCoeff tb br)
        ∧ |obsA g (angCoeff ta br) (angCoeff tb br)| ≤ dG (angCoeff ta br) (angCoeff tb br)) := by
  obtain ⟨h1, h2⟩ := C107_longitudinal ta tb br
  rw [h1, h2]
  have p1 := mul_nonneg hbr (sqL_nonneg ta); have p2 := mul_nonneg hbr (sqL_nonneg tb)
  have p3 := mul_nonneg hbr (sqT_nonneg ta); have p4 := mul_nonneg hbr (sqT_nonneg tb)
  refine ⟨by linarith, by linarith, ?_, fun g hg => ?_⟩
  · have key (t : Ta) : |(angCoeff t br).c1 + 2 * (angCoeff t br).c2| ≤ 3 / 2 * (br * sqT t) := by
      have A (z w : ℂ) := abs_le.1 (show |(z * conj w).re| ≤ (‖z‖ ^ 2 + ‖w‖ ^ 2) / 2 by linarith [(prod_le z w).1])
      have e : (angCoeff t br).c1 + 2 * (angCoeff t br).c2 = br * (-3 * ((t.L.aperp1 * conj t.L.apara1).re + (t.L.bperp1 * conj t.L.bpara1).re - (t.R.aperp1 * conj t.R.apara1).re - (t.R.bperp1 * conj t.R.bpara1).re)) := by
        simp only [angCoeff]; ring
      rw [e, abs_mul, abs_of_nonneg hbr, show 3 / 2 * (br * sqT t) = br * (3 / 2 * sqT t) by ring]
      refine mul_le_mul_of_nonneg_left ?_ hbr
      have a1 := A t.L.aperp1 t.L.apara1; have a2 := A t.R.aperp1 t.R.apara1; have a3 := A t.L.bperp1 t.L.bpara1; have a4 := A t.R.bperp1 t.R.bpara1
      unfold sqT
      rw [abs_le]; constructor <;> linarith [a1.1, a1.2, a2.1, a2.2, a3.1, a3.2, a4.1, a4.2]
    have k1 := abs_le.1 (key ta); have k2 := abs_le.1 (key tb)
    simp only [afblNum]
    rw [abs_le]; constructor <;> linarith [k1.1, k1.2, k2.1, k2.2]
  · have k1 := abs_le.1 (coeff_le ta br hbr g hg); have k2 := abs_le.1 (coeff_le tb br hbr g hg)
    simp only [obsS, obsA]
    constructor <;> rw [abs_le] <;> constructor <;> linarith [k1.1, k1.2, k2.1, k2.2]

end Verif.L1520
