import Mathlib.Analysis.SpecialFunctions.Trigonometric.Basic
import Verif.Physics.Angular.VSos
/-!
# Positivity of the `B → V ℓ₁ ℓ₂` angular distribution
-/
set_option linter.unusedVariables false
set_option linter.unusedSimpArgs false
namespace Verif.Angular
open Verif.Common Complex ComplexConjugate

/-- **Specification.** The angular distribution (up to the constant 9/32π) in terms of the twelve coefficients,
as a function of the three decay angles: the standard parametrisation of `B → V(→P P') ℓ ℓ`. -/
noncomputable def rateV (J : JV) (tK tl ph : ℝ) : ℝ :=
  J.j1s * Real.sin tK ^ 2 + J.j1c * Real.cos tK ^ 2
  + (J.j2s * Real.sin tK ^ 2 + J.j2c * Real.cos tK ^ 2) * Real.cos (2 * tl)
  + J.j3 * Real.sin tK ^ 2 * Real.sin tl ^ 2 * Real.cos (2 * ph)
  + J.j4 * Real.sin (2 * tK) * Real.sin (2 * tl) * Real.cos ph
  + J.j5 * Real.sin (2 * tK) * Real.sin tl * Real.cos ph
  + (J.j6s * Real.sin tK ^ 2 + J.j6c * Real.cos tK ^ 2) * Real.cos tl
  + J.j7 * Real.sin (2 * tK) * Real.sin tl * Real.sin ph
  + J.j8 * Real.sin (2 * tK) * Real.sin (2 * tl) * Real.sin ph
  + J.j9 * Real.sin tK ^ 2 * Real.sin tl ^ 2 * Real.sin (2 * ph)

theorem tri (x y z : ℝ) (a b d e : ℂ) (he : normSq e = 1) :
    normSq (x * a * e + y * b + z * d * conj e) = x ^ 2 * normSq a + y ^ 2 * normSq b + z ^ 2 * normSq d
      + 2 * x * y * (a * conj b * e).re + 2 * y * z * (b * conj d * e).re + 2 * x * z * (a * conj d * e ^ 2).re := by
  simp only [normSq_apply] at he
  simp only [normSq_apply, sq, add_re, add_im, mul_re, mul_im, conj_re, conj_im, ofReal_re, ofReal_im]
  linear_combination (x ^ 2 * (a.re ^ 2 + a.im ^ 2) + z ^ 2 * (d.re ^ 2 + d.im ^ 2)) * he

theorem nadd (a b : ℂ) : normSq (a + b) = normSq a + normSq b + 2 * (a * conj b).re := normSq_add a b
theorem nsub (a b : ℂ) : normSq (a - b) = normSq a + normSq b - 2 * (a * conj b).re := normSq_sub a b
theorem badd (a b c d e : ℂ) : ((a + b) * conj (c + d) * e).re = (a * conj c * e).re + (a * conj d * e).re
    + (b * conj c * e).re + (b * conj d * e).re := by
  simp only [map_add, add_mul, mul_add, add_re]; ring
theorem bsub (a b c d e : ℂ) : ((a - b) * conj (c - d) * e).re = (a * conj c * e).re - (a * conj d * e).re
    - (b * conj c * e).re + (b * conj d * e).re := by
  simp only [map_sub, sub_mul, mul_sub, sub_re]; ring
theorem nlin (k c v : ℝ) (f s : ℂ) : normSq ((k : ℂ) * ((c : ℂ) * f - (v : ℂ) * s))
    = k ^ 2 * (c ^ 2 * normSq f + v ^ 2 * normSq s - 2 * c * (f * conj ((v : ℂ) * s)).re) := by
  simp [normSq_apply]; ring
theorem blinR (k c v : ℝ) (a f s e : ℂ) : (a * conj ((k : ℂ) * ((c : ℂ) * f - (v : ℂ) * s)) * e).re
    = k * (c * (a * conj f * e).re - v * (a * conj s * e).re) := by
  simp; ring
theorem blinL (k c v : ℝ) (a f s e : ℂ) : (((k : ℂ) * ((c : ℂ) * f - (v : ℂ) * s)) * conj a * e).re
    = k * (c * (f * conj a * e).re - v * (s * conj a * e).re) := by
  simp; ring

/-- The sum of squares, in the convention of the `G` basis: `c s` are cosine and sine of the lepton angle, `cK sK`
those of the meson angle and `e` the phase. (Specification.) -/
noncomputable def sosV (u u' al be r : ℝ) (H : AmpV) (cK sK c s : ℝ) (e : ℂ) : ℝ :=
  let Xp := amX u al H.plV H.plTt; let X0 := amX u al H.zeV H.zeTt; let Xm := amX u al H.miV H.miTt
  let Yp := amY r u' be H.plA H.plT; let Y0 := amY r u' be H.zeA H.zeT; let Ym := amY r u' be H.miA H.miT
  let Fp := amF u al H.plV H.plTt; let F0 := amF u al H.zeV H.zeTt; let Fm := amF u al H.miV H.miTt
  let Kp := amK r u' be H.plA H.plT; let K0 := amK r u' be H.zeA H.zeT; let Km := amK r u' be H.miA H.miT
  (normSq ((-(sK * (1 + c) / 2) : ℝ) * (Xp + Yp) * e + (-(cK * s) : ℝ) * (X0 + Y0)
      + (sK * (1 - c) / 2 : ℝ) * (Xm + Ym) * conj e)
    + normSq ((-(sK * (1 - c) / 2) : ℝ) * (Xp - Yp) * e + (cK * s : ℝ) * (X0 - Y0)
      + (sK * (1 + c) / 2 : ℝ) * (Xm - Ym) * conj e)) / 2
  + normSq ((-(sK * s / 2) : ℝ) * Fp * e + (1 : ℝ) * ((cK : ℂ) * ((c : ℂ) * F0 - (u' : ℂ) * H.S))
      + (-(sK * s / 2) : ℝ) * Fm * conj e)
  + normSq ((-(sK * s / 2) : ℝ) * Kp * e + (1 : ℝ) * ((cK : ℂ) * ((c : ℂ) * K0 - (u : ℂ) * H.P))
      + (-(sK * s / 2) : ℝ) * Km * conj e)

theorem sosV_nonneg (u u' al be r : ℝ) (H : AmpV) (cK sK c s : ℝ) (e : ℂ) :
    0 ≤ sosV u u' al be r H cK sK c s e := by
  have n := fun z : ℂ => normSq_nonneg z
  unfold sosV
  exact add_nonneg (add_nonneg (div_nonneg (add_nonneg (n _) (n _)) (by norm_num)) (n _)) (n _)

theorem re_split (Z : ℂ) (cp sp : ℝ) : (Z * ⟨cp, -sp⟩).re = Z.re * cp + Z.im * sp := by simp
theorem re_split2 (Z : ℂ) (cp sp : ℝ) :
    (Z * (⟨cp, -sp⟩ : ℂ) ^ 2).re = Z.re * (cp ^ 2 - sp ^ 2) + Z.im * (2 * sp * cp) := by
  simp [sq]; ring

set_option maxHeartbeats 1000000 in
/-- The distribution of the `g` coefficients is the sum of squares. -/
theorem rate_g_sos {H : AmpV} {q2 m1 m2 u u' al be r : ℝ}
    (k : Kin (laGa q2 m1 m2) (energy q2 m1 m2 m1) (energy q2 m1 m2 m2) m1 m2 q2 u u' al be r)
    (cK sK c s cp sp : ℝ) (hs : s ^ 2 = 1 - c ^ 2) (hp : cp ^ 2 + sp ^ 2 = 1) :
    let g := gToG (gbasisV0 H q2 m1 m2)
    g.j1s * sK ^ 2 + g.j1c * cK ^ 2 + (g.j2s * sK ^ 2 + g.j2c * cK ^ 2) * (2 * c ^ 2 - 1)
      + g.j3 * sK ^ 2 * s ^ 2 * (cp ^ 2 - sp ^ 2) + g.j4 * (2 * sK * cK) * (2 * s * c) * cp
      + g.j5 * (2 * sK * cK) * s * cp + (g.j6s * sK ^ 2 + g.j6c * cK ^ 2) * c
      + g.j7 * (2 * sK * cK) * s * sp + g.j8 * (2 * sK * cK) * (2 * s * c) * sp
      + g.j9 * sK ^ 2 * s ^ 2 * (2 * sp * cp)
    = sosV u u' al be r H cK sK c s ⟨cp, -sp⟩ := by
  intro g
  set e : ℂ := ⟨cp, -sp⟩ with he
  have hn : normSq e = 1 := by rw [he, normSq_apply]; linear_combination hp
  have z3 : g.j3 * (cp ^ 2 - sp ^ 2) + g.j9 * (2 * sp * cp)
      = 3 / 32 * (g222 H (laGa q2 m1 m2) (energy q2 m1 m2 m1) (energy q2 m1 m2 m2) m1 m2 q2 * e ^ 2).re := by
    rw [he, re_split2]; simp only [g, gToG, gbasisV0]; ring
  have z4 : g.j4 * cp + g.j8 * sp
      = 3 / 32 * (g221 H (laGa q2 m1 m2) (energy q2 m1 m2 m1) (energy q2 m1 m2 m2) m1 m2 q2 * e).re := by
    rw [he, re_split]; simp only [g, gToG, gbasisV0]; ring
  have z5 : g.j5 * cp + g.j7 * sp
      = 1 / 16 * ((Real.sqrt 3 : ℂ) * g211 H (laGa q2 m1 m2) (energy q2 m1 m2 m1) (energy q2 m1 m2 m2) m1 m2 q2 * e).re := by
    rw [mul_assoc, re_ofReal_mul, he, re_split]; simp only [g, gToG, gbasisV0]; ring
  rw [form222 k] at z3
  rw [form221 k] at z4
  rw [form211 k] at z5
  have d1 : g.j1s = 3 / 8 * tX u u' al be r H + 1 / 8 * tF u u' al be r H := by
    simp only [g, gToG, gbasisV0]; rw [form000 k, form020 k, form200 k, form220 k]; ring
  have d2 : g.j1c = 1 / 2 * lX u u' al be r H + 1 / 2 * lF u u' al be r H
      + (u' ^ 2 * normSq H.S + u ^ 2 * normSq H.P) := by
    simp only [g, gToG, gbasisV0]; rw [form000 k, form020 k, form200 k, form220 k]; ring
  have d3 : g.j2s = 1 / 8 * (tX u u' al be r H - tF u u' al be r H) := by
    simp only [g, gToG, gbasisV0]; rw [form020 k, form220 k]; ring
  have d4 : g.j2c = -1 / 2 * (lX u u' al be r H - lF u u' al be r H) := by
    simp only [g, gToG, gbasisV0]; rw [form020 k, form220 k]; ring
  have d5 : g.j6s = fbT u u' al be r H := by
    simp only [g, gToG, gbasisV0]; rw [form010 k, form210 k]; ring
  have d6 : g.j6c = -2 * fbL u u' al be r H := by
    simp only [g, gToG, gbasisV0]; rw [form010 k, form210 k]; ring
  -- group the terms
  have hsplit : g.j1s * sK ^ 2 + g.j1c * cK ^ 2 + (g.j2s * sK ^ 2 + g.j2c * cK ^ 2) * (2 * c ^ 2 - 1)
      + g.j3 * sK ^ 2 * s ^ 2 * (cp ^ 2 - sp ^ 2) + g.j4 * (2 * sK * cK) * (2 * s * c) * cp
      + g.j5 * (2 * sK * cK) * s * cp + (g.j6s * sK ^ 2 + g.j6c * cK ^ 2) * c
      + g.j7 * (2 * sK * cK) * s * sp + g.j8 * (2 * sK * cK) * (2 * s * c) * sp
      + g.j9 * sK ^ 2 * s ^ 2 * (2 * sp * cp)
      = (g.j1s * sK ^ 2 + g.j1c * cK ^ 2 + (g.j2s * sK ^ 2 + g.j2c * cK ^ 2) * (2 * c ^ 2 - 1)
        + (g.j6s * sK ^ 2 + g.j6c * cK ^ 2) * c)
      + sK ^ 2 * s ^ 2 * (g.j3 * (cp ^ 2 - sp ^ 2) + g.j9 * (2 * sp * cp))
      + (2 * sK * cK) * (2 * s * c) * (g.j4 * cp + g.j8 * sp)
      + (2 * sK * cK) * s * (g.j5 * cp + g.j7 * sp) := by ring
  rw [hsplit, z3, z4, z5, d1, d2, d3, d4, d5, d6]
  clear z3 z4 z5 d1 d2 d3 d4 d5 d6 hsplit
  unfold sosV tX tF lX lF fbT fbL
  simp only [tri _ _ _ _ _ _ e hn, nadd, nsub, badd, bsub, nlin, blinR, blinL]
  generalize amX u al H.plV H.plTt = Xp
  generalize amX u al H.zeV H.zeTt = X0
  generalize amX u al H.miV H.miTt = Xm
  generalize amY r u' be H.plA H.plT = Yp
  generalize amY r u' be H.zeA H.zeT = Y0
  generalize amY r u' be H.miA H.miT = Ym
  generalize amF u al H.plV H.plTt = Fp
  generalize amF u al H.zeV H.zeTt = F0
  generalize amF u al H.miV H.miTt = Fm
  generalize amK r u' be H.plA H.plT = Kp
  generalize amK r u' be H.zeA H.zeT = K0
  generalize amK r u' be H.miA H.miT = Km
  have l3 : ∀ w : ℂ, (-16 / 3 * w * e ^ 2).re = -16 / 3 * (w * e ^ 2).re := by
    intro w
    rw [show (-16 / 3 : ℂ) = ((-16 / 3 : ℝ) : ℂ) by push_cast; ring, mul_assoc, re_ofReal_mul]
  have l4 : ∀ w : ℂ, (8 / 3 * w * e).re = 8 / 3 * (w * e).re := by
    intro w
    rw [show (8 / 3 : ℂ) = ((8 / 3 : ℝ) : ℂ) by push_cast; ring, mul_assoc, re_ofReal_mul]
  have l5 : ∀ w : ℂ, (8 * w * e).re = 8 * (w * e).re := by
    intro w
    rw [show (8 : ℂ) = ((8 : ℝ) : ℂ) by push_cast; ring, mul_assoc, re_ofReal_mul]
  have l6 : ∀ (v : ℝ) (w : ℂ), ((v : ℂ) * w * e).re = v * (w * e).re := by
    intro v w; rw [mul_assoc, re_ofReal_mul]
  rw [l3, l4, l5]
  simp only [add_mul _ _ (_ : ℂ), sub_mul _ _ (_ : ℂ), add_re, sub_re, l6]
  ring_nf
  rw [hs]
  ring

/-- The change of convention `signflip` is the change of angles `θ_ℓ → π - θ_ℓ`, `φ → -φ` (times 32/3). -/
theorem rateV_signflip (g : JV) (tK tl ph : ℝ) :
    rateV (signflip g) tK tl ph = 8 * 4 / 3 * rateV g tK (Real.pi - tl) (-ph) := by
  unfold rateV signflip
  simp only [mul_sub, mul_neg, Real.cos_neg, Real.sin_neg, Real.sin_pi_sub, Real.cos_pi_sub]
  have c2 : Real.cos (2 * Real.pi - 2 * tl) = Real.cos (2 * tl) := by
    rw [Real.cos_two_pi_sub]
  have s2 : Real.sin (2 * Real.pi - 2 * tl) = -Real.sin (2 * tl) := by
    rw [Real.sin_two_pi_sub]
  rw [c2, s2]; ring

theorem rateV_scale (f : ℝ) (G : GV) (tK tl ph : ℝ) :
    rateV (gToG (G.scale f)) tK tl ph = f * rateV (gToG G) tK tl ph := by
  have h1 : ((f : ℂ) * G.g211).re = f * G.g211.re := re_ofReal_mul _ _
  have h2 : ((f : ℂ) * G.g211).im = f * G.g211.im := im_ofReal_mul _ _
  have h3 : ((f : ℂ) * G.g221).re = f * G.g221.re := re_ofReal_mul _ _
  have h4 : ((f : ℂ) * G.g221).im = f * G.g221.im := im_ofReal_mul _ _
  have h5 : ((f : ℂ) * G.g222).re = f * G.g222.re := re_ofReal_mul _ _
  have h6 : ((f : ℂ) * G.g222).im = f * G.g222.im := im_ofReal_mul _ _
  unfold rateV gToG GV.scale
  simp only [h1, h2, h3, h4, h5, h6]
  ring

theorem rateV_g_nonneg (H : AmpV) (q2 m1 m2 : ℝ) (h1 : 0 ≤ m1) (h2 : 0 ≤ m2) (hq : 0 < q2)
    (hth : (m1 + m2) ^ 2 ≤ q2) (tK tl ph : ℝ) : 0 ≤ rateV (gToG (gbasisV0 H q2 m1 m2)) tK tl ph := by
  obtain ⟨u, u', al, be, r, k⟩ := exists_kin q2 m1 m2 h1 h2 hq hth
  have := rate_g_sos (H := H) k (Real.cos tK) (Real.sin tK) (Real.cos tl) (Real.sin tl) (Real.cos ph) (Real.sin ph)
    (Real.sin_sq tl) (Real.cos_sq_add_sin_sq ph)
  simp only at this
  have e : rateV (gToG (gbasisV0 H q2 m1 m2)) tK tl ph
      = sosV u u' al be r H (Real.cos tK) (Real.sin tK) (Real.cos tl) (Real.sin tl) ⟨Real.cos ph, -Real.sin ph⟩ := by
    rw [← this]
    unfold rateV
    rw [Real.sin_two_mul, Real.sin_two_mul, Real.sin_two_mul, Real.cos_two_mul tl, Real.cos_two_mul' ph]
  rw [e]
  exact sosV_nonneg _ _ _ _ _ _ _ _ _ _ _

/-- **C80 (positivity).** For *every* set of helicity amplitudes (vector, axial, scalar, pseudoscalar, both
tensors, all three polarisations), all lepton masses, every q² at or above threshold and all three decay angles,
the differential rate described by the twelve returned coefficients is not negative. -/
theorem C80_distribution_nonneg (H : AmpV) (q2 mB mV m1 m2 : ℝ) (hB : 0 < mB) (h1 : 0 ≤ m1) (h2 : 0 ≤ m2)
    (hq : 0 < q2) (hth : (m1 + m2) ^ 2 ≤ q2) (tK tl ph : ℝ) :
    0 ≤ rateV (angularV H q2 mB mV m1 m2) tK tl ph := by
  unfold angularV gbasisV
  rw [rateV_signflip, rateV_scale]
  exact mul_nonneg (by norm_num) (mul_nonneg
    (phaseSpace_nonneg _ _ _ _ _ _ (by positivity) hB hq) (rateV_g_nonneg H q2 m1 m2 h1 h2 hq hth _ _ _))

/-- Non-vacuity: thresholds and masses of a physical decay. -/
example (H : AmpV) (tK tl ph : ℝ) : 0 ≤ rateV (angularV H 6 5 1 (1/10) 1) tK tl ph :=
  C80_distribution_nonneg H 6 5 1 (1/10) 1 (by norm_num) (by norm_num) (by norm_num) (by norm_num) (by norm_num) tK tl ph

end Verif.Angular
