import Verif.Physics.Angular.V
/-!
# The `B → V ℓ₁ ℓ₂` angular distribution as a sum of squared lepton-helicity amplitudes
-/
set_option linter.unusedVariables false
set_option linter.unusedSimpArgs false
namespace Verif.Angular
open Verif.Common Complex ComplexConjugate

/-- `kinematics` in terms of two square roots and two mass ratios. -/
theorem kinematics2 (q2 m1 m2 : ℝ) (h1 : 0 ≤ m1) (h2 : 0 ≤ m2) (hq : 0 < q2) (h : (m1 + m2) ^ 2 ≤ q2) :
    ∃ u u' : ℝ, let al := (m1 + m2) / Real.sqrt q2; let be := (m1 - m2) / Real.sqrt q2
      u ^ 2 * (1 - al ^ 2) = u' ^ 2 * (1 - be ^ 2) ∧
      energy q2 m1 m2 m1 * energy q2 m1 m2 m2 + m1 * m2 = u ^ 2 * (1 + al ^ 2) / 2 ∧
      energy q2 m1 m2 m1 * energy q2 m1 m2 m2 - m1 * m2 = u' ^ 2 * (1 + be ^ 2) / 2 ∧
      laGa q2 m1 m2 / q2 = 2 * (u ^ 2 * (1 - al ^ 2)) ∧
      m1 * energy q2 m1 m2 m2 + m2 * energy q2 m1 m2 m1 = u ^ 2 * al ∧
      m1 * energy q2 m1 m2 m2 - m2 * energy q2 m1 m2 m1 = u' ^ 2 * be ∧
      Real.sqrt (laGa q2 m1 m2) = 2 * (u * u') ∧
      (m1 ^ 2 - m2 ^ 2) / q2 = al * be := by
  have hQ0 : 0 < Real.sqrt q2 := Real.sqrt_pos.mpr hq
  have hQ2 : Real.sqrt q2 ^ 2 = q2 := Real.sq_sqrt hq.le
  set Q := Real.sqrt q2 with hQ
  have hx : (m1 - m2) ^ 2 ≤ q2 := by nlinarith [mul_nonneg h1 h2]
  have hL := laGa_eq q2 m1 m2 h1 h2 h
  have e1 : energy q2 m1 m2 m1 = (q2 + m1 ^ 2 - m2 ^ 2) / (2 * Q) := by
    unfold energy
    rw [hL]
    have : m1 ^ 2 + (q2 - (m1 + m2) ^ 2) * (q2 - (m1 - m2) ^ 2) / (4 * q2)
        = ((q2 + m1 ^ 2 - m2 ^ 2) / (2 * Q)) ^ 2 := by
      rw [div_pow, mul_pow, hQ2]; field_simp; ring
    rw [this]
    refine Real.sqrt_sq (div_nonneg ?_ (by positivity))
    nlinarith [mul_nonneg h1 h2]
  have e2 : energy q2 m1 m2 m2 = (q2 + m2 ^ 2 - m1 ^ 2) / (2 * Q) := by
    unfold energy
    rw [hL]
    have : m2 ^ 2 + (q2 - (m1 + m2) ^ 2) * (q2 - (m1 - m2) ^ 2) / (4 * q2)
        = ((q2 + m2 ^ 2 - m1 ^ 2) / (2 * Q)) ^ 2 := by
      rw [div_pow, mul_pow, hQ2]; field_simp; ring
    rw [this]
    refine Real.sqrt_sq (div_nonneg ?_ (by positivity))
    nlinarith [mul_nonneg h1 h2]
  have hsq : Real.sqrt (laGa q2 m1 m2) = Real.sqrt (q2 - (m1 - m2) ^ 2) * Real.sqrt (q2 - (m1 + m2) ^ 2) := by
    rw [hL, mul_comm, Real.sqrt_mul (by linarith)]
  have ha2 : Real.sqrt (q2 - (m1 - m2) ^ 2) ^ 2 = q2 - (m1 - m2) ^ 2 := Real.sq_sqrt (by linarith)
  have hb2 : Real.sqrt (q2 - (m1 + m2) ^ 2) ^ 2 = q2 - (m1 + m2) ^ 2 := Real.sq_sqrt (by linarith)
  have hri : (1 / Real.sqrt 2) ^ 2 = 1 / 2 := by
    rw [div_pow, Real.sq_sqrt (by norm_num)]; norm_num
  have hQn : Q ≠ 0 := hQ0.ne'
  refine ⟨Real.sqrt (q2 - (m1 - m2) ^ 2) * (1 / Real.sqrt 2), Real.sqrt (q2 - (m1 + m2) ^ 2) * (1 / Real.sqrt 2), ?_⟩
  intro al be
  have hal : al ^ 2 = (m1 + m2) ^ 2 / q2 := by simp only [al]; rw [div_pow, hQ2]
  have hbe : be ^ 2 = (m1 - m2) ^ 2 / q2 := by simp only [be]; rw [div_pow, hQ2]
  have hu : (Real.sqrt (q2 - (m1 - m2) ^ 2) * (1 / Real.sqrt 2)) ^ 2 = (q2 - (m1 - m2) ^ 2) / 2 := by
    rw [mul_pow, hri, ha2]; ring
  have hu' : (Real.sqrt (q2 - (m1 + m2) ^ 2) * (1 / Real.sqrt 2)) ^ 2 = (q2 - (m1 + m2) ^ 2) / 2 := by
    rw [mul_pow, hri, hb2]; ring
  have hEE : energy q2 m1 m2 m1 * energy q2 m1 m2 m2
      = (q2 + m1 ^ 2 - m2 ^ 2) * (q2 + m2 ^ 2 - m1 ^ 2) / (4 * q2) := by
    rw [e1, e2, div_mul_div_comm, show 2 * Q * (2 * Q) = 4 * Q ^ 2 by ring, hQ2]
  rw [hu, hu', hal, hbe]
  refine ⟨?_, ?_, ?_, ?_, ?_, ?_, ?_, ?_⟩
  · field_simp
  · rw [hEE]; field_simp; ring
  · rw [hEE]; field_simp; ring
  · rw [hL]; field_simp
  · rw [e1, e2]; simp only [al]; field_simp; ring
  · rw [e1, e2]; simp only [be]; field_simp; ring
  · rw [hsq]
    rw [show ∀ a b c : ℝ, 2 * (a * c * (b * c)) = 2 * (a * b) * c ^ 2 from fun a b c => by ring, hri]; ring
  · simp only [al, be]
    rw [div_mul_div_comm, ← sq, hQ2]; ring

/-- The relations between the kinematic functions of the code and `u u' al be`. (Specification.) -/
structure Kin (la E1 E2 m1 m2 q2 u u' al be r : ℝ) : Prop where
  hr : Real.sqrt 2 = r
  r2 : r ^ 2 = 2
  k0 : u ^ 2 * (1 - al ^ 2) = u' ^ 2 * (1 - be ^ 2)
  k1 : E1 * E2 + m1 * m2 = u ^ 2 * (1 + al ^ 2) / 2
  k2 : E1 * E2 - m1 * m2 = u' ^ 2 * (1 + be ^ 2) / 2
  k3 : la / q2 = 2 * (u ^ 2 * (1 - al ^ 2))
  k5 : m1 * E2 + m2 * E1 = u ^ 2 * al
  k6 : m1 * E2 - m2 * E1 = u' ^ 2 * be
  k7 : Real.sqrt la = 2 * (u * u')
  k8 : (m1 ^ 2 - m2 ^ 2) / q2 = al * be
  ka : (m1 + m2) / Real.sqrt q2 = al
  kb : (m1 - m2) / Real.sqrt q2 = be

theorem exists_kin (q2 m1 m2 : ℝ) (h1 : 0 ≤ m1) (h2 : 0 ≤ m2) (hq : 0 < q2) (h : (m1 + m2) ^ 2 ≤ q2) :
    ∃ u u' al be r : ℝ, Kin (laGa q2 m1 m2) (energy q2 m1 m2 m1) (energy q2 m1 m2 m2) m1 m2 q2 u u' al be r := by
  obtain ⟨u, u', k0, k1, k2, k3, k5, k6, k7, k8⟩ := kinematics2 q2 m1 m2 h1 h2 hq h
  exact ⟨u, u', _, _, Real.sqrt 2, rfl, Real.sq_sqrt (by norm_num), k0, k1, k2, k3, k5, k6, k7, k8, rfl, rfl⟩

/-- Lepton-helicity amplitudes for one polarisation of the meson: vector part, opposite lepton helicities.
(Specification.) -/
noncomputable def amX (u al : ℝ) (V Tt : ℂ) : ℂ := (u : ℂ) * V + I * (2 * (u * al)) * Tt
/-- Vector part, equal lepton helicities. (Specification.) -/
noncomputable def amF (u al : ℝ) (V Tt : ℂ) : ℂ := (u * al) * V + I * (2 * u) * Tt
/-- Axial part, opposite lepton helicities. (Specification.) -/
noncomputable def amY (r u' be : ℝ) (A T : ℂ) : ℂ := (u' : ℂ) * A + I * (r * (u' * be)) * T
/-- Axial part, equal lepton helicities. (Specification.) -/
noncomputable def amK (r u' be : ℝ) (A T : ℂ) : ℂ := (u' * be) * A + I * (r * u') * T

section
variable {u u' al be r : ℝ}

theorem conj_two : conj (2:ℂ) = 2 := map_ofNat _ 2

theorem nX (V T : ℂ) : normSq (amX u al V T) = u ^ 2 * normSq V + 4 * (u ^ 2 * al ^ 2) * normSq T
    + 4 * (u ^ 2 * al) * (V * conj T).im := by
  simp [amX, normSq_apply]; ring
theorem nF (V T : ℂ) : normSq (amF u al V T) = u ^ 2 * al ^ 2 * normSq V + 4 * u ^ 2 * normSq T
    + 4 * (u ^ 2 * al) * (V * conj T).im := by
  simp [amF, normSq_apply]; ring
theorem nY (hr : r ^ 2 = 2) (V T : ℂ) : normSq (amY r u' be V T) = u' ^ 2 * normSq V
    + 2 * (u' ^ 2 * be ^ 2) * normSq T + 2 * r * (u' ^ 2 * be) * (V * conj T).im := by
  simp [amY, normSq_apply]
  linear_combination (u' ^ 2 * be ^ 2 * (T.re * T.re + T.im * T.im)) * hr
theorem nK (hr : r ^ 2 = 2) (V T : ℂ) : normSq (amK r u' be V T) = u' ^ 2 * be ^ 2 * normSq V
    + 2 * u' ^ 2 * normSq T + 2 * r * (u' ^ 2 * be) * (V * conj T).im := by
  simp [amK, normSq_apply]
  linear_combination (u' ^ 2 * (T.re * T.re + T.im * T.im)) * hr
theorem bXY (V T A T' : ℂ) : (amX u al V T * conj (amY r u' be A T')).re = u * u' * ((V * conj A).re
    + 2 * r * (al * be) * (T' * conj T).re + 2 * al * (A * conj T).im + r * be * (V * conj T').im) := by
  simp [amX, amY]; ring
theorem bFS (V T S : ℂ) : (amF u al V T * conj S).re = u * (al * (V * conj S).re - 2 * (T * conj S).im) := by
  simp [amF]; ring
theorem bKP (V T S : ℂ) : (amK r u' be V T * conj S).re
    = u' * (be * (V * conj S).re - r * (T * conj S).im) := by
  simp [amK]; ring
theorem cXX (V T V' T' : ℂ) : amX u al V T * conj (amX u al V' T') = u ^ 2 * (V * conj V')
    + 4 * (u ^ 2 * al ^ 2) * (T * conj T') + 2 * (u ^ 2 * al) * I * (T * conj V' - V * conj T') := by
  simp [amX, conj_two]
  linear_combination (-4 * (u : ℂ) ^ 2 * al ^ 2 * (T * conj T')) * I_sq
theorem cFF (V T V' T' : ℂ) : amF u al V T * conj (amF u al V' T') = u ^ 2 * al ^ 2 * (V * conj V')
    + 4 * u ^ 2 * (T * conj T') + 2 * (u ^ 2 * al) * I * (T * conj V' - V * conj T') := by
  simp [amF, conj_two]
  linear_combination (-4 * (u : ℂ) ^ 2 * (T * conj T')) * I_sq
theorem cYY (hr : r ^ 2 = 2) (V T V' T' : ℂ) : amY r u' be V T * conj (amY r u' be V' T')
    = u' ^ 2 * (V * conj V') + 2 * (u' ^ 2 * be ^ 2) * (T * conj T')
      + r * (u' ^ 2 * be) * I * (T * conj V' - V * conj T') := by
  have hc : (r : ℂ) ^ 2 = 2 := by exact_mod_cast hr
  simp [amY]
  linear_combination (-(r : ℂ) ^ 2 * (u' ^ 2 * be ^ 2) * (T * conj T')) * I_sq
    + (u' ^ 2 * be ^ 2) * (T * conj T') * hc
theorem cKK (hr : r ^ 2 = 2) (V T V' T' : ℂ) : amK r u' be V T * conj (amK r u' be V' T')
    = u' ^ 2 * be ^ 2 * (V * conj V') + 2 * u' ^ 2 * (T * conj T')
      + r * (u' ^ 2 * be) * I * (T * conj V' - V * conj T') := by
  have hc : (r : ℂ) ^ 2 = 2 := by exact_mod_cast hr
  simp [amK]
  linear_combination (-(r : ℂ) ^ 2 * u' ^ 2 * (T * conj T')) * I_sq + u' ^ 2 * (T * conj T') * hc
theorem cXY (V T A T' : ℂ) : amX u al V T * conj (amY r u' be A T') = u * u' * (V * conj A
    + 2 * r * (al * be) * (T * conj T') + 2 * al * I * (T * conj A) - r * be * I * (V * conj T')) := by
  simp [amX, amY, conj_two]
  linear_combination (-2 * (u : ℂ) * u' * r * (al * be) * (T * conj T')) * I_sq
theorem cYX (V T A T' : ℂ) : amY r u' be A T' * conj (amX u al V T) = u * u' * (A * conj V
    + 2 * r * (al * be) * (T' * conj T) - 2 * al * I * (A * conj T) + r * be * I * (T' * conj V)) := by
  simp [amX, amY, conj_two]
  linear_combination (-2 * (u : ℂ) * u' * r * (al * be) * (T' * conj T)) * I_sq
theorem cFS (V T S : ℂ) : amF u al V T * conj S = u * (al * (V * conj S) + 2 * I * (T * conj S)) := by
  simp [amF]; ring
theorem cSF (V T S : ℂ) : S * conj (amF u al V T) = u * (al * (S * conj V) - 2 * I * (S * conj T)) := by
  simp [amF, conj_two]; ring
theorem cKP (V T S : ℂ) : amK r u' be V T * conj S = u' * (be * (V * conj S) + r * I * (T * conj S)) := by
  simp [amK]; ring
theorem cPK (V T S : ℂ) : S * conj (amK r u' be V T) = u' * (be * (S * conj V) - r * I * (S * conj T)) := by
  simp [amK]; ring
end

section
variable {H : AmpV} {la E1 E2 m1 m2 q2 u u' al be r : ℝ} (k : Kin la E1 E2 m1 m2 q2 u u' al be r)
include k

theorem k3' : la / (4 * q2) = u ^ 2 * (1 - al ^ 2) / 2 := by
  have : la / (4 * q2) = la / q2 / 4 := by rw [div_div, mul_comm]
  rw [this, k.k3]; ring

/-- The transverse and longitudinal diagonal sums. (Specification.) -/
noncomputable def tX (u u' al be r : ℝ) (H : AmpV) : ℝ := normSq (amX u al H.plV H.plTt)
  + normSq (amX u al H.miV H.miTt) + normSq (amY r u' be H.plA H.plT) + normSq (amY r u' be H.miA H.miT)
/-- See `tX`. (Specification.) -/
noncomputable def tF (u u' al be r : ℝ) (H : AmpV) : ℝ := normSq (amF u al H.plV H.plTt)
  + normSq (amF u al H.miV H.miTt) + normSq (amK r u' be H.plA H.plT) + normSq (amK r u' be H.miA H.miT)
/-- See `tX`. (Specification.) -/
noncomputable def lX (u u' al be r : ℝ) (H : AmpV) : ℝ := normSq (amX u al H.zeV H.zeTt)
  + normSq (amY r u' be H.zeA H.zeT)
/-- See `tX`. (Specification.) -/
noncomputable def lF (u u' al be r : ℝ) (H : AmpV) : ℝ := normSq (amF u al H.zeV H.zeTt)
  + normSq (amK r u' be H.zeA H.zeT)

theorem form000 : g000 H la E1 E2 m1 m2 q2 =
    8 / 9 * (tX u u' al be r H + lX u u' al be r H) + 4 / 9 * (tF u u' al be r H + lF u u' al be r H)
    + 4 / 3 * (u' ^ 2 * normSq H.S + u ^ 2 * normSq H.P) := by
  have a1 : E1 * E2 = (u ^ 2 * (1 + al ^ 2) + u' ^ 2 * (1 + be ^ 2)) / 4 := by linarith [k.k1, k.k2]
  have a2 : m1 * m2 = (u ^ 2 * (1 + al ^ 2) - u' ^ 2 * (1 + be ^ 2)) / 4 := by linarith [k.k1, k.k2]
  unfold g000 tX tF lX lF
  rw [mul_assoc 3 E1 E2, k3' k, k.k1, k.k2, mul_assoc 4 m1 m2, a1, a2, k.k5, k.k6, k.hr]
  simp only [nX, nF, nY k.r2, nK k.r2, Complex.sq_norm, add_im]
  linear_combination (2 / 9 * (normSq H.plA + normSq H.miA + normSq H.zeA) + 2 / 3 * normSq H.S
    - 4 / 9 * (normSq H.plT + normSq H.miT + normSq H.zeT)) * k.k0

theorem form200 : g200 H la E1 E2 m1 m2 q2 =
    -8 / 9 * (tX u u' al be r H - 2 * lX u u' al be r H) - 4 / 9 * (tF u u' al be r H - 2 * lF u u' al be r H)
    + 8 / 3 * (u' ^ 2 * normSq H.S + u ^ 2 * normSq H.P) := by
  have a1 : E1 * E2 = (u ^ 2 * (1 + al ^ 2) + u' ^ 2 * (1 + be ^ 2)) / 4 := by linarith [k.k1, k.k2]
  have a2 : m1 * m2 = (u ^ 2 * (1 + al ^ 2) - u' ^ 2 * (1 + be ^ 2)) / 4 := by linarith [k.k1, k.k2]
  have e2 : ∀ z w : ℂ, (2 * z * conj w).im = 2 * (z * conj w).im := by
    intro z w; rw [mul_assoc]; simp
  unfold g200 tX tF lX lF
  rw [mul_assoc 3 E1 E2, k3' k, k.k1, k.k2, mul_assoc 4 m1 m2, a1, a2, k.k5, k.k6, k.hr]
  simp only [nX, nF, nY k.r2, nK k.r2, Complex.sq_norm, add_im, sub_im, e2]
  linear_combination (-2 / 9 * (normSq H.plA + normSq H.miA - 2 * normSq H.zeA) + 4 / 3 * normSq H.S
    + 4 / 9 * (normSq H.plT + normSq H.miT - 2 * normSq H.zeT)) * k.k0

theorem form020 : g020 H la E1 E2 m1 m2 q2 =
    4 / 9 * ((tX u u' al be r H - tF u u' al be r H) - 2 * (lX u u' al be r H - lF u u' al be r H)) := by
  have e : -2 / 9 * la / q2 = -2 / 9 * (la / q2) := by ring
  unfold g020 tX tF lX lF
  rw [e, k.k3]
  simp only [nX, nF, nY k.r2, nK k.r2, Complex.sq_norm]
  linear_combination (4 / 9 * (normSq H.plA + normSq H.miA - 2 * normSq H.zeA)
    - 8 / 9 * (normSq H.plT + normSq H.miT - 2 * normSq H.zeT)) * k.k0

theorem form220 : g220 H la E1 E2 m1 m2 q2 =
    -4 / 9 * ((tX u u' al be r H - tF u u' al be r H) + 4 * (lX u u' al be r H - lF u u' al be r H)) := by
  have e : -2 / 9 * la / q2 = -2 / 9 * (la / q2) := by ring
  unfold g220 tX tF lX lF
  rw [e, k.k3]
  simp only [nX, nF, nY k.r2, nK k.r2, Complex.sq_norm]
  linear_combination (-4 / 9 * (normSq H.plA + normSq H.miA + 4 * normSq H.zeA)
    + 8 / 9 * (normSq H.plT + normSq H.miT + 4 * normSq H.zeT)) * k.k0

/-- The transverse forward-backward combination. (Specification.) -/
noncomputable def fbT (u u' al be r : ℝ) (H : AmpV) : ℝ :=
  (amX u al H.plV H.plTt * conj (amY r u' be H.plA H.plT)).re
  - (amX u al H.miV H.miTt * conj (amY r u' be H.miA H.miT)).re
/-- The longitudinal forward-backward combination. (Specification.) -/
noncomputable def fbL (u u' al be r : ℝ) (H : AmpV) : ℝ :=
  (amF u al H.zeV H.zeTt * conj (u' * H.S)).re + (amK r u' be H.zeA H.zeT * conj (u * H.P)).re

omit k in
theorem fbL_eq : fbL u u' al be r H = u * u' * (al * (H.zeV * conj H.S).re - 2 * (H.zeTt * conj H.S).im
    + (be * (H.zeA * conj H.P).re - r * (H.zeT * conj H.P).im)) := by
  unfold fbL
  rw [bFS, bKP]
  simp; ring

theorem form010 : g010 H la E1 E2 m1 m2 q2 =
    8 / 3 * (fbT u u' al be r H - fbL u u' al be r H) := by
  have e1 : 2 * Real.sqrt 2 / q2 * (m1 ^ 2 - m2 ^ 2) = 2 * r * (al * be) := by rw [← k.k8, k.hr]; ring
  have e2 : 2 * (m1 + m2) / Real.sqrt q2 = 2 * al := by rw [← k.ka]; ring
  have e3 : Real.sqrt 2 * (m1 - m2) / Real.sqrt q2 = r * be := by rw [← k.kb, k.hr]; ring
  have e4 : ∀ z w : ℂ, (2 * z * conj w).im = 2 * (z * conj w).im := by
    intro z w; rw [mul_assoc]; simp
  have e5 : ∀ z w : ℂ, ((r : ℂ) * z * conj w).im = r * (z * conj w).im := by
    intro z w; rw [mul_assoc, im_ofReal_mul]
  unfold g010
  rw [fbL_eq]
  unfold fbT
  rw [bXY, bXY, e1, e2, e3, k.ka, k.kb, k.k7, k.hr, add_im, e4, e5]
  simp only [sub_re, sub_im]
  ring

theorem form210 : g210 H la E1 E2 m1 m2 q2 =
    -8 / 3 * (fbT u u' al be r H + 2 * fbL u u' al be r H) := by
  have e1 : 2 * Real.sqrt 2 * (m1 ^ 2 - m2 ^ 2) / q2 = 2 * r * (al * be) := by rw [← k.k8, k.hr]; ring
  have e2 : 2 * (m1 + m2) / Real.sqrt q2 = 2 * al := by rw [← k.ka]; ring
  have e3 : Real.sqrt 2 * (m1 - m2) / Real.sqrt q2 = r * be := by rw [← k.kb, k.hr]; ring
  have e6 : 2 * (m1 - m2) / Real.sqrt q2 = 2 * be := by rw [← k.kb]; ring
  have e4 : ∀ z w : ℂ, (2 * z * conj w).im = 2 * (z * conj w).im := by
    intro z w; rw [mul_assoc]; simp
  have e5 : ∀ z w : ℂ, ((r : ℂ) * z * conj w).im = r * (z * conj w).im := by
    intro z w; rw [mul_assoc, im_ofReal_mul]
  unfold g210
  rw [fbL_eq]
  unfold fbT
  rw [bXY, bXY, e1, e2, e3, e6, k.k7, k.hr, add_im, e4, e5]
  simp only [sub_re, sub_im]
  ring

theorem form222 : g222 H la E1 E2 m1 m2 q2 = -16 / 3 * (
    amX u al H.plV H.plTt * conj (amX u al H.miV H.miTt) + amY r u' be H.plA H.plT * conj (amY r u' be H.miA H.miT)
    - amF u al H.plV H.plTt * conj (amF u al H.miV H.miTt)
    - amK r u' be H.plA H.plT * conj (amK r u' be H.miA H.miT)) := by
  have e : -8 / 3 * la / q2 = -8 / 3 * (2 * (u ^ 2 * (1 - al ^ 2))) := by rw [← k.k3]; ring
  have k0 : (u : ℂ) ^ 2 * (1 - (al : ℂ) ^ 2) = (u' : ℂ) ^ 2 * (1 - (be : ℂ) ^ 2) := by exact_mod_cast k.k0
  unfold g222
  rw [e, cXX, cFF, cYY k.r2, cKK k.r2]
  push_cast
  linear_combination (-16 / 3 * (H.plA * conj H.miA) + 32 / 3 * (H.plT * conj H.miT)) * k0

theorem form221 : g221 H la E1 E2 m1 m2 q2 = 8 / 3 * (
    (amX u al H.plV H.plTt * conj (amX u al H.zeV H.zeTt) + amX u al H.zeV H.zeTt * conj (amX u al H.miV H.miTt)
    + amY r u' be H.plA H.plT * conj (amY r u' be H.zeA H.zeT) + amY r u' be H.zeA H.zeT * conj (amY r u' be H.miA H.miT))
    - (amF u al H.plV H.plTt * conj (amF u al H.zeV H.zeTt) + amF u al H.zeV H.zeTt * conj (amF u al H.miV H.miTt)
    + amK r u' be H.plA H.plT * conj (amK r u' be H.zeA H.zeT) + amK r u' be H.zeA H.zeT * conj (amK r u' be H.miA H.miT))) := by
  have e : 4 / 3 * la / q2 = 4 / 3 * (2 * (u ^ 2 * (1 - al ^ 2))) := by rw [← k.k3]; ring
  have k0 : (u : ℂ) ^ 2 * (1 - (al : ℂ) ^ 2) = (u' : ℂ) ^ 2 * (1 - (be : ℂ) ^ 2) := by exact_mod_cast k.k0
  unfold g221
  rw [e]
  simp only [cXX, cFF, cYY k.r2, cKK k.r2]
  push_cast
  linear_combination (8 / 3 * (H.plA * conj H.zeA + H.zeA * conj H.miA)
    - 16 / 3 * (H.plT * conj H.zeT + H.zeT * conj H.miT)) * k0

theorem form211 : (Real.sqrt 3 : ℂ) * g211 H la E1 E2 m1 m2 q2 = 8 * (
    amX u al H.plV H.plTt * conj (amY r u' be H.zeA H.zeT) + amY r u' be H.plA H.plT * conj (amX u al H.zeV H.zeTt)
    - amX u al H.zeV H.zeTt * conj (amY r u' be H.miA H.miT) - amY r u' be H.zeA H.zeT * conj (amX u al H.miV H.miTt)
    + u' * (amF u al H.plV H.plTt * conj H.S + H.S * conj (amF u al H.miV H.miTt))
    + u * (amK r u' be H.plA H.plT * conj H.P + H.P * conj (amK r u' be H.miA H.miT))) := by
  have h3 : Real.sqrt 3 ≠ 0 := by positivity
  have e0 : (Real.sqrt 3 : ℂ) * ((4 / Real.sqrt 3 * Real.sqrt la : ℝ) : ℂ) = 8 * (u * u') := by
    rw [← ofReal_mul, show Real.sqrt 3 * (4 / Real.sqrt 3 * Real.sqrt la) = 4 * Real.sqrt la by field_simp, k.k7]
    push_cast; ring
  have e1 : 2 * Real.sqrt 2 * (m1 ^ 2 - m2 ^ 2) / q2 = 2 * r * (al * be) := by rw [← k.k8, k.hr]; ring
  have e2 : ((m1 + m2 : ℝ) : ℂ) / ((Real.sqrt q2 : ℝ) : ℂ) = al := by rw [← ofReal_div, k.ka]
  have e3 : ((m1 - m2 : ℝ) : ℂ) / ((Real.sqrt q2 : ℝ) : ℂ) = be := by rw [← ofReal_div, k.kb]
  have hc : (r : ℂ) ^ 2 = 2 := by exact_mod_cast k.r2
  unfold g211
  rw [← mul_assoc, e0, k.ka, k.kb, e1, k.hr, mul_div_assoc, mul_div_assoc, e2, e3]
  simp only [cXY, cYX, cFS, cSF, cKP, cPK]
  push_cast
  linear_combination (-8 * (u : ℂ) * u' * I * (H.S * conj H.miTt - H.plTt * conj H.S)) * hc
end
end Verif.Angular
