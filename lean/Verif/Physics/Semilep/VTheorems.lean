import Verif.Physics.Semilep.VCont
import Verif.Physics.Semilep.PTheorems
import Verif.Physics.Angular.VTheorems
/-!
# C103: semi-leptonic decays `B → V ℓ ν`
-/
set_option linter.unusedVariables false
set_option linter.unusedSimpArgs false
namespace Verif.Semilep.Vec
open Verif.Py Verif.Common Verif.Angular Verif.Running Verif.Semilep Complex ComplexConjugate MeasureTheory Set

/-! ## Specification -/

/-- Physical masses. (Specification.) -/
structure VInp.Valid (d : VInp) : Prop where
  hM : 0 < d.mM
  hV : 0 < d.mV
  hq : d.mb + d.mlight ≠ 0
  hm : ∀ l, 0 < d.m l

/-- The kinematically allowed region. (Specification.) -/
def VInp.region (d : VInp) (l : Fin 3) : Set ℝ := Icc (d.m l ^ 2) ((d.mM - d.mV) ^ 2)

/-- Branching ratio per rate: the life time; half of it for `rho0` and `omega`. (Specification.) -/
noncomputable def VInp.norm (d : VInp) : ℝ := if d.neutral then d.tau / 2 else d.tau

/-- The rate of the literature to vector mesons of the given polarisation, summed over the flavours of the neutrino; the Standard
Model contributes for equal flavours only. (Specification.) -/
noncomputable def rateVSum (d : VInp) (A : Pol) (l : Fin 3) (q2 : ℝ) : ℝ :=
  let L := ∑ n, rateL d.GF (‖d.V‖ ^ 2) d.mM d.mV d.mb d.mlight (d.m l) q2 (d.ff q2)
    ((if l = n then (d.csm : ℂ) else 0) + (d.wc l n).VL - (d.wc l n).VR) ((d.wc l n).SR - (d.wc l n).SL) (d.wc l n).T
  let T := ∑ n, rateT d.GF (‖d.V‖ ^ 2) d.mM d.mV (d.m l) q2 (d.ff q2)
    ((if l = n then (d.csm : ℂ) else 0) + (d.wc l n).VL) (d.wc l n).VR (d.wc l n).T
  match A with
  | .L => L
  | .T => T
  | .all => L + T

/-! ## Angular coefficients -/

theorem zero_scale (J : JV) : J.scale 0 = JV.zero := by simp [JV.scale, JV.zero]

theorem angularV_threshold (H : AmpV) (mM mV m : ℝ) (hm : 0 < m) : angularV H (m ^ 2) mM mV m 0 = JV.zero := by
  have h0 : phaseSpace (2 ^ 9 * Real.pi ^ 3) (m ^ 2) mM mV m 0 = 0 := by
    have := (kin0 hm.le le_rfl (pow_pos hm 2)).2.1
    unfold phaseSpace
    rw [this, sub_self]; simp
  unfold angularV gbasisV
  rw [h0]
  simp [GV.scale, gToG, signflip, JV.zero]

/-- The coefficients without the guards of the code. (Specification.) -/
noncomputable def jPlain (d : VInp) (l : Fin 3) (q2 : ℝ) (n : Fin 3) : JV :=
  (angularV (helV1 q2 d.mM d.mV d.mb d.mlight (d.m l) 0 (d.ff q2) (wcEff (csmV d l n) (d.wc l n))) q2 d.mM d.mV (d.m l) 0).scale
    (8 * (d.GF ^ 2 * ‖d.V‖ ^ 2))

theorem jOneV_eq (d : VInp) (hv : d.Valid) (l n : Fin 3) (q2 : ℝ) (h : d.m l ^ 2 ≤ q2) : jOneV d l q2 n = jPlain d l q2 n := by
  unfold jOneV
  by_cases hz : l ≠ n ∧ allZero (wcEff (csmV d l n) (d.wc l n))
  · rw [if_pos hz]
    obtain ⟨-, z1, z2, z3, z4, z5, z6, z7, z8, z9, z10, z11, z12⟩ := hz
    have : helV1 q2 d.mM d.mV d.mb d.mlight (d.m l) 0 (d.ff q2) (wcEff (csmV d l n) (d.wc l n))
        = (helV1 q2 d.mM d.mV d.mb d.mlight (d.m l) 0 (d.ff q2) (wcEff (csmV d l n) (d.wc l n))).scale 0 := by
      generalize wcEff (csmV d l n) (d.wc l n) = w at *
      simp only [helV1, AmpV.scale, transAmp, dipAmp, tenAmp, z1, z2, z3, z4, z5, z6, z7, z8, z9, z10, z11, z12]
      simp
    unfold jPlain
    rw [this, angularV_scale]
    simp [JV.scale, JV.zero]
  · rw [if_neg hz]
    unfold helicityV jPlain
    rw [angularV_scale]
    rcases h.eq_or_lt with he | hlt
    · rw [← he, angularV_threshold _ _ _ _ (hv.hm l)]
      simp [JV.scale, JV.zero]
    · have : ‖prefV d l q2‖ ^ 2 = 8 * (d.GF ^ 2 * ‖d.V‖ ^ 2) := by
        unfold prefV
        rw [if_neg (not_le.2 hlt), norm_mul, mul_pow, Complex.norm_real, Real.norm_eq_abs, sq_abs, div_pow, Real.sq_sqrt (by norm_num)]
        ring
      rw [this]

theorem lin_sum {F : JV → ℝ} (hF : Lin F) (d : VInp) (l : Fin 3) (q2 : ℝ) : F (jSumV d l q2) = ∑ n, F (jOneV d l q2 n) := by
  obtain ⟨c, hc⟩ := hF
  simp only [hc, jSumV, Fin.sum_univ_three]; ring

theorem lin_scale {F : JV → ℝ} (hF : Lin F) (x : ℝ) (J : JV) : F (J.scale x) = x * F J := by
  obtain ⟨c, hc⟩ := hF
  simp only [hc, JV.scale]; ring

theorem lin_dG : Lin dGdq2 := ⟨![3 / 2, 3 / 4, -1 / 2, -1 / 4, 0, 0, 0, 0], fun J => by simp [dGdq2]; ring⟩
theorem lin_dGL : Lin dGL := ⟨![0, 3 / 4, 0, -1 / 4, 0, 0, 0, 0], fun J => by simp [dGL]; ring⟩
theorem lin_dGT : Lin dGT := ⟨![3 / 2, 0, -1 / 2, 0, 0, 0, 0, 0], fun J => by simp [dGT]; ring⟩
theorem lin_pol (A : Pol) : Lin (polF A) := by
  cases A
  · exact lin_dG
  · exact lin_dGL
  · exact lin_dGT
theorem lin_cl (c : ℝ) : Lin fun J => clDiff J c :=
  ⟨![3 / 4, 3 / 8, 3 / 4 * (2 * c ^ 2 - 1), 3 / 8 * (2 * c ^ 2 - 1), 3 / 4 * c, 3 / 8 * c, 0, 0], fun J => by simp [clDiff, dGcl]; ring⟩
theorem lin_cV (c : ℝ) : Lin fun J => cVDiff J c :=
  ⟨![9 / 8 * (1 - c ^ 2), 9 / 8 * c ^ 2, -3 / 8 * (1 - c ^ 2), -3 / 8 * c ^ 2, 0, 0, 0, 0], fun J => by simp [cVDiff, dGcV]; ring⟩
theorem lin_phi (p : ℝ) : Lin fun J => phiDiff J p :=
  ⟨![6 / (8 * Real.pi), 3 / (8 * Real.pi), -2 / (8 * Real.pi), -1 / (8 * Real.pi), 0, 0, 1 / (2 * Real.pi) * Real.cos (2 * p),
    1 / (2 * Real.pi) * Real.sin (2 * p)], fun J => by simp [phiDiff, dGphi]; ring⟩
theorem lin_clI (a b : ℝ) : Lin fun J => clInt J a b :=
  ⟨![3 / 4 * (b - a), 3 / 8 * (b - a), 3 / 4 * ((2 * b ^ 3 / 3 - b) - (2 * a ^ 3 / 3 - a)), 3 / 8 * ((2 * b ^ 3 / 3 - b) - (2 * a ^ 3 / 3 - a)),
    3 / 4 * (b ^ 2 / 2 - a ^ 2 / 2), 3 / 8 * (b ^ 2 / 2 - a ^ 2 / 2), 0, 0], fun J => by simp [clInt, dGcl]; ring⟩
theorem lin_cVI (a b : ℝ) : Lin fun J => cVInt J a b :=
  ⟨![9 / 8 * ((b - b ^ 3 / 3) - (a - a ^ 3 / 3)), 9 / 8 * (b ^ 3 / 3 - a ^ 3 / 3), -3 / 8 * ((b - b ^ 3 / 3) - (a - a ^ 3 / 3)),
    -3 / 8 * (b ^ 3 / 3 - a ^ 3 / 3), 0, 0, 0, 0], fun J => by simp [cVInt, dGcV]; ring⟩
theorem lin_phiI (a b : ℝ) : Lin fun J => phiInt J a b :=
  ⟨![6 / (8 * Real.pi) * (b - a), 3 / (8 * Real.pi) * (b - a), -2 / (8 * Real.pi) * (b - a), -1 / (8 * Real.pi) * (b - a), 0, 0,
    1 / (2 * Real.pi) * (Real.sin (2 * b) / 2 - Real.sin (2 * a) / 2),
    1 / (2 * Real.pi) * (-Real.cos (2 * b) / 2 - -Real.cos (2 * a) / 2)], fun J => by simp [phiInt, dGphi]; ring⟩

theorem norm_eq (d : VInp) (x : ℝ) : d.tau * x * brFac d = d.norm * x := by
  unfold brFac VInp.norm; split_ifs <;> ring

theorem dObs_indicator (d : VInp) (F : JV → ℝ) (l : Fin 3) :
    dObs d F l = indicator (d.region l) fun q => d.norm * F (jSumV d l q) := by
  ext q
  unfold indicator VInp.region dObs forbidden
  by_cases h : q ∈ Icc (d.m l ^ 2) ((d.mM - d.mV) ^ 2)
  · rw [if_pos h, if_neg (by rw [not_or, not_lt, not_lt]; exact ⟨h.1, h.2⟩), norm_eq]
  · rw [if_neg h, if_pos]
    by_contra hc
    push Not at hc
    exact h ⟨hc.1, hc.2⟩

/-! ## Rate -/

theorem pol_rate (d : VInp) (hv : d.Valid) (A : Pol) (l : Fin 3) (q2 : ℝ) (h : d.m l ^ 2 ≤ q2) :
    polF A (jSumV d l q2) = rateVSum d A l q2 := by
  have hq : 0 < q2 := lt_of_lt_of_le (pow_pos (hv.hm l) 2) h
  have key := fun n => rate_ampV q2 d.mM d.mV d.mb d.mlight (d.m l) (d.ff q2) (csmV d l n) (d.wc l n) (hv.hm l).le h hq hv.hM.ne'
    (add_pos hv.hM hv.hV).ne' hv.hq
  have hL : dGL (jSumV d l q2) = rateVSum d .L l q2 := by
    rw [lin_sum lin_dGL]
    refine Finset.sum_congr rfl fun n _ => ?_
    rw [jOneV_eq d hv l n q2 h]
    unfold jPlain
    rw [lin_scale lin_dGL]
    have k := (key n).1
    unfold csmV at k ⊢
    have sc : ∀ X S T, rateL d.GF (‖d.V‖ ^ 2) d.mM d.mV d.mb d.mlight (d.m l) q2 (d.ff q2) X S T
        = d.GF ^ 2 * ‖d.V‖ ^ 2 * rateL 1 1 d.mM d.mV d.mb d.mlight (d.m l) q2 (d.ff q2) X S T := by
      intro X S T; unfold rateL preV; simp only; ring
    rw [sc, ← k]; ring
  have hT : dGT (jSumV d l q2) = rateVSum d .T l q2 := by
    rw [lin_sum lin_dGT]
    refine Finset.sum_congr rfl fun n _ => ?_
    rw [jOneV_eq d hv l n q2 h]
    unfold jPlain
    rw [lin_scale lin_dGT]
    have k := (key n).2
    unfold csmV at k ⊢
    have sc : ∀ X S T, rateT d.GF (‖d.V‖ ^ 2) d.mM d.mV (d.m l) q2 (d.ff q2) X S T
        = d.GF ^ 2 * ‖d.V‖ ^ 2 * rateT 1 1 d.mM d.mV (d.m l) q2 (d.ff q2) X S T := by
      intro X S T; unfold rateT preV; simp only; ring
    rw [sc, ← k]; ring
  cases A with
  | L => exact hL
  | T => exact hT
  | all =>
    show dGdq2 (jSumV d l q2) = rateVSum d .L l q2 + rateVSum d .T l q2
    rw [← hL, ← hT]; unfold dGdq2 dGL dGT; ring

/-- **C103 (rate)** For all masses, form factors and complex Wilson coefficients (vector, scalar and tensor), in the allowed region
`dBR/dq2`, `dBR_L/dq2` and `dBR_T/dq2` are the life time (half of it for `rho0`, `omega`) times the rates of the literature summed over
the neutrino flavours; outside and at the lower end of the region they are zero; for `'l'` they are the mean of e and mu. -/
theorem C103_rate (d : VInp) (hv : d.Valid) (A : Pol) (l : Fin 3) (q2 : ℝ) :
    (q2 ∈ d.region l → dbrV d A (.one l) q2 = d.norm * rateVSum d A l q2) ∧
    (q2 ∉ d.region l → dbrV d A (.one l) q2 = 0) ∧ dbrV d A (.one l) (d.m l ^ 2) = 0 ∧
    dbrV d A .l q2 = (dbrV d A (.one 0) q2 + dbrV d A (.one 1) q2) / 2 := by
  refine ⟨fun h => ?_, fun h => ?_, ?_, rfl⟩
  · show dObs d (polF A) l q2 = _
    rw [dObs_indicator, indicator_of_mem h, pol_rate d hv A l q2 h.1]
  · show dObs d (polF A) l q2 = _
    rw [dObs_indicator, indicator_of_notMem h]
  · show dObs d (polF A) l _ = _
    rw [dObs_indicator]
    unfold indicator
    split_ifs
    · have : polF A (jSumV d l (d.m l ^ 2)) = 0 := by
        rw [lin_sum (lin_pol A)]
        refine Finset.sum_eq_zero fun n _ => ?_
        rw [jOneV_eq d hv l n _ le_rfl]
        unfold jPlain
        rw [lin_scale (lin_pol A), angularV_threshold _ _ _ _ (hv.hm l)]
        obtain ⟨c, hc⟩ := lin_pol A
        rw [hc]; simp [JV.zero]
      show d.norm * polF A (jSumV d l (d.m l ^ 2)) = 0
      rw [this, mul_zero]
    · rfl

/-! ## Angular distribution -/

theorem int_sin3 : ∫ t in (0 : ℝ)..Real.pi, Real.sin t * Real.sin t ^ 2 = 4 / 3 := by
  have := int_k 1 0
  rw [show (4 / 3 : ℝ) = 4 / 3 * 1 + 2 / 3 * 0 by norm_num, ← this]
  congr 1; ext t; ring

theorem int_sin2sin : ∫ t in (0 : ℝ)..Real.pi, Real.sin (2 * t) * Real.sin t = 0 := by
  have hd : ∀ x : ℝ, HasDerivAt (fun t => 2 / 3 * Real.sin t ^ 3) (Real.sin (2 * x) * Real.sin x) x := by
    intro x
    refine (((Real.hasDerivAt_sin x).pow 3).const_mul (2 / 3)).congr_deriv ?_
    rw [Real.sin_two_mul]; simp; ring
  rw [intervalIntegral.integral_eq_sub_of_hasDerivAt (fun x _ => hd x) (Continuous.intervalIntegrable (by fun_prop) _ _)]
  simp

theorem int_kk (a b c : ℝ) :
    ∫ t in (0:ℝ)..Real.pi, (a * Real.sin t ^ 2 + b * Real.cos t ^ 2 + c * Real.sin (2 * t)) * Real.sin t = 4 / 3 * a + 2 / 3 * b := by
  have e : ∀ t : ℝ, (a * Real.sin t ^ 2 + b * Real.cos t ^ 2 + c * Real.sin (2 * t)) * Real.sin t
      = (a * Real.sin t ^ 2 + b * Real.cos t ^ 2) * Real.sin t + c * (Real.sin (2 * t) * Real.sin t) := by intro t; ring
  simp only [e]
  rw [intervalIntegral.integral_add (Continuous.intervalIntegrable (by fun_prop) _ _) (Continuous.intervalIntegrable (by fun_prop) _ _),
    int_k, intervalIntegral.integral_const_mul, int_sin2sin]
  ring

theorem int_phi0 (J : JV) (tK tl : ℝ) : (∫ ph in (-Real.pi)..Real.pi, rateV J tK tl ph) = 2 * Real.pi * (J.j1s * Real.sin tK ^ 2
      + J.j1c * Real.cos tK ^ 2 + (J.j2s * Real.sin tK ^ 2 + J.j2c * Real.cos tK ^ 2) * Real.cos (2 * tl)
      + (J.j6s * Real.sin tK ^ 2 + J.j6c * Real.cos tK ^ 2) * Real.cos tl) := by
  rw [← int_phi _ (J.j4 * Real.sin (2 * tK) * Real.sin (2 * tl) + J.j5 * Real.sin (2 * tK) * Real.sin tl)
    (J.j7 * Real.sin (2 * tK) * Real.sin tl + J.j8 * Real.sin (2 * tK) * Real.sin (2 * tl))
    (J.j3 * Real.sin tK ^ 2 * Real.sin tl ^ 2) (J.j9 * Real.sin tK ^ 2 * Real.sin tl ^ 2)]
  congr 1; ext p; unfold rateV; ring

theorem int_kk' (a b c : ℝ) :
    ∫ t in (0:ℝ)..Real.pi, (2 * Real.pi * (a * Real.sin t ^ 2 + b * Real.cos t ^ 2)) * Real.sin t = 2 * Real.pi * (4 / 3 * a + 2 / 3 * b) := by
  rw [← int_k a b, ← intervalIntegral.integral_const_mul]
  congr 1; ext t; ring

/-- **C103 (angles)** The distributions in one angle are the full three-dimensional angular distribution (normalised by `9/32π`)
integrated over the other two angles, with the measure `dcos θ_V dcos θ_ℓ dφ`. -/
theorem C103_angles (J : JV) (t : ℝ) :
    clDiff J (Real.cos t) = 9 / (32 * Real.pi) *
      ∫ tK in (0 : ℝ)..Real.pi, (∫ ph in (-Real.pi)..Real.pi, rateV J tK t ph) * Real.sin tK ∧
    cVDiff J (Real.cos t) = 9 / (32 * Real.pi) *
      ∫ tl in (0 : ℝ)..Real.pi, (∫ ph in (-Real.pi)..Real.pi, rateV J t tl ph) * Real.sin tl ∧
    phiDiff J t = 9 / (32 * Real.pi) *
      ∫ tK in (0 : ℝ)..Real.pi, (∫ tl in (0 : ℝ)..Real.pi, rateV J tK tl t * Real.sin tl) * Real.sin tK := by
  have hpi := Real.pi_ne_zero
  refine ⟨?_, ?_, ?_⟩
  · simp only [int_phi0]
    have : ∀ tK : ℝ, 2 * Real.pi * (J.j1s * Real.sin tK ^ 2 + J.j1c * Real.cos tK ^ 2
        + (J.j2s * Real.sin tK ^ 2 + J.j2c * Real.cos tK ^ 2) * Real.cos (2 * t)
        + (J.j6s * Real.sin tK ^ 2 + J.j6c * Real.cos tK ^ 2) * Real.cos t) * Real.sin tK
        = 2 * Real.pi * ((J.j1s + J.j2s * Real.cos (2 * t) + J.j6s * Real.cos t) * Real.sin tK ^ 2
          + (J.j1c + J.j2c * Real.cos (2 * t) + J.j6c * Real.cos t) * Real.cos tK ^ 2) * Real.sin tK := by intro tK; ring
    simp only [this]
    rw [int_kk' _ _ 0, Real.cos_two_mul]
    simp only [clDiff, dGcl]
    field_simp
    ring
  · simp only [int_phi0]
    have := int_l 0 Real.pi (2 * Real.pi * (J.j1s * Real.sin t ^ 2 + J.j1c * Real.cos t ^ 2))
      (2 * Real.pi * (J.j2s * Real.sin t ^ 2 + J.j2c * Real.cos t ^ 2)) (2 * Real.pi * (J.j6s * Real.sin t ^ 2 + J.j6c * Real.cos t ^ 2))
    have e : (∫ tl in (0 : ℝ)..Real.pi, 2 * Real.pi * (J.j1s * Real.sin t ^ 2 + J.j1c * Real.cos t ^ 2
        + (J.j2s * Real.sin t ^ 2 + J.j2c * Real.cos t ^ 2) * Real.cos (2 * tl)
        + (J.j6s * Real.sin t ^ 2 + J.j6c * Real.cos t ^ 2) * Real.cos tl) * Real.sin tl) = _ :=
      Eq.trans (by congr 1; ext tl; ring) this
    rw [e]
    simp only [cVDiff, dGcV, Real.cos_pi, Real.cos_zero, Real.sin_sq]
    field_simp
    ring
  · have hl : ∀ tK : ℝ, (∫ tl in (0 : ℝ)..Real.pi, rateV J tK tl t * Real.sin tl)
        = (2 * J.j1s - 2 / 3 * J.j2s + 4 / 3 * (J.j3 * Real.cos (2 * t) + J.j9 * Real.sin (2 * t))) * Real.sin tK ^ 2
          + (2 * J.j1c - 2 / 3 * J.j2c) * Real.cos tK ^ 2
          + ((J.j5 * Real.cos t + J.j7 * Real.sin t) * (Real.pi / 2)) * Real.sin (2 * tK) := by
      intro tK
      have e : ∀ tl : ℝ, rateV J tK tl t * Real.sin tl =
          ((J.j1s * Real.sin tK ^ 2 + J.j1c * Real.cos tK ^ 2) + (J.j2s * Real.sin tK ^ 2 + J.j2c * Real.cos tK ^ 2) * Real.cos (2 * tl)
            + (J.j6s * Real.sin tK ^ 2 + J.j6c * Real.cos tK ^ 2) * Real.cos tl) * Real.sin tl
          + ((J.j3 * Real.cos (2 * t) + J.j9 * Real.sin (2 * t)) * Real.sin tK ^ 2) * (Real.sin tl * Real.sin tl ^ 2)
          + ((J.j4 * Real.cos t + J.j8 * Real.sin t) * Real.sin (2 * tK)) * (Real.sin (2 * tl) * Real.sin tl)
          + ((J.j5 * Real.cos t + J.j7 * Real.sin t) * Real.sin (2 * tK)) * Real.sin tl ^ 2 := by
        intro tl; unfold rateV; ring
      simp only [e]
      rw [intervalIntegral.integral_add (Continuous.intervalIntegrable (by fun_prop) _ _) (Continuous.intervalIntegrable (by fun_prop) _ _),
        intervalIntegral.integral_add (Continuous.intervalIntegrable (by fun_prop) _ _) (Continuous.intervalIntegrable (by fun_prop) _ _),
        intervalIntegral.integral_add (Continuous.intervalIntegrable (by fun_prop) _ _) (Continuous.intervalIntegrable (by fun_prop) _ _),
        int_l, intervalIntegral.integral_const_mul, intervalIntegral.integral_const_mul, intervalIntegral.integral_const_mul,
        int_sin3, int_sin2sin, integral_sin_sq]
      simp
      ring
    simp only [hl]
    rw [int_kk]
    simp only [phiDiff, dGphi]
    field_simp
    ring

/-- Non-vacuity: valid inputs with an open region for every lepton. -/
example (d : VInp) : ∃ e : VInp, e.Valid ∧ (∀ l, (1:ℝ) ∈ e.region l) ∧ e.ff = d.ff ∧ e.wc = d.wc :=
  ⟨{d with mM := 5, mV := 1, mb := 4, mlight := 1, m := fun _ => 1}, ⟨by norm_num, by norm_num, by norm_num, fun _ => by norm_num⟩, fun l => by
    simp only [VInp.region, Set.mem_Icc]; norm_num, rfl, rfl⟩

end Verif.Semilep.Vec
