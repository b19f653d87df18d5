import Verif.Physics.Inclusive.XllCorr
import Verif.Physics.Kdecays.Radcorr
/-!
# Collinear photons in `B → X_q ℓℓ`: the total rate

The functions of `flavio/physics/bdecays/bxll_qed.py` are modelled in `XllQed`; here they are integrated over the whole
phase space.
-/
set_option linter.unusedVariables false
set_option linter.unusedSimpArgs false
namespace Verif.BxllQed
open Verif.Py Verif
open Set MeasureTheory

theorem int_pow_log (n : ℕ) : ∫ s in (0 : ℝ)..1, s ^ n * Real.log s = -(1 / ((n : ℝ) + 1) ^ 2) := by
  rw [← Radcorr.integral_pow_log n, ← intervalIntegral.integral_neg]
  congr 1; funext s; ring

theorem int_pow_log1 (n : ℕ) : ∫ s in (0 : ℝ)..1, (1 - s) ^ n * Real.log (1 - s) = -(1 / ((n : ℝ) + 1) ^ 2) := by
  rw [← int_pow_log n]
  have := intervalIntegral.integral_comp_sub_left (a := (0 : ℝ)) (b := 1) (fun s : ℝ => s ^ n * Real.log s) 1
  simpa using this

theorem ii_log (n : ℕ) (c : ℝ) : IntervalIntegrable (fun s : ℝ => c * (s ^ n * Real.log s)) volume 0 1 :=
  (intervalIntegral.intervalIntegrable_log'.continuousOn_mul (by fun_prop)).const_mul c

theorem ii_log1 (n : ℕ) (c : ℝ) : IntervalIntegrable (fun s : ℝ => c * ((1 - s) ^ n * Real.log (1 - s))) volume 0 1 := by
  have h := (ii_log n c).comp_sub_left 1
  simpa using h.symm

/-- Integrals of polynomials times the two logarithms. -/
theorem int_logs (p : ℝ → ℝ) (hp : Continuous p) (a0 a1 a2 a3 b0 b1 b2 b3 : ℝ) :
    IntervalIntegrable (fun s => p s + (a0 + a1 * s + a2 * s ^ 2 + a3 * s ^ 3) * Real.log s
        + (b0 + b1 * (1 - s) + b2 * (1 - s) ^ 2 + b3 * (1 - s) ^ 3) * Real.log (1 - s)) volume 0 1 ∧
    ∫ s in (0 : ℝ)..1, (p s + (a0 + a1 * s + a2 * s ^ 2 + a3 * s ^ 3) * Real.log s
        + (b0 + b1 * (1 - s) + b2 * (1 - s) ^ 2 + b3 * (1 - s) ^ 3) * Real.log (1 - s))
      = (∫ s in (0 : ℝ)..1, p s) - (a0 + a1 / 4 + a2 / 9 + a3 / 16) - (b0 + b1 / 4 + b2 / 9 + b3 / 16) := by
  have e : (fun s => p s + (a0 + a1 * s + a2 * s ^ 2 + a3 * s ^ 3) * Real.log s
        + (b0 + b1 * (1 - s) + b2 * (1 - s) ^ 2 + b3 * (1 - s) ^ 3) * Real.log (1 - s))
      = fun s => p s + (a0 * (s ^ 0 * Real.log s) + (a1 * (s ^ 1 * Real.log s) + (a2 * (s ^ 2 * Real.log s) + a3 * (s ^ 3 * Real.log s))))
        + (b0 * ((1 - s) ^ 0 * Real.log (1 - s)) + (b1 * ((1 - s) ^ 1 * Real.log (1 - s)) + (b2 * ((1 - s) ^ 2 * Real.log (1 - s))
          + b3 * ((1 - s) ^ 3 * Real.log (1 - s))))) := by funext s; ring
  have h0 := hp.intervalIntegrable (μ := volume) 0 1
  have A3 := (ii_log 2 a2).add (ii_log 3 a3)
  have A2 := (ii_log 1 a1).add A3
  have A := (ii_log 0 a0).add A2
  have B3 := (ii_log1 2 b2).add (ii_log1 3 b3)
  have B2 := (ii_log1 1 b1).add B3
  have B := (ii_log1 0 b0).add B2
  rw [e]
  refine ⟨(h0.add A).add B, ?_⟩
  rw [intervalIntegral.integral_add (h0.add A) B, intervalIntegral.integral_add h0 A, intervalIntegral.integral_add (ii_log 0 a0) A2,
    intervalIntegral.integral_add (ii_log 1 a1) A3, intervalIntegral.integral_add (ii_log 2 a2) (ii_log 3 a3),
    intervalIntegral.integral_add (ii_log1 0 b0) B2, intervalIntegral.integral_add (ii_log1 1 b1) B3,
    intervalIntegral.integral_add (ii_log1 2 b2) (ii_log1 3 b3)]
  simp only [intervalIntegral.integral_const_mul, int_pow_log, int_pow_log1]
  norm_num
  ring

theorem int_cubic (c0 c1 c2 c3 : ℝ) :
    ∫ s in (0 : ℝ)..1, (c0 + c1 * s + c2 * s ^ 2 + c3 * s ^ 3) = c0 + c1 / 2 + c2 / 3 + c3 / 4 := by
  have h := intervalIntegral.integral_eq_sub_of_hasDerivAt (a := (0 : ℝ)) (b := 1)
    (f := fun s => c0 * s + c1 * s ^ 2 / 2 + c2 * s ^ 3 / 3 + c3 * s ^ 4 / 4) (f' := fun s => c0 + c1 * s + c2 * s ^ 2 + c3 * s ^ 3)
    (fun s _ => by
      have := ((((hasDerivAt_id' s).const_mul c0).add (((hasDerivAt_pow 2 s).const_mul c1).div_const 2)).add
        (((hasDerivAt_pow 3 s).const_mul c2).div_const 3)).add (((hasDerivAt_pow 4 s).const_mul c3).div_const 4)
      refine this.congr_deriv ?_
      push_cast
      ring)
    ((by fun_prop : Continuous fun s : ℝ => c0 + c1 * s + c2 * s ^ 2 + c3 * s ^ 3).intervalIntegrable _ _)
  rw [h]; ring

/-- The coefficients of the collinear logarithm in the rate, times the phase space. (Specification.) -/
noncomputable def k99 (s : ℝ) : ℝ := (-1 - 3 * s + 12 * s ^ 2 - 8 * s ^ 3) / 6
  + (-1 / 2 + 0 * s + 3 * s ^ 2 + -2 * s ^ 3) * Real.log s + (0 + 0 * (1 - s) + 3 * (1 - s) ^ 2 + -2 * (1 - s) ^ 3) * Real.log (1 - s)
/-- The same for the interference of the dipole with the vector operator. (Specification.) -/
noncomputable def k79 (s : ℝ) : ℝ := -(1 - s) / 2
  + (-1 / 2 + 1 * s + -1 * s ^ 2 + 0 * s ^ 3) * Real.log s + (0 + 0 * (1 - s) + 1 * (1 - s) ^ 2 + 0 * (1 - s) ^ 3) * Real.log (1 - s)
/-- The same for the dipole, without the photon pole. (Specification.) -/
noncomputable def k77 (s : ℝ) : ℝ := (1 - s) / 2
  + (3 / 2 + 0 * s + -1 * s ^ 2 + 0 * s ^ 3) * Real.log s + (-2 + -2 * (1 - s) + 1 * (1 - s) ^ 2 + 0 * (1 - s) ^ 3) * Real.log (1 - s)

theorem int99 : IntervalIntegrable k99 volume 0 1 ∧ ∫ s in (0 : ℝ)..1, k99 s = 0 := by
  obtain ⟨h1, h2⟩ := int_logs (fun s => (-1 - 3 * s + 12 * s ^ 2 - 8 * s ^ 3) / 6) (by fun_prop) (-1 / 2) 0 3 (-2) 0 0 3 (-2)
  refine ⟨h1, h2.trans ?_⟩
  have : ∫ s in (0 : ℝ)..1, (-1 - 3 * s + 12 * s ^ 2 - 8 * s ^ 3) / 6 = -1 / 12 := by
    rw [← (show (-1 / 6 : ℝ) + (-1 / 2) / 2 + 2 / 3 + (-4 / 3) / 4 = -1 / 12 by norm_num), ← int_cubic]
    congr 1; funext s; ring
  rw [this]; norm_num

theorem int_lin : ∫ s in (0 : ℝ)..1, (1 - s) / 2 = 1 / 4 := by
  rw [← (show (1 / 2 : ℝ) + (-1 / 2) / 2 + 0 / 3 + 0 / 4 = 1 / 4 by norm_num), ← int_cubic]
  congr 1; funext s; ring

theorem int79 : IntervalIntegrable k79 volume 0 1 ∧ ∫ s in (0 : ℝ)..1, k79 s = 0 := by
  obtain ⟨h1, h2⟩ := int_logs (fun s => -(1 - s) / 2) (by fun_prop) (-1 / 2) 1 (-1) 0 0 0 1 0
  refine ⟨h1, h2.trans ?_⟩
  have : ∫ s in (0 : ℝ)..1, -(1 - s) / 2 = -1 / 4 := by
    simp only [neg_div]
    rw [intervalIntegral.integral_neg, int_lin]
  rw [this]; norm_num

theorem ii_spence : IntervalIntegrable (fun t : ℝ => Real.log t / (1 - t)) volume 0 1 := by
  by_contra h
  have h0 := intervalIntegral.integral_undef h
  have h1 := Radcorr.spence_zero
  rw [FormFactors.spence, intervalIntegral.integral_symm, h0, neg_zero] at h1
  have h2 : 0 < Real.pi ^ 2 / 6 := by have := Real.pi_pos; positivity
  exact h2.ne h1

theorem int_pole : IntervalIntegrable (fun s : ℝ => Real.log (1 - s) / s) volume 0 1 ∧ ∫ s in (0 : ℝ)..1, Real.log (1 - s) / s = -(Real.pi ^ 2 / 6) := by
  constructor
  · have h := ii_spence.comp_sub_left 1
    simpa using h.symm
  · have := intervalIntegral.integral_comp_sub_left (a := (0 : ℝ)) (b := 1) (fun t : ℝ => Real.log t / (1 - t)) 1
    simp only [sub_sub_cancel, sub_self, sub_zero] at this
    rw [this, ← Radcorr.spence_zero, FormFactors.spence, intervalIntegral.integral_symm]

theorem int77 : IntervalIntegrable k77 volume 0 1 ∧ ∫ s in (0 : ℝ)..1, k77 s = 5 / 4 := by
  obtain ⟨h1, h2⟩ := int_logs (fun s => (1 - s) / 2) (by fun_prop) (3 / 2) 0 (-1) 0 (-2) (-2) 1 0
  refine ⟨h1, h2.trans ?_⟩
  rw [int_lin]; norm_num

theorem e99 (s mb ml sc mc mb' ml' sc' mc' : ℝ) (h0 : 0 < s) (h1 : s < 1) :
    (1 - s) ^ 2 * (1 + 2 * s) * (wem_99_low s mb ml sc mc - wem_99_low s mb' ml' sc' mc')
      = (Real.log (mb ^ 2 / ml ^ 2) - Real.log (mb' ^ 2 / ml' ^ 2)) * k99 s := by
  have a1 : -1 + s ≠ 0 := by intro h; linarith
  have a2 : 1 + 2 * s ≠ 0 := by positivity
  unfold wem_99_low k99
  generalize Real.log (mb ^ 2 / ml ^ 2) = L
  generalize Real.log (mb' ^ 2 / ml' ^ 2) = L'
  generalize Real.log (1 - s) = x
  generalize Real.log s = y
  have key : ∀ B N A : ℝ, (1 - s) ^ 2 * (1 + 2 * s) * ((-0.5 + L * A / (6 * (-1 + s) ^ 2 * (1 + 2 * s)) + B + N)
      - (-0.5 + L' * A / (6 * (-1 + s) ^ 2 * (1 + 2 * s)) + B + N)) = (L - L') * (A / 6) := fun B N A => by
    field_simp
    ring
  rw [key]
  ring

theorem e79 (s mb ml sc mc mb' ml' sc' mc' : ℝ) (h0 : 0 < s) (h1 : s < 1) :
    (1 - s) ^ 2 * (wem_79_low s mb ml sc mc - wem_79_low s mb' ml' sc' mc')
      = (Real.log (mb ^ 2 / ml ^ 2) - Real.log (mb' ^ 2 / ml' ^ 2)) * k79 s := by
  have a1 : -1 + s ≠ 0 := by intro h; linarith
  unfold wem_79_low k79
  field_simp
  ring

theorem e77 (s mb ml sc mc mb' ml' sc' mc' : ℝ) (h0 : 0 < s) (h1 : s < 1) :
    (1 - s) ^ 2 * (1 + 2 / s) * (wem_77_low s mb ml sc mc - wem_77_low s mb' ml' sc' mc')
      = (Real.log (mb ^ 2 / ml ^ 2) - Real.log (mb' ^ 2 / ml' ^ 2)) * (k77 s + 2 * (Real.log (1 - s) / s)) := by
  have a1 : -1 + s ≠ 0 := by intro h; linarith
  have a2 : 2 + s ≠ 0 := by positivity
  unfold wem_77_low k77
  field_simp
  ring

theorem integral_congr_open {f g : ℝ → ℝ} (h : ∀ s ∈ Ioo (0 : ℝ) 1, f s = g s) (hg : IntervalIntegrable g volume 0 1) :
    IntervalIntegrable f volume 0 1 ∧ ∫ s in (0 : ℝ)..1, f s = ∫ s in (0 : ℝ)..1, g s := by
  constructor
  · rw [intervalIntegrable_iff_integrableOn_Ioo_of_le zero_le_one] at hg ⊢
    exact hg.congr_fun (fun s hs => (h s hs).symm) measurableSet_Ioo
  · rw [intervalIntegral.integral_of_le zero_le_one, intervalIntegral.integral_of_le zero_le_one, integral_Ioc_eq_integral_Ioo,
      integral_Ioc_eq_integral_Ioo]
    exact setIntegral_congr_fun measurableSet_Ioo h

end Verif.BxllQed

namespace Verif.Xll
open Verif.Py Verif Verif.BxllQed Set MeasureTheory

/-- **C168 (collinear photons and the total rate).** Without four-quark operators, integrated over the whole phase space the
log-enhanced photon correction depends on the lepton mass through the photon pole only: the vector and axial-vector
coefficients and their interference with the dipole drop out, as Kinoshita, Lee and Nauenberg require. -/
theorem C168_total (mb ml mb' ml' as as' ae mc mc' sc sc' : ℝ) (ha : as ≠ 0) (ha' : as' ≠ 0) (w : String → ℂ) (q l : String)
    (h1 : w ("C1_b" ++ q) = 0) (h2 : w ("C2_b" ++ q) = 0) (f g : ℝ → ℝ)
    (hf : ∀ s ∈ Ioo (0 : ℝ) 1, phiQed "BR" s mb ml as ae w q l mc sc = .ok (f s))
    (hg : ∀ s ∈ Ioo (0 : ℝ) 1, phiQed "BR" s mb' ml' as' ae w q l mc' sc' = .ok (g s)) :
    IntervalIntegrable (fun s => f s - g s) volume 0 1 ∧
    ∫ s in (0 : ℝ)..1, (f s - g s) = 2 * ae / Real.pi * (Real.log (mb ^ 2 / ml ^ 2) - Real.log (mb' ^ 2 / ml' ^ 2))
      * (4 * (5 / 4 - Real.pi ^ 2 / 3) * ‖w ("C7eff_b" ++ q)‖ ^ 2) := by
  set D := Real.log (mb ^ 2 / ml ^ 2) - Real.log (mb' ^ 2 / ml' ^ 2) with hD
  set c7 := w ("C7eff_b" ++ q)
  set c9 := w ("C9_b" ++ q ++ (l ++ l))
  set c10 := w ("C10_b" ++ q ++ (l ++ l))
  have val : ∀ (mb ml as mc sc : ℝ), as ≠ 0 → ∀ s ∈ Ioo (0 : ℝ) 1, ∀ v, phiQed "BR" s mb ml as ae w q l mc sc = .ok v →
      v = 2*ae/Real.pi*(1-s)^2 * (4*(1+2/s)*wem_77_low s mb ml sc mc*‖c7‖^2 + 12*wem_79_low s mb ml sc mc*reC c7 c9
        + (1+2*s)*wem_99_low s mb ml sc mc*(‖c9‖^2 + ‖c10‖^2)) := fun mb ml as mc sc ha s hs v hv => by
    obtain ⟨w22, w77, w79, w99, w27, w29, _, e77, e79, e99, _, _, e⟩ := C132_qed_rate s mb ml as ae mc sc ha w q l
    obtain ⟨n7, n79, n9⟩ := C129_no_jump s mb ml sc mc
    have inj : ∀ {a b : ℝ}, (Except.ok (a : ℂ) : Except PyErr ℂ) = .ok (b : ℂ) → a = b := fun h => Complex.ofReal_injective (Except.ok.inj h)
    rw [← inj (n7.symm.trans e77), ← inj (n79.symm.trans e79), ← inj (n9.symm.trans e99), h1, h2] at e
    have := Except.ok.inj (hv.symm.trans e)
    rw [this]
    have z : ∀ c, reC 0 c = 0 := fun c => by simp [reC_eq]
    simp only [mul_zero, add_zero, z, norm_zero]
    ring
  have K : IntervalIntegrable (fun s => 2 * ae / Real.pi * D * (4 * ‖c7‖ ^ 2 * (k77 s + 2 * (Real.log (1 - s) / s)) + 12 * reC c7 c9 * k79 s
      + (‖c9‖ ^ 2 + ‖c10‖ ^ 2) * k99 s)) volume 0 1 :=
    ((((int77.1.add (int_pole.1.const_mul 2)).const_mul _).add (int79.1.const_mul _)).add (int99.1.const_mul _)).const_mul _
  obtain ⟨r1, r2⟩ := integral_congr_open (f := fun s => f s - g s) (fun s hs => by
    rw [val mb ml as mc sc ha s hs _ (hf s hs), val mb' ml' as' mc' sc' ha' s hs _ (hg s hs)]
    have t7 := e77 s mb ml sc mc mb' ml' sc' mc' hs.1 hs.2
    have t79 := e79 s mb ml sc mc mb' ml' sc' mc' hs.1 hs.2
    have t9 := e99 s mb ml sc mc mb' ml' sc' mc' hs.1 hs.2
    rw [← hD] at t7 t79 t9
    linear_combination 2 * ae / Real.pi * (4 * ‖c7‖ ^ 2 * t7 + 12 * reC c7 c9 * t79 + (‖c9‖ ^ 2 + ‖c10‖ ^ 2) * t9)) K
  refine ⟨r1, r2.trans ?_⟩
  rw [intervalIntegral.integral_const_mul, intervalIntegral.integral_add
      (((int77.1.add (int_pole.1.const_mul 2)).const_mul _).add (int79.1.const_mul _)) (int99.1.const_mul _),
    intervalIntegral.integral_add ((int77.1.add (int_pole.1.const_mul 2)).const_mul _) (int79.1.const_mul _),
    intervalIntegral.integral_const_mul, intervalIntegral.integral_const_mul, intervalIntegral.integral_const_mul,
    intervalIntegral.integral_add int77.1 (int_pole.1.const_mul 2), intervalIntegral.integral_const_mul, int77.2, int_pole.2, int79.2, int99.2]
  ring

/-- **C168 (no dipole).** In particular, without the dipole the total correction is the same for electrons and for muons. -/
theorem C168_universal (mb me mmu as ae mc sc : ℝ) (ha : as ≠ 0) (w : String → ℂ) (q l : String)
    (h1 : w ("C1_b" ++ q) = 0) (h2 : w ("C2_b" ++ q) = 0) (h7 : w ("C7eff_b" ++ q) = 0) (f g : ℝ → ℝ)
    (hf : ∀ s ∈ Ioo (0 : ℝ) 1, phiQed "BR" s mb me as ae w q l mc sc = .ok (f s))
    (hg : ∀ s ∈ Ioo (0 : ℝ) 1, phiQed "BR" s mb mmu as ae w q l mc sc = .ok (g s)) :
    ∫ s in (0 : ℝ)..1, (f s - g s) = 0 := by
  rw [(C168_total mb me mb mmu as as ae mc mc sc sc ha ha w q l h1 h2 f g hf hg).2, h7]
  simp

/-- **C168 (renormalisation scale).** The dependence of the interference of the four-quark operator with the vector and with the
dipole operator on the renormalisation scale cancels in the total rate too. -/
theorem C168_scale (mb ml mc μ μ' : ℝ) (f g f' g' : ℝ → ℂ)
    (hf : ∀ s ∈ Ioo (0 : ℝ) 1, wem "BR" 2 9 s mb ml μ mc = .ok (f s)) (hg : ∀ s ∈ Ioo (0 : ℝ) 1, wem "BR" 2 9 s mb ml μ' mc = .ok (g s))
    (hf' : ∀ s ∈ Ioo (0 : ℝ) 1, wem "BR" 2 7 s mb ml μ mc = .ok (f' s)) (hg' : ∀ s ∈ Ioo (0 : ℝ) 1, wem "BR" 2 7 s mb ml μ' mc = .ok (g' s)) :
    ∫ s in (0 : ℝ)..1, (1 - s) ^ 2 * (1 + 2 * s) * (f s - g s).re = 0 ∧ ∫ s in (0 : ℝ)..1, (1 - s) ^ 2 * (f' s - g' s).re = 0 := by
  have d9 : ∀ s ∈ Ioo (0 : ℝ) 1, (1 - s) ^ 2 * (1 + 2 * s) * (f s - g s).re
      = 16 / 9 * (Real.log (μ / 5) - Real.log (μ' / 5)) * Real.log (mb ^ 2 / ml ^ 2) * k99 s := fun s hs => by
    have a1 : -1 + s ≠ 0 := by intro h; linarith [hs.2]
    have a3 : 1 - s ≠ 0 := by intro h; linarith [hs.2]
    have a2 : 1 + 2 * s ≠ 0 := by have := hs.1; positivity
    have e1 := hf s hs
    have e2 := hg s hs
    have hre : (f s - g s).re = wem_29_re_low s mb ml μ mc - wem_29_re_low s mb ml μ' mc ∨ (f s - g s).re = wem_29_re_high s mb ml μ mc - wem_29_re_high s mb ml μ' mc := by
      by_cases h : s < 0.5
      · simp only [wem, if_pos h] at e1 e2
        have e1' : f s = wem_29_low s mb ml μ mc := (Except.ok.inj e1).symm
        have e2' : g s = wem_29_low s mb ml μ' mc := (Except.ok.inj e2).symm
        left; rw [e1', e2']; simp [wem_29_low]
      · simp only [wem, if_neg h] at e1 e2
        have e1' : f s = wem_29_high s mb ml μ mc := (Except.ok.inj e1).symm
        have e2' : g s = wem_29_high s mb ml μ' mc := (Except.ok.inj e2).symm
        right; rw [e1', e2']; simp [wem_29_high]
    have hc := C129_scale_rate s mb ml mc μ
    have hc' := C129_scale_rate s mb ml mc μ'
    have hk : (1 - s) ^ 2 * (1 + 2 * s) * coll99 s mb ml = Real.log (mb ^ 2 / ml ^ 2) * k99 s := by
      unfold coll99 k99
      have key : ∀ L A : ℝ, (1 - s) ^ 2 * (1 + 2 * s) * (L * A / (6 * (1 - s) ^ 2 * (1 + 2 * s))) = L * (A / 6) := fun L A => by
        rw [mul_div_assoc', div_eq_iff (mul_ne_zero (mul_ne_zero (by norm_num) (pow_ne_zero 2 a3)) a2)]; ring
      rw [key]; ring
    rcases hre with h | h
    · rw [h, hc.2.2.1, hc'.2.2.1]; linear_combination (16 / 9 * (Real.log (μ / 5) - Real.log (μ' / 5))) * hk
    · rw [h, hc.2.2.2.1, hc'.2.2.2.1]; linear_combination (16 / 9 * (Real.log (μ / 5) - Real.log (μ' / 5))) * hk
  have d7 : ∀ s ∈ Ioo (0 : ℝ) 1, (1 - s) ^ 2 * (f' s - g' s).re
      = 8 / 9 * (Real.log (μ / 5) - Real.log (μ' / 5)) * Real.log (mb ^ 2 / ml ^ 2) * k79 s := fun s hs => by
    have a1 : -1 + s ≠ 0 := by intro h; linarith [hs.2]
    have e1 := hf' s hs
    have e2 := hg' s hs
    by_cases h : s < 0.5
    · simp only [wem, if_pos h] at e1 e2
      have e1' : f' s = wem_27_low s mb ml μ mc := (Except.ok.inj e1).symm
      have e2' : g' s = wem_27_low s mb ml μ' mc := (Except.ok.inj e2).symm
      have : (f' s - g' s).re = wem_27_re_low s mb ml μ mc - wem_27_re_low s mb ml μ' mc := by rw [e1', e2']; simp [wem_27_low]
      rw [this]; unfold wem_27_re_low k79
      field_simp
      ring
    · simp only [wem, if_neg h] at e1 e2
      have e1' : f' s = wem_27_high s mb ml μ mc := (Except.ok.inj e1).symm
      have e2' : g' s = wem_27_high s mb ml μ' mc := (Except.ok.inj e2).symm
      have : (f' s - g' s).re = wem_27_re_high s mb ml μ mc - wem_27_re_high s mb ml μ' mc := by rw [e1', e2']; simp [wem_27_high]
      rw [this]; unfold wem_27_re_high k79
      field_simp
      ring
  constructor
  · rw [(integral_congr_open d9 (int99.1.const_mul _)).2, intervalIntegral.integral_const_mul, int99.2, mul_zero]
  · rw [(integral_congr_open d7 (int79.1.const_mul _)).2, intervalIntegral.integral_const_mul, int79.2, mul_zero]

/-- The hypotheses are met: the correction exists at every point, for any coefficients. -/
example (mb ml as ae mc sc : ℝ) (ha : as ≠ 0) (w : String → ℂ) : ∃ f : ℝ → ℝ, ∀ s ∈ Ioo (0 : ℝ) 1, phiQed "BR" s mb ml as ae w "s" "mu" mc sc = .ok (f s) := by
  have h : ∀ s, ∃ v : ℝ, phiQed "BR" s mb ml as ae w "s" "mu" mc sc = .ok v := fun s => by
    obtain ⟨_, _, _, _, _, _, _, _, _, _, _, _, e⟩ := C132_qed_rate s mb ml as ae mc sc ha w "s" "mu"
    exact ⟨_, e⟩
  choose f hf using h
  exact ⟨f, fun s _ => hf s⟩

end Verif.Xll
