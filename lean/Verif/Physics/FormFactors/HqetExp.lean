import Verif.Physics.FormFactors.HqetTheorems
import Verif.Physics.FormFactors.SeriesTheorems
/-!
# The `CLN` parametrizations at the level of the API, `CLNexp-IW` and the Isgur-Wise relations
-/
set_option linter.unusedVariables false
set_option linter.unusedSimpArgs false
namespace Verif.FormFactors
open Verif.Py Verif.Running Verif.Bll Verif.Angular
open Set Filter Topology

/-! ## `cln` -/

theorem wpow_ok (x : ℝ) {n m : ℕ} (hn : n ≤ 3) (hm : m ≤ 3) : ∃ v, wMinus1Pow x n m = .ok v := by
  unfold wMinus1Pow
  rw [if_neg (by omega), if_neg (by omega)]
  by_cases h : n = 0
  · exact ⟨1, by rw [if_pos h]⟩
  · exact ⟨_, by rw [if_neg h]⟩

theorem xi_ok (p : HqPar) (x : ℝ) : ∃ v, xi p x 3 = .ok v := by
  obtain ⟨a, ha⟩ := wpow_ok x (n := 1) (m := 3) (by norm_num) (by norm_num)
  obtain ⟨b, hb⟩ := wpow_ok x (n := 2) (m := 3) (by norm_num) (by norm_num)
  obtain ⟨c, hc⟩ := wpow_ok x (n := 3) (m := 3) (by norm_num) (by norm_num)
  exact ⟨_, by unfold xi; rw [ha, fok, hb, fok, hc, fok]; rfl⟩

theorem Lz_ok (p : HqPar) (w x : ℝ) : ∃ v, Lz p w x 2 = .ok v := by
  obtain ⟨a, ha⟩ := wpow_ok x (n := 1) (m := 2) (by norm_num) (by norm_num)
  obtain ⟨b, hb⟩ := wpow_ok x (n := 2) (m := 2) (by norm_num) (by norm_num)
  exact ⟨_, by unfold Lz; rw [ha, fok, hb, fok]; rfl⟩

theorem ell_ok (p : HqPar) (x : ℝ) : ∃ v, ell p x 1 = .ok v := by
  obtain ⟨a, ha⟩ := wpow_ok x (n := 1) (m := 1) (by norm_num) (by norm_num)
  exact ⟨_, by unfold ell; rw [ha, fok]; rfl⟩

theorem tm_lt {mB mM : ℝ} (hB : 0 < mB) (hM : 0 < mM) : T0.tm.val ((mB - mM) ^ 2) ((mB + mM) ^ 2) < (mB + mM) ^ 2 := by
  show (mB - mM) ^ 2 < _
  nlinarith [mul_pos hB hM]

theorem clnP_form (e : HqEps) (p : HqPar) {mB mP q2 : ℝ} (hB : 0 < mB) (hP : 0 < mP) (hq : q2 ≤ (mB + mP) ^ 2) :
    ∃ h : HP, clnP e p mB mP q2 = .ok (hToF mB mP h q2) := by
  have hz := z_eq hB hP T0.tm (tm_lt hB hP) hq
  obtain ⟨a, ha⟩ := xi_ok p (conformal ((mB + mP) ^ 2) (T0.tm.val ((mB - mP) ^ 2) ((mB + mP) ^ 2)) q2)
  obtain ⟨b, hb⟩ := Lz_ok p (max ((mB ^ 2 + mP ^ 2 - q2) / (2 * mB * mP)) 1) (conformal ((mB + mP) ^ 2) (T0.tm.val ((mB - mP) ^ 2) ((mB + mP) ^ 2)) q2)
  obtain ⟨c, hc⟩ := ell_ok p (conformal ((mB + mP) ^ 2) (T0.tm.val ((mB - mP) ^ 2) ((mB + mP) ^ 2)) q2)
  exact ⟨_, by unfold clnP; simp only; rw [hz, fok, ha, fok, hb, fok, hc, fok]; rfl⟩

theorem clnV_form (e : HqEps) (p : HqPar) {mB mV q2 : ℝ} (hB : 0 < mB) (hV : 0 < mV) (hq : q2 ≤ (mB + mV) ^ 2) :
    ∃ h : HV, clnV e p mB mV q2 = .ok (hToA mB mV h q2) := by
  have hz := z_eq hB hV T0.tm (tm_lt hB hV) hq
  obtain ⟨a, ha⟩ := xi_ok p (conformal ((mB + mV) ^ 2) (T0.tm.val ((mB - mV) ^ 2) ((mB + mV) ^ 2)) q2)
  obtain ⟨b, hb⟩ := Lz_ok p (max ((mB ^ 2 + mV ^ 2 - q2) / (2 * mB * mV)) 1) (conformal ((mB + mV) ^ 2) (T0.tm.val ((mB - mV) ^ 2) ((mB + mV) ^ 2)) q2)
  obtain ⟨c, hc⟩ := ell_ok p (conformal ((mB + mV) ^ 2) (T0.tm.val ((mB - mV) ^ 2) ((mB + mV) ^ 2)) q2)
  exact ⟨_, by unfold clnV; simp only; rw [hz, fok, ha, fok, hb, fok, hc, fok]; rfl⟩

/-- **C105**: the form factors of the `CLN` parametrizations are defined for all parameters and all `q²` up to the threshold and satisfy the exact relations at the ends of the physical
region: `f₊(0) = f₀(0)`; `T₁(0) = T₂(0)`, `8 mB mV A₁₂(0) = (mB² - mV²) A₀(0)`, and at `q² = (mB - mV)²` `8 mB mV A₁₂ = (mB² - mV²) A₁`, `4 mB mV T₂₃ = (mB + mV)² T₂`. -/
theorem C105_cln_relations (e : HqEps) (p : HqPar) {mB m : ℝ} (hB : 0 < mB) (hm : 0 < m) (hne : mB ≠ m) :
    (∀ q2, q2 ≤ (mB + m) ^ 2 → (∃ f, clnP e p mB m q2 = .ok f) ∧ ∃ f, clnV e p mB m q2 = .ok f) ∧
    (∀ f, clnP e p mB m 0 = .ok f → f.fp = f.f0) ∧
    (∀ f, clnV e p mB m 0 = .ok f → f.T1 = f.T2 ∧ 8 * mB * m * f.A12 = (mB ^ 2 - m ^ 2) * f.A0) ∧
    (∀ f, clnV e p mB m ((mB - m) ^ 2) = .ok f →
      8 * mB * m * f.A12 = (mB ^ 2 - m ^ 2) * f.A1 ∧ 4 * mB * m * f.T23 = (mB + m) ^ 2 * f.T2) := by
  refine ⟨?_, ?_, ?_, ?_⟩
  · intro q2 hq
    obtain ⟨h, e1⟩ := clnP_form e p hB hm hq
    obtain ⟨h', e2⟩ := clnV_form e p hB hm hq
    exact ⟨⟨_, e1⟩, ⟨_, e2⟩⟩
  · intro f hf
    obtain ⟨h, e1⟩ := clnP_form e p hB hm (show (0:ℝ) ≤ (mB + m) ^ 2 by positivity)
    rw [e1] at hf
    cases hf
    simp [hToF]
  · intro f hf
    obtain ⟨h, e1⟩ := clnV_form e p hB hm (show (0:ℝ) ≤ (mB + m) ^ 2 by positivity)
    rw [e1] at hf
    cases hf
    obtain ⟨a, b, _, _⟩ := C105_relations_V hB hm hne h
    exact ⟨a, b⟩
  · intro f hf
    obtain ⟨h, e1⟩ := clnV_form e p hB hm (show (mB - m) ^ 2 ≤ (mB + m) ^ 2 by nlinarith [mul_pos hB hm])
    rw [e1] at hf
    cases hf
    obtain ⟨_, _, c, d⟩ := C105_relations_V hB hm hne h
    exact ⟨c, d⟩

/-! ## `clnexp` -/

/-- The variable of `clnexp` is the conformal variable with `t0 = t₋`. -/
theorem zExp_eq {mB mV q2 : ℝ} (hB : 0 < mB) (hV : 0 < mV) (hq : q2 ≤ (mB + mV) ^ 2) :
    zExp mB mV q2 = .ok (conformal ((mB + mV) ^ 2) ((mB - mV) ^ 2) q2) := by
  have h2 : 0 < 2 * mB * mV := by positivity
  have e1 : (mB ^ 2 + mV ^ 2 - q2) / (2 * mB * mV) + 1 = ((mB + mV) ^ 2 - q2) / (2 * mB * mV) := by field_simp; ring
  have e2 : Real.sqrt 2 = Real.sqrt ((mB + mV) ^ 2 - (mB - mV) ^ 2) / Real.sqrt (2 * mB * mV) := by
    rw [← Real.sqrt_div' _ h2.le]
    congr 1
    field_simp; ring
  have hs := Real.sqrt_pos.2 h2
  have ht : 0 < Real.sqrt ((mB + mV) ^ 2 - (mB - mV) ^ 2) := Real.sqrt_pos.2 (by nlinarith [mul_pos hB hV])
  have hu := Real.sqrt_nonneg ((mB + mV) ^ 2 - q2)
  unfold zExp
  simp only
  rw [e1, pySqrt_nonneg (div_nonneg (by linarith) h2.le), fok, Real.sqrt_div' _ h2.le, e2, Mixing.pyDiv_ne (by positivity)]
  unfold conformal
  congr 1
  field_simp

/-- **C105**: `clnexp` expands in the same variable as the other parametrizations (for all `q²`, also above the threshold, where both raise `ValueError`). -/
theorem C105_clnexp_z {mB mV : ℝ} (hB : 0 < mB) (hV : 0 < mV) (q2 : ℝ) : zExp mB mV q2 = z mB mV q2 .tm := by
  by_cases hq : q2 ≤ (mB + mV) ^ 2
  · rw [zExp_eq hB hV hq, z_eq hB hV T0.tm (tm_lt hB hV) hq]; rfl
  · have hq := not_le.1 hq
    rw [(C104_z hB hV T0.tm (tm_lt hB hV)).2.2 q2 hq]
    have e1 : (mB ^ 2 + mV ^ 2 - q2) / (2 * mB * mV) + 1 = ((mB + mV) ^ 2 - q2) / (2 * mB * mV) := by field_simp; ring
    unfold zExp
    simp only
    rw [e1]
    have : ((mB + mV) ^ 2 - q2) / (2 * mB * mV) < 0 := div_neg_of_neg_of_pos (by linarith) (by positivity)
    unfold pySqrt
    rw [if_pos this]
    rfl

/-- The leading form factor `h_A1(w)` of Caprini, Lellouch and Neubert as function of `z`. (Specification.) -/
noncomputable def hA1CLN (h1 rho2 z : ℝ) : ℝ := h1 * (1 - 8 * rho2 * z + (53 * rho2 - 15) * z ^ 2 - (231 * rho2 - 91) * z ^ 3)

/-- **C105**: `clnexp` is the parametrization of Caprini, Lellouch and Neubert: for all parameters and `q²` up to the threshold, with `w = (mB² + mV² - q²)/(2 mB mV)` and
`r = 1 - q²/(mB + mV)²`: `2√(mB mV) (w + 1)/2 h_A1 = (mB + mV) A₁`, `r V = R₁(w) A₁`, `r A₂ = R₂(w) A₁` for the `A₂` that enters `A₁₂`, with the ratios
`R₁(w) = R₁(1) - 0.12 (w-1) + 0.05 (w-1)²`, `R₂(w) = R₂(1) + 0.11 (w-1) - 0.06 (w-1)²`, and `A₁(q²_max) = 2√(mB mV)/(mB + mV) h_A1(1)`. -/
theorem C105_clnexp (p : CexpPar) {mB mV : ℝ} (hB : 0 < mB) (hV : 0 < mV) :
    (∀ q2, q2 ≤ (mB + mV) ^ 2 → ∃ f A2, clnexp p mB mV q2 = .ok f ∧
      (mB + mV) * f.A1 = 2 * Real.sqrt (mB * mV) * ((recoil mB mV q2 + 1) / 2) *
        hA1CLN p.hA1 p.rho2 (conformal ((mB + mV) ^ 2) ((mB - mV) ^ 2) q2) ∧
      (1 - q2 / (mB + mV) ^ 2) * f.V = (p.R1 - 0.12 * (recoil mB mV q2 - 1) + 0.05 * (recoil mB mV q2 - 1) ^ 2) * f.A1 ∧
      (1 - q2 / (mB + mV) ^ 2) * A2 = (p.R2 + 0.11 * (recoil mB mV q2 - 1) - 0.06 * (recoil mB mV q2 - 1) ^ 2) * f.A1 ∧
      f.A12 = a12 mB mV q2 f.A1 A2 ∧
      ∃ R0, (1 - q2 / (mB + mV) ^ 2) * f.A0 = (R0 - 0.11 * (recoil mB mV q2 - 1) + 0.01 * (recoil mB mV q2 - 1) ^ 2) * f.A1 ∧
        R0 = r0One p mB mV) ∧
    (∀ f, clnexp p mB mV ((mB - mV) ^ 2) = .ok f → (mB + mV) * f.A1 = 2 * Real.sqrt (mB * mV) * p.hA1) := by
  have main : ∀ q2, q2 ≤ (mB + mV) ^ 2 → ∃ f A2, clnexp p mB mV q2 = .ok f ∧
      (mB + mV) * f.A1 = 2 * Real.sqrt (mB * mV) * ((recoil mB mV q2 + 1) / 2) *
        hA1CLN p.hA1 p.rho2 (conformal ((mB + mV) ^ 2) ((mB - mV) ^ 2) q2) ∧
      (1 - q2 / (mB + mV) ^ 2) * f.V = (p.R1 - 0.12 * (recoil mB mV q2 - 1) + 0.05 * (recoil mB mV q2 - 1) ^ 2) * f.A1 ∧
      (1 - q2 / (mB + mV) ^ 2) * A2 = (p.R2 + 0.11 * (recoil mB mV q2 - 1) - 0.06 * (recoil mB mV q2 - 1) ^ 2) * f.A1 ∧
      f.A12 = a12 mB mV q2 f.A1 A2 ∧
      ∃ R0, (1 - q2 / (mB + mV) ^ 2) * f.A0 = (R0 - 0.11 * (recoil mB mV q2 - 1) + 0.01 * (recoil mB mV q2 - 1) ^ 2) * f.A1 ∧
        R0 = r0One p mB mV := by
    intro q2 hq
    have hs : 0 < Real.sqrt (mB * mV) := Real.sqrt_pos.2 (by positivity)
    have hs2 : Real.sqrt (mB * mV) ^ 2 = mB * mV := Real.sq_sqrt (by positivity)
    have hS : mB + mV ≠ 0 := by positivity
    have key : ∀ R h : ℝ, (1 - q2 / (mB + mV) ^ 2) * (R / (2 * Real.sqrt (mB * mV) / (mB + mV)) * h) =
        R * (h * (2 * Real.sqrt (mB * mV) / (mB + mV)) * (recoil mB mV q2 + 1) / 2) := by
      intro R h
      have hr : recoil mB mV q2 + 1 = ((mB + mV) ^ 2 - q2) / (2 * Real.sqrt (mB * mV) ^ 2) := by
        rw [hs2]; unfold recoil; field_simp; ring
      rw [hr]
      generalize Real.sqrt (mB * mV) = s at *
      field_simp
    refine ⟨_, _, by unfold clnexp; simp only; rw [zExp_eq hB hV hq, fok]; rfl, ?_, ?_, ?_, rfl, r0One p mB mV, ?_, rfl⟩
    · simp only [hA1CLN, recoil]
      generalize conformal ((mB + mV) ^ 2) ((mB - mV) ^ 2) q2 = x
      generalize Real.sqrt (mB * mV) = s
      generalize (mB ^ 2 + mV ^ 2 - q2) / (2 * mB * mV) = w
      field_simp
    · exact key _ _
    · exact key _ _
    · exact key _ _
  refine ⟨main, ?_⟩
  intro f hf
  obtain ⟨f', A2, h1, h2, _⟩ := main _ (show (mB - mV) ^ 2 ≤ (mB + mV) ^ 2 by nlinarith [mul_pos hB hV])
  rw [h1] at hf
  cases hf
  rw [h2, conformal_self]
  have : recoil mB mV ((mB - mV) ^ 2) = 1 := by unfold recoil; field_simp; ring
  rw [this]; simp [hA1CLN]

/-- **C105**: `R₀(1)` in `clnexp` is fixed so that the kinematic relation `8 mB mV A₁₂(0) = (mB² - mV²) A₀(0)` holds for all parameters; at the end point
`8 mB mV A₁₂ = (mB² - mV²) A₁`. -/
theorem C105_clnexp_relations (p : CexpPar) {mB mV : ℝ} (hB : 0 < mB) (hV : 0 < mV) :
    (∀ f, clnexp p mB mV 0 = .ok f → 8 * mB * mV * f.A12 = (mB ^ 2 - mV ^ 2) * f.A0) ∧
    (∀ f, clnexp p mB mV ((mB - mV) ^ 2) = .ok f → 8 * mB * mV * f.A12 = (mB ^ 2 - mV ^ 2) * f.A1) := by
  have hS : mB + mV ≠ 0 := by positivity
  constructor
  · intro f hf
    obtain ⟨f', A2, h1, _, _, h2, h3, R0, h4, h5⟩ := (C105_clnexp p hB hV).1 0 (by positivity)
    rw [h1] at hf
    cases hf
    rw [h3]
    rw [zero_div, sub_zero, one_mul] at h2 h4
    rw [h2, h4, h5]
    unfold r0One recoil a12
    generalize f.A1 = A1
    generalize p.R2 = R2
    rw [sub_zero]
    generalize (mB ^ 2 + mV ^ 2) / (2 * mB * mV) - 1 = w
    field_simp
    ring
  · intro f hf
    obtain ⟨f', A2, h1, _, _, h2, h3, _⟩ := (C105_clnexp p hB hV).1 ((mB - mV) ^ 2) (by nlinarith [mul_pos hB hV])
    rw [h1] at hf
    cases hf
    rw [h3]
    unfold a12
    field_simp
    ring

/-! ## `isgur_wise` -/

/-- **C105**: the Isgur-Wise relations at `q² = 0`.  For differentiable `A₀`, `A₁₂` with `8 mB mV A₁₂(0) = (mB² - mV²) A₀(0)` the general formula for `T₂₃` has the limit
`(1 + a_T23) (T₂₃⁰ - (mb - mq)(mB + mV)/(4 mB mV) ((mB² - mV²) A₀'(0) - 8 mB mV A₁₂'(0)))` for `q² → 0`, where `T₂₃⁰` is the value of the code for `q² = 0`; `T₂₃` is continuous
exactly if this is `T₂₃⁰`. -/
theorem C105_isgurwise_limit {mb mq mB mV aT1 aT2 aT23 : ℝ} (hB : 0 < mB) (hV : 0 < mV) (hne : mB ≠ mV)
    {f : ℝ → FFnoT} {dA0 dA12 : ℝ} (h0 : HasDerivAt (fun q => (f q).A0) dA0 0) (h12 : HasDerivAt (fun q => (f q).A12) dA12 0)
    (hk : 8 * mB * mV * (f 0).A12 = (mB ^ 2 - mV ^ 2) * (f 0).A0) :
    Tendsto (fun q => (isgurWise mb mq mB mV aT1 aT2 aT23 q (f q)).T23) (𝓝[≠] 0)
      (𝓝 ((1 + aT23) * ((isgurWise mb mq mB mV aT1 aT2 aT23 0 (f 0)).T23
        - (mb - mq) * (mB + mV) / (4 * mB * mV) * ((mB ^ 2 - mV ^ 2) * dA0 - 8 * mB * mV * dA12)))) := by
  have hD : mV - mB ≠ 0 := sub_ne_zero.2 (Ne.symm hne)
  have hD' : mB - mV ≠ 0 := sub_ne_zero.2 hne
  have hS : mB + mV ≠ 0 := by positivity
  have hlam : HasDerivAt (fun q : ℝ => ((mB - mV) ^ 2 - q) * ((mB + mV) ^ 2 - q)) (-(mB + mV) ^ 2 - (mB - mV) ^ 2) 0 := by
    have a : HasDerivAt (fun q : ℝ => (mB - mV) ^ 2 - q) (-1) 0 := (hasDerivAt_id (0:ℝ)).const_sub _
    have b : HasDerivAt (fun q : ℝ => (mB + mV) ^ 2 - q) (-1) 0 := (hasDerivAt_id (0:ℝ)).const_sub _
    exact (a.mul b).congr_deriv (by simp; ring)
  have hN := (hlam.mul h0).add (h12.const_mul (8 * mB * mV * (-mB ^ 2 + mV ^ 2)))
  have hs := hasDerivAt_iff_tendsto_slope.1 hN
  have hs' := (hs.const_mul ((mb - mq) / (4 * mB * (mV - mB) * mV))).mul_const (1 + aT23)
  have e : (1 + aT23) * ((isgurWise mb mq mB mV aT1 aT2 aT23 0 (f 0)).T23
        - (mb - mq) * (mB + mV) / (4 * mB * mV) * ((mB ^ 2 - mV ^ 2) * dA0 - 8 * mB * mV * dA12)) =
      (mb - mq) / (4 * mB * (mV - mB) * mV) * ((-(mB + mV) ^ 2 - (mB - mV) ^ 2) * (f 0).A0 + ((mB - mV) ^ 2 - 0) * ((mB + mV) ^ 2 - 0) * dA0
        + 8 * mB * mV * (-mB ^ 2 + mV ^ 2) * dA12) * (1 + aT23) := by
    simp only [isgurWise, if_true]
    have hA : (f 0).A12 = (mB ^ 2 - mV ^ 2) * (f 0).A0 / (8 * mB * mV) := by field_simp; linarith
    rw [hA]
    generalize (f 0).A0 = A
    have hX : mV - mB = -(mB - mV) := by ring
    rw [hX]
    field_simp
    ring
  rw [e]
  refine hs'.congr' ?_
  filter_upwards [self_mem_nhdsWithin] with q hq
  have hq0 : q ≠ 0 := hq
  simp only [isgurWise, if_neg hq0]
  rw [slope_def_field]
  have hz : (((fun q : ℝ => ((mB - mV) ^ 2 - q) * ((mB + mV) ^ 2 - q)) * (fun q => (f q).A0) + fun y => 8 * mB * mV * (-mB ^ 2 + mV ^ 2) * (f y).A12) : ℝ → ℝ) 0 = 0 := by
    simp only [Pi.add_apply, Pi.mul_apply, sub_zero]
    linear_combination (-(mB ^ 2 - mV ^ 2)) * hk
  rw [hz, sub_zero, sub_zero]
  simp only [Pi.add_apply, Pi.mul_apply]
  field_simp

/-- **C105**: the prescription for `q² = 0` is the limit of the general formula only without the power correction and for vanishing slopes: with `a_T23 = 0` and constant `A₀`, `A₁₂`
it is, but a power correction `a_T23 ≠ 0` makes `T₂₃` jump at `q² = 0` whenever `A₁₂(0) ≠ 0` and `mb ≠ mq`, even for constant `A₀`, `A₁₂`. -/
theorem C105_isgurwise_jump {mb mq mB mV aT1 aT2 aT23 : ℝ} (hB : 0 < mB) (hV : 0 < mV) (hne : mB ≠ mV)
    (f : FFnoT) (hk : 8 * mB * mV * f.A12 = (mB ^ 2 - mV ^ 2) * f.A0) (hA : f.A12 ≠ 0) (hm : mb ≠ mq) :
    Tendsto (fun q => (isgurWise mb mq mB mV aT1 aT2 aT23 q f).T23) (𝓝[≠] 0) (𝓝 (isgurWise mb mq mB mV aT1 aT2 aT23 0 f).T23) ↔ aT23 = 0 := by
  have h := C105_isgurwise_limit (mb := mb) (mq := mq) (aT1 := aT1) (aT2 := aT2) (aT23 := aT23) hB hV hne (f := fun _ => f)
    (hasDerivAt_const _ _) (hasDerivAt_const _ _) hk
  simp only [mul_zero, sub_zero] at h
  have hD : mB - mV ≠ 0 := sub_ne_zero.2 hne
  have hS : mB + mV ≠ 0 := by positivity
  have hM : mb - mq ≠ 0 := sub_ne_zero.2 hm
  have hT : (isgurWise mb mq mB mV aT1 aT2 aT23 0 f).T23 ≠ 0 := by
    simp only [isgurWise, if_true]
    have : mB ^ 2 + mV ^ 2 ≠ 0 := by positivity
    exact div_ne_zero (by positivity) (by positivity)
  constructor
  · intro h'
    have := tendsto_nhds_unique h h'
    have : aT23 * (isgurWise mb mq mB mV aT1 aT2 aT23 0 f).T23 = 0 := by linarith
    exact (mul_eq_zero.1 this).resolve_right hT
  · intro h'
    rw [h', add_zero, one_mul] at h
    rw [h']; exact h

/-- **C105**: `T₁(0) = T₂(0)` does not follow from the Isgur-Wise relations: it holds only if `(mb + mq)(mB - mV)(1 + a_T1) V(0) = (mb - mq)(mB + mV)(1 + a_T2) A₁(0)`. -/
theorem C105_isgurwise_T12 {mb mq mB mV aT1 aT2 aT23 : ℝ} (hB : 0 < mB) (hV : 0 < mV) (hne : mB ≠ mV) (f : FFnoT) (q2 : ℝ) :
    (isgurWise mb mq mB mV aT1 aT2 aT23 q2 f).T1 = (isgurWise mb mq mB mV aT1 aT2 aT23 q2 f).T2 ↔
      (mb + mq) * (mB - mV) * (1 + aT1) * f.V = (mb - mq) * (mB + mV) * (1 + aT2) * f.A1 := by
  have hD : mB - mV ≠ 0 := sub_ne_zero.2 hne
  have hS : mB + mV ≠ 0 := by positivity
  simp only [isgurWise]
  field_simp

/-- **C105** (non-vacuity of the hypotheses on `isgur_wise`): they are met by the form factors of `clnexp` at `q² = 0`. -/
theorem C105_isgurwise_nonvacuous : ∃ (f : FFnoT), clnexp ⟨1, 1, 0, 1⟩ 5 2 0 = .ok f ∧
    8 * 5 * 2 * f.A12 = ((5:ℝ) ^ 2 - 2 ^ 2) * f.A0 ∧ (∃ g : FFnoT, 8 * 5 * 2 * g.A12 = ((5:ℝ) ^ 2 - 2 ^ 2) * g.A0 ∧ g.A12 ≠ 0) := by
  obtain ⟨f, A2, h1, _⟩ := (C105_clnexp ⟨1, 1, 0, 1⟩ (mB := 5) (mV := 2) (by norm_num) (by norm_num)).1 0 (by norm_num)
  exact ⟨f, h1, (C105_clnexp_relations ⟨1, 1, 0, 1⟩ (by norm_num) (by norm_num)).1 f h1, ⟨80, 0, 21, 0⟩, by norm_num, by norm_num⟩

end Verif.FormFactors
