import Verif.Physics.FormFactors.HqetMatrix
import Mathlib.Analysis.Calculus.DSlope
import Mathlib.MeasureTheory.Integral.IntervalIntegral.FundThmCalculus
import Mathlib.Analysis.SpecialFunctions.Integrals.Basic
import Mathlib.Analysis.SpecialFunctions.Arsinh
/-!
# Heavy quark symmetry properties of the CLN form factors
-/
set_option linter.unusedVariables false
set_option linter.unusedSimpArgs false
namespace Verif.FormFactors
open Verif.Py Verif.Running Verif.Bll Verif.Angular
open Set Filter Topology MeasureTheory intervalIntegral

/-! ## The dilogarithm -/

theorem dslope_log {t : ℝ} (ht : t ≠ 1) : -dslope Real.log 1 t = Real.log t / (1 - t) := by
  rw [dslope_of_ne _ ht, slope_def_field, Real.log_one, sub_zero, ← div_neg, neg_sub]

theorem dslope_log_one : -dslope Real.log 1 1 = -1 := by
  rw [dslope_same, Real.deriv_log]; norm_num

theorem continuousOn_dslope_log : ContinuousOn (fun t => -dslope Real.log 1 t) (Ioi 0) := by
  refine ContinuousOn.neg ?_
  refine (continuousOn_dslope (Ioi_mem_nhds one_pos)).2 ⟨?_, ?_⟩
  · exact Real.continuousOn_log.mono fun x hx => ne_of_gt hx
  · exact Real.differentiableAt_log one_ne_zero

theorem spence_eq (x : ℝ) : spence x = ∫ t in (1:ℝ)..x, -dslope Real.log 1 t := by
  refine intervalIntegral.integral_congr_ae ?_
  have : ∀ᵐ t : ℝ, t ≠ 1 := by
    rw [ae_iff]; simp
  filter_upwards [this] with t ht _ using (dslope_log ht).symm

theorem uIcc_pos {x : ℝ} (hx : 0 < x) : uIcc 1 x ⊆ Ioi (0:ℝ) := by
  intro t ht
  have := ht.1
  exact lt_of_lt_of_le (lt_min one_pos hx) this

theorem spence_deriv {x : ℝ} (hx : 0 < x) : HasDerivAt spence (-dslope Real.log 1 x) x := by
  have h : HasDerivAt (fun y => ∫ t in (1:ℝ)..y, -dslope Real.log 1 t) (-dslope Real.log 1 x) x := by
    refine integral_hasDerivAt_right ?_ ?_ ?_
    · exact (continuousOn_dslope_log.mono (uIcc_pos hx)).intervalIntegrable
    · exact continuousOn_dslope_log.stronglyMeasurableAtFilter isOpen_Ioi _ hx
    · exact continuousOn_dslope_log.continuousAt (Ioi_mem_nhds hx)
  exact h.congr_of_eventuallyEq (Eventually.of_forall spence_eq)

theorem spence_one : spence 1 = 0 := by simp [spence]

/-- The inversion formula `Li₂(1 - x) + Li₂(1 - 1/x) = -½ log² x`. -/
theorem spence_inv {x : ℝ} (hx : 0 < x) : spence x + spence (1 / x) = -(1 / 2) * Real.log x ^ 2 := by
  have key : ∀ y ∈ Ioi (0:ℝ), HasDerivAt (fun y => spence y + spence (1 / y) + 1 / 2 * Real.log y ^ 2) 0 y := by
    intro y hy
    have hy0 : (0:ℝ) < y := hy
    have hi : (0:ℝ) < 1 / y := by positivity
    have h1 := spence_deriv hy0
    have h2 := spence_deriv hi
    have h3 : HasDerivAt (fun y : ℝ => 1 / y) (-1 / y ^ 2) y := by
      have := (hasDerivAt_inv hy0.ne')
      refine (this.congr_of_eventuallyEq (Eventually.of_forall fun t => ?_)).congr_deriv (by field_simp)
      simp
    have h4 := h2.comp y h3
    have h5 := ((Real.hasDerivAt_log hy0.ne').pow 2).const_mul (1 / 2 : ℝ)
    refine ((h1.add h4).add h5).congr_deriv ?_
    by_cases h : y = 1
    · subst h
      rw [show (1:ℝ) / 1 = 1 by norm_num, dslope_log_one]
      simp
    · have h' : 1 / y ≠ 1 := by
        intro e
        rw [div_eq_iff hy0.ne'] at e
        exact h (by linarith)
      rw [dslope_log h, dslope_log h', one_div, Real.log_inv]
      have a : 1 - y ≠ 0 := sub_ne_zero.2 (Ne.symm h)
      have b : 1 - y⁻¹ ≠ 0 := by
        rw [one_div] at h'
        exact sub_ne_zero.2 (Ne.symm h')
      have c : y - 1 ≠ 0 := sub_ne_zero.2 h
      have d : 1 - y⁻¹ = (y - 1) / y := by field_simp
      rw [d]
      field_simp
      have e : (1 - y) = -(y - 1) := by ring
      rw [e]
      field_simp
      ring
  have hc := (convex_Ioi (0:ℝ)).is_const_of_fderivWithin_eq_zero (𝕜 := ℝ)
    (f := fun y => spence y + spence (1 / y) + 1 / 2 * Real.log y ^ 2)
    (fun y hy => (key y hy).differentiableAt.differentiableWithinAt) (fun y hy => by
      have := (key y hy).hasFDerivAt.hasFDerivWithinAt (s := Ioi (0:ℝ))
      rw [this.fderivWithin (isOpen_Ioi.uniqueDiffWithinAt hy)]
      ext; simp) (show x ∈ Ioi (0:ℝ) from hx) (show (1:ℝ) ∈ Ioi (0:ℝ) from mem_Ioi.2 one_pos)
  simp only [one_div_one, spence_one, Real.log_one] at hc
  norm_num at hc
  rw [one_div]
  linarith [hc]

/-! ## Symmetry under the exchange of the heavy quarks -/

theorem wz_inv {z : ℝ} (hz : 0 < z) : wz (1 / z) = wz z := by
  unfold wz; field_simp; ring

theorem omegaPM {w : ℝ} (hw : 1 ≤ w) : omegaPlus w * omegaMinus w = 1 ∧ 0 < omegaPlus w ∧ 0 < omegaMinus w := by
  have h : (0:ℝ) ≤ -1 + w ^ 2 := by nlinarith
  have hs := Real.sq_sqrt h
  have hn := Real.sqrt_nonneg (-1 + w ^ 2)
  have h1 : omegaPlus w * omegaMinus w = 1 := by unfold omegaPlus omegaMinus; nlinarith
  have h2 : 0 < omegaPlus w := by unfold omegaPlus; linarith
  exact ⟨h1, h2, by
    by_contra hc
    have := mul_nonpos_of_nonneg_of_nonpos h2.le (not_lt.1 hc)
    linarith⟩

/-- `ω(w, 1/z) = ω(w, z)`. -/
theorem omega_inv {w z : ℝ} (hw : 1 ≤ w) (hz : 0 < z) : omega w (1 / z) = omega w z := by
  unfold omega
  by_cases h : w = 1
  · rw [if_pos h, if_pos h]
    rw [one_div, Real.log_inv]
    by_cases h1 : z = 1
    · rw [h1]; simp
    · have a : z - 1 ≠ 0 := sub_ne_zero.2 h1
      have b : z⁻¹ - 1 = -(z - 1) / z := by field_simp; ring
      have c : z⁻¹ + 1 = (z + 1) / z := by field_simp; ring
      rw [b, c]
      field_simp
  · rw [if_neg h, if_neg h]
    have hw1 : 1 < w := lt_of_le_of_ne hw (Ne.symm h)
    obtain ⟨e1, e2, e3⟩ := omegaPM hw
    have hm : omegaMinus w = 1 / omegaPlus w := by rw [eq_div_iff e2.ne', mul_comm]; exact e1
    have hs : 0 < Real.sqrt (-1 + w ^ 2) := Real.sqrt_pos.2 (by nlinarith)
    have hr : rw' w = Real.log (omegaPlus w) / Real.sqrt (-1 + w ^ 2) := by
      unfold rw'; rw [if_neg h]; rfl
    have f1 : ∀ x : ℝ, li2 (1 - x) = spence x := by intro x; unfold li2; congr 1; ring
    rw [f1, f1, f1, f1, f1, f1, hr]
    have g1 : spence (1 / z * omegaMinus w) = -(1 / 2) * (Real.log z + Real.log (omegaPlus w)) ^ 2 - spence (z * omegaPlus w) := by
      have := spence_inv (x := z * omegaPlus w) (by positivity)
      rw [Real.log_mul hz.ne' e2.ne'] at this
      have e : 1 / z * omegaMinus w = 1 / (z * omegaPlus w) := by rw [hm]; field_simp
      rw [e]; linarith
    have g2 : spence (1 / z * omegaPlus w) = -(1 / 2) * (Real.log z - Real.log (omegaPlus w)) ^ 2 - spence (z * omegaMinus w) := by
      have := spence_inv (x := z * omegaMinus w) (by positivity)
      have e : 1 / z * omegaPlus w = 1 / (z * omegaMinus w) := by rw [hm]; field_simp
      have hlm : Real.log (omegaMinus w) = -Real.log (omegaPlus w) := by rw [hm, one_div, Real.log_inv]
      rw [Real.log_mul hz.ne' e3.ne', hlm] at this
      rw [e, sub_eq_add_neg (Real.log z)]; linarith
    rw [g1, g2, one_div z, Real.log_inv]
    generalize spence (z * omegaMinus w) = x1
    generalize spence (z * omegaPlus w) = x2
    generalize spence (omegaMinus w ^ 2) = x3
    generalize spence (omegaPlus w ^ 2) = x4
    generalize Real.log (omegaPlus w) = x5
    generalize Real.log z = x6
    field_simp
    ring

/-- **C105**: the perturbative corrections are symmetric under the exchange of the heavy quarks, `z = m_c/m_b → 1/z`: for all recoils `w ≥ 1` and
mass ratios `z > 0`. -/
theorem C105_exchange {w z : ℝ} (hw : 1 ≤ w) (hz : 0 < z) :
    CV1 w (1 / z) = CV1 w z ∧ CV2 w (1 / z) = CV3 w z ∧ CV3 w (1 / z) = CV2 w z ∧
    CA1 w (1 / z) = CA1 w z ∧ CA2 w (1 / z) = -CA3 w z ∧ CA3 w (1 / z) = -CA2 w z ∧
    CT1 w (1 / z) = CT1 w z ∧ CT2 w (1 / z) = -CT3 w z ∧ CT3 w (1 / z) = -CT2 w z := by
  have e1 := wz_inv hz
  have e2 := omega_inv hw hz
  have e3 : Real.log (1 / z) = -Real.log z := by rw [one_div, Real.log_inv]
  have e4 : ∀ a : ℝ, -w + a = -(w - a) := by intro a; ring
  have hz' := hz.ne'
  unfold CV1 CV2 CV3 CA1 CA2 CA3 CT1 CT2 CT3
  simp only [e1, e2, e3, e4]
  generalize omega w z = o
  generalize Real.log z = l
  generalize rw' w = r
  generalize w - wz z = d
  by_cases hd : d = 0
  · subst hd; simp
  refine ⟨?_, ?_, ?_, ?_, ?_, ?_, ?_, ?_, ?_⟩ <;> (field_simp; ring)

/-! ## Zero recoil -/

/-- The function of Neubert's zero recoil corrections: `η_V = 1 + α_s/π φ(z)`, `η_A = 1 + α_s/π (φ(z) - 2/3)`.
(Specification.) -/
noncomputable def phi (z : ℝ) : ℝ := -(1 + z) / (1 - z) * Real.log z - 2

/-- **C105**: at zero recoil the corrections are the known ones: `C_V1 + C_V2 + C_V3 = φ(z)`, `C_A1 = φ(z) - 2/3`, for all mass ratios `z ≠ 1`. -/
theorem C105_zero_recoil {z : ℝ} (hz : 0 < z) (h1 : z ≠ 1) :
    CV1 1 z + CV2 1 z + CV3 1 z = phi z ∧ CA1 1 z = phi z - 2 / 3 := by
  have a : z - 1 ≠ 0 := sub_ne_zero.2 h1
  have b : 1 - z ≠ 0 := sub_ne_zero.2 (Ne.symm h1)
  have hw : 1 - wz z = -(z - 1) ^ 2 / (2 * z) := by unfold wz; field_simp; ring
  have hw' : -1 + wz z = (z - 1) ^ 2 / (2 * z) := by unfold wz; field_simp; ring
  have ho : omega 1 z = -1 + (z + 1) / (z - 1) * Real.log z := by unfold omega; rw [if_pos rfl]
  have hr : rw' 1 = 1 := by unfold rw'; rw [if_pos rfl]
  have hb : (1 - z) = -(z - 1) := by ring
  unfold CV1 CV2 CV3 CA1 phi
  rw [hw, hw', ho, hr, hb]
  generalize Real.log z = l
  constructor
  · field_simp; ring
  · field_simp; ring

theorem xi_zero (p : HqPar) : xi p 0 3 = .ok 1 := by
  simp [xi, wMinus1Pow, wCoeffs, Bind.bind, Except.bind, pure, Except.pure]

/-- **C105** (Luke's theorem): at zero recoil (`w = 1`, `z = 0`) the Isgur-Wise function is one and the corrections of first order in the inverse quark masses
to `h₊` and `h_A1` vanish: whatever the parameters, `h₊ = 1 + α_s/π φ(z_c) + ε_c² ℓ₁(1)`, `h_A1 = 1 + α_s/π (φ(z_c) - 2/3) + ε_c² ℓ₂(1)`. -/
theorem C105_luke (e : HqEps) (p : HqPar) (hz : 0 < e.zc) (h1 : e.zc ≠ 1) :
    ∃ x L l, xi p 0 3 = .ok x ∧ Lz p 1 0 2 = .ok L ∧ ell p 0 1 = .ok l ∧ x = 1 ∧
      (hpCLN e x 1 L l).hp = 1 + e.ash * phi e.zc + e.epsc ^ 2 * p.l 1 ∧
      (hvCLN e x 1 L l).A1 = 1 + e.ash * (phi e.zc - 2 / 3) + e.epsc ^ 2 * p.l 2 := by
  obtain ⟨c1, c2⟩ := C105_zero_recoil hz h1
  refine ⟨1, ⟨0, 0, 4 * p.chi2, 2 * p.eta - 1, -1, -2 * (1 + p.eta) / (1 + 1)⟩, ⟨p.l 1, p.l 2, p.l 3, p.l 4, p.l 5, p.l 6⟩, xi_zero p, ?_, ?_,
    rfl, ?_, ?_⟩
  · simp [Lz, wMinus1Pow, wCoeffs, Bind.bind, Except.bind, pure, Except.pure]
  · simp [ell, wMinus1Pow, wCoeffs, Bind.bind, Except.bind, pure, Except.pure]
  · simp only [hpCLN]
    rw [← c1]; ring
  · simp only [hvCLN]
    rw [c2]; ring

/-- **C105**: in the heavy quark limit (no perturbative and no power corrections) all form factors are given by the Isgur-Wise function: `h₊ = h_T = h_V = h_A1 = h_A3 = h_T1 = ξ`
and the others vanish. -/
theorem C105_heavy_quark_limit (zc x w : ℝ) (L l : Six) :
    hpCLN ⟨0, 0, 0, zc⟩ x w L l = ⟨x, 0, x⟩ ∧
    hvCLN ⟨0, 0, 0, zc⟩ x w L l = { V := x, A1 := x, A2 := 0, A3 := x, T1 := x, T2 := 0, T3 := 0 } := by
  constructor <;> simp [hpCLN, hvCLN]

/-! ## Continuity at zero recoil -/

theorem sqrt_tendsto : Tendsto (fun w : ℝ => Real.sqrt (-1 + w ^ 2)) (𝓝[>] 1) (𝓝[≠] 0) := by
  refine tendsto_nhdsWithin_iff.2 ⟨?_, ?_⟩
  · have : Tendsto (fun w : ℝ => Real.sqrt (-1 + w ^ 2)) (𝓝 1) (𝓝 (Real.sqrt (-1 + 1 ^ 2))) :=
      (by fun_prop : Continuous fun w : ℝ => Real.sqrt (-1 + w ^ 2)).tendsto 1
    have e : Real.sqrt (-1 + 1 ^ 2) = 0 := by norm_num
    rw [e] at this
    exact this.mono_left nhdsWithin_le_nhds
  · filter_upwards [self_mem_nhdsWithin] with w hw
    have hw1 : (1:ℝ) < w := hw
    exact (Real.sqrt_pos.2 (by nlinarith)).ne'

theorem w_of_sqrt {w : ℝ} (hw : 1 ≤ w) : w = Real.sqrt (1 + Real.sqrt (-1 + w ^ 2) ^ 2) := by
  rw [Real.sq_sqrt (by nlinarith), show 1 + (-1 + w ^ 2) = w ^ 2 by ring, Real.sqrt_sq (by linarith)]

theorem rw_arsinh {w : ℝ} (hw : 1 < w) : rw' w = Real.arsinh (Real.sqrt (-1 + w ^ 2)) / Real.sqrt (-1 + w ^ 2) := by
  unfold rw' Real.arsinh
  rw [if_neg hw.ne', ← w_of_sqrt hw.le, add_comm w]

theorem rw_tendsto : Tendsto rw' (𝓝[>] 1) (𝓝 1) := by
  have h : HasDerivAt Real.arsinh 1 0 := by
    refine (Real.hasDerivAt_arsinh 0).congr_deriv ?_
    norm_num
  have h' := (hasDerivAt_iff_tendsto_slope.1 h).comp sqrt_tendsto
  refine h'.congr' ?_
  filter_upwards [self_mem_nhdsWithin] with w hw
  rw [rw_arsinh hw, Function.comp, slope_def_field, Real.arsinh_zero, sub_zero, sub_zero]

/-- The combination of dilogarithms of `omega` as function of `s = √(w² - 1)`. (Specification.) -/
noncomputable def dilogs (z s : ℝ) : ℝ :=
  2 * spence (z * (Real.sqrt (1 + s ^ 2) - s)) - spence ((Real.sqrt (1 + s ^ 2) - s) ^ 2)
    - 2 * spence (z * (Real.sqrt (1 + s ^ 2) + s)) + spence ((Real.sqrt (1 + s ^ 2) + s) ^ 2)

theorem dilogs_deriv {z : ℝ} (hz : 0 < z) (h1 : z ≠ 1) : HasDerivAt (dilogs z) (-4 - 4 * z * Real.log z / (1 - z)) 0 := by
  have hs : HasDerivAt (fun s : ℝ => Real.sqrt (1 + s ^ 2)) 0 0 := by
    have a : HasDerivAt (fun s : ℝ => 1 + s ^ 2) 0 0 := by
      have := ((hasDerivAt_id (0:ℝ)).pow 2).const_add 1
      exact this.congr_deriv (by simp)
    have := a.sqrt (by norm_num)
    exact this.congr_deriv (by simp)
  have hm : HasDerivAt (fun s : ℝ => Real.sqrt (1 + s ^ 2) - s) (-1) 0 := (hs.sub (hasDerivAt_id (0:ℝ))).congr_deriv (by norm_num)
  have hp : HasDerivAt (fun s : ℝ => Real.sqrt (1 + s ^ 2) + s) 1 0 := (hs.add (hasDerivAt_id (0:ℝ))).congr_deriv (by norm_num)
  have vm : Real.sqrt (1 + (0:ℝ) ^ 2) - 0 = 1 := by norm_num
  have vp : Real.sqrt (1 + (0:ℝ) ^ 2) + 0 = 1 := by norm_num
  have d1 : HasDerivAt (fun s : ℝ => spence (z * (Real.sqrt (1 + s ^ 2) - s))) (Real.log z / (1 - z) * (z * (-1))) 0 := by
    have := spence_deriv hz
    rw [dslope_log h1] at this
    refine HasDerivAt.comp (h₂ := spence) 0 ?_ (hm.const_mul z)
    rw [vm, mul_one]; exact this
  have d2 : HasDerivAt (fun s : ℝ => spence (z * (Real.sqrt (1 + s ^ 2) + s))) (Real.log z / (1 - z) * (z * 1)) 0 := by
    have := spence_deriv hz
    rw [dslope_log h1] at this
    refine HasDerivAt.comp (h₂ := spence) 0 ?_ (hp.const_mul z)
    rw [vp, mul_one]; exact this
  have sq : ∀ (f : ℝ → ℝ) (f' : ℝ), f 0 = 1 → HasDerivAt f f' 0 → HasDerivAt (fun s => spence (f s ^ 2)) (-1 * (2 * f')) 0 := by
    intro f f' hf h
    have e := spence_deriv one_pos
    rw [dslope_log_one] at e
    have hq : HasDerivAt (fun s => f s ^ 2) (2 * f') 0 := (h.pow 2).congr_deriv (by simp [hf])
    refine HasDerivAt.comp (h₂ := spence) 0 ?_ hq
    rw [hf, one_pow]; exact e
  have d3 := sq (fun s => Real.sqrt (1 + s ^ 2) - s) _ vm hm
  have d4 := sq (fun s => Real.sqrt (1 + s ^ 2) + s) _ vp hp
  refine ((((d1.const_mul 2).sub d3).sub (d2.const_mul 2)).add d4).congr_deriv ?_
  ring

theorem dilogs_zero (z : ℝ) : dilogs z 0 = 0 := by
  simp [dilogs]

theorem omega_tendsto {z : ℝ} (hz : 0 < z) (h1 : z ≠ 1) : Tendsto (fun w => omega w z) (𝓝[>] 1) (𝓝 (omega 1 z)) := by
  have h := (hasDerivAt_iff_tendsto_slope.1 (dilogs_deriv hz h1)).comp sqrt_tendsto
  have hw : Tendsto (fun w : ℝ => w) (𝓝[>] 1) (𝓝 1) := tendsto_id.mono_left nhdsWithin_le_nhds
  have hl := (((hw.mul h).div_const 2).const_add 1).sub ((hw.mul_const (Real.log z)).mul rw_tendsto)
  have e : omega 1 z = 1 + 1 * (-4 - 4 * z * Real.log z / (1 - z)) / 2 - 1 * Real.log z * 1 := by
    unfold omega
    rw [if_pos rfl]
    have a : 1 - z ≠ 0 := sub_ne_zero.2 (Ne.symm h1)
    have b : z - 1 = -(1 - z) := by ring
    rw [b]; field_simp; ring
  rw [e]
  refine hl.congr' ?_
  filter_upwards [self_mem_nhdsWithin] with w hw
  have hw1 : (1:ℝ) < w := hw
  have hs : 0 < Real.sqrt (-1 + w ^ 2) := Real.sqrt_pos.2 (by nlinarith)
  unfold omega
  rw [if_neg hw1.ne', Function.comp, slope_def_field, dilogs_zero, sub_zero, sub_zero]
  unfold dilogs
  rw [← w_of_sqrt hw1.le]
  have f1 : ∀ x : ℝ, li2 (1 - x) = spence x := by intro x; unfold li2; congr 1; ring
  rw [f1, f1, f1, f1]
  unfold omegaMinus omegaPlus
  rw [mul_div_assoc']
  ring

/-- **C105**: the special cases at `w = 1` are the limits of the general formulae, for all mass ratios `z ≠ 1`: nothing in the perturbative corrections jumps at zero recoil. -/
theorem C105_zero_recoil_continuous {z : ℝ} (hz : 0 < z) (h1 : z ≠ 1) :
    ∀ C ∈ [CV1, CV2, CV3, CA1, CA2, CA3, CT1, CT2, CT3, omega, fun w _ => rw' w],
      Tendsto (fun w => C w z) (𝓝[>] 1) (𝓝 (C 1 z)) := by
  have hr : rw' 1 = 1 := by unfold rw'; rw [if_pos rfl]
  have hrt : Tendsto rw' (𝓝[>] 1) (𝓝 (rw' 1)) := by rw [hr]; exact rw_tendsto
  have ho := omega_tendsto hz h1
  have hw : Tendsto (fun w : ℝ => w) (𝓝[>] 1) (𝓝 1) := tendsto_id.mono_left nhdsWithin_le_nhds
  have hd : 1 - wz z ≠ 0 := by
    have hw : 1 - wz z = -(z - 1) ^ 2 / (2 * z) := by unfold wz; field_simp; ring
    rw [hw]
    have a : z - 1 ≠ 0 := sub_ne_zero.2 h1
    exact div_ne_zero (neg_ne_zero.2 (pow_ne_zero 2 a)) (by positivity)
  have key : ∀ (F : ℝ × ℝ × ℝ → ℝ), ContinuousAt F (1, rw' 1, omega 1 z) →
      Tendsto (fun w => F (w, rw' w, omega w z)) (𝓝[>] 1) (𝓝 (F (1, rw' 1, omega 1 z))) := by
    intro F hF
    exact hF.tendsto.comp (hw.prodMk_nhds (hrt.prodMk_nhds ho))
  have hz' := hz.ne'
  have n1 : 6 * (1 - wz z) * z ≠ 0 := by positivity
  have n2 : 6 * (1 - wz z) ^ 2 * z ^ 2 ≠ 0 := by positivity
  have n3 : 6 * (1 - wz z) ^ 2 * z ≠ 0 := by positivity
  have n4 : 3 * (1 - wz z) * z ≠ 0 := by positivity
  have n5 : 3 * (1 - wz z) ≠ 0 := by positivity
  simp only [List.mem_cons, List.not_mem_nil, or_false, forall_eq_or_imp, forall_eq]
  refine ⟨?_, ?_, ?_, ?_, ?_, ?_, ?_, ?_, ?_, ho, hrt⟩
  · exact key (fun x => (12 * (-x.1 + wz z) * z - (-1 + z ^ 2) * Real.log z + 2 * (1 + x.1) * (-1 + (-1 + 3 * x.1) * z - z ^ 2) * x.2.1
      + 4 * (x.1 - wz z) * z * x.2.2) / (6 * (x.1 - wz z) * z)) (by fun_prop (disch := assumption))
  · exact key (fun x => -(z * (2 * (-x.1 + wz z) * (-1 + z) + (3 - 2 * x.1 - (-2 + 4 * x.1) * z + z ^ 2) * Real.log z)
      + (2 - (-1 + 5 * x.1 + 2 * x.1 ^ 2) * z + (2 * x.1 + 4 * x.1 ^ 2) * z ^ 2 - (1 + x.1) * z ^ 3) * x.2.1) / (6 * (x.1 - wz z) ^ 2 * z ^ 2)) (by fun_prop (disch := assumption))
  · exact key (fun x => (2 * (-x.1 + wz z) * (-1 + z) * z + (1 + (2 - 4 * x.1) * z + (3 - 2 * x.1) * z ^ 2) * Real.log z
      + (1 + x.1 - (2 * x.1 + 4 * x.1 ^ 2) * z + (-1 + 5 * x.1 + 2 * x.1 ^ 2) * z ^ 2 - 2 * z ^ 3) * x.2.1) / (6 * (x.1 - wz z) ^ 2 * z)) (by fun_prop (disch := assumption))
  · exact key (fun x => (12 * (-x.1 + wz z) * z - (-1 + z ^ 2) * Real.log z + 2 * (-1 + x.1) * (-1 + (1 + 3 * x.1) * z - z ^ 2) * x.2.1
      + 4 * (x.1 - wz z) * z * x.2.2) / (6 * (x.1 - wz z) * z)) (by fun_prop (disch := assumption))
  · exact key (fun x => -(z * (2 * (-x.1 + wz z) * (1 + z) + (3 + 2 * x.1 - (2 + 4 * x.1) * z + z ^ 2) * Real.log z)
      + (2 + (-1 - 5 * x.1 + 2 * x.1 ^ 2) * z + (-2 * x.1 + 4 * x.1 ^ 2) * z ^ 2 + (1 - x.1) * z ^ 3) * x.2.1) / (6 * (x.1 - wz z) ^ 2 * z ^ 2)) (by fun_prop (disch := assumption))
  · exact key (fun x => (2 * (-x.1 + wz z) * z * (1 + z) - (1 - (2 + 4 * x.1) * z + (3 + 2 * x.1) * z ^ 2) * Real.log z
      + (1 - x.1 + (-2 * x.1 + 4 * x.1 ^ 2) * z + (-1 - 5 * x.1 + 2 * x.1 ^ 2) * z ^ 2 + 2 * z ^ 3) * x.2.1) / (6 * (x.1 - wz z) ^ 2 * z)) (by fun_prop (disch := assumption))
  · exact key (fun x => ((-1 + x.1) * (-1 + (2 + 4 * x.1) * z - z ^ 2) * x.2.1 + (6 * (-x.1 + wz z) * z - (-1 + z ^ 2) * Real.log z)
      + 2 * (x.1 - wz z) * z * x.2.2) / (3 * (x.1 - wz z) * z)) (by fun_prop (disch := assumption))
  · exact key (fun x => 2 * (z * Real.log z + (1 - x.1 * z) * x.2.1) / (3 * (x.1 - wz z) * z)) (by fun_prop (disch := assumption))
  · exact key (fun x => 2 * (Real.log z + (x.1 - z) * x.2.1) / (3 * (x.1 - wz z))) (by fun_prop (disch := assumption))

end Verif.FormFactors
