import Verif.Physics.FormFactors.HqetTheorems
import Verif.Physics.Bdecays.Plnu
import Verif.Physics.EnergyUnit
import Mathlib.NumberTheory.ZetaValues
import Mathlib.Analysis.SpecificLimits.Basic
/-!
# Radiative corrections to `K → l nu` and `pi → l nu` (`delta_Plnu`, `F` of `flavio/physics/kdecays/klnu.py`)

Floats are real numbers.  The logarithms and the quotients are those of the reals: the theorems assume positive masses and
a lepton lighter than the meson.
-/
set_option linter.unusedVariables false
set_option linter.unusedSimpArgs false
namespace Verif.Radcorr
open Verif.Py Verif.FormFactors
open Set Filter Topology MeasureTheory

/-- `F`.  /repo/flavio/physics/kdecays/klnu.py:67-71. -/
noncomputable def F (z : ℝ) : ℝ :=
  3 / 2 * Real.log z + (13 - 19 * z) / (8 * (1 - z))
    - (8 - 5 * z) / (4 * (1 - z) ^ 2) * z * Real.log z
    - ((1 + z) / (1 - z) * Real.log z + 2) * Real.log (1 - z)
    - 2 * (1 + z) / (1 - z) * li2 (1 - z)

/-- `alpha_e`.  /repo/flavio/physics/kdecays/klnu.py:54. -/
noncomputable def alpha : ℝ := 1 / 137.035999139

/-- `c4`: unbound for another lepton.  /repo/flavio/physics/kdecays/klnu.py:58-61. -/
def c4 (par : String → ℝ) (P lep : String) : Except PyErr ℝ :=
  if lep = "mu" then .ok (par ("c4_" ++ P ++ "munu")) else if lep = "e" then .ok 0 else .error .unboundLocalError

/-- The result of `delta_Plnu` for given masses and constants.  /repo/flavio/physics/kdecays/klnu.py:50-65. -/
noncomputable def value (mrho mP ml c1 c2 c3 c4 c2t : ℝ) : ℝ :=
  alpha / Real.pi * (F (ml ^ 2 / mP ^ 2) - 3 / 2 * Real.log (mrho / mP) - c1
    - ml ^ 2 / mrho ^ 2 * (c2 * Real.log (mrho ^ 2 / ml ^ 2) + c3 + c4)
    + mP ^ 2 / mrho ^ 2 * c2t * Real.log (mrho ^ 2 / ml ^ 2))

/-- `delta_Plnu`; the parameters are a total function of their names.  /repo/flavio/physics/kdecays/klnu.py:50-65. -/
noncomputable def delta (par : String → ℝ) (P lep : String) : Except PyErr ℝ := do
  let c ← c4 par P lep
  .ok (value (par "m_rho0") (par ("m_" ++ P)) (par ("m_" ++ lep)) (par ("c1_" ++ P ++ "lnu")) (par ("c2_" ++ P ++ "lnu"))
    (par ("c3_" ++ P ++ "lnu")) c (par ("c2t_" ++ P ++ "lnu")))

/-! ## The dilogarithm at 1 -/

theorem integral_pow_log (n : ℕ) : ∫ t in (0 : ℝ)..1, t ^ n * -Real.log t = 1 / ((n : ℝ) + 1) ^ 2 := by
  have hn : (n : ℝ) + 1 ≠ 0 := by positivity
  have h := intervalIntegral.integral_eq_sub_of_hasDerivAt_of_le (a := (0 : ℝ)) (b := 1)
    (f := fun t => t ^ n * (-(t * Real.log t) / (n + 1) + t / (n + 1) ^ 2)) (f' := fun t => t ^ n * -Real.log t) zero_le_one ?_ ?_ ?_
  · rw [h]; simp
  · have := Real.continuous_mul_log
    fun_prop
  · intro t ht
    have ht0 : t ≠ 0 := ht.1.ne'
    have hl : HasDerivAt (fun t : ℝ => t * Real.log t) (Real.log t + 1) t := Real.hasDerivAt_mul_log ht0
    have hp := (hasDerivAt_pow n t).mul (((hl.neg).div_const ((n : ℝ) + 1)).add ((hasDerivAt_id' t).div_const (((n : ℝ) + 1) ^ 2)))
    refine hp.congr_deriv ?_
    cases n with
    | zero => simp
    | succ m =>
      simp only [Nat.cast_succ, Nat.add_sub_cancel, pow_succ, Pi.neg_apply, Pi.add_apply] at hn ⊢
      field_simp
      ring
  · exact (intervalIntegral.intervalIntegrable_log'.neg.continuousOn_mul (by fun_prop))

theorem spence_zero : spence 0 = Real.pi ^ 2 / 6 := by
  have hI : ∀ n : ℕ, Integrable (fun t : ℝ => t ^ n * -Real.log t) (volume.restrict (Ioc 0 1)) := fun n =>
    (intervalIntegrable_iff_integrableOn_Ioc_of_le zero_le_one).1 (intervalIntegral.intervalIntegrable_log'.neg.continuousOn_mul (by fun_prop))
  have hpos : ∀ (n : ℕ), ∀ t ∈ Ioc (0 : ℝ) 1, 0 ≤ t ^ n * -Real.log t := fun n t ht =>
    mul_nonneg (pow_nonneg ht.1.le n) (neg_nonneg.2 (Real.log_nonpos ht.1.le ht.2))
  have hv : ∀ n : ℕ, ∫ t in Ioc (0 : ℝ) 1, t ^ n * -Real.log t = 1 / ((n : ℝ) + 1) ^ 2 := fun n => by
    rw [← integral_pow_log n, intervalIntegral.integral_of_le zero_le_one]
  have hz : HasSum (fun n : ℕ => 1 / ((n : ℝ) + 1) ^ 2) (Real.pi ^ 2 / 6) := by
    have := (hasSum_nat_add_iff' 1).2 hasSum_zeta_two
    simpa using this
  have hs := hasSum_integral_of_summable_integral_norm hI (by
    have : (fun n : ℕ => ∫ t in Ioc (0 : ℝ) 1, ‖t ^ n * -Real.log t‖) = fun n : ℕ => 1 / ((n : ℝ) + 1) ^ 2 := by
      funext n
      rw [← hv n]
      exact setIntegral_congr_fun measurableSet_Ioc fun t ht => Real.norm_of_nonneg (hpos n t ht)
    rw [this]
    exact hz.summable)
  simp only [hv] at hs
  have h1 := hs.unique hz
  rw [spence, intervalIntegral.integral_symm, intervalIntegral.integral_of_le zero_le_one, ← h1, ← integral_neg]
  refine setIntegral_congr_fun measurableSet_Ioc fun t ht => ?_
  show -(Real.log t / (1 - t)) = ∑' n : ℕ, t ^ n * -Real.log t
  rcases eq_or_lt_of_le ht.2 with rfl | hlt
  · simp
  · rw [tsum_mul_right, tsum_geometric_of_lt_one ht.1.le hlt]
    rw [div_eq_mul_inv]; ring

/-- `Li₂(1) = π²/6`. -/
theorem li2_one : li2 1 = Real.pi ^ 2 / 6 := by rw [li2, sub_self, spence_zero]

theorem spence_cont : ContinuousOn spence (Icc 0 1) := by
  have hi : IntervalIntegrable (fun t : ℝ => Real.log t / (1 - t)) volume 0 1 := by
    by_contra h
    have h0 := intervalIntegral.integral_undef h
    have h1 := spence_zero
    rw [spence, intervalIntegral.integral_symm, h0, neg_zero] at h1
    have h2 : 0 < Real.pi ^ 2 / 6 := by have := Real.pi_pos; positivity
    exact h2.ne h1
  have := intervalIntegral.continuousOn_primitive_interval' hi (a := 1) (by simp)
  rwa [uIcc_of_le zero_le_one] at this

/-! ## The limits of `F` -/

/-- `(log (1 - u) + u + u²/2)/u²`, the remainder. (Specification.) -/
noncomputable def rho (u : ℝ) : ℝ := (Real.log (1 - u) + u + u ^ 2 / 2) / u ^ 2

theorem tid : Tendsto (fun u : ℝ => u) (𝓝[>] 0) (𝓝 0) := tendsto_id.mono_left nhdsWithin_le_nhds

theorem ev_lt (c : ℝ) (hc : 0 < c) : ∀ᶠ u in 𝓝[>] (0 : ℝ), u < c := mem_nhdsWithin_of_mem_nhds (gt_mem_nhds hc)

theorem rho_lim : Tendsto rho (𝓝[>] 0) (𝓝 0) := by
  rw [tendsto_zero_iff_norm_tendsto_zero]
  refine squeeze_zero' (Eventually.of_forall fun _ => norm_nonneg _) (g := fun u => 2 * u) ?_ (by simpa using tid.const_mul 2)
  filter_upwards [ev_lt (1 / 2) (by norm_num), self_mem_nhdsWithin] with u h1 h0
  have hu : 0 < u := h0
  have hb := Real.abs_log_sub_add_sum_range_le (x := u) (by rw [abs_of_pos hu]; linarith) 2
  rw [Finset.sum_range_succ, Finset.sum_range_one, abs_of_pos hu] at hb
  norm_num at hb
  unfold rho
  rw [norm_div, Real.norm_eq_abs, Real.norm_of_nonneg (by positivity), div_le_iff₀ (by positivity)]
  rw [show Real.log (1 - u) + u + u ^ 2 / 2 = u + u ^ 2 / 2 + Real.log (1 - u) by ring]
  refine hb.trans ?_
  rw [div_le_iff₀ (by linarith)]
  nlinarith [pow_pos hu 3]

theorem ulog : Tendsto (fun u : ℝ => u * Real.log u) (𝓝[>] 0) (𝓝 0) := by
  have := Real.continuous_mul_log.tendsto 0
  rw [zero_mul] at this
  exact this.mono_left nhdsWithin_le_nhds

theorem log1 : Tendsto (fun u : ℝ => Real.log (1 - u)) (𝓝[>] 0) (𝓝 0) := by
  have c : ContinuousAt (fun sh : ℝ => Real.log (1 - sh)) 0 := by
    apply ContinuousAt.log (by fun_prop); norm_num
  have := c.tendsto
  rw [sub_zero, Real.log_one] at this
  exact this.mono_left nhdsWithin_le_nhds

theorem li2_slope : Tendsto (fun u : ℝ => li2 u / u) (𝓝[>] 0) (𝓝 1) := by
  have h := spence_deriv (x := 1) one_pos
  rw [dslope_log_one] at h
  have h2 : HasDerivAt li2 1 0 := by
    have h3 : HasDerivAt spence (-1) (1 - 0) := by rw [sub_zero]; exact h
    have := h3.comp 0 ((hasDerivAt_id' (0 : ℝ)).const_sub 1)
    rw [neg_mul_neg, one_mul] at this
    exact this.congr_of_eventuallyEq (Eventually.of_forall fun u => rfl)
  have h0 : li2 0 = 0 := by rw [li2, sub_zero, spence_one]
  have := (hasDerivAt_iff_tendsto_slope.1 h2).mono_left (nhdsWithin_mono 0 (fun u (hu : u ∈ Ioi (0 : ℝ)) => ne_of_gt hu))
  refine this.congr fun u => ?_
  rw [slope_def_field, h0, sub_zero, sub_zero]

theorem spence_lim : Tendsto spence (𝓝[>] 0) (𝓝 (Real.pi ^ 2 / 6)) := by
  rw [← spence_zero]
  have h := (spence_cont 0 ⟨le_rfl, zero_le_one⟩).tendsto
  refine h.mono_left ?_
  rw [← nhdsWithin_Ioc_eq_nhdsGT (zero_lt_one : (0 : ℝ) < 1)]
  exact nhdsWithin_mono 0 Ioc_subset_Icc_self

/-- **C166 (light leptons).** For a lepton much lighter than the meson the function has the single logarithm `3/2 log z` and the
constant of Kinoshita and of Marciano and Sirlin, `13/8 - π²/3`. -/
theorem C166_light_lepton : Tendsto (fun z => F z - 3 / 2 * Real.log z) (𝓝[>] 0) (𝓝 (13 / 8 - Real.pi ^ 2 / 3)) := by
  let G : ℝ × ℝ × ℝ × ℝ × ℝ → ℝ := fun p =>
    (13 - 19 * p.1) / (8 * (1 - p.1)) - (8 - 5 * p.1) / (4 * (1 - p.1) ^ 2) * p.2.1
      - ((1 + p.1) / (1 - p.1) * p.2.1 * (p.1 * p.2.2.1 - 1 - p.1 / 2) + 2 * p.2.2.2.1) - 2 * (1 + p.1) / (1 - p.1) * p.2.2.2.2
  have hG : ContinuousAt G (0, 0, 0, 0, Real.pi ^ 2 / 6) := by
    simp only [G]
    fun_prop (disch := norm_num)
  have hG0 : G (0, 0, 0, 0, Real.pi ^ 2 / 6) = 13 / 8 - Real.pi ^ 2 / 3 := by
    simp only [G]; ring
  have hp := tid.prodMk_nhds (ulog.prodMk_nhds (rho_lim.prodMk_nhds (log1.prodMk_nhds spence_lim)))
  rw [← hG0]
  refine (hG.tendsto.comp hp).congr' ?_
  filter_upwards [ev_lt 1 one_pos, self_mem_nhdsWithin] with z h1 h0
  have hz : (0 : ℝ) < z := h0
  have h2 : Real.log (1 - z) = z * (z * rho z - 1 - z / 2) := by
    unfold rho; field_simp; ring
  have h3 : li2 (1 - z) = spence z := by rw [li2, sub_sub_cancel]
  simp only [Function.comp, G, F, h3]
  have : (1 + z) / (1 - z) * (z * Real.log z) * (z * rho z - 1 - z / 2) = (1 + z) / (1 - z) * Real.log z * Real.log (1 - z) := by
    rw [h2]; ring
  rw [this]; ring

/-- **C166 (threshold).** The poles at `z = 1` cancel: when the lepton is almost as heavy as the meson the function tends to
`-3/4`. -/
theorem C166_threshold : Tendsto F (𝓝[<] 1) (𝓝 (-3 / 4)) := by
  have key : Tendsto (fun u => F (1 - u)) (𝓝[>] 0) (𝓝 (-3 / 4)) := by
    let G : ℝ × ℝ × ℝ × ℝ × ℝ → ℝ := fun p =>
      3 / 2 * p.2.2.2.1 + (19 / 8 + 1 / 2 - 5 / 4 * p.1 + (3 + 5 * p.1) * (1 - p.1) / 8 - (3 + 5 * p.1) * (1 - p.1) / 4 * p.2.2.1)
        - ((2 - p.1) * p.2.2.1 * p.2.1 + p.1 * p.2.1 / 2) - 2 * (2 - p.1) * p.2.2.2.2
    have hG : ContinuousAt G (0, 0, 0, 0, 1) := by
      simp only [G]
      fun_prop (disch := norm_num)
    have hG0 : G (0, 0, 0, 0, 1) = -3 / 4 := by
      simp only [G]; norm_num
    have hp := tid.prodMk_nhds (ulog.prodMk_nhds (rho_lim.prodMk_nhds (log1.prodMk_nhds li2_slope)))
    rw [← hG0]
    refine (hG.tendsto.comp hp).congr' ?_
    filter_upwards [ev_lt 1 one_pos, self_mem_nhdsWithin] with u h1 h0
    have hu : (0 : ℝ) < u := h0
    have h2 : Real.log (1 - u) = u ^ 2 * rho u - u - u ^ 2 / 2 := by
      unfold rho; field_simp; ring
    simp only [Function.comp, G, F, sub_sub_cancel, h2]
    field_simp
    ring
  have hm : Tendsto (fun z : ℝ => 1 - z) (𝓝[<] 1) (𝓝[>] 0) := by
    refine tendsto_nhdsWithin_iff.2 ⟨?_, ?_⟩
    · have : Tendsto (fun z : ℝ => 1 - z) (𝓝 1) (𝓝 (1 - 1)) := (continuous_const.sub continuous_id).tendsto 1
      rw [sub_self] at this
      exact this.mono_left nhdsWithin_le_nhds
    · filter_upwards [self_mem_nhdsWithin] with z hz
      show (0 : ℝ) < 1 - z
      exact sub_pos.2 (show z < 1 from hz)
  refine (key.comp hm).congr fun z => ?_
  show F (1 - (1 - z)) = F z
  rw [sub_sub_cancel]

/-! ## The correction `delta_Plnu` -/

/-- **C166 (which leptons).** The correction exists for the electron and the muon only: for any other lepton the code stops with an
unbound local variable. -/
theorem C166_leptons (par : String → ℝ) (P lep : String) :
    (∃ d, delta par P lep = .ok d) ↔ lep = "e" ∨ lep = "mu" := by
  unfold delta c4
  by_cases h1 : lep = "mu"
  · rw [if_pos h1]; simp only [h1, or_true, iff_true]; exact ⟨_, rfl⟩
  by_cases h2 : lep = "e"
  · rw [if_neg h1, if_pos h2]; simp only [h2, true_or, iff_true]; exact ⟨_, rfl⟩
  · rw [if_neg h1, if_neg h2]
    simp only [h1, h2, or_self, iff_false]
    rintro ⟨d, h⟩
    cases h

/-- **C166 (the other leptons).** -/
theorem C166_other_lepton (par : String → ℝ) (P lep : String) (h1 : lep ≠ "e") (h2 : lep ≠ "mu") :
    delta par P lep = .error .unboundLocalError := by
  unfold delta c4
  rw [if_neg h2, if_neg h1]; rfl

theorem scale_log {x a b : ℝ} (hx : x ≠ 0) : (x * a) / (x * b) = a / b := mul_div_mul_left a b hx

/-- **C166 (units).** Only ratios of masses enter: the unit of energy drops out. -/
theorem C166_unit (par : String → ℝ) (P lep : String) (x : ℝ) (hx : x ≠ 0) (par' : String → ℝ)
    (h1 : par' "m_rho0" = x * par "m_rho0") (h2 : par' ("m_" ++ P) = x * par ("m_" ++ P))
    (h3 : par' ("m_" ++ lep) = x * par ("m_" ++ lep))
    (hc : ∀ k ∈ ["c1_" ++ P ++ "lnu", "c2_" ++ P ++ "lnu", "c3_" ++ P ++ "lnu", "c4_" ++ P ++ "munu", "c2t_" ++ P ++ "lnu"],
      par' k = par k) : delta par' P lep = delta par P lep := by
  have e4 : c4 par' P lep = c4 par P lep := by
    unfold c4; rw [hc _ (by simp)]
  unfold delta
  rw [e4, h1, h2, h3, hc _ (by simp), hc ("c2_" ++ P ++ "lnu") (by simp), hc ("c3_" ++ P ++ "lnu") (by simp),
    hc ("c2t_" ++ P ++ "lnu") (by simp)]
  congr 1
  funext c
  congr 1
  unfold value
  have q : ∀ a b : ℝ, (x * a) ^ 2 / (x * b) ^ 2 = a ^ 2 / b ^ 2 := fun a b => by
    rw [mul_pow, mul_pow, mul_div_mul_left _ _ (pow_ne_zero 2 hx)]
  rw [q, q, q, q, scale_log hx]

theorem sqlog : Tendsto (fun m : ℝ => m ^ 2 * Real.log m) (𝓝[>] 0) (𝓝 0) := by
  have := tid.mul ulog
  rw [zero_mul] at this
  exact this.congr fun m => by ring

/-- **C166 (mass singularity).** As the mass of the lepton goes to zero the correction has exactly one logarithm of it, with the
coefficient `α/π (3 - 2 c̃₂ m_P²/m_ρ²)`; the rest has the finite limit given here, in which `c₃` and `c₄` do not appear. -/
theorem C166_mass_log (mrho mP c1 c2 c3 c4 c2t : ℝ) (hr : 0 < mrho) (hP : 0 < mP) :
    Tendsto (fun ml => value mrho mP ml c1 c2 c3 c4 c2t
        - alpha / Real.pi * (3 - 2 * c2t * mP ^ 2 / mrho ^ 2) * Real.log ml) (𝓝[>] 0)
      (𝓝 (alpha / Real.pi * (13 / 8 - Real.pi ^ 2 / 3 - 3 * Real.log mP - 3 / 2 * Real.log (mrho / mP) - c1
        + mP ^ 2 / mrho ^ 2 * c2t * (2 * Real.log mrho)))) := by
  have hz : Tendsto (fun ml : ℝ => ml ^ 2 / mP ^ 2) (𝓝[>] 0) (𝓝[>] 0) := by
    refine tendsto_nhdsWithin_iff.2 ⟨?_, ?_⟩
    · have := (tid.pow 2).div_const (mP ^ 2)
      simpa using this
    · filter_upwards [self_mem_nhdsWithin] with m hm
      have : (0 : ℝ) < m := hm
      show (0 : ℝ) < m ^ 2 / mP ^ 2
      positivity
  have hF := C166_light_lepton.comp hz
  have hc := ((tid.pow 2).const_mul ((2 * c2 * Real.log mrho + c3 + c4) / mrho ^ 2)).sub (sqlog.const_mul (2 * c2 / mrho ^ 2))
  have hsum := ((hF.sub hc).add_const (- 3 * Real.log mP - 3 / 2 * Real.log (mrho / mP) - c1
        + mP ^ 2 / mrho ^ 2 * c2t * (2 * Real.log mrho))).const_mul (alpha / Real.pi)
  refine (hsum.congr' ?_).trans (le_of_eq ?_)
  · filter_upwards [self_mem_nhdsWithin] with m hm
    have hm0 : (0 : ℝ) < m := hm
    have l1 : Real.log (m ^ 2 / mP ^ 2) = 2 * Real.log m - 2 * Real.log mP := by
      rw [Real.log_div (by positivity) (by positivity), Real.log_pow, Real.log_pow]; norm_num
    have l2 : Real.log (mrho ^ 2 / m ^ 2) = 2 * Real.log mrho - 2 * Real.log m := by
      rw [Real.log_div (by positivity) (by positivity), Real.log_pow, Real.log_pow]; norm_num
    simp only [Function.comp, value, l1, l2]
    ring
  · congr 1
    ring

/-- **C166 (the muon's constant).** The term linear in `c₁`, `c₃` and `c₄`: `c₁` is common to both leptons and drops out of the
difference of their corrections, hence, to first order, of the ratio of their rates. -/
theorem C166_c1_cancels (mrho mP me mmu c1 c1' c2 c3 c4e c4m c2t : ℝ) :
    value mrho mP me c1 c2 c3 c4e c2t - value mrho mP mmu c1 c2 c3 c4m c2t
      = value mrho mP me c1' c2 c3 c4e c2t - value mrho mP mmu c1' c2 c3 c4m c2t := by
  unfold value; ring

/-- The function is continuous between the two limits, so it has no singularity for a physical lepton. -/
theorem C166_continuous : ContinuousOn F (Ioo 0 1) := by
  have hl : ContinuousOn (fun z : ℝ => li2 (1 - z)) (Ioo 0 1) := by
    refine ((spence_cont.mono Ioo_subset_Icc_self)).congr fun z hz => ?_
    rw [li2, sub_sub_cancel]
  have h1 : ContinuousOn (fun z : ℝ => Real.log z) (Ioo 0 1) := Real.continuousOn_log.mono fun z hz => hz.1.ne'
  have h2 : ContinuousOn (fun z : ℝ => Real.log (1 - z)) (Ioo 0 1) :=
    ContinuousOn.log (by fun_prop) fun z hz => (sub_pos.2 hz.2).ne'
  have h3 : ∀ z ∈ Ioo (0 : ℝ) 1, 1 - z ≠ 0 := fun z hz => (sub_pos.2 hz.2).ne'
  unfold F
  refine ((((h1.const_smul (3 / 2 : ℝ)).add (ContinuousOn.div (by fun_prop) (by fun_prop) ?_)).sub
    (((ContinuousOn.div (by fun_prop) (by fun_prop) ?_).mul continuousOn_id).mul h1)).sub
    ((((ContinuousOn.div (by fun_prop) (by fun_prop) h3).mul h1).add continuousOn_const).mul h2)).sub
    ((ContinuousOn.div (by fun_prop) (by fun_prop) h3).mul hl)
  · intro z hz; exact mul_ne_zero (by norm_num) (h3 z hz)
  · intro z hz; exact mul_ne_zero (by norm_num) (pow_ne_zero 2 (h3 z hz))

/-- The hypotheses are met: the electron in the decay of a charged kaon. -/
example : ∃ d, delta (fun k => if k = "m_rho0" then 0.775 else if k = "m_K+" then 0.494 else if k = "m_e" then 0.000511 else 1) "K+" "e"
    = .ok d := (C166_leptons _ _ _).2 (Or.inl rfl)

end Verif.Radcorr
