import Verif.Physics.Semilep.VTheorems
/-!
# C103: bins, polarisation, asymmetries
-/
set_option linter.unusedVariables false
set_option linter.unusedSimpArgs false
namespace Verif.Semilep.Vec
open Verif.Py Verif.Common Verif.Angular Verif.Running Verif.Semilep Complex ComplexConjugate MeasureTheory Set

/-- The form factors are continuous on the allowed region. (Specification.) -/
structure VInp.Cont (d : VInp) (l : Fin 3) : Prop where
  f1 : ContinuousOn (fun q => (d.ff q).A0) (d.region l)
  f2 : ContinuousOn (fun q => (d.ff q).A1) (d.region l)
  f3 : ContinuousOn (fun q => (d.ff q).A12) (d.region l)
  f4 : ContinuousOn (fun q => (d.ff q).V) (d.region l)
  f5 : ContinuousOn (fun q => (d.ff q).T1) (d.region l)
  f6 : ContinuousOn (fun q => (d.ff q).T2) (d.region l)
  f7 : ContinuousOn (fun q => (d.ff q).T23) (d.region l)

/-- Continuity for the flavours of the argument. (Specification.) -/
def VInp.ContA (d : VInp) : LArg → Prop
  | .one l => d.Cont l
  | .l => d.Cont 0 ∧ d.Cont 1

theorem F_cont (d : VInp) (hv : d.Valid) (l : Fin 3) (hc : d.Cont l) {F : JV → ℝ} (hF : Lin F) :
    ContinuousOn (fun q => F (jSumV d l q)) (d.region l) := by
  have e : ∀ q ∈ d.region l, F (jSumV d l q) = ∑ n, F (jPlain d l q n) := by
    intro q hq
    rw [lin_sum hF]
    exact Finset.sum_congr rfl fun n _ => by rw [jOneV_eq d hv l n q hq.1]
  refine ContinuousOn.congr ?_ e
  refine continuousOn_finsetSum _ fun n _ => ?_
  unfold jPlain
  simp only [lin_scale hF]
  refine continuousOn_const.mul ?_
  rw [continuousOn_iff_continuous_domRestrict]
  have hq : ∀ x : d.region l, 0 < (x : ℝ) := fun x => lt_of_lt_of_le (pow_pos (hv.hm l) 2) x.2.1
  exact angularV_cont (helV1_cont (fun x : d.region l => (x : ℝ)) d.mM d.mV d.mb d.mlight (d.m l) (fun x => d.ff x) _
    continuous_subtype_val hq (add_pos hv.hM hv.hV).ne' (continuousOn_iff_continuous_domRestrict.1 hc.f1)
    (continuousOn_iff_continuous_domRestrict.1 hc.f2) (continuousOn_iff_continuous_domRestrict.1 hc.f3)
    (continuousOn_iff_continuous_domRestrict.1 hc.f4) (continuousOn_iff_continuous_domRestrict.1 hc.f5)
    (continuousOn_iff_continuous_domRestrict.1 hc.f6) (continuousOn_iff_continuous_domRestrict.1 hc.f7)) _ _ _ _ _ continuous_subtype_val hq
    hv.hM.ne' F hF

theorem F_ii (d : VInp) (hv : d.Valid) (l : Fin 3) (hc : d.Cont l) (hr : d.m l ^ 2 ≤ (d.mM - d.mV) ^ 2) {F : JV → ℝ} (hF : Lin F) :
    IntervalIntegrable (fun q => F (jSumV d l q)) volume (d.m l ^ 2) ((d.mM - d.mV) ^ 2) :=
  ContinuousOn.intervalIntegrable (by rw [uIcc_of_le hr]; exact F_cont d hv l hc hF)

theorem dObs_integrable (d : VInp) (hv : d.Valid) (l : Fin 3) (hc : d.Cont l) {F : JV → ℝ} (hF : Lin F) :
    Integrable (dObs d F l) volume := by
  rw [dObs_indicator, integrable_indicator_iff (show MeasurableSet (d.region l) from measurableSet_Icc)]
  exact ContinuousOn.integrableOn_compact isCompact_Icc (continuousOn_const.mul (F_cont d hv l hc hF))

theorem q2int_eq (nint : Nint) (hx : Exact nint) (d : VInp) (hv : d.Valid) (l : Fin 3) (hc : d.Cont l) {F : JV → ℝ} (hF : Lin F)
    (hr : d.m l ^ 2 ≤ (d.mM - d.mV) ^ 2) : q2int nint d (dObs d F l) l = ∫ q, dObs d F l q := by
  unfold q2int
  rw [hx _ _ _ _ (dObs_integrable d hv l hc hF).intervalIntegrable, intervalIntegral.integral_of_le hr, ← integral_Icc_eq_integral_Ioc]
  refine setIntegral_eq_integral_of_forall_compl_eq_zero fun q hq => ?_
  rw [dObs_indicator]
  exact indicator_of_notMem hq _

/-- The prediction before integration over `q2`, for a flavour or for the mean of e and mu. (Specification.) -/
noncomputable def dA (d : VInp) (F : JV → ℝ) : LArg → ℝ → ℝ
  | .one l => dObs d F l
  | .l => fun q => (dObs d F 0 q + dObs d F 1 q) / 2

theorem dA_integrable (d : VInp) (hv : d.Valid) (a : LArg) (hc : d.ContA a) {F : JV → ℝ} (hF : Lin F) : Integrable (dA d F a) volume := by
  cases a with
  | one l => exact dObs_integrable d hv l hc hF
  | l => exact ((dObs_integrable d hv 0 hc.1 hF).add (dObs_integrable d hv 1 hc.2 hF)).div_const 2

theorem angObs_eq (nint : Nint) (hx : Exact nint) (d : VInp) (hv : d.Valid) (a : LArg) (hc : d.ContA a) {F : JV → ℝ} (hF : Lin F)
    (hr : ∀ l, d.m l ^ 2 ≤ (d.mM - d.mV) ^ 2) : angObs nint d F a = ∫ q, dA d F a q := by
  cases a with
  | one l => exact q2int_eq nint hx d hv l hc hF (hr l)
  | l =>
    show (q2int nint d (dObs d F 0) 0 + q2int nint d (dObs d F 1) 1) / 2 = ∫ q, (dObs d F 0 q + dObs d F 1 q) / 2
    rw [integral_div, integral_add (dObs_integrable d hv 0 hc.1 hF) (dObs_integrable d hv 1 hc.2 hF),
      q2int_eq nint hx d hv 0 hc.1 hF (hr 0), q2int_eq nint hx d hv 1 hc.2 hF (hr 1)]

theorem dbrV_dA (d : VInp) (A : Pol) (a : LArg) : dbrV d A a = dA d (polF A) a := by
  cases a <;> rfl

theorem brTotV_eq (nint : Nint) (hx : Exact nint) (d : VInp) (hv : d.Valid) (A : Pol) (a : LArg) (hc : d.ContA a)
    (hr : ∀ l, d.m l ^ 2 ≤ (d.mM - d.mV) ^ 2) : brTotV nint d A a = ∫ q, dbrV d A a q := by
  rw [dbrV_dA, ← angObs_eq nint hx d hv a hc (lin_pol A) hr]
  cases a <;> rfl

/-! ## Positivity -/

theorem rateV_sum (d : VInp) (l : Fin 3) (q2 tK tl ph : ℝ) :
    rateV (jSumV d l q2) tK tl ph = ∑ n, rateV (jOneV d l q2 n) tK tl ph := by
  simp only [rateV, jSumV, Fin.sum_univ_three]; ring

theorem rateV_nonneg (d : VInp) (hv : d.Valid) (l : Fin 3) (q2 : ℝ) (h : d.m l ^ 2 ≤ q2) (tK tl ph : ℝ) :
    0 ≤ rateV (jSumV d l q2) tK tl ph := by
  have hq : 0 < q2 := lt_of_lt_of_le (pow_pos (hv.hm l) 2) h
  rw [rateV_sum]
  refine Finset.sum_nonneg fun n _ => ?_
  rw [jOneV_eq d hv l n q2 h]
  unfold jPlain
  have : ∀ (x : ℝ) (J : JV), rateV (J.scale x) tK tl ph = x * rateV J tK tl ph := by
    intro x J; simp only [rateV, JV.scale]; ring
  rw [this]
  exact mul_nonneg (by positivity) (C80_distribution_nonneg _ q2 d.mM d.mV (d.m l) 0 hv.hM (hv.hm l).le le_rfl hq (by simpa using h) _ _ _)

theorem one_angle_nonneg (J : JV) (h : ∀ tK tl ph, 0 ≤ rateV J tK tl ph) :
    (∀ c, |c| ≤ 1 → 0 ≤ clDiff J c) ∧ (∀ c, |c| ≤ 1 → 0 ≤ cVDiff J c) ∧ ∀ p, 0 ≤ phiDiff J p := by
  have hs : ∀ t ∈ Icc (0 : ℝ) Real.pi, 0 ≤ Real.sin t := fun t ht => Real.sin_nonneg_of_nonneg_of_le_pi ht.1 ht.2
  have hp : 0 ≤ 9 / (32 * Real.pi) := by positivity
  have hpi : -Real.pi ≤ Real.pi := by linarith [Real.pi_pos]
  refine ⟨fun c hc => ?_, fun c hc => ?_, fun p => ?_⟩
  · have e := (C103_angles J (Real.arccos c)).1
    rw [Real.cos_arccos (abs_le.1 hc).1 (abs_le.1 hc).2] at e
    rw [e]
    exact mul_nonneg hp (intervalIntegral.integral_nonneg Real.pi_pos.le fun t ht =>
      mul_nonneg (intervalIntegral.integral_nonneg hpi fun _ _ => h _ _ _) (hs t ht))
  · have e := (C103_angles J (Real.arccos c)).2.1
    rw [Real.cos_arccos (abs_le.1 hc).1 (abs_le.1 hc).2] at e
    rw [e]
    exact mul_nonneg hp (intervalIntegral.integral_nonneg Real.pi_pos.le fun t ht =>
      mul_nonneg (intervalIntegral.integral_nonneg hpi fun _ _ => h _ _ _) (hs t ht))
  · rw [(C103_angles J p).2.2]
    exact mul_nonneg hp (intervalIntegral.integral_nonneg Real.pi_pos.le fun t ht =>
      mul_nonneg (intervalIntegral.integral_nonneg Real.pi_pos.le fun t' ht' => mul_nonneg (h _ _ _) (hs t' ht')) (hs t ht))

theorem pol_nonneg (J : JV) (h : ∀ tK tl ph, 0 ≤ rateV J tK tl ph) : 0 ≤ dGL J ∧ 0 ≤ dGT J := by
  obtain ⟨-, h2, -⟩ := one_angle_nonneg J h
  have a := h2 0 (by simp)
  have b := h2 1 (by simp)
  simp only [cVDiff, dGcV] at a b
  unfold dGL dGT
  constructor <;> linarith

theorem polF_nonneg (J : JV) (h : ∀ tK tl ph, 0 ≤ rateV J tK tl ph) (A : Pol) : 0 ≤ polF A J := by
  obtain ⟨h1, h2⟩ := pol_nonneg J h
  cases A with
  | L => exact h1
  | T => exact h2
  | all =>
    have : dGdq2 J = dGL J + dGT J := by unfold dGdq2 dGL dGT; ring
    show 0 ≤ dGdq2 J
    rw [this]; exact add_nonneg h1 h2

theorem norm_nonneg' (d : VInp) (ht : 0 ≤ d.tau) : 0 ≤ d.norm := by
  unfold VInp.norm; split_ifs
  · exact div_nonneg ht (by norm_num)
  · exact ht

theorem dA_nonneg (d : VInp) (hv : d.Valid) (ht : 0 ≤ d.tau) (F : JV → ℝ) (hF : ∀ J, (∀ tK tl ph, 0 ≤ rateV J tK tl ph) → 0 ≤ F J)
    (a : LArg) (q : ℝ) : 0 ≤ dA d F a q := by
  have key : ∀ l, 0 ≤ dObs d F l q := by
    intro l
    rw [dObs_indicator]
    refine indicator_nonneg (fun q hq => mul_nonneg (norm_nonneg' d ht) (hF _ fun tK tl ph => rateV_nonneg d hv l q hq.1 tK tl ph)) q
  cases a with
  | one l => exact key l
  | l => exact div_nonneg (add_nonneg (key 0) (key 1)) (by norm_num)

theorem dA_zero (d : VInp) (F : JV → ℝ) (a : LArg) (q : ℝ) (h : (d.mM - d.mV) ^ 2 < q ∨ ∀ l, q < d.m l ^ 2) : dA d F a q = 0 := by
  have : ∀ l, dObs d F l q = 0 := by
    intro l
    rw [dObs_indicator]
    refine indicator_of_notMem (fun hq => ?_) _
    rcases h with h | h
    · exact absurd hq.2 (not_le.2 h)
    · exact absurd hq.1 (not_le.2 (h l))
  cases a with
  | one l => exact this l
  | l => show (dObs d F 0 q + dObs d F 1 q) / 2 = 0; rw [this, this]; simp

/-- **C103 (bins)** With an exact integrator and continuous form factors, for each polarisation and each lepton argument: the binned
branching ratio is the integral of the differential one; bins add up; the total one is that of every bin covering the allowed
regions; branching ratios are not negative and no bin exceeds the total; longitudinal and transverse ones add up to the
unpolarised one. -/
theorem C103_bins (nint : Nint) (hx : Exact nint) (d : VInp) (hv : d.Valid) (ht : 0 ≤ d.tau) (A : Pol) (a : LArg) (hc : d.ContA a)
    (hr : ∀ l, d.m l ^ 2 ≤ (d.mM - d.mV) ^ 2) :
    (∀ x y, brBinnedV nint d A a x y = ∫ q in x..y, dbrV d A a q) ∧
    (∀ x y z, brBinnedV nint d A a x z = brBinnedV nint d A a x y + brBinnedV nint d A a y z) ∧
    (∀ x y, (∀ l, x ≤ d.m l ^ 2) → (d.mM - d.mV) ^ 2 ≤ y → brBinnedV nint d A a x y = brTotV nint d A a) ∧
    (∀ x y, x ≤ y → 0 ≤ brBinnedV nint d A a x y ∧ brBinnedV nint d A a x y ≤ brTotV nint d A a) ∧
    (∀ x y, brBinnedV nint d .all a x y = brBinnedV nint d .L a x y + brBinnedV nint d .T a x y) ∧
    brTotV nint d .all a = brTotV nint d .L a + brTotV nint d .T a := by
  have hi : ∀ A, Integrable (dbrV d A a) volume := fun A => by rw [dbrV_dA]; exact dA_integrable d hv a hc (lin_pol A)
  have e1 : ∀ A x y, brBinnedV nint d A a x y = ∫ q in x..y, dbrV d A a q := by
    intro A x y; unfold brBinnedV; exact hx _ _ _ _ (hi A).intervalIntegrable
  have hnn : ∀ q, 0 ≤ dbrV d A a q := by
    intro q; rw [dbrV_dA]; exact dA_nonneg d hv ht _ (fun J h => polF_nonneg J h A) a q
  have ht' := fun A => brTotV_eq nint hx d hv A a hc hr
  have hadd : ∀ q, dbrV d .all a q = dbrV d .L a q + dbrV d .T a q := by
    have : ∀ l q, dObs d (polF .all) l q = dObs d (polF .L) l q + dObs d (polF .T) l q := by
      intro l q
      simp only [dObs_indicator]
      unfold indicator
      split_ifs
      · simp only [polF]
        have : dGdq2 (jSumV d l q) = dGL (jSumV d l q) + dGT (jSumV d l q) := by unfold dGdq2 dGL dGT; ring
        rw [this]; ring
      · simp
    intro q
    cases a with
    | one l => exact this l q
    | l =>
      show (dObs d (polF .all) 0 q + dObs d (polF .all) 1 q) / 2 = (dObs d (polF .L) 0 q + dObs d (polF .L) 1 q) / 2
        + (dObs d (polF .T) 0 q + dObs d (polF .T) 1 q) / 2
      rw [this, this]; ring
  refine ⟨e1 A, ?_, ?_, ?_, ?_, ?_⟩
  · intro x y z
    rw [e1, e1, e1, intervalIntegral.integral_add_adjacent_intervals (hi A).intervalIntegrable (hi A).intervalIntegrable]
  · intro x y h1 h2
    have hxy : x ≤ y := (h1 0).trans ((hr 0).trans h2)
    rw [e1, ht', intervalIntegral.integral_of_le hxy, ← integral_Icc_eq_integral_Ioc]
    refine setIntegral_eq_integral_of_forall_compl_eq_zero fun q hq => ?_
    rw [dbrV_dA]
    apply dA_zero
    rw [mem_Icc, not_and_or, not_le, not_le] at hq
    rcases hq with h | h
    · exact Or.inr fun l => lt_of_lt_of_le h (h1 l)
    · exact Or.inl (lt_of_le_of_lt h2 h)
  · intro x y hxy
    rw [e1, ht', intervalIntegral.integral_of_le hxy]
    exact ⟨setIntegral_nonneg measurableSet_Ioc fun q _ => hnn q,
      setIntegral_le_integral (hi A) (Filter.Eventually.of_forall hnn)⟩
  · intro x y
    rw [e1, e1, e1, ← intervalIntegral.integral_add (hi .L).intervalIntegrable (hi .T).intervalIntegrable]
    exact intervalIntegral.integral_congr fun q _ => hadd q
  · rw [ht', ht', ht', ← integral_add (hi .L) (hi .T)]
    exact integral_congr_ae (Filter.Eventually.of_forall hadd)

theorem ratio_ok (u v : ℝ) (hv : v ≠ 0) : ratio u v = .ok (u / v) := by
  unfold ratio pyDiv
  split_ifs with h
  · rw [h, zero_div]
  · rfl

/-- **C103 (ratios)** A ratio is zero if its numerator is, `ZeroDivisionError` if only its denominator is, and the quotient otherwise; the
fraction of the decays in a bin lies between 0 and 1, and is 1 for a bin covering everything. -/
theorem C103_ratios (nint : Nint) (hx : Exact nint) (d : VInp) (hv : d.Valid) (ht : 0 ≤ d.tau) (A : Pol) (a b : LArg)
    (hc : d.ContA a) (hr : ∀ l, d.m l ^ 2 ≤ (d.mM - d.mV) ^ 2) (x y : ℝ) (hxy : x ≤ y) :
    (brBinnedV nint d A b x y ≠ 0 → rBinnedV nint d A a b x y = .ok (brBinnedV nint d A a x y / brBinnedV nint d A b x y)) ∧
    (brTotV nint d A b ≠ 0 → rTotV nint d A a b = .ok (brTotV nint d A a / brTotV nint d A b)) ∧
    (brTotV nint d A a = 0 → rTotV nint d A a b = .ok 0) ∧
    (brTotV nint d A a ≠ 0 → brTotV nint d A b = 0 → rTotV nint d A a b = .error .zeroDivisionError) ∧
    (brBinnedV nint d A a x y = 0 → rBinnedV nint d A a b x y = .ok 0) ∧
    (brBinnedV nint d A a x y ≠ 0 → brBinnedV nint d A b x y = 0 → rBinnedV nint d A a b x y = .error .zeroDivisionError) ∧
    (∃ r, relBinnedV nint d A a x y = .ok r ∧ 0 ≤ r ∧ r ≤ 1 ∧ r * brTotV nint d A a = brBinnedV nint d A a x y) ∧
    (brTotV nint d A a ≠ 0 → (∀ l, x ≤ d.m l ^ 2) → (d.mM - d.mV) ^ 2 ≤ y → relBinnedV nint d A a x y = .ok 1) := by
  obtain ⟨-, -, h3, h4, -, -⟩ := C103_bins nint hx d hv ht A a hc hr
  have hz : ∀ u v : ℝ, u = 0 → ratio u v = .ok 0 := by
    intro u v hu; unfold ratio; rw [if_pos hu]
  have he : ∀ u v : ℝ, u ≠ 0 → v = 0 → ratio u v = .error .zeroDivisionError := by
    intro u v hu hv; unfold ratio pyDiv; rw [if_neg hu, if_pos hv]
  refine ⟨fun h => ratio_ok _ _ h, fun h => ratio_ok _ _ h, fun h => hz _ _ h, fun h h' => he _ _ h h', fun h => hz _ _ h,
    fun h h' => he _ _ h h', ?_, ?_⟩
  · obtain ⟨p1, p2⟩ := h4 x y hxy
    by_cases h0 : brTotV nint d A a = 0
    · have hb : brBinnedV nint d A a x y = 0 := le_antisymm (by rw [h0] at p2; exact p2) p1
      exact ⟨0, hz _ _ hb, le_rfl, zero_le_one, by rw [zero_mul, hb]⟩
    · have hpos : 0 < brTotV nint d A a := lt_of_le_of_ne (p1.trans p2) (Ne.symm h0)
      exact ⟨_, ratio_ok _ _ h0, div_nonneg p1 hpos.le, (div_le_one hpos).2 p2, div_mul_cancel₀ _ h0⟩
  · intro h0 h1 h2
    unfold relBinnedV
    rw [ratio_ok _ _ h0, h3 x y h1 h2, div_self h0]

/-- **C103 (F_L)** The longitudinal polarisation fraction lies between 0 and 1 wherever there are decays, differentially and in bins (where
it is the quotient of the binned branching ratios); it is 0 outside the allowed region, `ZeroDivisionError` where the rate vanishes -
in particular at the lower end of the region.  For the lepton `'l'` the binned version works, but the differential and total ones
raise `KeyError`. -/
theorem C103_fl (nint : Nint) (hx : Exact nint) (d : VInp) (hv : d.Valid) (ht : 0 ≤ d.tau) (l : Fin 3) (a : LArg) (hc : d.ContA a)
    (hr : ∀ l, d.m l ^ 2 ≤ (d.mM - d.mV) ^ 2) :
    (∀ q2 ∈ d.region l, rateVSum d .all l q2 ≠ 0 → ∃ r, flDiff d (.one l) q2 = .ok r ∧ 0 ≤ r ∧ r ≤ 1 ∧
      r * rateVSum d .all l q2 = rateVSum d .L l q2) ∧
    (∀ q2 ∉ d.region l, flDiff d (.one l) q2 = .ok 0) ∧
    (∀ q2 ∈ d.region l, rateVSum d .all l q2 = 0 → flDiff d (.one l) q2 = .error .zeroDivisionError) ∧
    flDiff d (.one l) (d.m l ^ 2) = .error .zeroDivisionError ∧
    (∀ x y, x ≤ y → ∃ r, flBinned nint d a x y = .ok r ∧ 0 ≤ r ∧ r ≤ 1 ∧
      r * brBinnedV nint d .all a x y = brBinnedV nint d .L a x y) ∧
    (d.Cont l → ∃ r, flTot nint d (.one l) = .ok r ∧ 0 ≤ r ∧ r ≤ 1 ∧ r * brTotV nint d .all (.one l) = brTotV nint d .L (.one l)) ∧
    (∀ q2, flDiff d .l q2 = .error .keyError) ∧ flTot nint d .l = .error .keyError := by
  have hforb : ∀ q2, forbidden d l q2 ↔ q2 ∉ d.region l := by
    intro q2; unfold forbidden VInp.region; rw [mem_Icc, not_and_or, not_le, not_le]
  have bin : ∀ a, d.ContA a → ∀ x y, x ≤ y → ∃ r, flBinned nint d a x y = .ok r ∧ 0 ≤ r ∧ r ≤ 1 ∧
      r * brBinnedV nint d .all a x y = brBinnedV nint d .L a x y := by
    intro a hc x y hxy
    obtain ⟨-, -, -, hL, hs, -⟩ := C103_bins nint hx d hv ht .L a hc hr
    obtain ⟨-, -, -, hT, -, -⟩ := C103_bins nint hx d hv ht .T a hc hr
    have pL := (hL x y hxy).1
    have pT := (hT x y hxy).1
    have es := hs x y
    unfold flBinned
    by_cases h0 : brBinnedV nint d .all a x y = 0
    · have hz : brBinnedV nint d .L a x y = 0 := by linarith
      exact ⟨0, by unfold ratio; rw [if_pos hz], le_rfl, zero_le_one, by rw [zero_mul, hz]⟩
    · have hp : 0 < brBinnedV nint d .all a x y := lt_of_le_of_ne (by linarith) (Ne.symm h0)
      exact ⟨_, ratio_ok _ _ h0, div_nonneg pL hp.le, (div_le_one hp).2 (by linarith), div_mul_cancel₀ _ h0⟩
  have rin : ∀ q2 ∈ d.region l, flDiff d (.one l) q2 = pyDiv (rateVSum d .L l q2) (rateVSum d .all l q2) := by
    intro q2 hq
    simp only [flDiff]
    rw [if_neg (by rw [hforb, not_not]; exact hq)]
    show pyDiv (polF .L (jSumV d l q2)) (polF .all (jSumV d l q2)) = _
    rw [pol_rate d hv .L l q2 hq.1, pol_rate d hv .all l q2 hq.1]
  have hz : ∀ q2 ∈ d.region l, rateVSum d .all l q2 = 0 → flDiff d (.one l) q2 = .error .zeroDivisionError := by
    intro q2 hq h0
    rw [rin q2 hq]; unfold pyDiv; rw [if_pos h0]
  refine ⟨?_, ?_, hz, ?_, bin a hc, ?_, fun _ => rfl, rfl⟩
  · intro q2 hq h0
    have pn := polF_nonneg (jSumV d l q2) (rateV_nonneg d hv l q2 hq.1)
    have pL := pn .L
    have pT := pn .T
    rw [pol_rate d hv _ l q2 hq.1] at pL pT
    have hs : rateVSum d .all l q2 = rateVSum d .L l q2 + rateVSum d .T l q2 := rfl
    have hp : 0 < rateVSum d .all l q2 := lt_of_le_of_ne (by rw [hs]; exact add_nonneg pL pT) (Ne.symm h0)
    refine ⟨_, by rw [rin q2 hq]; unfold pyDiv; rw [if_neg h0], div_nonneg pL hp.le, (div_le_one hp).2 (by rw [hs]; linarith),
      div_mul_cancel₀ _ h0⟩
  · intro q2 hq
    simp only [flDiff]
    rw [if_pos ((hforb q2).2 hq)]
  · have hm : d.m l ^ 2 ∈ d.region l := ⟨le_rfl, hr l⟩
    refine hz _ hm ?_
    rw [← pol_rate d hv .all l _ le_rfl, lin_sum (lin_pol .all)]
    refine Finset.sum_eq_zero fun n _ => ?_
    rw [jOneV_eq d hv l n _ le_rfl]
    unfold jPlain
    rw [lin_scale (lin_pol .all), angularV_threshold _ _ _ _ (hv.hm l)]
    simp [polF, dGdq2, JV.zero]
  · intro hcl
    exact bin (.one l) hcl _ _ (hr l)

/-! ## Angular bins -/

theorem clInt_eq (J : JV) (a b : ℝ) : clInt J a b = ∫ c in a..b, clDiff J c := by
  have hd : ∀ x : ℝ, HasDerivAt (fun c => (dGcl J).1 * c + (dGcl J).2.1 * (c ^ 2 / 2) + (dGcl J).2.2 * (2 * c ^ 3 / 3 - c)) (clDiff J x) x := by
    intro x
    have h2 : HasDerivAt (fun c : ℝ => c ^ 2 / 2) x x := by
      refine ((hasDerivAt_pow 2 x).div_const 2).congr_deriv (by simp)
    have h3 : HasDerivAt (fun c : ℝ => 2 * c ^ 3 / 3 - c) (2 * x ^ 2 - 1) x := by
      refine ((((hasDerivAt_pow 3 x).const_mul 2).div_const 3).sub (hasDerivAt_id x)).congr_deriv ?_
      simp; ring
    refine ((((hasDerivAt_id x).const_mul _).add (h2.const_mul _)).add (h3.const_mul _)).congr_deriv ?_
    unfold clDiff; ring
  rw [intervalIntegral.integral_eq_sub_of_hasDerivAt (fun x _ => hd x)
    (Continuous.intervalIntegrable (by unfold clDiff; fun_prop) _ _)]
  unfold clInt; ring

theorem cVInt_eq (J : JV) (a b : ℝ) : cVInt J a b = ∫ c in a..b, cVDiff J c := by
  have hd : ∀ x : ℝ, HasDerivAt (fun c => (dGcV J).1 * (c ^ 3 / 3) + (dGcV J).2 * (c - c ^ 3 / 3)) (cVDiff J x) x := by
    intro x
    have h3 : HasDerivAt (fun c : ℝ => c ^ 3 / 3) (x ^ 2) x := by
      refine ((hasDerivAt_pow 3 x).div_const 3).congr_deriv (by simp)
    refine ((h3.const_mul _).add (((hasDerivAt_id x).sub h3).const_mul _)).congr_deriv ?_
    unfold cVDiff; ring
  rw [intervalIntegral.integral_eq_sub_of_hasDerivAt (fun x _ => hd x)
    (Continuous.intervalIntegrable (by unfold cVDiff; fun_prop) _ _)]
  unfold cVInt; ring

theorem phiInt_eq (J : JV) (a b : ℝ) : phiInt J a b = ∫ c in a..b, phiDiff J c := by
  have hd : ∀ x : ℝ, HasDerivAt (fun c => (dGphi J).1 * c + (dGphi J).2.1 * (Real.sin (2 * c) / 2) + (dGphi J).2.2 * (-Real.cos (2 * c) / 2))
      (phiDiff J x) x := by
    intro x
    have h2 : HasDerivAt (fun p : ℝ => 2 * p) 2 x := by simpa using (hasDerivAt_id x).const_mul 2
    refine ((((hasDerivAt_id x).const_mul _).add ((h2.sin.div_const 2).const_mul _)).add ((h2.cos.neg.div_const 2).const_mul _)).congr_deriv ?_
    unfold phiDiff; ring
  rw [intervalIntegral.integral_eq_sub_of_hasDerivAt (fun x _ => hd x)
    (Continuous.intervalIntegrable (by unfold phiDiff; fun_prop) _ _)]
  unfold phiInt; ring

theorem full_range (J : JV) (a : ℝ) : clInt J (-1) 1 = dGdq2 J ∧ cVInt J (-1) 1 = dGdq2 J ∧ phiInt J a (a + 2 * Real.pi) = dGdq2 J := by
  have hpi := Real.pi_ne_zero
  refine ⟨?_, ?_, ?_⟩
  · simp only [clInt, dGcl, dGdq2]; ring
  · simp only [cVInt, dGcV, dGdq2]; ring
  · have h1 : Real.sin (2 * (a + 2 * Real.pi)) = Real.sin (2 * a) := by
      rw [show 2 * (a + 2 * Real.pi) = 2 * a + (2 : ℕ) * (2 * Real.pi) by push_cast; ring, Real.sin_add_nat_mul_two_pi]
    have h2 : Real.cos (2 * (a + 2 * Real.pi)) = Real.cos (2 * a) := by
      rw [show 2 * (a + 2 * Real.pi) = 2 * a + (2 : ℕ) * (2 * Real.pi) by push_cast; ring, Real.cos_add_nat_mul_two_pi]
    simp only [phiInt, dGphi, dGdq2, h1, h2]
    field_simp
    ring

/-! ## Integrated coefficients -/

theorem dA_lin (d : VInp) (a : LArg) (c : Fin 8 → ℝ) (F : JV → ℝ)
    (hF : ∀ J, F J = c 0 * J.j1s + c 1 * J.j1c + c 2 * J.j2s + c 3 * J.j2c + c 4 * J.j6s + c 5 * J.j6c + c 6 * J.j3 + c 7 * J.j9) (q : ℝ) :
    dA d F a q = c 0 * dA d (fun J => J.j1s) a q + c 1 * dA d (fun J => J.j1c) a q + c 2 * dA d (fun J => J.j2s) a q
      + c 3 * dA d (fun J => J.j2c) a q + c 4 * dA d (fun J => J.j6s) a q + c 5 * dA d (fun J => J.j6c) a q
      + c 6 * dA d (fun J => J.j3) a q + c 7 * dA d (fun J => J.j9) a q := by
  have key : ∀ l, dObs d F l q = c 0 * dObs d (fun J => J.j1s) l q + c 1 * dObs d (fun J => J.j1c) l q + c 2 * dObs d (fun J => J.j2s) l q
      + c 3 * dObs d (fun J => J.j2c) l q + c 4 * dObs d (fun J => J.j6s) l q + c 5 * dObs d (fun J => J.j6c) l q
      + c 6 * dObs d (fun J => J.j3) l q + c 7 * dObs d (fun J => J.j9) l q := by
    intro l
    simp only [dObs_indicator]
    unfold indicator
    split_ifs
    · simp only [hF]; ring
    · simp
  cases a with
  | one l => exact key l
  | l => simp only [dA, key]; ring

theorem lin_of (c : Fin 8 → ℝ) : Lin fun J => c 0 * J.j1s + c 1 * J.j1c + c 2 * J.j2s + c 3 * J.j2c + c 4 * J.j6s + c 5 * J.j6c + c 6 * J.j3 + c 7 * J.j9 :=
  ⟨c, fun _ => rfl⟩

theorem lin_coord : Lin (fun J => J.j1s) ∧ Lin (fun J => J.j1c) ∧ Lin (fun J => J.j2s) ∧ Lin (fun J => J.j2c) ∧ Lin (fun J => J.j6s) ∧
    Lin (fun J => J.j6c) ∧ Lin (fun J => J.j3) ∧ Lin (fun J => J.j9) := by
  refine ⟨⟨![1, 0, 0, 0, 0, 0, 0, 0], fun J => by simp⟩, ⟨![0, 1, 0, 0, 0, 0, 0, 0], fun J => by simp⟩,
    ⟨![0, 0, 1, 0, 0, 0, 0, 0], fun J => by simp⟩, ⟨![0, 0, 0, 1, 0, 0, 0, 0], fun J => by simp⟩,
    ⟨![0, 0, 0, 0, 1, 0, 0, 0], fun J => by simp⟩, ⟨![0, 0, 0, 0, 0, 1, 0, 0], fun J => by simp⟩,
    ⟨![0, 0, 0, 0, 0, 0, 1, 0], fun J => by simp⟩, ⟨![0, 0, 0, 0, 0, 0, 0, 1], fun J => by simp⟩⟩

theorem int8 (μ : Measure ℝ) (f : Fin 8 → ℝ → ℝ) (hi : ∀ i, Integrable (f i) μ) (c : Fin 8 → ℝ) :
    ∫ q, (c 0 * f 0 q + c 1 * f 1 q + c 2 * f 2 q + c 3 * f 3 q + c 4 * f 4 q + c 5 * f 5 q + c 6 * f 6 q + c 7 * f 7 q) ∂μ =
      c 0 * (∫ q, f 0 q ∂μ) + c 1 * (∫ q, f 1 q ∂μ) + c 2 * (∫ q, f 2 q ∂μ) + c 3 * (∫ q, f 3 q ∂μ) + c 4 * (∫ q, f 4 q ∂μ)
      + c 5 * (∫ q, f 5 q ∂μ) + c 6 * (∫ q, f 6 q ∂μ) + c 7 * (∫ q, f 7 q ∂μ) := by
  have h := integral_finsetSum (μ := μ) Finset.univ (f := fun i q => c i * f i q) fun i _ => (hi i).const_mul (c i)
  simp only [integral_const_mul, Fin.sum_univ_eight] at h
  exact h

/-- All `q2`-integrated predictions are the same functions of one set of integrated coefficients. -/
theorem exists_int (nint : Nint) (hx : Exact nint) (d : VInp) (hv : d.Valid) (a : LArg) (hc : d.ContA a)
    (hr : ∀ l, d.m l ^ 2 ≤ (d.mM - d.mV) ^ 2) : ∃ J : JV, ∀ F, Lin F → angObs nint d F a = F J := by
  obtain ⟨l1, l2, l3, l4, l5, l6, l7, l8⟩ := lin_coord
  refine ⟨⟨∫ q, dA d (fun J => J.j1s) a q, ∫ q, dA d (fun J => J.j1c) a q, ∫ q, dA d (fun J => J.j2s) a q, ∫ q, dA d (fun J => J.j2c) a q,
    ∫ q, dA d (fun J => J.j6s) a q, ∫ q, dA d (fun J => J.j6c) a q, ∫ q, dA d (fun J => J.j3) a q, 0, 0, 0, 0,
    ∫ q, dA d (fun J => J.j9) a q⟩, fun F hF => ?_⟩
  rw [angObs_eq nint hx d hv a hc hF hr]
  obtain ⟨c, hcF⟩ := hF
  rw [hcF]
  simp only [dA_lin d a c F hcF]
  refine int8 volume ![dA d (fun J => J.j1s) a, dA d (fun J => J.j1c) a, dA d (fun J => J.j2s) a, dA d (fun J => J.j2c) a,
    dA d (fun J => J.j6s) a, dA d (fun J => J.j6c) a, dA d (fun J => J.j3) a, dA d (fun J => J.j9) a] ?_ c
  intro i
  fin_cases i
  exacts [dA_integrable d hv a hc l1, dA_integrable d hv a hc l2, dA_integrable d hv a hc l3, dA_integrable d hv a hc l4,
    dA_integrable d hv a hc l5, dA_integrable d hv a hc l6, dA_integrable d hv a hc l7, dA_integrable d hv a hc l8]

theorem exists_raw (nint : Nint) (hx : Exact nint) (d : VInp) (hv : d.Valid) (l : Fin 3) (hc : d.Cont l)
    (hr : ∀ l, d.m l ^ 2 ≤ (d.mM - d.mV) ^ 2) : ∃ J : JV, (∀ F, Lin F → q2int nint d (fun q => F (jSumV d l q)) l = F J) ∧
      (∀ F, Lin F → (∀ J, (∀ tK tl ph, 0 ≤ rateV J tK tl ph) → 0 ≤ F J) → 0 ≤ F J) ∧
      ∀ F, Lin F → angObs nint d F (.one l) = d.norm * F J := by
  obtain ⟨l1, l2, l3, l4, l5, l6, l7, l8⟩ := lin_coord
  have e : ∀ F, Lin F → q2int nint d (fun q => F (jSumV d l q)) l = ∫ q in Ioc (d.m l ^ 2) ((d.mM - d.mV) ^ 2), F (jSumV d l q) := by
    intro F hF
    unfold q2int
    rw [hx _ _ _ _ (F_ii d hv l hc (hr l) hF), intervalIntegral.integral_of_le (hr l)]
  have main : ∀ F, Lin F → q2int nint d (fun q => F (jSumV d l q)) l
      = F ⟨q2int nint d (fun q => (jSumV d l q).j1s) l, q2int nint d (fun q => (jSumV d l q).j1c) l, q2int nint d (fun q => (jSumV d l q).j2s) l,
        q2int nint d (fun q => (jSumV d l q).j2c) l, q2int nint d (fun q => (jSumV d l q).j6s) l, q2int nint d (fun q => (jSumV d l q).j6c) l,
        q2int nint d (fun q => (jSumV d l q).j3) l, 0, 0, 0, 0, q2int nint d (fun q => (jSumV d l q).j9) l⟩ := by
    intro F hF
    have h0 := e F hF
    obtain ⟨c, hcF⟩ := hF
    rw [h0]
    simp only [hcF]
    rw [e _ l1, e _ l2, e _ l3, e _ l4, e _ l5, e _ l6, e _ l7, e _ l8]
    refine int8 _ ![fun q => (jSumV d l q).j1s, fun q => (jSumV d l q).j1c, fun q => (jSumV d l q).j2s, fun q => (jSumV d l q).j2c,
      fun q => (jSumV d l q).j6s, fun q => (jSumV d l q).j6c, fun q => (jSumV d l q).j3, fun q => (jSumV d l q).j9] ?_ c
    intro i
    have k := fun {F : JV → ℝ} (h : Lin F) => (intervalIntegrable_iff_integrableOn_Ioc_of_le (hr l)).1 (F_ii d hv l hc (hr l) h)
    fin_cases i
    exacts [k l1, k l2, k l3, k l4, k l5, k l6, k l7, k l8]
  refine ⟨_, main, fun F hF hp => ?_, fun F hF => ?_⟩
  · rw [← main F hF, e F hF]
    exact setIntegral_nonneg measurableSet_Ioc fun q hq => hp _ fun tK tl ph => rateV_nonneg d hv l q hq.1.le tK tl ph
  · rw [← main F hF, e F hF, angObs_eq nint hx d hv (.one l) hc hF hr]
    show ∫ q, dObs d F l q = _
    rw [dObs_indicator, integral_indicator (show MeasurableSet (d.region l) from measurableSet_Icc), integral_const_mul]
    unfold VInp.region
    rw [integral_Icc_eq_integral_Ioc]

theorem brTotV_ang (nint : Nint) (d : VInp) (A : Pol) (a : LArg) : brTotV nint d A a = angObs nint d (polF A) a := by
  cases a <;> rfl

/-- **C103 (angular bins)** With an exact integrator and continuous form factors: the branching ratio in a bin of one of the three
angles is the integral of the corresponding differential one, is not negative, bins add up, and the whole range of the angle gives
the total branching ratio.  For cosines beyond 1 the differential prediction raises `ValueError`. -/
theorem C103_angular_bins (nint : Nint) (hx : Exact nint) (d : VInp) (hv : d.Valid) (ht : 0 ≤ d.tau) (a : LArg) (hc : d.ContA a)
    (hr : ∀ l, d.m l ^ 2 ≤ (d.mM - d.mV) ^ 2) :
    (∃ p : ℝ → ℝ, (∀ c, |c| ≤ 1 → dbrCl nint d a c = .ok (p c) ∧ 0 ≤ p c) ∧ (∀ c, 1 < |c| → dbrCl nint d a c = .error .valueError) ∧
      (∀ x y, brBinCl nint d a x y = ∫ c in x..y, p c)) ∧
    (∃ p : ℝ → ℝ, (∀ c, |c| ≤ 1 → dbrCV nint d a c = .ok (p c) ∧ 0 ≤ p c) ∧ (∀ c, 1 < |c| → dbrCV nint d a c = .error .valueError) ∧
      (∀ x y, brBinCV nint d a x y = ∫ c in x..y, p c)) ∧
    ((∀ p, 0 ≤ dbrPhi nint d a p) ∧ ∀ x y, brBinPhi nint d a x y = ∫ p in x..y, dbrPhi nint d a p) ∧
    (∀ x y z, brBinCl nint d a x z = brBinCl nint d a x y + brBinCl nint d a y z ∧
      brBinCV nint d a x z = brBinCV nint d a x y + brBinCV nint d a y z ∧
      brBinPhi nint d a x z = brBinPhi nint d a x y + brBinPhi nint d a y z) ∧
    (∀ x y, -1 ≤ x → x ≤ y → y ≤ 1 → 0 ≤ brBinCl nint d a x y ∧ 0 ≤ brBinCV nint d a x y) ∧
    (∀ x y, x ≤ y → 0 ≤ brBinPhi nint d a x y) ∧
    (brBinCl nint d a (-1) 1 = brTotV nint d .all a ∧ brBinCV nint d a (-1) 1 = brTotV nint d .all a ∧
      ∀ x, brBinPhi nint d a x (x + 2 * Real.pi) = brTotV nint d .all a) := by
  obtain ⟨J, hJ⟩ := exists_int nint hx d hv a hc hr
  have hpos : ∀ F, Lin F → (∀ J, (∀ tK tl ph, 0 ≤ rateV J tK tl ph) → 0 ≤ F J) → 0 ≤ F J := by
    intro F hF hp
    rw [← hJ F hF, angObs_eq nint hx d hv a hc hF hr]
    exact integral_nonneg fun q => dA_nonneg d hv ht F hp a q
  have e1 : ∀ x y, brBinCl nint d a x y = clInt J x y := fun x y => hJ _ (lin_clI x y)
  have e2 : ∀ x y, brBinCV nint d a x y = cVInt J x y := fun x y => hJ _ (lin_cVI x y)
  have e3 : ∀ x y, brBinPhi nint d a x y = phiInt J x y := fun x y => hJ _ (lin_phiI x y)
  have p1 : ∀ c, |c| ≤ 1 → 0 ≤ clDiff J c := fun c h => hpos _ (lin_cl c) fun J hJ => (one_angle_nonneg J hJ).1 c h
  have p2 : ∀ c, |c| ≤ 1 → 0 ≤ cVDiff J c := fun c h => hpos _ (lin_cV c) fun J hJ => (one_angle_nonneg J hJ).2.1 c h
  have p3 : ∀ c, 0 ≤ phiDiff J c := fun c => hpos _ (lin_phi c) fun J hJ => (one_angle_nonneg J hJ).2.2 c
  have d3 : ∀ p, dbrPhi nint d a p = phiDiff J p := fun p => hJ _ (lin_phi p)
  have nb : ∀ c : ℝ, |c| ≤ 1 → ¬ 1 - c ^ 2 < 0 := by
    intro c h; rw [not_lt, sub_nonneg]; exact (sq_le_one_iff_abs_le_one c).2 h
  have nb' : ∀ c : ℝ, 1 < |c| → 1 - c ^ 2 < 0 := by
    intro c h; rw [sub_neg]; exact (one_lt_sq_iff_one_lt_abs c).2 h
  refine ⟨⟨clDiff J, fun c h => ⟨?_, p1 c h⟩, fun c h => ?_, fun x y => by rw [e1, clInt_eq]⟩,
    ⟨cVDiff J, fun c h => ⟨?_, p2 c h⟩, fun c h => ?_, fun x y => by rw [e2, cVInt_eq]⟩,
    ⟨fun p => by rw [d3]; exact p3 p, fun x y => ?_⟩, fun x y z => ?_, fun x y h1 h2 h3 => ?_, fun x y h => ?_, ?_, ?_, fun x => ?_⟩
  · unfold dbrCl; rw [if_neg (nb c h)]; exact congrArg _ (hJ _ (lin_cl c))
  · unfold dbrCl; rw [if_pos (nb' c h)]
  · unfold dbrCV; rw [if_neg (nb c h)]; exact congrArg _ (hJ _ (lin_cV c))
  · unfold dbrCV; rw [if_pos (nb' c h)]
  · rw [e3, phiInt_eq]; exact intervalIntegral.integral_congr fun p _ => (d3 p).symm
  · rw [e1, e1, e1, e2, e2, e2, e3, e3, e3]
    refine ⟨?_, ?_, ?_⟩
    · unfold clInt; ring
    · unfold cVInt; ring
    · unfold phiInt; ring
  · rw [e1, e2, clInt_eq, cVInt_eq]
    have ha : ∀ c ∈ Icc x y, |c| ≤ 1 := fun c hc => abs_le.2 ⟨h1.trans hc.1, hc.2.trans h3⟩
    exact ⟨intervalIntegral.integral_nonneg h2 fun c hc => p1 c (ha c hc), intervalIntegral.integral_nonneg h2 fun c hc => p2 c (ha c hc)⟩
  · rw [e3, phiInt_eq]; exact intervalIntegral.integral_nonneg h fun c _ => p3 c
  · rw [e1, brTotV_ang, hJ _ (lin_pol .all)]; exact (full_range J 0).1
  · rw [e2, brTotV_ang, hJ _ (lin_pol .all)]; exact (full_range J 0).2.1
  · rw [e3, brTotV_ang, hJ _ (lin_pol .all)]; exact (full_range J x).2.2

theorem afb_bound (J : JV) (p : ∀ c, |c| ≤ 1 → 0 ≤ clDiff J c) : |3 / 8 * (2 * J.j6s + J.j6c)| ≤ dGdq2 J := by
  have a := p 1 (by simp)
  have b := p (-1) (by simp)
  have c := p (1 / 2) (by rw [abs_of_pos] <;> norm_num)
  have e := p (-1 / 2) (by rw [abs_of_neg] <;> norm_num)
  have f := p 0 (by simp)
  simp only [clDiff, dGcl] at a b c e f
  unfold dGdq2
  rw [abs_le]
  constructor <;> linarith

theorem i3_bound (J : JV) (p : ∀ c, 0 ≤ phiDiff J c) : |J.j3| ≤ dGdq2 J := by
  have hpi := Real.pi_pos
  have a := p 0
  have b := p (Real.pi / 2)
  simp only [phiDiff, dGphi, mul_zero, Real.cos_zero, Real.sin_zero, mul_div_cancel₀ Real.pi (two_ne_zero' ℝ), Real.cos_pi, Real.sin_pi] at a b
  have e : ∀ x : ℝ, 0 ≤ x → 0 ≤ 2 * Real.pi * x := fun x hx => mul_nonneg (by positivity) hx
  have a' := e _ a
  have b' := e _ b
  have n : ∀ u v w : ℝ, 2 * Real.pi * (1 / (8 * Real.pi) * u * 1 + 1 / (2 * Real.pi) * v * w + 0) = u / 4 + v * w := by
    intro u v w; field_simp; ring
  simp only [n] at a' b'
  unfold dGdq2
  rw [abs_le]
  constructor <;> linarith

/-- **C103 (asymmetries)** With an exact integrator and continuous form factors, if there are any decays: the forward-backward asymmetry is the
difference of the branching ratios into the two hemispheres of the lepton angle over the total one, and lies between -1 and 1; `I3` lies
between -1 and 1 and is the modulation of the distribution in the angle of the two planes; `FLt` lies between -2 and 1.  For the lepton
`'l'` they raise `KeyError`, and without decays `ZeroDivisionError`. -/
theorem C103_asymmetries (nint : Nint) (hx : Exact nint) (d : VInp) (hv : d.Valid) (ht : 0 < d.tau) (l : Fin 3) (hc : d.Cont l)
    (hr : ∀ l, d.m l ^ 2 ≤ (d.mM - d.mV) ^ 2) :
    (brTotV nint d .all (.one l) ≠ 0 →
      (∃ r, afbTot nint d (.one l) = .ok r ∧ |r| ≤ 1 ∧
        r * brTotV nint d .all (.one l) = brBinCl nint d (.one l) 0 1 - brBinCl nint d (.one l) (-1) 0) ∧
      (∃ r, i3Tot nint d (.one l) = .ok r ∧ |r| ≤ 1 ∧
        r * brTotV nint d .all (.one l) = Real.pi * (dbrPhi nint d (.one l) 0 - dbrPhi nint d (.one l) (Real.pi / 2))) ∧
      (∃ r, fltTot nint d (.one l) = .ok r ∧ -2 ≤ r ∧ r ≤ 1)) ∧
    (brTotV nint d .all (.one l) = 0 → afbTot nint d (.one l) = .error .zeroDivisionError ∧
      i3Tot nint d (.one l) = .error .zeroDivisionError ∧ fltTot nint d (.one l) = .error .zeroDivisionError) ∧
    afbTot nint d .l = .error .keyError ∧ i3Tot nint d .l = .error .keyError ∧ fltTot nint d .l = .error .keyError := by
  obtain ⟨J, hJ, hp, hA⟩ := exists_raw nint hx d hv l hc hr
  have hn : 0 < d.norm := by unfold VInp.norm; split_ifs <;> linarith
  have hN : brTotV nint d .all (.one l) = d.norm * dGdq2 J := by rw [brTotV_ang]; exact hA _ lin_dG
  have la : Lin fun J => 3 / 8 * (2 * J.j6s + J.j6c) := ⟨![0, 0, 0, 0, 3 / 4, 3 / 8, 0, 0], fun J => by simp; ring⟩
  have li : Lin fun J => J.j3 := lin_coord.2.2.2.2.2.2.1
  have lf : Lin fun J => -J.j2c := ⟨![0, 0, 0, -1, 0, 0, 0, 0], fun J => by simp⟩
  have ea : afbTot nint d (.one l) = pyDiv (3 / 8 * (2 * J.j6s + J.j6c)) (dGdq2 J) := by
    show pyDiv (q2int nint d _ l) (q2int nint d _ l) = _
    rw [hJ _ la, hJ _ lin_dG]
  have ei : i3Tot nint d (.one l) = pyDiv J.j3 (dGdq2 J) := by
    show pyDiv (q2int nint d _ l) (q2int nint d _ l) = _
    rw [hJ _ li, hJ _ lin_dG]
  have ef : fltTot nint d (.one l) = pyDiv (-J.j2c) (dGdq2 J) := by
    show pyDiv (q2int nint d _ l) (q2int nint d _ l) = _
    rw [hJ _ lf, hJ _ lin_dG]
  have p1 : ∀ c, |c| ≤ 1 → 0 ≤ clDiff J c := fun c h => hp _ (lin_cl c) fun J hJ => (one_angle_nonneg J hJ).1 c h
  have p3 : ∀ c, 0 ≤ phiDiff J c := fun c => hp _ (lin_phi c) fun J hJ => (one_angle_nonneg J hJ).2.2 c
  have pT := hp _ lin_dGT fun J hJ => (pol_nonneg J hJ).2
  have q1 := hp (fun J => J.j1c + J.j2c) ⟨![0, 1, 0, 1, 0, 0, 0, 0], fun J => by simp⟩ fun J hJ => by
    have a := hJ 0 0 0
    have b := hJ 0 Real.pi 0
    simp [rateV] at a b
    show 0 ≤ J.j1c + J.j2c
    linarith
  have q2 := hp (fun J => J.j1c - J.j2c) ⟨![0, 1, 0, -1, 0, 0, 0, 0], fun J => by simp; ring⟩ fun J hJ => by
    have a := hJ 0 (Real.pi / 2) 0
    simp [rateV, mul_div_cancel₀ Real.pi (two_ne_zero' ℝ)] at a
    show 0 ≤ J.j1c - J.j2c
    linarith
  refine ⟨fun h0 => ?_, fun h0 => ?_, rfl, rfl, rfl⟩
  · have hG : dGdq2 J ≠ 0 := fun h => h0 (by rw [hN, h, mul_zero])
    have ba := afb_bound J p1
    have bi := i3_bound J p3
    have hG' : 0 < dGdq2 J := lt_of_le_of_ne ((abs_nonneg _).trans ba) (Ne.symm hG)
    refine ⟨⟨_, by rw [ea, pyDiv, if_neg hG], ?_, ?_⟩, ⟨_, by rw [ei, pyDiv, if_neg hG], ?_, ?_⟩, ⟨_, by rw [ef, pyDiv, if_neg hG], ?_, ?_⟩⟩
    · rw [abs_div, abs_of_pos hG', div_le_one hG']; exact ba
    · unfold brBinCl
      rw [hN, hA _ (lin_clI 0 1), hA _ (lin_clI (-1) 0), ← mul_sub, mul_left_comm, div_mul_cancel₀ _ hG]
      simp only [clInt, dGcl]; ring
    · rw [abs_div, abs_of_pos hG', div_le_one hG']; exact bi
    · unfold dbrPhi
      rw [hN, hA _ (lin_phi 0), hA _ (lin_phi (Real.pi / 2)), ← mul_sub, mul_left_comm, div_mul_cancel₀ _ hG, mul_left_comm]
      congr 1
      have hpi := Real.pi_ne_zero
      simp only [phiDiff, dGphi, mul_zero, Real.cos_zero, Real.sin_zero, mul_div_cancel₀ Real.pi (two_ne_zero' ℝ), Real.cos_pi, Real.sin_pi]
      field_simp
      ring
    · rw [le_div_iff₀ hG']
      unfold dGdq2 at *; unfold dGT at pT
      linarith
    · rw [div_le_one hG']
      unfold dGdq2 at *; unfold dGT at pT
      linarith
  · have hG : dGdq2 J = 0 := by
      rw [hN] at h0
      exact (mul_eq_zero.1 h0).resolve_left hn.ne'
    rw [ea, ei, ef, hG]
    simp [pyDiv]

/-! ## Concrete case -/

/-- A concrete input. -/
noncomputable def sampleV : VInp :=
  ⟨5, 2, 1, false, 4, 1, 1, 1, fun _ => ⟨1, 1, 1, 1, 1, 1, 1⟩, fun l => if l = 2 then 3 / 2 else 1 / 10, 1, fun _ _ => ⟨0, 0, 0, 0, 0⟩⟩

example : sampleV.Valid ∧ sampleV.ContA .l ∧ 0 < sampleV.tau ∧ ∀ l, sampleV.m l ^ 2 ≤ (sampleV.mM - sampleV.mV) ^ 2 := by
  refine ⟨⟨by norm_num [sampleV], by norm_num [sampleV], by norm_num [sampleV], ?_⟩, ⟨⟨?_, ?_, ?_, ?_, ?_, ?_, ?_⟩, ?_, ?_, ?_, ?_, ?_, ?_, ?_⟩, by norm_num [sampleV], ?_⟩
  · intro l; unfold sampleV; simp only; split_ifs <;> norm_num
  all_goals first
    | exact continuousOn_const
    | (intro l; unfold sampleV; simp only; split_ifs <;> norm_num)

end Verif.Semilep.Vec
