import Verif.Physics.Bvll.Lfv
set_option linter.unusedVariables false
set_option linter.unusedSimpArgs false
namespace Verif.BvllLfv
open Verif.Py Verif.Angular Complex MeasureTheory

/-- **Specification.** The differential rate with the full (never vanishing by hand) normalisation. -/
noncomputable def rate (d : Inp) (s : String) (q2 : ℝ) : ℝ :=
  dGdq2 (angularV (helicityV q2 d.mB d.mV d.mb 0 d.m1 d.m2 (d.ff q2) (wceff d.mb d.wc s)
    ((4 * d.GF / Real.sqrt 2 * d.alpha / (4 * Real.pi) : ℝ) * d.xit)) q2 d.mB d.mV d.m1 d.m2)

theorem obs_eq (d : Inp) (s : String) (q2 : ℝ) (h1 : (d.m1 + d.m2) ^ 2 < q2) (h2 : q2 ≤ (d.mB - d.mV) ^ 2) : obs d s q2 = rate d s q2 := by
  have h : ¬(q2 < (d.m1 + d.m2) ^ 2 ∨ q2 > (d.mB - d.mV) ^ 2) := by push Not; exact ⟨h1.le, h2⟩
  unfold obs rate amps prefactor
  rw [if_neg h, if_neg (not_le.mpr h1)]
  congr 3
  push_cast; ring

theorem dG_scale (x : ℝ) (J : JV) : dGdq2 (J.scale x) = x * dGdq2 J := by simp only [dGdq2, JV.scale]; ring

/-- With an exact integrator the branching ratio is the lifetime times the rate integrated from threshold to the endpoint;
a decay whose threshold lies above the endpoint has branching ratio 0; with all coefficients below 1e-12 in modulus the
result is exactly 0 whatever the integrator. -/
theorem C126_total (nint : Nint) (d : Inp) (s : String) :
    ((∀ k ∈ d.keys, ‖d.wc k‖ < 1e-12) → brTot nint d s = 0)
    ∧ (Exact nint → (d.m1 + d.m2) ^ 2 ≤ (d.mB - d.mV) ^ 2 → (∃ k ∈ d.keys, 1e-12 ≤ ‖d.wc k‖) →
        IntervalIntegrable (rate d s) volume ((d.m1 + d.m2) ^ 2) ((d.mB - d.mV) ^ 2) →
        brTot nint d s = d.tau * ∫ q in ((d.m1 + d.m2) ^ 2)..((d.mB - d.mV) ^ 2), rate d s q)
    ∧ (Exact nint → (d.mB - d.mV) ^ 2 < (d.m1 + d.m2) ^ 2 → brTot nint d s = 0) := by
  refine ⟨fun h => if_pos h, ?_, ?_⟩
  · intro hx hle ⟨k, hk, hw⟩ hi
    have hn : ¬ ∀ k ∈ d.keys, ‖d.wc k‖ < 1e-12 := fun h => absurd (h k hk) (not_lt.mpr hw)
    unfold brTot
    rw [if_neg hn]
    have hc : Set.EqOn (obs d s) (rate d s) (Set.Ioc ((d.m1 + d.m2) ^ 2) ((d.mB - d.mV) ^ 2)) := fun q hq => obs_eq d s q hq.1 hq.2
    have hi2 : IntervalIntegrable (obs d s) volume ((d.m1 + d.m2) ^ 2) ((d.mB - d.mV) ^ 2) := by
      refine hi.congr_ae ?_
      rw [Set.uIoc_of_le hle]
      exact (ae_restrict_of_forall_mem measurableSet_Ioc fun q hq => (hc hq).symm)
    rw [hx _ _ _ _ hi2, intervalIntegral.integral_of_le hle, intervalIntegral.integral_of_le hle,
      setIntegral_congr_fun measurableSet_Ioc hc]
  · intro hx hlt
    unfold brTot
    split_ifs with h
    · rfl
    · have z : obs d s = fun _ => 0 := by
        funext q
        unfold obs
        by_cases h1 : q < (d.m1 + d.m2) ^ 2
        · rw [if_pos (Or.inl h1)]
        · rw [if_pos (Or.inr (lt_of_lt_of_le hlt (not_lt.mp h1)))]
      rw [z, hx _ _ _ _ (by simp)]
      simp

/-- The differential rate and the branching ratio are never negative. -/
theorem C126_nonneg (nint : Nint) (hx : Exact nint) (d : Inp) (s : String) (hB : 0 < d.mB) (h1 : 0 < d.m1) (h2 : 0 ≤ d.m2) (ht : 0 ≤ d.tau)
    (hi : IntervalIntegrable (rate d s) volume ((d.m1 + d.m2) ^ 2) ((d.mB - d.mV) ^ 2)) :
    (∀ q2, 0 ≤ obs d s q2) ∧ 0 ≤ brTot nint d s := by
  have R : ∀ q2, (d.m1 + d.m2) ^ 2 ≤ q2 → 0 ≤ rate d s q2 := by
    intro q2 hq
    have hpos : 0 < q2 := lt_of_lt_of_le (by positivity) hq
    exact (C81_rate_nonneg _ ⟨0,0,0,0,0,0,0,0,0,0,0,0,0,0⟩ q2 d.mB d.mV d.m1 d.m2 0 ⟨hB, h1.le, h2, hpos, hq⟩ le_rfl).1
  have O : ∀ q2, 0 ≤ obs d s q2 := by
    intro q2
    unfold obs
    split_ifs with h
    · exact le_rfl
    · push Not at h
      have hpos : 0 < q2 := lt_of_lt_of_le (by positivity) h.1
      exact (C81_rate_nonneg _ ⟨0,0,0,0,0,0,0,0,0,0,0,0,0,0⟩ q2 d.mB d.mV d.m1 d.m2 0 ⟨hB, h1.le, h2, hpos, h.1⟩ le_rfl).1
  refine ⟨O, ?_⟩
  obtain ⟨t1, t2, t3⟩ := C126_total nint d s
  by_cases hz : ∀ k ∈ d.keys, ‖d.wc k‖ < 1e-12
  · rw [t1 hz]
  · push Not at hz
    rcases le_or_gt ((d.m1 + d.m2) ^ 2) ((d.mB - d.mV) ^ 2) with hle | hlt
    · rw [t2 hx hle hz hi]
      exact mul_nonneg ht (intervalIntegral.integral_nonneg hle fun q hq => R q hq.1)
    · rw [t3 hx hlt]

/-- The rate is proportional to `G_F² α² |ξ_t|²`: no dependence on the phase of the CKM factor. -/
theorem C126_normalisation (d : Inp) (s : String) (q2 : ℝ) :
    rate d s q2 = (4 * d.GF / Real.sqrt 2 * d.alpha / (4 * Real.pi)) ^ 2 * ‖d.xit‖ ^ 2 * rate { d with GF := Real.sqrt 2 / 4, alpha := 4 * Real.pi, xit := 1 } s q2 := by
  have e : ∀ N : ℂ, helicityV q2 d.mB d.mV d.mb 0 d.m1 d.m2 (d.ff q2) (wceff d.mb d.wc s) N = (helV1 q2 d.mB d.mV d.mb 0 d.m1 d.m2 (d.ff q2) (wceff d.mb d.wc s)).scale N := fun _ => rfl
  have h1 : (4 * (Real.sqrt 2 / 4) / Real.sqrt 2 * (4 * Real.pi) / (4 * Real.pi) : ℝ) = 1 := by
    have := Real.pi_ne_zero
    have : Real.sqrt 2 ≠ 0 := by positivity
    field_simp
  simp only [rate, e, angularV_scale, dG_scale, h1]
  rw [norm_mul, mul_pow, Complex.norm_real, Real.norm_eq_abs, sq_abs]
  simp

theorem dG_g000 (H : AmpV) (q2 mB mV m1 m2 : ℝ) :
    dGdq2 (angularV H q2 mB mV m1 m2) = 6 * (phaseSpace (2 ^ 9 * Real.pi ^ 3) q2 mB mV m1 m2 * g000 H (laGa q2 m1 m2) (energy q2 m1 m2 m1) (energy q2 m1 m2 m2) m1 m2 q2) := by
  simp only [angularV, gbasisV, gbasisV0, GV.scale, gToG, signflip, dGdq2]
  ring

/-- Exchanging the two leptons: the rate is the same when `C9` and `C9'` change sign, all other coefficients being equal. -/
theorem C126_lepton_exchange (d : Inp) (s s' : String) (wc' : String → ℂ) (q2 : ℝ)
    (h9 : wc' ("C9_" ++ s') = -d.wc ("C9_" ++ s)) (h9p : wc' ("C9p_" ++ s') = -d.wc ("C9p_" ++ s))
    (h10 : wc' ("C10_" ++ s') = d.wc ("C10_" ++ s)) (h10p : wc' ("C10p_" ++ s') = d.wc ("C10p_" ++ s))
    (hS : wc' ("CS_" ++ s') = d.wc ("CS_" ++ s)) (hSp : wc' ("CSp_" ++ s') = d.wc ("CSp_" ++ s))
    (hP : wc' ("CP_" ++ s') = d.wc ("CP_" ++ s)) (hPp : wc' ("CPp_" ++ s') = d.wc ("CPp_" ++ s)) :
    rate { d with m1 := d.m2, m2 := d.m1, wc := wc' } s' q2 = rate d s q2 := by
  have hla : laGa q2 d.m2 d.m1 = laGa q2 d.m1 d.m2 := by
    simp only [laGa, Verif.Common.lambdaK, Verif.Common.kallen]; ring_nf
  have he : ∀ m, energy q2 d.m2 d.m1 m = energy q2 d.m1 d.m2 m := by intro m; simp only [energy, hla]
  have hps : phaseSpace (2 ^ 9 * Real.pi ^ 3) q2 d.mB d.mV d.m2 d.m1 = phaseSpace (2 ^ 9 * Real.pi ^ 3) q2 d.mB d.mV d.m1 d.m2 := by
    simp only [phaseSpace, hla]
  simp only [rate]
  rw [dG_g000, dG_g000, hps, hla, he, he]
  congr 2
  obtain ⟨N, hN⟩ : ∃ N : ℂ, N = ((4 * d.GF / Real.sqrt 2 * d.alpha / (4 * Real.pi) : ℝ) : ℂ) * d.xit := ⟨_, rfl⟩
  rw [← hN]
  have w : wceff d.mb wc' s' = { wceff d.mb d.wc s with v := -(wceff d.mb d.wc s).v, vp := -(wceff d.mb d.wc s).vp } := by
    simp only [wceff, h9, h9p, h10, h10p, hS, hSp, hP, hPp]
  rw [w]
  have W : (wceff d.mb d.wc s).c7 = 0 ∧ (wceff d.mb d.wc s).c7p = 0 ∧ (wceff d.mb d.wc s).t = 0 ∧ (wceff d.mb d.wc s).tp = 0 := ⟨rfl, rfl, rfl, rfl⟩
  obtain ⟨W1, W2, W3, W4⟩ := W
  generalize wceff d.mb d.wc s = c at *
  have a1 : (helicityV q2 d.mB d.mV d.mb 0 d.m2 d.m1 (d.ff q2) { c with v := -c.v, vp := -c.vp } N)
      = { helicityV q2 d.mB d.mV d.mb 0 d.m1 d.m2 (d.ff q2) c N with
          plV := -(helicityV q2 d.mB d.mV d.mb 0 d.m1 d.m2 (d.ff q2) c N).plV
          miV := -(helicityV q2 d.mB d.mV d.mb 0 d.m1 d.m2 (d.ff q2) c N).miV
          zeV := -(helicityV q2 d.mB d.mV d.mb 0 d.m1 d.m2 (d.ff q2) c N).zeV } := by
    simp only [helicityV, AmpV.scale, helV1, transAmp, dipAmp, W1, W2, AmpV.mk.injEq]
    refine ⟨?_, ?_, ?_, trivial, trivial, trivial, trivial, trivial, trivial, trivial, trivial, trivial, ?_, ?_⟩
    · ring
    · ring
    · ring
    · push_cast; ring
    · push_cast; ring
  rw [a1]
  have t1 : (helicityV q2 d.mB d.mV d.mb 0 d.m1 d.m2 (d.ff q2) c N).plT = 0 := by simp [helicityV, AmpV.scale, helV1, tenAmp, W3, W4]
  have t2 : (helicityV q2 d.mB d.mV d.mb 0 d.m1 d.m2 (d.ff q2) c N).miT = 0 := by simp [helicityV, AmpV.scale, helV1, tenAmp, W3, W4]
  have t3 : (helicityV q2 d.mB d.mV d.mb 0 d.m1 d.m2 (d.ff q2) c N).zeT = 0 := by simp [helicityV, AmpV.scale, helV1, tenAmp, W3, W4]
  have t4 : (helicityV q2 d.mB d.mV d.mb 0 d.m1 d.m2 (d.ff q2) c N).plTt = 0 := by simp [helicityV, AmpV.scale, helV1, tenAmp, W3, W4]
  have t5 : (helicityV q2 d.mB d.mV d.mb 0 d.m1 d.m2 (d.ff q2) c N).miTt = 0 := by simp [helicityV, AmpV.scale, helV1, tenAmp, W3, W4]
  have t6 : (helicityV q2 d.mB d.mV d.mb 0 d.m1 d.m2 (d.ff q2) c N).zeTt = 0 := by simp [helicityV, AmpV.scale, helV1, tenAmp, W3, W4]
  generalize helicityV q2 d.mB d.mV d.mb 0 d.m1 d.m2 (d.ff q2) c N = H at *
  simp only [g000, t1, t2, t3, t4, t5, t6, norm_neg, norm_zero, map_zero, mul_zero, add_zero, Complex.zero_im]
  ring

/-- Thirty observables with distinct names, one for each of the five transitions and six ordered pairs of leptons; the rate
summed over charges exists as a function but is registered for no channel. -/
theorem C126_registry (nint : Nint) (d : String → String → String → String → Inp) :
    (registry nint d).map (·.1) = names ∧ names.Nodup ∧ names.length = 30
    ∧ (∀ l ∈ [("e", "mu"), ("mu", "e"), ("e", "tau"), ("tau", "e"), ("mu", "tau"), ("tau", "mu")],
        ∀ m ∈ [("B0->K*", "B0", "K*0", "bs"), ("B+->K*", "B+", "K*+", "bs"), ("B+->rho", "B+", "rho+", "bd"), ("B0->rho", "B0", "rho0", "bd"), ("Bs->phi", "Bs", "phi", "bs")],
          (registry nint d).lookup ("BR(" ++ m.1 ++ l.1 ++ l.2 ++ ")") = some (brTot nint (d m.2.1 m.2.2.1 l.1 l.2) (m.2.2.2 ++ l.1 ++ l.2))) := by
  refine ⟨rfl, by decide +kernel, by decide +kernel, ?_⟩
  simp only [List.forall_mem_cons, List.not_mem_nil, false_implies, implies_true, and_true]
  refine ⟨⟨rfl, rfl, rfl, rfl, rfl⟩, ⟨rfl, rfl, rfl, rfl, rfl⟩, ⟨rfl, rfl, rfl, rfl, rfl⟩, ⟨rfl, rfl, rfl, rfl, rfl⟩, ⟨rfl, rfl, rfl, rfl, rfl⟩, ⟨rfl, rfl, rfl, rfl, rfl⟩⟩

/-- A concrete non-trivial case: the hypotheses of positivity are met and the rate is not identically zero by fiat. -/
example (ff : ℝ → FFV) : (∃ k ∈ ["C9_bsemu"], (1e-12 : ℝ) ≤ ‖(fun _ => (1 : ℂ)) k‖) ∧ ((0.1 : ℝ) + 0.2) ^ 2 ≤ (5 - 1) ^ 2 :=
  ⟨⟨_, List.mem_singleton.mpr rfl, by norm_num⟩, by norm_num⟩

end Verif.BvllLfv
