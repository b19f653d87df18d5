import Verif.Physics.Bvll.Vgamma
import Verif.Physics.Bvll.AssemblyTheorems
import Verif.Physics.Kdecays.KllTheorems
set_option linter.unusedVariables false
set_option linter.unusedSimpArgs false
namespace Verif.Vgamma
open Verif.Py Verif.Running Verif.Bll Verif.Common Complex

local notation "conj" => starRingEnd ℂ

/-- **Specification.** The real normalisation of the amplitudes. -/
noncomputable def N0 (d : Inp) : ℝ :=
  Real.sqrt (d.h.GF ^ 2 * d.alpha * d.h.mB ^ 3 * d.mb ^ 2 / (32 * Real.pi ^ 4) * (1 - d.h.mM ^ 2 / d.h.mB ^ 2) ^ 3)

/-- **Specification.** Physical inputs: the decay is allowed (also at q² = 0.001), couplings and quark mass do not vanish. -/
structure Phys (d : Inp) : Prop where
  hB : 0 < d.h.mB
  hV : 0 ≤ d.h.mM
  hVB : d.h.mM ≤ d.h.mB
  ha : 0 ≤ d.alpha
  hG : d.h.GF ≠ 0
  hal : d.h.alpha ≠ 0
  hx : d.h.xit ≠ 0
  hmb : d.mb ≠ 0
  hla : 0 < lambdaK (d.h.mB ^ 2) (d.h.mM ^ 2) 0.001

theorem pref_ok {d : Inp} (p : Phys d) (x : ℂ) : prefactor d x = .ok ((N0 d : ℂ) * x) := by
  have hB : d.h.mB ^ 2 ≠ 0 := pow_ne_zero _ p.hB.ne'
  have h1 : d.h.mM ^ 2 / d.h.mB ^ 2 ≤ 1 := by
    rw [div_le_one (by positivity)]; exact pow_le_pow_left₀ p.hV p.hVB 2
  have hs : ¬ (d.h.GF ^ 2 * d.alpha * d.h.mB ^ 3 * d.mb ^ 2 / (32 * Real.pi ^ 4) * (1 - d.h.mM ^ 2 / d.h.mB ^ 2) ^ 3 < 0) := by
    rw [not_lt]
    have a := p.hB; have b := p.ha
    have : 0 ≤ 1 - d.h.mM ^ 2 / d.h.mB ^ 2 := by linarith
    have c := Real.pi_pos
    positivity
  simp only [prefactor, Mixing.pyDiv_ne hB, pySqrt, if_neg hs, Bind.bind, Except.bind, pure, Except.pure, N0]

/-- The factor that converts a vector amplitude of `B → V ll` at q² = 0.001; it contains no CKM factor.
(Specification.) -/
noncomputable def conv (d : Inp) : ℂ :=
  (N0 d : ℂ) / (2 * I * ((d.mb / 0.001 : ℝ) : ℂ) * (Real.sqrt (lambdaK (d.h.mB ^ 2) (d.h.mM ^ 2) 0.001) : ℂ)
    * ((4 * d.h.GF / Real.sqrt 2 * d.h.alpha / (4 * Real.pi) : ℝ) : ℂ))

theorem prefH_ok {d : Inp} (p : Phys d) : prefactorH d 0.001 = .ok (conv d) := by
  have hs : ¬ (lambdaK (d.h.mB ^ 2) (d.h.mM ^ 2) 0.001 < 0) := not_lt.mpr p.hla.le
  simp only [prefactorH, pref_ok p, pySqrt, if_neg hs, Bind.bind, Except.bind, pure, Except.pure]
  congr 1
  simp only [Bvll.prefactor, conv]
  have hx := p.hx
  have h1 : (Real.sqrt 2 : ℂ) ≠ 0 := by exact_mod_cast (Real.sqrt_pos.mpr (by norm_num : (0:ℝ) < 2)).ne'
  have h2 : (Real.sqrt (lambdaK (d.h.mB ^ 2) (d.h.mM ^ 2) 0.001) : ℂ) ≠ 0 := by exact_mod_cast (Real.sqrt_pos.mpr p.hla).ne'
  have h3 : (d.h.GF : ℂ) ≠ 0 := by exact_mod_cast p.hG
  have h4 : (d.h.alpha : ℂ) ≠ 0 := by exact_mod_cast p.hal
  have h5 : (d.mb : ℂ) ≠ 0 := by exact_mod_cast p.hmb
  have h6 : (Real.pi : ℂ) ≠ 0 := by exact_mod_cast Real.pi_ne_zero
  generalize (Real.sqrt (lambdaK (d.h.mB ^ 2) (d.h.mM ^ 2) 0.001)) = sl at *
  generalize N0 d = n at *
  push_cast
  have hI := Complex.I_ne_zero
  field_simp

/-- **Specification.** The size of the subleading correction relative to `N0 ξ_t`. -/
noncomputable def subFF (d : Inp) : ℝ :=
  d.h.mb / d.mb * (((d.h.ffV 0.001).T1 + (d.h.ffV 0.001).T2 * (d.h.mB ^ 2 - d.h.mM ^ 2) / Real.sqrt (lambdaK (d.h.mB ^ 2) (d.h.mM ^ 2) 0.001)) / 2)

theorem sub_ok {d : Inp} (p : Phys d) {B V : String} (hr : (B, V) ∈ Bvll.subRegistered) (cp : Bool) :
    ampsSub d B V cp = .ok ⟨(N0 d : ℂ) * d.h.xit * Bvll.deltaLin d.h.par (B ++ "->" ++ V ++ " deltaC7 a_-") (B ++ "->" ++ V ++ " deltaC7 b_-") 0.001 * (subFF d : ℂ),
      (N0 d : ℂ) * d.h.xit * Bvll.deltaLin d.h.par (B ++ "->" ++ V ++ " deltaC7p a_+") (B ++ "->" ++ V ++ " deltaC7p b_+") 0.001 * (subFF d : ℂ)⟩ := by
  simp only [ampsSub, if_pos hr, prefH_ok p, Bind.bind, Except.bind, pure, Except.pure, Bvll.c7poly, Bvll.poly_eq]
  obtain ⟨x, hx⟩ : ∃ x, x = Bvll.deltaLin d.h.par (B ++ "->" ++ V ++ " deltaC7 a_-") (B ++ "->" ++ V ++ " deltaC7 b_-") 0.001 := ⟨_, rfl⟩
  obtain ⟨y, hy⟩ : ∃ y, y = Bvll.deltaLin d.h.par (B ++ "->" ++ V ++ " deltaC7p a_+") (B ++ "->" ++ V ++ " deltaC7p b_+") 0.001 := ⟨_, rfl⟩
  rw [← hx, ← hy]
  have h1 : (Real.sqrt 2 : ℂ) ≠ 0 := by exact_mod_cast (Real.sqrt_pos.mpr (by norm_num : (0:ℝ) < 2)).ne'
  have h2 : (Real.sqrt (lambdaK (d.h.mB ^ 2) (d.h.mM ^ 2) 0.001) : ℂ) ≠ 0 := by exact_mod_cast (Real.sqrt_pos.mpr p.hla).ne'
  have h3 : (d.h.GF : ℂ) ≠ 0 := by exact_mod_cast p.hG
  have h4 : (d.h.alpha : ℂ) ≠ 0 := by exact_mod_cast p.hal
  have h5 : (d.mb : ℂ) ≠ 0 := by exact_mod_cast p.hmb
  have h6 : (Real.pi : ℂ) ≠ 0 := by exact_mod_cast Real.pi_ne_zero
  have hI := Complex.I_ne_zero
  have n7 : ("7p" : String) ≠ "7" := by decide
  congr 2
  · simp only [Bvll.haDeltaC, Angular.helicityV, Angular.AmpV.scale, Angular.helV1, Bvll.wcOnly, Bvll.wcZero, if_true, Angular.transAmp, Angular.dipAmp, conv, Bvll.prefactor, subFF]
    generalize (Real.sqrt (lambdaK (d.h.mB ^ 2) (d.h.mM ^ 2) 0.001)) = sl at *
    generalize N0 d = n at *
    push_cast
    field_simp
    ring
  · simp only [Bvll.haDeltaC, Angular.helicityV, Angular.AmpV.scale, Angular.helV1, Bvll.wcOnly, Bvll.wcZero, if_true, if_neg n7, Angular.transAmp, Angular.dipAmp, conv, Bvll.prefactor, subFF]
    generalize (Real.sqrt (lambdaK (d.h.mB ^ 2) (d.h.mM ^ 2) 0.001)) = sl at *
    generalize N0 d = n at *
    push_cast
    field_simp
    ring

theorem ss_ok {d : Inp} (p : Phys d) {B V : String} (hr : (B, V) ∈ Bvll.subRegistered) (cp : Bool) :
    ampsSS d B V cp = .ok ⟨-conv d * (d.h.ss cp 0.001).2.2, conv d * (d.h.ss cp 0.001).2.1⟩ := by
  simp only [ampsSS, if_pos (Bvll.sub_ss hr).1, prefH_ok p, Bind.bind, Except.bind, pure, Except.pure]

/-- **Specification.** The two amplitudes of `B → V γ`: effective `C7` (`C7'`) shifted by the subleading corrections, plus
spectator scattering; `xi` is the CKM factor of the factorisable part. -/
noncomputable def ampL (d : Inp) (B V : String) (cp : Bool) (xi : ℂ) : ℂ :=
  (N0 d : ℂ) * (xi * (d.C7 cp + d.dC7 cp) * (d.T1 : ℂ)
    + d.h.xit * Bvll.deltaLin d.h.par (B ++ "->" ++ V ++ " deltaC7 a_-") (B ++ "->" ++ V ++ " deltaC7 b_-") 0.001 * (subFF d : ℂ))
  - conv d * (d.h.ss cp 0.001).2.2
/-- **Specification.** See `ampL`. -/
noncomputable def ampR (d : Inp) (B V : String) (cp : Bool) (xi : ℂ) : ℂ :=
  (N0 d : ℂ) * (xi * d.C7p cp * (d.T1 : ℂ)
    + d.h.xit * Bvll.deltaLin d.h.par (B ++ "->" ++ V ++ " deltaC7p a_+") (B ++ "->" ++ V ++ " deltaC7p b_+") 0.001 * (subFF d : ℂ))
  + conv d * (d.h.ss cp 0.001).2.1

/-- The amplitudes, for all physical inputs: left-handed from `C7`, right-handed from `C7'`; in the CP-conjugate mode the
chiralities are exchanged.  The CKM factor of the factorisable part is conjugated there, that of the subleading correction
is not (FINDING, as in `C124_cp_ignored`). -/
theorem C125_amplitudes {d : Inp} (p : Phys d) {B V : String} (hr : (B, V) ∈ Bvll.subRegistered) :
    getAAbar d B V = .ok (⟨ampL d B V false d.h.xit, ampR d B V false d.h.xit⟩, ⟨ampR d B V true (conj d.h.xit), ampL d B V true (conj d.h.xit)⟩) := by
  have A : ∀ cp, ampsSum d B V cp = .ok ⟨ampL d B V cp (if cp then conj d.h.xit else d.h.xit), ampR d B V cp (if cp then conj d.h.xit else d.h.xit)⟩ := by
    intro cp
    simp only [ampsSum, ampsFF, pref_ok p, ss_ok p hr, sub_ok p hr, Bind.bind, Except.bind, pure, Except.pure]
    congr 2
    · simp only [ampL]; ring
    · simp only [ampR]; ring
  simp only [getAAbar, A, Bind.bind, Except.bind, pure, Except.pure, if_true, Bool.false_eq_true, if_false]

/-- Spectator scattering and subleading corrections enter with a conversion factor that does not depend on the CKM matrix. -/
theorem C125_conversion {d : Inp} (p : Phys d) (y : ℂ) (hy : y ≠ 0) :
    prefactorH { d with h := { d.h with xit := y } } 0.001 = prefactorH d 0.001 := by
  rw [prefH_ok (d := { d with h := { d.h with xit := y } }) ⟨p.hB, p.hV, p.hVB, p.ha, p.hG, p.hal, hy, p.hmb, p.hla⟩, prefH_ok p]; rfl

theorem gam_nonneg (a : Amp) : 0 ≤ gam a := by unfold gam; positivity

theorem cs (a b : Amp) : ‖a.L * conj b.L + a.R * conj b.R‖ ^ 2 ≤ gam a * gam b := by
  have h : ‖a.L * conj b.L + a.R * conj b.R‖ ≤ ‖a.L‖ * ‖b.L‖ + ‖a.R‖ * ‖b.R‖ := by
    refine (norm_add_le _ _).trans ?_
    rw [norm_mul, norm_mul, Complex.norm_conj, Complex.norm_conj]
  have h2 := pow_le_pow_left₀ (norm_nonneg _) h 2
  refine h2.trans ?_
  unfold gam
  nlinarith [sq_nonneg (‖a.L‖ * ‖b.R‖ - ‖a.R‖ * ‖b.L‖)]

/-- Whatever the amplitudes: the direct asymmetry lies in [-1, 1] and
`S² + A_ΔΓ² ≤ |q/p|² (1 - A_CP²)`, so that `S² + A_ΔΓ² + A_CP² ≤ 1` when `|q/p| = 1`. -/
theorem C125_asymmetries (d : Inp) (B V : String) (a b : Amp) (h : getAAbar d B V = .ok (a, b)) (hne : gam a + gam b ≠ 0) :
    ∃ C S A, acp d B V = .ok C ∧ sObs d B V = .ok S ∧ aDG d B V = .ok A ∧ |C| ≤ 1 ∧ S ^ 2 + A ^ 2 ≤ ‖d.qp‖ ^ 2 * (1 - C ^ 2)
      ∧ (‖d.qp‖ = 1 → S ^ 2 + A ^ 2 + C ^ 2 ≤ 1) := by
  refine ⟨_, _, _, by simp only [acp, h, Bind.bind, Except.bind, pure, Except.pure]; rfl,
    by simp only [sObs, sA, h, Bind.bind, Except.bind, pure, Except.pure]; rfl,
    by simp only [aDG, sA, h, Bind.bind, Except.bind, pure, Except.pure]; rfl, ?_⟩
  have ga := gam_nonneg a
  have gb := gam_nonneg b
  have pos : 0 < gam a + gam b := lt_of_le_of_ne (by linarith) (Ne.symm hne)
  have hC : |(gam a - gam b) / (gam a + gam b)| ≤ 1 := by
    rw [abs_div, abs_of_pos pos, div_le_one pos, abs_le]; constructor <;> linarith
  obtain ⟨z, hz⟩ : ∃ z, z = -d.qp * (a.L * conj b.L + a.R * conj b.R) / ((gamAve a b : ℝ) : ℂ) := ⟨_, rfl⟩
  rw [← hz]
  have e : z.im ^ 2 + z.re ^ 2 = ‖z‖ ^ 2 := by
    rw [← Complex.normSq_eq_norm_sq, Complex.normSq_apply]; ring
  have ave : 0 < gamAve a b := by unfold gamAve; linarith
  have hn : ‖z‖ ^ 2 = ‖d.qp‖ ^ 2 * (‖a.L * conj b.L + a.R * conj b.R‖ ^ 2 / (gamAve a b) ^ 2) := by
    rw [hz, norm_div, norm_mul, norm_neg, Complex.norm_real, Real.norm_eq_abs, abs_of_pos ave]
    rw [div_pow, mul_pow, mul_div_assoc]
  have bd : ‖z‖ ^ 2 ≤ ‖d.qp‖ ^ 2 * (1 - ((gam a - gam b) / (gam a + gam b)) ^ 2) := by
    rw [hn]
    refine mul_le_mul_of_nonneg_left ?_ (sq_nonneg _)
    have e2 : 1 - ((gam a - gam b) / (gam a + gam b)) ^ 2 = (gam a * gam b) / (gamAve a b) ^ 2 := by
      unfold gamAve; field_simp; ring
    rw [e2]
    exact div_le_div_of_nonneg_right (cs a b) (sq_nonneg _)
  refine ⟨hC, by rw [e]; exact bd, fun hq => ?_⟩
  rw [e]; rw [hq] at bd; linarith

/-- The branching ratio is `τ/2` times the sum of the four squared moduli, not negative; the time-integrated one is
`(1 - A_ΔΓ y)/(1 - y²)` times it, not negative for `|y| < 1`, `|q/p| ≤ 1`, and equal to it for `y = 0`. -/
theorem C125_branching_ratio (d : Inp) (B V : String) (a b : Amp) (h : getAAbar d B V = .ok (a, b)) (ht : 0 ≤ d.tau) :
    ∃ x A, br d B V = .ok x ∧ x = d.tau / 2 * (‖a.L‖ ^ 2 + ‖a.R‖ ^ 2 + ‖b.L‖ ^ 2 + ‖b.R‖ ^ 2) ∧ 0 ≤ x ∧ aDG d B V = .ok A
      ∧ brTimeint d B V = .ok ((1 - A * (d.dGG / 2)) / (1 - (d.dGG / 2) ^ 2) * x)
      ∧ (d.dGG = 0 → brTimeint d B V = .ok x)
      ∧ (gam a + gam b ≠ 0 → |d.dGG / 2| < 1 → ‖d.qp‖ ≤ 1 → 0 ≤ (1 - A * (d.dGG / 2)) / (1 - (d.dGG / 2) ^ 2) * x) := by
  have hA : aDG d B V = .ok (-d.qp * (a.L * conj b.L + a.R * conj b.R) / ((gamAve a b : ℝ) : ℂ)).re := by
    simp only [aDG, sA, h, Bind.bind, Except.bind, pure, Except.pure]
  have hb : br d B V = .ok (d.tau * gamAve a b) := by simp only [br, h, Bind.bind, Except.bind, pure, Except.pure]
  have hx : d.tau * gamAve a b = d.tau / 2 * (‖a.L‖ ^ 2 + ‖a.R‖ ^ 2 + ‖b.L‖ ^ 2 + ‖b.R‖ ^ 2) := by
    unfold gamAve gam; ring
  have h0 : 0 ≤ d.tau * gamAve a b := by rw [hx]; positivity
  have hti := by
    have : brTimeint d B V = .ok ((1 - (-d.qp * (a.L * conj b.L + a.R * conj b.R) / ((gamAve a b : ℝ) : ℂ)).re * (d.dGG / 2)) / (1 - (d.dGG / 2) ^ 2) * (d.tau * gamAve a b)) := by
      simp only [brTimeint, hA, hb, Bind.bind, Except.bind, pure, Except.pure]
    exact this
  refine ⟨_, _, hb, hx, h0, hA, hti, ?_, ?_⟩
  · intro hy; rw [hti, hy]; simp
  · intro hne hy hq
    obtain ⟨C, S, A, h1, h2, h3, h4, h5, h6⟩ := C125_asymmetries d B V a b h hne
    rw [hA] at h3; injection h3 with h3
    rw [h3]
    have hA1 : |A| ≤ 1 := by
      rw [← sq_le_one_iff_abs_le_one]
      have : ‖d.qp‖ ^ 2 ≤ 1 := by rw [sq_le_one_iff_abs_le_one, abs_norm]; exact hq
      have c := sq_nonneg C
      nlinarith [sq_nonneg S, sq_nonneg ‖d.qp‖, mul_nonneg (sq_nonneg ‖d.qp‖) c]
    have hAy : |A * (d.dGG / 2)| ≤ 1 := by
      rw [abs_mul]; calc |A| * |d.dGG / 2| ≤ 1 * 1 := mul_le_mul hA1 hy.le (abs_nonneg _) zero_le_one
        _ = 1 := one_mul 1
    have := (abs_le.mp hAy).2
    have hyy : (d.dGG / 2) ^ 2 < 1 := by rw [sq_lt_one_iff_abs_lt_one]; exact hy
    exact mul_nonneg (div_nonneg (by linarith) (by linarith)) h0

/-- Without right-handed contributions (in `C7'`, spectator scattering and subleading corrections) the mixing-induced
asymmetry and `A_ΔΓ` vanish. -/
theorem C125_no_right_handed {d : Inp} (p : Phys d) {B V : String} (hr : (B, V) ∈ Bvll.subRegistered)
    (h7 : ∀ cp, d.C7p cp = 0) (hs : ∀ cp, (d.h.ss cp 0.001).2.1 = 0)
    (ht : ∀ n ∈ ["a_+ Re", "b_+ Re", "a_+ Im", "b_+ Im"], d.h.par (B ++ "->" ++ V ++ " deltaC7p " ++ n) = 0) :
    sObs d B V = .ok 0 ∧ aDG d B V = .ok 0 := by
  simp only [List.forall_mem_cons, List.not_mem_nil, false_implies, implies_true, and_true] at ht
  obtain ⟨t1, t2, t3, t4⟩ := ht
  have hd : Bvll.deltaLin d.h.par (B ++ "->" ++ V ++ " deltaC7p a_+") (B ++ "->" ++ V ++ " deltaC7p b_+") 0.001 = 0 := by
    have e : ∀ s t : String, B ++ "->" ++ V ++ s ++ t = B ++ "->" ++ V ++ (s ++ t) := fun s t => String.append_assoc
    simp only [e, String.reduceAppend] at t1 t2 t3 t4
    apply Complex.ext <;> simp only [Bvll.deltaLin, e, String.reduceAppend, t1, t2, t3, t4] <;> simp
  have hR : ∀ cp x, ampR d B V cp x = 0 := by
    intro cp x; simp only [ampR, h7, hs, hd]; ring
  have h := C125_amplitudes p hr
  simp only [hR] at h
  constructor
  · simp only [sObs, sA, h, Bind.bind, Except.bind, pure, Except.pure]; congr 1; simp
  · simp only [aDG, sA, h, Bind.bind, Except.bind, pure, Except.pure]; congr 1; simp

/-- The direct asymmetry needs a strong phase: with the factorisable amplitudes only, and coefficients that are conjugated in
the CP-conjugate mode, it vanishes for all weak phases. -/
theorem C125_needs_strong_phase {d : Inp} (p : Phys d) {B V : String} (hr : (B, V) ∈ Bvll.subRegistered)
    (h7 : d.C7 true = conj (d.C7 false)) (h7p : d.C7p true = conj (d.C7p false)) (hd : d.dC7 true = conj (d.dC7 false))
    (hs : ∀ cp, (d.h.ss cp 0.001) = (0, 0, 0)) (hp : ∀ n, d.h.par n = 0) : acp d B V = .ok 0 := by
  have h := C125_amplitudes p hr
  have z : ∀ a b, Bvll.deltaLin d.h.par a b 0.001 = 0 := by
    intro a b; apply Complex.ext <;> simp [Bvll.deltaLin, hp]
  have e1 : ampL d B V true (conj d.h.xit) = conj (ampL d B V false d.h.xit) := by
    simp only [ampL, z, hs, h7, hd, map_add, map_sub, map_mul, Complex.conj_ofReal, map_zero, mul_zero, zero_mul, sub_zero, add_zero]
  have e2 : ampR d B V true (conj d.h.xit) = conj (ampR d B V false d.h.xit) := by
    simp only [ampR, z, hs, h7p, map_add, map_mul, Complex.conj_ofReal, map_zero, mul_zero, zero_mul, add_zero]
  rw [e1, e2] at h
  simp only [acp, h, Bind.bind, Except.bind, pure, Except.pure, gam, Complex.norm_conj]
  congr 1
  rw [add_comm (‖ampR d B V false d.h.xit‖ ^ 2), sub_self, zero_div]

/-- CP-conserving inputs (real CKM factor, the same coefficients and amplitudes in both modes): no direct asymmetry, and the
mixing-induced ones are those of the interference of the two chiralities, `-(q/p) 2 Re(a_L a_R*)/(|a_L|²+|a_R|²)`. -/
theorem C125_cp_conserving {d : Inp} (p : Phys d) {B V : String} (hr : (B, V) ∈ Bvll.subRegistered)
    (hx : conj d.h.xit = d.h.xit) (h7 : d.C7 true = d.C7 false) (h7p : d.C7p true = d.C7p false) (hd : d.dC7 true = d.dC7 false)
    (hs : d.h.ss true 0.001 = d.h.ss false 0.001) :
    acp d B V = .ok 0
    ∧ ∃ a b, getAAbar d B V = .ok (a, b) ∧ sA d B V = .ok (-d.qp * ((2 * (a.L * conj a.R).re / (‖a.L‖ ^ 2 + ‖a.R‖ ^ 2) : ℝ) : ℂ)) := by
  have h := C125_amplitudes p hr
  have e1 : ampL d B V true (conj d.h.xit) = ampL d B V false d.h.xit := by simp only [ampL, hx, h7, hd, hs]
  have e2 : ampR d B V true (conj d.h.xit) = ampR d B V false d.h.xit := by simp only [ampR, hx, h7p, hs]
  rw [e1, e2] at h
  generalize ampL d B V false d.h.xit = l at h
  generalize ampR d B V false d.h.xit = r at h
  constructor
  · simp only [acp, h, Bind.bind, Except.bind, pure, Except.pure, gam]
    congr 1
    rw [add_comm (‖r‖ ^ 2), sub_self, zero_div]
  · refine ⟨_, _, h, ?_⟩
    simp only [sA, h, Bind.bind, Except.bind, pure, Except.pure]
    congr 1
    have e : l * conj r + r * conj l = ((2 * (l * conj r).re : ℝ) : ℂ) := by
      apply Complex.ext <;> simp <;> ring
    have g : gamAve ⟨l, r⟩ ⟨r, l⟩ = ‖l‖ ^ 2 + ‖r‖ ^ 2 := by simp only [gamAve, gam]; ring
    rw [e, g]; push_cast; ring

/-- (FINDING) the same spurious asymmetry as in `C124_spurious_asymmetry`: with a real `C7`, a real correction and no spectator
scattering, the rates of the two modes differ by `4 x y (Im ξ_t)²` although there is no strong phase. -/
theorem C125_spurious_asymmetry {d : Inp} (p : Phys d) {B V : String} (hr : (B, V) ∈ Bvll.subRegistered) (c δ : ℝ)
    (h7 : ∀ cp, d.C7 cp = (c : ℂ)) (h7p : ∀ cp, d.C7p cp = 0) (hd : ∀ cp, d.dC7 cp = 0) (hs : ∀ cp, d.h.ss cp 0.001 = (0, 0, 0))
    (h1 : Bvll.deltaLin d.h.par (B ++ "->" ++ V ++ " deltaC7 a_-") (B ++ "->" ++ V ++ " deltaC7 b_-") 0.001 = (δ : ℂ))
    (h2 : Bvll.deltaLin d.h.par (B ++ "->" ++ V ++ " deltaC7p a_+") (B ++ "->" ++ V ++ " deltaC7p b_+") 0.001 = 0) :
    ∃ a b, getAAbar d B V = .ok (a, b) ∧ gam a - gam b = 4 * (N0 d * d.T1 * c) * (N0 d * subFF d * δ) * d.h.xit.im ^ 2 := by
  refine ⟨_, _, C125_amplitudes p hr, ?_⟩
  have hR : ∀ cp x, ampR d B V cp x = 0 := by intro cp x; simp only [ampR, h7p, hs, h2]; ring
  have hL : ∀ cp x, ampL d B V cp x = ((N0 d * d.T1 * c : ℝ) : ℂ) * x + ((N0 d * subFF d * δ : ℝ) : ℂ) * d.h.xit := by
    intro cp x; simp only [ampL, h7, hd, hs, h1]; push_cast; ring
  simp only [gam, hR, hL, norm_zero]
  generalize N0 d * d.T1 * c = u
  generalize N0 d * subFF d * δ = v
  rw [← Complex.normSq_eq_norm_sq, ← Complex.normSq_eq_norm_sq, Complex.normSq_apply, Complex.normSq_apply]
  simp only [Complex.add_re, Complex.add_im, Complex.re_ofReal_mul, Complex.im_ofReal_mul, Complex.conj_re, Complex.conj_im]
  ring

/-- A kinematically forbidden decay is not a zero rate: every observable raises `ValueError`. -/
theorem C125_forbidden (d : Inp) (B V : String) (hB : 0 < d.h.mB) (h : d.h.mB < d.h.mM) (ha : 0 < d.alpha) (hG : d.h.GF ≠ 0) (hmb : d.mb ≠ 0) :
    br d B V = .error .valueError ∧ acp d B V = .error .valueError ∧ sObs d B V = .error .valueError ∧ aDG d B V = .error .valueError
      ∧ brTimeint d B V = .error .valueError := by
  have hB2 : d.h.mB ^ 2 ≠ 0 := pow_ne_zero _ hB.ne'
  have h1 : 1 - d.h.mM ^ 2 / d.h.mB ^ 2 < 0 := by
    rw [sub_neg, one_lt_div (by positivity)]; exact pow_lt_pow_left₀ h hB.le (by norm_num)
  have hs : d.h.GF ^ 2 * d.alpha * d.h.mB ^ 3 * d.mb ^ 2 / (32 * Real.pi ^ 4) * (1 - d.h.mM ^ 2 / d.h.mB ^ 2) ^ 3 < 0 := by
    have := Real.pi_pos
    refine mul_neg_of_pos_of_neg (by positivity) ?_
    exact Odd.pow_neg (by decide) h1
  have hp : ∀ x, prefactor d x = .error .valueError := by
    intro x
    simp only [prefactor, Mixing.pyDiv_ne hB2, pySqrt, if_pos hs, Bind.bind, Except.bind]
  have g : getAAbar d B V = .error .valueError := by
    simp only [getAAbar, ampsSum, ampsFF, hp, Bind.bind, Except.bind]
  refine ⟨?_, ?_, ?_, ?_, ?_⟩ <;> simp only [br, acp, sObs, sA, aDG, brTimeint, g, Bind.bind, Except.bind]

/-- The registered observables: distinct names; the rate of `Bs` is the time-integrated one, and the ratio is the quotient of
the two registered rates. -/
theorem C125_registry (d : String → Inp) :
    (registry d).map (·.1) = ["BR(B+->K*gamma)", "BR(B0->K*gamma)", "ACP(B+->K*gamma)", "ACP(B0->K*gamma)", "ACP(Bs->phigamma)",
      "BR(Bs->phigamma)", "BR(B0->K*gamma)/BR(Bs->phigamma)", "ADeltaGamma(Bs->phigamma)", "S_K*gamma", "S_phigamma"]
    ∧ ((registry d).map (·.1)).Nodup
    ∧ (∀ x y, (registry d).lookup "BR(B0->K*gamma)" = some (.ok x) → (registry d).lookup "BR(Bs->phigamma)" = some (.ok y) →
        (registry d).lookup "BR(B0->K*gamma)/BR(Bs->phigamma)" = some (.ok (x / y)))
    ∧ (registry d).lookup "BR(Bs->phigamma)" = some (brTimeint (d "Bs") "Bs" "phi")
    ∧ (registry d).lookup "S_K*gamma" = some (sObs (d "B0") "B0" "K*0") ∧ (registry d).lookup "S_phigamma" = some (sObs (d "Bs") "Bs" "phi")
    ∧ (registry d).lookup "BR(B+->K*gamma)" = some (br (d "B+") "B+" "K*+") ∧ (registry d).lookup "ACP(Bs->phigamma)" = some (acp (d "Bs") "Bs" "phi")
    ∧ (registry d).lookup "ADeltaGamma(Bs->phigamma)" = some (aDG (d "Bs") "Bs" "phi") := by
  refine ⟨rfl, ?_, ?_, rfl, rfl, rfl, rfl, rfl, rfl⟩
  · show ["BR(B+->K*gamma)", "BR(B0->K*gamma)", "ACP(B+->K*gamma)", "ACP(B0->K*gamma)", "ACP(Bs->phigamma)",
      "BR(Bs->phigamma)", "BR(B0->K*gamma)/BR(Bs->phigamma)", "ADeltaGamma(Bs->phigamma)", "S_K*gamma", "S_phigamma"].Nodup
    decide
  · intro x y hx hy
    have hx' : br (d "B0") "B0" "K*0" = .ok x := Option.some.inj hx
    have hy' : brTimeint (d "Bs") "Bs" "phi" = .ok y := Option.some.inj hy
    show some (ratio (d "B0") (d "Bs")) = _
    simp only [ratio, hx', hy', Bind.bind, Except.bind, pure, Except.pure]

/-- Physical inputs exist. -/
example (h : Bvll.Inp) (ff : ℝ → Angular.FFV) :
    Phys ⟨{ h with GF := 1, alpha := 1, xit := I, mB := 5, mM := 1, mb := 4, ffV := ff }, 1, 4, 1, fun _ => 1, fun _ => 0, fun _ => 0, 1, 1, 0⟩ where
  hB := by norm_num
  hV := by norm_num
  hVB := by norm_num
  ha := by norm_num
  hG := by norm_num
  hal := by norm_num
  hx := Complex.I_ne_zero
  hmb := by norm_num
  hla := by simp only [lambdaK, kallen]; norm_num

end Verif.Vgamma
