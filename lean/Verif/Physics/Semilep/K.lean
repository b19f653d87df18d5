import Verif.Physics.Semilep.PTheorems
import Verif.Physics.Mixing.Box
/-!
# C102: `K → π ℓ ν` (`flavio/physics/kdecays/kpilnu.py`, `flavio/physics/kdecays/formfactors.py`)
-/
set_option linter.unusedVariables false
set_option linter.unusedSimpArgs false
namespace Verif.Semilep.Kaon
open Verif.Py Verif.Common Verif.Angular Verif.Running Verif.Semilep Verif.Mixing Complex ComplexConjugate MeasureTheory Set

/-- The parameters of the form factors.  /repo/flavio/physics/kdecays/formfactors.py:8-22,42-46. -/
structure FFPar where
  mKL : ℝ
  mpi : ℝ
  fp0 : ℝ
  lnC : ℝ
  Lp : ℝ
  D : ℝ
  d : ℝ
  k : ℝ
  H1 : ℝ
  H2 : ℝ
  fT0 : ℝ
  sT : ℝ

/-- `G`.  /repo/flavio/physics/kdecays/formfactors.py:25-26. -/
noncomputable def ffG (p : FFPar) (q2 : ℝ) : ℝ :=
  let x := q2 / (p.mKL - p.mpi) ^ 2
  x * p.D + (1 - x) * p.d + x * (1 - x) * p.k

/-- `ff_dispersive_pole` (`fp0_dispersive` and `fT_pole`; zero denominators are not modelled).
/repo/flavio/physics/kdecays/formfactors.py:8-56. -/
noncomputable def ffDisp (p : FFPar) (q2 : ℝ) : FFP :=
  let x := q2 / (p.mKL - p.mpi) ^ 2
  let H := p.H1 * x + p.H2 * x ^ 2
  ⟨p.fp0 * Real.exp (q2 / p.mpi ^ 2 * (p.Lp + H)), p.fp0 * Real.exp (q2 / (p.mKL ^ 2 - p.mpi ^ 2) * (p.lnC - ffG p q2)),
    p.fT0 / (1 - p.sT * q2)⟩

/-- The kaons.  /repo/flavio/physics/kdecays/kpilnu.py:11-15. -/
inductive K where
  | KL
  | KS
  | Kp
deriving DecidableEq

/-- `get_ff`: all form factors of the `K+` are multiplied by `1 + K->pi delta_K+pi0`.
/repo/flavio/physics/kdecays/kpilnu.py:8-15. -/
noncomputable def getFF (ff : ℝ → FFP) (delta : ℝ) (k : K) (q2 : ℝ) : FFP :=
  match k with
  | .KL => ff q2
  | .KS => ff q2
  | .Kp => ⟨(delta + 1) * (ff q2).fp, (delta + 1) * (ff q2).f0, (delta + 1) * (ff q2).fT⟩

/-- What a prediction reads: the common inputs (`Inp`: masses, life time, `m_s` at the scale, `G_F`, `V_us`, the form factors of
the neutral kaon, lepton masses, `sqrt(1.0232)`, Wilson coefficients), the isospin correction and the electromagnetic corrections
of `K+` and `K0`.  `d.pi0` says whether the pion is neutral.
/repo/flavio/physics/kdecays/kpilnu.py:26-41,47-64. -/
structure KInp where
  d : Inp
  k : K
  delta : ℝ
  emP : Fin 3 → ℝ
  em0 : Fin 3 → ℝ

/-- `_get_angularcoeff`: the light quark mass is 0, every neutrino flavour is computed.
/repo/flavio/physics/kdecays/kpilnu.py:26-41. -/
noncomputable def jOneK (e : KInp) (l : Fin 3) (q2 : ℝ) (n : Fin 3) : JP :=
  let N : ℂ := ((4 * e.d.GF / Real.sqrt 2 : ℝ) : ℂ) * e.d.V
  angularP (helicityP q2 e.d.mM e.d.mP e.d.mq 0 (e.d.m l) 0 (getFF e.d.ff e.delta e.k q2) (wcEff (cSM e.d l n) (e.d.wc l n)) N)
    q2 e.d.mM e.d.mP (e.d.m l) 0

/-- `get_angularcoeff`.  /repo/flavio/physics/kdecays/kpilnu.py:17-24. -/
noncomputable def jSumK (e : KInp) (l : Fin 3) (q2 : ℝ) : JP :=
  ⟨∑ n, (jOneK e l q2 n).a, ∑ n, (jOneK e l q2 n).b, ∑ n, (jOneK e l q2 n).c⟩

/-- `dBRdq2`.  /repo/flavio/physics/kdecays/kpilnu.py:47-64. -/
noncomputable def dbrK (e : KInp) (l : Fin 3) (q2 : ℝ) : ℝ :=
  if q2 < e.d.m l ^ 2 ∨ (e.d.mM - e.d.mP) ^ 2 < q2 then 0
  else
    let G := dGdq2P (jSumK e l q2)
    if e.d.pi0 then e.d.tau * G / 2
    else
      let em := match e.k with
        | .Kp => e.emP l
        | .KL => e.em0 l
        | .KS => e.em0 l
      e.d.tau * G * (1 + em) ^ 2

/-- `BR_binned`.  /repo/flavio/physics/kdecays/kpilnu.py:66-69. -/
noncomputable def brBinnedK (nint : Nint) (e : KInp) (l : Fin 3) (q2min q2max : ℝ) : ℝ := nint (dbrK e l) q2min q2max (5 / 1000)

/-- `BR_tot`: the lepton `'l'` (which has no mass parameter) raises `KeyError`.
/repo/flavio/physics/kdecays/kpilnu.py:71-80. -/
noncomputable def brTotK (nint : Nint) (e : KInp) (a : LArg) : Except PyErr ℝ :=
  match a with
  | .l => .error .keyError
  | .one l => .ok (brBinnedK nint e l (e.d.m l ^ 2) ((e.d.mM - e.d.mP) ^ 2))

/-- `logC`; `d.mM`, `d.mP` are the masses of `KL` and `pi+`.  /repo/flavio/physics/kdecays/kpilnu.py:83-97. -/
noncomputable def logC (d : Inp) (a : LArg) : Except PyErr ℝ :=
  match a with
  | .l => .error .keyError
  | .one l => do
    let q2 := d.mM ^ 2 - d.mP ^ 2
    let ff := d.ff q2
    let ff0 := d.ff 0
    let w := wcEff (cSM d l l) (d.wc l l)
    let A ← pyDiv (d.m l) q2
    let A := A * (w.a + w.ap).re
    let r ← pyDiv ff.f0 ff0.f0
    let p ← pyDiv (w.p + w.pp).re d.mq
    let C ← pyDiv (r * (p + A)) A
    pyLog C

/-- `RT`.  /repo/flavio/physics/kdecays/kpilnu.py:100-108. -/
noncomputable def rT (d : Inp) (l : Fin 3) : Except PyErr ℝ := do
  let w := wcEff (cSM d l l) (d.wc l l)
  let ff := d.ff 0
  let BT ← pyDiv (ff.fT * 2 * d.mM) (d.mM + d.mP)
  let r ← pyDiv (-2 * BT) ff.fp
  .ok (r * w.tp.re)

/-! ## Specification -/

/-- The rate summed over neutrino flavours for the form factors of the neutral kaon (massless up quark).
(Specification.) -/
noncomputable def rateK (kT kI : ℝ) (d : Inp) (l : Fin 3) (q2 : ℝ) : ℝ := rateSum kT kI { d with mlight := 0 } l q2

/-- The factors that multiply the rate: life time; for `K+ → pi0` one half and the isospin correction squared; for `K0 → pi+`
the electromagnetic correction. (Specification.) -/
noncomputable def KInp.norm (e : KInp) (l : Fin 3) : ℝ :=
  match e.k, e.d.pi0 with
  | .Kp, true => e.d.tau / 2 * (1 + e.delta) ^ 2
  | .Kp, false => e.d.tau * (1 + e.delta) ^ 2 * (1 + e.emP l) ^ 2
  | _, true => e.d.tau / 2
  | _, false => e.d.tau * (1 + e.em0 l) ^ 2

/-- Physical masses (the strange quark is massive). (Specification.) -/
structure KInp.Valid (e : KInp) : Prop where
  hM : 0 < e.d.mM
  hP : 0 < e.d.mP
  hq : e.d.mq ≠ 0
  hm : ∀ l, 0 < e.d.m l

/-! ## Rate -/

theorem rateOf_ff (kT kI GF V2 mM mP mq ml m q2 c : ℝ) (ff : FFP) (X S T : ℂ) :
    rateOf kT kI GF V2 mM mP mq ml m q2 ⟨c * ff.fp, c * ff.f0, c * ff.fT⟩ X S T = c ^ 2 * rateOf kT kI GF V2 mM mP mq ml m q2 ff X S T := by
  unfold rateOf; simp only; ring

theorem getFF_rate (e : KInp) (kT kI GF V2 mM mP mq ml m q2 : ℝ) (X S T : ℂ) :
    rateOf kT kI GF V2 mM mP mq ml m q2 (getFF e.d.ff e.delta e.k q2) X S T =
      (if e.k = .Kp then (1 + e.delta) ^ 2 else 1) * rateOf kT kI GF V2 mM mP mq ml m q2 (e.d.ff q2) X S T := by
  cases hk : e.k
  · simp [getFF]
  · simp [getFF]
  · simp only [getFF, if_true]
    rw [rateOf_ff, add_comm e.delta]

theorem jOneK_rate (e : KInp) (hv : e.Valid) (l n : Fin 3) (q2 : ℝ) (h : e.d.m l ^ 2 ≤ q2) :
    dGdq2P (jOneK e l q2 n) = (if e.k = .Kp then (1 + e.delta) ^ 2 else 1) *
      rateOf 6 (6 + 3 * Real.sqrt 2) e.d.GF (‖e.d.V‖ ^ 2) e.d.mM e.d.mP e.d.mq 0 (e.d.m l) q2 (e.d.ff q2)
      ((if l = n then (e.d.csm : ℂ) else 0) + (e.d.wc l n).VL + (e.d.wc l n).VR) ((e.d.wc l n).SR + (e.d.wc l n).SL)
      (e.d.wc l n).T := by
  have hq : 0 < q2 := lt_of_lt_of_le (pow_pos (hv.hm l) 2) h
  rw [← getFF_rate]
  unfold jOneK
  simp only
  unfold helicityP
  have hN : ‖((4 * e.d.GF / Real.sqrt 2 : ℝ) : ℂ) * e.d.V‖ ^ 2 = 8 * (e.d.GF ^ 2 * ‖e.d.V‖ ^ 2) := by
    rw [norm_mul, mul_pow, Complex.norm_real, Real.norm_eq_abs, sq_abs, div_pow, Real.sq_sqrt (by norm_num)]
    ring
  rw [angularP_scale, hN]
  have key := rate_amp q2 e.d.mM e.d.mP e.d.mq 0 (e.d.m l) 1 (getFF e.d.ff e.delta e.k q2) (cSM e.d l n) (e.d.wc l n) (hv.hm l).le h hq
    hv.hM.ne' (add_pos hv.hM hv.hP).ne' (sub_ne_zero.2 hv.hq)
  simp only [ofReal_one, one_mul] at key
  rw [rateOf_scale]
  have e6 : (4 + 2 * (1 : ℝ) ^ 2) = 6 := by norm_num
  rw [e6, mul_one] at key
  unfold cSM at key ⊢
  rw [← key]
  simp only [JP.scale, dGdq2P]
  ring

theorem dGK_sum (e : KInp) (hv : e.Valid) (l : Fin 3) (q2 : ℝ) (h : e.d.m l ^ 2 ≤ q2) :
    dGdq2P (jSumK e l q2) = (if e.k = .Kp then (1 + e.delta) ^ 2 else 1) * rateK 6 (6 + 3 * Real.sqrt 2) e.d l q2 := by
  have : dGdq2P (jSumK e l q2) = ∑ n, dGdq2P (jOneK e l q2 n) := by
    unfold dGdq2P jSumK; simp only [Fin.sum_univ_three]; ring
  rw [this]
  unfold rateK rateSum
  rw [Finset.mul_sum]
  exact Finset.sum_congr rfl fun n _ => jOneK_rate e hv l n q2 h

theorem dbrK_indicator (e : KInp) (hv : e.Valid) (l : Fin 3) :
    dbrK e l = indicator (e.d.region l) fun q2 => e.norm l * rateK 6 (6 + 3 * Real.sqrt 2) e.d l q2 := by
  ext q
  unfold indicator Inp.region dbrK
  by_cases h : q ∈ Icc (e.d.m l ^ 2) ((e.d.mM - e.d.mP) ^ 2)
  · rw [if_pos h, if_neg (by rw [not_or, not_lt, not_lt]; exact ⟨h.1, h.2⟩)]
    simp only
    rw [dGK_sum e hv l q h.1]
    unfold KInp.norm
    cases hk : e.k <;> cases hp : e.d.pi0 <;> simp <;> ring
  · rw [if_neg h, if_pos]
    by_contra hc
    push Not at hc
    exact h ⟨hc.1, hc.2⟩

theorem rateK_noT (d : Inp) (l : Fin 3) (hT : ∀ n, (d.wc l n).T = 0) (kT kI q2 : ℝ) : rateK kT kI d l q2 = rateK 8 12 d l q2 := by
  unfold rateK rateSum rateOf
  simp only [hT]
  simp

/-- **C102 (rate, partial)** Without tensor coefficients `dBR/dq2` is the rate of the literature, summed over the neutrino
flavours, times the life time and the corrections: `(1 + δ)²/2` for `K+ → pi0`, `(1 + δ_EM)²` for `KL` and `KS`.  It vanishes
outside the allowed region. -/
theorem C102_rate_partial (e : KInp) (hv : e.Valid) (l : Fin 3) (hT : ∀ n, (e.d.wc l n).T = 0) (q2 : ℝ) :
    (q2 ∈ e.d.region l → e.k = .Kp → e.d.pi0 = true → dbrK e l q2 = e.d.tau / 2 * (1 + e.delta) ^ 2 * rateK 8 12 e.d l q2) ∧
    (q2 ∈ e.d.region l → e.k ≠ .Kp → e.d.pi0 = false → dbrK e l q2 = e.d.tau * (1 + e.em0 l) ^ 2 * rateK 8 12 e.d l q2) ∧
    (q2 ∉ e.d.region l → dbrK e l q2 = 0) := by
  refine ⟨fun h hk hp => ?_, fun h hk hp => ?_, fun h => ?_⟩
  · rw [dbrK_indicator e hv, indicator_of_mem h, rateK_noT e.d l hT]
    unfold KInp.norm; rw [hk, hp]
  · rw [dbrK_indicator e hv, indicator_of_mem h, rateK_noT e.d l hT]
    unfold KInp.norm; rw [hp]
    cases hk' : e.k
    · rfl
    · rfl
    · exact absurd hk' hk
  · rw [dbrK_indicator e hv, indicator_of_notMem h]

/-- **C102 (tensor)** With tensor coefficients the same holds with 6 and 6 + 3√2 in place of 8 and 12 (as for B and D). -/
theorem C102_tensor (e : KInp) (hv : e.Valid) (l : Fin 3) (q2 : ℝ) (h : q2 ∈ e.d.region l) :
    dbrK e l q2 = e.norm l * rateK 6 (6 + 3 * Real.sqrt 2) e.d l q2 := by
  rw [dbrK_indicator e hv, indicator_of_mem h]

/-- **C102 (electromagnetic correction)** For `K+ → pi0 ℓ ν` the parameters `K+e3 delta_EM` and `K+mu3 delta_EM` have no effect, at any
`q2`; for the neutral kaons the rate is proportional to `(1 + K0ℓ3 delta_EM)²`. -/
theorem C102_em (e : KInp) (l : Fin 3) (q2 : ℝ) (f : Fin 3 → ℝ) :
    (e.d.pi0 = true → dbrK { e with emP := f } l q2 = dbrK e l q2) ∧
    (e.k ≠ .Kp → e.d.pi0 = false →
      dbrK { e with em0 := f } l q2 * (1 + e.em0 l) ^ 2 = dbrK e l q2 * (1 + f l) ^ 2) := by
  have hj : ∀ g, jSumK { e with emP := g } l q2 = jSumK e l q2 := fun g => rfl
  have hj0 : ∀ g, jSumK { e with em0 := g } l q2 = jSumK e l q2 := fun g => rfl
  refine ⟨fun hp => ?_, fun hk hp => ?_⟩
  · unfold dbrK
    simp only [hp, if_true, hj]
  · unfold dbrK
    simp only [hp, hj0]
    split_ifs with h h2
    · simp
    · cases h2
    · cases hk' : e.k
      · simp only; ring
      · simp only; ring
      · exact absurd hk' hk

/-! ## Bins -/

theorem dbrK_nonneg (e : KInp) (hv : e.Valid) (ht : 0 ≤ e.d.tau) (l : Fin 3) (q2 : ℝ) : 0 ≤ dbrK e l q2 := by
  unfold dbrK
  by_cases h : q2 < e.d.m l ^ 2 ∨ (e.d.mM - e.d.mP) ^ 2 < q2
  · rw [if_pos h]
  · rw [if_neg h]
    rw [not_or, not_lt, not_lt] at h
    have hq : 0 < q2 := lt_of_lt_of_le (pow_pos (hv.hm l) 2) h.1
    have hG : 0 ≤ dGdq2P (jSumK e l q2) := by
      have : dGdq2P (jSumK e l q2) = ∑ n, dGdq2P (jOneK e l q2 n) := by
        unfold dGdq2P jSumK; simp only [Fin.sum_univ_three]; ring
      rw [this]
      refine Finset.sum_nonneg fun n _ => ?_
      exact (physical_ineq (fun x hx => C79_distribution_nonneg _ q2 e.d.mM e.d.mP (e.d.m l) 0 hv.hM (hv.hm l).le le_rfl hq
        (by simpa using h.1) x hx)).1
    simp only
    split_ifs
    · exact div_nonneg (mul_nonneg ht hG) (by norm_num)
    · exact mul_nonneg (mul_nonneg ht hG) (sq_nonneg _)

theorem dbrK_integrable (e : KInp) (hv : e.Valid) (l : Fin 3) (hc : e.d.Cont l) : Integrable (dbrK e l) volume := by
  rw [dbrK_indicator e hv, integrable_indicator_iff (show MeasurableSet (e.d.region l) from measurableSet_Icc)]
  exact ContinuousOn.integrableOn_compact isCompact_Icc
    ((rateSum_cont _ _ { e.d with mlight := 0 } ⟨hv.hM, hv.hP, hv.hq, hv.hm⟩ l hc).const_smul (e.norm l))

/-- **C102 (totals)** With an exact integrator the branching ratio is the integral of `dBR/dq2` over all `q2`, it is not negative, and
`BR(KL)/tau(KL) = BR(KS)/tau(KS)` for equal masses.  The three observables for an unspecified lepton always raise `KeyError`. -/
theorem C102_totals (nint : Nint) (hx : Exact nint) (e : KInp) (hv : e.Valid) (ht : 0 ≤ e.d.tau) (l : Fin 3) (hc : e.d.Cont l)
    (hr : e.d.m l ^ 2 ≤ (e.d.mM - e.d.mP) ^ 2) :
    brTotK nint e (.one l) = .ok (∫ q, dbrK e l q) ∧ 0 ≤ ∫ q, dbrK e l q ∧
    (∀ tau', e.k = .KL → ∀ r, brTotK nint e (.one l) = .ok r →
      ∃ r', brTotK nint { e with k := .KS, d := { e.d with tau := tau' } } (.one l) = .ok r' ∧ r' * e.d.tau = r * tau') ∧
    brTotK nint e .l = .error .keyError ∧ logC e.d .l = .error .keyError := by
  have tot : ∀ e' : KInp, e'.Valid → e'.d.Cont l → e'.d.m l ^ 2 ≤ (e'.d.mM - e'.d.mP) ^ 2 →
      brTotK nint e' (.one l) = .ok (∫ q, dbrK e' l q) := by
    intro e' hv' hc' hr'
    show Except.ok (brBinnedK nint e' l _ _) = _
    unfold brBinnedK
    rw [hx _ _ _ _ (dbrK_integrable e' hv' l hc').intervalIntegrable, intervalIntegral.integral_of_le hr',
      ← integral_Icc_eq_integral_Ioc]
    congr 1
    refine setIntegral_eq_integral_of_forall_compl_eq_zero fun q hq => ?_
    rw [dbrK_indicator e' hv']
    exact indicator_of_notMem hq _
  refine ⟨tot e hv hc hr, integral_nonneg (dbrK_nonneg e hv ht l), ?_, rfl, rfl⟩
  intro tau' hk r h
  set e' : KInp := { e with k := .KS, d := { e.d with tau := tau' } } with he'
  have hv' : e'.Valid := ⟨hv.hM, hv.hP, hv.hq, hv.hm⟩
  refine ⟨_, tot e' hv' hc hr, ?_⟩
  rw [tot e hv hc hr] at h
  cases h
  rw [← integral_mul_const, ← integral_mul_const]
  congr 1
  ext q
  rw [dbrK_indicator e hv, dbrK_indicator e' hv']
  unfold indicator
  have hreg : e'.d.region l = e.d.region l := rfl
  rw [hreg]
  split_ifs
  · have : rateK 6 (6 + 3 * Real.sqrt 2) e'.d l q = rateK 6 (6 + 3 * Real.sqrt 2) e.d l q := rfl
    show e'.norm l * rateK _ _ e'.d l q * e.d.tau = e.norm l * rateK _ _ e.d l q * tau'
    rw [this]
    unfold KInp.norm
    rw [hk]
    have hp : e'.d.pi0 = e.d.pi0 := rfl
    rw [hp]
    cases e.d.pi0
    · simp only [he']; ring
    · simp only [he']; ring
  · simp

/-! ## ln C and R_T -/

/-- **C102 (ln C)** For massive leptons and quarks and a Standard Model-like vector coupling: `lnC` is
`ln (f0(Δ)/f0(0)) + ln (1 + Δ/(m_ℓ m_s) · Re(C_SR + C_SL)/Re(C_V))`, with `Δ = m_K² - m_π²`; `ValueError` if the argument of the logarithm
is not positive, `ZeroDivisionError` without vector coupling. -/
theorem C102_lnC (d : Inp) (l : Fin 3) (hΔ : d.mM ^ 2 - d.mP ^ 2 ≠ 0) (hm : 0 < d.m l) (hq : d.mq ≠ 0) (h0 : (d.ff 0).f0 ≠ 0) :
    let Δ := d.mM ^ 2 - d.mP ^ 2
    let V := ((d.csm : ℂ) + (d.wc l l).VL + (d.wc l l).VR).re
    let S := ((d.wc l l).SR + (d.wc l l).SL).re
    let x := (d.ff Δ).f0 / (d.ff 0).f0 * (1 + Δ / (d.m l * d.mq) * (S / V))
    (V ≠ 0 → 0 < x → logC d (.one l) = .ok (Real.log x)) ∧
    (V ≠ 0 → x ≤ 0 → logC d (.one l) = .error .valueError) ∧
    (V = 0 → logC d (.one l) = .error .zeroDivisionError) ∧
    (d.wc l l = ⟨0, 0, 0, 0, 0⟩ → 0 < d.csm → 0 < (d.ff Δ).f0 / (d.ff 0).f0 →
      logC d (.one l) = .ok (Real.log ((d.ff Δ).f0 / (d.ff 0).f0))) := by
  intro Δ V S x
  have hA : ((wcEff (cSM d l l) (d.wc l l)).a + (wcEff (cSM d l l) (d.wc l l)).ap).re = -V / 2 := by
    simp only [wcEff, cSM, if_true, V]
    rw [show -((d.csm : ℂ) + (d.wc l l).VL) / 2 + -(d.wc l l).VR / 2 = ((-1 / 2 : ℝ) : ℂ) * ((d.csm : ℂ) + (d.wc l l).VL + (d.wc l l).VR) by
      push_cast; ring, re_ofReal_mul]
    ring
  have hS : ((wcEff (cSM d l l) (d.wc l l)).p + (wcEff (cSM d l l) (d.wc l l)).pp).re = -S / 2 := by
    simp only [wcEff, S]
    rw [show -(d.wc l l).SR / 2 + -(d.wc l l).SL / 2 = ((-1 / 2 : ℝ) : ℂ) * ((d.wc l l).SR + (d.wc l l).SL) by
      push_cast; ring, re_ofReal_mul]
    ring
  have gen : logC d (.one l) = (pyDiv ((d.ff Δ).f0 / (d.ff 0).f0 * (-S / 2 / d.mq + d.m l / Δ * (-V / 2))) (d.m l / Δ * (-V / 2)) >>= pyLog) := by
    unfold logC
    simp only
    rw [pyDiv_ne hΔ]
    show (pyDiv _ _ >>= _) = _
    rw [pyDiv_ne h0]
    show (pyDiv _ _ >>= _) = _
    rw [pyDiv_ne hq, hA, hS]
    rfl
  have nz : V ≠ 0 → d.m l / Δ * (-V / 2) ≠ 0 := by
    intro hV
    refine mul_ne_zero (div_ne_zero hm.ne' hΔ) (div_ne_zero (neg_ne_zero.2 hV) two_ne_zero)
  have val : V ≠ 0 → (d.ff Δ).f0 / (d.ff 0).f0 * (-S / 2 / d.mq + d.m l / Δ * (-V / 2)) / (d.m l / Δ * (-V / 2)) = x := by
    intro hV
    have h1 := hm.ne'
    have hΔ' : Δ ≠ 0 := hΔ
    simp only [x]
    clear_value V S Δ
    field_simp
    ring
  have main : V ≠ 0 → logC d (.one l) = pyLog x := by
    intro hV
    rw [gen, pyDiv_ne (nz hV), val hV]; rfl
  refine ⟨fun hV hx => ?_, fun hV hx => ?_, fun hV => ?_, fun hw hc hf => ?_⟩
  · rw [main hV, pyLog_pos hx]
  · rw [main hV, pyLog_neg hx]
  · rw [gen, hV]
    rw [neg_zero, zero_div, mul_zero, pyDiv_zero]
    rfl
  · have hV : V = d.csm := by simp [V, hw]
    have hS0 : S = 0 := by simp [S, hw]
    have hx : x = (d.ff Δ).f0 / (d.ff 0).f0 := by simp [x, hS0]
    rw [main (by rw [hV]; exact hc.ne'), hx, pyLog_pos hf]

/-- **C102 (form factors)** `f+(0) = f0(0)` is the parameter `K->pi f+(0)`; with the dispersive form factors the Standard Model prediction of
`lnC` is the parameter `K->pi ln(C)` up to the correction `G` at `Δ = m_K² - m_π²`. -/
theorem C102_formfactors (p : FFPar) (hf : 0 < p.fp0) :
    (ffDisp p 0).fp = p.fp0 ∧ (ffDisp p 0).f0 = p.fp0 ∧ (ffDisp p 0).fT = p.fT0 ∧
    (∀ q2, 0 < (ffDisp p q2).fp ∧ 0 < (ffDisp p q2).f0) ∧
    (∀ (d : Inp) (l : Fin 3), d.ff = ffDisp p → d.mM = p.mKL → d.mP = p.mpi → p.mKL ^ 2 - p.mpi ^ 2 ≠ 0 → 0 < d.m l → d.mq ≠ 0 →
      d.wc l l = ⟨0, 0, 0, 0, 0⟩ → 0 < d.csm → logC d (.one l) = .ok (p.lnC - ffG p (p.mKL ^ 2 - p.mpi ^ 2))) := by
  have e0 : (ffDisp p 0).f0 = p.fp0 := by simp [ffDisp]
  refine ⟨by simp [ffDisp], e0, by simp [ffDisp], fun q2 => ⟨mul_pos hf (Real.exp_pos _), mul_pos hf (Real.exp_pos _)⟩, ?_⟩
  intro d l hd hM hP hΔ hm hq hw hc
  have := (C102_lnC d l (by rw [hM, hP]; exact hΔ) hm hq (by rw [hd, e0]; exact hf.ne')).2.2.2 hw hc
  have hv : (d.ff (d.mM ^ 2 - d.mP ^ 2)).f0 / (d.ff 0).f0 = Real.exp (p.lnC - ffG p (p.mKL ^ 2 - p.mpi ^ 2)) := by
    rw [hd, e0, hM, hP]
    simp only [ffDisp]
    rw [div_self hΔ, one_mul]
    field_simp
  rw [hv] at this
  rw [this (Real.exp_pos _), Real.log_exp]

/-- **C102 (R_T)** `R_T = -4 m_K/(m_K + m_π) · f_T(0)/f_+(0) · Re C_T`; it vanishes in the Standard Model. -/
theorem C102_RT (d : Inp) (l : Fin 3) (hM : 0 < d.mM) (hP : 0 < d.mP) (hf : (d.ff 0).fp ≠ 0) :
    rT d l = .ok (-4 * d.mM / (d.mM + d.mP) * ((d.ff 0).fT / (d.ff 0).fp) * (d.wc l l).T.re) ∧
    (d.wc l l = ⟨0, 0, 0, 0, 0⟩ → rT d l = .ok 0) := by
  have : rT d l = .ok (-4 * d.mM / (d.mM + d.mP) * ((d.ff 0).fT / (d.ff 0).fp) * (d.wc l l).T.re) := by
    have h1 : d.mM + d.mP ≠ 0 := (add_pos hM hP).ne'
    unfold rT
    simp only
    rw [pyDiv_ne h1]
    show (pyDiv _ _ >>= _) = _
    rw [pyDiv_ne hf]
    show Except.ok _ = Except.ok _
    congr 1
    simp only [wcEff]
    field_simp
    ring
  refine ⟨this, fun hw => ?_⟩
  rw [this, hw]; simp

/-- A `K+ → pi0 ℓ ν`-like decay. (Specification.) -/
noncomputable def sampleK : KInp :=
  ⟨⟨1 / 2, 1 / 10, 1, true, 1 / 10, 0, 1, 1, fun _ => ⟨1, 1, 1⟩, fun l => if l = 2 then 2 else 1 / 10, 1, fun _ _ => ⟨0, 0, 0, 0, 0⟩⟩,
    .Kp, 1 / 40, fun _ => 1 / 100, fun _ => 1 / 200⟩

example : sampleK.Valid ∧ sampleK.d.Cont 0 ∧ sampleK.d.m 0 ^ 2 ≤ (sampleK.d.mM - sampleK.d.mP) ^ 2 := by
  refine ⟨⟨by norm_num [sampleK], by norm_num [sampleK], by norm_num [sampleK], ?_⟩, ⟨?_, ?_, ?_⟩, ?_⟩
  · intro l; unfold sampleK; simp only; split_ifs <;> norm_num
  all_goals first
    | exact continuousOn_const
    | norm_num [sampleK, show ¬ ((0 : Fin 3) = 2) by decide]

end Verif.Semilep.Kaon
