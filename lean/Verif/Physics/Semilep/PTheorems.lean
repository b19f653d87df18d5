import Verif.Physics.Semilep.P
/-!
# C101: semi-leptonic decays `B → P ℓ ν`, `D → P ℓ ν`
-/
set_option linter.unusedVariables false
set_option linter.unusedSimpArgs false
namespace Verif.Semilep
open Verif.Py Verif.Common Verif.Angular Verif.Running Complex ComplexConjugate MeasureTheory Set

/-! ## Specification -/

/-- Physical masses: the mesons and leptons are massive, the quark masses differ. (Specification.) -/
structure Inp.Valid (d : Inp) : Prop where
  hM : 0 < d.mM
  hP : 0 < d.mP
  hq : d.mq ≠ d.mlight
  hm : ∀ l, 0 < d.m l

/-- The rate of the literature (`kT = 8`, `kI = 12`), summed over the flavours of the neutrino; the Standard Model contributes
for equal flavours only. (Specification.) -/
noncomputable def rateSum (kT kI : ℝ) (d : Inp) (l : Fin 3) (q2 : ℝ) : ℝ :=
  ∑ n, rateOf kT kI d.GF (‖d.V‖ ^ 2) d.mM d.mP d.mq d.mlight (d.m l) q2 (d.ff q2)
    ((if l = n then (d.csm : ℂ) else 0) + (d.wc l n).VL + (d.wc l n).VR) ((d.wc l n).SR + (d.wc l n).SL) (d.wc l n).T

/-- Branching ratio per rate: the life time; half of it for a neutral pion. (Specification.) -/
noncomputable def Inp.norm (d : Inp) : ℝ := if d.pi0 then d.tau / 2 else d.tau

/-- The kinematically allowed region. (Specification.) -/
def Inp.region (d : Inp) (l : Fin 3) : Set ℝ := Icc (d.m l ^ 2) ((d.mM - d.mP) ^ 2)

/-! ## Rate -/

theorem rateOf_scale (kT kI GF V2 mM mP mq ml m q2 : ℝ) (ff : FFP) (X S T : ℂ) :
    rateOf kT kI GF V2 mM mP mq ml m q2 ff X S T = GF ^ 2 * V2 * rateOf kT kI 1 1 mM mP mq ml m q2 ff X S T := by
  unfold rateOf; simp only; ring

theorem rateOf_zero (kT kI GF V2 mM mP mq ml m q2 : ℝ) (ff : FFP) :
    rateOf kT kI GF V2 mM mP mq ml m q2 ff 0 0 0 = 0 := by
  unfold rateOf; simp

theorem rateOf_threshold (kT kI GF V2 mM mP mq ml m : ℝ) (hm : m ≠ 0) (ff : FFP) (X S T : ℂ) :
    rateOf kT kI GF V2 mM mP mq ml m (m ^ 2) ff X S T = 0 := by
  unfold rateOf
  simp only [div_self (pow_ne_zero 2 hm), sub_self]
  simp

theorem norm_pref (d : Inp) (l : Fin 3) (q2 : ℝ) (h : d.m l ^ 2 < q2) :
    ‖prefactor d l q2‖ ^ 2 = 8 * (d.GF ^ 2 * ‖d.V‖ ^ 2) := by
  unfold prefactor
  rw [if_neg (not_le.2 h), norm_mul, mul_pow, Complex.norm_real, Real.norm_eq_abs, sq_abs, div_pow, Real.sq_sqrt (by norm_num)]
  ring

theorem jOne_rate (d : Inp) (hv : d.Valid) (l n : Fin 3) (q2 : ℝ) (h : d.m l ^ 2 ≤ q2) :
    dGdq2P (jOne d l q2 n) = rateOf 6 (6 + 3 * Real.sqrt 2) d.GF (‖d.V‖ ^ 2) d.mM d.mP d.mq d.mlight (d.m l) q2 (d.ff q2)
      ((if l = n then (d.csm : ℂ) else 0) + (d.wc l n).VL + (d.wc l n).VR) ((d.wc l n).SR + (d.wc l n).SL) (d.wc l n).T := by
  have hq : 0 < q2 := lt_of_lt_of_le (pow_pos (hv.hm l) 2) h
  unfold jOne
  by_cases hz : l ≠ n ∧ allZero (wcEff (cSM d l n) (d.wc l n))
  · rw [if_pos hz]
    obtain ⟨hne, hz⟩ := hz
    obtain ⟨-, -, h1, h2, -, -, h3, h4, -, -, -, h5⟩ := hz
    simp only [wcEff, div_eq_zero_iff, OfNat.ofNat_ne_zero, or_false] at h1 h2 h3 h4 h5
    unfold cSM at h1
    rw [h1, h2, h3, h4, h5]
    try rw [add_zero]
    rw [rateOf_zero]
    unfold dGdq2P; ring
  · rw [if_neg hz]
    rcases h.eq_or_lt with he | hlt
    · rw [← he, rateOf_threshold _ _ _ _ _ _ _ _ _ (hv.hm l).ne']
      unfold helicityP
      rw [angularP_scale]
      have : prefactor d l (d.m l ^ 2) = 0 := by unfold prefactor; rw [if_pos le_rfl]
      rw [this]
      simp [JP.scale, dGdq2P]
    · unfold helicityP
      rw [angularP_scale, norm_pref d l q2 hlt]
      have key := rate_amp q2 d.mM d.mP d.mq d.mlight (d.m l) 1 (d.ff q2) (cSM d l n) (d.wc l n) (hv.hm l).le h hq
        hv.hM.ne' (add_pos hv.hM hv.hP).ne' (sub_ne_zero.2 hv.hq)
      simp only [ofReal_one, one_mul] at key
      rw [rateOf_scale]
      have e : (4 + 2 * (1 : ℝ) ^ 2) = 6 := by norm_num
      rw [e, mul_one] at key
      unfold cSM at key ⊢
      rw [← key]
      simp only [JP.scale, dGdq2P]
      ring

theorem dGdq2_sum (d : Inp) (l : Fin 3) (q2 : ℝ) : dGdq2P (jSum d l q2) = ∑ n, dGdq2P (jOne d l q2 n) := by
  unfold dGdq2P jSum
  simp only [Fin.sum_univ_three]; ring

theorem dbrLep_indicator (d : Inp) (hv : d.Valid) (l : Fin 3) :
    dbrLep d l = indicator (d.region l) fun q2 => d.norm * rateSum 6 (6 + 3 * Real.sqrt 2) d l q2 := by
  ext q
  unfold indicator Inp.region dbrLep
  by_cases h : q ∈ Icc (d.m l ^ 2) ((d.mM - d.mP) ^ 2)
  · rw [if_pos h, if_neg (by rw [not_or, not_lt, not_lt]; exact ⟨h.1, h.2⟩)]
    rw [dGdq2_sum]
    have : ∑ n, dGdq2P (jOne d l q n) = rateSum 6 (6 + 3 * Real.sqrt 2) d l q :=
      Finset.sum_congr rfl fun n _ => jOne_rate d hv l n q h.1
    rw [this]
    unfold Inp.norm
    split_ifs <;> ring
  · rw [if_neg h, if_pos]
    by_contra hc
    push Not at hc
    exact h ⟨hc.1, hc.2⟩

/-- **C101 (rate, partial)** Without tensor coefficients, the differential branching ratio is the life time (half of it for a
`pi0`) times the rate of the literature summed over the neutrino flavours, for all masses, form factors and complex Wilson
coefficients.  Outside the allowed region it is zero, as it is at the lower end of it.  For tensor coefficients see
`C101_tensor`. -/
theorem C101_rate_partial (d : Inp) (hv : d.Valid) (l : Fin 3) (hT : ∀ n, (d.wc l n).T = 0) (q2 : ℝ) :
    (q2 ∈ d.region l → dbr d (.one l) q2 = d.norm * rateSum 8 12 d l q2) ∧
    (q2 ∉ d.region l → dbr d (.one l) q2 = 0) ∧ dbr d (.one l) (d.m l ^ 2) = 0 := by
  have e : ∀ kT kI q2, rateSum kT kI d l q2 = rateSum 8 12 d l q2 := by
    intro kT kI q2
    unfold rateSum rateOf
    simp only [hT]
    simp
  refine ⟨fun h => ?_, fun h => ?_, ?_⟩
  · show dbrLep d l q2 = _
    rw [dbrLep_indicator d hv, indicator_of_mem h, e]
  · show dbrLep d l q2 = _
    rw [dbrLep_indicator d hv, indicator_of_notMem h]
  · show dbrLep d l _ = _
    rw [dbrLep_indicator d hv]
    unfold indicator
    split_ifs
    · unfold rateSum
      simp only [rateOf_threshold _ _ _ _ _ _ _ _ _ (hv.hm l).ne', Finset.sum_const_zero, mul_zero]
    · rfl

/-- **C101 (tensor)** With tensor coefficients the code does not give the rate of the literature: the squared tensor
coefficient enters with 6 instead of 8, its interference with 6 + 3√2 instead of 12.  A purely tensorial rate is
three quarters of what it should be. -/
theorem C101_tensor (d : Inp) (hv : d.Valid) (l : Fin 3) (q2 : ℝ) (h : q2 ∈ d.region l) :
    dbr d (.one l) q2 = d.norm * rateSum 6 (6 + 3 * Real.sqrt 2) d l q2 ∧
    ((∀ n, (if l = n then (d.csm : ℂ) else 0) + (d.wc l n).VL + (d.wc l n).VR = 0 ∧ (d.wc l n).SR + (d.wc l n).SL = 0) →
      dbr d (.one l) q2 = 3 / 4 * (d.norm * rateSum 8 12 d l q2)) := by
  have e : dbr d (.one l) q2 = d.norm * rateSum 6 (6 + 3 * Real.sqrt 2) d l q2 := by
    show dbrLep d l q2 = _
    rw [dbrLep_indicator d hv, indicator_of_mem h]
  refine ⟨e, fun h0 => ?_⟩
  rw [e]
  have : rateSum 6 (6 + 3 * Real.sqrt 2) d l q2 = 3 / 4 * rateSum 8 12 d l q2 := by
    unfold rateSum
    rw [Finset.mul_sum]
    refine Finset.sum_congr rfl fun n _ => ?_
    rw [(h0 n).1, (h0 n).2]
    unfold rateOf
    simp only [norm_zero, zero_mul, Complex.zero_re, map_zero, mul_zero]
    ring
  rw [this]; ring

/-- **C101 (tensor, what is missing)** If the amplitude `h['T']` were larger by √2, the code would give the rate of the
literature for every tensor coefficient; for the amplitudes as they are, the part that couples to a neutrino of the wrong
helicity vanishes for the vector (`V + A`) and scalar (`S + P`) but not for the tensor (`√2 Tt + T`). -/
theorem C101_tensor_amplitude (q2 mM mP mq ml m : ℝ) (ff : FFP) (csm : ℂ) (c : CC) (hm : 0 ≤ m) (h : m ^ 2 ≤ q2) (hq : 0 < q2)
    (hM : 0 < mM) (hP : 0 < mP) (hml : mq ≠ ml) :
    let H := helP1 q2 mM mP mq ml m 0 ff (wcEff csm c)
    8 * dGdq2P (angularP { H with T := (Real.sqrt 2 : ℝ) * H.T } q2 mM mP m 0) =
      rateOf 8 12 1 1 mM mP mq ml m q2 ff (csm + c.VL + c.VR) (c.SR + c.SL) c.T ∧
    H.V + H.A = 0 ∧ H.S + H.P = 0 ∧ (Real.sqrt 2 : ℝ) * H.Tt + ((Real.sqrt 2 : ℝ) * H.T) = 0 ∧
    (kallen (mM ^ 2) (mP ^ 2) q2 > 0 → ff.fT ≠ 0 → c.T ≠ 0 → (Real.sqrt 2 : ℝ) * H.Tt + H.T ≠ 0) := by
  intro H
  have hr : Real.sqrt 2 ^ 2 = 2 := Real.sq_sqrt (by norm_num)
  have hTT : H.T = -H.Tt := by simp only [H, helP1, wcEff]; push_cast; ring
  refine ⟨?_, ?_, ?_, ?_, ?_⟩
  · have key := rate_amp q2 mM mP mq ml m (Real.sqrt 2) ff csm c hm h hq hM.ne' (add_pos hM hP).ne' (sub_ne_zero.2 hml)
    simp only at key
    rw [key]
    have : 6 + 3 * Real.sqrt 2 * Real.sqrt 2 = 12 := by rw [mul_assoc, ← sq, hr]; norm_num
    rw [this, hr]; norm_num
  · simp only [H, helP1, wcEff]; push_cast; ring
  · simp only [H, helP1, wcEff]; push_cast; ring
  · rw [hTT]; ring
  · intro hk hf hc h0
    rw [hTT, show ((Real.sqrt 2 : ℝ) : ℂ) * H.Tt + -H.Tt = ((Real.sqrt 2 - 1 : ℝ) : ℂ) * H.Tt by push_cast; ring] at h0
    rcases mul_eq_zero.1 h0 with h1 | h1
    · have h2 : Real.sqrt 2 = 1 := by
        have := Complex.ofReal_eq_zero.1 h1; linarith
      rw [h2] at hr; norm_num at hr
    · have : H.Tt = -I * ((Real.sqrt (kallen (mM ^ 2) (mP ^ 2) q2) / (2 * (mM + mP)) : ℝ) : ℂ) * (0 + c.T) * (ff.fT : ℂ) := by
        simp only [H, helP1, wcEff, sqrt_lambdaK]
      rw [this, zero_add] at h1
      have hs : (0 : ℝ) < Real.sqrt (kallen (mM ^ 2) (mP ^ 2) q2) / (2 * (mM + mP)) :=
        div_pos (Real.sqrt_pos.2 hk) (by positivity)
      refine absurd h1 (mul_ne_zero (mul_ne_zero (mul_ne_zero (neg_ne_zero.2 I_ne_zero) ?_) hc) ?_)
      · exact Complex.ofReal_ne_zero.2 hs.ne'
      · exact Complex.ofReal_ne_zero.2 hf

/-! ## Positivity, continuity -/

theorem jOne_nonneg (d : Inp) (hv : d.Valid) (l n : Fin 3) (q2 : ℝ) (h : d.m l ^ 2 ≤ q2) : 0 ≤ dGdq2P (jOne d l q2 n) := by
  have hq : 0 < q2 := lt_of_lt_of_le (pow_pos (hv.hm l) 2) h
  unfold jOne
  split_ifs with hz
  · unfold dGdq2P; simp
  · exact (physical_ineq (fun x hx => C79_distribution_nonneg _ q2 d.mM d.mP (d.m l) 0 hv.hM (hv.hm l).le le_rfl hq
      (by simpa using h) x hx)).1

theorem dbrLep_nonneg (d : Inp) (hv : d.Valid) (ht : 0 ≤ d.tau) (l : Fin 3) (q2 : ℝ) : 0 ≤ dbrLep d l q2 := by
  unfold dbrLep
  split_ifs with h h2
  · exact le_rfl
  all_goals
    rw [not_or, not_lt, not_lt] at h
    have : 0 ≤ dGdq2P (jSum d l q2) := by
      rw [dGdq2_sum]; exact Finset.sum_nonneg fun n _ => jOne_nonneg d hv l n q2 h.1
  · exact div_nonneg (mul_nonneg ht this) (by norm_num)
  · exact mul_nonneg ht this

/-- The form factors are continuous on the allowed region. (Specification.) -/
def Inp.Cont (d : Inp) (l : Fin 3) : Prop :=
  ContinuousOn (fun q => (d.ff q).fp) (d.region l) ∧ ContinuousOn (fun q => (d.ff q).f0) (d.region l) ∧
  ContinuousOn (fun q => (d.ff q).fT) (d.region l)

theorem rateSum_cont (kT kI : ℝ) (d : Inp) (hv : d.Valid) (l : Fin 3) (hc : d.Cont l) :
    ContinuousOn (rateSum kT kI d l) (d.region l) := by
  have h0 : ∀ q ∈ d.region l, 0 < q := fun q hq => lt_of_lt_of_le (pow_pos (hv.hm l) 2) hq.1
  obtain ⟨c1, c2, c3⟩ := hc
  have hne : ∀ q ∈ d.region l, q ≠ 0 := fun q hq => (h0 q hq).ne'
  have cid : ContinuousOn (fun q : ℝ => q) (d.region l) := continuousOn_id
  have ck : ContinuousOn (fun q : ℝ => kallen (d.mM ^ 2) (d.mP ^ 2) q) (d.region l) := by
    unfold kallen; fun_prop
  have cs : ContinuousOn (fun q : ℝ => Real.sqrt (kallen (d.mM ^ 2) (d.mP ^ 2) q)) (d.region l) := ck.sqrt
  have cs2 : ContinuousOn (fun q : ℝ => Real.sqrt (kallen (d.mM ^ 2) (d.mP ^ 2) q / q)) (d.region l) := (ck.div cid hne).sqrt
  have cQ : ContinuousOn (fun q : ℝ => Real.sqrt q) (d.region l) := cid.sqrt
  have hQ : ∀ q ∈ d.region l, Real.sqrt q ≠ 0 := fun q hq => (Real.sqrt_pos.2 (h0 q hq)).ne'
  have hdiv : ∀ x : ℝ, ContinuousOn (fun q : ℝ => x / q) (d.region l) := fun x => continuousOn_const.div cid hne
  have hdiv2 : ∀ x : ℝ, ContinuousOn (fun q : ℝ => x / (2 * q)) (d.region l) := fun x =>
    continuousOn_const.div (continuousOn_const.mul cid) (fun q hq => mul_ne_zero two_ne_zero (hne q hq))
  have hdQ : ∀ x : ℝ, ContinuousOn (fun q : ℝ => x / Real.sqrt q) (d.region l) := fun x => continuousOn_const.div cQ hQ
  unfold rateSum
  refine continuousOn_finsetSum _ fun n _ => ?_
  unfold rateOf
  have cH0 := cs2.mul c1
  have cHt := (hdQ (d.mM ^ 2 - d.mP ^ 2)).mul c2
  have cHS : ContinuousOn (fun q => (d.mM ^ 2 - d.mP ^ 2) / (d.mq - d.mlight) * (d.ff q).f0) (d.region l) :=
    continuousOn_const.mul c2
  have cHT : ContinuousOn (fun q => -(Real.sqrt (kallen (d.mM ^ 2) (d.mP ^ 2) q)) / (d.mM + d.mP) * (d.ff q).fT) (d.region l) :=
    (cs.neg.div_const _).mul c3
  refine ContinuousOn.mul (ContinuousOn.mul (ContinuousOn.mul (continuousOn_const.mul cid) cs)
    ((continuousOn_const.sub (hdiv _)).pow 2)) ?_
  refine ContinuousOn.sub (ContinuousOn.add (ContinuousOn.add (ContinuousOn.add (continuousOn_const.mul ?_) ?_) ?_) ?_) ?_
  · exact ((continuousOn_const.add (hdiv2 _)).mul (cH0.pow 2)).add ((continuousOn_const.mul (hdiv _)).mul (cHt.pow 2))
  · exact continuousOn_const.mul (cHS.pow 2)
  · exact (continuousOn_const.mul (continuousOn_const.add (hdiv _))).mul (cHT.pow 2)
  · exact ((continuousOn_const.mul (hdQ _)).mul cHS).mul cHt
  · exact ((continuousOn_const.mul (hdQ _)).mul cHT).mul cH0

theorem dbrLep_integrable (d : Inp) (hv : d.Valid) (l : Fin 3) (hc : d.Cont l) : Integrable (dbrLep d l) volume := by
  rw [dbrLep_indicator d hv, integrable_indicator_iff (show MeasurableSet (d.region l) from measurableSet_Icc)]
  exact ContinuousOn.integrableOn_compact isCompact_Icc ((rateSum_cont _ _ d hv l hc).const_smul d.norm)

/-! ## Bins, totals, ratios -/

/-- Continuity for the flavours of the argument. (Specification.) -/
def Inp.ContA (d : Inp) : LArg → Prop
  | .one l => d.Cont l
  | .l => d.Cont 0 ∧ d.Cont 1

theorem dbr_integrable (d : Inp) (hv : d.Valid) (a : LArg) (hc : d.ContA a) : Integrable (dbr d a) volume := by
  cases a with
  | one l => exact dbrLep_integrable d hv l hc
  | l =>
    show Integrable (fun q => (dbrLep d 0 q + dbrLep d 1 q) / 2) volume
    exact ((dbrLep_integrable d hv 0 hc.1).add (dbrLep_integrable d hv 1 hc.2)).div_const 2

theorem dbr_nonneg (d : Inp) (hv : d.Valid) (ht : 0 ≤ d.tau) (a : LArg) (q : ℝ) : 0 ≤ dbr d a q := by
  cases a with
  | one l => exact dbrLep_nonneg d hv ht l q
  | l => exact div_nonneg (add_nonneg (dbrLep_nonneg d hv ht 0 q) (dbrLep_nonneg d hv ht 1 q)) (by norm_num)

theorem brTotLep_eq (nint : Nint) (hx : Exact nint) (d : Inp) (hv : d.Valid) (l : Fin 3) (hc : d.Cont l)
    (hr : d.m l ^ 2 ≤ (d.mM - d.mP) ^ 2) : brTotLep nint d l = ∫ q, dbrLep d l q := by
  have hi := dbrLep_integrable d hv l hc
  unfold brTotLep brBinned
  rw [hx _ _ _ _ (show IntervalIntegrable (dbr d (.one l)) volume _ _ from hi.intervalIntegrable),
    intervalIntegral.integral_of_le hr]
  show ∫ q in Ioc _ _, dbrLep d l q = _
  rw [← integral_Icc_eq_integral_Ioc]
  refine setIntegral_eq_integral_of_forall_compl_eq_zero fun q hq => ?_
  rw [dbrLep_indicator d hv]
  exact indicator_of_notMem hq _

theorem brTot_eq (nint : Nint) (hx : Exact nint) (d : Inp) (hv : d.Valid) (a : LArg) (hc : d.ContA a)
    (hr : ∀ l, d.m l ^ 2 ≤ (d.mM - d.mP) ^ 2) : brTot nint d a = ∫ q, dbr d a q := by
  cases a with
  | one l => exact brTotLep_eq nint hx d hv l hc (hr l)
  | l =>
    show (brTotLep nint d 0 + brTotLep nint d 1) / 2 = ∫ q, (dbrLep d 0 q + dbrLep d 1 q) / 2
    rw [integral_div, integral_add (dbrLep_integrable d hv 0 hc.1) (dbrLep_integrable d hv 1 hc.2),
      brTotLep_eq nint hx d hv 0 hc.1 (hr 0), brTotLep_eq nint hx d hv 1 hc.2 (hr 1)]

theorem dbr_zero (d : Inp) (a : LArg) (q : ℝ) (h : (d.mM - d.mP) ^ 2 < q ∨ ∀ l, q < d.m l ^ 2) : dbr d a q = 0 := by
  have : ∀ l, dbrLep d l q = 0 := by
    intro l; unfold dbrLep; rw [if_pos]
    rcases h with h | h
    · exact Or.inr h
    · exact Or.inl (h l)
  cases a with
  | one l => exact this l
  | l => show (dbrLep d 0 q + dbrLep d 1 q) / 2 = 0; rw [this, this]; simp

/-- **C101 (bins)** With an exact integrator and continuous form factors: the binned branching ratio is the integral of the
differential one over the bin; bins add up; the total one is that of every bin that covers the allowed regions; no
branching ratio is negative, and none exceeds the total.  This holds for each flavour and for the average `'l'` of e and mu,
which is everywhere the mean of the two. -/
theorem C101_bins (nint : Nint) (hx : Exact nint) (d : Inp) (hv : d.Valid) (ht : 0 ≤ d.tau) (a : LArg) (hc : d.ContA a)
    (hr : ∀ l, d.m l ^ 2 ≤ (d.mM - d.mP) ^ 2) :
    (∀ x y, brBinned nint d a x y = ∫ q in x..y, dbr d a q) ∧
    (∀ x y z, brBinned nint d a x z = brBinned nint d a x y + brBinned nint d a y z) ∧
    (∀ x y, (∀ l, x ≤ d.m l ^ 2) → (d.mM - d.mP) ^ 2 ≤ y → brBinned nint d a x y = brTot nint d a) ∧
    (∀ x y, x ≤ y → 0 ≤ brBinned nint d a x y ∧ brBinned nint d a x y ≤ brTot nint d a) ∧
    (d.ContA .l → (∀ x y, brBinned nint d .l x y = (brBinned nint d (.one 0) x y + brBinned nint d (.one 1) x y) / 2) ∧
      brTot nint d .l = (brTot nint d (.one 0) + brTot nint d (.one 1)) / 2) := by
  have hi := dbr_integrable d hv a hc
  have e1 : ∀ x y, brBinned nint d a x y = ∫ q in x..y, dbr d a q := by
    intro x y; unfold brBinned; exact hx _ _ _ _ hi.intervalIntegrable
  have hnn := dbr_nonneg d hv ht a
  have ht' := brTot_eq nint hx d hv a hc hr
  refine ⟨e1, ?_, ?_, ?_, ?_⟩
  · intro x y z
    rw [e1, e1, e1, intervalIntegral.integral_add_adjacent_intervals hi.intervalIntegrable hi.intervalIntegrable]
  · intro x y h1 h2
    have hxy : x ≤ y := (h1 0).trans ((hr 0).trans h2)
    rw [e1, ht', intervalIntegral.integral_of_le hxy, ← integral_Icc_eq_integral_Ioc]
    refine setIntegral_eq_integral_of_forall_compl_eq_zero fun q hq => ?_
    apply dbr_zero
    rw [mem_Icc, not_and_or, not_le, not_le] at hq
    rcases hq with h | h
    · exact Or.inr fun l => lt_of_lt_of_le h (h1 l)
    · exact Or.inl (lt_of_le_of_lt h2 h)
  · intro x y hxy
    rw [e1, ht', intervalIntegral.integral_of_le hxy]
    exact ⟨setIntegral_nonneg measurableSet_Ioc fun q _ => hnn q,
      setIntegral_le_integral hi (Filter.Eventually.of_forall hnn)⟩
  · intro hl
    refine ⟨?_, rfl⟩
    intro x y
    have i0 := dbrLep_integrable d hv 0 hl.1
    have i1 := dbrLep_integrable d hv 1 hl.2
    unfold brBinned
    rw [hx _ _ _ _ (dbr_integrable d hv .l hl).intervalIntegrable]
    rw [hx _ _ _ _ (show IntervalIntegrable (dbr d (.one 0)) volume x y from i0.intervalIntegrable)]
    rw [hx _ _ _ _ (show IntervalIntegrable (dbr d (.one 1)) volume x y from i1.intervalIntegrable)]
    show ∫ q in x..y, (dbrLep d 0 q + dbrLep d 1 q) / 2 = _
    rw [intervalIntegral.integral_div, intervalIntegral.integral_add i0.intervalIntegrable i1.intervalIntegrable]
    rfl

/-- **C101 (ratios)** A ratio is zero if its numerator is, `ZeroDivisionError` if only its denominator is, and the quotient
otherwise; the fraction of the decays in a bin lies between 0 and 1, and fractions of adjacent bins add up. -/
theorem C101_ratios (nint : Nint) (hx : Exact nint) (d : Inp) (hv : d.Valid) (ht : 0 ≤ d.tau) (a b : LArg)
    (hc : d.ContA a) (hr : ∀ l, d.m l ^ 2 ≤ (d.mM - d.mP) ^ 2) (x y z : ℝ) (hxy : x ≤ y) :
    (brBinned nint d b x y ≠ 0 → rBinned nint d a b x y = .ok (brBinned nint d a x y / brBinned nint d b x y)) ∧
    (brTot nint d b ≠ 0 → rTot nint d a b = .ok (brTot nint d a / brTot nint d b)) ∧
    (brTot nint d a = 0 → rTot nint d a b = .ok 0) ∧
    (brTot nint d a ≠ 0 → brTot nint d b = 0 → rTot nint d a b = .error .zeroDivisionError) ∧
    (brBinned nint d a x y = 0 → rBinned nint d a b x y = .ok 0) ∧
    (brBinned nint d a x y ≠ 0 → brBinned nint d b x y = 0 → rBinned nint d a b x y = .error .zeroDivisionError) ∧
    (∃ r, relBinned nint d a x y = .ok r ∧ 0 ≤ r ∧ r ≤ 1 ∧ r * brTot nint d a = brBinned nint d a x y) ∧
    (brTot nint d a ≠ 0 → (∀ l, x ≤ d.m l ^ 2) → (d.mM - d.mP) ^ 2 ≤ y → relBinned nint d a x y = .ok 1) := by
  have hq : ∀ u v : ℝ, v ≠ 0 → ratio u v = .ok (u / v) := by
    intro u v hv
    unfold ratio pyDiv
    split_ifs with h
    · rw [h, zero_div]
    · rfl
  obtain ⟨-, -, h3, h4, -⟩ := C101_bins nint hx d hv ht a hc hr
  have hz : ∀ u v : ℝ, u = 0 → ratio u v = .ok 0 := by
    intro u v hu; unfold ratio; rw [if_pos hu]
  have he : ∀ u v : ℝ, u ≠ 0 → v = 0 → ratio u v = .error .zeroDivisionError := by
    intro u v hu hv; unfold ratio pyDiv; rw [if_neg hu, if_pos hv]
  refine ⟨fun h => hq _ _ h, fun h => hq _ _ h, fun h => hz _ _ h, fun h h' => he _ _ h h', fun h => hz _ _ h,
    fun h h' => he _ _ h h', ?_, ?_⟩
  · obtain ⟨p1, p2⟩ := h4 x y hxy
    by_cases h0 : brTot nint d a = 0
    · have hb : brBinned nint d a x y = 0 := le_antisymm (by rw [h0] at p2; exact p2) p1
      exact ⟨0, hz _ _ hb, le_rfl, zero_le_one, by rw [zero_mul, hb]⟩
    · have hpos : 0 < brTot nint d a := lt_of_le_of_ne (p1.trans p2) (Ne.symm h0)
      exact ⟨_, hq _ _ h0, div_nonneg p1 hpos.le, (div_le_one hpos).2 p2, div_mul_cancel₀ _ h0⟩
  · intro h0 h1 h2
    unfold relBinned
    rw [hq _ _ h0, h3 x y h1 h2, div_self h0]

/-- **C101 (universality)** Two leptons with the same mass and the same Wilson coefficients (in particular without new physics)
have the same rate, whatever their neutrinos' flavours are called; their ratio is 1 if they decay at all. -/
theorem C101_universal (d : Inp) (l l' : Fin 3) (hm : d.m l = d.m l') (q2 : ℝ) (hv : d.Valid)
    (σ : Equiv.Perm (Fin 3)) (hs : σ l = l') (hw : ∀ n, d.wc l n = d.wc l' (σ n)) : dbr d (.one l) q2 = dbr d (.one l') q2 := by
  show dbrLep d l q2 = dbrLep d l' q2
  have hreg : d.region l = d.region l' := by unfold Inp.region; rw [hm]
  rw [dbrLep_indicator d hv, dbrLep_indicator d hv, hreg]
  unfold indicator
  split_ifs
  · show d.norm * rateSum _ _ d l q2 = d.norm * rateSum _ _ d l' q2
    congr 1
    unfold rateSum
    refine Fintype.sum_equiv σ _ _ fun n => ?_
    rw [hw n, hm]
    have : (l = n) ↔ (l' = σ n) := by rw [← hs]; exact σ.injective.eq_iff.symm
    simp only [this]
  · rfl

/-- **C101 (neutrino flavours)** The rate is the sum of three rates that do not interfere: new physics with another neutrino
can only add to the rate. -/
theorem C101_other_neutrinos (d : Inp) (hv : d.Valid) (ht : 0 ≤ d.tau) (l : Fin 3) (q2 : ℝ) :
    dbr { d with wc := fun i n => if i = n then d.wc i n else ⟨0, 0, 0, 0, 0⟩ } (.one l) q2 ≤ dbr d (.one l) q2 := by
  set d' : Inp := { d with wc := fun i n => if i = n then d.wc i n else ⟨0, 0, 0, 0, 0⟩ } with hd'
  have hv' : d'.Valid := ⟨hv.hM, hv.hP, hv.hq, hv.hm⟩
  show dbrLep d' l q2 ≤ dbrLep d l q2
  by_cases hr : q2 ∈ d.region l
  · have hle : dGdq2P (jSum d' l q2) ≤ dGdq2P (jSum d l q2) := by
      rw [dGdq2_sum, dGdq2_sum]
      refine Finset.sum_le_sum fun n _ => ?_
      by_cases hn : l = n
      · subst hn
        have : jOne d' l q2 l = jOne d l q2 l := by
          unfold jOne cSM prefactor; simp [hd']
        rw [this]
      · have : dGdq2P (jOne d' l q2 n) = 0 := by
          rw [jOne_rate d' hv' l n q2 hr.1]
          have : d'.wc l n = ⟨0, 0, 0, 0, 0⟩ := by simp [hd', hn]
          rw [this]
          simp only [if_neg hn, add_zero]
          exact rateOf_zero _ _ _ _ _ _ _ _ _ _ _
        rw [this]; exact jOne_nonneg d hv l n q2 hr.1
    unfold dbrLep
    have hc : ¬ (q2 < d.m l ^ 2 ∨ (d.mM - d.mP) ^ 2 < q2) := by rw [not_or, not_lt, not_lt]; exact hr
    have hc' : ¬ (q2 < d'.m l ^ 2 ∨ (d'.mM - d'.mP) ^ 2 < q2) := hc
    rw [if_neg hc, if_neg hc']
    have hp : d'.pi0 = d.pi0 := rfl
    have htau : d'.tau = d.tau := rfl
    rw [hp, htau]
    split_ifs
    · exact div_le_div_of_nonneg_right (mul_le_mul_of_nonneg_left hle ht) (by norm_num)
    · exact mul_le_mul_of_nonneg_left hle ht
  · rw [dbrLep_indicator d hv, indicator_of_notMem hr, dbrLep_indicator d' hv']
    rw [indicator_of_notMem (show q2 ∉ d'.region l from hr)]

/-- A `B → D ℓ ν`-like decay with constant form factors. (Specification.) -/
noncomputable def sampleB : Inp :=
  ⟨5, 2, 1, false, 4, 1, 1, 1, fun _ => ⟨1, 1, 1⟩, fun l => if l = 2 then 3 / 2 else 1 / 10, 1, fun _ _ => ⟨0, 0, 0, 0, 0⟩⟩

example : sampleB.Valid ∧ sampleB.ContA .l ∧ ∀ l, sampleB.m l ^ 2 ≤ (sampleB.mM - sampleB.mP) ^ 2 := by
  refine ⟨⟨by norm_num [sampleB], by norm_num [sampleB], by norm_num [sampleB], ?_⟩, ⟨⟨?_, ?_, ?_⟩, ?_, ?_, ?_⟩, ?_⟩
  · intro l; unfold sampleB; simp only; split_ifs <;> norm_num
  all_goals first
    | exact continuousOn_const
    | (intro l; unfold sampleB; simp only; split_ifs <;> norm_num)

end Verif.Semilep
