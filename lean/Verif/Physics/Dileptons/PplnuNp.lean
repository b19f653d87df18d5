import Verif.Physics.Dileptons.PplnuRatio
/-!
# `pp → ℓν`: new physics, bins, matching
-/
set_option linter.unusedVariables false
set_option linter.unusedSimpArgs false
namespace Verif.Dileptons
open Verif.Py Verif.Running Complex MeasureTheory

local notation "conj" => starRingEnd ℂ

/-- The interference. (Specification.) -/
noncomputable def crossNu (x y : ℝ) (A B : AmpNu) (il i1 i2 : Fin 3) : ℝ :=
  ∑ inu, 2 * (x * (dot (A.VLL il inu i1 i2) (B.VLL il inu i1 i2) + dot (A.SRL il inu i1 i2) (B.SRL il inu i1 i2) + dot (A.SRR il inu i1 i2) (B.SRR il inu i1 i2))
    + y * (dot (A.VLL il inu i1 i2) (B.VLL il inu i1 i2) + 16 * dot (A.TRR il inu i1 i2) (B.TRR il inu i1 i2)))

theorem fullNu_lin (q : Inp) (scale x sh : ℝ) (i j k l : Fin 3) :
    let A := fullNu q scale false sh
    let B := wcNPNu (q.C scale) q.V
    let D := fullNu { q with C := fun sc => (q.C sc).smul x } scale true sh
    D.VLL i j k l = A.VLL i j k l + x * B.VLL i j k l ∧ D.SRL i j k l = A.SRL i j k l + x * B.SRL i j k l ∧ D.SRR i j k l = A.SRR i j k l + x * B.SRR i j k l ∧ D.TRR i j k l = A.TRR i j k l + x * B.TRR i j k l := by
  simp only [fullNu, addNu, wcSMNu, smAmpNu, wcNPNu, Smeft.smul, Pi.add_apply, Pi.zero_apply, if_true, if_false, Bool.false_eq_true, zero_add, Finset.mul_sum, map_mul, conj_ofReal]
  refine ⟨?_, trivial, ?_, ?_⟩
  · congr 1; refine Finset.sum_congr rfl fun m _ => ?_; ring
  · refine Finset.sum_congr rfl fun m _ => ?_; ring
  · refine Finset.sum_congr rfl fun m _ => ?_; ring

theorem sumNu_lin (q : Inp) (scale x sh u v : ℝ) (il i j : Fin 3) :
    sumNu u v (fullNu { q with C := fun sc => (q.C sc).smul x } scale true sh) il i j
      = sumNu u v (fullNu q scale false sh) il i j + x * crossNu u v (fullNu q scale false sh) (wcNPNu (q.C scale) q.V) il i j + x ^ 2 * sumNu u v (wcNPNu (q.C scale) q.V) il i j := by
  unfold sumNu crossNu
  rw [Finset.mul_sum, Finset.mul_sum, ← Finset.sum_add_distrib, ← Finset.sum_add_distrib]
  refine Finset.sum_congr rfl fun n _ => ?_
  obtain ⟨h1, h2, h3, h4⟩ := fullNu_lin q scale x sh il n i j
  rw [h1, h2, h3, h4]
  simp only [norm_add_smul]; ring

theorem crossNu_cont {A : ℝ → AmpNu} {x y : ℝ → ℝ} {S : Set ℝ} (h : ContNu A S) (hx : ContinuousOn x S) (hy : ContinuousOn y S) (B : AmpNu) (il i j : Fin 3) :
    ContinuousOn (fun t => crossNu (x t) (y t) (A t) B il i j) S := by
  unfold crossNu
  refine continuousOn_finsetSum _ fun n _ => continuousOn_const.mul ?_
  obtain ⟨h1, h2, h3, h4⟩ := h il n i j
  exact (hx.mul (((dot_cont h1 _).add (dot_cont h2 _)).add (dot_cont h3 _))).add (hy.mul ((dot_cont h1 _).add (continuousOn_const.mul (dot_cont h4 _))))

theorem goodNu_smul {q : Inp} {s a b : ℝ} (h : GoodNu q s a b) (D : ℝ → Smeft) : GoodNu { q with C := D } s a b :=
  ⟨h.s0, h.al, h.mW, h.tW, h.Vud, h.sp, h.ap, h.ab, h.as, h.lc, h.ln, h.ld⟩

/-- **C137 (quadratic)** If all coefficients are multiplied by a real number `x`, the ratio is `1 + A x + B x²` with `B ≥ 0`. -/
theorem C137_quadratic {nint : Angular.Nint} (hx : Angular.Exact nint) {q : Inp} {s a b : ℝ} (h : GoodNu q s a b) {l : String} {il : Fin 3} (hl : (l, il) ∈ leptonOf) :
    ∃ A B : ℝ, 0 ≤ B ∧ ∀ x : ℝ, ratioNu nint { q with C := fun sc => (q.C sc).smul x } s a b l = .ok (1 + A * x + B * x ^ 2) := by
  set lumi := q.lumi (((a + b) / 2) ^ 2) (pyInt q.member) with hlumi
  set sc := (a + b) / 2 with hsc
  obtain ⟨b0, b1, b2⟩ := nu_bin h
  set um := a ^ 2 / s with hum
  set ux := b ^ 2 / s with hux
  set sm := ∫ t in um..1, sigNu lumi s um ux il (fullNu q sc false) t with hsm
  have hp : 0 < sm := smNu_pos h sc il
  have hS : Set.Icc um 1 ⊆ Set.Ioi 0 := fun t ht => b0.trans_le ht.1
  let X : ℝ → ℝ := fun t => hadronicNu lumi t fun i j => t * s / (576 * Real.pi) * crossNu (w1 um ux t) (w3 um ux t) (fullNu q sc false (t * s)) (wcNPNu (q.C sc) q.V) il i j
  let Y : ℝ → ℝ := fun t => hadronicNu lumi t fun i j => t * s / (576 * Real.pi) * sumNu (w1 um ux t) (w3 um ux t) (wcNPNu (q.C sc) q.V) il i j
  have hX : IntervalIntegrable X volume um 1 := by
    refine ContinuousOn.intervalIntegrable ?_
    rw [Set.uIcc_of_le b1.le]
    exact hadronicNu_cont h.lc fun i j => (Continuous.continuousOn (by fun_prop)).mul (crossNu_cont (fullNu_cont h sc false _) ((w_cont _ _).1.mono hS) ((w_cont _ _).2.mono hS) _ il i j)
  have hY : IntervalIntegrable Y volume um 1 := by
    refine ContinuousOn.intervalIntegrable ?_
    rw [Set.uIcc_of_le b1.le]
    exact hadronicNu_cont h.lc fun i j => (Continuous.continuousOn (by fun_prop)).mul
      (sumNu_cont (A := fun _ => wcNPNu (q.C sc) q.V) (fun _ _ _ _ => ⟨continuousOn_const, continuousOn_const, continuousOn_const, continuousOn_const⟩) ((w_cont _ _).1.mono hS) ((w_cont _ _).2.mono hS) il i j)
  refine ⟨(∫ t in um..1, X t) / sm, (∫ t in um..1, Y t) / sm, div_nonneg ?_ hp.le, fun x => ?_⟩
  · refine intervalIntegral.integral_nonneg b1.le fun t ht => ?_
    have t0 : 0 < t := b0.trans_le ht.1
    have := h.sp; have := Real.pi_pos
    obtain ⟨n1, n3⟩ := w_nonneg t0 b2.le
    show 0 ≤ hadronicNu lumi t _
    rw [← hadronicNu_zero lumi t]
    exact hadronicNu_mono (fun i j => h.ln i j t ht) fun i j => mul_nonneg (by positivity) (sumNu_nonneg n1 n3 _ _ _ _)
  · obtain ⟨e, -⟩ := C137_ratio hx (goodNu_smul h fun sc => (q.C sc).smul x) hl
    rw [e]
    refine congrArg Except.ok ?_
    have e1 : (∫ t in um..1, sigNu lumi s um ux il (fullNu { q with C := fun sc => (q.C sc).smul x } sc true) t) = ∫ t in um..1, (sigNu lumi s um ux il (fullNu q sc false) t + x * X t + x ^ 2 * Y t) := by
      refine intervalIntegral.integral_congr fun t ht => ?_
      rw [Set.uIcc_of_le b1.le] at ht
      have t0 : 0 < t := b0.trans_le ht.1
      show sigNu _ _ _ _ _ _ t = _
      rw [sigNu_eq _ _ _ t0 ht.1 b2.le, sigNu_eq _ _ _ t0 ht.1 b2.le, ← hadronicNu_lin]
      refine congrArg _ (funext fun i => funext fun j => ?_)
      rw [sumNu_lin]; ring
    show (∫ t in um..1, sigNu lumi s um ux il (fullNu { q with C := fun sc => (q.C sc).smul x } sc true) t) / sm = _
    rw [e1, intervalIntegral.integral_add ((sigNu_int h sc false il).add (hX.const_mul x)) (hY.const_mul _), intervalIntegral.integral_add (sigNu_int h sc false il) (hX.const_mul x),
      intervalIntegral.integral_const_mul, intervalIntegral.integral_const_mul, ← hum, ← hsm]
    field_simp
    try rw [hum]

/-- **C137 (scalars, tensors and other neutrinos)** They do not interfere with the Standard Model: if the coefficient of the current is
zero for the neutrino of the same flavour as the lepton, the ratio is at least one. -/
theorem C137_no_interference {nint : Angular.Nint} (hx : Angular.Exact nint) {q : Inp} {s a b : ℝ} (h : GoodNu q s a b) {l : String} {il : Fin 3} (hl : (l, il) ∈ leptonOf)
    (hC : ∀ m n, (q.C ((a + b) / 2)).lq3 il il m n = 0) : ∃ r, ratioNu nint q s a b l = .ok r ∧ 1 ≤ r := by
  obtain ⟨b0, b1, b2⟩ := nu_bin h
  obtain ⟨e, p, -⟩ := C137_ratio hx h hl
  refine ⟨_, e, ?_⟩
  rw [one_le_div p]
  refine intervalIntegral.integral_mono_on b1.le (sigNu_int h _ _ _) (sigNu_int h _ _ _) fun t ht => ?_
  have t0 : 0 < t := b0.trans_le ht.1
  have := h.sp; have := Real.pi_pos
  obtain ⟨n1, n3⟩ := w_nonneg t0 b2.le
  rw [sigNu_eq _ _ _ t0 ht.1 b2.le, sigNu_eq _ _ _ t0 ht.1 b2.le]
  refine hadronicNu_mono (fun i j => h.ln i j t ht) fun i j => mul_le_mul_of_nonneg_left ?_ (by positivity)
  refine Finset.sum_le_sum fun n _ => ?_
  have v : ∀ m k, (fullNu q ((a + b) / 2) false (t * s)).VLL il n m k = 0 ∨ (wcNPNu (q.C ((a + b) / 2)) q.V).VLL il n m k = 0 := by
    intro m k
    by_cases hn : n = il
    · right; subst hn; simp [wcNPNu, hC]
    · left
      rw [show (fullNu q ((a + b) / 2) false (t * s)) = wcSMNu q (t * s) from rfl, (C137_standard_model q (t * s) il n m k).1, if_neg (Ne.symm hn)]
  have ev : ‖(fullNu q ((a + b) / 2) false (t * s)).VLL il n i j‖ ≤ ‖(fullNu q ((a + b) / 2) true (t * s)).VLL il n i j‖ := by
    have : (fullNu q ((a + b) / 2) true (t * s)).VLL il n i j = (fullNu q ((a + b) / 2) false (t * s)).VLL il n i j + (wcNPNu (q.C ((a + b) / 2)) q.V).VLL il n i j := rfl
    rw [this]
    rcases v i j with h0 | h0
    · rw [h0]; simp
    · rw [h0]; simp
  have e1 : (fullNu q ((a + b) / 2) false (t * s)).SRL il n i j = 0 := rfl
  have e2 : (fullNu q ((a + b) / 2) false (t * s)).SRR il n i j = 0 := rfl
  have e3 : (fullNu q ((a + b) / 2) false (t * s)).TRR il n i j = 0 := rfl
  rw [e1, e2, e3, norm_zero]
  have ev2 := pow_le_pow_left₀ (norm_nonneg _) ev 2
  refine add_le_add (mul_le_mul_of_nonneg_left ?_ n1) (mul_le_mul_of_nonneg_left ?_ n3)
  · nlinarith only [ev2, sq_nonneg ‖(fullNu q ((a + b) / 2) true (t * s)).SRL il n i j‖, sq_nonneg ‖(fullNu q ((a + b) / 2) true (t * s)).SRR il n i j‖]
  · nlinarith only [ev2, sq_nonneg ‖(fullNu q ((a + b) / 2) true (t * s)).TRR il n i j‖]

/-! ## Bins -/

theorem prefac_sqrt {t umin umax : ℝ} (ht : 0 < t) :
    prefac1 t umin umax = umax * Real.sqrt (1 - umax / t) - umin * Real.sqrt (1 - umin / t) ∧ prefac2 t umin umax = t * (Real.sqrt (1 - umax / t) - Real.sqrt (1 - umin / t)) := by
  unfold prefac1 prefac2
  by_cases h : t > umax
  · rw [if_pos h, if_pos h]; exact ⟨rfl, rfl⟩
  · have z : Real.sqrt (1 - umax / t) = 0 := Real.sqrt_eq_zero_of_nonpos (by rw [sub_nonpos, one_le_div ht]; exact not_lt.1 h)
    rw [if_neg h, if_neg h, z]
    constructor <;> ring

/-- **C137 (bins)** At fixed scales the cross sections of adjacent bins of the transverse mass add up. -/
theorem C137_bins {nint : Angular.Nint} (hx : Angular.Exact nint) (q : Inp) (s a b c Q2 scale : ℝ) (np : Bool) {l : String} {il : Fin 3} (hl : (l, il) ∈ leptonOf)
    (hs : 0 < s) (ha : 0 < a) (hab : a ≤ b)
    (h1 : IntervalIntegrable (sigNu (q.lumi Q2 (pyInt q.member)) s (a ^ 2 / s) (b ^ 2 / s) il (fullNu q scale np)) volume (a ^ 2 / s) 1)
    (h2 : IntervalIntegrable (sigNu (q.lumi Q2 (pyInt q.member)) s (b ^ 2 / s) (c ^ 2 / s) il (fullNu q scale np)) volume (b ^ 2 / s) 1)
    (hbc : b ≤ c) (hb : b ^ 2 ≤ s) :
    ∃ x y, sigmaNuInt nint q s a b l Q2 scale np = .ok x ∧ sigmaNuInt nint q s b c l Q2 scale np = .ok y ∧ sigmaNuInt nint q s a c l Q2 scale np = .ok (x + y) := by
  refine ⟨_, _, sigmaNuInt_eq nint q s a b Q2 scale np hl, sigmaNuInt_eq nint q s b c Q2 scale np hl, ?_⟩
  rw [sigmaNuInt_eq nint q s a c Q2 scale np hl]
  set lumi := q.lumi Q2 (pyInt q.member)
  set F := fullNu q scale np
  have ua : 0 < a ^ 2 / s := by positivity
  have uab : a ^ 2 / s ≤ b ^ 2 / s := by gcongr
  have ub1 : b ^ 2 / s ≤ 1 := (div_le_one hs).2 hb
  have ubc : b ^ 2 / s ≤ c ^ 2 / s := by have : 0 ≤ b := ha.le.trans hab
                                         gcongr
  have add : ∀ t, 0 < t → sigNu lumi s (a ^ 2 / s) (c ^ 2 / s) il F t = sigNu lumi s (a ^ 2 / s) (b ^ 2 / s) il F t + sigNu lumi s (b ^ 2 / s) (c ^ 2 / s) il F t := by
    intro t ht
    unfold sigNu
    rw [show (fun i j => partialVal s t (a ^ 2 / s) (c ^ 2 / s) (F (t * s)) il i j) = fun i j => partialVal s t (a ^ 2 / s) (b ^ 2 / s) (F (t * s)) il i j + 1 * partialVal s t (b ^ 2 / s) (c ^ 2 / s) (F (t * s)) il i j + 0 * 0 by
      funext i j
      unfold partialVal
      simp only [(prefac_sqrt ht).1, (prefac_sqrt ht).2, Fin.sum_univ_three]
      ring]
    rw [hadronicNu_lin]; ring
  have zero : ∀ t, 0 < t → t ≤ b ^ 2 / s → sigNu lumi s (b ^ 2 / s) (c ^ 2 / s) il F t = 0 := by
    intro t ht htb
    have z1 : Real.sqrt (1 - b ^ 2 / s / t) = 0 := Real.sqrt_eq_zero_of_nonpos (by rw [sub_nonpos, one_le_div ht]; exact htb)
    have z2 : Real.sqrt (1 - c ^ 2 / s / t) = 0 := Real.sqrt_eq_zero_of_nonpos (by rw [sub_nonpos, one_le_div ht]; exact htb.trans ubc)
    unfold sigNu partialVal
    simp [(prefac_sqrt ht).1, (prefac_sqrt ht).2, z1, z2, hadronicNu]
  have hz : IntervalIntegrable (sigNu lumi s (b ^ 2 / s) (c ^ 2 / s) il F) volume (a ^ 2 / s) (b ^ 2 / s) ∧ ∫ t in (a ^ 2 / s)..(b ^ 2 / s), sigNu lumi s (b ^ 2 / s) (c ^ 2 / s) il F t = 0 := by
    have e : (Set.Ioo (a ^ 2 / s) (b ^ 2 / s)).EqOn (sigNu lumi s (b ^ 2 / s) (c ^ 2 / s) il F) (fun _ => 0) := fun t ht => zero t (ua.trans ht.1) ht.2.le
    exact ⟨(intervalIntegrable_congr_uIoo (by rw [Set.uIoo_of_le uab]; exact e)).2 intervalIntegrable_const, by rw [intervalIntegral.integral_congr_Ioo_of_le uab e]; simp⟩
  have h2' := hz.1.trans h2
  have i2 : ∫ t in (a ^ 2 / s)..1, sigNu lumi s (b ^ 2 / s) (c ^ 2 / s) il F t = ∫ t in (b ^ 2 / s)..1, sigNu lumi s (b ^ 2 / s) (c ^ 2 / s) il F t := by
    rw [← intervalIntegral.integral_add_adjacent_intervals hz.1 h2, hz.2, zero_add]
  have eq : (Set.Ioo (a ^ 2 / s) 1).EqOn (sigNu lumi s (a ^ 2 / s) (c ^ 2 / s) il F) (fun t => sigNu lumi s (a ^ 2 / s) (b ^ 2 / s) il F t + sigNu lumi s (b ^ 2 / s) (c ^ 2 / s) il F t) := fun t ht => add t (ua.trans ht.1)
  have hac : IntervalIntegrable (sigNu lumi s (a ^ 2 / s) (c ^ 2 / s) il F) volume (a ^ 2 / s) 1 :=
    (intervalIntegrable_congr_uIoo (by rw [Set.uIoo_of_le (uab.trans ub1)]; exact eq)).2 (h1.add h2')
  rw [hx _ _ _ _ h1, hx _ _ _ _ h2, hx _ _ _ _ hac, intervalIntegral.integral_congr_Ioo_of_le (uab.trans ub1) eq, intervalIntegral.integral_add h1 h2', i2]

/-! ## Matching -/

/-- **C137 (matching)** Expanding the gauge-invariant operators with a charged lepton and a neutrino gives the coefficients used; for the
scalar and tensor operators it is the Hermitian conjugate that contains the outgoing charged lepton. -/
theorem C137_matching (C : Smeft) (V : Fin 3 → Fin 3 → ℂ) (J : Fin 3 → Fin 3 → Fin 2 → Fin 2 → ℂ) (S : Fin 3 → Fin 3 → Fin 2 → ℂ) (b : Bilin) (hJ : ∀ i j a a', (a, a') ≠ (1, 0) → J i j a a' = 0) (hS : ∀ i j, S i j 1 = 0) :
    lagLq C V J b = (∑ i, ∑ j, ∑ k, ∑ l, J i j 1 0 * ((wcNPNu C V).VLL i j k l * b.ud k l))
    ∧ conj (lagLedq C V S b) = (∑ i, ∑ j, ∑ k, ∑ l, conj (S j i 0) * ((wcNPNu C V).SRL i j k l * conj (b.du l k)))
    ∧ conj (lagLequ C.lequ1 V S b) = (∑ i, ∑ j, ∑ k, ∑ l, conj (S j i 0) * ((wcNPNu C V).SRR i j k l * conj (b.du l k)))
    ∧ conj (lagLequ C.lequ3 V S b) = (∑ i, ∑ j, ∑ k, ∑ l, conj (S j i 0) * ((wcNPNu C V).TRR i j k l * conj (b.du l k))) := by
  have z : ∀ i j, J i j 0 0 = 0 ∧ J i j 0 1 = 0 ∧ J i j 1 1 = 0 := fun i j => ⟨hJ _ _ _ _ (by decide), hJ _ _ _ _ (by decide), hJ _ _ _ _ (by decide)⟩
  refine ⟨?_, ?_, ?_, ?_⟩
  · unfold lagLq
    refine Finset.sum_congr rfl fun i _ => Finset.sum_congr rfl fun j _ => ?_
    simp only [wcNPNu, Fin.sum_univ_two, Fin.sum_univ_three, pauli, dbl, (z i j).1, (z i j).2.1, (z i j).2.2]
    ring_nf
    simp only [I_sq]; ring
  all_goals
    first | unfold lagLedq | unfold lagLequ
    rw [Finset.sum_comm, map_sum]
    refine Finset.sum_congr rfl fun j _ => ?_
    rw [map_sum]
    refine Finset.sum_congr rfl fun i _ => ?_
    simp only [wcNPNu, Fin.sum_univ_two, Fin.sum_univ_three, hS i j, eps, map_add, map_mul, map_neg, map_one, map_zero, zero_mul, mul_zero, add_zero, zero_add, mul_one, Complex.conj_conj]
    ring

/-- The hypotheses are met by realistic values and a simple luminosity. -/
example : ∃ q : Inp, GoodNu q (13000 ^ 2) 1000 2000 ∧ (q.C 1500).lq3 0 0 0 0 = 1 / 10 ^ 8 := by
  refine ⟨⟨⟨1.166e-5, 91.19, 1 / 128, 0.23, 125, 172, 0.118, 0.4, fun _ => 0⟩, 80.4, 0.48, fun i j => if i = j then 1 else 0,
    fun _ => ⟨0, fun _ _ _ _ => 1 / 10 ^ 8, 0, 0, 0, 0, 0, 0, 0, 0⟩, fun _ _ _ _ t => (1 - t) ^ 2, 0⟩,
    ⟨by norm_num, by norm_num, by norm_num, by norm_num, by simp, by norm_num, by norm_num, by norm_num, by norm_num, ?_, ?_, ?_⟩, rfl⟩
  · intro i j; exact Continuous.continuousOn (by fun_prop)
  · intro i j t ht; positivity
  · intro t ht
    have : 0 < 1 - t := by linarith [ht.2]
    positivity

end Verif.Dileptons
