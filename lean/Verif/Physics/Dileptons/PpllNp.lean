import Verif.Physics.Dileptons.PpllRatio
/-!
# `pp → ℓ⁺ℓ⁻`: new physics
-/
set_option linter.unusedVariables false
set_option linter.unusedSimpArgs false
namespace Verif.Dileptons
open Verif.Py Verif.Running Complex MeasureTheory

local notation "conj" => starRingEnd ℂ

/-! ## Dependence on the coefficients -/

/-- All coefficients multiplied by a real number. (Specification.) -/
noncomputable def Smeft.smul (x : ℝ) (C : Smeft) : Smeft :=
  ⟨fun i j k l => x * C.lq1 i j k l, fun i j k l => x * C.lq3 i j k l, fun i j k l => x * C.qe i j k l, fun i j k l => x * C.eu i j k l, fun i j k l => x * C.ed i j k l,
    fun i j k l => x * C.lu i j k l, fun i j k l => x * C.ld i j k l, fun i j k l => x * C.ledq i j k l, fun i j k l => x * C.lequ1 i j k l, fun i j k l => x * C.lequ3 i j k l⟩

/-- Real part of the product with the conjugate. (Specification.) -/
noncomputable def dot (a b : ℂ) : ℝ := (a * conj b).re

/-- The interference of two sets of coefficients. (Specification.) -/
noncomputable def cross (A B : Amp) (il i1 i2 : Fin 3) : ℝ :=
  2 * (dot (A.VLL il il i1 i2) (B.VLL il il i1 i2) + dot (A.VLR il il i1 i2) (B.VLR il il i1 i2) + dot (A.VRL il il i1 i2) (B.VRL il il i1 i2) + dot (A.VRR il il i1 i2) (B.VRR il il i1 i2)
    + 3 / 4 * dot (A.SRL il il i1 i2) (B.SRL il il i1 i2) + 3 / 4 * dot (A.SRR il il i1 i2) (B.SRR il il i1 i2) + 4 * dot (A.TRR il il i1 i2) (B.TRR il il i1 i2)
    + 3 / 4 * dot (A.SRL il il i2 i1) (B.SRL il il i2 i1) + 3 / 4 * dot (A.SRR il il i2 i1) (B.SRR il il i2 i1) + 4 * dot (A.TRR il il i2 i1) (B.TRR il il i2 i1))

theorem norm_add_smul (a b : ℂ) (x : ℝ) : ‖a + x * b‖ ^ 2 = ‖a‖ ^ 2 + x * (2 * dot a b) + x ^ 2 * ‖b‖ ^ 2 := by
  simp only [dot, Complex.sq_norm, normSq_apply, add_re, add_im, mul_re, mul_im, ofReal_re, ofReal_im, conj_re, conj_im]; ring

/-- `A` plus `x` times `B`, entry by entry. (Specification.) -/
def IsLin (A B D : Amp) (x : ℝ) : Prop :=
  ∀ i j k l, D.VLL i j k l = A.VLL i j k l + x * B.VLL i j k l ∧ D.VLR i j k l = A.VLR i j k l + x * B.VLR i j k l ∧ D.VRL i j k l = A.VRL i j k l + x * B.VRL i j k l
    ∧ D.VRR i j k l = A.VRR i j k l + x * B.VRR i j k l ∧ D.SRL i j k l = A.SRL i j k l + x * B.SRL i j k l ∧ D.SRR i j k l = A.SRR i j k l + x * B.SRR i j k l ∧ D.TRR i j k l = A.TRR i j k l + x * B.TRR i j k l

theorem sumSq_lin {A B D : Amp} {x : ℝ} (h : IsLin A B D x) (il i j : Fin 3) : sumSq D il i j = sumSq A il i j + x * cross A B il i j + x ^ 2 * sumSq B il i j := by
  obtain ⟨h1, h2, h3, h4, h5, h6, h7⟩ := h il il i j
  obtain ⟨_, _, _, _, g5, g6, g7⟩ := h il il j i
  unfold sumSq cross
  rw [h1, h2, h3, h4, h5, h6, h7, g5, g6, g7]
  simp only [norm_add_smul]; ring

theorem full_lin (q : Inp) (scale x sh : ℝ) (U : UD) :
    IsLin (full q scale false sh U) (wcNP (q.C scale) q.V U) (full { q with C := fun sc => (q.C sc).smul x } scale true sh U) x := by
  intro i j k l
  cases U <;> simp only [full, addWc, wcSM, wcNP, Smeft.smul, Pi.add_apply, Pi.zero_apply, if_true, if_false, Bool.false_eq_true, mul_zero, add_zero, zero_add, Finset.mul_sum] <;>
    refine ⟨?_, ?_, ?_, ?_, ?_, ?_, ?_⟩ <;> first | rfl | trivial | ring_nf

theorem dot_cont {f : ℝ → ℂ} {S : Set ℝ} (h : ContinuousOn f S) (z : ℂ) : ContinuousOn (fun t => dot (f t) z) S := by
  unfold dot
  exact Complex.continuous_re.comp_continuousOn (h.mul continuousOn_const)

theorem cross_cont {A : ℝ → Amp} {S : Set ℝ} (h : ContAmp A S) (B : Amp) (il i j : Fin 3) : ContinuousOn (fun t => cross (A t) B il i j) S := by
  obtain ⟨h1, h2, h3, h4, h5, h6, h7⟩ := h il il i j
  obtain ⟨_, _, _, _, g5, g6, g7⟩ := h il il j i
  unfold cross
  refine continuousOn_const.mul ?_
  exact (((((((((dot_cont h1 _).add (dot_cont h2 _)).add (dot_cont h3 _)).add (dot_cont h4 _)).add (continuousOn_const.mul (dot_cont h5 _))).add (continuousOn_const.mul (dot_cont h6 _))).add
    (continuousOn_const.mul (dot_cont h7 _))).add (continuousOn_const.mul (dot_cont g5 _))).add (continuousOn_const.mul (dot_cont g6 _))).add (continuousOn_const.mul (dot_cont g7 _))

/-- The same with another set of coefficients. -/
theorem good_smul {q : Inp} {s a b : ℝ} (h : Good q s a b) (D : ℝ → Smeft) : Good { q with C := D } s a b :=
  ⟨h.s0, h.s1, h.al, h.mZ, h.tZ, h.sp, h.ap, h.ab, h.lc, h.ln, h.ld⟩

/-- **C136 (quadratic)** If all coefficients are multiplied by a real number `x`, the ratio is a polynomial of second degree in `x`,
`1 + A x + B x²`, with `B ≥ 0`: one for `x = 0`, an interference term and the square of the new amplitude. -/
theorem C136_quadratic {nint : Angular.Nint} (hx : Angular.Exact nint) {q : Inp} {s a b : ℝ} (h : Good q s a b) {l : String} {il : Fin 3} (hl : (l, il) ∈ leptonOf) :
    ∃ A B : ℝ, 0 ≤ B ∧ ∀ x : ℝ, ratio nint { q with C := fun sc => (q.C sc).smul x } s a b l = .ok (1 + A * x + B * x ^ 2) := by
  set lumi := q.lumi (((a + b) / 2) ^ 2) (pyInt q.member) with hlumi
  set sc := (a + b) / 2 with hsc
  obtain ⟨b0, b1⟩ := bin_lt h
  set sm := ∫ t in (a ^ 2 / s)..(b ^ 2 / s), sigAt lumi s il (full q sc false) t with hsm
  have hp : 0 < sm := sm_pos h sc il
  let X : ℝ → ℝ := fun t => hadronic lumi t fun U i j => t * s / (144 * Real.pi) * cross (full q sc false (t * s) U) (wcNP (q.C sc) q.V U) il i j
  let Y : ℝ → ℝ := fun t => hadronic lumi t fun U i j => t * s / (144 * Real.pi) * sumSq (wcNP (q.C sc) q.V U) il i j
  have hX : IntervalIntegrable X volume (a ^ 2 / s) (b ^ 2 / s) := by
    refine ContinuousOn.intervalIntegrable ?_
    rw [Set.uIcc_of_le b1.le]
    exact hadronic_cont h.lc fun U i j => (Continuous.continuousOn (by fun_prop)).mul (cross_cont (full_cont h sc false U) _ il i j)
  have hY : IntervalIntegrable Y volume (a ^ 2 / s) (b ^ 2 / s) := by
    refine ContinuousOn.intervalIntegrable ?_
    rw [Set.uIcc_of_le b1.le]
    exact hadronic_cont h.lc fun U i j => (Continuous.continuousOn (by fun_prop)).mul continuousOn_const
  refine ⟨(∫ t in (a ^ 2 / s)..(b ^ 2 / s), X t) / sm, (∫ t in (a ^ 2 / s)..(b ^ 2 / s), Y t) / sm, div_nonneg ?_ hp.le, fun x => ?_⟩
  · refine intervalIntegral.integral_nonneg b1.le fun t ht => ?_
    have t0 : 0 < t := b0.trans_le ht.1
    have := h.sp; have := Real.pi_pos
    show 0 ≤ hadronic lumi t _
    rw [← hadronic_zero lumi t]
    exact hadronic_mono (fun i j => h.ln i j t ht) fun U i j => mul_nonneg (by positivity) (sumSq_nonneg _ _ _ _)
  · obtain ⟨e, -⟩ := C136_ratio hx (good_smul h fun sc => (q.C sc).smul x) hl
    rw [e]
    refine congrArg Except.ok ?_
    have e1 : ∀ t, sigAt lumi s il (full { q with C := fun sc => (q.C sc).smul x } sc true) t = sigAt lumi s il (full q sc false) t + x * X t + x ^ 2 * Y t := by
      intro t
      rw [sigAt_eq, sigAt_eq, ← hadronic_lin]
      refine congrArg _ (funext fun U => funext fun i => funext fun j => ?_)
      rw [sumSq_lin (full_lin q sc x (t * s) U)]; ring
    show (∫ t in (a ^ 2 / s)..(b ^ 2 / s), sigAt lumi s il (full { q with C := fun sc => (q.C sc).smul x } sc true) t) / sm = _
    simp only [e1]
    rw [intervalIntegral.integral_add ((sigAt_int h sc false il).add (hX.const_mul x)) (hY.const_mul _), intervalIntegral.integral_add (sigAt_int h sc false il) (hX.const_mul x),
      intervalIntegral.integral_const_mul, intervalIntegral.integral_const_mul, ← hsm]
    field_simp

/-- **C136 (scalars and tensors)** They do not interfere with the Standard Model: if only the coefficients of the scalar and tensor
operators are non-zero, the ratio is at least one. -/
theorem C136_scalars {nint : Angular.Nint} (hx : Angular.Exact nint) {q : Inp} {s a b : ℝ} (h : Good q s a b) {l : String} {il : Fin 3} (hl : (l, il) ∈ leptonOf)
    (hC : ∃ x y z, q.C ((a + b) / 2) = ⟨0, 0, 0, 0, 0, 0, 0, x, y, z⟩) : ∃ r, ratio nint q s a b l = .ok r ∧ 1 ≤ r := by
  obtain ⟨e, p, -⟩ := C136_ratio hx h hl
  refine ⟨_, e, ?_⟩
  rw [one_le_div p]
  refine intervalIntegral.integral_mono_on (bin_lt h).2.le (sigAt_int h _ _ _) (sigAt_int h _ _ _) fun t ht => ?_
  have t0 : 0 < t := (bin_lt h).1.trans_le ht.1
  have := h.sp; have := Real.pi_pos
  rw [sigAt_eq, sigAt_eq]
  refine hadronic_mono (fun i j => h.ln i j t ht) fun U i j => mul_le_mul_of_nonneg_left ?_ (by positivity)
  obtain ⟨x, y, z, hC⟩ := hC
  unfold sumSq
  have v : ∀ i j k l, (wcNP (q.C ((a + b) / 2)) q.V U).VLL i j k l = 0 ∧ (wcNP (q.C ((a + b) / 2)) q.V U).VLR i j k l = 0 ∧ (wcNP (q.C ((a + b) / 2)) q.V U).VRL i j k l = 0 ∧ (wcNP (q.C ((a + b) / 2)) q.V U).VRR i j k l = 0 := by
    intro i j k l; cases U <;> simp [wcNP, hC]
  simp only [full, addWc, if_true, if_false, Bool.false_eq_true, Pi.add_apply, (v _ _ _ _).1, (v _ _ _ _).2.1, (v _ _ _ _).2.2.1, (v _ _ _ _).2.2.2, add_zero]
  simp only [wcSM, Pi.zero_apply, norm_zero, zero_add]
  nlinarith only [sq_nonneg ‖(wcNP (q.C ((a + b) / 2)) q.V U).SRL il il i j‖, sq_nonneg ‖(wcNP (q.C ((a + b) / 2)) q.V U).SRR il il i j‖, sq_nonneg ‖(wcNP (q.C ((a + b) / 2)) q.V U).TRR il il i j‖,
    sq_nonneg ‖(wcNP (q.C ((a + b) / 2)) q.V U).SRL il il j i‖, sq_nonneg ‖(wcNP (q.C ((a + b) / 2)) q.V U).SRR il il j i‖, sq_nonneg ‖(wcNP (q.C ((a + b) / 2)) q.V U).TRR il il j i‖]

/-- **C136 (lepton flavour)** Only coefficients with the lepton of the final state in both places enter, and no coefficient with a
right-handed top quark. -/
theorem C136_flavour (nint : Angular.Nint) (q : Inp) (D : ℝ → Smeft) (s a b : ℝ) {l : String} {il : Fin 3} (hl : (l, il) ∈ leptonOf)
    (h : ∀ m n, let C := q.C ((a + b) / 2); let D := D ((a + b) / 2)
      C.lq1 il il m n = D.lq1 il il m n ∧ C.lq3 il il m n = D.lq3 il il m n ∧ C.qe m n il il = D.qe m n il il ∧ C.ed il il m n = D.ed il il m n ∧ C.ld il il m n = D.ld il il m n ∧ C.ledq il il m n = D.ledq il il m n
      ∧ (n ≠ 2 → C.lequ1 il il m n = D.lequ1 il il m n ∧ C.lequ3 il il m n = D.lequ3 il il m n) ∧ (m ≠ 2 → n ≠ 2 → C.eu il il m n = D.eu il il m n ∧ C.lu il il m n = D.lu il il m n)) :
    ratio nint { q with C := D } s a b l = ratio nint q s a b l := by
  have key : ∀ lumi, sigAt lumi s il (full { q with C := D } ((a + b) / 2) true) = sigAt lumi s il (full q ((a + b) / 2) true) := by
    intro lumi
    funext t
    rw [sigAt_eq, sigAt_eq]
    have hd : ∀ i j, sumSq (full { q with C := D } ((a + b) / 2) true (t * s) .d) il i j = sumSq (full q ((a + b) / 2) true (t * s) .d) il i j := by
      intro i j
      unfold sumSq
      simp only [full, addWc, wcNP, if_true, Pi.add_apply, Pi.zero_apply, fun m n => ((h m n).1).symm, fun m n => ((h m n).2.1).symm, fun m n => ((h m n).2.2.1).symm, fun m n => ((h m n).2.2.2.1).symm,
        fun m n => ((h m n).2.2.2.2.1).symm, fun m n => ((h m n).2.2.2.2.2.1).symm]
    have hu : ∀ i j, i ≠ 2 → j ≠ 2 → sumSq (full { q with C := D } ((a + b) / 2) true (t * s) .u) il i j = sumSq (full q ((a + b) / 2) true (t * s) .u) il i j := by
      intro i j hi hj
      unfold sumSq
      have h1 := h i j; have h2 := h j i
      simp only [full, addWc, wcNP, if_true, Pi.add_apply, Pi.zero_apply, ← h1.1, ← h1.2.1, ← h1.2.2.1, ← (h1.2.2.2.2.2.2.2 hi hj).1, ← (h1.2.2.2.2.2.2.2 hi hj).2, ← (h1.2.2.2.2.2.2.1 hj).1, ← (h1.2.2.2.2.2.2.1 hj).2,
        ← (h2.2.2.2.2.2.2.1 hi).1, ← (h2.2.2.2.2.2.2.1 hi).2]
    unfold hadronic
    congr 1
    · refine Finset.sum_congr rfl fun i _ => Finset.sum_congr rfl fun j _ => ?_
      have hne : ∀ i : Fin 2, i.castSucc ≠ (2 : Fin 3) := by decide
      beta_reduce
      rw [hu _ _ (hne i) (hne j)]
    · refine Finset.sum_congr rfl fun i _ => Finset.sum_congr rfl fun j _ => ?_
      beta_reduce
      rw [hd]
  rw [ratio_eq _ _ _ _ _ hl, ratio_eq _ _ _ _ _ hl]
  rw [show full { q with C := D } ((a + b) / 2) false = full q ((a + b) / 2) false from rfl]
  simp only [key]

/-! ## Matching -/

/-- **C136 (currents of doublets)** The coefficients of `O_lq^(1)` and `O_lq^(3)` in the basis of charged leptons and quarks of definite
charge and mass: expanding the gauge-invariant operators with charged leptons only gives the coefficients used. -/
theorem C136_matching (C : Smeft) (V : Fin 3 → Fin 3 → ℂ) (J : Fin 3 → Fin 3 → Fin 2 → Fin 2 → ℂ) (b : Bilin) (hJ : ∀ i j a a', (a, a') ≠ (1, 1) → J i j a a' = 0) :
    lagLq C V J b = ∑ i, ∑ j, ∑ k, ∑ l, J i j 1 1 * ((wcNP C V .u).VLL i j k l * b.uu k l + (wcNP C V .d).VLL i j k l * b.dd k l) := by
  have z : ∀ i j, J i j 0 0 = 0 ∧ J i j 0 1 = 0 ∧ J i j 1 0 = 0 := fun i j => ⟨hJ _ _ _ _ (by decide), hJ _ _ _ _ (by decide), hJ _ _ _ _ (by decide)⟩
  unfold lagLq
  refine Finset.sum_congr rfl fun i _ => Finset.sum_congr rfl fun j _ => ?_
  simp only [wcNP, Fin.sum_univ_two, Fin.sum_univ_three, pauli, dbl, (z i j).1, (z i j).2.1, (z i j).2.2]
  ring

/-- **C136 (other operators)** The same for the operator with right-handed leptons and quark doublets and for the scalar and tensor
operators. -/
theorem C136_matching_others (C : Smeft) (V : Fin 3 → Fin 3 → ℂ) (E : Fin 3 → Fin 3 → ℂ) (S : Fin 3 → Fin 3 → Fin 2 → ℂ) (b : Bilin) (hS : ∀ i j, S i j 0 = 0) :
    lagQe C V E b = (∑ i, ∑ j, ∑ k, ∑ l, E i j * ((wcNP C V .u).VRL i j k l * b.uu k l + (wcNP C V .d).VRL i j k l * b.dd k l))
    ∧ lagLedq C V S b = (∑ i, ∑ j, ∑ k, ∑ l, S i j 1 * ((wcNP C V .u).SRL i j k l * b.uu k l + (wcNP C V .d).SRL i j k l * b.dd k l))
    ∧ lagLequ C.lequ1 V S b = (∑ i, ∑ j, ∑ k, ∑ l, S i j 1 * ((wcNP C V .u).SRR i j k l * b.uu k l + (wcNP C V .d).SRR i j k l * b.dd k l))
    ∧ lagLequ C.lequ3 V S b = (∑ i, ∑ j, ∑ k, ∑ l, S i j 1 * ((wcNP C V .u).TRR i j k l * b.uu k l + (wcNP C V .d).TRR i j k l * b.dd k l)) := by
  refine ⟨?_, ?_, ?_, ?_⟩
  · unfold lagQe
    rw [show (∑ m, ∑ n, ∑ i, ∑ j, C.qe m n i j * (∑ c, dbl V b m n c c) * E i j) = ∑ i, ∑ j, ∑ m, ∑ n, C.qe m n i j * (∑ c, dbl V b m n c c) * E i j by
      simp only [Fin.sum_univ_three]; ring]
    refine Finset.sum_congr rfl fun i _ => Finset.sum_congr rfl fun j _ => ?_
    simp only [wcNP, Fin.sum_univ_two, Fin.sum_univ_three, dbl]
    ring
  all_goals
    first | unfold lagLedq | unfold lagLequ
    refine Finset.sum_congr rfl fun i _ => Finset.sum_congr rfl fun j _ => ?_
    simp only [wcNP, Fin.sum_univ_two, Fin.sum_univ_three, hS i j, eps, Pi.zero_apply]
    ring

/-- **C136 (universality)** Couplings that are the same for all generations of quarks stay flavour diagonal for down quarks: there are no
flavour changing neutral currents for a unitary CKM matrix. -/
theorem C136_gim (C : Smeft) (V : Matrix (Fin 3) (Fin 3) ℂ) (hV : V.conjTranspose * V = 1) (x y : Fin 3 → Fin 3 → ℂ)
    (h1 : ∀ i j m n, C.lq1 i j m n + C.lq3 i j m n = x i j * if m = n then 1 else 0) (h2 : ∀ i j m n, C.qe m n i j = y i j * if m = n then 1 else 0) (i j k l : Fin 3) :
    (wcNP C V .d).VLL i j k l = (x i j * if k = l then 1 else 0) ∧ (wcNP C V .d).VRL i j k l = y i j * if k = l then 1 else 0 := by
  have e : ∑ m, conj (V m k) * V m l = if k = l then 1 else 0 := by
    have := congrFun (congrFun hV k) l
    rw [Matrix.mul_apply, Matrix.one_apply] at this
    exact this
  constructor
  · show ∑ m, ∑ n, (C.lq1 i j m n + C.lq3 i j m n) * conj (V m k) * V n l = _
    rw [← e, Finset.mul_sum]
    refine Finset.sum_congr rfl fun m _ => ?_
    simp only [h1]
    rw [Finset.sum_eq_single m (fun n _ hn => by rw [if_neg (Ne.symm hn)]; ring) (fun h => absurd (Finset.mem_univ m) h), if_pos rfl]; ring
  · show ∑ m, ∑ n, C.qe m n i j * conj (V m k) * V n l = _
    rw [← e, Finset.mul_sum]
    refine Finset.sum_congr rfl fun m _ => ?_
    simp only [h2]
    rw [Finset.sum_eq_single m (fun n _ hn => by rw [if_neg (Ne.symm hn)]; ring) (fun h => absurd (Finset.mem_univ m) h), if_pos rfl]; ring

/-- **C136 (bins)** At fixed scales the cross sections of adjacent bins add up. -/
theorem C136_bins {nint : Angular.Nint} (hx : Angular.Exact nint) (q : Inp) (s a b c Q2 scale : ℝ) (np : Bool) {l : String} {il : Fin 3} (hl : (l, il) ∈ leptonOf)
    (h1 : IntervalIntegrable (sigAt (q.lumi Q2 (pyInt q.member)) s il (full q scale np)) volume (a ^ 2 / s) (b ^ 2 / s))
    (h2 : IntervalIntegrable (sigAt (q.lumi Q2 (pyInt q.member)) s il (full q scale np)) volume (b ^ 2 / s) (c ^ 2 / s)) :
    ∃ x y, sigmaInt nint q s a b l Q2 scale np = .ok x ∧ sigmaInt nint q s b c l Q2 scale np = .ok y ∧ sigmaInt nint q s a c l Q2 scale np = .ok (x + y) := by
  refine ⟨_, _, sigmaInt_eq nint q s a b Q2 scale np hl, sigmaInt_eq nint q s b c Q2 scale np hl, ?_⟩
  rw [sigmaInt_eq nint q s a c Q2 scale np hl, hx _ _ _ _ h1, hx _ _ _ _ h2, hx _ _ _ _ (h1.trans h2), intervalIntegral.integral_add_adjacent_intervals h1 h2]

/-- **C136 (names)** The observables. -/
theorem C136_names : names = ["R_13(pp->ee)", "R_13(pp->mumu)", "R_13(pp->enu)", "R_13(pp->munu)"] := by decide +kernel

/-- The hypotheses are met by realistic values and a simple luminosity. -/
example : ∃ q : Inp, Good q (13000 ^ 2) 1000 2000 ∧ (q.C 1500).lq1 0 0 0 0 = 1 / 10 ^ 8 := by
  refine ⟨⟨⟨1.166e-5, 91.19, 1 / 128, 0.23, 125, 172, 0.118, 0.4, fun _ => 0⟩, 80.4, 0.48, fun i j => if i = j then 1 else 0,
    fun _ => ⟨fun _ _ _ _ => 1 / 10 ^ 8, 0, 0, 0, 0, 0, 0, 0, 0, 0⟩, fun _ _ _ _ t => (1 - t) ^ 2, 0⟩, ⟨by norm_num, by norm_num, by norm_num, by norm_num, by norm_num, by norm_num, by norm_num, by norm_num, ?_, ?_, ?_⟩, rfl⟩
  · intro i j; exact Continuous.continuousOn (by fun_prop)
  · intro i j t ht; positivity
  · intro t ht
    have : t ≤ 2000 ^ 2 / 13000 ^ 2 := ht.2
    have : t < 1 := this.trans_lt (by norm_num)
    have : 0 < 1 - t := by linarith
    positivity

end Verif.Dileptons
