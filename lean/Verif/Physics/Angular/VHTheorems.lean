import Verif.Physics.Angular.VH
/-!
# Properties of the interference coefficients and of the time-averaged `B_s` observables
-/
set_option linter.unusedVariables false
set_option linter.unusedSimpArgs false
namespace Verif.Angular
open Verif.Common Complex ComplexConjugate

/-- **Specification.** `x = a - b - c`, entry by entry. -/
def IsDiff (x a b c : JV) : Prop := ∀ i, x.get i = a.get i - b.get i - c.get i

theorem scale_smul (w : ℂ) (hw : ‖w‖ = 1) (H : AmpV) (q2 m1 m2 : ℝ) :
    gbasisV0 (H.smul w) q2 m1 m2 = gbasisV0 H q2 m1 m2 := by
  have hn : ∀ a : ℂ, ‖w * a‖ = ‖a‖ := by intro a; rw [norm_mul, hw, one_mul]
  have hww : w * conj w = 1 := by
    rw [mul_conj, ← Complex.sq_norm, hw]; norm_num
  have hb : ∀ a b : ℂ, w * a * conj (w * b) = a * conj b := by
    intro a b; rw [map_mul]; linear_combination (a * conj b) * hww
  have hb2 : ∀ a b : ℂ, 2 * (w * a) * conj (w * b) = 2 * a * conj b := by
    intro a b; rw [map_mul]; linear_combination (2 * a * conj b) * hww
  have hb3 : ∀ (r : ℝ) (a b : ℂ), (r : ℂ) * (w * a) * conj (w * b) = r * a * conj b := by
    intro r a b; rw [map_mul]; linear_combination (r * a * conj b) * hww
  unfold gbasisV0 g000 g010 g020 g200 g210 g220 g211 g221 g222 AmpV.smul
  simp only [hn, hb, hb2, hb3]

theorem angularV_smul (w : ℂ) (hw : ‖w‖ = 1) (H : AmpV) (q2 mB mV m1 m2 : ℝ) :
    angularV (H.smul w) q2 mB mV m1 m2 = angularV H q2 mB mV m1 m2 := by
  unfold angularV gbasisV; rw [scale_smul w hw]

theorem isDiff_of_pol (qp : ℂ) (H Ht : AmpV) (q2 mB mV m1 m2 : ℝ) :
    IsDiff (signflip (gToG ((hbasisV0 qp H Ht q2 m1 m2).scale (phaseSpace (2 ^ 9 * Real.pi ^ 3) q2 mB mV m1 m2))))
      (angularV (H.add (Ht.smul (-qp))) q2 mB mV m1 m2) (angularV H q2 mB mV m1 m2)
      (angularV (Ht.smul (-qp)) q2 mB mV m1 m2) := by
  intro i
  cases i <;> simp only [JV.get, angularV, signflip, gToG, gbasisV, gbasisV0, hbasisV0, GV.scale, pol000, pol010,
    pol020, pol200, pol210, pol220, pol211, pol221, pol222, mul_sub, sub_re, sub_im] <;> ring

theorem hneg000 (qp : ℂ) (H Ht : AmpV) (la E1 E2 m1 m2 q2 : ℝ) : h000 (-qp) H Ht la E1 E2 m1 m2 q2
    = -h000 qp H Ht la E1 E2 m1 m2 q2 := by
  unfold h000
  simp only [neg_mul, map_neg, neg_neg, neg_re, neg_im, add_re, add_im, sub_re, sub_im, mul_add, add_mul, mul_neg]
  ring

theorem hneg010 (qp : ℂ) (H Ht : AmpV) (la E1 E2 m1 m2 q2 : ℝ) : h010 (-qp) H Ht la E1 E2 m1 m2 q2
    = -h010 qp H Ht la E1 E2 m1 m2 q2 := by
  unfold h010
  simp only [neg_mul, map_neg, neg_neg, neg_re, neg_im, add_re, add_im, sub_re, sub_im, mul_add, add_mul, mul_neg]
  ring

theorem hneg020 (qp : ℂ) (H Ht : AmpV) (la E1 E2 m1 m2 q2 : ℝ) : h020 (-qp) H Ht la E1 E2 m1 m2 q2
    = -h020 qp H Ht la E1 E2 m1 m2 q2 := by
  unfold h020
  simp only [neg_mul, map_neg, neg_neg, neg_re, neg_im, add_re, add_im, sub_re, sub_im, mul_add, add_mul, mul_neg]
  ring

theorem hneg200 (qp : ℂ) (H Ht : AmpV) (la E1 E2 m1 m2 q2 : ℝ) : h200 (-qp) H Ht la E1 E2 m1 m2 q2
    = -h200 qp H Ht la E1 E2 m1 m2 q2 := by
  unfold h200
  simp only [neg_mul, map_neg, neg_neg, neg_re, neg_im, add_re, add_im, sub_re, sub_im, mul_add, add_mul, mul_neg]
  ring

theorem hneg210 (qp : ℂ) (H Ht : AmpV) (la E1 E2 m1 m2 q2 : ℝ) : h210 (-qp) H Ht la E1 E2 m1 m2 q2
    = -h210 qp H Ht la E1 E2 m1 m2 q2 := by
  unfold h210
  simp only [neg_mul, map_neg, neg_neg, neg_re, neg_im, add_re, add_im, sub_re, sub_im, mul_add, add_mul, mul_neg]
  ring

theorem hneg220 (qp : ℂ) (H Ht : AmpV) (la E1 E2 m1 m2 q2 : ℝ) : h220 (-qp) H Ht la E1 E2 m1 m2 q2
    = -h220 qp H Ht la E1 E2 m1 m2 q2 := by
  unfold h220
  simp only [neg_mul, map_neg, neg_neg, neg_re, neg_im, add_re, add_im, sub_re, sub_im, mul_add, add_mul, mul_neg]
  ring

theorem hneg211 (qp : ℂ) (H Ht : AmpV) (la E1 E2 m1 m2 q2 : ℝ) : h211 (-qp) H Ht la E1 E2 m1 m2 q2
    = -h211 qp H Ht la E1 E2 m1 m2 q2 := by
  unfold h211
  simp only [map_neg]
  ring

theorem hneg221 (qp : ℂ) (H Ht : AmpV) (la E1 E2 m1 m2 q2 : ℝ) : h221 (-qp) H Ht la E1 E2 m1 m2 q2
    = -h221 qp H Ht la E1 E2 m1 m2 q2 := by
  unfold h221
  simp only [map_neg]
  ring

theorem hneg222 (qp : ℂ) (H Ht : AmpV) (la E1 E2 m1 m2 q2 : ℝ) : h222 (-qp) H Ht la E1 E2 m1 m2 q2
    = -h222 qp H Ht la E1 E2 m1 m2 q2 := by
  unfold h222
  simp only [map_neg]
  ring

theorem norm_w (phi : ℝ) : ‖Complex.exp (I * phi)‖ = 1 := by
  rw [mul_comm]; exact norm_exp_ofReal_mul_I phi

/-- **C83 (interference).** The coefficients returned for the mixing phase `φ` are the interference terms between
the amplitudes `H` and `e^{iφ} H̃`: the coefficients of the sum of the two amplitudes minus those of each of them
— and, changing the sign of the interference, of the difference.  Hence at every point of the angular phase space
they are bounded by the sum of the two rates. -/
theorem C83_interference (phi : ℝ) (H Ht : AmpV) (q2 mB mV m1 m2 : ℝ) :
    IsDiff (angularHV phi H Ht q2 mB mV m1 m2) (angularV (H.add (Ht.smul (Complex.exp (I * phi)))) q2 mB mV m1 m2)
      (angularV H q2 mB mV m1 m2) (angularV Ht q2 mB mV m1 m2) ∧
    (∀ i, -(angularHV phi H Ht q2 mB mV m1 m2).get i
      = (angularV (H.add (Ht.smul (-Complex.exp (I * phi)))) q2 mB mV m1 m2).get i
        - (angularV H q2 mB mV m1 m2).get i - (angularV Ht q2 mB mV m1 m2).get i) ∧
    (Phys q2 mB m1 m2 → ∀ tK tl ph, |rateV (angularHV phi H Ht q2 mB mV m1 m2) tK tl ph|
      ≤ rateV (angularV H q2 mB mV m1 m2) tK tl ph + rateV (angularV Ht q2 mB mV m1 m2) tK tl ph) := by
  have h1 : IsDiff (angularHV phi H Ht q2 mB mV m1 m2)
      (angularV (H.add (Ht.smul (Complex.exp (I * phi)))) q2 mB mV m1 m2)
      (angularV H q2 mB mV m1 m2) (angularV Ht q2 mB mV m1 m2) := by
    have := isDiff_of_pol (-Complex.exp (I * phi)) H Ht q2 mB mV m1 m2
    rw [neg_neg, angularV_smul _ (norm_w phi)] at this
    exact this
  have h2 : ∀ i, -(angularHV phi H Ht q2 mB mV m1 m2).get i
      = (angularV (H.add (Ht.smul (-Complex.exp (I * phi)))) q2 mB mV m1 m2).get i
        - (angularV H q2 mB mV m1 m2).get i - (angularV Ht q2 mB mV m1 m2).get i := by
    have := isDiff_of_pol (Complex.exp (I * phi)) H Ht q2 mB mV m1 m2
    rw [angularV_smul _ (by rw [norm_neg, norm_w])] at this
    intro i
    rw [← this i]
    cases i <;> simp only [JV.get, angularHV, hbasisV, signflip, gToG, hbasisV0, GV.scale, hneg000, hneg010, hneg020,
      hneg200, hneg210, hneg220, hneg211, hneg221, hneg222, mul_neg, neg_re, neg_im] <;> ring
  refine ⟨h1, h2, ?_⟩
  intro p tK tl ph
  have n1 := C80_distribution_nonneg (H.add (Ht.smul (Complex.exp (I * phi)))) q2 mB mV m1 m2 p.hB p.h1 p.h2 p.hq p.th
    tK tl ph
  have n2 := C80_distribution_nonneg (H.add (Ht.smul (-Complex.exp (I * phi)))) q2 mB mV m1 m2 p.hB p.h1 p.h2 p.hq p.th
    tK tl ph
  have lin : ∀ x a b c : JV, IsDiff x a b c →
      rateV x tK tl ph = rateV a tK tl ph - rateV b tK tl ph - rateV c tK tl ph := by
    intro x a b c h
    have e1 := h .i1s; have e2 := h .i1c; have e3 := h .i2s; have e4 := h .i2c; have e5 := h .i6s
    have e6 := h .i6c; have e7 := h .i3; have e8 := h .i4; have e9 := h .i5; have e10 := h .i7
    have e11 := h .i8; have e12 := h .i9
    simp only [JV.get] at e1 e2 e3 e4 e5 e6 e7 e8 e9 e10 e11 e12
    unfold rateV
    rw [e1, e2, e3, e4, e5, e6, e7, e8, e9, e10, e11, e12]; ring
  have l1 := lin _ _ _ _ h1
  have l2 := lin ⟨-(angularHV phi H Ht q2 mB mV m1 m2).j1s, -(angularHV phi H Ht q2 mB mV m1 m2).j1c,
    -(angularHV phi H Ht q2 mB mV m1 m2).j2s, -(angularHV phi H Ht q2 mB mV m1 m2).j2c,
    -(angularHV phi H Ht q2 mB mV m1 m2).j6s, -(angularHV phi H Ht q2 mB mV m1 m2).j6c,
    -(angularHV phi H Ht q2 mB mV m1 m2).j3, -(angularHV phi H Ht q2 mB mV m1 m2).j4,
    -(angularHV phi H Ht q2 mB mV m1 m2).j5, -(angularHV phi H Ht q2 mB mV m1 m2).j7,
    -(angularHV phi H Ht q2 mB mV m1 m2).j8, -(angularHV phi H Ht q2 mB mV m1 m2).j9⟩ _ _ _
    (fun i => by rw [← h2 i]; cases i <;> rfl)
  have l3 : rateV ⟨-(angularHV phi H Ht q2 mB mV m1 m2).j1s, -(angularHV phi H Ht q2 mB mV m1 m2).j1c,
    -(angularHV phi H Ht q2 mB mV m1 m2).j2s, -(angularHV phi H Ht q2 mB mV m1 m2).j2c,
    -(angularHV phi H Ht q2 mB mV m1 m2).j6s, -(angularHV phi H Ht q2 mB mV m1 m2).j6c,
    -(angularHV phi H Ht q2 mB mV m1 m2).j3, -(angularHV phi H Ht q2 mB mV m1 m2).j4,
    -(angularHV phi H Ht q2 mB mV m1 m2).j5, -(angularHV phi H Ht q2 mB mV m1 m2).j7,
    -(angularHV phi H Ht q2 mB mV m1 m2).j8, -(angularHV phi H Ht q2 mB mV m1 m2).j9⟩ tK tl ph
      = -rateV (angularHV phi H Ht q2 mB mV m1 m2) tK tl ph := by
    unfold rateV; ring
  rw [l3] at l2
  rw [abs_le]
  constructor <;> linarith

/-! ## Time-averaged `B_s` observables -/

/-- `h_tilde` from `h_bar`: helicities of the vector and axial amplitudes exchanged, scalar amplitude with the
opposite sign (the tensor amplitudes are copied without exchanging the helicities).
/repo/flavio/physics/bdecays/bvll/observables_bs.py:26-31. -/
def hTilde (Hb : AmpV) : AmpV :=
  { Hb with plV := Hb.miV, plA := Hb.miA, miV := Hb.plV, miA := Hb.plA, S := -Hb.S }

/-- `phi = cmath.phase(-q_over_p)`.  /repo/flavio/physics/bdecays/bvll/observables_bs.py:33. -/
noncomputable def phiBs (qOverP : ℂ) : ℝ := arg (-qOverP)

/-- `S_theory_num_Bs`.  /repo/flavio/physics/bdecays/bvll/observables_bs.py:37-40. -/
noncomputable def sTheoryNumBs (y : ℝ) (J Jb Jh : JV) (i : Idx) : ℝ :=
  1 / (1 - y ^ 2) * (J.get i + Jb.get i) - y / (1 - y ^ 2) * Jh.get i

/-- `S_experiment_num_Bs`.  /repo/flavio/physics/bdecays/bvll/observables_bs.py:42-45. -/
noncomputable def sExpNumBs (y : ℝ) (J Jb Jh : JV) (i : Idx) : ℝ :=
  if flips i then -sTheoryNumBs y J Jb Jh i else sTheoryNumBs y J Jb Jh i

/-- `dGdq2_ave_Bs`.  /repo/flavio/physics/bdecays/bvll/observables_bs.py:55-59. -/
noncomputable def dGdq2AveBs (y : ℝ) (J Jb Jh : JV) : ℝ :=
  (1 / (1 - y ^ 2) * (dGdq2 J + dGdq2 Jb) - y / (1 - y ^ 2) * dGdq2 Jh) / 2

/-- `SA_den_Bs`.  /repo/flavio/physics/bdecays/bvll/observables_bs.py:62-63. -/
noncomputable def saDenBs (y : ℝ) (J Jb Jh : JV) : ℝ := 2 * dGdq2AveBs y J Jb Jh

/-- `FL_num_Bs`.  /repo/flavio/physics/bdecays/bvll/observables_bs.py:69-70. -/
noncomputable def flNumBs (y : ℝ) (J Jb Jh : JV) : ℝ := -sTheoryNumBs y J Jb Jh .i2c

/-- `FL_Bs`.  /repo/flavio/physics/bdecays/bvll/observables_bs.py:65-67. -/
noncomputable def flBs (y : ℝ) (J Jb Jh : JV) : ℝ := flNumBs y J Jb Jh / saDenBs y J Jb Jh

/-- `bsvll_obs` at an allowed q2, from the amplitudes `h`, `h_bar` and `q/p`.
/repo/flavio/physics/bdecays/bvll/observables_bs.py:11-35. -/
noncomputable def bsObs (f : ℝ → JV → JV → JV → ℝ) (y : ℝ) (H Hb : AmpV) (qOverP : ℂ) (q2 mB mV ml : ℝ) : ℝ :=
  f y (angularV H q2 mB mV ml ml) (angularV Hb q2 mB mV ml ml)
    (angularHV (phiBs qOverP) H (hTilde Hb) q2 mB mV ml ml)

theorem dGdq2_isDiff {x a b c : JV} (h : IsDiff x a b c) : dGdq2 x = dGdq2 a - dGdq2 b - dGdq2 c := by
  have e1 := h .i1s; have e2 := h .i1c; have e3 := h .i2s; have e4 := h .i2c
  simp only [JV.get] at e1 e2 e3 e4
  unfold dGdq2; rw [e1, e2, e3, e4]; ring

theorem hTilde_diag {Hb : AmpV} (n : NoTensor Hb) (q2 mB mV m1 m2 : ℝ) :
    (angularV (hTilde Hb) q2 mB mV m1 m2).j1s = (angularV Hb q2 mB mV m1 m2).j1s ∧
    (angularV (hTilde Hb) q2 mB mV m1 m2).j1c = (angularV Hb q2 mB mV m1 m2).j1c ∧
    (angularV (hTilde Hb) q2 mB mV m1 m2).j2s = (angularV Hb q2 mB mV m1 m2).j2s ∧
    (angularV (hTilde Hb) q2 mB mV m1 m2).j2c = (angularV Hb q2 mB mV m1 m2).j2c := by
  refine ⟨?_, ?_, ?_, ?_⟩ <;>
    simp only [angularV, signflip, gToG, gbasisV, GV.scale, gbasisV0, g000, g020, g200, g220, hTilde, n.a1, n.a2, n.a3,
      n.b1, n.b2, n.b3, norm_neg, map_zero, mul_zero] <;> ring

/-- The phase used in the interference term is that of `q/p` itself: `qp = (q/p)/|q/p|`. -/
theorem C83_phase (z : ℂ) (hz : z ≠ 0) : -Complex.exp (I * (phiBs z : ℂ)) = z / (‖z‖ : ℂ) := by
  have h := norm_mul_exp_arg_mul_I (-z)
  rw [norm_neg] at h
  have hn : (‖z‖ : ℂ) ≠ 0 := by exact_mod_cast norm_ne_zero_iff.mpr hz
  unfold phiBs
  rw [mul_comm I, eq_div_iff hn]
  linear_combination -h

/-- **C83 (time-averaged rate).** For |y| < 1 and no tensor amplitudes the time-averaged rate lies between the
CP-averaged rate without mixing divided by 1+|y| and by 1-|y|; in particular it is never negative, for any mixing
phase and any amplitudes.  At y = 0 it is the CP-averaged rate. -/
theorem C83_bs_rate (H Hb : AmpV) (nb : NoTensor Hb) (qp : ℂ) (y q2 mB mV ml : ℝ) (hy : |y| < 1)
    (p : Phys q2 mB ml ml) :
    let J := angularV H q2 mB mV ml ml
    let Jb := angularV Hb q2 mB mV ml ml
    dGdq2Ave J Jb / (1 + |y|) ≤ bsObs dGdq2AveBs y H Hb qp q2 mB mV ml ∧
    bsObs dGdq2AveBs y H Hb qp q2 mB mV ml ≤ dGdq2Ave J Jb / (1 - |y|) ∧
    0 ≤ bsObs dGdq2AveBs y H Hb qp q2 mB mV ml ∧
    bsObs dGdq2AveBs 0 H Hb qp q2 mB mV ml = dGdq2Ave J Jb ∧
    ∀ i, bsObs (sExpNumBs · · · · i) 0 H Hb qp q2 mB mV ml = sExpNum J Jb i := by
  intro J Jb
  obtain ⟨t1, t2, t3, t4⟩ := hTilde_diag nb q2 mB mV ml ml
  have hd : dGdq2 (angularV (hTilde Hb) q2 mB mV ml ml) = dGdq2 Jb := by
    unfold dGdq2; rw [t1, t2, t3, t4]
  obtain ⟨i1, i2, _⟩ := C83_interference (phiBs qp) H (hTilde Hb) q2 mB mV ml ml
  have d1 := dGdq2_isDiff i1
  rw [hd] at d1
  have p1 := (C81_rate_nonneg (H.add ((hTilde Hb).smul (Complex.exp (I * phiBs qp)))) H q2 mB mV ml ml 0 p le_rfl).1
  have p2 := (C81_rate_nonneg (H.add ((hTilde Hb).smul (-Complex.exp (I * phiBs qp)))) H q2 mB mV ml ml 0 p le_rfl).1
  have d2 : -dGdq2 (angularHV (phiBs qp) H (hTilde Hb) q2 mB mV ml ml)
      = dGdq2 (angularV (H.add ((hTilde Hb).smul (-Complex.exp (I * phiBs qp)))) q2 mB mV ml ml) - dGdq2 J - dGdq2 Jb := by
    rw [← hd]
    have e1 := i2 .i1s; have e2 := i2 .i1c; have e3 := i2 .i2s; have e4 := i2 .i2c
    simp only [JV.get] at e1 e2 e3 e4
    unfold dGdq2
    linear_combination 3 / 2 * e1 + 3 / 4 * e2 - 1 / 2 * e3 - 1 / 4 * e4
  set D := dGdq2 (angularHV (phiBs qp) H (hTilde Hb) q2 mB mV ml ml) with hD
  have hA : |D| ≤ dGdq2 J + dGdq2 Jb := by rw [abs_le]; constructor <;> simp only [J] at * <;> linarith
  set A := dGdq2 J + dGdq2 Jb with hAd
  have hA0 : 0 ≤ A := (abs_nonneg _).trans hA
  have y1 : 0 < 1 - |y| := by linarith
  have y2 : 0 < 1 + |y| := by linarith [abs_nonneg y]
  have yy : 1 - y ^ 2 = (1 - |y|) * (1 + |y|) := by rw [← sq_abs y]; ring
  have hval : bsObs dGdq2AveBs y H Hb qp q2 mB mV ml = (A - y * D) / ((1 - |y|) * (1 + |y|)) / 2 := by
    show dGdq2AveBs y J Jb _ = _
    unfold dGdq2AveBs
    rw [yy, ← hD, ← hAd]; ring
  have hyD : |y * D| ≤ |y| * A := by rw [abs_mul]; exact mul_le_mul_of_nonneg_left hA (abs_nonneg _)
  have hyD1 := (abs_le.mp hyD).1
  have hyD2 := (abs_le.mp hyD).2
  have lo : dGdq2Ave J Jb / (1 + |y|) ≤ bsObs dGdq2AveBs y H Hb qp q2 mB mV ml := by
    rw [hval]
    show A / 2 / (1 + |y|) ≤ _
    rw [div_le_iff₀ y2, div_div, div_mul_eq_mul_div, le_div_iff₀ (by positivity)]
    nlinarith
  refine ⟨lo, ?_, ?_, ?_, ?_⟩
  · rw [hval]
    show _ ≤ A / 2 / (1 - |y|)
    rw [div_div, div_div, div_le_div_iff₀ (by positivity) (by positivity)]
    nlinarith
  · refine le_trans (div_nonneg ?_ y2.le) lo
    show 0 ≤ A / 2
    linarith
  · show dGdq2AveBs 0 J Jb _ = _
    unfold dGdq2AveBs dGdq2Ave; simp
  · intro i
    show sExpNumBs 0 J Jb _ i = _
    unfold sExpNumBs sExpNum sTheoryNumBs sTheoryNum; simp

/-- **C83 (longitudinal fraction).** Without tensor amplitudes the time-averaged longitudinal fraction is between 0
and 1. -/
theorem C83_bs_fl (H Hb : AmpV) (n : NoTensor H) (nb : NoTensor Hb) (qp : ℂ) (y q2 mB mV ml : ℝ) (hy : |y| < 1)
    (p : Phys q2 mB ml ml) :
    0 ≤ bsObs flBs y H Hb qp q2 mB mV ml ∧ bsObs flBs y H Hb qp q2 mB mV ml ≤ 1 := by
  obtain ⟨t1, t2, t3, t4⟩ := hTilde_diag nb q2 mB mV ml ml
  obtain ⟨i1, i2, _⟩ := C83_interference (phiBs qp) H (hTilde Hb) q2 mB mV ml ml
  have hnon := (C83_bs_rate H Hb nb qp y q2 mB mV ml hy p).2.2.1
  have nt : NoTensor (hTilde Hb) := ⟨nb.a1, nb.a2, nb.a3, nb.b1, nb.b2, nb.b3⟩
  have nadd' : ∀ w : ℂ, NoTensor (H.add ((hTilde Hb).smul w)) := by
    intro w
    constructor <;> simp [AmpV.add, AmpV.smul, n.a1, n.a2, n.a3, n.b1, n.b2, n.b3, nt.a1, nt.a2, nt.a3, nt.b1, nt.b2,
      nt.b3]
  have hF : 0 ≤ 32 / 3 * phaseSpace (2 ^ 9 * Real.pi ^ 3) q2 mB mV ml ml :=
    mul_nonneg (by norm_num) (phaseSpace_nonneg _ _ _ _ _ _ (by have := Real.pi_pos; positivity) p.hB p.hq)
  have hl := div_nonneg (laGa_nonneg q2 ml ml) p.hq.le
  -- the two quadratic forms `-J2c` and `dΓ + J2c` are non-negative
  have f1 : ∀ K : AmpV, NoTensor K → 0 ≤ -(angularV K q2 mB mV ml ml).j2c := by
    intro K nK
    rw [nt_2c nK, neg_neg]
    exact mul_nonneg hF (div_nonneg (mul_nonneg hl (sL_nonneg K)) (by norm_num))
  have f2 : ∀ K : AmpV, 0 ≤ dGdq2 (angularV K q2 mB mV ml ml) + (angularV K q2 mB mV ml ml).j2c := by
    intro K
    have := (diag_bounds K q2 mB mV ml ml p.hB p.h1 p.h2 p.hq p.th).2.2.1
    linarith
  set e := Complex.exp (I * phiBs qp)
  have c1 := i1 .i2c
  have c2 := i2 .i2c
  have d1 := dGdq2_isDiff i1
  have d2 : -dGdq2 (angularHV (phiBs qp) H (hTilde Hb) q2 mB mV ml ml)
      = dGdq2 (angularV (H.add ((hTilde Hb).smul (-e))) q2 mB mV ml ml) - dGdq2 (angularV H q2 mB mV ml ml)
        - dGdq2 (angularV (hTilde Hb) q2 mB mV ml ml) := by
    have e1 := i2 .i1s; have e2 := i2 .i1c; have e3 := i2 .i2s; have e4 := i2 .i2c
    simp only [JV.get] at e1 e2 e3 e4
    unfold dGdq2
    linear_combination 3 / 2 * e1 + 3 / 4 * e2 - 1 / 2 * e3 - 1 / 4 * e4
  have hd : dGdq2 (angularV (hTilde Hb) q2 mB mV ml ml) = dGdq2 (angularV Hb q2 mB mV ml ml) := by
    unfold dGdq2; rw [t1, t2, t3, t4]
  simp only [JV.get] at c1 c2
  rw [t4] at c1 c2
  rw [hd] at d1 d2
  have a1 := f1 _ (nadd' e)
  have a2 := f1 _ (nadd' (-e))
  have b1 := f2 (H.add ((hTilde Hb).smul e))
  have b2 := f2 (H.add ((hTilde Hb).smul (-e)))
  set J := angularV H q2 mB mV ml ml
  set Jb := angularV Hb q2 mB mV ml ml
  set Jh := angularHV (phiBs qp) H (hTilde Hb) q2 mB mV ml ml with hJh
  have y1 : 0 < 1 - |y| := by linarith
  have y2 : 0 < 1 + |y| := by linarith [abs_nonneg y]
  have yy : 0 < 1 - y ^ 2 := by rw [← sq_abs y]; nlinarith
  have combine : ∀ s t : ℝ, |t| ≤ s → 0 ≤ (1 / (1 - y ^ 2) * s - y / (1 - y ^ 2) * t) := by
    intro s t hst
    rw [show 1 / (1 - y ^ 2) * s - y / (1 - y ^ 2) * t = (s - y * t) / (1 - y ^ 2) by ring]
    refine div_nonneg ?_ yy.le
    have : |y * t| ≤ 1 * s := by
      rw [abs_mul]; exact mul_le_mul hy.le hst (abs_nonneg _) (by norm_num)
    linarith [(abs_le.mp this).2]
  have hnum : 0 ≤ flNumBs y J Jb Jh := by
    have := combine (-(J.j2c + Jb.j2c)) (-Jh.j2c) (by rw [abs_le]; constructor <;> linarith)
    unfold flNumBs sTheoryNumBs JV.get
    simp only
    linarith
  have hdiff : flNumBs y J Jb Jh ≤ saDenBs y J Jb Jh := by
    have := combine (dGdq2 J + J.j2c + (dGdq2 Jb + Jb.j2c)) (dGdq2 Jh + Jh.j2c)
      (by rw [abs_le]; constructor <;> linarith)
    unfold flNumBs sTheoryNumBs saDenBs dGdq2AveBs JV.get
    simp only
    nlinarith
  have hden : 0 ≤ saDenBs y J Jb Jh := by
    have : 0 ≤ dGdq2AveBs y J Jb Jh := hnon
    unfold saDenBs; linarith
  show 0 ≤ flBs y J Jb Jh ∧ flBs y J Jb Jh ≤ 1
  unfold flBs
  exact ⟨div_nonneg hnum hden, div_le_one_of_le₀ hdiff hden⟩

/-- Non-vacuity: the hypotheses of the two theorems are met by a case with a positive rate. -/
example : 0 < dGdq2 (angularV demoH 1 5 1 0 0) ∧ |(1/2 : ℝ)| < 1 ∧ Phys 1 5 0 0 ∧ NoTensor demoH := by
  refine ⟨?_, by rw [abs_of_pos] <;> norm_num, demo_phys, demo_nt⟩
  obtain ⟨hl, hE, hf⟩ := demo_kin
  have j : dGdq2 (angularV demoH 1 5 1 0 0) = 6 * phaseSpace (2 ^ 9 * Real.pi ^ 3) 1 5 1 0 0 * (4 / 9 * (3/4+1/4) * 3) := by
    simp only [dGdq2, angularV, signflip, gToG, gbasisV, GV.scale, gbasisV0, g000, g020, g200, g220, hl, hE, demoH]
    norm_num
    ring
  rw [j]; positivity

end Verif.Angular
