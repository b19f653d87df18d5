import Verif.Physics.Angular.VObs
/-!
# Physical ranges of the `B → V ℓ₁ ℓ₂` observables
-/
set_option linter.unusedVariables false
set_option linter.unusedSimpArgs false
namespace Verif.Angular
open Verif.Common Complex ComplexConjugate

/-- **Specification.** The physical region: positive `B` mass, non-negative lepton masses, q² positive and at or
above the two-lepton threshold. -/
structure Phys (q2 mB m1 m2 : ℝ) : Prop where
  hB : 0 < mB
  h1 : 0 ≤ m1
  h2 : 0 ≤ m2
  hq : 0 < q2
  th : (m1 + m2) ^ 2 ≤ q2

/-- **Specification.** No tensor amplitudes. -/
structure NoTensor (H : AmpV) : Prop where
  a1 : H.plT = 0
  a2 : H.miT = 0
  a3 : H.zeT = 0
  b1 : H.plTt = 0
  b2 : H.miTt = 0
  b3 : H.zeTt = 0

/-- Sum of the squared transverse amplitudes. (Specification.) -/
noncomputable def sT (H : AmpV) : ℝ := normSq H.plV + normSq H.miV + normSq H.plA + normSq H.miA
/-- Sum of the squared longitudinal amplitudes. (Specification.) -/
noncomputable def sL (H : AmpV) : ℝ := normSq H.zeV + normSq H.zeA

theorem sT_nonneg (H : AmpV) : 0 ≤ sT H := by
  unfold sT; linarith [normSq_nonneg H.plV, normSq_nonneg H.miV, normSq_nonneg H.plA, normSq_nonneg H.miA]
theorem sL_nonneg (H : AmpV) : 0 ≤ sL H := by
  unfold sL; linarith [normSq_nonneg H.zeV, normSq_nonneg H.zeA]

theorem cauchy4 (a b c d x y z w : ℝ) :
    (a * x + b * y + c * z + d * w) ^ 2 ≤ (a ^ 2 + b ^ 2 + c ^ 2 + d ^ 2) * (x ^ 2 + y ^ 2 + z ^ 2 + w ^ 2) := by
  nlinarith [sq_nonneg (a * y - b * x), sq_nonneg (a * z - c * x), sq_nonneg (a * w - d * x),
    sq_nonneg (b * z - c * y), sq_nonneg (b * w - d * y), sq_nonneg (c * w - d * z)]

theorem cross_bound {x y c a b a' b' : ℝ} (hc : 0 ≤ c) (ha : 0 ≤ a) (hb : 0 ≤ b) (ha' : 0 ≤ a') (hb' : 0 ≤ b')
    (hx : x ^ 2 ≤ c * (a * b)) (hy : y ^ 2 ≤ c * (a' * b')) : (x + y) ^ 2 ≤ c * ((a + a') * (b + b')) := by
  have h1 : (2 * (x * y)) ^ 2 ≤ (c * (a * b' + a' * b)) ^ 2 := by
    have := mul_le_mul hx hy (sq_nonneg _) (mul_nonneg hc (mul_nonneg ha hb))
    nlinarith [mul_nonneg (sq_nonneg c) (sq_nonneg (a * b' - a' * b))]
  have h2 : 2 * (x * y) ≤ c * (a * b' + a' * b) :=
    (abs_le_of_sq_le_sq' h1 (mul_nonneg hc (add_nonneg (mul_nonneg ha hb') (mul_nonneg ha' hb)))).2
  nlinarith

section
variable {H : AmpV} (N : NoTensor H) (q2 mB mV m1 m2 : ℝ)
include N

theorem nt_2s : (angularV H q2 mB mV m1 m2).j2s
    = 32 / 3 * phaseSpace (2 ^ 9 * Real.pi ^ 3) q2 mB mV m1 m2 * (laGa q2 m1 m2 / q2 * sT H / 16) := by
  simp only [angularV, signflip, gToG, gbasisV, GV.scale, gbasisV0, g020, g220, N.a1, N.a2, N.a3, N.b1, N.b2, N.b3,
    Complex.sq_norm, sT]
  simp; ring

theorem nt_2c : (angularV H q2 mB mV m1 m2).j2c
    = -(32 / 3 * phaseSpace (2 ^ 9 * Real.pi ^ 3) q2 mB mV m1 m2 * (laGa q2 m1 m2 / q2 * sL H / 4)) := by
  simp only [angularV, signflip, gToG, gbasisV, GV.scale, gbasisV0, g020, g220, N.a1, N.a2, N.a3, N.b1, N.b2, N.b3,
    Complex.sq_norm, sL]
  simp; ring

theorem nt_3 : (angularV H q2 mB mV m1 m2).j3
    = 32 / 3 * phaseSpace (2 ^ 9 * Real.pi ^ 3) q2 mB mV m1 m2
      * (-(laGa q2 m1 m2 / q2) / 4 * (H.plV * conj H.miV + H.plA * conj H.miA).re) := by
  simp only [angularV, signflip, gToG, gbasisV, GV.scale, gbasisV0, g222, N.a1, N.a2, N.a3, N.b1, N.b2, N.b3,
    zero_mul, mul_zero, add_zero, sub_zero]
  rw [re_ofReal_mul, re_ofReal_mul]; ring

theorem nt_9 : (angularV H q2 mB mV m1 m2).j9
    = 32 / 3 * phaseSpace (2 ^ 9 * Real.pi ^ 3) q2 mB mV m1 m2
      * (laGa q2 m1 m2 / q2 / 4 * (H.plV * conj H.miV + H.plA * conj H.miA).im) := by
  simp only [angularV, signflip, gToG, gbasisV, GV.scale, gbasisV0, g222, N.a1, N.a2, N.a3, N.b1, N.b2, N.b3,
    zero_mul, mul_zero, add_zero, sub_zero]
  rw [im_ofReal_mul, im_ofReal_mul]; ring

theorem nt_6s : (angularV H q2 mB mV m1 m2).j6s
    = -(32 / 3 * phaseSpace (2 ^ 9 * Real.pi ^ 3) q2 mB mV m1 m2
      * (Real.sqrt (laGa q2 m1 m2) / 2 * (H.plV * conj H.plA - H.miV * conj H.miA).re)) := by
  simp only [angularV, signflip, gToG, gbasisV, GV.scale, gbasisV0, g010, g210, N.a1, N.a2, N.a3, N.b1, N.b2, N.b3,
    zero_mul, mul_zero, add_zero, sub_zero, map_zero, zero_im, zero_re]
  ring

theorem nt_4 : (angularV H q2 mB mV m1 m2).j4
    = -(32 / 3 * phaseSpace (2 ^ 9 * Real.pi ^ 3) q2 mB mV m1 m2
      * (laGa q2 m1 m2 / q2 / 8 * (H.plV * conj H.zeV + H.zeV * conj H.miV + H.plA * conj H.zeA
        + H.zeA * conj H.miA).re)) := by
  simp only [angularV, signflip, gToG, gbasisV, GV.scale, gbasisV0, g221, N.a1, N.a2, N.a3, N.b1, N.b2, N.b3,
    zero_mul, mul_zero, add_zero, sub_zero]
  rw [re_ofReal_mul, re_ofReal_mul]; ring

theorem nt_8 : (angularV H q2 mB mV m1 m2).j8
    = 32 / 3 * phaseSpace (2 ^ 9 * Real.pi ^ 3) q2 mB mV m1 m2
      * (laGa q2 m1 m2 / q2 / 8 * (H.plV * conj H.zeV + H.zeV * conj H.miV + H.plA * conj H.zeA
        + H.zeA * conj H.miA).im) := by
  simp only [angularV, signflip, gToG, gbasisV, GV.scale, gbasisV0, g221, N.a1, N.a2, N.a3, N.b1, N.b2, N.b3,
    zero_mul, mul_zero, add_zero, sub_zero]
  rw [im_ofReal_mul, im_ofReal_mul]; ring

theorem g211_nt (hS : H.S = 0) (m : ℝ) : Real.sqrt 3 * (4 / Real.sqrt 3) = 4 ∧
    g211 H (laGa q2 m m) (energy q2 m m m) (energy q2 m m m) m m q2
    = ((4 / Real.sqrt 3 * Real.sqrt (laGa q2 m m) : ℝ) : ℂ) * (H.plV * conj H.zeA + H.plA * conj H.zeV
      - H.zeV * conj H.miA - H.zeA * conj H.miV) := by
  constructor
  · have h3 : Real.sqrt 3 ≠ 0 := by positivity
    field_simp
  · simp [g211, N.a1, N.a2, N.a3, N.b1, N.b2, N.b3, hS]

theorem nt_5 (hS : H.S = 0) (m : ℝ) : (angularV H q2 mB mV m m).j5
    = 32 / 3 * phaseSpace (2 ^ 9 * Real.pi ^ 3) q2 mB mV m m
      * (Real.sqrt (laGa q2 m m) / 4 * (H.plV * conj H.zeA + H.plA * conj H.zeV - H.zeV * conj H.miA
        - H.zeA * conj H.miV).re) := by
  obtain ⟨e1, e2⟩ := g211_nt N q2 hS m
  simp only [angularV, signflip, gToG, gbasisV, GV.scale, gbasisV0, e2]
  rw [re_ofReal_mul, re_ofReal_mul]
  linear_combination (2 / 3 * phaseSpace (2 ^ 9 * Real.pi ^ 3) q2 mB mV m m * Real.sqrt (laGa q2 m m)
    * (H.plV * conj H.zeA + H.plA * conj H.zeV - H.zeV * conj H.miA - H.zeA * conj H.miV).re) * e1

theorem nt_7 (hS : H.S = 0) (m : ℝ) : (angularV H q2 mB mV m m).j7
    = -(32 / 3 * phaseSpace (2 ^ 9 * Real.pi ^ 3) q2 mB mV m m
      * (Real.sqrt (laGa q2 m m) / 4 * (H.plV * conj H.zeA + H.plA * conj H.zeV - H.zeV * conj H.miA
        - H.zeA * conj H.miV).im)) := by
  obtain ⟨e1, e2⟩ := g211_nt N q2 hS m
  simp only [angularV, signflip, gToG, gbasisV, GV.scale, gbasisV0, e2]
  rw [im_ofReal_mul, im_ofReal_mul]
  linear_combination (-2 / 3 * phaseSpace (2 ^ 9 * Real.pi ^ 3) q2 mB mV m m * Real.sqrt (laGa q2 m m)
    * (H.plV * conj H.zeA + H.plA * conj H.zeV - H.zeV * conj H.miA - H.zeA * conj H.miV).im) * e1
end

theorem two_im_le (a b : ℂ) : 2 * |(a * conj b).im| ≤ normSq a + normSq b := by
  have := two_re_le a (I * b)
  have e : (a * conj (I * b)).re = (a * conj b).im := by simp; ring
  have n : normSq (I * b) = normSq b := by simp
  rwa [e, n] at this

theorem x_bounds (H : AmpV) : 2 * |(H.plV * conj H.miV + H.plA * conj H.miA).re| ≤ sT H ∧
    2 * |(H.plV * conj H.miV + H.plA * conj H.miA).im| ≤ sT H ∧
    2 * |(H.plV * conj H.plA - H.miV * conj H.miA).re| ≤ sT H := by
  refine ⟨?_, ?_, ?_⟩
  · have := abs_add_le (H.plV * conj H.miV).re (H.plA * conj H.miA).re
    rw [add_re]; unfold sT; linarith [two_re_le H.plV H.miV, two_re_le H.plA H.miA]
  · have := abs_add_le (H.plV * conj H.miV).im (H.plA * conj H.miA).im
    rw [add_im]; unfold sT; linarith [two_im_le H.plV H.miV, two_im_le H.plA H.miA]
  · have := abs_sub (H.plV * conj H.plA).re (H.miV * conj H.miA).re
    rw [sub_re]; unfold sT; linarith [two_re_le H.plV H.plA, two_re_le H.miV H.miA]

theorem y_bounds (H : AmpV) :
    (H.plV * conj H.zeV + H.zeV * conj H.miV + H.plA * conj H.zeA + H.zeA * conj H.miA).re ^ 2 ≤ 2 * (sT H * sL H) ∧
    (H.plV * conj H.zeV + H.zeV * conj H.miV + H.plA * conj H.zeA + H.zeA * conj H.miA).im ^ 2 ≤ 2 * (sT H * sL H) ∧
    (H.plV * conj H.zeA + H.plA * conj H.zeV - H.zeV * conj H.miA - H.zeA * conj H.miV).re ^ 2 ≤ 2 * (sT H * sL H) ∧
    (H.plV * conj H.zeA + H.plA * conj H.zeV - H.zeV * conj H.miA - H.zeA * conj H.miV).im ^ 2 ≤ 2 * (sT H * sL H) := by
  have par : ∀ a b c d e f g h : ℝ, (a + e) ^ 2 + (b + f) ^ 2 + (c + g) ^ 2 + (d + h) ^ 2
      ≤ 2 * (a ^ 2 + b ^ 2 + c ^ 2 + d ^ 2 + e ^ 2 + f ^ 2 + g ^ 2 + h ^ 2) := by
    intro a b c d e f g h
    nlinarith [sq_nonneg (a - e), sq_nonneg (b - f), sq_nonneg (c - g), sq_nonneg (d - h)]
  have key : ∀ a b c d e f g h x y z w v : ℝ,
      v = (a + e) * x + (b + f) * y + (c + g) * z + (d + h) * w →
      sT H = a ^ 2 + b ^ 2 + c ^ 2 + d ^ 2 + e ^ 2 + f ^ 2 + g ^ 2 + h ^ 2 →
      sL H = x ^ 2 + y ^ 2 + z ^ 2 + w ^ 2 → v ^ 2 ≤ 2 * (sT H * sL H) := by
    intro a b c d e f g h x y z w v hv hT hL
    rw [hv, hT, hL, ← mul_assoc]
    exact (cauchy4 _ _ _ _ _ _ _ _).trans
      (mul_le_mul_of_nonneg_right (par a b c d e f g h) (by positivity))
  refine ⟨?_, ?_, ?_, ?_⟩
  · apply key H.plV.re H.plV.im H.plA.re H.plA.im H.miV.re H.miV.im H.miA.re H.miA.im
      H.zeV.re H.zeV.im H.zeA.re H.zeA.im
    · simp; ring
    · simp [sT, normSq_apply]; ring
    · simp [sL, normSq_apply]; ring
  · apply key H.plV.re H.plV.im H.plA.re H.plA.im (-H.miV.re) (-H.miV.im) (-H.miA.re) (-H.miA.im)
      (-H.zeV.im) (H.zeV.re) (-H.zeA.im) (H.zeA.re)
    · simp; ring
    · simp [sT, normSq_apply]; ring
    · simp [sL, normSq_apply]; ring
  · apply key H.plV.re H.plV.im H.plA.re H.plA.im (-H.miV.re) (-H.miV.im) (-H.miA.re) (-H.miA.im)
      H.zeA.re H.zeA.im H.zeV.re H.zeV.im
    · simp; ring
    · simp [sT, normSq_apply]; ring
    · simp [sL, normSq_apply]; ring
  · apply key H.plV.re H.plV.im H.plA.re H.plA.im (H.miV.re) (H.miV.im) (H.miA.re) (H.miA.im)
      (-H.zeA.im) H.zeA.re (-H.zeV.im) H.zeV.re
    · simp; ring
    · simp [sT, normSq_apply]; ring
    · simp [sL, normSq_apply]; ring

/-- A ratio whose numerator is bounded by `c` times its denominator. -/
theorem ratio_bound {num den : JV → JV → ℝ} {J Jb : JV} {c : ℝ} (hc : 0 ≤ c) (hd : 0 ≤ den J Jb)
    (h : |num J Jb| ≤ c * den J Jb) :
    |ratioV num den J Jb| ≤ c ∧ |num J Jb / den J Jb| ≤ c ∧ (num J Jb ≠ 0 → den J Jb ≠ 0) := by
  have h2 : |num J Jb / den J Jb| ≤ c := by
    rw [abs_div, abs_of_nonneg hd]
    exact div_le_of_le_mul₀ hd hc h
  refine ⟨?_, h2, ?_⟩
  · unfold ratioV; split_ifs
    · simpa using hc
    · exact h2
  · intro hn h0
    rw [h0, mul_zero] at h
    exact hn (abs_eq_zero.mp (le_antisymm h (abs_nonneg _)))

/-- **C81 (rate).** The differential rate is non-negative — so is the CP average and hence the differential
branching ratio — for every set of amplitudes. -/
theorem C81_rate_nonneg (H Hb : AmpV) (q2 mB mV m1 m2 tau : ℝ) (p : Phys q2 mB m1 m2) (ht : 0 ≤ tau) :
    0 ≤ dGdq2 (angularV H q2 mB mV m1 m2) ∧
    0 ≤ tau * dGdq2Ave (angularV H q2 mB mV m1 m2) (angularV Hb q2 mB mV m1 m2) := by
  have a := (diag_bounds H q2 mB mV m1 m2 p.hB p.h1 p.h2 p.hq p.th).1
  have b := (diag_bounds Hb q2 mB mV m1 m2 p.hB p.h1 p.h2 p.hq p.th).1
  exact ⟨a, mul_nonneg ht (div_nonneg (add_nonneg a b) (by norm_num))⟩

/-- **C81 (ranges).** For all amplitudes (scalar and tensor included) the forward-backward asymmetry lies in
[-3/4, 3/4] and the longitudinal fraction in [-2, 1]; without tensor amplitudes the longitudinal fraction is not
negative.  The code never divides by zero in them. -/
theorem C81_afb_fl_ranges (H Hb : AmpV) (q2 mB mV m1 m2 : ℝ) (p : Phys q2 mB m1 m2) :
    let J := angularV H q2 mB mV m1 m2
    let Jb := angularV Hb q2 mB mV m1 m2
    |ratioV afbExpNum saDen J Jb| ≤ 3 / 4 ∧ |afbTheory J Jb| ≤ 3 / 4 ∧ afbExp J Jb = -afbTheory J Jb ∧
    -2 ≤ ratioV flNum saDen J Jb ∧ ratioV flNum saDen J Jb ≤ 1 ∧
    (NoTensor H → NoTensor Hb → 0 ≤ ratioV flNum saDen J Jb) ∧
    (afbExpNum J Jb ≠ 0 → saDen J Jb ≠ 0) ∧ (flNum J Jb ≠ 0 → saDen J Jb ≠ 0) := by
  intro J Jb
  obtain ⟨a1, a2, a3, a4, a5, a6⟩ := diag_bounds H q2 mB mV m1 m2 p.hB p.h1 p.h2 p.hq p.th
  obtain ⟨b1, b2, b3, b4, b5, b6⟩ := diag_bounds Hb q2 mB mV m1 m2 p.hB p.h1 p.h2 p.hq p.th
  have hd : saDen J Jb = dGdq2 J + dGdq2 Jb := by unfold saDen dGdq2Ave; ring
  have hd0 : 0 ≤ saDen J Jb := by rw [hd]; exact add_nonneg a1 b1
  have h6 : |J.j6s + Jb.j6s| ≤ saDen J Jb := by
    rw [hd]; exact (abs_add_le _ _).trans (add_le_add a2 b2)
  have hT : |afbTheoryNum J Jb| ≤ 3 / 4 * saDen J Jb := by
    unfold afbTheoryNum sTheoryNum JV.get
    rw [abs_mul, abs_of_nonneg (by norm_num : (0:ℝ) ≤ 3 / 4)]
    exact mul_le_mul_of_nonneg_left h6 (by norm_num)
  have hE' : afbExpNum J Jb = -afbTheoryNum J Jb := by
    unfold afbExpNum afbTheoryNum sExpNum
    rw [if_pos (by decide)]; ring
  have hE : |afbExpNum J Jb| ≤ 3 / 4 * saDen J Jb := by rw [hE', abs_neg]; exact hT
  obtain ⟨r1, _, r3⟩ := ratio_bound (by norm_num : (0:ℝ) ≤ 3 / 4) hd0 hE
  obtain ⟨_, r2, _⟩ := ratio_bound (by norm_num : (0:ℝ) ≤ 3 / 4) hd0 hT
  have fl1 : flNum J Jb ≤ saDen J Jb := by
    rw [hd]; unfold flNum sTheoryNum JV.get; simp only [J, Jb]; linarith
  have fl2 : -(2 * saDen J Jb) ≤ flNum J Jb := by
    rw [hd]; unfold flNum sTheoryNum JV.get; simp only [J, Jb]; linarith
  refine ⟨r1, r2, ?_, ?_, ?_, ?_, r3, ?_⟩
  · unfold afbExp afbTheory; rw [hE', neg_div]
  · unfold ratioV; split_ifs
    · norm_num
    · rcases hd0.eq_or_lt with h | h
      · rw [← h, div_zero]; norm_num
      · rw [le_div_iff₀ h]; linarith
  · unfold ratioV; split_ifs
    · norm_num
    · exact div_le_one_of_le₀ fl1 hd0
  · intro n nb
    have hF : 0 ≤ phaseSpace (2 ^ 9 * Real.pi ^ 3) q2 mB mV m1 m2 :=
      phaseSpace_nonneg _ _ _ _ _ _ (by have := Real.pi_pos; positivity) p.hB p.hq
    have hl := div_nonneg (laGa_nonneg q2 m1 m2) p.hq.le
    have : 0 ≤ flNum J Jb := by
      unfold flNum sTheoryNum JV.get
      simp only [J, Jb]
      rw [nt_2c n, nt_2c nb]
      have := mul_nonneg hF (mul_nonneg hl (sL_nonneg H))
      have := mul_nonneg hF (mul_nonneg hl (sL_nonneg Hb))
      linarith
    unfold ratioV; split_ifs
    · exact le_rfl
    · exact div_nonneg this hd0
  · intro hn h0
    rw [h0] at fl1 fl2
    exact hn (le_antisymm fl1 (by linarith))

/-- **C81 (`FLhat`).** The "modified longitudinal polarization fraction" of the code has the wrong sign: it is
never positive. -/
theorem C81_flhat_nonpos (H Hb : AmpV) (q2 mB mV m1 m2 : ℝ) (p : Phys q2 mB m1 m2) :
    flHat (angularV H q2 mB mV m1 m2) (angularV Hb q2 mB mV m1 m2) ≤ 0 := by
  obtain ⟨a1, a2, a3, a4, a5, a6⟩ := diag_bounds H q2 mB mV m1 m2 p.hB p.h1 p.h2 p.hq p.th
  obtain ⟨b1, b2, b3, b4, b5, b6⟩ := diag_bounds Hb q2 mB mV m1 m2 p.hB p.h1 p.h2 p.hq p.th
  unfold flHat
  refine div_nonpos_of_nonpos_of_nonneg ?_ ?_
  · unfold flHatNum sTheoryNum JV.get; linarith
  · unfold saDen dGdq2Ave; linarith

/-- **C82 (optimised observables).** Without tensor amplitudes, whatever the vector, axial, scalar and pseudoscalar
amplitudes and lepton masses: |P₁| ≤ 1, |P₃| ≤ 1/2, |A_T^Im| ≤ 1 and |P₂| ≤ 1/(2β) where `β = √λ(q²,m₁²,m₂²)/q²`
is the lepton velocity; the code never divides by zero in them. -/
theorem C82_p_ranges (H Hb : AmpV) (q2 mB mV m1 m2 : ℝ) (p : Phys q2 mB m1 m2) (n : NoTensor H) (nb : NoTensor Hb) :
    let J := angularV H q2 mB mV m1 m2
    let Jb := angularV Hb q2 mB mV m1 m2
    |ratioV p1Num pDen J Jb| ≤ 1 ∧ |ratioV p3Num pDen J Jb| ≤ 1 / 2 ∧ |ratioV atImNum pDen J Jb| ≤ 1 ∧
    Real.sqrt (laGa q2 m1 m2) / q2 * |ratioV p2Num pDen J Jb| ≤ 1 / 2 ∧
    (p1Num J Jb ≠ 0 ∨ p2Num J Jb ≠ 0 ∨ p3Num J Jb ≠ 0 ∨ atImNum J Jb ≠ 0 → pDen J Jb ≠ 0) := by
  intro J Jb
  have hF : 0 ≤ 32 / 3 * phaseSpace (2 ^ 9 * Real.pi ^ 3) q2 mB mV m1 m2 :=
    mul_nonneg (by norm_num) (phaseSpace_nonneg _ _ _ _ _ _ (by have := Real.pi_pos; positivity) p.hB p.hq)
  have hl0 := laGa_nonneg q2 m1 m2
  have hl := div_nonneg hl0 p.hq.le
  have e1 := nt_2s n q2 mB mV m1 m2
  have e1' := nt_2s nb q2 mB mV m1 m2
  have e3 := nt_3 n q2 mB mV m1 m2
  have e3' := nt_3 nb q2 mB mV m1 m2
  have e9 := nt_9 n q2 mB mV m1 m2
  have e9' := nt_9 nb q2 mB mV m1 m2
  have e6 := nt_6s n q2 mB mV m1 m2
  have e6' := nt_6s nb q2 mB mV m1 m2
  obtain ⟨x1, x2, x3⟩ := x_bounds H
  obtain ⟨y1, y2, y3⟩ := x_bounds Hb
  have t1 := sT_nonneg H
  have t2 := sT_nonneg Hb
  have zeroF : 32 / 3 * phaseSpace (2 ^ 9 * Real.pi ^ 3) q2 mB mV m1 m2 * laGa q2 m1 m2 = 0 →
      32 / 3 * phaseSpace (2 ^ 9 * Real.pi ^ 3) q2 mB mV m1 m2 = 0 := by
    intro h
    rcases mul_eq_zero.mp h with h | h
    · exact h
    · unfold phaseSpace; rw [h]; simp
  set F := 32 / 3 * phaseSpace (2 ^ 9 * Real.pi ^ 3) q2 mB mV m1 m2
  have hden : pDen J Jb = F * (laGa q2 m1 m2 / q2) / 16 * (sT H + sT Hb) := by
    show (angularV H q2 mB mV m1 m2).j2s + (angularV Hb q2 mB mV m1 m2).j2s = _
    rw [e1, e1']; ring
  have hFl : 0 ≤ F * (laGa q2 m1 m2 / q2) := mul_nonneg hF hl
  have hd0 : 0 ≤ pDen J Jb := by rw [hden]; exact mul_nonneg (div_nonneg hFl (by norm_num)) (by linarith)
  have key : ∀ a b c : ℝ, 2 * |a| ≤ sT H → 2 * |b| ≤ sT Hb → 0 ≤ c → ∀ v, v = c * F * (laGa q2 m1 m2 / q2) * (a + b) →
      |v| ≤ 8 * c * pDen J Jb := by
    intro a b c ha hb hc v hv
    rw [hv, hden, abs_mul, abs_of_nonneg (by rw [mul_assoc]; exact mul_nonneg hc hFl)]
    have hab : |a + b| ≤ (sT H + sT Hb) / 2 := (abs_add_le a b).trans (by linarith)
    calc c * F * (laGa q2 m1 m2 / q2) * |a + b| ≤ c * F * (laGa q2 m1 m2 / q2) * ((sT H + sT Hb) / 2) :=
          mul_le_mul_of_nonneg_left hab (by rw [mul_assoc]; exact mul_nonneg hc hFl)
      _ = _ := by ring
  have h1 : |p1Num J Jb| ≤ 1 * pDen J Jb := by
    have := key (-(H.plV * conj H.miV + H.plA * conj H.miA).re) (-(Hb.plV * conj Hb.miV + Hb.plA * conj Hb.miA).re)
      (1 / 8) (by rwa [abs_neg]) (by rwa [abs_neg]) (by norm_num) (p1Num J Jb) (by
        unfold p1Num sExpNum
        rw [if_neg (by decide)]
        show ((angularV H q2 mB mV m1 m2).j3 + (angularV Hb q2 mB mV m1 m2).j3) / 2 = _
        rw [e3, e3']; ring)
    linarith
  have h3 : |p3Num J Jb| ≤ 1 / 2 * pDen J Jb := by
    have := key (H.plV * conj H.miV + H.plA * conj H.miA).im (Hb.plV * conj Hb.miV + Hb.plA * conj Hb.miA).im
      (1 / 16) x2 y2 (by norm_num) (p3Num J Jb) (by
        unfold p3Num sExpNum
        rw [if_pos (by decide)]
        show -(-((angularV H q2 mB mV m1 m2).j9 + (angularV Hb q2 mB mV m1 m2).j9)) / 4 = _
        rw [e9, e9']; ring)
    linarith
  have h4 : |atImNum J Jb| ≤ 1 * pDen J Jb := by
    have := key (-(H.plV * conj H.miV + H.plA * conj H.miA).im) (Hb.plV * conj Hb.miV + Hb.plA * conj Hb.miA).im
      (1 / 8) (by rwa [abs_neg]) y2 (by norm_num) (atImNum J Jb) (by
        unfold atImNum aExpNum
        rw [if_pos (by decide)]
        show -((angularV H q2 mB mV m1 m2).j9 - (angularV Hb q2 mB mV m1 m2).j9) / 2 = _
        rw [e9, e9']; ring)
    linarith
  have hs : Real.sqrt (laGa q2 m1 m2) * Real.sqrt (laGa q2 m1 m2) = laGa q2 m1 m2 := Real.mul_self_sqrt hl0
  have hb0 : 0 ≤ Real.sqrt (laGa q2 m1 m2) / q2 := div_nonneg (Real.sqrt_nonneg _) p.hq.le
  have e2 : p2Num J Jb = 1 / 16 * F * Real.sqrt (laGa q2 m1 m2) * ((H.plV * conj H.plA - H.miV * conj H.miA).re
      + (Hb.plV * conj Hb.plA - Hb.miV * conj Hb.miA).re) := by
    unfold p2Num sExpNum
    rw [if_pos (by decide)]
    show -((angularV H q2 mB mV m1 m2).j6s + (angularV Hb q2 mB mV m1 m2).j6s) / 8 = _
    rw [e6, e6']; ring
  have h2 : Real.sqrt (laGa q2 m1 m2) / q2 * |p2Num J Jb| ≤ 1 / 2 * pDen J Jb := by
    have := key (H.plV * conj H.plA - H.miV * conj H.miA).re (Hb.plV * conj Hb.plA - Hb.miV * conj Hb.miA).re
      (1 / 16) x3 y3 (by norm_num) (Real.sqrt (laGa q2 m1 m2) / q2 * p2Num J Jb) (by
        rw [e2]
        linear_combination (1 / 16 * F / q2 * ((H.plV * conj H.plA - H.miV * conj H.miA).re
          + (Hb.plV * conj Hb.plA - Hb.miV * conj Hb.miA).re)) * hs)
    rw [abs_mul, abs_of_nonneg hb0] at this
    linarith
  obtain ⟨r1, _, z1⟩ := ratio_bound (by norm_num : (0:ℝ) ≤ 1) hd0 h1
  obtain ⟨r3, _, z3⟩ := ratio_bound (by norm_num : (0:ℝ) ≤ 1 / 2) hd0 h3
  obtain ⟨r4, _, z4⟩ := ratio_bound (by norm_num : (0:ℝ) ≤ 1) hd0 h4
  have z2 : p2Num J Jb ≠ 0 → pDen J Jb ≠ 0 := by
    intro hn h0
    rw [hden] at h0
    apply hn
    rcases mul_eq_zero.mp h0 with h | h
    · have h' : F * laGa q2 m1 m2 = 0 := by
        have hq := p.hq.ne'
        field_simp at h
        linarith
      rw [e2, zeroF h']; ring
    · have a := x3; have b := y3
      have hT : sT H = 0 := by linarith
      have hT' : sT Hb = 0 := by linarith
      rw [hT] at a; rw [hT'] at b
      have a0 := abs_eq_zero.mp (le_antisymm (by linarith) (abs_nonneg (H.plV * conj H.plA - H.miV * conj H.miA).re))
      have b0 := abs_eq_zero.mp (le_antisymm (by linarith) (abs_nonneg (Hb.plV * conj Hb.plA - Hb.miV * conj Hb.miA).re))
      rw [e2, a0, b0]; ring
  refine ⟨r1, r3, r4, ?_, ?_⟩
  · unfold ratioV; split_ifs with h
    · simp
    · rw [abs_div, abs_of_nonneg hd0, ← mul_div_assoc]
      exact div_le_of_le_mul₀ hd0 (by norm_num) h2
  · rintro (h | h | h | h)
    exacts [z1 h, z2 h, z3 h, z4 h]


theorem pprime_bound {num : JV → JV → ℝ} {J Jb : JV} {c b : ℝ} (hc : 0 ≤ c) (hb : 0 ≤ b)
    (h : (b * num J Jb) ^ 2 ≤ c ^ 2 * (4 * (-sExpNum J Jb .i2s * sExpNum J Jb .i2c))) :
    b * |pprimeV num J Jb| ≤ c := by
  unfold pprimeV
  split_ifs with h0
  · simpa using hc
  · set d := -sExpNum J Jb .i2s * sExpNum J Jb .i2c
    have hs : (0:ℝ) ≤ 2 * Real.sqrt d := by positivity
    rw [abs_div, abs_of_nonneg hs, ← mul_div_assoc]
    refine div_le_of_le_mul₀ hs hc ?_
    rcases le_or_gt 0 d with hd | hd
    · refine le_of_sq_le_sq ?_ (mul_nonneg hc hs) |>.trans le_rfl
      rw [mul_pow, mul_pow, mul_pow, Real.sq_sqrt hd, sq_abs, ← mul_pow]
      linarith
    · have h1 : (b * num J Jb) ^ 2 ≤ 0 := h.trans (by nlinarith [sq_nonneg c])
      have h2 : b * num J Jb = 0 := by
        have := le_antisymm h1 (sq_nonneg _)
        exact pow_eq_zero_iff (by norm_num) |>.mp this
      rcases mul_eq_zero.mp h2 with h2 | h2
      · rw [h2, zero_mul]; exact mul_nonneg hc hs
      · exact absurd h2 h0

/-- **C82 (primed observables).** Without tensor amplitudes |P₄'|, |P₈'| ≤ 1/√2; with equal lepton masses and no
scalar amplitude β|P₅'|, β|P₆'| ≤ √2. -/
theorem C82_pprime_ranges (H Hb : AmpV) (q2 mB mV m1 m2 : ℝ) (p : Phys q2 mB m1 m2) (n : NoTensor H)
    (nb : NoTensor Hb) :
    let J := angularV H q2 mB mV m1 m2
    let Jb := angularV Hb q2 mB mV m1 m2
    |pprimeV (sExpNum · · .i4) J Jb| ≤ 1 / Real.sqrt 2 ∧ |pprimeV (sExpNum · · .i8) J Jb| ≤ 1 / Real.sqrt 2 ∧
    (m1 = m2 → H.S = 0 → Hb.S = 0 →
      Real.sqrt (laGa q2 m1 m2) / q2 * |pprimeV (sExpNum · · .i5) J Jb| ≤ Real.sqrt 2 ∧
      Real.sqrt (laGa q2 m1 m2) / q2 * |pprimeV (sExpNum · · .i7) J Jb| ≤ Real.sqrt 2) := by
  intro J Jb
  have hl0 := laGa_nonneg q2 m1 m2
  have e2s := nt_2s n q2 mB mV m1 m2
  have e2s' := nt_2s nb q2 mB mV m1 m2
  have e2c := nt_2c n q2 mB mV m1 m2
  have e2c' := nt_2c nb q2 mB mV m1 m2
  have e4 := nt_4 n q2 mB mV m1 m2
  have e4' := nt_4 nb q2 mB mV m1 m2
  have e8 := nt_8 n q2 mB mV m1 m2
  have e8' := nt_8 nb q2 mB mV m1 m2
  set F := 32 / 3 * phaseSpace (2 ^ 9 * Real.pi ^ 3) q2 mB mV m1 m2 with hFdef
  obtain ⟨x1, x2, x3, x4⟩ := y_bounds H
  obtain ⟨y1, y2, y3, y4⟩ := y_bounds Hb
  have t1 := sT_nonneg H
  have t2 := sT_nonneg Hb
  have l1 := sL_nonneg H
  have l2 := sL_nonneg Hb
  have hd : -sExpNum J Jb .i2s * sExpNum J Jb .i2c
      = (F * (laGa q2 m1 m2 / q2)) ^ 2 / 64 * ((sT H + sT Hb) * (sL H + sL Hb)) := by
    unfold sExpNum
    rw [if_neg (by decide), if_neg (by decide)]
    show -((angularV H q2 mB mV m1 m2).j2s + (angularV Hb q2 mB mV m1 m2).j2s)
      * ((angularV H q2 mB mV m1 m2).j2c + (angularV Hb q2 mB mV m1 m2).j2c) = _
    rw [e2s, e2s', e2c, e2c']; ring
  have hr2 : (1 / Real.sqrt 2) ^ 2 = 1 / 2 := by rw [div_pow, Real.sq_sqrt (by norm_num)]; norm_num
  have hr2' : Real.sqrt 2 ^ 2 = 2 := Real.sq_sqrt (by norm_num)
  have c4 := cross_bound (by norm_num : (0:ℝ) ≤ 2) t1 l1 t2 l2 x1 y1
  have c8 := cross_bound (by norm_num : (0:ℝ) ≤ 2) t1 l1 t2 l2 x2 y2
  have c5 := cross_bound (by norm_num : (0:ℝ) ≤ 2) t1 l1 t2 l2 x3 y3
  have c7 := cross_bound (by norm_num : (0:ℝ) ≤ 2) t1 l1 t2 l2 x4 y4
  have hG : 0 ≤ (F * (laGa q2 m1 m2 / q2)) ^ 2 := sq_nonneg _
  refine ⟨?_, ?_, ?_⟩
  · have := pprime_bound (num := (sExpNum · · .i4)) (J := J) (Jb := Jb) (c := 1 / Real.sqrt 2) (b := 1)
      (by positivity) (by norm_num) (by
        rw [hd, hr2, one_mul]
        have : sExpNum J Jb .i4 = F * (laGa q2 m1 m2 / q2) / 8
            * ((H.plV * conj H.zeV + H.zeV * conj H.miV + H.plA * conj H.zeA + H.zeA * conj H.miA).re
            + (Hb.plV * conj Hb.zeV + Hb.zeV * conj Hb.miV + Hb.plA * conj Hb.zeA + Hb.zeA * conj Hb.miA).re) := by
          unfold sExpNum
          rw [if_pos (by decide)]
          show -((angularV H q2 mB mV m1 m2).j4 + (angularV Hb q2 mB mV m1 m2).j4) = _
          rw [e4, e4']; ring
        rw [this, mul_pow, div_pow]
        have := mul_le_mul_of_nonneg_left c4 hG
        linarith)
    linarith
  · have := pprime_bound (num := (sExpNum · · .i8)) (J := J) (Jb := Jb) (c := 1 / Real.sqrt 2) (b := 1)
      (by positivity) (by norm_num) (by
        rw [hd, hr2, one_mul]
        have : sExpNum J Jb .i8 = F * (laGa q2 m1 m2 / q2) / 8
            * ((H.plV * conj H.zeV + H.zeV * conj H.miV + H.plA * conj H.zeA + H.zeA * conj H.miA).im
            + (Hb.plV * conj Hb.zeV + Hb.zeV * conj Hb.miV + Hb.plA * conj Hb.zeA + Hb.zeA * conj Hb.miA).im) := by
          unfold sExpNum
          rw [if_neg (by decide)]
          show ((angularV H q2 mB mV m1 m2).j8 + (angularV Hb q2 mB mV m1 m2).j8) = _
          rw [e8, e8']; ring
        rw [this, mul_pow, div_pow]
        have := mul_le_mul_of_nonneg_left c8 hG
        linarith)
    linarith
  · intro hm hS hS'
    subst hm
    have e5 := nt_5 n q2 mB mV hS m1
    have e5' := nt_5 nb q2 mB mV hS' m1
    have e7 := nt_7 n q2 mB mV hS m1
    have e7' := nt_7 nb q2 mB mV hS' m1
    rw [← hFdef] at e5 e5' e7 e7'
    have hs : Real.sqrt (laGa q2 m1 m1) * Real.sqrt (laGa q2 m1 m1) = laGa q2 m1 m1 := Real.mul_self_sqrt hl0
    have hb0 : 0 ≤ Real.sqrt (laGa q2 m1 m1) / q2 := div_nonneg (Real.sqrt_nonneg _) p.hq.le
    constructor
    · refine pprime_bound (by positivity) hb0 ?_
      rw [hd, hr2']
      have : Real.sqrt (laGa q2 m1 m1) / q2 * sExpNum J Jb .i5 = F * (laGa q2 m1 m1 / q2) / 4
          * ((H.plV * conj H.zeA + H.plA * conj H.zeV - H.zeV * conj H.miA - H.zeA * conj H.miV).re
          + (Hb.plV * conj Hb.zeA + Hb.plA * conj Hb.zeV - Hb.zeV * conj Hb.miA - Hb.zeA * conj Hb.miV).re) := by
        unfold sExpNum
        rw [if_neg (by decide)]
        show _ * ((angularV H q2 mB mV m1 m1).j5 + (angularV Hb q2 mB mV m1 m1).j5) = _
        rw [e5, e5']
        linear_combination (F / q2 / 4
          * ((H.plV * conj H.zeA + H.plA * conj H.zeV - H.zeV * conj H.miA - H.zeA * conj H.miV).re
          + (Hb.plV * conj Hb.zeA + Hb.plA * conj Hb.zeV - Hb.zeV * conj Hb.miA - Hb.zeA * conj Hb.miV).re)) * hs
      rw [this, mul_pow, div_pow]
      have := mul_le_mul_of_nonneg_left c5 hG
      linarith
    · refine pprime_bound (by positivity) hb0 ?_
      rw [hd, hr2']
      have : Real.sqrt (laGa q2 m1 m1) / q2 * sExpNum J Jb .i7 = F * (laGa q2 m1 m1 / q2) / 4
          * ((H.plV * conj H.zeA + H.plA * conj H.zeV - H.zeV * conj H.miA - H.zeA * conj H.miV).im
          + (Hb.plV * conj Hb.zeA + Hb.plA * conj Hb.zeV - Hb.zeV * conj Hb.miA - Hb.zeA * conj Hb.miV).im) := by
        unfold sExpNum
        rw [if_pos (by decide)]
        show _ * -((angularV H q2 mB mV m1 m1).j7 + (angularV Hb q2 mB mV m1 m1).j7) = _
        rw [e7, e7']
        linear_combination (F / q2 / 4
          * ((H.plV * conj H.zeA + H.plA * conj H.zeV - H.zeV * conj H.miA - H.zeA * conj H.miV).im
          + (Hb.plV * conj Hb.zeA + Hb.plA * conj Hb.zeV - Hb.zeV * conj Hb.miA - Hb.zeA * conj Hb.miV).im)) * hs
      rw [this, mul_pow, div_pow]
      have := mul_le_mul_of_nonneg_left c7 hG
      linarith

/-- **C82 (conventions and CP).** The experimental convention differs from the theory convention by the sign of
exactly the entries 4, 6s, 6c, 7, 9; exchanging the decay with its CP conjugate leaves every `S` unchanged and
flips every `A`; and without CP violation (`J = J̄`) every `A` vanishes. -/
theorem C82_conventions (J Jb : JV) (i : Idx) :
    (sExp J Jb i = if i ∈ [Idx.i4, .i6s, .i6c, .i7, .i9] then -sTheory J Jb i else sTheory J Jb i) ∧
    (aExp J Jb i = if i ∈ [Idx.i4, .i6s, .i6c, .i7, .i9] then -aTheory J Jb i else aTheory J Jb i) ∧
    sExp Jb J i = sExp J Jb i ∧ aExp Jb J i = -aExp J Jb i ∧ aExp J J i = 0 := by
  have hc : saDen Jb J = saDen J Jb := by unfold saDen dGdq2Ave; ring
  have hs : sTheoryNum Jb J i = sTheoryNum J Jb i := by unfold sTheoryNum; ring
  have ha : aTheoryNum Jb J i = -aTheoryNum J Jb i := by unfold aTheoryNum; ring
  have h0 : aTheoryNum J J i = 0 := by unfold aTheoryNum; ring
  have hf : (flips i = true) ↔ i ∈ [Idx.i4, .i6s, .i6c, .i7, .i9] := by cases i <;> decide
  unfold sExp aExp sExpNum aExpNum sTheory aTheory
  refine ⟨?_, ?_, ?_, ?_, ?_⟩
  · simp only [hf]; split_ifs <;> ring
  · simp only [hf]; split_ifs <;> ring
  · rw [hc, hs]
  · rw [hc, ha]; split_ifs <;> ring
  · rw [h0]; split_ifs <;> simp

/-- **C82 (finding: `ACP`).** The observable `ACP` of the code (`dGdq2_diff` over `SA_den`) is one half of the direct
CP asymmetry `(Γ - Γ̄)/(Γ + Γ̄)`. -/
theorem C82_acp_is_half (J Jb : JV) :
    ratioV dGdq2Diff saDen J Jb = (dGdq2 J - dGdq2 Jb) / (dGdq2 J + dGdq2 Jb) / 2 := by
  unfold ratioV dGdq2Diff saDen dGdq2Ave
  split_ifs with h
  · rw [show dGdq2 J - dGdq2 Jb = 0 by linarith]; simp
  · rw [show 2 * ((dGdq2 J + dGdq2 Jb) / 2) = dGdq2 J + dGdq2 Jb by ring]; ring


/-! ## Non-vacuity -/

theorem demo_kin : laGa 1 0 0 = 1 ∧ energy 1 0 0 0 = 1 / 2 ∧ 0 < phaseSpace (2 ^ 9 * Real.pi ^ 3) 1 5 1 0 0 := by
  have hl : laGa 1 0 0 = 1 := by unfold laGa lambdaK kallen; norm_num
  refine ⟨hl, ?_, ?_⟩
  · unfold energy; rw [hl]
    rw [show (0:ℝ) ^ 2 + 1 / (4 * 1) = (1 / 2) ^ 2 by norm_num]
    exact Real.sqrt_sq (by norm_num)
  · unfold phaseSpace
    rw [hl]
    have : 0 < lambdaK (5 ^ 2) (1 ^ 2) 1 := by unfold lambdaK kallen; norm_num
    have := Real.pi_pos
    positivity

/-- Amplitudes with `V = A = 1` for the positive helicity and `V = 1` for the longitudinal one. (Specification.) -/
def demoH : AmpV := ⟨1, 0, 1, 1, 0, 0, 0, 0, 0, 0, 0, 0, 0, 0⟩

theorem demo_nt : NoTensor demoH := ⟨rfl, rfl, rfl, rfl, rfl, rfl⟩
theorem demo_phys : Phys 1 5 0 0 := ⟨by norm_num, le_rfl, le_rfl, by norm_num, by norm_num⟩

/-- The hypotheses are met and the bounds are informative: this case has a positive rate, `P₂ = 1/2` (the bound is
reached, β = 1), and a strictly positive rate density in some direction. -/
example : 0 < dGdq2 (angularV demoH 1 5 1 0 0) ∧
    ratioV p2Num pDen (angularV demoH 1 5 1 0 0) (angularV demoH 1 5 1 0 0) = 1 / 2 ∧
    0 < rateV (angularV demoH 1 5 1 0 0) 0 (Real.pi / 2) 0 := by
  obtain ⟨hl, hE, hf⟩ := demo_kin
  have e1 := nt_2s demo_nt 1 5 1 0 0
  have e2 := nt_6s demo_nt 1 5 1 0 0
  have e3 := nt_2c demo_nt 1 5 1 0 0
  have j1c : (angularV demoH 1 5 1 0 0).j1c = 32 / 3 * phaseSpace (2 ^ 9 * Real.pi ^ 3) 1 5 1 0 0 / 4 := by
    simp only [angularV, signflip, gToG, gbasisV, GV.scale, gbasisV0, g000, g020, g200, g220, hl, hE, demoH]
    norm_num
    ring
  have j1s : (angularV demoH 1 5 1 0 0).j1s = 32 / 3 * phaseSpace (2 ^ 9 * Real.pi ^ 3) 1 5 1 0 0 * (3 / 8) := by
    simp only [angularV, signflip, gToG, gbasisV, GV.scale, gbasisV0, g000, g020, g200, g220, hl, hE, demoH]
    norm_num
    ring
  have hT : sT demoH = 2 := by simp [sT, demoH]; norm_num
  have hL : sL demoH = 1 := by simp [sL, demoH]
  have hX : (demoH.plV * conj demoH.plA - demoH.miV * conj demoH.miA).re = 1 := by simp [demoH]
  rw [hl, hT] at e1
  rw [hl, hX, Real.sqrt_one] at e2
  rw [hl, hL] at e3
  set f := phaseSpace (2 ^ 9 * Real.pi ^ 3) 1 5 1 0 0
  refine ⟨?_, ?_, ?_⟩
  · unfold dGdq2; rw [j1c, j1s, e1, e3]; linarith
  · have hn : p2Num (angularV demoH 1 5 1 0 0) (angularV demoH 1 5 1 0 0) = 32 / 3 * f / 8 := by
      unfold p2Num sExpNum
      rw [if_pos (by decide)]
      show -((angularV demoH 1 5 1 0 0).j6s + (angularV demoH 1 5 1 0 0).j6s) / 8 = _
      rw [e2]; ring
    have hd : pDen (angularV demoH 1 5 1 0 0) (angularV demoH 1 5 1 0 0) = 32 / 3 * f / 4 := by
      show (angularV demoH 1 5 1 0 0).j2s + (angularV demoH 1 5 1 0 0).j2s = _
      rw [e1]; ring
    unfold ratioV
    rw [hn, hd, if_neg (by positivity)]
    field_simp; norm_num
  · unfold rateV
    simp only [Real.sin_zero, Real.cos_zero, mul_zero, Real.sin_pi_div_two, Real.cos_pi_div_two]
    rw [show 2 * (Real.pi / 2) = Real.pi by ring, Real.cos_pi, j1c, e3]
    simp
    linarith

/-- **C81 (finding).** `J6c` need not vanish: with a scalar amplitude and massive leptons the forward-backward
asymmetry of the distribution is not zero although the code's `AFB` (which uses `J6s` only) is. -/
theorem C81_afb_misses_j6c : ∃ H : AmpV, Phys 1 5 (1 / 4) (1 / 4) ∧
    let J := angularV H 1 5 1 (1 / 4) (1 / 4)
    afbTheory J J = 0 ∧ angInt J 0 (Real.pi / 2) - angInt J (Real.pi / 2) Real.pi ≠ 0 := by
  refine ⟨⟨0, 0, 1, 0, 0, 0, 0, 0, 0, 0, 0, 0, 1, 0⟩,
    ⟨by norm_num, by norm_num, by norm_num, by norm_num, by norm_num⟩, ?_⟩
  intro J
  obtain ⟨u, u', al, be, r, k⟩ := exists_kin 1 (1 / 4) (1 / 4) (by norm_num) (by norm_num) (by norm_num) (by norm_num)
  obtain ⟨_, _, _, _, h6s, h6c⟩ := jforms k ⟨0, 0, 1, 0, 0, 0, 0, 0, 0, 0, 0, 0, 1, 0⟩ 5 1
  have hal : al = 1 / 2 := by rw [← k.ka]; norm_num
  have hl : laGa 1 (1 / 4) (1 / 4) = 3 / 4 := by unfold laGa lambdaK kallen; norm_num
  have hu : 0 < u * u' := by
    have := k.k7
    have h0 : 0 < Real.sqrt (laGa 1 (1 / 4) (1 / 4)) := by rw [hl]; positivity
    linarith
  have hf : 0 < phaseSpace (2 ^ 9 * Real.pi ^ 3) 1 5 1 (1 / 4) (1 / 4) := by
    unfold phaseSpace
    rw [hl]
    have : 0 < lambdaK (5 ^ 2) (1 ^ 2) 1 := by unfold lambdaK kallen; norm_num
    have := Real.pi_pos
    positivity
  rw [fbL_eq] at h6c
  have h6s' : J.j6s = 0 := by
    simp only [J]; rw [h6s]; simp [fbT, amX, amY]
  have h6c' : 0 < J.j6c := by
    have h2 := mul_pos hf hu
    simp only [J]; rw [h6c]; simp; rw [hal]; nlinarith [h2]
  constructor
  · unfold afbTheory afbTheoryNum sTheoryNum JV.get
    simp only [h6s']; simp
  · have h := (C81_angular_integrals J).2
    intro h0
    rw [h0, mul_zero, h6s'] at h
    linarith

end Verif.Angular
