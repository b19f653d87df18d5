import Verif.Physics.Mixing.AmplitudeTheorems
import Mathlib.Analysis.Calculus.Deriv.MeanValue
import Mathlib.Analysis.Convex.Deriv
/-!
# Standard Model relations: positivity of the box function, `S_psiK = sin 2β`, `a_fs` (C87)
-/
set_option linter.unusedVariables false
set_option linter.unusedSimpArgs false
namespace Verif.Mixing
open Verif.Py Complex Verif.Ckm
open scoped ComplexConjugate

/-! ## The Inami-Lim function is positive -/

theorem aux2_mono : StrictMonoOn (fun x : ℝ => 6 * x - 6 + 12 * Real.log x) (Set.Ioi 0) := by
  intro a ha b hb hab
  have := Real.log_lt_log ha hab
  simp only
  linarith

theorem deriv1 (x : ℝ) (hx : 0 < x) :
    HasDerivAt (fun x : ℝ => 3 * x ^ 2 - 18 * x + 15 + 12 * (x * Real.log x)) (6 * x - 6 + 12 * Real.log x) x := by
  have h := (((hasDerivAt_pow 2 x).const_mul 3).sub ((hasDerivAt_id x).const_mul 18)).add_const 15
  have h' := h.add ((Real.hasDerivAt_mul_log hx.ne').const_mul 12)
  refine h'.congr_deriv ?_
  simp; ring

theorem deriv0 (x : ℝ) (hx : 0 < x) :
    HasDerivAt (fun x : ℝ => x ^ 3 - 12 * x ^ 2 + 15 * x - 4 + 6 * (x * (x * Real.log x)))
      (3 * x ^ 2 - 18 * x + 15 + 12 * (x * Real.log x)) x := by
  have h := ((((hasDerivAt_pow 3 x).sub ((hasDerivAt_pow 2 x).const_mul 12)).add
    ((hasDerivAt_id x).const_mul 15)).sub_const 4).add
    (((hasDerivAt_id x).mul (Real.hasDerivAt_mul_log hx.ne')).const_mul 6)
  refine h.congr_deriv ?_
  simp; ring

/-- A function with derivative that vanishes at 1 and whose derivative has the sign of `x - 1` is positive off 1. -/
theorem pos_off_one (f f' : ℝ → ℝ) (hd : ∀ x, 0 < x → HasDerivAt f (f' x) x) (h1 : f 1 = 0)
    (hlt : ∀ x, 0 < x → x < 1 → f' x < 0) (hgt : ∀ x, 1 < x → 0 < f' x) (x : ℝ) (hx : 0 < x) (hx1 : x ≠ 1) : 0 < f x := by
  rcases lt_or_gt_of_ne hx1 with h | h
  · obtain ⟨c, ⟨c1, c2⟩, hc⟩ := exists_hasDerivAt_eq_slope f f' h
      (fun y hy => (hd y (lt_of_lt_of_le hx hy.1)).continuousAt.continuousWithinAt)
      (fun y hy => hd y (hx.trans hy.1))
    have := hlt c (hx.trans c1) c2
    rw [hc, h1, div_neg_iff] at this
    rcases this with ⟨a, b⟩ | ⟨a, b⟩
    · linarith
    · linarith
  · obtain ⟨c, ⟨c1, c2⟩, hc⟩ := exists_hasDerivAt_eq_slope f f' h
      (fun y hy => (hd y (lt_of_lt_of_le one_pos hy.1)).continuousAt.continuousWithinAt)
      (fun y hy => hd y (one_pos.trans hy.1))
    have := hgt c c1
    rw [hc, h1, sub_zero] at this
    have h2 : 0 < x - 1 := by linarith
    exact (div_pos_iff_of_pos_right h2).1 this

theorem aux1_pos (x : ℝ) (hx : 0 < x) (hx1 : x ≠ 1) : 0 < 3 * x ^ 2 - 18 * x + 15 + 12 * (x * Real.log x) := by
  refine pos_off_one (fun x => 3 * x ^ 2 - 18 * x + 15 + 12 * (x * Real.log x))
    (fun x => 6 * x - 6 + 12 * Real.log x) deriv1 (by norm_num) ?_ ?_ x hx hx1
  · intro y hy h
    have := Real.log_neg hy h
    linarith
  · intro y h
    have := Real.log_pos h
    linarith

/-- The sign of the numerator of the Inami-Lim function. -/
theorem aux0_sign (x : ℝ) (hx : 0 < x) :
    (1 < x → 0 < x ^ 3 - 12 * x ^ 2 + 15 * x - 4 + 6 * (x * (x * Real.log x))) ∧
    (x < 1 → x ^ 3 - 12 * x ^ 2 + 15 * x - 4 + 6 * (x * (x * Real.log x)) < 0) := by
  let f : ℝ → ℝ := fun x => x ^ 3 - 12 * x ^ 2 + 15 * x - 4 + 6 * (x * (x * Real.log x))
  have h1 : f 1 = 0 := by show (1 : ℝ) ^ 3 - _ + _ - _ + _ = 0; norm_num
  constructor
  · intro h
    obtain ⟨c, ⟨c1, c2⟩, hc⟩ := exists_hasDerivAt_eq_slope f _ h
      (fun y hy => (deriv0 y (lt_of_lt_of_le one_pos hy.1)).continuousAt.continuousWithinAt)
      (fun y hy => deriv0 y (one_pos.trans hy.1))
    have := aux1_pos c (one_pos.trans c1) c1.ne'
    rw [hc, h1, sub_zero] at this
    exact (div_pos_iff_of_pos_right (by linarith)).1 this
  · intro h
    obtain ⟨c, ⟨c1, c2⟩, hc⟩ := exists_hasDerivAt_eq_slope f _ h
      (fun y hy => (deriv0 y (lt_of_lt_of_le hx hy.1)).continuousAt.continuousWithinAt)
      (fun y hy => deriv0 y (hx.trans hy.1))
    have := aux1_pos c (hx.trans c1) c2.ne
    rw [hc, h1] at this
    have h2 : 0 < 1 - x := by linarith
    have := (div_pos_iff_of_pos_right h2).1 this
    show f x < 0
    linarith

/-- **C87 (positivity)** `S0_box(x, x, 0)` is positive for every mass ratio `x > 0`, `x ≠ 1`. -/
theorem C87_S0_positive (x : ℝ) (hx : 0 < x) (hx1 : x ≠ 1) : ∃ s, s0Box x x 0 = .ok s ∧ 0 < s := by
  refine ⟨_, (C87_inami_lim x x hx hx hx1 hx1).1, ?_⟩
  obtain ⟨h1, h2⟩ := aux0_sign x hx
  have hne : x - 1 ≠ 0 := sub_ne_zero.2 hx1
  have hne' : 1 - x ≠ 0 := fun h => hx1 (by linarith)
  have e : (4 * x - 11 * x ^ 2 + x ^ 3) / (4 * (1 - x) ^ 2) - 3 * x ^ 3 * Real.log x / (2 * (1 - x) ^ 3) =
      x / 4 * ((x ^ 3 - 12 * x ^ 2 + 15 * x - 4 + 6 * (x * (x * Real.log x))) / (x - 1) ^ 3) := by
    have : (1 - x) = -(x - 1) := by ring
    rw [this]
    field_simp
    ring
  rw [e]
  refine mul_pos (by positivity) ?_
  rcases lt_or_gt_of_ne hx1 with h | h
  · exact div_pos_of_neg_of_neg (h2 h) (Odd.pow_neg (by decide) (by linarith))
  · exact div_pos (h1 h) (pow_pos (by linarith) 3)

/-! ## Aligned width -/

/-- **C86 (aligned amplitudes)** If `Γ12 = r M12` with a real `r` and there is no direct CP violation, then
`DeltaM = 2|M12|`, `DeltaGamma = -2 r |M12|`, `a_fs = 0` and `S = eta sin(arg(M12* A/Abar))`. -/
theorem C86_aligned (M12 A Abar : ℂ) (r eta : ℝ) (hM : M12 ≠ 0) (hA : ‖A‖ = ‖Abar‖) (h0 : Abar ≠ 0)
    (he : eta = 1 ∨ eta = -1) :
    deltaMPositive M12 (r * M12) = 2 * ‖M12‖ ∧ deltaGammaB M12 (r * M12) = -2 * r * ‖M12‖ ∧
    sMix M12 (r * M12) A Abar eta = .ok (eta * Real.sin (arg (conj M12 * A / Abar))) := by
  have nM := norm_pos_iff.2 hM
  have nA : ‖Abar‖ ≠ 0 := norm_ne_zero_iff.2 h0
  have h2 : (2 - I * r : ℂ) ≠ 0 := by
    intro h
    have := congrArg Complex.re h
    simp at this
  have hA12 : 2 * M12 - I * (r * M12) = (2 - I * r) * M12 := by ring
  have h : 2 * M12 - I * (r * M12) ≠ 0 := by rw [hA12]; exact mul_ne_zero h2 hM
  have hmm := mul_conj M12
  rw [normSq_eq_norm_sq] at hmm
  obtain ⟨a1, a2, a3⟩ := C86_positive M12 (r * M12) h
  have e1 : (M12 * conj (r * M12)).re = r * ‖M12‖ ^ 2 := by
    rw [map_mul, conj_ofReal, show M12 * (↑r * conj M12) = (r : ℂ) * (M12 * conj M12) by ring, hmm, re_ofReal_mul,
      ofReal_re]
  have e2 : ‖(r : ℂ) * M12‖ ^ 2 = r ^ 2 * ‖M12‖ ^ 2 := by
    rw [norm_mul, norm_real, Real.norm_eq_abs, mul_pow, sq_abs]
  rw [e2] at a2
  rw [e1] at a3
  obtain ⟨c1, c2⟩ := square_root_unique a1 (show 0 ≤ 2 * ‖M12‖ by positivity) (b := deltaGammaB M12 (r * M12))
    (d := -2 * r * ‖M12‖) (by rw [a2]; ring) (by rw [a3]; ring)
  have hd : deltaM M12 (r * M12) ≠ 0 := by
    have : |deltaM M12 (r * M12)| = 2 * ‖M12‖ := c1
    rw [← abs_ne_zero, this]; positivity
  refine ⟨c1, c2 (by rw [c1]; positivity), ?_⟩
  have hne : ((‖M12‖ : ℝ) : ℂ) ≠ 0 := by exact_mod_cast nM.ne'
  push_cast at hmm
  have hq : -(conj M12 / ‖M12‖) = qpPositive M12 (r * M12) := by
    apply qpPositive_unique h hd
    · unfold A12 A21
      rw [map_mul, conj_ofReal]
      rw [neg_sq, div_pow, div_mul_eq_mul_div, div_eq_iff (pow_ne_zero 2 hne)]
      linear_combination ((2 - I * r) * conj M12) * hmm
    · unfold A12
      have : -(-(conj M12 / ↑‖M12‖) * (2 * M12 - I * (r * M12))) = (2 - I * r) * ‖M12‖ := by
        have e : -(-(conj M12 / ↑‖M12‖) * (2 * M12 - I * (r * M12))) = conj M12 * ((2 - I * r) * M12) / ‖M12‖ := by
          ring
        rw [e, div_eq_iff hne]
        linear_combination (2 - I * r) * hmm
      rw [this, re_mul_ofReal]
      simp only [sub_re, re_ofNat, mul_re, I_re, ofReal_re, I_im, ofReal_im]
      nlinarith
  unfold sMix
  rw [if_neg h0, ← hq]
  have hz : (eta : ℂ) * -(conj M12 / ‖M12‖) * A / Abar = ((-(eta / ‖M12‖) : ℝ) : ℂ) * (conj M12 * A / Abar) := by
    push_cast; ring
  rw [hz, im_ofReal_mul, norm_mul, norm_real, Real.norm_eq_abs]
  have hnz : ‖conj M12 * A / Abar‖ = ‖M12‖ := by
    rw [norm_div, norm_mul, norm_conj, hA, mul_div_assoc, div_self nA, mul_one]
  rw [hnz, sin_arg, hnz]
  congr 1
  have : |(-(eta / ‖M12‖))| = 1 / ‖M12‖ := by
    rw [abs_neg, abs_div, abs_of_pos nM]
    rcases he with rfl | rfl <;> norm_num
  rw [this]
  field_simp
  ring

/-! ## Standard Model predictions for the B mesons -/

/-- The inputs are physical: positive masses, decay constants, bag parameters, coupling and QCD correction.
(Specification.) -/
def Physical (q : Inputs) (n : String) : Prop :=
  (∀ s ∈ ["GF", "m_W", "m_" ++ n, "f_" ++ n, "bag_" ++ n ++ "_" ++ "1", "eta_tt_" ++ n], 0 < q.par s) ∧ 0 < q.alphaS

theorem bag_pos (a : ℝ) (h : 0 < a) (m : Meson) (hm : m = .B0 ∨ m = .Bs) :
    ∃ b, bagMsbar2rgi a m = .ok b ∧ 0 < b := by
  have : 0 < a ^ (-(6 / 23 : ℝ)) * (1 + a / (4 * Real.pi) * (5165 / 3174)) :=
    mul_pos (Real.rpow_pos_of_pos h _) (by have := Real.pi_pos; positivity)
  rcases hm with rfl | rfl <;> exact ⟨_, rfl, this⟩

/-- The SM amplitude of a B meson is a positive number times `xi_t²`. -/
theorem m12dSM_value (conf : String) (V : Mat) (q : Inputs) (m : Meson) (hm : m = .B0 ∨ m = .Bs)
    (hq : Physical q m.name) (s : ℝ) (hs : s0Box (ratio q.par q.mtmt) (ratio q.par q.mtmt) (ratio q.par (q.par "m_u")) = .ok s)
    (hs0 : 0 < s) (f : Mat → ℂ) (hf : xi 't' m.quarks = .ok f) :
    ∃ k : ℝ, 0 < k ∧ m12dSM conf V q m = .ok (k * f V ^ 2) := by
  obtain ⟨b, hb, hb0⟩ := bag_pos q.alphaS hq.2 m hm
  have g1 := hq.1 "GF" (by simp)
  have g2 := hq.1 "m_W" (by simp)
  have g3 := hq.1 ("m_" ++ m.name) (by simp)
  have g4 := hq.1 ("f_" ++ m.name) (by simp)
  have g5 := hq.1 ("bag_" ++ m.name ++ "_" ++ "1") (by simp)
  have g6 := hq.1 ("eta_tt_" ++ m.name) (by simp)
  have hk : m ≠ .K0 := by rcases hm with rfl | rfl <;> decide
  have hpi := Real.pi_pos
  refine ⟨(q.par "GF") ^ 2 / (4 * Real.pi ^ 2) * q.par "m_W" ^ 2 * q.par ("eta_tt_" ++ m.name) * s *
    (q.par ("m_" ++ m.name) * q.par ("f_" ++ m.name) ^ 2 * (1 / 3) * q.par ("bag_" ++ m.name ++ "_" ++ "1") * b),
    by positivity, ?_⟩
  unfold m12dSM cvllD
  rw [hb]
  simp only [if_neg hk, hf, hs, ok_bind_eq]
  congr 1
  unfold normN mf2 bag
  push_cast
  ring

/-- **C87 (golden modes)** In the Standard Model (no new physics, `Γ12` aligned with `M12`, i.e. its CKM-suppressed
coefficient `a` switched off) the asymmetry is `eta sin(2 arg(V_tb* V_td V_cb V_cd*))` (and with `s` for `B_s`);
in particular `S_psiK = sin(2 beta)` with the angle `beta` of the `ckm` module. -/
theorem C87_golden_modes (conf : String) (V : Mat) (q : Inputs) (m : Meson) (hm : m = .B0 ∨ m = .Bs)
    (hq : Physical q m.name) (ha : q.par ("Gamma12_" ++ m.name ++ "_a") = 0) (s : ℝ)
    (hs : s0Box (ratio q.par q.mtmt) (ratio q.par q.mtmt) (ratio q.par (q.par "m_u")) = .ok s) (hs0 : 0 < s)
    (hV : ∀ i j, V i j ≠ 0) (eta : ℝ) (he : eta = 1 ∨ eta = -1) :
    (m = .B0 → sPsi conf V q m (fun _ => 0) eta = .ok (-eta * Real.sin (2 * angleBeta V))) ∧
    (m = .Bs → sPsi conf V q m (fun _ => 0) eta =
      .ok (eta * Real.sin (2 * arg (V 2 1 * conj (V 2 2) * (V 1 2 * conj (V 1 1)))))) := by
  -- the common part
  have main : ∀ d : Fin 3, xi 't' m.quarks = .ok (fun V => xiKlIj V 2 2 2 d) →
      xi 'c' m.quarks = .ok (fun V => xiKlIj V 1 1 2 d) → xi 'u' m.quarks = .ok (fun V => xiKlIj V 0 0 2 d) →
      sPsi conf V q m (fun _ => 0) eta =
        .ok (eta * Real.sin (2 * arg (V 2 d * conj (V 2 2) * (V 1 2 * conj (V 1 d))))) := by
    intro d ht hc hu
    obtain ⟨k, hk0, hk⟩ := m12dSM_value conf V q m hm hq s hs hs0 _ ht
    have hD : m ≠ .D0 := by rcases hm with rfl | rfl <;> decide
    set M : ℂ := k * xiKlIj V 2 2 2 d ^ 2 with hM
    have h1 : m12 conf V q m (fun _ => 0) = .ok M := by
      unfold m12
      rw [np_eq, if_neg hD, hk, ok_bind_eq]
      have h0 : npSpec q.par q.mq1 q.mq2 m.name m.flavour (fun _ => 0) = 0 := by unfold npSpec; simp
      rw [h0, zero_add]
    have h2 : g12dSM conf V q m = .ok (((q.par ("Gamma12_" ++ m.name ++ "_c") * (1 / 10 ^ 4) : ℝ) : ℂ) * M) := by
      unfold g12dSM
      rw [ht, hu, hk]
      simp only [ok_bind_eq, ha]
      congr 1
      push_cast
      ring
    have h3 : getM12G12 conf V q m (fun _ => 0) =
        .ok (M, ((q.par ("Gamma12_" ++ m.name ++ "_c") * (1 / 10 ^ 4) : ℝ) : ℂ) * M) := by
      unfold getM12G12
      rw [h1]
      rcases hm with rfl | rfl <;> simp only [ok_bind_eq, h2]
    have hx : xiKlIj V 2 2 2 d ≠ 0 := mul_ne_zero (hV _ _) (by simpa using hV _ _)
    have hc0 : xiKlIj V 1 1 2 d ≠ 0 := mul_ne_zero (hV _ _) (by simpa using hV _ _)
    have hMne : M ≠ 0 := mul_ne_zero (by exact_mod_cast hk0.ne') (pow_ne_zero 2 hx)
    unfold sPsi
    rw [h3]
    unfold amplitudePsi
    simp only [hc, ok_bind_eq]
    have hconj : xiKlIj (V.map conj) 1 1 2 d = conj (xiKlIj V 1 1 2 d) := by
      unfold xiKlIj
      rw [Matrix.map_apply, Matrix.map_apply, map_mul]
    rw [hconj, (C86_aligned M (xiKlIj V 1 1 2 d) (conj (xiKlIj V 1 1 2 d)) _ eta hMne (by rw [norm_conj])
      (by simpa using hc0) he).2.2]
    congr 2
    -- sin(arg (w²·positive)) = sin (2 arg w)
    set w : ℂ := V 2 d * conj (V 2 2) * (V 1 2 * conj (V 1 d)) with hw
    have hw0 : w ≠ 0 := mul_ne_zero (mul_ne_zero (hV _ _) (by simpa using hV _ _)) (mul_ne_zero (hV _ _) (by simpa using hV _ _))
    have e1 : conj M * xiKlIj V 1 1 2 d / conj (xiKlIj V 1 1 2 d) =
        ((k / ‖xiKlIj V 1 1 2 d‖ ^ 2 : ℝ) : ℂ) * w ^ 2 := by
      have hcc := mul_conj (xiKlIj V 1 1 2 d)
      rw [normSq_eq_norm_sq] at hcc
      have hb0 : conj (xiKlIj V 1 1 2 d) ≠ 0 := by simpa using hc0
      have hb1 : ((‖xiKlIj V 1 1 2 d‖ : ℝ) : ℂ) ^ 2 ≠ 0 := by
        have := norm_ne_zero_iff.2 hc0
        exact pow_ne_zero 2 (by exact_mod_cast this)
      have hw' : w = conj (xiKlIj V 2 2 2 d) * xiKlIj V 1 1 2 d := by
        rw [hw]; unfold xiKlIj; rw [map_mul, conj_conj]; ring
      rw [hM, hw', map_mul, map_pow, conj_ofReal]
      push_cast at hcc ⊢
      rw [← hcc]
      field_simp
    have hkp : 0 < k / ‖xiKlIj V 1 1 2 d‖ ^ 2 := by
      have := norm_pos_iff.2 hc0
      positivity
    rw [e1, arg_real_mul _ hkp, sin_arg, Real.sin_two_mul, sin_arg, cos_arg hw0, norm_pow, pow_two, mul_im]
    have := norm_ne_zero_iff.2 hw0
    field_simp
    ring
  constructor
  · rintro rfl
    rw [main 0 rfl rfl rfl]
    congr 1
    rw [angleBeta_eq]
    have h1 : side V 1 ≠ 0 := mul_ne_zero (hV _ _) (by simpa using hV _ _)
    have h2 : side V 2 ≠ 0 := mul_ne_zero (hV _ _) (by simpa using hV _ _)
    have e1 : V 2 0 * conj (V 2 2) * (V 1 2 * conj (V 1 0)) = side V 2 * conj (side V 1) := by
      unfold side; rw [map_mul, conj_conj]; ring
    rw [e1]
    set a := side V 1
    set b := side V 2
    have hw0 : b * conj a ≠ 0 := mul_ne_zero h2 (by simpa using h1)
    have hz0 : -(a / b) ≠ 0 := neg_ne_zero.2 (div_ne_zero h1 h2)
    rw [Real.sin_two_mul, Real.sin_two_mul, sin_arg, sin_arg, cos_arg hw0, cos_arg hz0]
    have e2 : b * conj a = ((-(‖b‖ ^ 2) : ℝ) : ℂ) * conj (-(a / b)) := by
      have hb := mul_conj b
      rw [normSq_eq_norm_sq] at hb
      have hb0 : conj b ≠ 0 := by simpa using h2
      rw [map_neg, map_div₀]
      push_cast at hb ⊢
      rw [← hb]
      field_simp
    have nb := norm_pos_iff.2 h2
    have nz := norm_pos_iff.2 hz0
    rw [e2, norm_mul, norm_real, norm_conj, re_ofReal_mul, im_ofReal_mul, conj_re, conj_im, Real.norm_eq_abs, abs_neg,
      abs_of_pos (by positivity : 0 < ‖b‖ ^ 2)]
    field_simp
  · rintro rfl
    exact main 1 rfl rfl rfl

/-- **C87 (flavour-specific asymmetry)** Without new physics `a_fs` of a B meson is `10⁻⁴ a Im(xi_u/xi_t)`. -/
theorem C87_a_fs_SM (conf : String) (V : Mat) (q : Inputs) (m : Meson) (hm : m = .B0 ∨ m = .Bs) (M G : ℂ)
    (h : getM12G12 conf V q m (fun _ => 0) = .ok (M, G)) (hM : M ≠ 0) (hG : G ≠ 0) (ft fu : Mat → ℂ)
    (ht : xi 't' m.quarks = .ok ft) (hu : xi 'u' m.quarks = .ok fu) :
    aFs M G = .ok (1 / 10 ^ 4 * q.par ("Gamma12_" ++ m.name ++ "_a") * (fu V / ft V).im) := by
  have hD : m ≠ .D0 := by rcases hm with rfl | rfl <;> decide
  have hM12 : m12 conf V q m (fun _ => 0) = m12dSM conf V q m := by
    unfold m12
    rw [np_eq, if_neg hD]
    have h0 : npSpec q.par q.mq1 q.mq2 m.name m.flavour (fun _ => 0) = 0 := by unfold npSpec; simp
    rw [h0]
    cases m12dSM conf V q m with
    | error e => rfl
    | ok a => show Except.ok _ = Except.ok _; rw [zero_add]
  have hg : ∃ S, m12dSM conf V q m = .ok S ∧ M = S ∧ g12dSM conf V q m = .ok G := by
    unfold getM12G12 at h
    rw [hM12] at h
    cases hS : m12dSM conf V q m with
    | error e => rw [hS] at h; cases h
    | ok S =>
      rw [hS] at h
      refine ⟨S, rfl, ?_⟩
      rcases hm with rfl | rfl <;>
      · simp only [ok_bind_eq] at h
        cases hg : g12dSM conf V q _ with
        | error e => rw [hg] at h; cases h
        | ok G' =>
          rw [hg] at h
          simp only [ok_bind_eq] at h
          injection h with h
          injection h with h1 h2
          rw [← h1, ← h2]
          exact ⟨rfl, rfl⟩
  obtain ⟨S, hS, rfl, hg⟩ := hg
  unfold g12dSM at hg
  rw [ht, hu, hS] at hg
  simp only [ok_bind_eq] at hg
  injection hg with hg
  obtain ⟨a, h1, h2, _⟩ := (C86_a_fs M G).2 hM hG
  rw [h1, h2, ← hg]
  congr 1
  have : M * (q.par ("Gamma12_" ++ m.name ++ "_c") + q.par ("Gamma12_" ++ m.name ++ "_a") * fu V / ft V) *
      (1 / 10 ^ 4) / M = ((1 / 10 ^ 4 * q.par ("Gamma12_" ++ m.name ++ "_c") : ℝ) : ℂ) +
        ((1 / 10 ^ 4 * q.par ("Gamma12_" ++ m.name ++ "_a") : ℝ) : ℂ) * (fu V / ft V) := by
    push_cast
    field_simp
  rw [this, add_im, ofReal_im, im_ofReal_mul, zero_add]

/-! ## The hypotheses can be met -/

/-- Inputs with masses `m_u = 0`, `m_c = 2`, `m_t = 3` in units of the W mass and everything else 1, except for the
suppressed width coefficients. (Specification.) -/
noncomputable def sampleInputs : Inputs where
  par := fun s => if s = "m_u" ∨ s = "Gamma12_B0_a" then 0 else if s = "m_c" then 2 else 1
  mtmt := 3
  mq1 := 1
  mq2 := 1
  alphaS := 1

theorem sample_one (s : String) (h : (s = "m_u" ∨ s = "Gamma12_B0_a") = False) (h' : (s = "m_c") = False) :
    sampleInputs.par s = 1 := by
  show (if s = "m_u" ∨ s = "Gamma12_B0_a" then (0 : ℝ) else if s = "m_c" then 2 else 1) = 1
  rw [if_neg (fun g => h.mp g), if_neg (fun g => h'.mp g)]

theorem sample_W : sampleInputs.par "m_W" = 1 := sample_one _ (by decide) (by decide)

theorem sample_zero (s : String) (h : s = "m_u" ∨ s = "Gamma12_B0_a") : sampleInputs.par s = 0 := by
  show (if s = "m_u" ∨ s = "Gamma12_B0_a" then (0 : ℝ) else if s = "m_c" then 2 else 1) = 0
  rw [if_pos h]

theorem sample_c : sampleInputs.par "m_c" = 2 := by
  show (if "m_c" = "m_u" ∨ "m_c" = "Gamma12_B0_a" then (0 : ℝ) else if "m_c" = "m_c" then 2 else 1) = 2
  rw [if_neg (by decide), if_pos rfl]

example : GoodMasses sampleInputs ∧
    (∀ s ∈ ["eta_tt_K0_ut", "eta_ut_K0_ut", "eta_uu_K0_ut", "eta_tt_K0", "eta_ct_K0", "eta_cc_K0"],
      sampleInputs.par s = 1) ∧ ∃ V : Mat, V ∈ Matrix.unitaryGroup (Fin 3) ℂ := by
  refine ⟨?_, ?_, 1, Submonoid.one_mem _⟩
  · intro m hm
    simp only [List.mem_cons, List.not_mem_nil, or_false] at hm
    unfold ratio
    rw [sample_W]
    rcases hm with rfl | rfl | rfl
    · norm_num [sampleInputs]
    · rw [sample_c]; norm_num
    · rw [sample_zero _ (Or.inl rfl)]; norm_num
  · intro s hs
    simp only [List.mem_cons, List.not_mem_nil, or_false] at hs
    rcases hs with rfl | rfl | rfl | rfl | rfl | rfl <;> exact sample_one _ (by decide) (by decide)

example : Physical sampleInputs "B0" ∧ sampleInputs.par ("Gamma12_" ++ Meson.name .B0 ++ "_a") = 0 ∧
    ∃ s, s0Box (ratio sampleInputs.par sampleInputs.mtmt) (ratio sampleInputs.par sampleInputs.mtmt)
      (ratio sampleInputs.par (sampleInputs.par "m_u")) = .ok s ∧ 0 < s := by
  refine ⟨⟨?_, by norm_num [sampleInputs]⟩, sample_zero _ (by decide), ?_⟩
  · intro s hs
    simp only [List.mem_cons, List.not_mem_nil, or_false] at hs
    rcases hs with rfl | rfl | rfl | rfl | rfl | rfl <;>
      (rw [sample_one _ (by decide) (by decide)]; exact one_pos)
  · have e1 : ratio sampleInputs.par sampleInputs.mtmt = 9 := by
      unfold ratio; rw [sample_W]; norm_num [sampleInputs]
    have e2 : ratio sampleInputs.par (sampleInputs.par "m_u") = 0 := by
      unfold ratio; rw [sample_W, sample_zero _ (Or.inl rfl)]; norm_num
    rw [e1, e2]
    exact C87_S0_positive 9 (by norm_num) (by norm_num)

end Verif.Mixing
