import Verif.Physics.Beta.Theorems
/-!
# C109: positivity, bounds, lifetimes
-/
set_option linter.unusedVariables false
set_option linter.unusedSimpArgs false
namespace Verif.Beta
open Verif.Py Verif.Running Verif.Bll
local notation "conj" => starRingEnd ℂ

/-- Cauchy-Schwarz for the two vectors of amplitudes. -/
theorem gram (C : Coup) (β c : ℝ) (hc : |c| ≤ 1) :
    ∃ P Q : ℝ, 0 ≤ P ∧ 0 ≤ Q ∧ rho C β c true true = (P : ℂ) ∧ rho C β c false false = (Q : ℂ) ∧ ‖rho C β c true false‖ ^ 2 ≤ P * Q := by
  set a1 := amp C β c true true true with h1
  set a2 := amp C β c true true false with h2
  set a3 := amp C β c false true true with h3
  set a4 := amp C β c false true false with h4
  set b2 := amp C β c true false false with h5
  set b4 := amp C β c false false false with h6
  have z1 : amp C β c true false true = 0 := rfl
  have z2 : amp C β c false false true = 0 := rfl
  have cc : ∀ z : ℂ, conj z * z = ((‖z‖ ^ 2 : ℝ) : ℂ) := fun z => by rw [Complex.conj_mul']; push_cast; rfl
  refine ⟨‖a1‖ ^ 2 + ‖a2‖ ^ 2 + ‖a3‖ ^ 2 + ‖a4‖ ^ 2, ‖b2‖ ^ 2 + ‖b4‖ ^ 2, by positivity, by positivity, ?_, ?_, ?_⟩
  · simp only [rho, ← h1, ← h2, ← h3, ← h4, cc]; push_cast; ring
  · simp only [rho, ← h5, ← h6, z1, z2, cc]; push_cast; simp
  · have : rho C β c true false = conj a2 * b2 + conj a4 * b4 := by
      simp only [rho, ← h1, ← h2, ← h3, ← h4, ← h5, ← h6, z1, z2]; ring
    rw [this]
    have t : ‖conj a2 * b2 + conj a4 * b4‖ ≤ ‖a2‖ * ‖b2‖ + ‖a4‖ * ‖b4‖ := by
      refine (norm_add_le _ _).trans ?_
      rw [norm_mul, norm_mul, RCLike.norm_conj, RCLike.norm_conj]
    have t0 := norm_nonneg (conj a2 * b2 + conj a4 * b4)
    calc ‖conj a2 * b2 + conj a4 * b4‖ ^ 2 ≤ (‖a2‖ * ‖b2‖ + ‖a4‖ * ‖b4‖) ^ 2 := pow_le_pow_left₀ t0 t 2
      _ ≤ (‖a2‖ ^ 2 + ‖a4‖ ^ 2) * (‖b2‖ ^ 2 + ‖b4‖ ^ 2) := by nlinarith [sq_nonneg (‖a2‖ * ‖b4‖ - ‖a4‖ * ‖b2‖)]
      _ ≤ _ := by
        apply mul_le_mul_of_nonneg_right _ (by positivity)
        nlinarith [sq_nonneg ‖a1‖, sq_nonneg ‖a3‖]

theorem dot3 (u v : Fin 3 → ℝ) : u ⬝ᵥ v = u 0 * v 0 + u 1 * v 1 + u 2 * v 2 := by simp [dotProduct, Fin.sum_univ_three]

theorem vec_le (J w : Fin 3 → ℝ) (W : ℝ) (hW : 0 ≤ W) (hJ : J ⬝ᵥ J ≤ 1) (hw : w ⬝ᵥ w ≤ W ^ 2) : |J ⬝ᵥ w| ≤ W := by
  have hcs : (J ⬝ᵥ w) ^ 2 ≤ (J ⬝ᵥ J) * (w ⬝ᵥ w) := by
    simp only [dot3]
    linarith [sq_nonneg (J 0 * w 1 - J 1 * w 0), sq_nonneg (J 0 * w 2 - J 2 * w 0), sq_nonneg (J 1 * w 2 - J 2 * w 1)]
  have hw0 : 0 ≤ w ⬝ᵥ w := by rw [dot3]; linarith [mul_self_nonneg (w 0), mul_self_nonneg (w 1), mul_self_nonneg (w 2)]
  apply abs_le_of_sq_le_sq _ hW
  calc (J ⬝ᵥ w) ^ 2 ≤ (J ⬝ᵥ J) * (w ⬝ᵥ w) := hcs
    _ ≤ 1 * (w ⬝ᵥ w) := mul_le_mul_of_nonneg_right hJ hw0
    _ ≤ W ^ 2 := by rw [one_mul]; exact hw

theorem cross_sq (e n : Fin 3 → ℝ) : (crossProduct e n) ⬝ᵥ (crossProduct e n) = (e ⬝ᵥ e) * (n ⬝ᵥ n) - (e ⬝ᵥ n) ^ 2 := by
  simp only [dot3, crossProduct, LinearMap.mk₂_apply, Matrix.cons_val_zero, Matrix.cons_val_one, Matrix.cons_val]
  ring

theorem vec_sq (e n x : Fin 3 → ℝ) (a b d : ℝ) (h1 : e ⬝ᵥ x = 0) (h2 : n ⬝ᵥ x = 0) :
    (fun i => a * e i + b * n i + d * x i) ⬝ᵥ (fun i => a * e i + b * n i + d * x i) = a ^ 2 * (e ⬝ᵥ e) + b ^ 2 * (n ⬝ᵥ n) + d ^ 2 * (x ⬝ᵥ x) + 2 * a * b * (e ⬝ᵥ n) := by
  simp only [dot3] at h1 h2 ⊢
  linear_combination 2 * a * d * h1 + 2 * b * d * h2

theorem pq_le {P Q r X : ℝ} (h : r ≤ P * Q) (hX : 4 * r = X) : (P - Q) ^ 2 + X ≤ (P + Q) ^ 2 := by
  rw [← hX]; linarith

/-- **C109**: the decay distribution of a polarised neutron built from the predicted coefficients is never negative, for any couplings, electron velocity, directions and polarisation vector. -/
theorem C109_neutron_positive (C : Coup) (p : Par) (β : ℝ) (hβ : |β| ≤ 1) (J e n : Fin 3 → ℝ) (hJ : J ⬝ᵥ J ≤ 1) (he : e ⬝ᵥ e = 1) (hn : n ⬝ᵥ n = 1) (b A B : ℝ)
    (hb : bXi C 1 (Real.sqrt 3) p.alpha 0 1 = .ok b) (hA : bigAXi C 1 (Real.sqrt 3) (1 / 2) (1 / 2) 1 = .ok A)
    (hB : bigBXi C 1 (Real.sqrt 3) (1 / 2) (1 / 2) (Real.sqrt (1 - β ^ 2)) 1 = .ok B) :
    0 ≤ xi C 1 (Real.sqrt 3) + aXi C 1 (Real.sqrt 3) * β * (e ⬝ᵥ n) + b * Real.sqrt (1 - β ^ 2)
      + A * β * (J ⬝ᵥ e) + B * (J ⬝ᵥ n) + bigDXi C 1 (Real.sqrt 3) (1 / 2) (1 / 2) * β * (J ⬝ᵥ (crossProduct e n)) := by
  set c := e ⬝ᵥ n with hcdef
  set D := bigDXi C 1 (Real.sqrt 3) (1 / 2) (1 / 2) with hD
  have hL : (crossProduct e n) ⬝ᵥ (crossProduct e n) = 1 - c ^ 2 := by
    rw [cross_sq, he, hn, one_mul]
  have hc : |c| ≤ 1 := by
    have : 0 ≤ (crossProduct e n) ⬝ᵥ (crossProduct e n) := by
      rw [dot3]; linarith [mul_self_nonneg ((crossProduct e n) 0), mul_self_nonneg ((crossProduct e n) 1), mul_self_nonneg ((crossProduct e n) 2)]
    rw [hL] at this
    exact abs_le_of_sq_le_sq (by linarith) (by norm_num)
  have h1c : 0 ≤ 1 - c ^ 2 := by nlinarith [abs_le.1 hc]
  obtain ⟨r1, r2, r3⟩ := C109_neutron_amplitudes C p β c hβ hc b A B hb hA hB
  obtain ⟨P, Q, hP, hQ, g1, g2, g3⟩ := gram C β c hc
  rw [g1, g2, ← Complex.ofReal_add] at r1
  rw [g1, g2, ← Complex.ofReal_sub] at r2
  have r1 := Complex.ofReal_injective r1
  have r2 := Complex.ofReal_injective r2
  set W := xi C 1 (Real.sqrt 3) + aXi C 1 (Real.sqrt 3) * β * c + b * Real.sqrt (1 - β ^ 2) with hW
  have r4 : 4 * ‖rho C β c true false‖ ^ 2 = β ^ 2 * (1 - c ^ 2) * (A ^ 2 + D ^ 2) := by
    have := congrArg (fun z => ‖z‖ ^ 2) r3
    simp only [norm_mul, mul_pow, Complex.norm_real, Real.norm_eq_abs, sq_abs, ← hD] at this
    rw [Real.sq_sqrt h1c, nsq] at this
    rw [nsq ((A : ℂ) + D * Complex.I)] at this
    simp only [Complex.re_ofNat, Complex.im_ofNat, Complex.add_re, Complex.add_im, Complex.mul_re, Complex.mul_im, Complex.ofReal_re, Complex.ofReal_im, Complex.I_re, Complex.I_im] at this
    linear_combination this
  have hWp : 0 ≤ W := by rw [← r1]; linarith
  -- the vector that multiplies the polarisation
  set w : Fin 3 → ℝ := fun i => A * β * e i + B * n i + D * β * (crossProduct e n) i with hw
  have hwJ : A * β * (J ⬝ᵥ e) + B * (J ⬝ᵥ n) + D * β * (J ⬝ᵥ (crossProduct e n)) = J ⬝ᵥ w := by
    simp only [dot3, hw]; ring
  have hww : w ⬝ᵥ w = (B + A * β * c) ^ 2 + β ^ 2 * (1 - c ^ 2) * (A ^ 2 + D ^ 2) := by
    rw [hw, vec_sq e n (crossProduct e n) (A * β) B (D * β) (dot_self_cross e n) (dot_cross_self e n), he, hn, hL, ← hcdef]; ring
  have hle : w ⬝ᵥ w ≤ W ^ 2 := by
    rw [hww, ← r2, ← r1]; exact pq_le g3 r4
  have := (abs_le.1 (vec_le J w W hWp hJ hle)).1
  linarith only [hwJ, this]

/-! ## Bounds for all allowed transitions -/

theorem xi_nonneg (C : Coup) (MF MGT : ℝ) : 0 ≤ xi C MF MGT := by unfold xi; positivity

/-- An allowed transition: the spin changes by at most one.  (Specification.) -/
def Allowed (J Jf : ℝ) : Prop := 0 ≤ J ∧ (Jf = J - 1 ∨ Jf = J ∨ Jf = J + 1)

theorem re_le (z w : ℂ) : |(z * conj w).re| ≤ ‖z‖ * ‖w‖ := by
  refine (Complex.abs_re_le_norm _).trans ?_
  rw [norm_mul, RCLike.norm_conj]

theorem im_le (z w : ℂ) : |(z * conj w).im| ≤ ‖z‖ * ‖w‖ := by
  refine (Complex.abs_im_le_norm _).trans ?_
  rw [norm_mul, RCLike.norm_conj]

/-- The coefficient of the spin factor: `λ` and the strength of the interference of Fermi and Gamow-Teller transitions. -/
theorem la_cases {J Jf : ℝ} (h : Allowed J Jf) : ∃ l, la Jf J = .ok l ∧ |l| ≤ 1 ∧ (dl Jf J * Real.sqrt (J / (J + 1))) ^ 2 + |l| ≤ 1
    ∧ 0 ≤ dl Jf J * Real.sqrt (J / (J + 1)) := by
  obtain ⟨h0, h⟩ := h
  have hp : 0 < J + 1 := by linarith
  rcases h with rfl | rfl | rfl
  · refine ⟨1, by simp [la], by simp, ?_, ?_⟩ <;> simp [dl]
  · refine ⟨1 / (Jf + 1), ?_, ?_, ?_, ?_⟩
    · unfold la; rw [if_neg (by linarith), if_pos rfl]
    · rw [abs_of_nonneg (by positivity), div_le_one hp]; linarith
    · rw [dl_self, one_mul, Real.sq_sqrt (by positivity), abs_of_nonneg (by positivity)]
      apply le_of_eq; field_simp
    · rw [dl_self, one_mul]; positivity
  · refine ⟨-J / (J + 1), ?_, ?_, ?_, ?_⟩
    · unfold la; rw [if_neg (by linarith), if_neg (by linarith), if_pos rfl]
    · rw [abs_div, abs_neg, abs_of_nonneg h0, abs_of_pos hp, div_le_one hp]; linarith
    · have : dl (J + 1) J = 0 := by simp [dl]
      rw [this, zero_mul, abs_div, abs_neg, abs_of_nonneg h0, abs_of_pos hp]
      have : J / (J + 1) ≤ 1 := by rw [div_le_one hp]; linarith
      linarith
    · simp [dl]

/-- The quadratic form with diagonal `l` and off-diagonal `k` is bounded by the unit form if `k² + l ≤ 1`. -/
theorem form_le (l k x y : ℝ) (h : k ^ 2 + l ≤ 1) : l * x ^ 2 + 2 * k * x * y ≤ x ^ 2 + y ^ 2 := by
  nlinarith [sq_nonneg (k * x - y), mul_nonneg (sub_nonneg.2 h) (sq_nonneg x)]

theorem ab_le (F G v q a t A b : ℝ) (hF0 : 0 ≤ F) (hG0 : 0 ≤ G) (v0 : 0 ≤ v) (q0 : 0 ≤ q) (a0 : 0 ≤ a) (t0 : 0 ≤ t)
    (hA : |A| ≤ 2 * (|F * (v ^ 2 - q ^ 2)| + |G * (a ^ 2 - t ^ 2)|)) (hb : |b| ≤ 4 * (F * (v * q) + G * (a * t))) :
    A ^ 2 + b ^ 2 ≤ (2 * (F * (v ^ 2 + q ^ 2) + G * (a ^ 2 + t ^ 2))) ^ 2 := by
  have y4 : b ^ 2 ≤ (4 * (F * (v * q) + G * (a * t))) ^ 2 := by rw [← sq_abs]; exact pow_le_pow_left₀ (abs_nonneg _) hb 2
  have hA2 : A ^ 2 ≤ (2 * (|F * (v ^ 2 - q ^ 2)| + |G * (a ^ 2 - t ^ 2)|)) ^ 2 := by rw [← sq_abs]; exact pow_le_pow_left₀ (abs_nonneg _) hA 2
  have p1 : |F * (v ^ 2 - q ^ 2)| ^ 2 + (2 * (F * (v * q))) ^ 2 = (F * (v ^ 2 + q ^ 2)) ^ 2 := by rw [sq_abs]; ring
  have p2 : |G * (a ^ 2 - t ^ 2)| ^ 2 + (2 * (G * (a * t))) ^ 2 = (G * (a ^ 2 + t ^ 2)) ^ 2 := by rw [sq_abs]; ring
  have n1 : 0 ≤ F * (v ^ 2 + q ^ 2) := by positivity
  have n2 : 0 ≤ G * (a ^ 2 + t ^ 2) := by positivity
  have cs : |F * (v ^ 2 - q ^ 2)| * |G * (a ^ 2 - t ^ 2)| + (2 * (F * (v * q))) * (2 * (G * (a * t))) ≤ F * (v ^ 2 + q ^ 2) * (G * (a ^ 2 + t ^ 2)) := by
    apply le_of_sq_le_sq _ (by positivity)
    rw [mul_pow, ← p1, ← p2]
    linarith [sq_nonneg (|F * (v ^ 2 - q ^ 2)| * (2 * (G * (a * t))) - |G * (a ^ 2 - t ^ 2)| * (2 * (F * (v * q))))]
  generalize |F * (v ^ 2 - q ^ 2)| = X at *
  generalize |G * (a ^ 2 - t ^ 2)| = Y at *
  generalize F * (v * q) = Z at *
  generalize G * (a * t) = U at *
  generalize F * (v ^ 2 + q ^ 2) = N at *
  generalize G * (a ^ 2 + t ^ 2) = M at *
  linarith

/-- **C109**: unpolarised bounds: `|a| ≤ 1`, `|b| ≤ γ ≤ 1`, and `a² + b² ≤ 1`. -/
theorem C109_bounds_unpolarised (C : Coup) (MF MGT alpha Z s bx : ℝ) (hs : s = 1 ∨ s = -1) (hb : bXi C MF MGT alpha Z s = .ok bx) :
    |aXi C MF MGT| ≤ xi C MF MGT ∧ |bx| ≤ Real.sqrt (1 - alpha ^ 2 * Z ^ 2) * xi C MF MGT ∧ aXi C MF MGT ^ 2 + bx ^ 2 ≤ xi C MF MGT ^ 2 := by
  have hss : s ^ 2 = 1 := by rcases hs with rfl | rfl <;> norm_num
  have hsa : |s| = 1 := by rcases hs with rfl | rfl <;> norm_num
  unfold bXi pySqrt at hb
  by_cases hg : 1 - alpha ^ 2 * Z ^ 2 < 0
  · rw [if_pos hg] at hb; cases hb
  rw [if_neg hg] at hb
  set g := Real.sqrt (1 - alpha ^ 2 * Z ^ 2) with hgdef
  have hg0 : 0 ≤ g := Real.sqrt_nonneg _
  have hg1 : g ≤ 1 := by
    rw [hgdef, show (1 : ℝ) = Real.sqrt 1 by simp]; apply Real.sqrt_le_sqrt; rw [Real.sqrt_one]; nlinarith [mul_self_nonneg (alpha * Z)]
  have hb' := Except.ok.inj hb
  have x1 := (abs_le.1 (re_le C.V C.S)); have x2 := (abs_le.1 (re_le C.A C.T))
  set F := |MF| ^ 2 with hF
  set G := |MGT| ^ 2 with hG
  have hF0 : 0 ≤ F := by positivity
  have hG0 : 0 ≤ G := by positivity
  set v := ‖C.V‖ with hv; set t := ‖C.T‖ with ht; set a := ‖C.A‖ with ha; set q := ‖C.S‖ with hq
  have v0 : 0 ≤ v := norm_nonneg _
  have t0 : 0 ≤ t := norm_nonneg _
  have a0 : 0 ≤ a := norm_nonneg _
  have q0 : 0 ≤ q := norm_nonneg _
  set r1 := (C.V * conj C.S).re
  set r2 := (C.A * conj C.T).re
  have y1 : |F * r1 + G * r2| ≤ F * (v * q) + G * (a * t) := by
    rw [abs_le]; constructor <;> linarith only [mul_le_mul_of_nonneg_left x1.1 hF0, mul_le_mul_of_nonneg_left x1.2 hF0, mul_le_mul_of_nonneg_left x2.1 hG0, mul_le_mul_of_nonneg_left x2.2 hG0]
  have y2 : |bx| ≤ g * (4 * (F * (v * q) + G * (a * t))) := by
    rw [← hb', show s * 2 * g * 2 * (F * r1 + G * r2) = s * (g * (4 * (F * r1 + G * r2))) by ring, abs_mul, hsa, one_mul, abs_mul, abs_of_nonneg hg0, abs_mul]
    apply mul_le_mul_of_nonneg_left _ hg0
    rw [abs_of_pos (by norm_num : (0 : ℝ) < 4)]; linarith
  have hxi : xi C MF MGT = 2 * (F * (v ^ 2 + q ^ 2) + G * (a ^ 2 + t ^ 2)) := rfl
  have hax : aXi C MF MGT = 2 * (F * (v ^ 2 - q ^ 2) - 1 / 3 * G * (a ^ 2 - t ^ 2)) := rfl
  have e1 : 4 * (F * (v * q) + G * (a * t)) ≤ xi C MF MGT := by
    rw [hxi]; linarith only [mul_nonneg hF0 (sq_nonneg (v - q)), mul_nonneg hG0 (sq_nonneg (a - t))]
  have e0 : 0 ≤ 4 * (F * (v * q) + G * (a * t)) := by positivity
  refine ⟨?_, ?_, ?_⟩
  · rw [hxi, hax, abs_le]
    constructor <;> linarith only [mul_nonneg hF0 (sq_nonneg v), mul_nonneg hF0 (sq_nonneg q), mul_nonneg hG0 (sq_nonneg a), mul_nonneg hG0 (sq_nonneg t)]
  · exact y2.trans (mul_le_mul_of_nonneg_left e1 hg0)
  · have y3 : |bx| ≤ 4 * (F * (v * q) + G * (a * t)) := y2.trans (mul_le_of_le_one_left e0 hg1)
    rw [hxi]
    refine ab_le F G v q a t _ _ hF0 hG0 v0 q0 a0 t0 ?_ y3
    rw [hax, abs_mul, abs_two]
    apply mul_le_mul_of_nonneg_left _ (by norm_num)
    refine (abs_sub _ _).trans ?_
    rw [show 1 / 3 * G * (a ^ 2 - t ^ 2) = 1 / 3 * (G * (a ^ 2 - t ^ 2)) by ring, abs_mul (1 / 3)]
    have : |(1 : ℝ) / 3| = 1 / 3 := by norm_num
    rw [this]
    linarith only [abs_nonneg (G * (a ^ 2 - t ^ 2))]

/-- **C109**: bounds for polarised nuclei: in every allowed transition `|A|`, `|D|`, `|R| ≤ 1`. -/
theorem C109_bounds_polarised (C : Coup) (MF MGT J Jf s : ℝ) (h : Allowed J Jf) (hs : s = 1 ∨ s = -1) :
    ∃ A R, bigAXi C MF MGT J Jf s = .ok A ∧ bigRXi C MF MGT J Jf s = .ok R
      ∧ |A| ≤ xi C MF MGT ∧ |R| ≤ xi C MF MGT ∧ |bigDXi C MF MGT J Jf| ≤ xi C MF MGT := by
  obtain ⟨l, hl, hl1, hlk, hk⟩ := la_cases h
  set k := dl Jf J * Real.sqrt (J / (J + 1)) with hkdef
  have hsa : |s| = 1 := by rcases hs with rfl | rfl <;> norm_num
  set x := |MF| with hx
  set y := |MGT| with hy
  have x0 : 0 ≤ x := abs_nonneg _
  have y0 : 0 ≤ y := abs_nonneg _
  set v := ‖C.V‖ with hv; set t := ‖C.T‖ with ht; set a := ‖C.A‖ with ha; set q := ‖C.S‖ with hq
  have v0 : 0 ≤ v := norm_nonneg _
  have t0 : 0 ≤ t := norm_nonneg _
  have a0 : 0 ≤ a := norm_nonneg _
  have q0 : 0 ≤ q := norm_nonneg _
  have hxi : xi C MF MGT = 2 * (x ^ 2 * (v ^ 2 + q ^ 2) + y ^ 2 * (a ^ 2 + t ^ 2)) := rfl
  have kk : dl Jf J * x * y * Real.sqrt (J / (J + 1)) = k * x * y := by rw [hkdef]; ring
  have f1 := form_le |l| k (y * a) (x * v) hlk
  have f2 := form_le |l| k (y * t) (x * q) hlk
  have f3 := form_le |l| k (y * a) (x * q) hlk
  have f4 := form_le |l| k (y * t) (x * v) hlk
  have l0 := abs_nonneg l
  have hc : 0 ≤ k * x * y := by positivity
  refine ⟨2 * ((s * y ^ 2 * l * (t ^ 2 - a ^ 2)) + (k * x * y) * (2 * (C.S * conj C.T).re - 2 * (C.V * conj C.A).re)),
    2 * (s * y ^ 2 * l * 2 * (C.T * conj C.A).im + k * x * y * (2 * (C.S * conj C.A).im - 2 * (C.V * conj C.T).im)), ?_, ?_, ?_, ?_, ?_⟩
  · simp only [bigAXi, hl, Bind.bind, Except.bind, ← hx, ← hy, kk]
    show Except.ok _ = Except.ok _
    congr 1
    simp only [Complex.add_re, Complex.sub_re, Complex.mul_re, Complex.mul_im, Complex.ofReal_re, Complex.ofReal_im, Complex.conj_re, Complex.conj_im,
      Complex.re_ofNat, Complex.im_ofNat]
    ring
  · simp only [bigRXi, hl, Bind.bind, Except.bind, ← hx, ← hy, kk]
    show Except.ok _ = Except.ok _
    congr 1
    simp only [Complex.add_im, Complex.sub_im, Complex.sub_re, Complex.mul_re, Complex.mul_im, Complex.ofReal_re, Complex.ofReal_im, Complex.conj_re, Complex.conj_im,
      Complex.re_ofNat, Complex.im_ofNat]
    ring
  · rw [hxi]
    have b1 := re_le C.S C.T
    have b2 := re_le C.V C.A
    have g1 : |s * y ^ 2 * l * (t ^ 2 - a ^ 2)| ≤ |l| * (y ^ 2 * t ^ 2 + y ^ 2 * a ^ 2) := by
      rw [show s * y ^ 2 * l * (t ^ 2 - a ^ 2) = s * (l * (y ^ 2 * (t ^ 2 - a ^ 2))) by ring, abs_mul, hsa, one_mul, abs_mul]
      apply mul_le_mul_of_nonneg_left _ l0
      rw [abs_le]; constructor <;> linarith only [mul_nonneg (sq_nonneg y) (sq_nonneg t), mul_nonneg (sq_nonneg y) (sq_nonneg a)]
    have g2 : |(k * x * y) * (2 * (C.S * conj C.T).re - 2 * (C.V * conj C.A).re)| ≤ (k * x * y) * (2 * (q * t) + 2 * (v * a)) := by
      rw [abs_mul, abs_of_nonneg hc]
      apply mul_le_mul_of_nonneg_left _ hc
      have := abs_le.1 b1; have := abs_le.1 b2
      rw [abs_le]; constructor <;> linarith
    rw [abs_mul, abs_two]
    have := abs_add_le (s * y ^ 2 * l * (t ^ 2 - a ^ 2)) ((k * x * y) * (2 * (C.S * conj C.T).re - 2 * (C.V * conj C.A).re))
    linarith only [this, g1, g2, f1, f2]
  · rw [hxi]
    have b0 := im_le C.T C.A
    have b1 := im_le C.S C.A
    have b2 := im_le C.V C.T
    have g1 : |s * y ^ 2 * l * 2 * (C.T * conj C.A).im| ≤ |l| * (y ^ 2 * t ^ 2 + y ^ 2 * a ^ 2) := by
      rw [show s * y ^ 2 * l * 2 * (C.T * conj C.A).im = s * (l * (y ^ 2 * (2 * (C.T * conj C.A).im))) by ring, abs_mul, hsa, one_mul, abs_mul]
      apply mul_le_mul_of_nonneg_left _ l0
      rw [abs_mul, abs_of_nonneg (sq_nonneg y), abs_mul, abs_two, ← mul_add]
      apply mul_le_mul_of_nonneg_left _ (sq_nonneg y)
      rw [abs_le] at b0
      rcases abs_cases (C.T * conj C.A).im with ⟨h1, -⟩ | ⟨h1, -⟩ <;> rw [h1] <;> linarith only [b0.1, b0.2, sq_nonneg (t - a)]
    have g2 : |(k * x * y) * (2 * (C.S * conj C.A).im - 2 * (C.V * conj C.T).im)| ≤ (k * x * y) * (2 * (q * a) + 2 * (v * t)) := by
      rw [abs_mul, abs_of_nonneg hc]
      apply mul_le_mul_of_nonneg_left _ hc
      have := abs_le.1 b1; have := abs_le.1 b2
      rw [abs_le]; constructor <;> linarith
    rw [abs_mul, abs_two]
    have := abs_add_le (s * y ^ 2 * l * 2 * (C.T * conj C.A).im) ((k * x * y) * (2 * (C.S * conj C.A).im - 2 * (C.V * conj C.T).im))
    linarith only [this, g1, g2, f3, f4]
  · rw [hxi]
    have b1 := im_le C.S C.T
    have b2 := im_le C.V C.A
    have e : bigDXi C MF MGT J Jf = 2 * ((k * x * y) * (2 * (C.S * conj C.T).im - 2 * (C.V * conj C.A).im)) := by
      simp only [bigDXi, ← hx, ← hy, kk]
      simp only [Complex.add_im, Complex.sub_im, Complex.sub_re, Complex.mul_re, Complex.mul_im, Complex.ofReal_re, Complex.ofReal_im, Complex.conj_re, Complex.conj_im,
        Complex.re_ofNat, Complex.im_ofNat]
      ring
    have g2 : |(k * x * y) * (2 * (C.S * conj C.T).im - 2 * (C.V * conj C.A).im)| ≤ (k * x * y) * (2 * (q * t) + 2 * (v * a)) := by
      rw [abs_mul, abs_of_nonneg hc]
      apply mul_le_mul_of_nonneg_left _ hc
      have := abs_le.1 b1; have := abs_le.1 b2
      rw [abs_le]; constructor <;> linarith
    rw [e, abs_mul, abs_two]
    have l1 : 0 ≤ |l| * (y * a) ^ 2 := by positivity
    have l2 : 0 ≤ |l| * (y * t) ^ 2 := by positivity
    linarith only [g2, f1, f2, l1, l2]

/-- **C109**: a transition that is not allowed is refused. -/
theorem C109_forbidden (C : Coup) (MF MGT J Jf m s : ℝ) (h0 : 0 ≤ J) (h : ¬ Allowed J Jf) :
    fA C MF MGT J Jf s = .error .valueError ∧ fB C MF MGT J Jf m s = .error .valueError ∧ fR C MF MGT J Jf s = .error .valueError := by
  have : la Jf J = .error .valueError := by
    unfold la
    simp only [Allowed, not_and, not_or] at h
    obtain ⟨h1, h2, h3⟩ := h h0
    rw [if_neg h1, if_neg h2, if_neg h3]
  refine ⟨?_, ?_, ?_⟩
  · simp only [fA, bigAXi, this]; rfl
  · simp only [fB, bigBXi, this]; rfl
  · simp only [fR, bigRXi, this]; rfl

/-- Non-vacuity: the correlation coefficients of the neutron theorems exist for every coupling, and mirror transitions are allowed. -/
example (C : Coup) (a m : ℝ) : (∃ b, bXi C 1 (Real.sqrt 3) a 0 1 = .ok b) ∧ (∃ A, bigAXi C 1 (Real.sqrt 3) (1/2) (1/2) 1 = .ok A) ∧
    (∃ B, bigBXi C 1 (Real.sqrt 3) (1/2) (1/2) m 1 = .ok B) ∧ Allowed (1/2) (1/2) ∧ ¬ Allowed (1/2) (5/2) := by
  have hal : Allowed (1/2) (1/2) := ⟨by norm_num, Or.inr (Or.inl rfl)⟩
  obtain ⟨l, hl, -⟩ := la_cases hal
  refine ⟨?_, ?_, ?_, hal, ?_⟩
  · simp [bXi, pySqrt, Bind.bind, Except.bind, pure, Except.pure, not_lt.mpr (zero_le_one (α := ℝ))]
  · simp only [bigAXi, hl, Bind.bind, Except.bind, pure, Except.pure]; exact ⟨_, rfl⟩
  · simp only [bigBXi, hl, Bind.bind, Except.bind, pure, Except.pure]; exact ⟨_, rfl⟩
  · rintro ⟨-, h | h | h⟩ <;> norm_num at h

end Verif.Beta
