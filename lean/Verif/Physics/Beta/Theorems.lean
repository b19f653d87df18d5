import Verif.Physics.Beta.Model
import Mathlib.LinearAlgebra.CrossProduct
/-!
# C109: beta decay
-/
set_option linter.unusedVariables false
set_option linter.unusedSimpArgs false
namespace Verif.Beta
open Verif.Py Verif.Running Verif.Bll
local notation "conj" => starRingEnd ℂ

theorem nsq (z : ℂ) : ‖z‖ ^ 2 = z.re * z.re + z.im * z.im := by
  rw [← Complex.normSq_eq_norm_sq, Complex.normSq_apply]

theorem s3 : Real.sqrt 3 ^ 2 = 3 := Real.sq_sqrt (by norm_num)

theorem la_half : la (1 / 2) (1 / 2) = .ok (2 / 3) := by
  unfold la; norm_num

theorem kap : (1 : ℝ) * |1| * |Real.sqrt 3| * Real.sqrt (1 / 2 / (1 / 2 + 1)) = 1 := by
  rw [abs_of_nonneg (Real.sqrt_nonneg 3), abs_one, one_mul, one_mul, ← Real.sqrt_mul (by norm_num)]
  norm_num

theorem dl_self (J : ℝ) : dl J J = 1 := by simp [dl]

/-- The numerators for the neutron, for any value of the arguments. -/
theorem neutron_num (C : Coup) (p : Par) (m : ℝ) :
    xi C 1 (Real.sqrt 3) = 2 * (‖C.V‖ ^ 2 + ‖C.S‖ ^ 2 + 3 * (‖C.A‖ ^ 2 + ‖C.T‖ ^ 2))
    ∧ aXi C 1 (Real.sqrt 3) = 2 * (‖C.V‖ ^ 2 - ‖C.S‖ ^ 2 - (‖C.A‖ ^ 2 - ‖C.T‖ ^ 2))
    ∧ bXi C 1 (Real.sqrt 3) p.alpha 0 1 = .ok (4 * ((C.V * conj C.S).re + 3 * (C.A * conj C.T).re))
    ∧ bigAXi C 1 (Real.sqrt 3) (1 / 2) (1 / 2) 1 = .ok (4 * (‖C.T‖ ^ 2 - ‖C.A‖ ^ 2 + (C.S * conj C.T).re - (C.V * conj C.A).re))
    ∧ bigBXi C 1 (Real.sqrt 3) (1 / 2) (1 / 2) m 1 = .ok (4 * (‖C.T‖ ^ 2 + ‖C.A‖ ^ 2 - (C.S * conj C.T).re - (C.V * conj C.A).re
        + m * (2 * (C.T * conj C.A).re - (C.S * conj C.A).re - (C.V * conj C.T).re)))
    ∧ bigDXi C 1 (Real.sqrt 3) (1 / 2) (1 / 2) = 4 * ((C.S * conj C.T).im - (C.V * conj C.A).im)
    ∧ bigRXi C 1 (Real.sqrt 3) (1 / 2) (1 / 2) 1 = .ok (4 * (2 * (C.T * conj C.A).im + (C.S * conj C.A).im - (C.V * conj C.T).im)) := by
  have a1 : |(1 : ℝ)| ^ 2 = 1 := by norm_num
  have a3 : |Real.sqrt 3| ^ 2 = 3 := by rw [sq_abs, s3]
  refine ⟨?_, ?_, ?_, ?_, ?_, ?_, ?_⟩
  · simp only [xi, a1, a3]; ring
  · simp only [aXi, a1, a3]; ring
  · have : pySqrt (1 - p.alpha ^ 2 * 0 ^ 2) = .ok 1 := by unfold pySqrt; norm_num
    simp only [bXi, this, Bind.bind, Except.bind, a1, a3]
    show Except.ok _ = Except.ok _
    congr 1; ring
  · simp only [bigAXi, la_half, Bind.bind, Except.bind, dl_self, kap, a3]
    show Except.ok _ = Except.ok _
    congr 1
    simp only [Complex.add_re, Complex.sub_re, Complex.mul_re, Complex.mul_im, Complex.ofReal_re, Complex.ofReal_im, Complex.conj_re, Complex.conj_im,
      Complex.re_ofNat, Complex.im_ofNat]
    ring
  · simp only [bigBXi, la_half, Bind.bind, Except.bind, dl_self, kap, a3]
    show Except.ok _ = Except.ok _
    congr 1
    simp only [Complex.add_re, Complex.sub_re, Complex.mul_re, Complex.mul_im, Complex.ofReal_re, Complex.ofReal_im, Complex.conj_re, Complex.conj_im,
      Complex.re_ofNat, Complex.im_ofNat, Complex.add_im, Complex.sub_im]
    ring
  · simp only [bigDXi, dl_self, kap]
    simp only [Complex.add_im, Complex.sub_im, Complex.sub_re, Complex.mul_re, Complex.mul_im, Complex.ofReal_re, Complex.ofReal_im, Complex.conj_re, Complex.conj_im,
      Complex.re_ofNat, Complex.im_ofNat]
    ring
  · simp only [bigRXi, la_half, Bind.bind, Except.bind, dl_self, kap, a3]
    show Except.ok _ = Except.ok _
    congr 1
    simp only [Complex.add_im, Complex.sub_im, Complex.sub_re, Complex.mul_re, Complex.mul_im, Complex.ofReal_re, Complex.ofReal_im, Complex.conj_re, Complex.conj_im,
      Complex.re_ofNat, Complex.im_ofNat]
    ring

/-! ## Specification: helicity amplitudes of the decay of a polarised neutron

The antineutrino is right-handed and moves along `z`, the electron in the `xz` plane at an angle with cosine `c`.  `f` and `g` are the Fermi and Gamow-Teller amplitudes for an electron of
helicity `h`, the sum of a left-handed part (couplings `V`, `A`) with weight `√(1 - hβ)` and a right-handed part (`S`, `T`) with weight `√(1 + hβ)`; the nucleon operator is `f ℓ₀ + g σ·ℓ` with the
lepton current `ℓ = (ξ†η, ξ†ση)`. -/

/-- The Pauli spinor of an electron with helicity `h` (`true` for `+`).  (Specification.) -/
noncomputable def spinor (h : Bool) (c : ℝ) : ℝ × ℝ :=
  if h then (Real.sqrt ((1 + c) / 2), Real.sqrt ((1 - c) / 2)) else (-Real.sqrt ((1 - c) / 2), Real.sqrt ((1 + c) / 2))

/-- The amplitude from couplings to left- and right-handed electrons.  (Specification.) -/
noncomputable def chir (L R : ℂ) (h : Bool) (β : ℝ) : ℂ :=
  if h then L * (Real.sqrt (1 - β) : ℂ) + R * (Real.sqrt (1 + β) : ℂ) else L * (Real.sqrt (1 + β) : ℂ) + R * (Real.sqrt (1 - β) : ℂ)

/-- Matrix element between a neutron and a proton with spin projection `i`, `j` on the direction of the antineutrino (`true` is up): with `η` the spinor with spin down,
`ξ†η = ξ₂`, `ξ†σ_zη = -ξ₂`, `ξ†(σ_x - iσ_y)η = 0`... so that `f ξ†η + g σ·(ξ†ση)` has the entries below.  (Specification.) -/
noncomputable def amp (C : Coup) (β c : ℝ) (h i j : Bool) : ℂ :=
  let f := chir C.V C.S h β
  let g := chir C.A C.T h β
  match i, j with
  | true, true => f * (spinor h c).2 - g * (spinor h c).2
  | true, false => 2 * g * (spinor h c).1
  | false, true => 0
  | false, false => f * (spinor h c).2 + g * (spinor h c).2

/-- Sum over the helicity of the electron and the spin of the proton of the product of the amplitudes for two neutron spins.  (Specification.) -/
noncomputable def rho (C : Coup) (β c : ℝ) (i j : Bool) : ℂ :=
  conj (amp C β c true i true) * amp C β c true j true + conj (amp C β c true i false) * amp C β c true j false
    + conj (amp C β c false i true) * amp C β c false j true + conj (amp C β c false i false) * amp C β c false j false

/-- **C109**: all correlation coefficients of the neutron are those of the helicity amplitudes: rate, electron-neutrino correlation and Fierz term from the trace, `B` and `A` from the difference of the
diagonal entries, `A` and `D` from the interference of the two neutron spins. -/
theorem C109_neutron_amplitudes (C : Coup) (p : Par) (β c : ℝ) (hβ : |β| ≤ 1) (hc : |c| ≤ 1) (b A B : ℝ)
    (hb : bXi C 1 (Real.sqrt 3) p.alpha 0 1 = .ok b) (hA : bigAXi C 1 (Real.sqrt 3) (1 / 2) (1 / 2) 1 = .ok A)
    (hB : bigBXi C 1 (Real.sqrt 3) (1 / 2) (1 / 2) (Real.sqrt (1 - β ^ 2)) 1 = .ok B) :
    rho C β c true true + rho C β c false false
      = ((xi C 1 (Real.sqrt 3) + aXi C 1 (Real.sqrt 3) * β * c + b * Real.sqrt (1 - β ^ 2) : ℝ) : ℂ)
    ∧ rho C β c true true - rho C β c false false = ((B + A * β * c : ℝ) : ℂ)
    ∧ 2 * rho C β c true false = ((β * Real.sqrt (1 - c ^ 2) : ℝ) : ℂ) * (A + bigDXi C 1 (Real.sqrt 3) (1 / 2) (1 / 2) * Complex.I) := by
  obtain ⟨e1, e2, e3, e4, e5, e6, -⟩ := neutron_num C p (Real.sqrt (1 - β ^ 2))
  rw [e3] at hb; rw [e4] at hA; rw [e5] at hB
  cases hb; cases hA; cases hB
  rw [e1, e2, e6]
  obtain ⟨hβ1, hβ2⟩ := abs_le.1 hβ
  obtain ⟨hc1, hc2⟩ := abs_le.1 hc
  have m1 : Real.sqrt (1 - β) * Real.sqrt (1 + β) = Real.sqrt (1 - β ^ 2) := by rw [← Real.sqrt_mul (by linarith)]; congr 1; ring
  have m2 : Real.sqrt (1 - β) ^ 2 = 1 - β := Real.sq_sqrt (by linarith)
  have m3 : Real.sqrt (1 + β) ^ 2 = 1 + β := Real.sq_sqrt (by linarith)
  have k1 : Real.sqrt ((1 + c) / 2) * Real.sqrt ((1 - c) / 2) = Real.sqrt (1 - c ^ 2) / 2 := by
    rw [← Real.sqrt_mul (by linarith), show (1 + c) / 2 * ((1 - c) / 2) = (1 - c ^ 2) / 2 ^ 2 by ring, Real.sqrt_div' _ (by norm_num), Real.sqrt_sq (by norm_num)]
  have k2 : Real.sqrt ((1 + c) / 2) ^ 2 = (1 + c) / 2 := Real.sq_sqrt (by linarith)
  have k3 : Real.sqrt ((1 - c) / 2) ^ 2 = (1 - c) / 2 := Real.sq_sqrt (by linarith)
  rw [← m1]
  have k4 : Real.sqrt (1 - c ^ 2) = 2 * (Real.sqrt ((1 + c) / 2) * Real.sqrt ((1 - c) / 2)) := by rw [k1]; ring
  rw [k4]
  simp only [rho, amp, chir, spinor, if_true, if_false, Bool.false_eq_true]
  clear k4 m1 k1 e1 e2 e3 e4 e5 e6
  generalize Real.sqrt (1 - β) = cm at *
  generalize Real.sqrt (1 + β) = cp at *
  generalize Real.sqrt ((1 + c) / 2) = l1 at *
  generalize Real.sqrt ((1 - c) / 2) = l2 at *
  obtain rfl : β = 1 - cm ^ 2 := by linarith
  obtain rfl : c = 1 - 2 * l2 ^ 2 := by linarith
  have n1 : cp ^ 2 = 2 - cm ^ 2 := by rw [m3]; ring
  have n2 : l1 ^ 2 = 1 - l2 ^ 2 := by rw [k2]; ring
  have n1' : cp ^ 3 = (2 - cm ^ 2) * cp := by rw [← n1]; ring
  have n2' : l1 ^ 3 = (1 - l2 ^ 2) * l1 := by rw [← n2]; ring
  simp only [nsq]
  refine ⟨?_, ?_, ?_⟩
  all_goals
    apply Complex.ext
    all_goals
      simp only [Complex.add_re, Complex.sub_re, Complex.mul_re, Complex.mul_im, Complex.ofReal_re, Complex.ofReal_im, Complex.conj_re, Complex.conj_im,
        Complex.re_ofNat, Complex.im_ofNat, Complex.add_im, Complex.sub_im, Complex.neg_re, Complex.neg_im, Complex.ofReal_neg, Complex.zero_re, Complex.zero_im, Complex.I_re, Complex.I_im]
      ring_nf
      try simp only [n1, n2, n1', n2']
      try ring

end Verif.Beta
