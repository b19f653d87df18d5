import Verif.Physics.Lambdab.Theorems
import Verif.Physics.Mixing.Box
/-!
# C106: amplitudes, observables, bins and symmetries
-/
set_option linter.unusedVariables false
set_option linter.unusedSimpArgs false
set_option maxHeartbeats 1000000
namespace Verif.Lambdab
open Verif.Angular Verif.FormFactors Complex MeasureTheory Set
local notation "conj" => starRingEnd ℂ

/-- The amplitudes of one chirality with vector coefficients `C₊ = C + C'`, `C₋ = C - C'` and dipole coefficients `D₊`, `D₋`.  (Specification.) -/
noncomputable def specFour (N : ℂ) (q2 mLb mL mb : ℝ) (ff : FFL) (cp cm dp dm : ℂ) : Four :=
  { perp0 := (Real.sqrt 2 : ℂ) * N * (Real.sqrt (((mLb - mL) ^ 2 - q2) / q2) : ℝ) * (cp * ((mLb + mL) * ff.fV0 : ℝ) + 2 * mb * dp * ff.fT0)
    perp1 := -2 * N * (Real.sqrt ((mLb - mL) ^ 2 - q2) : ℝ) * (cp * ff.fVperp + 2 * mb * ((mLb + mL) / q2 : ℝ) * dp * ff.fTperp)
    para0 := -(Real.sqrt 2 : ℂ) * N * (Real.sqrt (((mLb + mL) ^ 2 - q2) / q2) : ℝ) * (cm * ((mLb - mL) * ff.fA0 : ℝ) + 2 * mb * dm * ff.fT50)
    para1 := 2 * N * (Real.sqrt ((mLb + mL) ^ 2 - q2) : ℝ) * (cm * ff.fAperp + 2 * mb * ((mLb - mL) / q2 : ℝ) * dm * ff.fT5perp) }

theorem four_eq (N : ℂ) (q2 mLb mL mb : ℝ) (ff : FFL) (cp cm dp dm : ℂ) (hq : 0 < q2) (h1 : q2 ≤ (mLb - mL) ^ 2) (h2 : q2 ≤ (mLb + mL) ^ 2) :
    (four (helAmps q2 mLb mL ff) q2 mb dp dm cp cm).scale N = specFour N q2 mLb mL mb ff cp cm dp dm := by
  have hs : Real.sqrt q2 ^ 2 = q2 := Real.sq_sqrt hq.le
  have hs0 : Real.sqrt q2 ≠ 0 := (Real.sqrt_pos.2 hq).ne'
  have h22 : Real.sqrt 2 ^ 2 = 2 := Real.sq_sqrt (by norm_num)
  have hq0 : (q2 : ℂ) ≠ 0 := by exact_mod_cast hq.ne'
  have hsc : (Real.sqrt q2 : ℂ) ≠ 0 := by exact_mod_cast hs0
  have hsc2 : (Real.sqrt q2 : ℂ) ^ 2 = q2 := by exact_mod_cast hs
  have h22c : (Real.sqrt 2 : ℂ) ^ 2 = 2 := by exact_mod_cast h22
  simp only [Four.scale, four, helAmps, specFour, Real.sqrt_mul (show (0:ℝ) ≤ 2 by norm_num), Real.sqrt_div' _ hq.le]
  push_cast
  generalize (Real.sqrt q2 : ℂ) = w at *
  generalize (Real.sqrt 2 : ℂ) = r at *
  generalize (Real.sqrt ((mLb - mL) ^ 2 - q2) : ℂ) = u
  generalize (Real.sqrt ((mLb + mL) ^ 2 - q2) : ℂ) = v
  rw [← hsc2] at *
  congr 1
  · field_simp
    linear_combination (-(u * (N * ff.fVperp * cp * w ^ 2 + 2 * N * ff.fTperp * (mLb + mL) * dp * mb))) * h22c
  · field_simp
    linear_combination (v * (N * ff.fAperp * cm * w ^ 2 + 2 * N * ff.fT5perp * (mLb - mL) * dm * mb)) * h22c
  · field_simp
    ring
  · field_simp

/-- **C106**: the amplitudes computed from the form factors. -/
theorem C106_amplitudes (d : Inp) (q2 : ℝ) (hq : 0 < q2) (hL : 0 ≤ d.mL) (hLb : 0 ≤ d.mLb) (h : q2 ≤ (d.mLb - d.mL) ^ 2) :
    ampsFF d q2 =
      ⟨specFour (pref d q2) q2 d.mLb d.mL d.mb (d.ff q2)
          (((d.wc q2).v - (d.wc q2).a) + ((d.wc q2).vp - (d.wc q2).ap)) (((d.wc q2).v - (d.wc q2).a) - ((d.wc q2).vp - (d.wc q2).ap))
          ((d.wc q2).c7 + (d.wc q2).c7p) ((d.wc q2).c7 - (d.wc q2).c7p),
        specFour (pref d q2) q2 d.mLb d.mL d.mb (d.ff q2)
          (((d.wc q2).v + (d.wc q2).a) + ((d.wc q2).vp + (d.wc q2).ap)) (((d.wc q2).v + (d.wc q2).a) - ((d.wc q2).vp + (d.wc q2).ap))
          ((d.wc q2).c7 + (d.wc q2).c7p) ((d.wc q2).c7 - (d.wc q2).c7p)⟩ := by
  have h2 : q2 ≤ (d.mLb + d.mL) ^ 2 := by nlinarith [mul_nonneg hL hLb]
  simp only [ampsFF, transAmps, four_eq _ _ _ _ _ _ _ _ _ _ hq h h2]

/-- **C106**: the squared prefactor, `|GF ξ α_e|² q² √λ / (3 · 2¹¹ π⁵ m_Λb³)`. -/
theorem C106_prefactor (d : Inp) (q2 : ℝ) (hq : 0 ≤ q2) (hL : 0 ≤ d.mL) (hLb : 0 < d.mLb) (h : q2 ≤ (d.mLb - d.mL) ^ 2) :
    ‖pref d q2‖ ^ 2 = ‖d.n0‖ ^ 2 * q2 * Real.sqrt (((d.mLb - d.mL) ^ 2 - q2) * ((d.mLb + d.mL) ^ 2 - q2)) / (3 * 2 ^ 11 * Real.pi ^ 5 * d.mLb ^ 3) := by
  have h2 : q2 ≤ (d.mLb + d.mL) ^ 2 := by nlinarith [mul_nonneg hL hLb.le]
  have hk : Common.kallen (d.mLb ^ 2) (d.mL ^ 2) q2 = ((d.mLb - d.mL) ^ 2 - q2) * ((d.mLb + d.mL) ^ 2 - q2) := by
    unfold Common.kallen; ring
  have hk0 : 0 ≤ ((d.mLb - d.mL) ^ 2 - q2) * ((d.mLb + d.mL) ^ 2 - q2) := mul_nonneg (by linarith) (by linarith)
  have hl : Common.lambdaK (d.mLb ^ 2) (d.mL ^ 2) q2 = ((d.mLb - d.mL) ^ 2 - q2) * ((d.mLb + d.mL) ^ 2 - q2) := by
    unfold Common.lambdaK; rw [hk, if_neg (not_lt.2 hk0)]
  have hr : ((((d.mLb - d.mL) ^ 2 - q2) * ((d.mLb + d.mL) ^ 2 - q2)) ^ (1 / 4 : ℝ)) ^ 2 = Real.sqrt (((d.mLb - d.mL) ^ 2 - q2) * ((d.mLb + d.mL) ^ 2 - q2)) := by
    rw [← Real.rpow_natCast, ← Real.rpow_mul hk0, Real.sqrt_eq_rpow]; norm_num
  rw [pref, norm_mul, mul_pow, Complex.norm_real, Real.norm_eq_abs, sq_abs, hl, div_pow, div_pow, mul_pow, hr, Real.sq_sqrt hq, Real.sq_sqrt (by positivity)]
  have := Real.pi_pos.ne'
  field_simp
  ring

/-- **C106**: outside of the allowed region all observables vanish. -/
theorem C106_outside (d : Inp) (F : Ks → ℝ) (q2 : ℝ) (h : q2 < 4 * d.ml ^ 2 ∨ (d.mLb - d.mL) ^ 2 < q2) :
    getObs d F q2 = 0 ∧ dbr d q2 = 0 ∧ ratio d F q2 = .ok 0 := by
  have h0 : ∀ F, getObs d F q2 = 0 := fun F => by rw [getObs, if_pos h]
  exact ⟨h0 F, by rw [dbr, h0, mul_zero], by rw [ratio, h0, if_pos rfl]⟩

theorem getObs_bounds (d : Inp) (q2 : ℝ) :
    0 ≤ getObs d flNum q2 ∧ getObs d flNum q2 ≤ getObs d dG q2
    ∧ |getObs d afblNum q2| ≤ 3 / 4 * (getObs d dG q2 - getObs d flNum q2)
    ∧ |getObs d afbhNum q2| ≤ |d.alpha| / 2 * getObs d dG q2
    ∧ |getObs d afblhNum q2| ≤ 3 / 8 * |d.alpha| * (getObs d dG q2 - getObs d flNum q2) := by
  unfold getObs
  by_cases h : q2 < 4 * d.ml ^ 2 ∨ q2 > (d.mLb - d.mL) ^ 2
  · simp only [if_pos h]; simp
  · simp only [if_neg h]; exact C106_bounds _ _

theorem div_ratio {x D c : ℝ} (hD : 0 ≤ D) (h : |x| ≤ c * D) (hc : 0 ≤ c) :
    ∃ v, (if x = 0 then Except.ok 0 else Running.pyDiv x D : Except Py.PyErr ℝ) = .ok v ∧ v * D = x ∧ |v| ≤ c := by
  by_cases hx : x = 0
  · exact ⟨0, by rw [if_pos hx], by rw [hx, zero_mul], by simpa using hc⟩
  · have hD0 : D ≠ 0 := by rintro rfl; simp at h; exact hx h
    refine ⟨x / D, by rw [if_neg hx, Mixing.pyDiv_ne hD0], by field_simp, ?_⟩
    rw [abs_div, abs_of_nonneg hD, div_le_iff₀ (lt_of_le_of_ne hD (Ne.symm hD0))]
    exact h

/-- The properties of the four ratios that follow from inequalities between numerators and denominator. -/
theorem ratios_of {D L A H X al : ℝ} (h0 : 0 ≤ L) (h1 : L ≤ D) (h2 : |A| ≤ 3 / 4 * (D - L)) (h3 : |H| ≤ |al| / 2 * D) (h4 : |X| ≤ 3 / 8 * |al| * (D - L)) :
    ∃ fl al' ah alh : ℝ,
      (if L = 0 then Except.ok 0 else Running.pyDiv L D : Except Py.PyErr ℝ) = .ok fl ∧ (if A = 0 then Except.ok 0 else Running.pyDiv A D : Except Py.PyErr ℝ) = .ok al'
      ∧ (if H = 0 then Except.ok 0 else Running.pyDiv H D : Except Py.PyErr ℝ) = .ok ah ∧ (if X = 0 then Except.ok 0 else Running.pyDiv X D : Except Py.PyErr ℝ) = .ok alh
      ∧ fl * D = L ∧ al' * D = A ∧ ah * D = H ∧ alh * D = X
      ∧ 0 ≤ fl ∧ fl ≤ 1 ∧ |al'| ≤ 3 / 4 * (1 - fl) ∧ |ah| ≤ |al| / 2 ∧ |alh| ≤ 3 / 8 * |al| * (1 - fl) := by
  have hD : 0 ≤ D := h0.trans h1
  obtain ⟨fl, e1, m1, b1⟩ := div_ratio (x := L) (c := 1) hD (by rw [abs_of_nonneg h0]; linarith) zero_le_one
  obtain ⟨a, e2, m2, b2⟩ := div_ratio (x := A) (c := 3 / 4) hD (h2.trans (by linarith)) (by norm_num)
  obtain ⟨hh, e3, m3, b3⟩ := div_ratio (x := H) (c := |al| / 2) hD h3 (by positivity)
  obtain ⟨x, e4, m4, b4⟩ := div_ratio (x := X) (c := 3 / 8 * |al|) hD (h4.trans (by
    refine mul_le_mul_of_nonneg_left (by linarith) (by positivity))) (by positivity)
  refine ⟨fl, a, hh, x, e1, e2, e3, e4, m1, m2, m3, m4, ?_, (le_abs_self _).trans b1, ?_, b3, ?_⟩
  · by_cases hL : L = 0
    · rw [if_pos hL] at e1; cases e1; exact le_rfl
    · have : 0 < D := lt_of_lt_of_le (lt_of_le_of_ne h0 (Ne.symm hL)) h1
      exact nonneg_of_mul_nonneg_left (by rw [m1]; exact h0) this
  · rcases hD.eq_or_lt with h | h
    · have hA : A = 0 := by
        have : D - L ≤ 0 := by linarith
        exact abs_eq_zero.1 (le_antisymm (h2.trans (by linarith)) (abs_nonneg _))
      rw [if_pos hA] at e2; cases e2
      have := le_abs_self fl
      simp; linarith
    · rw [← m2, ← m1, abs_mul, abs_of_pos h] at h2
      exact le_of_mul_le_mul_right (h2.trans (le_of_eq (by ring))) h
  · rcases hD.eq_or_lt with h | h
    · have hA : X = 0 := by
        have h5 : D = 0 := h.symm
        have h6 : L = 0 := le_antisymm (by linarith) h0
        rw [h5, h6] at h4; simpa using h4
      rw [if_pos hA] at e4; cases e4
      have := le_abs_self fl
      rw [abs_zero]
      exact mul_nonneg (by positivity) (by linarith)
    · rw [← m4, ← m1, abs_mul, abs_of_pos h] at h4
      exact le_of_mul_le_mul_right (h4.trans (le_of_eq (by ring))) h

/-- **C106**: the ratios never raise an exception, for any `q2` and any parameters; they are the quotients of the numerators by the rate, `0 ≤ FL ≤ 1`, `|AFBl| ≤ 3/4 (1 - FL)`,
`|AFBh| ≤ |α|/2` and `|AFBlh| ≤ 3/8 |α| (1 - FL)`. -/
theorem C106_ratios (d : Inp) (q2 : ℝ) : ∃ fl al ah alh : ℝ,
      ratio d flNum q2 = .ok fl ∧ ratio d afblNum q2 = .ok al ∧ ratio d afbhNum q2 = .ok ah ∧ ratio d afblhNum q2 = .ok alh
      ∧ fl * getObs d dG q2 = getObs d flNum q2 ∧ al * getObs d dG q2 = getObs d afblNum q2
      ∧ ah * getObs d dG q2 = getObs d afbhNum q2 ∧ alh * getObs d dG q2 = getObs d afblhNum q2
      ∧ 0 ≤ fl ∧ fl ≤ 1 ∧ |al| ≤ 3 / 4 * (1 - fl) ∧ |ah| ≤ |d.alpha| / 2 ∧ |alh| ≤ 3 / 8 * |d.alpha| * (1 - fl) := by
  obtain ⟨h0, h1, h2, h3, h4⟩ := getObs_bounds d q2
  exact ratios_of h0 h1 h2 h3 h4

/-! ## Symmetries -/

/-- Primed and unprimed coefficients exchanged.  (Specification.) -/
def swapWc (w : Wc) : Wc := { w with c7 := w.c7p, c7p := w.c7, v := w.vp, vp := w.v, a := w.ap, ap := w.a }
/-- The sign of the axial vector coefficients reversed.  (Specification.) -/
def flipWc (w : Wc) : Wc := { w with a := -w.a, ap := -w.ap }

theorem transAmps_swap (ha : HA) (q2 m : ℝ) (w : Wc) (N : ℂ) : transAmps ha q2 m (swapWc w) N =
    ⟨⟨(transAmps ha q2 m w N).L.perp1, -(transAmps ha q2 m w N).L.para1, (transAmps ha q2 m w N).L.perp0, -(transAmps ha q2 m w N).L.para0⟩,
     ⟨(transAmps ha q2 m w N).R.perp1, -(transAmps ha q2 m w N).R.para1, (transAmps ha q2 m w N).R.perp0, -(transAmps ha q2 m w N).R.para0⟩⟩ := by
  simp only [transAmps, swapWc, four, Four.scale, Ta.mk.injEq, Four.mk.injEq]
  refine ⟨⟨?_, ?_, ?_, ?_⟩, ⟨?_, ?_, ?_, ?_⟩⟩ <;> ring

theorem transAmps_flip (ha : HA) (q2 m : ℝ) (w : Wc) (N : ℂ) : transAmps ha q2 m (flipWc w) N = ⟨(transAmps ha q2 m w N).R, (transAmps ha q2 m w N).L⟩ := by
  simp only [transAmps, flipWc, sub_neg_eq_add, ← sub_eq_add_neg]

/-- **C106**: exchanging primed and unprimed coefficients (the opposite chirality of the quark currents) reverses the lepton and the hadron side asymmetry and leaves the rate, `FL` and the
combined asymmetry unchanged. -/
theorem C106_chirality (ha : HA) (q2 m alpha : ℝ) (w : Wc) (N : ℂ) :
    dG (angCoeff (transAmps ha q2 m (swapWc w) N) alpha) = dG (angCoeff (transAmps ha q2 m w N) alpha)
    ∧ flNum (angCoeff (transAmps ha q2 m (swapWc w) N) alpha) = flNum (angCoeff (transAmps ha q2 m w N) alpha)
    ∧ afblNum (angCoeff (transAmps ha q2 m (swapWc w) N) alpha) = -afblNum (angCoeff (transAmps ha q2 m w N) alpha)
    ∧ afbhNum (angCoeff (transAmps ha q2 m (swapWc w) N) alpha) = -afbhNum (angCoeff (transAmps ha q2 m w N) alpha)
    ∧ afblhNum (angCoeff (transAmps ha q2 m (swapWc w) N) alpha) = afblhNum (angCoeff (transAmps ha q2 m w N) alpha) := by
  rw [transAmps_swap]
  simp only [dG, flNum, afblNum, afbhNum, afblhNum, angCoeff, norm_neg, map_neg, mul_neg, Complex.add_re, Complex.sub_re, Complex.neg_re]
  refine ⟨?_, ?_, ?_, ?_, ?_⟩ <;> first | trivial | ring

/-- **C106**: reversing the axial vector coupling of the leptons reverses the lepton side and the combined asymmetry and leaves the rate, `FL` and the hadron side asymmetry unchanged. -/
theorem C106_leptons (ha : HA) (q2 m alpha : ℝ) (w : Wc) (N : ℂ) :
    dG (angCoeff (transAmps ha q2 m (flipWc w) N) alpha) = dG (angCoeff (transAmps ha q2 m w N) alpha)
    ∧ flNum (angCoeff (transAmps ha q2 m (flipWc w) N) alpha) = flNum (angCoeff (transAmps ha q2 m w N) alpha)
    ∧ afblNum (angCoeff (transAmps ha q2 m (flipWc w) N) alpha) = -afblNum (angCoeff (transAmps ha q2 m w N) alpha)
    ∧ afbhNum (angCoeff (transAmps ha q2 m (flipWc w) N) alpha) = afbhNum (angCoeff (transAmps ha q2 m w N) alpha)
    ∧ afblhNum (angCoeff (transAmps ha q2 m (flipWc w) N) alpha) = -afblhNum (angCoeff (transAmps ha q2 m w N) alpha) := by
  rw [transAmps_flip]
  simp only [dG, flNum, afblNum, afbhNum, afblhNum, angCoeff, Complex.add_re, Complex.sub_re]
  refine ⟨?_, ?_, ?_, ?_, ?_⟩ <;> ring

theorem re_scale (N a b : ℂ) : (N * a * conj (N * b)).re = ‖N‖ ^ 2 * (a * conj b).re := by
  rw [map_mul, show N * a * (conj N * conj b) = (N * conj N) * (a * conj b) by ring, Complex.mul_conj, Complex.re_ofReal_mul, ← Complex.sq_norm]
theorem im_scale (N a b : ℂ) : (N * a * conj (N * b)).im = ‖N‖ ^ 2 * (a * conj b).im := by
  rw [map_mul, show N * a * (conj N * conj b) = (N * conj N) * (a * conj b) by ring, Complex.mul_conj, Complex.im_ofReal_mul, ← Complex.sq_norm]

/-- **C106**: all observables are proportional to the squared modulus of the overall factor; its phase drops out. -/
theorem C106_normalisation (ta : Ta) (alpha : ℝ) (N : ℂ) :
    dG (angCoeff ⟨ta.L.scale N, ta.R.scale N⟩ alpha) = ‖N‖ ^ 2 * dG (angCoeff ta alpha)
    ∧ flNum (angCoeff ⟨ta.L.scale N, ta.R.scale N⟩ alpha) = ‖N‖ ^ 2 * flNum (angCoeff ta alpha)
    ∧ afblNum (angCoeff ⟨ta.L.scale N, ta.R.scale N⟩ alpha) = ‖N‖ ^ 2 * afblNum (angCoeff ta alpha)
    ∧ afbhNum (angCoeff ⟨ta.L.scale N, ta.R.scale N⟩ alpha) = ‖N‖ ^ 2 * afbhNum (angCoeff ta alpha)
    ∧ afblhNum (angCoeff ⟨ta.L.scale N, ta.R.scale N⟩ alpha) = ‖N‖ ^ 2 * afblhNum (angCoeff ta alpha) := by
  have h2 : ∀ z w : ℂ, (2 * z * conj w).re = 2 * (z * conj w).re := fun z w => by
    rw [mul_assoc, show (2:ℂ) = ((2:ℝ):ℂ) by norm_num, Complex.re_ofReal_mul]
  simp only [dG, flNum, afblNum, afbhNum, afblhNum, angCoeff, Complex.add_re, Complex.sub_re, Four.scale, h2, re_scale, norm_mul, mul_pow]
  refine ⟨?_, ?_, ?_, ?_, ?_⟩ <;> ring

/-- **C106**: at the end point `q² = (m_Λb - m_Λ)²`, form factors with the end point relations (see `C104_lambdab_endpoint`) give `FL = 1/3` and no lepton or hadron side asymmetry, whatever the
Wilson coefficients are. -/
theorem C106_endpoint (mLb mL mb alpha : ℝ) (hL : 0 ≤ mL) (hm : mL < mLb) (ff : FFL) (w : Wc) (N : ℂ) (h1 : ff.fAperp = ff.fA0) (h2 : ff.fT5perp = ff.fT50) :
    let K := angCoeff (transAmps (helAmps ((mLb - mL) ^ 2) mLb mL ff) ((mLb - mL) ^ 2) mb w N) alpha
    3 * flNum K = dG K ∧ afblNum K = 0 ∧ afbhNum K = 0 := by
  have hq : 0 < (mLb - mL) ^ 2 := pow_pos (by linarith) 2
  have hs : Real.sqrt ((mLb - mL) ^ 2) = mLb - mL := Real.sqrt_sq (by linarith)
  have hle : (mLb - mL) ^ 2 ≤ (mLb + mL) ^ 2 := by nlinarith [mul_nonneg hL (show (0:ℝ) ≤ mLb by linarith)]
  have h22 : (Real.sqrt 2) ^ 2 = 2 := Real.sq_sqrt (by norm_num)
  have hne : (mLb : ℂ) - mL ≠ 0 := by
    rw [← Complex.ofReal_sub]; exact_mod_cast (show mLb - mL ≠ 0 by linarith)
  have key : ∀ cp cm dp dm : ℂ, (specFour N ((mLb - mL) ^ 2) mLb mL mb ff cp cm dp dm).perp0 = 0 ∧ (specFour N ((mLb - mL) ^ 2) mLb mL mb ff cp cm dp dm).perp1 = 0
      ∧ ‖(specFour N ((mLb - mL) ^ 2) mLb mL mb ff cp cm dp dm).para1‖ ^ 2 = 2 * ‖(specFour N ((mLb - mL) ^ 2) mLb mL mb ff cp cm dp dm).para0‖ ^ 2 := by
    intro cp cm dp dm
    refine ⟨by simp [specFour], by simp [specFour], ?_⟩
    have e : (specFour N ((mLb - mL) ^ 2) mLb mL mb ff cp cm dp dm).para1 = -(Real.sqrt 2 : ℂ) * (specFour N ((mLb - mL) ^ 2) mLb mL mb ff cp cm dp dm).para0 := by
      simp only [specFour, h1, h2, Real.sqrt_div' _ hq.le, hs]
      have h22c : (Real.sqrt 2 : ℂ) ^ 2 = 2 := by exact_mod_cast h22
      push_cast
      generalize (Real.sqrt 2 : ℂ) = r at *
      rw [← h22c]
      field_simp
    rw [e, norm_mul, mul_pow, norm_neg, Complex.norm_real, Real.norm_eq_abs, sq_abs, h22]
  intro K
  have hK : K = angCoeff (transAmps (helAmps ((mLb - mL) ^ 2) mLb mL ff) ((mLb - mL) ^ 2) mb w N) alpha := rfl
  simp only [transAmps, four_eq _ _ _ _ _ _ _ _ _ _ hq le_rfl hle] at hK
  rw [hK]
  simp only [dG, flNum, afblNum, afbhNum, angCoeff, (key _ _ _ _).1, (key _ _ _ _).2.1, (key _ _ _ _).2.2]
  simp
  ring

/-! ## Subleading amplitudes -/

/-- **C106**: a subleading amplitude given by shifts of `C7` (`C9`) that are the same for all amplitudes has the effect of shifting the Wilson coefficient. -/
theorem C106_shift (d : Inp) (q2 : ℝ) (x : ℂ) :
    (⟨(ampsFF d q2).L.add (ampsC7 d q2 ⟨x, x, x, x⟩).L, (ampsFF d q2).R.add (ampsC7 d q2 ⟨x, x, x, x⟩).R⟩ : Ta)
        = ampsFF { d with wc := fun t => { d.wc t with c7 := (d.wc t).c7 + x } } q2
    ∧ (⟨(ampsFF d q2).L.add (ampsC9 d q2 ⟨x, x, x, x⟩).L, (ampsFF d q2).R.add (ampsC9 d q2 ⟨x, x, x, x⟩).R⟩ : Ta)
        = ampsFF { d with wc := fun t => { d.wc t with v := (d.wc t).v + x } } q2 := by
  constructor <;>
    simp only [ampsFF, ampsC7, ampsC9, dC7, dC9, transAmps, four, Four.scale, Four.add, wc0, pref, Ta.mk.injEq, Four.mk.injEq] <;>
    refine ⟨⟨?_, ?_, ?_, ?_⟩, ⟨?_, ?_, ?_, ?_⟩⟩ <;> ring

/-- **C106**: each of the four shifts only changes the amplitudes of its own name. -/
theorem C106_shift_own (d : Inp) (q2 : ℝ) (s t : Shift) :
    (s.perp0 = t.perp0 → (ampsC7 d q2 s).L.perp0 = (ampsC7 d q2 t).L.perp0 ∧ (ampsC7 d q2 s).R.perp0 = (ampsC7 d q2 t).R.perp0
        ∧ (ampsC9 d q2 s).L.perp0 = (ampsC9 d q2 t).L.perp0 ∧ (ampsC9 d q2 s).R.perp0 = (ampsC9 d q2 t).R.perp0)
    ∧ (s.para0 = t.para0 → (ampsC7 d q2 s).L.para0 = (ampsC7 d q2 t).L.para0 ∧ (ampsC7 d q2 s).R.para0 = (ampsC7 d q2 t).R.para0
        ∧ (ampsC9 d q2 s).L.para0 = (ampsC9 d q2 t).L.para0 ∧ (ampsC9 d q2 s).R.para0 = (ampsC9 d q2 t).R.para0)
    ∧ (s.perp1 = t.perp1 → (ampsC7 d q2 s).L.perp1 = (ampsC7 d q2 t).L.perp1 ∧ (ampsC7 d q2 s).R.perp1 = (ampsC7 d q2 t).R.perp1
        ∧ (ampsC9 d q2 s).L.perp1 = (ampsC9 d q2 t).L.perp1 ∧ (ampsC9 d q2 s).R.perp1 = (ampsC9 d q2 t).R.perp1)
    ∧ (s.para1 = t.para1 → (ampsC7 d q2 s).L.para1 = (ampsC7 d q2 t).L.para1 ∧ (ampsC7 d q2 s).R.para1 = (ampsC7 d q2 t).R.para1
        ∧ (ampsC9 d q2 s).L.para1 = (ampsC9 d q2 t).L.para1 ∧ (ampsC9 d q2 s).R.para1 = (ampsC9 d q2 t).R.para1) := by
  refine ⟨?_, ?_, ?_, ?_⟩ <;> intro h <;> simp only [ampsC7, ampsC9, h, and_self]

/-- **C106**: the subleading amplitudes of low `q2` are used up to and including 9 GeV², those of high `q2` above 14 GeV², none in between. -/
theorem C106_regions (d : Inp) (q2 : ℝ) :
    (q2 ≤ 9 → amps d q2 = ⟨(ampsFF d q2).L.add (d.low q2).L, (ampsFF d q2).R.add (d.low q2).R⟩)
    ∧ (9 < q2 → q2 ≤ 14 → amps d q2 = ampsFF d q2)
    ∧ (14 < q2 → amps d q2 = ⟨(ampsFF d q2).L.add (d.high q2).L, (ampsFF d q2).R.add (d.high q2).R⟩) := by
  refine ⟨fun h => ?_, fun h h' => ?_, fun h => ?_⟩
  · rw [amps, sub, if_pos h]
  · rw [amps, sub, if_neg (not_le.2 h), if_neg (not_lt.2 h')]
    simp [Ta.zero, Four.add]
  · rw [amps, sub, if_neg (not_le.2 (by linarith)), if_pos h]

end Verif.Lambdab
