import Verif.Physics.KaonUnit
import Verif.Physics.Quarkonium.Pll
import Verif.Physics.Lambdab.Model
/-!
# The unit of energy: scalar quarkonia and `Lambda_b → Lambda l l`
-/
set_option linter.unusedVariables false
set_option linter.unusedSimpArgs false
set_option linter.unusedSectionVars false
namespace Verif.EnergyUnit
open Verif.Py Verif.Running Verif.Common Complex

/-! ## `P → l l` and `S → l l` -/

/-- The inputs in the new unit (specification): the gluonic matrix elements `a_…` are cubes of an energy. -/
noncomputable def sll (x : ℝ) (d : Quarkonium.InpS) : Quarkonium.InpS where
  par k := if "a_".toList.isPrefixOf k.toList then x ^ 3 * d.par k else par x d.par k
  wc s := wcScale x (d.wc s)
  aem := d.aem
  als := d.als

theorem sll_a (x : ℝ) (d : Quarkonium.InpS) (s : String) : (sll x d).par ("a_" ++ s) = x ^ 3 * d.par ("a_" ++ s) := by
  simp [sll, String.toList_append, List.isPrefixOf]
theorem sll_m (x : ℝ) (d : Quarkonium.InpS) (s : String) : (sll x d).par ("m_" ++ s) = x * d.par ("m_" ++ s) := by
  rw [← par_m x d.par]; simp [sll, String.toList_append, List.isPrefixOf]
theorem sll_f (x : ℝ) (d : Quarkonium.InpS) (s : String) : (sll x d).par ("f_" ++ s) = x * d.par ("f_" ++ s) := by
  rw [← par_f x d.par]; simp [sll, String.toList_append, List.isPrefixOf]
theorem sll_tau (x : ℝ) (d : Quarkonium.InpS) (s : String) : (sll x d).par ("tau_" ++ s) = d.par ("tau_" ++ s) / x := by
  rw [← par_tau x d.par]; simp [sll, String.toList_append, List.isPrefixOf]

theorem wcScale_S (x : ℝ) (wc : String → ℂ) (s t u : String) :
    wcScale x wc ("CSRR_" ++ s ++ t ++ u) = wc ("CSRR_" ++ s ++ t ++ u) / x ^ 2 ∧
    wcScale x wc ("CSRL_" ++ s ++ t ++ u) = wc ("CSRL_" ++ s ++ t ++ u) / x ^ 2 := by
  constructor <;> simp [wcScale, wcPow, String.toList_append, List.isPrefixOf]

theorem getSP_unit {x : ℝ} (hx : 0 < x) (d : Quarkonium.InpS) (P l1 l2 : String) (cij cji : ℂ) :
    Quarkonium.getSP (sll x d) P l1 l2 (cij / x ^ 3) (cji / x ^ 3) = Quarkonium.getSP d P l1 l2 cij cji := by
  have hx' := hx.ne'
  have hxc : (x : ℂ) ≠ 0 := by exact_mod_cast hx'
  unfold Quarkonium.getSP
  congr 1; funext sec
  rw [show (sll x d).wc sec = wcScale x (d.wc sec) from rfl]
  dsimp only
  congr 1; funext qq
  rw [sll_m, sll_m, sll_m, sll_m, sll_f, sll_a, show (sll x d).als P = d.als P from rfl,
    show x ^ 3 * d.par ("a_" ++ P) * 4 * Real.pi = x ^ 3 * (d.par ("a_" ++ P) * 4 * Real.pi) by ring,
    show (x * d.par ("m_" ++ P)) ^ 2 * (x * d.par ("f_" ++ P)) - x ^ 3 * d.par ("a_" ++ P)
      = x * (x ^ 2 * (d.par ("m_" ++ P) ^ 2 * d.par ("f_" ++ P) - d.par ("a_" ++ P))) by ring,
    show 4 * (x * d.par ("m_" ++ Quarkonium.firstQuark qq)) = x * (4 * d.par ("m_" ++ Quarkonium.firstQuark qq)) by ring,
    pyDiv_scale hx', pyDiv_left (x ^ 3), pyDiv_left (x ^ 2), bind_map']
  congr 1; funext g; rw [bind_map']; congr 1; funext h
  simp only [wcScale_4, wcScale_S]
  show Except.ok _ = Except.ok _
  congr 2
  · simp only [map_sub, map_div₀, map_pow, Complex.conj_ofReal]
    push_cast; field_simp
  · push_cast; field_simp

theorem getSS_unit {x : ℝ} (hx : 0 < x) (d : Quarkonium.InpS) (S l1 l2 : String) (cij cji : ℂ) :
    Quarkonium.getSS (sll x d) S l1 l2 (cij / x ^ 3) (cji / x ^ 3) = Quarkonium.getSS d S l1 l2 cij cji := by
  have hx' := hx.ne'
  have hxc : (x : ℂ) ≠ 0 := by exact_mod_cast hx'
  unfold Quarkonium.getSS
  congr 1; funext sec
  rw [show (sll x d).wc sec = wcScale x (d.wc sec) from rfl]
  dsimp only
  congr 1; funext qq
  rw [sll_m, sll_f, sll_a, show (sll x d).als S = d.als S from rfl,
    show x ^ 3 * d.par ("a_" ++ S) * 4 * Real.pi = x ^ 3 * (d.par ("a_" ++ S) * 4 * Real.pi) by ring, pyDiv_left (x ^ 3), bind_map']
  congr 1; funext g
  simp only [wcScale_S]
  show Except.ok _ = Except.ok _
  congr 2
  · simp only [map_add, map_div₀, map_pow, Complex.conj_ofReal]
    push_cast; field_simp
  · push_cast; field_simp

theorem sllRate_unit {x : ℝ} (hx : 0 < x) (d : Quarkonium.InpS) (P l1 l2 : String) (a : Except PyErr Quarkonium.SLR) :
    Quarkonium.sllRate (sll x d) P l1 l2 a = Quarkonium.sllRate d P l1 l2 a := by
  have hx' := hx.ne'
  unfold Quarkonium.sllRate
  dsimp only
  rw [sll_m, sll_m, sll_m, sll_tau, pyDiv_scale hx', pyDiv_scale hx',
    show d.par ("tau_" ++ P) / x * (x * d.par ("m_" ++ P)) = d.par ("tau_" ++ P) * d.par ("m_" ++ P) by field_simp]

/-- **C165 (scalar quarkonia).** The branching ratios of `P → l1 l2` and `S → l1 l2`, with any coefficients including those of
the leptonic operators with two gluons (inverse cubes of an energy), for one charge assignment and for the sum. -/
theorem C165_scalar_quarkonium {x : ℝ} (hx : 0 < x) (d : Quarkonium.InpS) (M l1 l2 : String) (cij cji : ℂ) :
    Quarkonium.pllBr (sll x d) M l1 l2 (cij / x ^ 3) (cji / x ^ 3) = Quarkonium.pllBr d M l1 l2 cij cji ∧
    Quarkonium.sllBr (sll x d) M l1 l2 (cij / x ^ 3) (cji / x ^ 3) = Quarkonium.sllBr d M l1 l2 cij cji ∧
    Quarkonium.pllBrComb (sll x d) M l1 l2 (cij / x ^ 3) (cji / x ^ 3) = Quarkonium.pllBrComb d M l1 l2 cij cji ∧
    Quarkonium.sllBrComb (sll x d) M l1 l2 (cij / x ^ 3) (cji / x ^ 3) = Quarkonium.sllBrComb d M l1 l2 cij cji := by
  have hp : ∀ l1 l2, Quarkonium.pllBr (sll x d) M l1 l2 (cij / x ^ 3) (cji / x ^ 3) = Quarkonium.pllBr d M l1 l2 cij cji :=
    fun l1 l2 => by unfold Quarkonium.pllBr; rw [getSP_unit hx, sllRate_unit hx]
  have hs : ∀ l1 l2, Quarkonium.sllBr (sll x d) M l1 l2 (cij / x ^ 3) (cji / x ^ 3) = Quarkonium.sllBr d M l1 l2 cij cji :=
    fun l1 l2 => by unfold Quarkonium.sllBr; rw [getSS_unit hx, sllRate_unit hx]
  refine ⟨hp _ _, hs _ _, ?_, ?_⟩
  · unfold Quarkonium.pllBrComb; rw [hp, hp]
  · unfold Quarkonium.sllBrComb; rw [hs, hs]

/-! ## `Lambda_b → Lambda l l` -/

open Verif.Lambdab Verif.Angular Verif.FormFactors

/-- The inputs in the new unit (specification): the amplitudes are inverse square roots of an energy; the angular coefficients
are inverse energies. -/
noncomputable def lamb (x : ℝ) (d : Lambdab.Inp) : Lambdab.Inp where
  mLb := x * d.mLb
  mL := x * d.mL
  ml := x * d.ml
  mb := x * d.mb
  tau := d.tau / x
  alpha := d.alpha
  n0 := d.n0 / x ^ 2
  wc q2 := d.wc (q2 / x ^ 2)
  ff q2 := d.ff (q2 / x ^ 2)
  low q2 := ⟨(d.low (q2 / x ^ 2)).L.scale (((Real.sqrt x)⁻¹ : ℝ) : ℂ), (d.low (q2 / x ^ 2)).R.scale (((Real.sqrt x)⁻¹ : ℝ) : ℂ)⟩
  high q2 := ⟨(d.high (q2 / x ^ 2)).L.scale (((Real.sqrt x)⁻¹ : ℝ) : ℂ), (d.high (q2 / x ^ 2)).R.scale (((Real.sqrt x)⁻¹ : ℝ) : ℂ)⟩

/-- All transversity amplitudes multiplied by a number (specification). -/
noncomputable def taScale (k : ℂ) (t : Ta) : Ta := ⟨t.L.scale k, t.R.scale k⟩

/-- All angular coefficients multiplied by a number (specification). -/
noncomputable def ksScale (k : ℝ) (K : Ks) : Ks :=
  ⟨k * K.ss1, k * K.cc1, k * K.c1, k * K.ss2, k * K.cc2, k * K.c2, k * K.sc3, k * K.s3, k * K.sc4, k * K.s4⟩

theorem mulconj (k : ℝ) (a b : ℂ) : (k : ℂ) * a * (starRingEnd ℂ) ((k : ℂ) * b) = ((k ^ 2 : ℝ) : ℂ) * (a * (starRingEnd ℂ) b) := by
  rw [map_mul, Complex.conj_ofReal]; push_cast; ring

theorem angCoeff_scale (k : ℝ) (t : Ta) (alpha : ℝ) : angCoeff (taScale (k : ℂ) t) alpha = ksScale (k ^ 2) (angCoeff t alpha) := by
  have hn : ∀ z : ℂ, ‖(k : ℂ) * z‖ ^ 2 = k ^ 2 * ‖z‖ ^ 2 := fun z => by
    rw [norm_mul, mul_pow, Complex.norm_real, Real.norm_eq_abs, sq_abs]
  have hi : ∀ (r : ℝ) (z : ℂ), ((r : ℂ) * z).im = r * z.im := fun r z => Complex.im_ofReal_mul r z
  have hr : ∀ (r : ℝ) (z : ℂ), ((r : ℂ) * z).re = r * z.re := fun r z => Complex.re_ofReal_mul r z
  have h2 : (2 : ℂ) = ((2 : ℝ) : ℂ) := by push_cast; rfl
  unfold angCoeff taScale ksScale Four.scale
  have hc : ∀ (r : ℝ) (z : ℂ), 2 * ((r : ℂ) * z) = (r : ℂ) * (2 * z) := fun r z => by ring
  simp only [hn, mul_assoc (2 : ℂ), mulconj, hc, ← mul_sub, ← mul_add, hr, hi, Ks.mk.injEq]
  refine ⟨?_, ?_, ?_, ?_, ?_, ?_, ?_, ?_, ?_, ?_⟩ <;> ring1

theorem helAmps_unit {x : ℝ} (hx : 0 < x) (q2 mLb mL : ℝ) (ff : FFL) :
    helAmps (x ^ 2 * q2) (x * mLb) (x * mL) ff =
      { v0 := x * (helAmps q2 mLb mL ff).v0, vp := x * (helAmps q2 mLb mL ff).vp, a0 := x * (helAmps q2 mLb mL ff).a0,
        ap := x * (helAmps q2 mLb mL ff).ap, t0 := x ^ 2 * (helAmps q2 mLb mL ff).t0, tp := x ^ 2 * (helAmps q2 mLb mL ff).tp,
        t50 := x ^ 2 * (helAmps q2 mLb mL ff).t50, t5p := x ^ 2 * (helAmps q2 mLb mL ff).t5p } := by
  have hx' := hx.ne'
  have e1 : (x * mLb + x * mL) ^ 2 - x ^ 2 * q2 = x ^ 2 * ((mLb + mL) ^ 2 - q2) := by ring
  have e2 : (x * mLb - x * mL) ^ 2 - x ^ 2 * q2 = x ^ 2 * ((mLb - mL) ^ 2 - q2) := by ring
  have e3 : ∀ y : ℝ, 2 * (x ^ 2 * y) = x ^ 2 * (2 * y) := fun y => by ring
  have e4 : ∀ a b : ℝ, a / (x * b) = x⁻¹ * (a / b) := fun a b => by rw [div_mul_eq_div_div_swap, div_eq_inv_mul _ x]
  unfold helAmps
  simp only [e1, e2, e3, sqrt2 hx, e4, HA.mk.injEq]
  refine ⟨?_, ?_, ?_, ?_, ?_, ?_, ?_, ?_⟩ <;> first | ring1 | field_simp

theorem transAmps_unit {x : ℝ} (hx : 0 < x) (h : HA) (q2 mqh : ℝ) (wc : Wc) (N : ℂ) :
    transAmps ⟨x * h.v0, x * h.vp, x * h.a0, x * h.ap, x ^ 2 * h.t0, x ^ 2 * h.tp, x ^ 2 * h.t50, x ^ 2 * h.t5p⟩ (x ^ 2 * q2) (x * mqh) wc N
      = taScale (x : ℂ) (transAmps h q2 mqh wc N) := by
  have hxc : (x : ℂ) ≠ 0 := by exact_mod_cast hx.ne'
  have e : ∀ m c q t : ℂ, 2 * (x * m) * c / (x ^ 2 * q) * (x ^ 2 * t) = x * (2 * m * c / q * t) := by
    intro m c q t
    rw [div_mul_eq_mul_div, div_mul_eq_mul_div, show 2 * (x * m) * c * (x ^ 2 * t) = x ^ 2 * (x * (2 * m * c * t)) by ring,
      mul_div_mul_left _ _ (pow_ne_zero 2 hxc), mul_div_assoc]
  unfold transAmps four taScale Four.scale
  dsimp only
  push_cast
  simp only [e, Ta.mk.injEq, Four.mk.injEq]
  refine ⟨⟨?_, ?_, ?_, ?_⟩, ?_, ?_, ?_, ?_⟩ <;> ring

theorem pref_unit {x : ℝ} (hx : 0 < x) (d : Lambdab.Inp) (q2 : ℝ) :
    pref (lamb x d) (x ^ 2 * q2) = (((x * Real.sqrt x)⁻¹ : ℝ) : ℂ) * pref d q2 := by
  have hx' := hx.ne'
  have hs : 0 < Real.sqrt x := Real.sqrt_pos.2 hx
  unfold pref
  show d.n0 / (x : ℂ) ^ 2 * ((Real.sqrt (x ^ 2 * q2) * Common.lambdaK ((x * d.mLb) ^ 2) ((x * d.mL) ^ 2) (x ^ 2 * q2) ^ (1 / 4 : ℝ)
    / Real.sqrt (3 * 2 * (x * d.mLb) ^ 3 * Real.pi ^ 5) / 32 : ℝ) : ℂ) = _
  rw [sqrt2 hx, mul_pow, mul_pow, lambdaK_scale hx, Real.mul_rpow (by positivity) (Bll.lambdaK_nonneg _ _ _)]
  have h4 : (x ^ 4 : ℝ) ^ (1 / 4 : ℝ) = x := by
    rw [← Real.rpow_natCast, ← Real.rpow_mul hx.le]; norm_num
  have h3 : Real.sqrt (3 * 2 * (x * d.mLb) ^ 3 * Real.pi ^ 5) = x * Real.sqrt x * Real.sqrt (3 * 2 * d.mLb ^ 3 * Real.pi ^ 5) := by
    rw [show 3 * 2 * (x * d.mLb) ^ 3 * Real.pi ^ 5 = x ^ 2 * (x * (3 * 2 * d.mLb ^ 3 * Real.pi ^ 5)) by ring, sqrt2 hx,
      Real.sqrt_mul hx.le, ← mul_assoc]
  rw [h4, h3]
  have : Real.sqrt x * Real.sqrt x = x := Real.mul_self_sqrt hx.le
  generalize Common.lambdaK (d.mLb ^ 2) (d.mL ^ 2) q2 ^ (1 / 4 : ℝ) = L
  generalize Real.sqrt (3 * 2 * d.mLb ^ 3 * Real.pi ^ 5) = M
  generalize Real.sqrt q2 = Q
  generalize Real.sqrt x = r at *
  have hR : x * Q * (x * L) / (x * r * M) / 32 = x ^ 2 * ((x * r)⁻¹ * (Q * L / M / 32)) := by
    by_cases hM : M = 0
    · subst hM; simp
    · field_simp
  have hxc : (x : ℂ) ≠ 0 := by exact_mod_cast hx'
  rw [hR, Complex.ofReal_mul, Complex.ofReal_mul, Complex.ofReal_pow]
  generalize ((Q * L / M / 32 : ℝ) : ℂ) = z
  generalize (((x * r)⁻¹ : ℝ) : ℂ) = c
  field_simp

/-- **C165 (`Lambda_b → Lambda l l`).** The transversity amplitudes from the form factors are inverse square roots of an energy,
so that all ten angular coefficients are inverse energies. -/
theorem C165_Lambdab {x : ℝ} (hx : 0 < x) (d : Lambdab.Inp) (q2 : ℝ) :
    ampsFF (lamb x d) (x ^ 2 * q2) = taScale (((Real.sqrt x)⁻¹ : ℝ) : ℂ) (ampsFF d q2) ∧
    angCoeff (ampsFF (lamb x d) (x ^ 2 * q2)) (lamb x d).alpha = ksScale x⁻¹ (angCoeff (ampsFF d q2) d.alpha) := by
  have hx' := hx.ne'
  have hs : 0 < Real.sqrt x := Real.sqrt_pos.2 hx
  have hq : x ^ 2 * q2 / x ^ 2 = q2 := mul_div_cancel_left₀ _ (pow_ne_zero 2 hx')
  have h1 : ampsFF (lamb x d) (x ^ 2 * q2) = taScale (((Real.sqrt x)⁻¹ : ℝ) : ℂ) (ampsFF d q2) := by
    unfold ampsFF
    rw [show (lamb x d).ff (x ^ 2 * q2) = d.ff q2 from congrArg d.ff hq, show (lamb x d).wc (x ^ 2 * q2) = d.wc q2 from congrArg d.wc hq,
      show (lamb x d).mLb = x * d.mLb from rfl, show (lamb x d).mL = x * d.mL from rfl, show (lamb x d).mb = x * d.mb from rfl,
      helAmps_unit hx, transAmps_unit hx, pref_unit hx]
    have : ∀ (N : ℂ) , taScale (x : ℂ) (transAmps (helAmps q2 d.mLb d.mL (d.ff q2)) q2 d.mb (d.wc q2) ((((x * Real.sqrt x)⁻¹ : ℝ) : ℂ) * N))
        = taScale (((Real.sqrt x)⁻¹ : ℝ) : ℂ) (transAmps (helAmps q2 d.mLb d.mL (d.ff q2)) q2 d.mb (d.wc q2) N) := by
      intro N
      have hk : ∀ z : ℂ, (x : ℂ) * ((((x * Real.sqrt x)⁻¹ : ℝ) : ℂ) * N * z) = (((Real.sqrt x)⁻¹ : ℝ) : ℂ) * (N * z) := by
        intro z
        rw [← mul_assoc, ← mul_assoc, ← Complex.ofReal_mul, mul_inv, ← mul_assoc, mul_inv_cancel₀ hx', one_mul, mul_assoc]
      unfold transAmps taScale Four.scale
      simp only [hk]
    exact this _
  refine ⟨h1, ?_⟩
  rw [h1, show (lamb x d).alpha = d.alpha from rfl, angCoeff_scale, inv_pow, Real.sq_sqrt hx.le]

end Verif.EnergyUnit
