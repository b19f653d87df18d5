import Verif.Physics.Bdecays.Plnu
import Verif.Physics.Taudecays.Widths
import Verif.Physics.Taudecays.ThreeLeptons
import Verif.Physics.Taudecays.Taulnunu
import Verif.Physics.Bdecays.Bll
import Verif.Physics.Quarkonium.Vll
/-!
# Predictions do not depend on the unit of energy

Change the unit of energy by a factor `x`: masses and decay constants are multiplied by `x`, lifetimes are divided by `x`,
the Fermi constant and the coefficients of four-fermion operators are divided by `x²`, dipole coefficients by `x`.
Branching ratios, which are pure numbers, must not change; widths are multiplied and lifetimes divided by `x`.
-/
set_option linter.unusedVariables false
set_option linter.unusedSimpArgs false
set_option linter.unusedSectionVars false
namespace Verif.EnergyUnit
open Verif.Common

local notation "conj" => starRingEnd ℂ

/-! ## Leptonic decays of charged mesons -/

/-- The parameters in the new unit (specification). -/
noncomputable def plnu (x : ℝ) (d : Plnu.Inp) : Plnu.Inp where
  GF := d.GF / x ^ 2
  ml l := x * d.ml l
  mP P := x * d.mP P
  tau P := d.tau P / x
  f P := x * d.f P
  V := d.V
  mq q s := x * d.mq q s
  cvl := d.cvl
  rGF := d.rGF
  delta := d.delta
  tauBcSM := d.tauBcSM / x

theorem general_scale {x : ℝ} (hx : 0 < x) (d : Plnu.Inp) (w : Plnu.Wc) (V : ℂ) (P : Plnu.Mes) (l : Plnu.Lep) (a b e : ℝ) :
    Plnu.general (plnu x d) w V P l (x * a) (x * b) e = Plnu.general d w V P l a b e := by
  have hx' := hx.ne'
  have h1 : (x * d.mP P) ^ 2 / (x * d.ml l) / (x * a + x * b) = d.mP P ^ 2 / d.ml l / (a + b) := by
    rw [← mul_add, mul_pow, div_div, div_div, show x * d.ml l * (x * (a + b)) = x ^ 2 * (d.ml l * (a + b)) by ring,
      mul_div_mul_left _ _ (pow_ne_zero 2 hx')]
  have h2 : (x * d.ml l) ^ 2 / (x * d.mP P) ^ 2 = d.ml l ^ 2 / d.mP P ^ 2 := by
    rw [mul_pow, mul_pow, mul_div_mul_left _ _ (pow_ne_zero 2 hx')]
  unfold Plnu.general plnu
  dsimp only
  rw [h1, h2]
  congr 3
  field_simp

theorem brNu_scale {x : ℝ} (hx : 0 < x) (d : Plnu.Inp) (np : Plnu.Lep → Plnu.Wc) (P : Plnu.Mes) (l nu : Plnu.Lep) :
    Plnu.brNu (plnu x d) np P l nu = Plnu.brNu d np P l nu := by
  have h0 : (0 : ℝ) = x * 0 := (mul_zero x).symm
  cases P <;> unfold Plnu.brNu <;> dsimp only
  · rw [show (plnu x d).mq .b .bll = x * d.mq .b .bll from rfl]
    have := general_scale hx d (if l = nu then (np nu).addVL (d.cvl .bll) else np nu) (d.V 0 2) .Bu l (d.mq .b .bll) 0 0
    rw [mul_zero] at this
    exact this
  all_goals exact general_scale hx d _ _ _ _ _ _ _

theorem br_scale {x : ℝ} (hx : 0 < x) (d : Plnu.Inp) (np : Plnu.Lep → Plnu.Lep → Plnu.Wc) (P : Plnu.Mes) (l : Plnu.Lep) :
    Plnu.br (plnu x d) np P l = Plnu.br d np P l := by
  unfold Plnu.br
  congr 1
  exact List.map_congr_left fun nu _ => brNu_scale hx d _ P l nu

/-- **C165 (leptonic meson decays).** The branching ratios and the ratio of branching ratios do not depend on the unit of
energy; the widths are energies and the lifetime of the Bc is an inverse energy. -/
theorem C165_leptonic {x : ℝ} (hx : 0 < x) (d : Plnu.Inp) (np : Plnu.Lep → Plnu.Lep → Plnu.Wc) :
    (∀ P l, Plnu.br (plnu x d) np P l = Plnu.br d np P l) ∧
    (∀ P, Plnu.rPlnu (plnu x d) np P = Plnu.rPlnu d np P) ∧
    (∀ P l, Plnu.gammaPlnu (plnu x d) np P l = x * Plnu.gammaPlnu d np P l) ∧
    Plnu.tauBc (plnu x d) np = Plnu.tauBc d np / x := by
  have hb := fun np => br_scale hx d np
  have hx' := hx.ne'
  refine ⟨hb np, fun P => ?_, fun P l => ?_, ?_⟩
  · unfold Plnu.rPlnu; rw [hb, hb]
  · unfold Plnu.gammaPlnu
    rw [hb]
    show _ / (d.tau P / x) = _
    rw [div_div_eq_mul_div]; ring
  · unfold Plnu.tauBc
    simp only [List.foldl, Plnu.tauBcStep, hb]
    show 1 / (1 / (d.tauBcSM / x) + (0 + _ * (1 / (d.tau .Bc / x)) + _ * (1 / (d.tau .Bc / x)) + _ * (1 / (d.tau .Bc / x)))) = _
    simp only [one_div_div, div_eq_mul_inv, one_mul, mul_inv, inv_inv]
    rw [← mul_inv]
    congr 1
    ring

/-! ## Two-body decays of the leptons -/

theorem kallen_scale (x a b c : ℝ) : kallen (x ^ 2 * a) (x ^ 2 * b) (x ^ 2 * c) = x ^ 4 * kallen a b c := by
  unfold kallen; ring

theorem sqrt_lambda_scale {x : ℝ} (hx : 0 < x) (a b c : ℝ) :
    Real.sqrt (lambdaK ((x * a) ^ 2) ((x * b) ^ 2) ((x * c) ^ 2)) = x ^ 2 * Real.sqrt (lambdaK (a ^ 2) (b ^ 2) (c ^ 2)) := by
  have h4 : 0 < x ^ 4 := by positivity
  have hl : lambdaK ((x * a) ^ 2) ((x * b) ^ 2) ((x * c) ^ 2) = x ^ 4 * lambdaK (a ^ 2) (b ^ 2) (c ^ 2) := by
    unfold lambdaK
    simp only [mul_pow, kallen_scale]
    by_cases h : kallen (a ^ 2) (b ^ 2) (c ^ 2) < 0
    · rw [if_pos h, if_pos (mul_neg_of_pos_of_neg h4 h), mul_zero]
    · rw [if_neg h, if_neg]
      exact not_lt.2 (mul_nonneg h4.le (not_lt.1 h))
  rw [hl, Real.sqrt_mul h4.le, show x ^ 4 = (x ^ 2) ^ 2 by ring, Real.sqrt_sq (by positivity)]

theorem gamma_scale {x : ℝ} (hx : 0 < x) (A M m1 m2 : ℝ) :
    Tau.gamma (x ^ 2 * A) (x * M) (x * m1) (x * m2) = x * Tau.gamma A M m1 m2 := by
  unfold Tau.gamma
  rw [sqrt_lambda_scale hx]
  have := hx.ne'
  have := Real.pi_ne_zero
  by_cases hM : M = 0
  · subst hM; simp
  · field_simp

/-- Couplings in the new unit: the dipoles have the dimension of an inverse mass (specification). -/
noncomputable def vcpl (x : ℝ) (g : Tau.Vcpl) : Tau.Vcpl :=
  ⟨g.gL, g.gR, g.gTL / x, g.gtTL / x, g.gTR / x, g.gtTR / x⟩

theorem gammaFsf_scale {x : ℝ} (hx : 0 < x) (M ms mf : ℝ) (gL gR : ℂ) :
    Tau.gammaFsf (x * M) (x * ms) (x * mf) gL gR = x * Tau.gammaFsf M ms mf gL gR := by
  unfold Tau.gammaFsf
  rw [← gamma_scale hx]
  congr 1
  ring

theorem gammaFvf_scale {x : ℝ} (hx : 0 < x) (M mv mf : ℝ) (g : Tau.Vcpl) :
    Tau.gammaFvf (x * M) (x * mv) (x * mf) (vcpl x g) = x * Tau.gammaFvf M mv mf g := by
  have hx' := hx.ne'
  have hxc : (x : ℂ) ≠ 0 := by exact_mod_cast hx'
  unfold Tau.gammaFvf
  rw [← gamma_scale hx, Tau.amp2_eq, Tau.amp2_eq]
  congr 1
  have hc : ∀ z : ℂ, z / (x : ℂ) = ((x⁻¹ : ℝ) : ℂ) * z := fun z => by rw [Complex.ofReal_inv, div_eq_mul_inv, mul_comm]
  by_cases hv : mv = 0
  · subst hv
    rw [if_pos (mul_zero x), if_pos rfl]
    simp only [Tau.ampV0, Tau.ampT0, Tau.ampI0, vcpl, hc, Tau.nsq, Complex.add_re, Complex.add_im, Complex.sub_re,
      Complex.sub_im, Complex.mul_re, Complex.mul_im, Complex.conj_re, Complex.conj_im, Complex.ofReal_re,
      Complex.ofReal_im, map_add, map_sub, map_mul, Complex.conj_ofReal]
    field_simp
    ring
  · rw [if_neg (mul_ne_zero hx' hv), if_neg hv]
    simp only [Tau.ampV, Tau.ampT, Tau.ampI, vcpl, hc, Tau.nsq, Complex.add_re, Complex.add_im, Complex.sub_re,
      Complex.sub_im, Complex.mul_re, Complex.mul_im, Complex.conj_re, Complex.conj_im, Complex.ofReal_re,
      Complex.ofReal_im, map_add, map_sub, map_mul, Complex.conj_ofReal]
    field_simp
    ring

/-- The parameters of the semihadronic tau decays in the new unit (specification). -/
noncomputable def tinp (x : ℝ) (d : Tau.TInp) : Tau.TInp where
  mtau := x * d.mtau
  tauTau := d.tauTau / x
  GF := d.GF / x ^ 2
  mP := x * d.mP
  fP := x * d.fP
  mq1 := x * d.mq1
  mq2 := x * d.mq2
  V := d.V
  cvl := d.cvl
  rGF := d.rGF

/-- Four-fermion coefficients in the new unit (specification). -/
noncomputable def fcpl (x : ℝ) (u : Tau.Fcpl) : Tau.Fcpl :=
  ⟨u.LL / x ^ 2, u.RR / x ^ 2, u.LR / x ^ 2, u.RL / x ^ 2, u.sRR / x ^ 2, u.sRL / x ^ 2, u.sLL / x ^ 2, u.sLR / x ^ 2⟩

/-- Normalised coefficients of `s → d tau l` in the new unit: in this normalisation the scalar ones have the dimension of
an inverse mass (specification). -/
noncomputable def kcpl (x : ℝ) (w : Tau.Kcpl) : Tau.Kcpl :=
  ⟨w.c9, w.c9p, w.c10, w.c10p, w.cs / x, w.csp / x, w.cp / x, w.cpp / x⟩

theorem brTaupnuNu_scale {x : ℝ} (hx : 0 < x) (d : Tau.TInp) (w : Plnu.Wc) (own : Bool) :
    Tau.brTaupnuNu (tinp x d) w own = Tau.brTaupnuNu d w own := by
  have hx' := hx.ne'
  have hxc : (x : ℂ) ≠ 0 := by exact_mod_cast hx'
  have h1 : (x * d.mP) ^ 2 / (x * d.mtau) / (x * d.mq1 + x * d.mq2) = d.mP ^ 2 / d.mtau / (d.mq1 + d.mq2) := by
    rw [← mul_add, mul_pow, div_div, div_div, show x * d.mtau * (x * (d.mq1 + d.mq2)) = x ^ 2 * (d.mtau * (d.mq1 + d.mq2)) by ring,
      mul_div_mul_left _ _ (pow_ne_zero 2 hx')]
  have key := fun gR => gammaFsf_scale hx d.mtau d.mP 0 0 gR
  rw [show (x * 0 : ℝ) = 0 from mul_zero x] at key
  unfold Tau.brTaupnuNu
  simp only [tinp]
  rw [h1, key, ← mul_assoc, div_mul_cancel₀ _ hx']
  congr 2
  push_cast
  field_simp

theorem brTauPi0_scale {x : ℝ} (hx : 0 < x) (tau mtau mP ml fP mu md : ℝ) (u d : Tau.Fcpl) :
    Tau.brTauPi0 (tau / x) (x * mtau) (x * mP) (x * ml) (x * fP) (x * mu) (x * md) (fcpl x u) (fcpl x d)
      = Tau.brTauPi0 tau mtau mP ml fP mu md u d := by
  have hx' := hx.ne'
  have hxc : (x : ℂ) ≠ 0 := by exact_mod_cast hx'
  have h1 : x * fP * (x * mP) ^ 2 / (x * mu + x * md) = x ^ 2 * (fP * mP ^ 2 / (mu + md)) := by
    rw [← mul_add, show x * fP * (x * mP) ^ 2 = x * (x ^ 2 * (fP * mP ^ 2)) by ring, mul_div_mul_left _ _ hx', mul_div_assoc]
  unfold Tau.brTauPi0
  simp only [fcpl]
  rw [gammaFsf_scale hx, ← mul_assoc, div_mul_cancel₀ _ hx', h1]
  congr 2 <;> push_cast <;> field_simp

theorem brTauK0_scale {x : ℝ} (hx : 0 < x) (tau mtau mP ml fP mq1 mq2 GF alpha : ℝ) (xit : ℂ) (w : Tau.Kcpl) :
    Tau.brTauK0 (tau / x) (x * mtau) (x * mP) (x * ml) (x * fP) (x * mq1) (x * mq2) (GF / x ^ 2) alpha xit (kcpl x w)
      = Tau.brTauK0 tau mtau mP ml fP mq1 mq2 GF alpha xit w := by
  have hx' := hx.ne'
  have hxc : (x : ℂ) ≠ 0 := by exact_mod_cast hx'
  unfold Tau.brTauK0
  simp only [kcpl]
  rw [gammaFsf_scale hx, ← mul_assoc, div_mul_cancel₀ _ hx']
  have h1 : ((x * mq1 + x * mq2 : ℝ) : ℂ) = x * ((mq1 + mq2 : ℝ) : ℂ) := by push_cast; ring
  have h2 : ∀ a b, a = b → ∀ c e, c = e → tau * Tau.gammaFsf mtau mP ml a c = tau * Tau.gammaFsf mtau mP ml b e := by
    rintro a b rfl c e rfl; rfl
  rw [h1]
  generalize ((mq1 + mq2 : ℝ) : ℂ) = m
  apply h2 <;> push_cast <;> field_simp

theorem brTauV_scale {x : ℝ} (hx : 0 < x) (tau mtau mV ml fV fTV KV : ℝ) (g : Fin 6 → ℂ) (a b : ℂ) :
    Tau.brTauV (tau / x) (x * mtau) (x * mV) (x * ml) (x * fV) (x * fTV) KV (fun i => g i / x ^ 2) (a / x) (b / x)
      = Tau.brTauV tau mtau mV ml fV fTV KV g a b := by
  have hx' := hx.ne'
  have hxc : (x : ℂ) ≠ 0 := by exact_mod_cast hx'
  have h1 : 2 * (x * fV) * KV / (x * mV) = 2 * fV * KV / mV := by
    rw [show 2 * (x * fV) * KV = x * (2 * fV * KV) by ring, mul_div_mul_left _ _ hx']
  have h2 := gammaFvf_scale hx mtau mV ml
    (⟨((mV * fV / 2 : ℝ) : ℂ) * (g 0 + g 1), ((mV * fV / 2 : ℝ) : ℂ) * (g 2 + g 3),
      (fTV : ℂ) * conj (g 4) + ((2 * fV * KV / mV : ℝ) : ℂ) * conj b, -(fTV : ℂ) * conj (g 4),
      (fTV : ℂ) * g 5 + ((2 * fV * KV / mV : ℝ) : ℂ) * a, (fTV : ℂ) * g 5⟩ : Tau.Vcpl)
  have h3 : ∀ z w : ℝ, tau / x * (x * z) = tau * z := fun z w => by field_simp
  unfold Tau.brTauV
  dsimp only
  rw [← h3 _ 0, ← h2, h1]
  congr 2
  unfold vcpl
  simp only [map_div₀, map_pow, Complex.conj_ofReal]
  generalize ((2 * fV * KV / mV : ℝ) : ℂ) = k
  congr 1 <;> push_cast <;> field_simp

/-- **C165 (two-body lepton decays).** `tau → P nu`, `tau → P l`, `tau → V l` and `l → l' gamma`. -/
theorem C165_lepton_two_body {x : ℝ} (hx : 0 < x) :
    (∀ d np, Tau.brTaupnu (tinp x d) np = Tau.brTaupnu d np) ∧
    (∀ tau mtau mP ml fP mu md u d,
      Tau.brTauPi0 (tau / x) (x * mtau) (x * mP) (x * ml) (x * fP) (x * mu) (x * md) (fcpl x u) (fcpl x d)
        = Tau.brTauPi0 tau mtau mP ml fP mu md u d) ∧
    (∀ tau mtau mP ml fP mq1 mq2 GF alpha xit w,
      Tau.brTauK0 (tau / x) (x * mtau) (x * mP) (x * ml) (x * fP) (x * mq1) (x * mq2) (GF / x ^ 2) alpha xit (kcpl x w)
        = Tau.brTauK0 tau mtau mP ml fP mq1 mq2 GF alpha xit w) ∧
    (∀ tau mtau mV ml fV fTV KV (g : Fin 6 → ℂ) (a b : ℂ),
      Tau.brTauV (tau / x) (x * mtau) (x * mV) (x * ml) (x * fV) (x * fTV) KV (fun i => g i / x ^ 2) (a / x) (b / x)
        = Tau.brTauV tau mtau mV ml fV fTV KV g a b) ∧
    (∀ tau m1 m2 (a b : ℂ), Tau.brLlgamma (tau / x) (x * m1) (x * m2) (a / x) (b / x) = Tau.brLlgamma tau m1 m2 a b) := by
  refine ⟨fun d np => ?_, fun tau mtau mP ml fP mu md u d => brTauPi0_scale hx tau mtau mP ml fP mu md u d,
    fun tau mtau mP ml fP mq1 mq2 GF alpha xit w => brTauK0_scale hx tau mtau mP ml fP mq1 mq2 GF alpha xit w,
    fun tau mtau mV ml fV fTV KV g a b => brTauV_scale hx tau mtau mV ml fV fTV KV g a b, fun tau m1 m2 a b => ?_⟩
  · unfold Tau.brTaupnu
    congr 1
    exact List.map_congr_left fun nu _ => brTaupnuNu_scale hx d _ _
  · have h2 := gammaFvf_scale hx m1 0 m2 (⟨0, 0, 2 * conj a, 0, 2 * b, 0⟩ : Tau.Vcpl)
    rw [mul_zero] at h2
    unfold Tau.brLlgamma
    rw [show tau * Tau.gammaFvf m1 0 m2 ⟨0, 0, 2 * conj a, 0, 2 * b, 0⟩
      = tau / x * (x * Tau.gammaFvf m1 0 m2 ⟨0, 0, 2 * conj a, 0, 2 * b, 0⟩) by field_simp, ← h2]
    unfold vcpl
    simp only [map_div₀, Complex.conj_ofReal, zero_div, mul_div_assoc]

/-! ## Three-body decays of the leptons -/

/-- The dimension of a coefficient of a sector of lepton operators: the dipoles have the dimension of an inverse mass,
the four-fermion operators of an inverse squared mass (specification). -/
def wcPow (k : String) : ℕ := if "Cgamma_".toList.isPrefixOf k.toList then 1 else 2

/-- The coefficients in the new unit (specification). -/
noncomputable def wcScale (x : ℝ) (wc : String → ℂ) (k : String) : ℂ := wc k / x ^ wcPow k

/-- The inputs of `l0 → l1 l2 l3` in the new unit (specification). -/
noncomputable def threeL (x : ℝ) (d : Tau3l.Inp) : Tau3l.Inp where
  m l := x * d.m l
  alpha := d.alpha
  tauTau := d.tauTau / x
  GF := d.GF / x ^ 2
  getWc s := d.getWc s >>= fun wc => .ok (wcScale x wc)

/-- The effective coefficients in the new unit (specification). -/
noncomputable def weff (x : ℝ) (w : Tau3l.Weff) : Tau3l.Weff :=
  ⟨w.C7 / x ^ 2, w.C7p / x ^ 2, w.VLL / x ^ 2, w.VLR / x ^ 2, w.VRL / x ^ 2, w.VRR / x ^ 2, w.SLL / x ^ 2, w.SLR / x ^ 2,
    w.SRL / x ^ 2, w.SRR / x ^ 2, w.TLL / x ^ 2, w.TRR / x ^ 2⟩

theorem sq_ratio {x : ℝ} (hx : 0 < x) (a b : ℝ) : (x * a) ^ 2 / (x * b) ^ 2 = a ^ 2 / b ^ 2 := by
  rw [mul_pow, mul_pow, mul_div_mul_left _ _ (pow_ne_zero 2 hx.ne')]

theorem rates_scale {x : ℝ} (hx : 0 < x) (m m' : ℝ) (w : Tau3l.Weff) :
    Tau3l.brTaumuee (x * m) (x * m') (weff x w) = Tau3l.brTaumuee m m' w / x ^ 4 ∧
    Tau3l.brTau3mu (x * m) (x * m') (weff x w) = Tau3l.brTau3mu m m' w / x ^ 4 ∧
    Tau3l.brTaumuemu (weff x w) = Tau3l.brTaumuemu w / x ^ 4 := by
  have hx' := hx.ne'
  have hc : ∀ z : ℂ, z / (x : ℂ) ^ 2 = (((x ^ 2)⁻¹ : ℝ) : ℂ) * z := fun z => by
    rw [Complex.ofReal_inv, Complex.ofReal_pow, div_eq_mul_inv, mul_comm]
  refine ⟨?_, ?_, ?_⟩ <;>
  simp only [Tau3l.brTaumuee, Tau3l.brTau3mu, Tau3l.brTaumuemu, sq_ratio hx, weff, hc, Tau3l.nsq, Complex.add_re,
    Complex.add_im, Complex.mul_re, Complex.mul_im, Complex.conj_re, Complex.conj_im, Complex.ofReal_re,
    Complex.ofReal_im, map_add, map_mul, Complex.conj_ofReal, map_ofNat, Complex.re_ofNat, Complex.im_ofNat] <;>
  field_simp <;> ring

theorem cases_scale {x : ℝ} (hx : 0 < x) (wc : String → ℂ) (y : ℝ) (l0 l1 l2 l3 : String) :
    Tau3l.cases (wcScale x wc) (y / x) l0 l1 l2 l3 = (Tau3l.cases wc y l0 l1 l2 l3 >>= fun w => .ok (weff x w)) := by
  have hxc : (x : ℂ) ≠ 0 := by exact_mod_cast hx.ne'
  have e : ∀ a b : Tau3l.Weff, a = weff x b →
      (Except.ok a : Except Verif.Py.PyErr Tau3l.Weff) = (Except.ok b >>= fun w => .ok (weff x w)) := by
    rintro a b rfl; rfl
  unfold Tau3l.cases
  split_ifs
  all_goals first
    | rfl
    | (apply e
       simp only [Tau3l.same, Tau3l.muee, Tau3l.emumu, Tau3l.emue, Tau3l.muemu, weff, wcScale, wcPow]
       simp only [Tau3l.Weff.mk.injEq, zero_div, true_and, and_true, and_self]
       simp (decide := true) only [if_true, if_false, pow_one, map_div₀, map_pow, Complex.conj_ofReal, Complex.ofReal_div,
         Verif.EnergyUnit.wcPow]
       try (refine ⟨?_, ?_⟩ <;> field_simp <;> simp only [and_self]))

theorem wcEff_scale {x : ℝ} (hx : 0 < x) (d : Tau3l.Inp) (l0 l1 l2 l3 : String) :
    Tau3l.wcEff (threeL x d) l0 l1 l2 l3 = (Tau3l.wcEff d l0 l1 l2 l3 >>= fun w => .ok (weff x w)) := by
  unfold Tau3l.wcEff
  cases Tau3l.sectorOf l0 l1 l2 l3 with
  | error e => rfl
  | ok sec =>
    show (threeL x d).getWc sec >>= _ = (d.getWc sec >>= _) >>= _
    show (d.getWc sec >>= _) >>= _ = _
    cases d.getWc sec with
    | error e => rfl
    | ok wc =>
      show Tau3l.cases (wcScale x wc) (Real.sqrt (4 * Real.pi * d.alpha) / (x * d.m l0)) l0 l1 l2 l3
        = (Tau3l.cases wc (Real.sqrt (4 * Real.pi * d.alpha) / d.m l0) l0 l1 l2 l3 >>= fun w => .ok (weff x w))
      rw [← cases_scale hx, mul_comm x, div_mul_eq_div_div]

theorem rateOf_scale {x : ℝ} (hx : 0 < x) (d : Tau3l.Inp) (l1 l2 l3 : String) (w : Tau3l.Weff) :
    Tau3l.rateOf (threeL x d) l1 l2 l3 (weff x w) = (Tau3l.rateOf d l1 l2 l3 w >>= fun r => .ok (r / x ^ 4)) := by
  have hr := fun m m' => rates_scale hx m m' w
  have e : ∀ a b : ℝ, a = b / x ^ 4 →
      (Except.ok a : Except Verif.Py.PyErr ℝ) = (Except.ok b >>= fun r => .ok (r / x ^ 4)) := by
    rintro a b rfl; rfl
  unfold Tau3l.rateOf
  split_ifs
  · exact e _ _ (hr _ _).1
  · exact e _ _ (hr _ _).1
  · exact e _ _ (hr _ _).2.1
  · exact e _ _ (hr _ _).2.1
  · exact e _ _ (hr 0 0).2.2
  · exact e _ _ (hr 0 0).2.2
  · rfl

/-- **C165 (three-body lepton decays).** `tau → l1 l2 l3` and `mu → 3 e`; the exceptions are the same too. -/
theorem C165_three_leptons {x : ℝ} (hx : 0 < x) (d : Tau3l.Inp) :
    (∀ l1 l2 l3, Tau3l.br (threeL x d) l1 l2 l3 = Tau3l.br d l1 l2 l3) ∧
    Tau3l.brMu3e (threeL x d) = Tau3l.brMu3e d := by
  have hx' := hx.ne'
  constructor
  · intro l1 l2 l3
    unfold Tau3l.br
    rw [wcEff_scale hx]
    cases Tau3l.wcEff d "tau" l1 l2 l3 with
    | error e => rfl
    | ok w =>
      show Tau3l.rateOf (threeL x d) l1 l2 l3 (weff x w) >>= _ = Tau3l.rateOf d l1 l2 l3 w >>= _
      rw [rateOf_scale hx]
      cases Tau3l.rateOf d l1 l2 l3 w with
      | error e => rfl
      | ok r =>
        show Except.ok (d.tauTau / x * (x * d.m "tau") ^ 5 / 192 / 8 / Real.pi ^ 3 * (r / x ^ 4)) = Except.ok _
        congr 1
        have := Real.pi_ne_zero
        field_simp
  · unfold Tau3l.brMu3e
    rw [wcEff_scale hx]
    cases Tau3l.wcEff d "mu" "e" "e" "e" with
    | error e => rfl
    | ok w =>
      show Except.ok (1 / (8 * (d.GF / x ^ 2) ^ 2) * Tau3l.brTau3mu (x * d.m "mu") (x * d.m "e") (weff x w)) = Except.ok _
      rw [(rates_scale hx _ _ w).2.1]
      congr 1
      by_cases hG : d.GF = 0
      · rw [hG]; simp
      · field_simp

/-! ## B → l l and quarkonium → l l -/

/-- The power of the unit of energy in a parameter of the parameter dictionary, by its name (specification): masses
`m_…`, decay constants `f_…`, `fT_…`, lifetimes `tau_…`, the Fermi constant `GF`; all else is a pure number. -/
def parPow (k : String) : ℤ :=
  if "m_".toList.isPrefixOf k.toList then 1 else if "f_".toList.isPrefixOf k.toList then 1
  else if "fT_".toList.isPrefixOf k.toList then 1 else if "tau_".toList.isPrefixOf k.toList then -1
  else if k = "GF" then -2 else 0

/-- The parameter dictionary in the new unit (specification). -/
noncomputable def par (x : ℝ) (p : String → ℝ) (k : String) : ℝ := x ^ parPow k * p k

theorem par_m (x : ℝ) (p : String → ℝ) (s : String) : par x p ("m_" ++ s) = x * p ("m_" ++ s) := by
  have : parPow ("m_" ++ s) = 1 := by simp [parPow, String.toList_append, List.isPrefixOf]
  rw [par, this, zpow_one]
theorem par_f (x : ℝ) (p : String → ℝ) (s : String) : par x p ("f_" ++ s) = x * p ("f_" ++ s) := by
  have : parPow ("f_" ++ s) = 1 := by simp [parPow, String.toList_append, List.isPrefixOf]
  rw [par, this, zpow_one]
theorem par_fT (x : ℝ) (p : String → ℝ) (s : String) : par x p ("fT_" ++ s) = x * p ("fT_" ++ s) := by
  have : parPow ("fT_" ++ s) = 1 := by simp [parPow, String.toList_append, List.isPrefixOf]
  rw [par, this, zpow_one]
theorem par_tau (x : ℝ) (p : String → ℝ) (s : String) : par x p ("tau_" ++ s) = p ("tau_" ++ s) / x := by
  have : parPow ("tau_" ++ s) = -1 := by simp [parPow, String.toList_append, List.isPrefixOf]
  rw [par, this, zpow_neg_one, div_eq_mul_inv, mul_comm]
theorem par_GF (x : ℝ) (p : String → ℝ) : par x p "GF" = p "GF" / x ^ 2 := by
  have : parPow "GF" = -2 := by decide
  rw [par, this, zpow_neg, div_eq_mul_inv, mul_comm]; rfl
theorem par_DG (x : ℝ) (p : String → ℝ) (s : String) : par x p ("DeltaGamma/Gamma_" ++ s) = p ("DeltaGamma/Gamma_" ++ s) := by
  have : parPow ("DeltaGamma/Gamma_" ++ s) = 0 := by
    have h : ("DeltaGamma/Gamma_" ++ s) ≠ "GF" := by
      intro h; have := congrArg String.toList h; simp [String.toList_append] at this
    simp [parPow, String.toList_append, List.isPrefixOf, h]
  rw [par, this, zpow_zero, one_mul]

/-- The inputs of `B → l l` in the new unit (specification). -/
noncomputable def bll (x : ℝ) (q : Bll.Inputs) : Bll.Inputs where
  par := par x q.par
  mb := x * q.mb
  ms := x * q.ms
  md := x * q.md
  alphaE := q.alphaE
  V := q.V

/-- The scalar coefficients `CS`, `CSp`, `CP`, `CPp` of `b → s l l` have the dimension of an inverse mass (specification). -/
noncomputable def wcBll (x : ℝ) (wc : String → ℂ) (k : String) : ℂ :=
  if "CS".toList.isPrefixOf k.toList ∨ "CP".toList.isPrefixOf k.toList then wc k / x else wc k

open Verif.Py Verif.Running

theorem pyDiv_scale {k : ℝ} (hk : k ≠ 0) (a b : ℝ) : pyDiv (k * a) (k * b) = pyDiv a b := by
  unfold pyDiv
  by_cases h : b = 0
  · subst h; simp
  · rw [if_neg h, if_neg (mul_ne_zero hk h), mul_div_mul_left _ _ hk]

theorem minus_scale (x : ℝ) (wc : String → ℂ) (s : String) :
    Bll.minus (wcBll x wc) "C10" s = Bll.minus wc "C10" s ∧ Bll.minus (wcBll x wc) "C9" s = Bll.minus wc "C9" s ∧
    Bll.minus (wcBll x wc) "CS" s = Bll.minus wc "CS" s / x ∧ Bll.minus (wcBll x wc) "CP" s = Bll.minus wc "CP" s / x := by
  refine ⟨?_, ?_, ?_, ?_⟩ <;> simp [Bll.minus, wcBll, String.toList_append, List.isPrefixOf, sub_div]

theorem amplitudes_scale {x : ℝ} (hx : 0 < x) (q : Bll.Inputs) (wc : String → ℂ) (B : Bll.BMes) (l1 l2 : Bll.Lep) :
    Bll.amplitudes (bll x q) (wcBll x wc) B l1 l2 = Bll.amplitudes q wc B l1 l2 := by
  have hx' := hx.ne'
  have hxc : (x : ℂ) ≠ 0 := by exact_mod_cast hx'
  obtain ⟨w1, w2, w3, w4⟩ := minus_scale x wc (Bll.sector B l1 l2)
  have hm : ∀ s, (bll x q).par ("m_" ++ s) = x * q.par ("m_" ++ s) := par_m x q.par
  have hs : Bll.mspec (bll x q) B = x * Bll.mspec q B := by cases B <;> rfl
  have hb : (bll x q).mb = x * q.mb := rfl
  have hr : pyDiv (x * q.par ("m_" ++ B.name) * (x * q.mb)) (x * q.mb + x * Bll.mspec q B)
      = (pyDiv (q.par ("m_" ++ B.name) * q.mb) (q.mb + Bll.mspec q B) >>= fun r => .ok (x * r)) := by
    rw [← mul_add, show x * q.par ("m_" ++ B.name) * (x * q.mb) = x * (x * (q.par ("m_" ++ B.name) * q.mb)) by ring,
      pyDiv_scale hx']
    unfold pyDiv
    by_cases h : q.mb + Bll.mspec q B = 0
    · rw [if_pos h, if_pos h]; rfl
    · rw [if_neg h, if_neg h, mul_div_assoc]; rfl
  unfold Bll.amplitudes
  simp only [hm, hs, hb, w1, w2, w3, w4, ← mul_sub, ← mul_add]
  simp only [mul_pow, pyDiv_scale (pow_ne_zero 2 hx')]
  rw [mul_add, hr]
  congr 1; funext xm; congr 1; funext bm; congr 1; funext xp; congr 1; funext bp
  unfold pyDiv
  by_cases h : q.mb + Bll.mspec q B = 0
  · rw [if_pos h]; rfl
  · rw [if_neg h]
    simp only [ok_bind_eq]
    rw [mul_div_mul_left _ _ hx', mul_div_mul_left _ _ hx']
    generalize (q.par ("m_" ++ B.name) * q.mb / (q.mb + Bll.mspec q B)) = r
    congr 1
    push_cast
    have : ∀ z : ℂ, (x : ℂ) * r * (z / x) = r * z := fun z => by field_simp
    rw [this, this]

theorem pySqrt_lambda_scale {x : ℝ} (hx : 0 < x) (a b c : ℝ) :
    Bll.pySqrt (lambdaK ((x * a) ^ 2) ((x * b) ^ 2) ((x * c) ^ 2))
      = (Bll.pySqrt (lambdaK (a ^ 2) (b ^ 2) (c ^ 2)) >>= fun r => .ok (x ^ 2 * r)) := by
  rw [Bll.pySqrt_nonneg (Bll.lambdaK_nonneg _ _ _), Bll.pySqrt_nonneg (Bll.lambdaK_nonneg _ _ _), sqrt_lambda_scale hx]
  rfl

theorem normN_scale {x : ℝ} (hx : 0 < x) (q : Bll.Inputs) (B : Bll.BMes) :
    Bll.normN (bll x q) B = (Bll.normN q B >>= fun N => .ok (N / x ^ 2)) := by
  have hxc : (x : ℂ) ≠ 0 := by exact_mod_cast hx.ne'
  unfold Bll.normN
  have hg : (bll x q).par "GF" = q.par "GF" / x ^ 2 := par_GF x q.par
  rw [hg]
  cases Verif.Ckm.xi 't' B.quarks with
  | error e => rfl
  | ok f =>
    simp only [ok_bind_eq]
    congr 1
    show f q.V * 4 * ((q.par "GF" / x ^ 2 : ℝ) : ℂ) / _ * (q.alphaE : ℂ) / _ = _
    push_cast
    ring

theorem brInst_scale {x : ℝ} (hx : 0 < x) (q : Bll.Inputs) (wc : String → ℂ) (B : Bll.BMes) (l1 l2 : Bll.Lep) :
    Bll.brInst (bll x q) (wcBll x wc) B l1 l2 = Bll.brInst q wc B l1 l2 := by
  have hx' := hx.ne'
  have hm : ∀ s, (bll x q).par ("m_" ++ s) = x * q.par ("m_" ++ s) := par_m x q.par
  have hf : ∀ s, (bll x q).par ("f_" ++ s) = x * q.par ("f_" ++ s) := par_f x q.par
  have ht : ∀ s, (bll x q).par ("tau_" ++ s) = q.par ("tau_" ++ s) / x := par_tau x q.par
  unfold Bll.brInst
  simp only [hm, hf, ht, normN_scale hx, pySqrt_lambda_scale hx, amplitudes_scale hx]
  cases Bll.normN q B with
  | error e => rfl
  | ok N =>
    simp only [ok_bind_eq]
    cases Bll.pySqrt (lambdaK (q.par ("m_" ++ B.name) ^ 2) (q.par ("m_" ++ l1.name) ^ 2) (q.par ("m_" ++ l2.name) ^ 2)) with
    | error e => rfl
    | ok sl =>
      simp only [ok_bind_eq]
      rw [mul_pow, pyDiv_scale (pow_ne_zero 2 hx')]
      congr 1; funext beta; congr 1; funext ps
      congr 1
      have hN : ‖N / (x : ℂ) ^ 2‖ = ‖N‖ / x ^ 2 := by
        rw [norm_div, norm_pow, Complex.norm_real, Real.norm_of_nonneg hx.le]
      rw [hN]
      have := Real.pi_ne_zero
      field_simp

/-- **C165 (B → l l).** For every meson, every pair of leptons and all coefficients, the prompt and the time integrated
branching ratio and the mass-eigenstate rate asymmetry do not depend on the unit of energy, and the effective lifetime is
an inverse energy; the exceptions are the same too. -/
theorem C165_bll {x : ℝ} (hx : 0 < x) (q : Bll.Inputs) (wc : String → ℂ) (B : Bll.BMes) (l1 l2 : Bll.Lep) :
    Bll.brInst (bll x q) (wcBll x wc) B l1 l2 = Bll.brInst q wc B l1 l2 ∧
    Bll.brTimeint (bll x q) (wcBll x wc) B l1 l2 = Bll.brTimeint q wc B l1 l2 ∧
    Bll.aDeltaGamma (bll x q) (wcBll x wc) B l1 = Bll.aDeltaGamma q wc B l1 ∧
    Bll.tauLL (bll x q) (wcBll x wc) B l1 = (Bll.tauLL q wc B l1 >>= fun t => .ok (t / x)) := by
  have hA : Bll.aDeltaGamma (bll x q) (wcBll x wc) B l1 = Bll.aDeltaGamma q wc B l1 := by
    unfold Bll.aDeltaGamma; rw [amplitudes_scale hx]
  have hD : ∀ s, (bll x q).par ("DeltaGamma/Gamma_" ++ s) = q.par ("DeltaGamma/Gamma_" ++ s) := par_DG x q.par
  have ht : ∀ s, (bll x q).par ("tau_" ++ s) = q.par ("tau_" ++ s) / x := par_tau x q.par
  refine ⟨brInst_scale hx q wc B l1 l2, ?_, hA, ?_⟩
  · unfold Bll.brTimeint
    rw [brInst_scale hx, hA]
    unfold Bll.yOf
    rw [hD]
  · unfold Bll.tauLL
    rw [hA, hD, ht]
    cases Bll.aDeltaGamma q wc B l1 with
    | error e => rfl
    | ok A =>
      simp only [ok_bind_eq]
      unfold Bll.tauOf pyDiv
      split_ifs with h
      · rfl
      · simp only [ok_bind_eq]
        congr 1
        field_simp

/-- The inputs of `V → l l` in the new unit (specification).  The coefficients of the flavour conserving sector `dF=0` are
normalised to the Fermi constant, so that they are pure numbers. -/
noncomputable def vll (x : ℝ) (d : Quarkonium.Inp) : Quarkonium.Inp where
  par := par x d.par
  wc s := if s = "dF=0" then d.wc s else wcScale x (d.wc s)
  aem := d.aem

theorem wcScale_4 (x : ℝ) (wc : String → ℂ) (s t : String) :
    wcScale x wc ("CVLL_" ++ s ++ t) = wc ("CVLL_" ++ s ++ t) / x ^ 2 ∧
    wcScale x wc ("CVLR_" ++ s ++ t) = wc ("CVLR_" ++ s ++ t) / x ^ 2 ∧
    wcScale x wc ("CVRR_" ++ s ++ t) = wc ("CVRR_" ++ s ++ t) / x ^ 2 := by
  refine ⟨?_, ?_, ?_⟩ <;> simp [wcScale, wcPow, String.toList_append, List.isPrefixOf]

theorem wcScale_T (x : ℝ) (wc : String → ℂ) (s t u : String) :
    wcScale x wc ("CTRR_" ++ s ++ t ++ u) = wc ("CTRR_" ++ s ++ t ++ u) / x ^ 2 := by
  simp [wcScale, wcPow, String.toList_append, List.isPrefixOf]

theorem wcScale_D (x : ℝ) (wc : String → ℂ) (s t : String) :
    wcScale x wc ("Cgamma_" ++ s ++ t) = wc ("Cgamma_" ++ s ++ t) / x := by
  simp [wcScale, wcPow, String.toList_append, List.isPrefixOf]

theorem mem_of_lookup {l : List ((String × String) × String)} {k : String × String} {v : String}
    (h : l.lookup k = some v) : (k, v) ∈ l := by
  induction l with
  | nil => simp at h
  | cons p t ih =>
    rw [List.lookup_cons] at h
    by_cases hk : k = p.1
    · subst hk
      simp at h
      subst h
      exact List.mem_cons_self
    · rw [show (k == p.1) = false by simpa using hk] at h
      exact List.mem_cons_of_mem _ (ih h)

theorem wcSector_mem {l1 l2 sec : String} (hs : Quarkonium.wcSector l1 l2 = .ok sec) :
    ((l1, l2), sec) ∈ Quarkonium.wcSectorTab := by
  unfold Quarkonium.wcSector at hs
  split at hs
  · rename_i s h
    cases hs
    exact mem_of_lookup h
  · cases hs

theorem wcSector_ne {l1 l2 sec : String} (h : l1 ≠ l2) (hs : Quarkonium.wcSector l1 l2 = .ok sec) : sec ≠ "dF=0" := by
  have hm := wcSector_mem hs
  have : ∀ p ∈ Quarkonium.wcSectorTab, p.1.1 ≠ p.1.2 → p.2 ≠ "dF=0" := by decide
  exact this _ hm h

theorem wcSector_eq {l sec : String} (hs : Quarkonium.wcSector l l = .ok sec) : sec = "dF=0" := by
  have hm := wcSector_mem hs
  have : ∀ p ∈ Quarkonium.wcSectorTab, p.1.1 = p.1.2 → p.2 = "dF=0" := by decide
  exact this _ hm rfl

theorem getVTlfv_scale {x : ℝ} (hx : 0 < x) (d : Quarkonium.Inp) (V : String) (Q : ℝ) (l1 l2 : String) (h : l1 ≠ l2) :
    Quarkonium.getVTlfv (vll x d) V Q l1 l2 = Quarkonium.getVTlfv d V Q l1 l2 := by
  have hxc : (x : ℂ) ≠ 0 := by exact_mod_cast hx.ne'
  unfold Quarkonium.getVTlfv
  cases hs : Quarkonium.wcSector l1 l2 with
  | error e => rfl
  | ok sec =>
    have hw : (vll x d).wc sec = wcScale x (d.wc sec) := if_neg (wcSector_ne h hs)
    have hm : ∀ s, (vll x d).par ("m_" ++ s) = x * d.par ("m_" ++ s) := par_m x d.par
    have hf : ∀ s, (vll x d).par ("f_" ++ s) = x * d.par ("f_" ++ s) := par_f x d.par
    have hT : ∀ s, (vll x d).par ("fT_" ++ s) = x * d.par ("fT_" ++ s) := par_fT x d.par
    have ha : (vll x d).aem = d.aem := rfl
    simp only [ok_bind_eq, hw, hm, hf, hT, ha]
    cases Quarkonium.mesonQuark V with
    | error e => rfl
    | ok qq =>
      simp only [ok_bind_eq, wcScale_4, wcScale_T, wcScale_D]
      have e1 : ∀ a b u v : ℂ, (x * a) * (x * b) * (u / x ^ 2 + v / x ^ 2) = a * b * (u + v) := by intros; field_simp
      have e2 : ∀ a b c e u v : ℂ, (x * a) * (x * b) * (u / x ^ 2) - c * (x * e) * (v / x) = a * b * u - c * e * v := by
        intros; field_simp
      push_cast
      simp only [e1, e2]

theorem getVTlfc_scale {x : ℝ} (hx : 0 < x) (d : Quarkonium.Inp) (V : String) (Q : ℝ) (l : String) :
    Quarkonium.getVTlfc (vll x d) V Q l = Quarkonium.getVTlfc d V Q l := by
  have hx' := hx.ne'
  have hxc : (x : ℂ) ≠ 0 := by exact_mod_cast hx'
  unfold Quarkonium.getVTlfc
  cases hs : Quarkonium.wcSector l l with
  | error e => rfl
  | ok sec =>
    have hw : (vll x d).wc sec = d.wc sec := if_pos (wcSector_eq hs)
    have hm : ∀ s, (vll x d).par ("m_" ++ s) = x * d.par ("m_" ++ s) := par_m x d.par
    have hf : ∀ s, (vll x d).par ("f_" ++ s) = x * d.par ("f_" ++ s) := par_f x d.par
    have hT : ∀ s, (vll x d).par ("fT_" ++ s) = x * d.par ("fT_" ++ s) := par_fT x d.par
    have hG : (vll x d).par "GF" = d.par "GF" / x ^ 2 := par_GF x d.par
    have ha : (vll x d).aem = d.aem := rfl
    simp only [ok_bind_eq, hw, hm, hf, hT, hG, ha]
    cases Quarkonium.mesonQuark V with
    | error e => rfl
    | ok qq =>
      simp only [ok_bind_eq]
      unfold pyDiv
      by_cases hV : d.par ("m_" ++ V) ^ 2 = 0
      · rw [if_pos hV, if_pos (by rw [mul_pow, hV, mul_zero])]; rfl
      · rw [if_neg hV, if_neg (by rw [mul_pow]; exact mul_ne_zero (pow_ne_zero 2 hx') hV)]
        have hVc : (d.par ("m_" ++ V) : ℂ) ≠ 0 := by
          have := (pow_ne_zero_iff (two_ne_zero)).1 hV
          exact_mod_cast this
        have hpi : (Real.pi : ℂ) ≠ 0 := by exact_mod_cast Real.pi_ne_zero
        have h2 : ((Real.sqrt 2 : ℝ) : ℂ) ≠ 0 := by
          have : Real.sqrt 2 ≠ 0 := by positivity
          exact_mod_cast this
        simp only [ok_bind_eq]
        congr 2
        · push_cast; field_simp
        · push_cast; field_simp
        · congr 1; push_cast; field_simp
        · push_cast; field_simp

/-- **C165 (quarkonium).** `V → l1 l2`, the sum over both charge assignments and the ratios to `V → e e`. -/
theorem C165_vll {x : ℝ} (hx : 0 < x) (d : Quarkonium.Inp) (V : String) (Q : ℝ) (l1 l2 : String) :
    Quarkonium.vllBr (vll x d) V Q l1 l2 = Quarkonium.vllBr d V Q l1 l2 ∧
    Quarkonium.vllBrComb (vll x d) V Q l1 l2 = Quarkonium.vllBrComb d V Q l1 l2 ∧
    Quarkonium.vllRatio (vll x d) V Q l1 l2 = Quarkonium.vllRatio d V Q l1 l2 ∧
    Quarkonium.vllRatioComb (vll x d) V Q l1 l2 = Quarkonium.vllRatioComb d V Q l1 l2 := by
  have hx' := hx.ne'
  have key : ∀ l1 l2, Quarkonium.vllBr (vll x d) V Q l1 l2 = Quarkonium.vllBr d V Q l1 l2 := by
    intro l1 l2
    have hm : ∀ s, (vll x d).par ("m_" ++ s) = x * d.par ("m_" ++ s) := par_m x d.par
    have ht : ∀ s, (vll x d).par ("tau_" ++ s) = d.par ("tau_" ++ s) / x := par_tau x d.par
    unfold Quarkonium.vllBr
    simp only [hm, ht, pyDiv_scale hx']
    have e : ∀ a b : ℝ, a / x * (x * b) = a * b := fun a b => by field_simp
    simp only [e]
    by_cases h : l1 = l2
    · simp only [if_pos h, getVTlfc_scale hx]
    · simp only [if_neg h, getVTlfv_scale hx _ _ _ _ _ h]
  refine ⟨key _ _, ?_, ?_, ?_⟩
  · unfold Quarkonium.vllBrComb; rw [key, key]
  · unfold Quarkonium.vllRatio; rw [key, key]
  · unfold Quarkonium.vllRatioComb; rw [key, key, key]

/-- Non-vacuity: a decay with a non-zero branching ratio, in GeV and in MeV. -/
example : Tau.brLlgamma 1 1 0 1 0 ≠ 0 ∧ Tau.brLlgamma (1 / 1000) (1000 * 1) (1000 * 0) (1 / (1000 : ℝ)) (0 / (1000 : ℝ)) = Tau.brLlgamma 1 1 0 1 0 := by
  constructor
  · have := (Tau.C96_amplitudes 1 1 0 (⟨0, 0, 2, 0, 0, 0⟩ : Tau.Vcpl) 0 0 one_ne_zero).2.2 rfl rfl
    have hp := Real.pi_ne_zero
    unfold Tau.brLlgamma
    simp only [map_one, mul_one, mul_zero]
    rw [this]
    unfold Tau.gamma lambdaK kallen
    norm_num
  · have := (C165_lepton_two_body (x := 1000) (by norm_num)).2.2.2.2 1 1 0 1 0
    simpa using this

end Verif.EnergyUnit
