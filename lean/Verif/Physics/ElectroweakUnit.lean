import Verif.Physics.EnergyUnit
import Verif.Physics.Wdecays.W
/-!
# The unit of energy: Z and W decays

The parametrisations of the Standard Model widths of the Z and of the mass of the W are in GeV and cannot be rescaled; the
couplings, the effect of new physics on the widths, the asymmetries, and all the widths of the W (whose Standard Model values
are parameters) can.
-/
set_option linter.constructorNameAsVariable false
set_option linter.unusedVariables false
set_option linter.unusedSimpArgs false
set_option linter.unusedSectionVars false
namespace Verif.EnergyUnit
open Verif.Zpole Verif.Wdecay

/-- The parameters of the Z in the new unit (specification). -/
noncomputable def zpar (x : ℝ) (p : Par) : Par :=
  { p with GF := p.GF / x ^ 2, mZ := x * p.mZ, mh := x * p.mh, mt := x * p.mt, tauZ := p.tauZ / x,
           delta := fun k => x * p.delta k }

/-- The coefficients of the dimension-six operators in the new unit (specification). -/
noncomputable def smeft (x : ℝ) (C : WC) : WC := fun k => C k / ((x ^ 2 : ℝ) : ℂ)

theorem muon_unit (x : ℝ) (C : WC) : muon (smeft x C) = muon C / ((x ^ 2 : ℝ) : ℂ) := by
  unfold muon smeft; ring

theorem sh2_unit {x : ℝ} (hx : 0 < x) (p : Par) : sh2 (zpar x p) = sh2 p := by
  have hx' := hx.ne'
  unfold sh2
  show 1 / 2 * (1 - Real.sqrt (1 - 4 * Real.pi * p.alphaE / (Real.sqrt 2 * (p.GF / x ^ 2) * (x * p.mZ) ^ 2))) = _
  rw [show Real.sqrt 2 * (p.GF / x ^ 2) * (x * p.mZ) ^ 2 = Real.sqrt 2 * p.GF * p.mZ ^ 2 by field_simp]

theorem ratio_unit {x : ℝ} (hx : 0 < x) (a g : ℝ) (z : ℂ) :
    ((a / (g / x ^ 2) : ℝ) : ℂ) * (z / ((x ^ 2 : ℝ) : ℂ)) = ((a / g : ℝ) : ℂ) * z := by
  have hxc : (x : ℂ) ≠ 0 := by exact_mod_cast hx.ne'
  push_cast
  rw [div_div_eq_mul_div]
  field_simp

theorem dGF_unit {x : ℝ} (hx : 0 < x) (p : Par) (C : WC) : dGF (zpar x p) (smeft x C) = dGF p C := by
  have := ratio_unit hx (1 * Real.sqrt 2 / 2) (Real.sqrt 2 * p.GF) (muon C)
  unfold dGF
  rw [muon_unit, show 1 / (Real.sqrt 2 * (zpar x p).GF) * Real.sqrt 2 / 2 = 1 * Real.sqrt 2 / 2 / (Real.sqrt 2 * p.GF / x ^ 2) by
    show 1 / (Real.sqrt 2 * (p.GF / x ^ 2)) * Real.sqrt 2 / 2 = _
    rw [mul_div_assoc (Real.sqrt 2)]; ring, this]
  congr 2
  ring

theorem dsh2_unit {x : ℝ} (hx : 0 < x) (p : Par) (C : WC) : dsh2 (zpar x p) (smeft x C) = dsh2 p C := by
  unfold dsh2
  simp only [sh2_unit hx, muon_unit]
  generalize Real.sqrt (sh2 p) = a
  generalize Real.sqrt (1 - sh2 p) = b
  have := ratio_unit hx (2 * b * a) (8 * (b ^ 2 - a ^ 2) * Real.sqrt 2 * p.GF)
    (((2 * b * a : ℝ) : ℂ) * (C "phiD" + 2 * muon C) + 4 * C "phiWB")
  rw [← this]
  congr 1
  · congr 2
    show 8 * (b ^ 2 - a ^ 2) * Real.sqrt 2 * (p.GF / x ^ 2) = _
    ring
  · unfold smeft; ring

theorem rpow_unit {x : ℝ} (hx : 0 < x) (g : ℝ) (hg : 0 ≤ g) : (g / x ^ 2) ^ (3 / 2 : ℝ) = g ^ (3 / 2 : ℝ) / x ^ 3 := by
  rw [Real.div_rpow hg (by positivity)]
  congr 1
  rw [← Real.rpow_natCast, ← Real.rpow_mul hx.le, ← Real.rpow_natCast]
  norm_num

theorem dmZ2_unit {x : ℝ} (hx : 0 < x) (p : Par) (hg : 0 ≤ p.GF) (C : WC) :
    dmZ2 (zpar x p) (smeft x C) = ((x ^ 2 : ℝ) : ℂ) * dmZ2 p C := by
  have hxc : (x : ℂ) ≠ 0 := by exact_mod_cast hx.ne'
  unfold dmZ2
  show ((1 / (2 * Real.sqrt 2) * (x * p.mZ) ^ 2 / (p.GF / x ^ 2) : ℝ) : ℂ) * (C "phiD" / ((x ^ 2 : ℝ) : ℂ)) +
    (((2 : ℝ) ^ (1 / 4 : ℝ) * Real.sqrt (Real.pi * p.alphaE) * (x * p.mZ) / (p.GF / x ^ 2) ^ (3 / 2 : ℝ) : ℝ) : ℂ) *
      (C "phiWB" / ((x ^ 2 : ℝ) : ℂ)) = _
  rw [rpow_unit hx _ hg, ratio_unit hx, div_div_eq_mul_div]
  push_cast
  field_simp

theorem dgZb_unit {x : ℝ} (hx : 0 < x) (p : Par) (hg : 0 ≤ p.GF) (C : WC) : dgZb (zpar x p) (smeft x C) = dgZb p C := by
  have hxc : (x : ℂ) ≠ 0 := by exact_mod_cast hx.ne'
  unfold dgZb
  simp only [sh2_unit hx, dGF_unit hx, dmZ2_unit hx p hg]
  generalize Real.sqrt (sh2 p) = a
  generalize Real.sqrt (1 - sh2 p) = b
  have h1 : ((x ^ 2 : ℝ) : ℂ) * dmZ2 p C / ((2 * (zpar x p).mZ ^ 2 : ℝ) : ℂ) = dmZ2 p C / ((2 * p.mZ ^ 2 : ℝ) : ℂ) := by
    show ((x ^ 2 : ℝ) : ℂ) * dmZ2 p C / ((2 * (x * p.mZ) ^ 2 : ℝ) : ℂ) = _
    rw [show ((2 * (x * p.mZ) ^ 2 : ℝ) : ℂ) = ((x ^ 2 : ℝ) : ℂ) * ((2 * p.mZ ^ 2 : ℝ) : ℂ) by push_cast; ring]
    rw [mul_div_mul_left]
    push_cast
    exact pow_ne_zero 2 hxc
  have h2 := ratio_unit hx (a * b) (Real.sqrt 2 * p.GF) (C "phiWB")
  rw [h1, ← h2, show Real.sqrt 2 * (zpar x p).GF = Real.sqrt 2 * p.GF / x ^ 2 from (mul_div_assoc _ _ _).symm]
  rfl

theorem over_nrm {x : ℝ} (hx : 0 < x) (p : Par) (z : ℂ) : z / ((x ^ 2 : ℝ) : ℂ) / (nrm (zpar x p) : ℂ) = z / (nrm p : ℂ) := by
  have hxc : (x : ℂ) ≠ 0 := by exact_mod_cast hx.ne'
  have : nrm (zpar x p) = nrm p / x ^ 2 := (mul_div_assoc _ _ _).symm
  rw [this]
  push_cast
  rw [div_div_eq_mul_div, div_mul_cancel₀ _ (pow_ne_zero 2 hxc)]

theorem dgV_unit {x : ℝ} (hx : 0 < x) (p : Par) (hg : 0 ≤ p.GF) (C : WC) (f1 f2 : Fm) :
    dgV f1 f2 (zpar x p) (smeft x C) = dgV f1 f2 p C := by
  have hv : gVSM f1 (zpar x p) = gVSM f1 p := rfl
  have hn := over_nrm hx p
  unfold dgV
  cases f1.sec <;> dsimp only [dgVl, dgVnu, dgVu, dgVd] <;> rw [dgZb_unit hx p hg, hv] <;> (try rw [dsh2_unit hx]) <;>
    congr 1 <;> funext i j <;> rw [← hn] <;> congr 1 <;> unfold smeft <;> ring

theorem dgA_unit {x : ℝ} (hx : 0 < x) (p : Par) (hg : 0 ≤ p.GF) (C : WC) (f1 f2 : Fm) :
    dgA f1 f2 (zpar x p) (smeft x C) = dgA f1 f2 p C := by
  have hv : gVSM f1 (zpar x p) = gVSM f1 p := rfl
  have hn := over_nrm hx p
  unfold dgA
  cases f1.sec <;> dsimp only [dgAl, dgAnu, dgVnu, dgAu, dgAd] <;> rw [dgZb_unit hx p hg] <;> (try rw [hv]) <;>
    congr 1 <;> funext i j <;> rw [← hn] <;> congr 1 <;> unfold smeft <;> ring

theorem gammaNP_unit {x : ℝ} (hx : 0 < x) (p : Par) (Nc gV gA : ℝ) (dV dA : ℂ) :
    gammaNP (zpar x p) Nc gV dV gA dA = x * gammaNP p Nc gV dV gA dA := by
  have hx' := hx.ne'
  unfold gammaNP
  show Real.sqrt 2 * (p.GF / x ^ 2) * (x * p.mZ) ^ 3 / (3 * Real.pi) * Nc * _ = _
  field_simp

/-- The parameters of the W in the new unit (specification). -/
noncomputable def wpar (x : ℝ) (p : WPar) : WPar :=
  { p with z := zpar x p.z, mW := x * p.mW, GammaWhad := x * p.GammaWhad, GammaWlep := x * p.GammaWlep }

theorem dgW_unit {x : ℝ} (hx : 0 < x) (p : Par) (C : WC) (f1 f2 : Fm) : dgW f1 f2 (zpar x p) (smeft x C) = dgW f1 f2 p C := by
  have hxc : (x : ℂ) ≠ 0 := by exact_mod_cast hx.ne'
  unfold dgW dgWx
  simp only [sh2_unit hx, dsh2_unit hx]
  congr 1
  show (smeft x C _ + _ * smeft x C _) / ((2 * Real.sqrt 2 * (p.GF / x ^ 2) : ℝ) : ℂ) = _
  unfold smeft
  rw [mul_div_assoc', ← add_div, show ((2 * Real.sqrt 2 * (p.GF / x ^ 2) : ℝ) : ℂ) = ((2 * Real.sqrt 2 * p.GF : ℝ) : ℂ) / ((x ^ 2 : ℝ) : ℂ) by
    push_cast; ring, div_div_div_cancel_right₀]
  push_cast
  exact pow_ne_zero 2 hxc

theorem gammaW_unit {x : ℝ} (hx : 0 < x) (p : WPar) (C : WC) (f1 f2 : Fm) :
    gammaW (wpar x p) (smeft x C) f1 f2 = x * gammaW p C f1 f2 := by
  have hx' := hx.ne'
  have hs : gWSM f1 f2 (wpar x p) = gWSM f1 f2 p := rfl
  have h1 : gammaWSM f1 f2 (wpar x p) = x * gammaWSM f1 f2 p := by
    unfold gammaWSM
    rw [hs]
    by_cases h : f1.sec = .l
    · rw [if_pos h, if_pos h]; show 4 * _ * (x * p.GammaWlep) / 3 = _; ring
    · rw [if_neg h, if_neg h]; show 4 * _ * (x * p.GammaWhad) / 2 = _; ring
  unfold gammaW
  rw [h1, hs, mul_add]
  congr 1
  have : dgW f1 f2 (wpar x p).z (smeft x C) = dgW f1 f2 p.z C := dgW_unit hx p.z C f1 f2
  rw [this]
  unfold gammaWNP
  show Real.sqrt 2 * (p.z.GF / x ^ 2) * (x * p.mW) ^ 3 / (3 * Real.pi) * _ * _ = _
  field_simp

theorem sum_mul {α : Type} (x : ℝ) (f g : α → ℝ) (h : ∀ a, f a = x * g a) (l : List α) : (l.map f).sum = x * (l.map g).sum := by
  rw [← List.sum_map_mul_left]
  congr 1
  exact List.map_congr_left fun a _ => h a

theorem sum2_unit (x : ℝ) (f g : Fm → Fm → ℝ) (h : ∀ a b, f a b = x * g a b) (l r : List Fm) : sum2 f l r = x * sum2 g l r := by
  unfold sum2
  have h1 : ∀ k : Fm → Fm → ℝ, (l.flatMap fun a => r.map fun b => k a b) = (l.flatMap fun a => r.map fun b => (a, b)).map fun p => k p.1 p.2 := by
    intro k
    rw [List.map_flatMap]
    congr 1
    funext a
    rw [List.map_map]
    rfl
  rw [h1 f, h1 g]
  exact sum_mul (α := Fm × Fm) x _ _ (fun p => h p.1 p.2) _

/-- **C165 (Z).** The shifts of the Z couplings and the asymmetries do not depend on the unit of energy, and the effect of new
physics on each width is an energy. -/
theorem C165_Z {x : ℝ} (hx : 0 < x) (p : Par) (hg : 0 ≤ p.GF) (C : WC) (f1 f2 : Fm) :
    dgV f1 f2 (zpar x p) (smeft x C) = dgV f1 f2 p C ∧ dgA f1 f2 (zpar x p) (smeft x C) = dgA f1 f2 p C ∧
    aObs (zpar x p) (smeft x C) f1 = aObs p C f1 ∧ afbObs (zpar x p) (smeft x C) f1 = afbObs p C f1 ∧
    (f1 ≠ f2 → gammaZ (zpar x p) (smeft x C) f1 f2 = x * gammaZ p C f1 f2 ∧
      brAv (zpar x p) (smeft x C) f1 f2 = brAv p C f1 f2) ∧
    gammaZ (zpar x p) (smeft x C) f1 f1 - gammaSM (zpar x p) f1 = x * (gammaZ p C f1 f1 - gammaSM p f1) := by
  have hV := fun f1 f2 => dgV_unit hx p hg C f1 f2
  have hA := fun f1 f2 => dgA_unit hx p hg C f1 f2
  have hv : ∀ f, gVSM f (zpar x p) = gVSM f p := fun _ => rfl
  have hgva : ∀ f, gVA (zpar x p) (smeft x C) f = gVA p C f := fun f => by unfold gVA; rw [hV, hA, hv]
  have hoff : ∀ f1 f2 : Fm, f1 ≠ f2 → gammaZ (zpar x p) (smeft x C) f1 f2 = x * gammaZ p C f1 f2 := by
    intro a b h
    unfold gammaZ
    rw [if_neg h, if_neg h, hV, hA, gammaNP_unit hx]
    ring
  refine ⟨hV f1 f2, hA f1 f2, ?_, ?_, fun h => ⟨hoff _ _ h, ?_⟩, ?_⟩
  · unfold aObs; rw [hgva]
  · unfold afbObs; rw [hgva, hgva]
  · unfold brAv
    rw [hoff _ _ h, hoff _ _ h.symm]
    show p.tauZ / x * _ = _
    have := hx.ne'
    field_simp
  · unfold gammaZ
    rw [if_pos rfl, if_pos rfl, hV, hA, gammaNP_unit hx, hv]
    ring

/-- **C165 (W).** The widths of the W are energies; its branching ratios, ratios of branching ratios and the relative shift of
its mass do not depend on the unit of energy. -/
theorem C165_W {x : ℝ} (hx : 0 < x) (p : WPar) (C : WC) :
    (∀ f1 f2, gammaW (wpar x p) (smeft x C) f1 f2 = x * gammaW p C f1 f2) ∧
    Wdecay.gammaTot (wpar x p) (smeft x C) = x * Wdecay.gammaTot p C ∧
    (∀ l, Wdecay.br l (wpar x p) (smeft x C) = Wdecay.br l p C) ∧
    (∀ l1 l2, rW l1 l2 (wpar x p) (smeft x C) = rW l1 l2 p C) ∧
    rWcX (wpar x p) (smeft x C) = rWcX p C ∧
    dmW (zpar x p.z) (smeft x C) = dmW p.z C := by
  have hx' := hx.ne'
  have hG := gammaW_unit hx p C
  have hl : Wdecay.gammaLep (wpar x p) (smeft x C) = x * Wdecay.gammaLep p C := sum2_unit x _ _ hG _ _
  have hh : Wdecay.gammaHad (wpar x p) (smeft x C) = x * Wdecay.gammaHad p C := sum2_unit x _ _ hG _ _
  have ht : Wdecay.gammaTot (wpar x p) (smeft x C) = x * Wdecay.gammaTot p C := by
    unfold Wdecay.gammaTot; rw [hl, hh]; ring
  have hs : ∀ (l : Fm) (r : List Fm), (r.map (gammaW (wpar x p) (smeft x C) l)).sum = x * (r.map (gammaW p C l)).sum := fun l r =>
    sum_mul x _ _ (fun b => hG l b) r
  refine ⟨hG, ht, fun l => ?_, fun l1 l2 => ?_, ?_, ?_⟩
  · unfold Wdecay.br; rw [hs, ht, mul_div_mul_left _ _ hx']
  · unfold rW; rw [hs, hs, mul_div_mul_left _ _ hx']
  · unfold rWcX; rw [hs, hh, mul_div_mul_left _ _ hx']
  · unfold dmW
    simp only [sh2_unit hx, muon_unit]
    generalize Real.sqrt (sh2 p.z) = a
    generalize Real.sqrt (1 - sh2 p.z) = b
    have e1 : b * a / ((b ^ 2 - a ^ 2) * 2 * Real.sqrt 2 * (zpar x p.z).GF)
        = x ^ 2 * (b * a / ((b ^ 2 - a ^ 2) * 2 * Real.sqrt 2 * p.z.GF)) := by
      show b * a / ((b ^ 2 - a ^ 2) * 2 * Real.sqrt 2 * (p.z.GF / x ^ 2)) = _
      rw [← mul_div_assoc, div_div_eq_mul_div]
      ring
    have e2 : (4 * smeft x C "phiWB" + ((b / a : ℝ) : ℂ) * smeft x C "phiD" + ((2 * a / b : ℝ) : ℂ) * (muon C / ((x ^ 2 : ℝ) : ℂ))).re
        = (4 * C "phiWB" + ((b / a : ℝ) : ℂ) * C "phiD" + ((2 * a / b : ℝ) : ℂ) * muon C).re / x ^ 2 := by
      rw [← Complex.div_ofReal_re]
      congr 1
      unfold smeft
      push_cast
      ring
    rw [e1, e2]
    field_simp

/-- The hypotheses hold for the measured `G_F` and the change from GeV to MeV.  -/
example : (0 : ℝ) < 1000 ∧ (0 : ℝ) ≤ 1.1663787e-5 := by norm_num

end Verif.EnergyUnit
