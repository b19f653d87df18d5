import Verif.Physics.BetaUnit
import Verif.Physics.Dipoles.MuE
import Mathlib.Tactic.FieldSimp
import Mathlib.Tactic.Positivity
/-!
# The unit of energy: dipole moments and `mu -> e` conversion

Continues `EnergyUnit.lean`: `flavio/physics/edms`, `flavio/physics/mdms/al.py`, `flavio/physics/mudecays/mueconversion.py`.
-/
set_option linter.unusedVariables false
set_option linter.unusedSimpArgs false
namespace Verif.EnergyUnit
open Verif.Py Verif.Running Verif.Bll Complex

/-- Power of the energy of a parameter; parameters that are not listed are pure numbers (specification). -/
def dipDim : List (String × ℤ) :=
  [("GF", -2), ("m_e", 1), ("m_mu", 1), ("m_tau", 1), ("m_p", 1), ("m_n", 1), ("sigma_piN", 1), ("sigma_s", 1), ("nEDM beta_G", 1),
   ("alpha_de(YbF)", 2), ("alpha_de(HfF)", 2), ("alpha_de(ThO)", 2),
   ("alpha_CS(YbF)", 1), ("alpha_CS(HfF)", 1), ("alpha_CS(ThO)", 1), ("alpha_CS(Tl)", -1),
   ("GammaCapture Au", 1), ("GammaCapture Al", 1), ("GammaCapture Ti", 1)]

/-- The same for the Wilson coefficients of the basis used for the electric dipole moments: all are pure numbers but that of the
Weinberg operator (specification). -/
def edmWcDim : List (String × ℤ) := [("CGtilde", -2)]

/-- Inputs of the electric dipole moments in the new unit (specification). -/
noncomputable def edmUnit (x : ℝ) (d : Edm.Inp) : Edm.Inp where
  par n := x ^ ((dipDim.lookup n).getD 0) * d.par n
  wc n := ((x ^ ((edmWcDim.lookup n).getD 0) : ℝ) : ℂ) * d.wc n
  getMu n := x * d.getMu n
  getMd n := x * d.getMd n
  getMs n := x * d.getMs n
  alphaE := d.alphaE

theorem pyDiv_cancel {x : ℝ} (hx : x ≠ 0) (a b : ℝ) : pyDiv (x * a) (x * b) = pyDiv a b := by
  unfold pyDiv
  by_cases hb : b = 0
  · rw [if_pos hb, if_pos (by rw [hb, mul_zero])]
  · rw [if_neg hb, if_neg (mul_ne_zero hx hb), mul_div_mul_left _ _ hx]

/-- What `protonCharges` reads, in two units. (Specification.) -/
structure ChargesUnit (x : ℝ) (d d' : Edm.Inp) : Prop where
  mu : d'.getMu 3 = x * d.getMu 3
  md : d'.getMd 3 = x * d.getMd 3
  ms : d'.getMs 3 = x * d.getMs 3
  mp : d'.par "m_p" = x * d.par "m_p"
  mn : d'.par "m_n" = x * d.par "m_n"
  s1 : d'.par "sigma_piN" = x * d.par "sigma_piN"
  s2 : d'.par "sigma_s" = x * d.par "sigma_s"
  num : ∀ n ∈ ["g_A", "gS_u-d", "gT_u", "gT_d", "gA_s", "gT_s"], d'.par n = d.par n

theorem charges_unit {x : ℝ} (hx : x ≠ 0) {d d' : Edm.Inp} (h : ChargesUnit x d d') : Edm.protonCharges d' = Edm.protonCharges d := by
  unfold Edm.protonCharges
  simp only [h.mu, h.md, h.ms, h.mp, h.mn, h.s1, h.s2, h.num "g_A" (by simp), h.num "gS_u-d" (by simp), h.num "gT_u" (by simp),
    h.num "gT_d" (by simp), h.num "gA_s" (by simp), h.num "gT_s" (by simp)]
  rw [← mul_add, ← mul_add, mul_div_assoc, pyDiv_cancel hx, pyDiv_cancel hx, pyDiv_cancel hx]

theorem edm_charges (x : ℝ) (d : Edm.Inp) : ChargesUnit x d (edmUnit x d) where
  mu := rfl
  md := rfl
  ms := rfl
  mp := by simp [edmUnit, dipDim, List.lookup]
  mn := by simp [edmUnit, dipDim, List.lookup]
  s1 := by simp [edmUnit, dipDim, List.lookup]
  s2 := by simp [edmUnit, dipDim, List.lookup]
  num := by
    intro n hn
    simp only [List.mem_cons, List.not_mem_nil, or_false] at hn
    rcases hn with h | h | h | h | h | h <;> subst h <;> simp [edmUnit, dipDim, List.lookup]

theorem getM_unit (x : ℝ) (d : Edm.Inp) (f eft : String) : Edm.getM (edmUnit x d) f eft = (Edm.getM d f eft).map (x * ·) := by
  unfold Edm.getM
  by_cases hf : f ∈ ["e", "mu", "tau"]
  · rw [if_pos hf, if_pos hf]
    show Except.ok _ = Except.ok _
    congr 1
    simp only [List.mem_cons, List.not_mem_nil, or_false] at hf
    rcases hf with h | h | h <;> subst h <;> simp [edmUnit, dipDim, List.lookup]
  · rw [if_neg hf, if_neg hf]
    cases Edm.eftNfOut eft with
    | error e => rfl
    | ok nf =>
      simp only [Bind.bind, Except.bind]
      split_ifs <;> rfl

theorem edmF_unit {x : ℝ} (hx : x ≠ 0) (d : Edm.Inp) (f eft : String) (hf : edmWcDim.lookup ("C7_" ++ f ++ f) = none) :
    Edm.edmF (edmUnit x d) f eft = (Edm.edmF d f eft).map (x⁻¹ * ·) := by
  unfold Edm.edmF
  rw [getM_unit, map_bind]
  refine bind_scaled _ _ _ _ fun m => ?_
  refine bind_scaled _ _ _ _ fun nf => ?_
  refine bind_scaled _ _ _ _ fun e => ?_
  show Except.ok _ = Except.ok _
  congr 1
  have g : (edmUnit x d).par "GF" = x ^ (-2 : ℤ) * d.par "GF" := by simp [edmUnit, dipDim, List.lookup]
  have w : (edmUnit x d).wc ("C7_" ++ f ++ f) = d.wc ("C7_" ++ f ++ f) := by simp [edmUnit, hf]
  rw [g, w]
  rw [zpow_neg]
  field_simp

theorem cedmF_unit {x : ℝ} (hx : x ≠ 0) (d : Edm.Inp) (f eft : String) (hf : edmWcDim.lookup ("C8_" ++ f ++ f) = none) :
    Edm.cedmF (edmUnit x d) f eft = (Edm.cedmF d f eft).map (x⁻¹ * ·) := by
  unfold Edm.cedmF
  rw [getM_unit, map_bind]
  refine bind_scaled _ _ _ _ fun m => ?_
  show Except.ok _ = Except.ok _
  congr 1
  have g : (edmUnit x d).par "GF" = x ^ (-2 : ℤ) * d.par "GF" := by simp [edmUnit, dipDim, List.lookup]
  have w : (edmUnit x d).wc ("C8_" ++ f ++ f) = d.wc ("C8_" ++ f ++ f) := by simp [edmUnit, hf]
  rw [g, w, zpow_neg]
  field_simp

theorem CSc_unit {x : ℝ} (hx : x ≠ 0) (d : Edm.Inp) (Z N : ℝ) : Edm.CSc (edmUnit x d) Z N = Edm.CSc d Z N := by
  unfold Edm.CSc
  rw [charges_unit hx (edm_charges x d)]
  have w : ∀ n ∈ ["CSRR_eeuu", "CSRL_eeuu", "CSRR_eedd", "CSRL_eedd"], (edmUnit x d).wc n = d.wc n := by
    intro n hn
    simp only [List.mem_cons, List.not_mem_nil, or_false] at hn
    rcases hn with h | h | h | h <;> subst h <;> simp [edmUnit, edmWcDim, List.lookup]
  simp only [w "CSRR_eeuu" (by simp), w "CSRL_eeuu" (by simp), w "CSRR_eedd" (by simp), w "CSRL_eedd" (by simp)]

/-- **C165 (electric dipole moments).** The dipole moments of fermions, of the neutron and of the thallium atom are inverse
energies (chromo-electric ones too), the angular velocities of the molecules are energies, and the charges are pure numbers. -/
theorem C165_edm {x : ℝ} (hx : 0 < x) (d : Edm.Inp) :
    (∀ f ∈ ["e", "mu", "tau", "u", "d", "s", "c"], ∀ eft,
      Edm.edmF (edmUnit x d) f eft = (Edm.edmF d f eft).map (x⁻¹ * ·) ∧ Edm.cedmF (edmUnit x d) f eft = (Edm.cedmF d f eft).map (x⁻¹ * ·)) ∧
    Edm.nedm (edmUnit x d) = (Edm.nedm d).map (x⁻¹ * ·) ∧
    (∀ M ∈ ["YbF", "HfF", "ThO"], Edm.para (edmUnit x d) Edm.tabMolecules M = (Edm.para d Edm.tabMolecules M).map (x * ·)) ∧
    Edm.para (edmUnit x d) Edm.tabAtoms "Tl" = (Edm.para d Edm.tabAtoms "Tl").map (x⁻¹ * ·) := by
  have hx' := hx.ne'
  have hf : ∀ f ∈ ["e", "mu", "tau", "u", "d", "s", "c"], ∀ eft,
      Edm.edmF (edmUnit x d) f eft = (Edm.edmF d f eft).map (x⁻¹ * ·) ∧ Edm.cedmF (edmUnit x d) f eft = (Edm.cedmF d f eft).map (x⁻¹ * ·) := by
    intro f hf eft
    have : edmWcDim.lookup ("C7_" ++ f ++ f) = none ∧ edmWcDim.lookup ("C8_" ++ f ++ f) = none := by
      revert f; decide
    exact ⟨edmF_unit hx' d f eft this.1, cedmF_unit hx' d f eft this.2⟩
  refine ⟨hf, ?_, ?_, ?_⟩
  · unfold Edm.nedm
    have E := fun f h => (hf f h "WET-3")
    rw [(E "d" (by simp)).1, (E "u" (by simp)).1, (E "s" (by simp)).1, (E "d" (by simp)).2, (E "u" (by simp)).2, (E "s" (by simp)).2]
    rw [map_bind]; refine bind_scaled _ _ _ _ fun a => ?_
    rw [map_bind]; refine bind_scaled _ _ _ _ fun b => ?_
    rw [map_bind]; refine bind_scaled _ _ _ _ fun c => ?_
    rw [map_bind]; refine bind_scaled _ _ _ _ fun a' => ?_
    rw [map_bind]; refine bind_scaled _ _ _ _ fun b' => ?_
    rw [map_bind]; refine bind_scaled _ _ _ _ fun c' => ?_
    have n : ∀ s ∈ ["gT_u", "gT_d", "gT_s", "nEDM ~rho_d", "nEDM ~rho_u", "nEDM ~rho_s"], (edmUnit x d).par s = d.par s := by
      intro s hs
      simp only [List.mem_cons, List.not_mem_nil, or_false] at hs
      rcases hs with h | h | h | h | h | h <;> subst h <;> simp [edmUnit, dipDim, List.lookup]
    have bg : (edmUnit x d).par "nEDM beta_G" = x * d.par "nEDM beta_G" := by simp [edmUnit, dipDim, List.lookup]
    have cg : (edmUnit x d).wc "CGtilde" = ((x ^ (-2 : ℤ) : ℝ) : ℂ) * d.wc "CGtilde" := by simp [edmUnit, edmWcDim, List.lookup]
    show Except.ok _ = Except.ok _
    congr 1
    simp only [n "gT_u" (by simp), n "gT_d" (by simp), n "gT_s" (by simp), n "nEDM ~rho_d" (by simp), n "nEDM ~rho_u" (by simp),
      n "nEDM ~rho_s" (by simp), bg, cg]
    have hn : ∀ z : ℂ, x⁻¹ * ‖z‖ = ‖((x⁻¹ : ℝ) : ℂ) * z‖ := by
      intro z; rw [norm_mul, Complex.norm_real, Real.norm_eq_abs, abs_of_pos (inv_pos.2 hx)]
    rw [hn]
    congr 1
    have hxc : (x : ℂ) ≠ 0 := by exact_mod_cast hx'
    rw [zpow_neg]
    push_cast
    have : (x : ℂ) * ((x : ℂ) ^ (2 : ℤ))⁻¹ = (x : ℂ)⁻¹ := by field_simp
    linear_combination (d.par "nEDM beta_G" : ℂ) * d.wc "CGtilde" * this
  · intro M hM
    have ha : (edmUnit x d).par ("alpha_de(" ++ M ++ ")") = x ^ 2 * d.par ("alpha_de(" ++ M ++ ")") ∧
        (edmUnit x d).par ("alpha_CS(" ++ M ++ ")") = x * d.par ("alpha_CS(" ++ M ++ ")") := by
      have : (dipDim.lookup ("alpha_de(" ++ M ++ ")")).getD 0 = 2 ∧ (dipDim.lookup ("alpha_CS(" ++ M ++ ")")).getD 0 = 1 := by
        revert M; decide
      refine ⟨?_, ?_⟩ <;> simp only [edmUnit, this.1, this.2, zpow_one] <;> norm_cast
    unfold Edm.para
    simp only
    cases Edm.tabMolecules.lookup M with
    | none => rfl
    | some zn =>
    show (Edm.edmF (edmUnit x d) "e" "WET-3" >>= fun de => Edm.CSc (edmUnit x d) zn.1 zn.2.1 >>= fun cs =>
        pure ((edmUnit x d).par ("alpha_de(" ++ M ++ ")") * de + (edmUnit x d).par ("alpha_CS(" ++ M ++ ")") * cs))
      = Except.map (fun y => x * y) (Edm.edmF d "e" "WET-3" >>= fun de => Edm.CSc d zn.1 zn.2.1 >>= fun cs =>
        pure (d.par ("alpha_de(" ++ M ++ ")") * de + d.par ("alpha_CS(" ++ M ++ ")") * cs))
    rw [(hf "e" (by simp) "WET-3").1, map_bind]
    refine bind_scaled _ _ _ _ fun de => ?_
    rw [CSc_unit hx']
    refine bind_scaled _ _ _ _ fun cs => ?_
    show Except.ok _ = Except.ok _
    rw [ha.1, ha.2]
    congr 1
    field_simp
  · have ha : (edmUnit x d).par ("alpha_de(" ++ "Tl" ++ ")") = d.par ("alpha_de(" ++ "Tl" ++ ")") ∧
        (edmUnit x d).par ("alpha_CS(" ++ "Tl" ++ ")") = x⁻¹ * d.par ("alpha_CS(" ++ "Tl" ++ ")") := by
      have : (dipDim.lookup ("alpha_de(" ++ "Tl" ++ ")")).getD 0 = 0 ∧ (dipDim.lookup ("alpha_CS(" ++ "Tl" ++ ")")).getD 0 = -1 := by decide
      refine ⟨?_, ?_⟩ <;> simp only [edmUnit, this.1, this.2, zpow_neg_one, zpow_zero, one_mul]
    unfold Edm.para
    simp only
    cases Edm.tabAtoms.lookup "Tl" with
    | none => rfl
    | some zn =>
    show (Edm.edmF (edmUnit x d) "e" "WET-3" >>= fun de => Edm.CSc (edmUnit x d) zn.1 zn.2.1 >>= fun cs =>
        pure ((edmUnit x d).par ("alpha_de(" ++ "Tl" ++ ")") * de + (edmUnit x d).par ("alpha_CS(" ++ "Tl" ++ ")") * cs))
      = Except.map (fun y => x⁻¹ * y) (Edm.edmF d "e" "WET-3" >>= fun de => Edm.CSc d zn.1 zn.2.1 >>= fun cs =>
        pure (d.par ("alpha_de(" ++ "Tl" ++ ")") * de + d.par ("alpha_CS(" ++ "Tl" ++ ")") * cs))
    rw [(hf "e" (by simp) "WET-3").1, map_bind]
    refine bind_scaled _ _ _ _ fun de => ?_
    rw [CSc_unit hx']
    refine bind_scaled _ _ _ _ fun cs => ?_
    show Except.ok _ = Except.ok _
    rw [ha.1, ha.2]
    congr 1
    ring

/-! ## The anomalous magnetic moments -/

/-- **C165 (magnetic moments).** The anomalous magnetic moments are pure numbers. -/
theorem C165_magnetic {x : ℝ} (hx : 0 < x) (d d' : MuE.GInp) (hs : d'.scale = d.scale) (hw : d'.wc = d.wc)
    (hp : ∀ n, d'.par n = x ^ ((dipDim.lookup n).getD 0) * d.par n) :
    MuE.ae d' = MuE.ae d ∧ MuE.amu d' = MuE.amu d ∧ MuE.atau d' = MuE.atau d := by
  have hx' := hx.ne'
  have g : d'.par "GF" = x ^ (-2 : ℤ) * d.par "GF" := by rw [hp]; simp [dipDim, List.lookup]
  have key : ∀ l ∈ ["e", "mu", "tau"], ∀ eft s, MuE.al d' l eft s = MuE.al d l eft s := by
    intro l hl eft s
    have : (dipDim.lookup ("m_" ++ l)).getD 0 = 1 ∧ (dipDim.lookup ("a_" ++ l ++ " SM")).getD 0 = 0 := by revert l; decide
    unfold MuE.al
    rw [hp ("m_" ++ l), hp ("a_" ++ l ++ " SM"), g, this.1, this.2, hw, zpow_neg]
    simp only [zpow_one, zpow_zero, one_mul]
    congr 1
    have e : (x * d.par ("m_" ++ l)) ^ 2 * ((x ^ (2 : ℤ))⁻¹ * d.par "GF") = d.par ("m_" ++ l) ^ 2 * d.par "GF" := by
      field_simp
    rw [e]
  refine ⟨?_, ?_, ?_⟩
  · unfold MuE.ae MuE.GInp.getScale; rw [hs]; simp only [key "e" (by simp)]
  · unfold MuE.amu MuE.GInp.getScale; rw [hs]; simp only [key "mu" (by simp)]
  · unfold MuE.atau MuE.GInp.getScale; rw [hs]; simp only [key "tau" (by simp)]

/-! ## Conversion -/

/-- The four-fermion and dipole coefficients of `mu -> e` conversion (not normalised) in the new unit. (Specification.) -/
def mueWc (x : ℝ) (wc wc' : String → ℂ) : Prop :=
  (∀ n ∈ ["Cgamma_emu", "Cgamma_mue"], wc' n = wc n / (x : ℂ)) ∧
  (∀ n, n ∉ ["Cgamma_emu", "Cgamma_mue"] → wc' n = wc n / (x : ℂ) ^ 2)

example (x : ℝ) (wc : String → ℂ) : ∃ wc', mueWc x wc wc' :=
  ⟨fun n => if n ∈ ["Cgamma_emu", "Cgamma_mue"] then wc n / (x : ℂ) else wc n / (x : ℂ) ^ 2,
    fun n h => if_pos h, fun n h => if_neg h⟩

/-- **C165 (conversion).** The conversion rates normalised to the capture rates are pure numbers. -/
theorem C165_conversion {x : ℝ} (hx : 0 < x) (d : Edm.Inp) (wc' : String → ℂ) (hw : mueWc x d.wc wc') (hm : 0 ≤ d.par "m_mu")
    (nucl : String) (hn : nucl ∈ ["Au", "Al", "Ti"]) :
    MuE.crMue { edmUnit x d with wc := wc' } nucl = MuE.crMue d nucl := by
  have hx' := hx.ne'
  have hxc : (x : ℂ) ≠ 0 := by exact_mod_cast hx'
  set d' : Edm.Inp := { edmUnit x d with wc := wc' } with hd'
  have hch : Edm.protonCharges d' = Edm.protonCharges d := by
    refine charges_unit hx' ⟨rfl, rfl, rfl, ?_, ?_, ?_, ?_, ?_⟩
    · exact (edm_charges x d).mp
    · exact (edm_charges x d).mn
    · exact (edm_charges x d).s1
    · exact (edm_charges x d).s2
    · exact (edm_charges x d).num
  have g : d'.par "GF" = d.par "GF" / x ^ 2 := by
    show x ^ ((dipDim.lookup "GF").getD 0) * d.par "GF" = _
    rw [show (dipDim.lookup "GF").getD 0 = -2 by decide, zpow_neg, inv_mul_eq_div]; norm_cast
  have m : d'.par "m_mu" = x * d.par "m_mu" := by
    show x ^ ((dipDim.lookup "m_mu").getD 0) * d.par "m_mu" = _
    rw [show (dipDim.lookup "m_mu").getD 0 = 1 by decide, zpow_one]
  have mp : (x * d.par "m_mu") ^ (5 / 2 : ℝ) = x ^ (5 / 2 : ℝ) * d.par "m_mu" ^ (5 / 2 : ℝ) := Real.mul_rpow hx.le hm
  have ov : ∀ s ∈ ["D ", "Sp ", "Vp ", "Sn ", "Vn "], d'.par (s ++ nucl) = d.par (s ++ nucl) := by
    intro s hs
    show x ^ ((dipDim.lookup (s ++ nucl)).getD 0) * d.par (s ++ nucl) = _
    have A : ∀ s ∈ ["D ", "Sp ", "Vp ", "Sn ", "Vn "], ∀ nucl ∈ ["Au", "Al", "Ti"], (dipDim.lookup (s ++ nucl)).getD 0 = 0 := by decide
    have := A s hs nucl hn
    rw [this, zpow_zero, one_mul]
  have cap : d'.par ("GammaCapture " ++ nucl) = x * d.par ("GammaCapture " ++ nucl) := by
    show x ^ ((dipDim.lookup ("GammaCapture " ++ nucl)).getD 0) * d.par ("GammaCapture " ++ nucl) = _
    have A : ∀ nucl ∈ ["Au", "Al", "Ti"], (dipDim.lookup ("GammaCapture " ++ nucl)).getD 0 = 1 := by decide
    have := A nucl hn
    rw [this, zpow_one]
  have hk : (x ^ (5 / 2 : ℝ)) ^ 2 = x ^ 5 := by
    rw [← Real.rpow_natCast, ← Real.rpow_mul hx.le, ← Real.rpow_natCast]; norm_num
  have pre : -Real.sqrt 2 / (d.par "GF" / x ^ 2) = x ^ 2 * (-Real.sqrt 2 / d.par "GF") := by
    rw [div_div_eq_mul_div]; ring
  have dip : ∀ n ∈ ["Cgamma_emu", "Cgamma_mue"], d'.wc n = d.wc n / (x : ℂ) := hw.1
  have four : ∀ n, n ∉ ["Cgamma_emu", "Cgamma_mue"] → d'.wc n = d.wc n / (x : ℂ) ^ 2 := hw.2
  have hk' : ((x ^ (5 / 2 : ℝ) : ℝ) : ℂ) ≠ 0 := by exact_mod_cast (Real.rpow_pos_of_pos hx _).ne'
  unfold MuE.crMue
  rw [hch]
  cases Edm.protonCharges d with
  | error e => rfl
  | ok pc =>
  simp only [Bind.bind, Except.bind, g, m, mp, ov "D " (by simp), ov "Sp " (by simp), ov "Vp " (by simp), ov "Sn " (by simp), ov "Vn " (by simp), cap, pre]
  have F : ∀ n, n ∉ ["Cgamma_emu", "Cgamma_mue"] → ((x ^ 2 : ℝ) : ℂ) * d'.wc n = d.wc n := by
    intro n hn'
    rw [four n hn']; push_cast; field_simp
  have F2 : ∀ (p : ℝ) (a b : String), a ∉ ["Cgamma_emu", "Cgamma_mue"] → b ∉ ["Cgamma_emu", "Cgamma_mue"] →
      ((x ^ 2 * p : ℝ) : ℂ) * (d'.wc a + d'.wc b) = (p : ℂ) * (d.wc a + d.wc b) := by
    intro p a b ha hb
    rw [← F a ha, ← F b hb]; push_cast; ring
  have F3 : ∀ (p : ℝ) (a b : String), a ∉ ["Cgamma_emu", "Cgamma_mue"] → b ∉ ["Cgamma_emu", "Cgamma_mue"] →
      ((x ^ 2 * p : ℝ) : ℂ) * (starRingEnd ℂ) (d'.wc a + d'.wc b) = (p : ℂ) * (starRingEnd ℂ) (d.wc a + d.wc b) := by
    intro p a b ha hb
    rw [← F a ha, ← F b hb, map_add, map_add, map_mul, map_mul, Complex.conj_ofReal]; push_cast; ring
  have G1 : ∀ p : ℝ, ((x ^ 2 * p / (4 * (x * d.par "m_mu")) : ℝ) : ℂ) * d'.wc "Cgamma_emu" = ((p / (4 * d.par "m_mu") : ℝ) : ℂ) * d.wc "Cgamma_emu" := by
    intro p
    rw [dip _ (by simp), show x ^ 2 * p / (4 * (x * d.par "m_mu")) = x * (p / (4 * d.par "m_mu")) by field_simp]
    push_cast; field_simp
  have G2 : ∀ p : ℝ, ((x ^ 2 * p / (4 * (x * d.par "m_mu")) : ℝ) : ℂ) * (starRingEnd ℂ) (d'.wc "Cgamma_mue")
      = ((p / (4 * d.par "m_mu") : ℝ) : ℂ) * (starRingEnd ℂ) (d.wc "Cgamma_mue") := by
    intro p
    rw [dip _ (by simp), show x ^ 2 * p / (4 * (x * d.par "m_mu")) = x * (p / (4 * d.par "m_mu")) by field_simp, map_div₀, Complex.conj_ofReal]
    push_cast; field_simp
  simp (disch := decide) only [F2, F3, G1, G2]
  show Except.ok _ = Except.ok _
  congr 1
  have ex : ∀ v : ℝ, ((v * (x ^ (5 / 2 : ℝ) * d.par "m_mu" ^ (5 / 2 : ℝ)) : ℝ) : ℂ) = ((x ^ (5 / 2 : ℝ) : ℝ) : ℂ) * ((v * d.par "m_mu" ^ (5 / 2 : ℝ) : ℝ) : ℂ) := by
    intro v; push_cast; ring
  simp only [ex]
  have nrm : ∀ z : ℂ, ‖((x ^ (5 / 2 : ℝ) : ℝ) : ℂ) * z‖ ^ 2 = x ^ 5 * ‖z‖ ^ 2 := by
    intro z; rw [norm_mul, mul_pow, Complex.norm_real, Real.norm_eq_abs, sq_abs, hk]
  have pull : ∀ a b c e f D Vp Vn Sp Sn k : ℂ, a * (k * D) + b * (k * Vp) + c * (k * Vn) + e * (k * Sp) + f * (k * Sn)
      = k * (a * D + b * Vp + c * Vn + e * Sp + f * Sn) := by intros; ring
  rw [pull, pull, nrm, nrm]
  field_simp

end Verif.EnergyUnit
