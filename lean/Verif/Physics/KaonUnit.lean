import Verif.Physics.AngularUnit
import Verif.Physics.Semilep.K
import Verif.Physics.Kdecays.Kll
import Verif.Physics.Taudecays.Taulnunu
/-!
# The unit of energy: `tau → l nu nu`, the effective Fermi constant, `K → pi l nu` and `K → l l`
-/
set_option linter.unusedVariables false
set_option linter.unusedSimpArgs false
set_option linter.unusedSectionVars false
namespace Verif.EnergyUnit
open Verif.Py Verif.Running Verif.Bll Verif.Common Verif.Angular Complex

/-! ## `tau → l nu nu` -/

/-- A dictionary of coefficients of four-fermion operators in the new unit (specification). -/
noncomputable def wcDict (x : ℝ) (d : Dict String ℂ) : Dict String ℂ := d.map fun p => (p.1, (((x ^ 2)⁻¹ : ℝ) : ℂ) * p.2)

/-- The inputs in the new unit (specification). -/
noncomputable def taul (x : ℝ) (d : Tau.Inp) : Tau.Inp where
  me := x * d.me
  mmu := x * d.mmu
  mtau := x * d.mtau
  GF := d.GF / x ^ 2
  tauTau := d.tauTau / x
  alphaE := d.alphaE
  getWc s := (d.getWc s).map (wcDict x)

theorem wcDict_get? (x : ℝ) (d : Dict String ℂ) (k : String) :
    Dict.get? (wcDict x d) k = (Dict.get? d k).map fun z => (((x ^ 2)⁻¹ : ℝ) : ℂ) * z := by
  induction d with
  | nil => rfl
  | cons p d ih =>
    obtain ⟨a, b⟩ := p
    unfold wcDict
    rw [List.map_cons]
    show (if a = k then _ else _) = Option.map _ (if a = k then _ else _)
    by_cases h : a = k
    · rw [if_pos h, if_pos h]; rfl
    · rw [if_neg h, if_neg h]; exact ih

theorem wcDict_getItem (x : ℝ) (d : Dict String ℂ) (k : String) :
    Dict.getItem (wcDict x d) k = (Dict.getItem d k).map fun z => (((x ^ 2)⁻¹ : ℝ) : ℂ) * z := by
  unfold Dict.getItem
  rw [wcDict_get?]
  cases Dict.get? d k <;> rfl

theorem brF_mul (k y : ℝ) (CL CR : ℂ) : Tau.brF y ((k : ℂ) * CL) ((k : ℂ) * CR) = k ^ 2 * Tau.brF y CL CR := by
  unfold Tau.brF
  rw [norm_mul, norm_mul, Complex.norm_real, Real.norm_eq_abs, mul_pow, mul_pow, sq_abs, map_mul, Complex.conj_ofReal,
    show (k : ℂ) * CL * ((k : ℂ) * (starRingEnd ℂ) CR) = ((k ^ 2 : ℝ) : ℂ) * (CL * (starRingEnd ℂ) CR) by push_cast; ring,
    Complex.re_ofReal_mul]
  ring

theorem pyDiv_left (k a b : ℝ) : pyDiv (k * a) b = (pyDiv a b).map fun r => k * r := by
  unfold pyDiv
  split_ifs
  · rfl
  · rw [mul_div_assoc]; rfl

theorem sm_unit (x g : ℝ) : ((-4 * ((x ^ 2)⁻¹ * g) / Real.sqrt 2 : ℝ) : ℂ) = (((x ^ 2)⁻¹ : ℝ) : ℂ) * ((-4 * g / Real.sqrt 2 : ℝ) : ℂ) := by
  push_cast; ring

theorem bind_map' {α β γ : Type} (m : Except PyErr α) (f : α → β) (g : β → Except PyErr γ) :
    (m.map f >>= g) = (m >>= fun a => g (f a)) := by cases m <;> rfl

theorem map_bind' {α β γ : Type} (m : Except PyErr α) (f : α → Except PyErr β) (g : β → γ) :
    (m >>= f).map g = (m >>= fun a => (f a).map g) := by cases m <;> rfl

theorem gfEff_unit {x : ℝ} (hx : 0 < x) (d : Tau.Inp) :
    Tau.gfEff (taul x d) = (Tau.gfEff d).map fun g => (x ^ 2)⁻¹ * g := by
  have hk : (x ^ 2)⁻¹ ≠ 0 := by positivity
  have hr : (taul x d).me ^ 2 / (taul x d).mmu ^ 2 = d.me ^ 2 / d.mmu ^ 2 := sq_ratio hx _ _
  have hg : (taul x d).GF = (x ^ 2)⁻¹ * d.GF := by show d.GF / x ^ 2 = _; rw [div_eq_mul_inv, mul_comm]
  unfold Tau.gfEff
  simp only [map_bind']
  rw [show (taul x d).getWc "nunumue" = (d.getWc "nunumue").map (wcDict x) from rfl]
  simp only [bind_map', wcDict_getItem, hr, hg, sm_unit]
  congr 1; funext wc; congr 1; funext CL; congr 1; funext CR
  generalize ((-4 * d.GF / Real.sqrt 2 : ℝ) : ℂ) = s
  rw [← mul_add, brF_mul]
  have h0 := brF_mul ((x ^ 2)⁻¹) (d.me ^ 2 / d.mmu ^ 2) s 0
  rw [mul_zero] at h0
  rw [h0, pyDiv_scale (pow_ne_zero 2 hk)]
  congr 1; funext r; congr 1; funext t
  exact pyDiv_left _ _ _

theorem coeffs_unit (x : ℝ) (wc : Dict String ℂ) (l a b : String) :
    Tau.coeffs (wcDict x wc) l a b = (Tau.coeffs wc l a b).map fun c => ((((x ^ 2)⁻¹ : ℝ) : ℂ) * c.1, (((x ^ 2)⁻¹ : ℝ) : ℂ) * c.2) := by
  unfold Tau.coeffs
  simp only [wcDict_get?, wcDict_getItem]
  cases Dict.get? wc ("CVLL_" ++ ("nu" ++ b ++ "nu" ++ a ++ "tau" ++ l)) with
  | some u =>
    cases Dict.get? wc ("CVLR_" ++ ("nu" ++ b ++ "nu" ++ a ++ "tau" ++ l)) with
    | some v => rfl
    | none =>
      simp only [Option.map, map_bind', bind_map', map_mul, Complex.conj_ofReal]
      rfl
  | none =>
    simp only [Option.map, map_bind', bind_map', map_mul, Complex.conj_ofReal]
    rfl

theorem brNuTau_unit {x : ℝ} (hx : 0 < x) (d : Tau.Inp) (l a b : String) : Tau.brNu (taul x d) l a b = Tau.brNu d l a b := by
  have hx' := hx.ne'
  have hm : Tau.massOf (taul x d) l ^ 2 / (taul x d).mtau ^ 2 = Tau.massOf d l ^ 2 / d.mtau ^ 2 := by
    have : Tau.massOf (taul x d) l = x * Tau.massOf d l := by unfold Tau.massOf; split_ifs <;> rfl
    rw [this]
    exact sq_ratio hx _ _
  have hp : Tau.pre (taul x d) = x ^ 4 * Tau.pre d := by
    unfold Tau.pre
    show d.tauTau / x / 3 / 2 ^ 9 / Real.pi ^ 3 * (x * d.mtau) ^ 5 * (1 + d.alphaE / (2 * Real.pi) * (25 / 4 - Real.pi ^ 2)) = _
    generalize (1 + d.alphaE / (2 * Real.pi) * (25 / 4 - Real.pi ^ 2)) = e
    have := Real.pi_ne_zero
    field_simp
  have hs : Tau.smCL (taul x d) l a b = (Tau.smCL d l a b).map fun z => (((x ^ 2)⁻¹ : ℝ) : ℂ) * z := by
    unfold Tau.smCL
    rw [gfEff_unit hx]
    split_ifs
    · simp only [bind_map', map_bind', sm_unit]; rfl
    · simp [Except.map]
  unfold Tau.brNu
  congr 1; funext sec
  rw [show (taul x d).getWc sec = (d.getWc sec).map (wcDict x) from rfl]
  simp only [bind_map', coeffs_unit, hs, hm, hp]
  congr 1; funext wc; congr 1; funext c; congr 1; funext s
  rw [← mul_add, brF_mul]
  congr 1
  field_simp

/-- **C165 (`tau → l nu nu`).** The branching ratios do not depend on the unit of energy; the effective Fermi constant is an
inverse squared energy. -/
theorem C165_tau_leptonic {x : ℝ} (hx : 0 < x) (d : Tau.Inp) (l : String) :
    (∀ a b, Tau.brNu (taul x d) l a b = Tau.brNu d l a b) ∧ Tau.br (taul x d) l = Tau.br d l ∧
    Tau.gfEff (taul x d) = (Tau.gfEff d).map fun g => (x ^ 2)⁻¹ * g := by
  refine ⟨brNuTau_unit hx d l, ?_, gfEff_unit hx d⟩
  unfold Tau.br
  simp only [brNuTau_unit hx d l]

/-! ## `K → pi l nu` -/

open Verif.Semilep.Kaon in
/-- The inputs in the new unit (specification). -/
noncomputable def kaon (x : ℝ) (e : KInp) : KInp := { e with d := semi x e.d }

open Verif.Semilep.Kaon in
theorem jOneK_unit {x : ℝ} (hx : 0 < x) (e : KInp) (l : Fin 3) (q2 : ℝ) (n : Fin 3) (hq : 0 < q2) :
    jOneK (kaon x e) l (x ^ 2 * q2) n = (jOneK e l q2 n).scale x⁻¹ := by
  have hx' := hx.ne'
  have hf : getFF (kaon x e).d.ff (kaon x e).delta (kaon x e).k (x ^ 2 * q2) = getFF e.d.ff e.delta e.k q2 := by
    have : (kaon x e).d.ff (x ^ 2 * q2) = e.d.ff q2 := by
      show e.d.ff (x ^ 2 * q2 / x ^ 2) = _
      rw [mul_div_cancel_left₀ _ (pow_ne_zero 2 hx')]
    show getFF (kaon x e).d.ff e.delta e.k (x ^ 2 * q2) = _
    cases e.k <;> simp only [getFF, this]
  have hN : ((4 * (kaon x e).d.GF / Real.sqrt 2 : ℝ) : ℂ) * (kaon x e).d.V
      = ((4 * e.d.GF / Real.sqrt 2 : ℝ) : ℂ) * e.d.V / x ^ 2 := by
    show ((4 * (e.d.GF / x ^ 2) / Real.sqrt 2 : ℝ) : ℂ) * e.d.V = _
    push_cast; ring
  have := (C165_angular hx q2 e.d.mM e.d.mP e.d.mq 0 (e.d.m l) 0 (getFF e.d.ff e.delta e.k q2) ⟨0, 0, 0, 0, 0, 0, 0⟩
    (Semilep.wcEff (Semilep.cSM e.d l n) (e.d.wc l n)) (((4 * e.d.GF / Real.sqrt 2 : ℝ) : ℂ) * e.d.V) hq).1
  rw [show (x * 0 : ℝ) = 0 from mul_zero x] at this
  unfold jOneK
  dsimp only
  rw [hf, hN]
  exact this

open Verif.Semilep.Kaon in
theorem dbrK_unit {x : ℝ} (hx : 0 < x) (e : KInp) (l : Fin 3) (q2 : ℝ) (hq : 0 < q2) :
    dbrK (kaon x e) l (x ^ 2 * q2) = dbrK e l q2 / x ^ 2 := by
  have hx' := hx.ne'
  have h2 : (0 : ℝ) < x ^ 2 := by positivity
  have hj : dGdq2P (jSumK (kaon x e) l (x ^ 2 * q2)) = x⁻¹ * dGdq2P (jSumK e l q2) := by
    unfold jSumK
    simp only [jOneK_unit hx e l q2 _ hq, JP.scale, ← Finset.mul_sum, dGdq2P]
    ring
  have hi : (x ^ 2 * q2 < (kaon x e).d.m l ^ 2 ∨ ((kaon x e).d.mM - (kaon x e).d.mP) ^ 2 < x ^ 2 * q2)
      ↔ (q2 < e.d.m l ^ 2 ∨ (e.d.mM - e.d.mP) ^ 2 < q2) := by
    show (x ^ 2 * q2 < (x * e.d.m l) ^ 2 ∨ (x * e.d.mM - x * e.d.mP) ^ 2 < x ^ 2 * q2) ↔ _
    rw [← mul_sub, mul_pow, mul_pow, mul_lt_mul_iff_right₀ h2, mul_lt_mul_iff_right₀ h2]
  unfold dbrK
  rw [hj]
  by_cases h : q2 < e.d.m l ^ 2 ∨ (e.d.mM - e.d.mP) ^ 2 < q2
  · rw [if_pos h, if_pos (hi.2 h), zero_div]
  · rw [if_neg h, if_neg (fun c => h (hi.1 c))]
    cases hk : e.k <;> (rw [show (kaon x e).k = e.k from rfl, hk]; dsimp only) <;>
      (show (if e.d.pi0 = true then e.d.tau / x * _ / 2 else e.d.tau / x * _ * _) = _; split_ifs <;> field_simp) <;> rfl

theorem pyDiv_inv {x : ℝ} (hx : 0 < x) (a b : ℝ) : pyDiv a (x * b) = (pyDiv a b).map fun r => x⁻¹ * r := by
  have hx' := hx.ne'
  rw [← pyDiv_left, ← pyDiv_scale hx' (x⁻¹ * a) b, ← mul_assoc, mul_inv_cancel₀ hx', one_mul]

open Verif.Semilep.Kaon in
theorem logC_unit {x : ℝ} (hx : 0 < x) (d : Semilep.Inp) (a : Semilep.LArg) : logC (semi x d) a = logC d a := by
  have hx' := hx.ne'
  have hi : x⁻¹ ≠ 0 := inv_ne_zero hx'
  cases a with
  | l => rfl
  | one l =>
    have hq : (semi x d).mM ^ 2 - (semi x d).mP ^ 2 = x * (x * (d.mM ^ 2 - d.mP ^ 2)) := by
      show (x * d.mM) ^ 2 - (x * d.mP) ^ 2 = _; ring
    have hf : ∀ y, (semi x d).ff (x * (x * y)) = d.ff y := by
      intro y
      show d.ff (x * (x * y) / x ^ 2) = _
      congr 1; field_simp
    have hf0 : (semi x d).ff 0 = d.ff 0 := by show d.ff (0 / x ^ 2) = _; rw [zero_div]
    have hc : Semilep.wcEff (Semilep.cSM (semi x d) l l) ((semi x d).wc l l) = Semilep.wcEff (Semilep.cSM d l l) (d.wc l l) := rfl
    unfold logC
    dsimp only
    rw [hq, hf, hf0, hc, show (semi x d).m l = x * d.m l from rfl, show (semi x d).mq = x * d.mq from rfl, pyDiv_scale hx',
      pyDiv_inv hx, pyDiv_inv hx]
    simp only [bind_map']
    congr 1; funext A; congr 1; funext r; congr 1; funext p
    generalize ((Semilep.wcEff (Semilep.cSM d l l) (d.wc l l)).a + (Semilep.wcEff (Semilep.cSM d l l) (d.wc l l)).ap).re = w
    rw [show r * (x⁻¹ * p + x⁻¹ * A * w) = x⁻¹ * (r * (p + A * w)) by ring, mul_assoc x⁻¹, pyDiv_scale hi]

open Verif.Semilep.Kaon in
theorem rT_unit {x : ℝ} (hx : 0 < x) (d : Semilep.Inp) (l : Fin 3) : rT (semi x d) l = rT d l := by
  have hx' := hx.ne'
  have hf0 : (semi x d).ff 0 = d.ff 0 := by show d.ff (0 / x ^ 2) = _; rw [zero_div]
  unfold rT
  dsimp only
  rw [hf0, show (semi x d).mM = x * d.mM from rfl, show (semi x d).mP = x * d.mP from rfl, ← mul_add,
    show (d.ff 0).fT * 2 * (x * d.mM) = x * ((d.ff 0).fT * 2 * d.mM) by ring, pyDiv_scale hx']
  rfl

open Verif.Semilep.Kaon in
/-- **C165 (`K → pi l nu`).** The differential branching ratios are inverse squared energies; the branching ratio in any bin, the
total branching ratio, `ln(C)` and `R_T` do not depend on the unit of energy. -/
theorem C165_Kpilnu {x : ℝ} (hx : 0 < x) (e : KInp) (l : Fin 3) :
    (∀ q2, 0 < q2 → dbrK (kaon x e) l (x ^ 2 * q2) = dbrK e l q2 / x ^ 2) ∧
    (∀ lo hi, 0 ≤ lo → 0 ≤ hi → ∫ q2 in (x ^ 2 * lo)..(x ^ 2 * hi), dbrK (kaon x e) l q2 = ∫ q2 in lo..hi, dbrK e l q2) ∧
    brTotK (fun f a b _ => ∫ y in a..b, f y) (kaon x e) (.one l) = brTotK (fun f a b _ => ∫ y in a..b, f y) e (.one l) ∧
    logC (kaon x e).d (.one l) = logC e.d (.one l) ∧ rT (kaon x e).d l = rT e.d l := by
  refine ⟨dbrK_unit hx e l, bin_unit hx _ _ (dbrK_unit hx e l), ?_, logC_unit hx _ _, rT_unit hx _ _⟩
  unfold brTotK brBinnedK
  dsimp only
  rw [show (kaon x e).d.m l ^ 2 = x ^ 2 * e.d.m l ^ 2 from mul_pow _ _ _,
    show ((kaon x e).d.mM - (kaon x e).d.mP) ^ 2 = x ^ 2 * (e.d.mM - e.d.mP) ^ 2 by
      show (x * e.d.mM - x * e.d.mP) ^ 2 = _; ring]
  rw [bin_unit hx _ _ (dbrK_unit hx e l) _ _ (by positivity) (by positivity)]

/-! ## `K → l l` -/

/-- The exponent of the unit of energy in a parameter: as for the other mesons, but the running top mass is left in GeV, as the
code divides it by 173.1 GeV (specification). -/
noncomputable def kll (x : ℝ) (d : Kll.Inp) : Kll.Inp where
  par k := if k = "m_t" then d.par k else par x d.par k
  V := d.V

theorem kll_ne (x : ℝ) (d : Kll.Inp) {k : String} (h : k ≠ "m_t") : (kll x d).par k = par x d.par k := if_neg h

theorem kll_m (x : ℝ) (d : Kll.Inp) (s : String) (h : s ≠ "t") : (kll x d).par ("m_" ++ s) = x * d.par ("m_" ++ s) := by
  have : "m_" ++ s ≠ "m_t" := by
    intro e
    apply h
    have := congrArg String.toList e
    simp only [String.toList_append] at this
    rw [show "m_t".toList = "m_".toList ++ "t".toList by decide] at this
    exact String.toList_inj.1 (List.append_cancel_left this)
  rw [kll_ne x d this, par_m]

theorem minusK (x : ℝ) (wc : String → ℂ) (s : String) :
    wcBll x wc ("C10_" ++ s) = wc ("C10_" ++ s) ∧ wcBll x wc ("C10p_" ++ s) = wc ("C10p_" ++ s) ∧
    wcBll x wc ("C9_" ++ s) = wc ("C9_" ++ s) ∧ wcBll x wc ("C9p_" ++ s) = wc ("C9p_" ++ s) ∧
    wcBll x wc ("CS_" ++ s) = wc ("CS_" ++ s) / x ∧ wcBll x wc ("CSp_" ++ s) = wc ("CSp_" ++ s) / x ∧
    wcBll x wc ("CP_" ++ s) = wc ("CP_" ++ s) / x ∧ wcBll x wc ("CPp_" ++ s) = wc ("CPp_" ++ s) / x := by
  refine ⟨?_, ?_, ?_, ?_, ?_, ?_, ?_, ?_⟩ <;> simp [wcBll, String.toList_append, List.isPrefixOf]

theorem getWcK_unit (x : ℝ) (d : Kll.Inp) (np : String → ℂ) (l1 l2 : String) :
    Kll.getWc (kll x d) (wcBll x np) l1 l2 = (Kll.getWc d np l1 l2).map (wcBll x) := by
  have hs : (kll x d).par "s2w" = d.par "s2w" := by
    rw [kll_ne x d (by decide), par, show parPow "s2w" = 0 by decide, zpow_zero, one_mul]
  have ht : Kll.c10t (kll x d) = Kll.c10t d := rfl
  have hc : Kll.c10c (kll x d) = Kll.c10c d := by unfold Kll.c10c; rw [hs]; rfl
  unfold Kll.getWc
  rw [hc, ht, show Kll.xiC (kll x d) = Kll.xiC d from rfl, show Kll.xiT (kll x d) = Kll.xiT d from rfl]
  split_ifs
  · simp only [map_bind']
    congr 1; funext cc; congr 1; funext r
    have h10 := (minusK x np ("sd" ++ l1 ++ l2)).1
    show Except.ok _ = Except.ok _
    congr 1
    funext k
    have hk : "C10_sd" ++ l1 ++ l2 = "C10_" ++ ("sd" ++ l1 ++ l2) := by simp only [← String.append_assoc]; rfl
    rw [hk, h10]
    by_cases h : k = "C10_" ++ ("sd" ++ l1 ++ l2)
    · subst h
      rw [Function.update_self, (minusK x _ _).1, Function.update_self]
    · rw [Function.update_of_ne h]
      unfold wcBll
      rw [Function.update_of_ne h]
  · rfl

theorem amplitudesK_unit {x : ℝ} (hx : 0 < x) (d : Kll.Inp) (wc : String → ℂ) (l1 l2 : String) (h1 : l1 ≠ "t") (h2 : l2 ≠ "t") :
    Kll.amplitudes (kll x d) (wcBll x wc) l1 l2 = Kll.amplitudes d wc l1 l2 := by
  have hx' := hx.ne'
  have hxc : (x : ℂ) ≠ 0 := by exact_mod_cast hx'
  obtain ⟨a, b, c, e, f, g, h, i⟩ := minusK x wc ("sd" ++ l1 ++ l2)
  have hK : (kll x d).par "m_K0" = x * d.par "m_K0" := kll_m x d "K0" (by decide)
  unfold Kll.amplitudes
  dsimp only
  rw [kll_m x d l1 h1, kll_m x d l2 h2, hK, a, b, c, e, f, g, h, i, ← mul_add, ← mul_sub, pyDiv_scale hx', pyDiv_scale hx']
  congr 1; funext rp; congr 1; funext rm
  have : ∀ z w : ℂ, ((x * d.par "m_K0" : ℝ) : ℂ) * (z / x - w / x) = (d.par "m_K0" : ℂ) * (z - w) := fun z w => by
    push_cast; field_simp
  rw [this, this]
  rfl

theorem amplitudesLDK_unit {x : ℝ} (hx : 0 < x) (d : Kll.Inp) (K l : String) (h1 : l ≠ "t") (hK : K ≠ "t") :
    Kll.amplitudesLD (kll x d) K l = Kll.amplitudesLD d K l := by
  have hs : ∀ k, k ≠ "m_t" → parPow k = 0 → (kll x d).par k = d.par k := by
    intro k h h0
    rw [kll_ne x d h, par, h0, zpow_zero, one_mul]
  unfold Kll.amplitudesLD
  rw [kll_m x d l h1, kll_m x d K hK, hs "s2w" (by decide) (by decide), hs "chi_disp(KL->gammagamma)" (by decide) (by decide),
    show 2 * (x * d.par ("m_" ++ l)) = x * (2 * d.par ("m_" ++ l)) by ring, pyDiv_scale hx.ne']

theorem brKll_unit {x : ℝ} (hx : 0 < x) (d : Kll.Inp) (np : String → ℂ) (K l1 l2 : String) (ld : Bool)
    (h1 : l1 ≠ "t") (h2 : l2 ≠ "t") (hK : K ≠ "t") :
    Kll.brKll (kll x d) (wcBll x np) K l1 l2 ld = Kll.brKll d np K l1 l2 ld := by
  have hx' := hx.ne'
  have hk0 : (kll x d).par "m_K0" = x * d.par "m_K0" := kll_m x d "K0" (by decide)
  have hG : (kll x d).par "GF" = d.par "GF" / x ^ 2 := by
    rw [kll_ne x d (by decide), par_GF]
  have hfK : (kll x d).par "f_K0" = x * d.par "f_K0" := by
    rw [kll_ne x d (by decide)]; exact par_f x d.par "K0"
  have ha : (kll x d).par "alpha_e" = d.par "alpha_e" := by
    rw [kll_ne x d (by decide), par, show parPow "alpha_e" = 0 by decide, zpow_zero, one_mul]
  have htau : (kll x d).par ("tau_" ++ K) = d.par ("tau_" ++ K) / x := by
    rw [kll_ne x d, par_tau]
    intro h
    have := congrArg String.toList h
    simp [String.toList_append] at this
  have heff : ∀ wc, Kll.amplitudesEff (kll x d) (wcBll x wc) K l1 l2 ld = Kll.amplitudesEff d wc K l1 l2 ld := by
    intro wc
    have hl : Kll.ldPart (kll x d) K l1 l2 ld = Kll.ldPart d K l1 l2 ld := by
      unfold Kll.ldPart; rw [amplitudesLDK_unit hx d K l1 h1 hK]
    unfold Kll.amplitudesEff
    rw [amplitudesK_unit hx d wc l1 l2 h1 h2, hl]
  unfold Kll.brKll
  rw [getWcK_unit]
  dsimp only
  rw [bind_map', kll_m x d l1 h1, kll_m x d l2 h2, hk0, hG, hfK, ha, htau, pySqrt_lambda_scale hx, ← mul_add, ← mul_sub]
  simp only [heff]
  congr 1; funext wc
  rw [Bll.pySqrt_nonneg (Bll.lambdaK_nonneg _ _ _)]
  simp only [ok_bind_eq]
  rw [mul_pow, mul_pow, mul_pow, pyDiv_scale (pow_ne_zero 2 hx'), pyDiv_scale (pow_ne_zero 2 hx'), pyDiv_scale (pow_ne_zero 2 hx')]
  congr 1; funext beta; congr 1; funext rp; congr 1; funext bp; congr 1; funext rm; congr 1; funext bm; congr 1; funext A
  show Except.ok _ = Except.ok _
  congr 2
  rw [show 4 * (d.par "GF" / x ^ 2) / Real.sqrt 2 * d.par "alpha_e" / (4 * Real.pi)
    = 4 * d.par "GF" / Real.sqrt 2 * d.par "alpha_e" / (4 * Real.pi) / x ^ 2 by ring]
  generalize 4 * d.par "GF" / Real.sqrt 2 * d.par "alpha_e" / (4 * Real.pi) = N
  rw [sq_abs, sq_abs]
  have := Real.pi_ne_zero
  field_simp

/-- **C165 (`K → l l`).** The branching ratios, for one charge assignment and summed over both, do not depend on the unit of
energy (for lepton and kaon names other than the top quark's, whose mass the code uses in GeV). -/
theorem C165_Kll {x : ℝ} (hx : 0 < x) (d : Kll.Inp) (np : String → ℂ) (K l1 l2 : String)
    (h1 : l1 ≠ "t") (h2 : l2 ≠ "t") (hK : K ≠ "t") :
    Kll.predOne (kll x d) (wcBll x np) K l1 l2 = Kll.predOne d np K l1 l2 ∧
    Kll.predSum (kll x d) (wcBll x np) K l1 l2 = Kll.predSum d np K l1 l2 ∧
    (∀ r ∈ Kll.registry, Kll.predict (kll x d) (wcBll x np) r.2 = Kll.predict d np r.2) := by
  have h := fun K l1 l2 h1 h2 hK => brKll_unit hx d np K l1 l2 true h1 h2 hK
  have hs : ∀ K l1 l2, l1 ≠ "t" → l2 ≠ "t" → K ≠ "t" →
      Kll.predSum (kll x d) (wcBll x np) K l1 l2 = Kll.predSum d np K l1 l2 := by
    intro K l1 l2 h1 h2 hK
    unfold Kll.predSum; rw [h K l1 l2 h1 h2 hK, h K l2 l1 h2 h1 hK]
  refine ⟨h K l1 l2 h1 h2 hK, hs K l1 l2 h1 h2 hK, ?_⟩
  intro r hr
  have hne : r.2.1 ≠ "t" ∧ r.2.2.1 ≠ "t" ∧ r.2.2.2.1 ≠ "t" := by
    revert r; decide
  unfold Kll.predict
  split_ifs
  · exact hs _ _ _ hne.2.1 hne.2.2 hne.1
  · exact h _ _ _ hne.2.1 hne.2.2 hne.1

end Verif.EnergyUnit
