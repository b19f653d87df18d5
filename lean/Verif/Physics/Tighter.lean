import Verif.Physics.Bdecays.WilsonTot
import Verif.Physics.Bdecays.Plnu
import Verif.Physics.Taudecays.Taulnunu
import Verif.Physics.Taudecays.ThreeLeptons
import Verif.Physics.Taudecays.Widths
import Verif.Physics.Mixing.Common
import Verif.Physics.Mixing.Amplitude
import Verif.Physics.Angular.VHTheorems
/-!
# Further theorems about earlier models (C83, C86, C87, C93 - C97)

Theorems that were added because an edited model passed the earlier ones.
-/
set_option linter.unusedVariables false
set_option linter.unusedSimpArgs false

local notation "conj" => starRingEnd ℂ

/-! ## C83 -/
namespace Verif.Angular
open Complex

/-- **C83 (CP parities)** Going from the amplitudes of the antiparticle's decay to those entering the interference, the longitudinal
and parallel amplitudes and the pseudoscalar one keep their sign, the perpendicular and the scalar one change it; done twice, nothing
changes. -/
theorem C83_cp_parities (H : AmpV) :
    (hTilde H).plV + (hTilde H).miV = H.plV + H.miV ∧ (hTilde H).plV - (hTilde H).miV = -(H.plV - H.miV) ∧
    (hTilde H).plA + (hTilde H).miA = H.plA + H.miA ∧ (hTilde H).plA - (hTilde H).miA = -(H.plA - H.miA) ∧
    (hTilde H).zeV = H.zeV ∧ (hTilde H).zeA = H.zeA ∧ (hTilde H).P = H.P ∧ (hTilde H).S = -H.S ∧ hTilde (hTilde H) = H := by
  refine ⟨?_, ?_, ?_, ?_, rfl, rfl, rfl, rfl, ?_⟩ <;> simp [hTilde] <;> ring

end Verif.Angular

/-! ## C86, C87 -/
namespace Verif.Mixing
open Complex

/-- **C86 (x and y)** The mixing parameters satisfy `x² - y² = x12² - y12²` and `x y = x12 y12 cos φ12`. -/
theorem C86_x_y (M12 G12 : ℂ) (tau : ℝ) (hM : M12 ≠ 0) (hG : G12 ≠ 0) (h : 2 * M12 - I * G12 ≠ 0) :
    xMix M12 G12 tau ^ 2 - yMix M12 G12 tau ^ 2 = x12 M12 tau ^ 2 - y12 G12 tau ^ 2 ∧
    xMix M12 G12 tau * yMix M12 G12 tau = x12 M12 tau * y12 G12 tau * Real.cos (phi12 M12 G12) := by
  obtain ⟨h1, h2⟩ := C86_relations M12 G12 h
  constructor
  · unfold xMix yMix x12 y12 deltaM12
    linear_combination tau ^ 2 * h1
  · have hc : ‖M12‖ * ‖G12‖ * Real.cos (phi12 M12 G12) = (M12 * conj G12).re := by
      unfold phi12
      rw [Complex.cos_arg (div_ne_zero hM hG), norm_div]
      have n1 : ‖G12‖ ≠ 0 := norm_ne_zero_iff.2 hG
      have n2 : ‖M12‖ ≠ 0 := norm_ne_zero_iff.2 hM
      have e : (M12 / G12).re = (M12 * conj G12).re / ‖G12‖ ^ 2 := by
        rw [← Complex.normSq_eq_norm_sq, Complex.div_re]
        simp only [mul_re, conj_re, conj_im]
        ring
      rw [e]
      field_simp
    unfold xMix yMix x12 y12 deltaM12
    linear_combination (-tau ^ 2 / 2) * h2 - 2 * tau ^ 2 * hc

/-- The leading coefficient of the beta function. (Specification.) -/
noncomputable def beta0 (f : ℝ) : ℝ := 11 - 2 / 3 * f
/-- The next-to-leading coefficient of the beta function. (Specification.) -/
noncomputable def beta1 (f : ℝ) : ℝ := 102 - 38 / 3 * f

/-- **C87 (renormalisation group)** The factor from the MS-bar to the renormalisation group invariant bag parameter is
`α^(-γ0/2β0) (1 + α/4π J)`, `J = γ0 β1/2β0² - γ1/2β0` with the anomalous dimension `γ0 = 4`, `γ1 = -7 + 4f/9` for `f = 5` flavours for
B mesons and `f = 3` for the kaon. -/
theorem C87_bag_rgi (a : ℝ) (m : Meson) (hm : m ≠ .D0) :
    let f : ℝ := if m = .K0 then 3 else 5
    bagMsbar2rgi a m = .ok (a ^ (-(4 / (2 * beta0 f)))
      * (1 + a / (4 * Real.pi) * (4 * beta1 f / (2 * beta0 f ^ 2) - (-7 + 4 / 9 * f) / (2 * beta0 f)))) := by
  intro f
  have k5 : (4 / (2 * beta0 5) = 6 / 23) ∧ (4 * beta1 5 / (2 * beta0 5 ^ 2) - (-7 + 4 / 9 * 5) / (2 * beta0 5) = 5165 / 3174) := by
    unfold beta0 beta1; constructor <;> norm_num
  have k3 : (4 / (2 * beta0 3) = 2 / 9) ∧ (4 * beta1 3 / (2 * beta0 3 ^ 2) - (-7 + 4 / 9 * 3) / (2 * beta0 3) = 307 / 162) := by
    unfold beta0 beta1; constructor <;> norm_num
  cases m with
  | D0 => exact absurd rfl hm
  | K0 => simp only [f, if_true]; rw [k3.1, k3.2]; rfl
  | B0 =>
    have : f = 5 := by simp [f]
    rw [this, k5.1, k5.2]; rfl
  | Bs =>
    have : f = 5 := by simp [f]
    rw [this, k5.1, k5.2]; rfl

example : (2 : ℂ) * 1 - I * 1 ≠ 0 := by
  intro h; have := congrArg Complex.re h; simp at this

end Verif.Mixing

/-! ## C93 -/
namespace Verif.Wilson
open Verif.Py

/-- The names of the tabulated coefficients in the order of the table. (Specification.) -/
def tableNames (qq ll : String) : List String :=
  ["C1_" ++ qq, "C2_" ++ qq, "C3_" ++ qq, "C4_" ++ qq, "C5_" ++ qq, "C6_" ++ qq, "C7_" ++ qq, "C8_" ++ qq,
    "C9_" ++ qq ++ ll, "C10_" ++ qq ++ ll, "C3Q_" ++ qq, "C4Q_" ++ qq, "C5Q_" ++ qq, "C6Q_" ++ qq, "Cb_" ++ qq]

/-- The coefficient with primed operator: `Cx_…` becomes `Cxp_…`. (Specification.) -/
def primed (stem : String) : String := stem ++ "p"

/-- The names of a transition in terms of the stems: the tabulated ones, the primed ones in the same order, then the scalar ones; those of semi-leptonic operators carry the lepton flavour.
(Specification.) -/
def allNames (qq ll : String) : List String :=
  let stems := ["C1", "C2", "C3", "C4", "C5", "C6", "C7", "C8", "C9", "C10", "C3Q", "C4Q", "C5Q", "C6Q", "Cb"]
  let sl := ["C9", "C10", "C9p", "C10p", "CS", "CP", "CSp", "CPp"]
  (stems ++ stems.map primed ++ ["CS", "CP", "CSp", "CPp"]).map fun x => x ++ "_" ++ qq ++ (if x ∈ sl then ll else "")

/-- **C93 (names)** The tabulated numbers belong to `C1 ... C8`, `C9`, `C10`, `C3Q ... C6Q`, `Cb` in this order; the sectors are exactly the
combinations of the three quark transitions and the three lepton flavours. -/
theorem C93_names (p : String × String) :
    (labels p.1 p.2).take 15 = tableNames p.1 p.2 ∧ labels p.1 p.2 = allNames p.1 p.2 ∧
    (p ∈ sectors ↔ p.1 ∈ ["bs", "bd", "sd"] ∧ p.2 ∈ ["ee", "mumu", "tautau"]) := by
  refine ⟨rfl, ?_, ?_⟩
  · simp only [labels, allNames, primed, List.map_cons, List.map_nil, List.cons_append, List.nil_append]
    simp (decide := true) only [List.mem_cons, List.not_mem_nil, if_true, if_false, String.append_empty]
    simp only [List.cons.injEq, ← String.append_assoc, and_true]
    refine ⟨?_, ?_, ?_, ?_, ?_, ?_, ?_, ?_, ?_, ?_, ?_, ?_, ?_, ?_, ?_, ?_, ?_, ?_, ?_, ?_, ?_, ?_, ?_, ?_, ?_, ?_, ?_, ?_, ?_, ?_, ?_, ?_, ?_, ?_⟩ <;> rfl
  obtain ⟨a, b⟩ := p
  simp only [sectors, List.mem_cons, Prod.mk.injEq, List.not_mem_nil, or_false]
  constructor
  · rintro (⟨rfl, rfl⟩ | ⟨rfl, rfl⟩ | ⟨rfl, rfl⟩ | ⟨rfl, rfl⟩ | ⟨rfl, rfl⟩ | ⟨rfl, rfl⟩ | ⟨rfl, rfl⟩ | ⟨rfl, rfl⟩ | ⟨rfl, rfl⟩) <;> simp
  · rintro ⟨rfl | rfl | rfl, rfl | rfl | rfl⟩ <;> simp

/-- **C93 (charged currents)** For B and D decays the Standard Model coefficient is 1 at the scale of the Z mass, changes by `α/π` times the
logarithm of the ratio of scales, and is above 1 below the Z mass; for kaon and pion decays its square is 1.0232. -/
theorem C93_charged_current (a mZ s s' : ℝ) (nf : Int) (hZ : 0 < mZ) (hs : 0 < s) (hs' : 0 < s') :
    (nf = 4 ∨ nf = 5 → cvlSM a mZ mZ nf = 1 ∧ cvlSM a mZ s nf - cvlSM a mZ s' nf = a / Real.pi * Real.log (s' / s) ∧
      (0 < a → s < mZ → 1 < cvlSM a mZ s nf)) ∧
    (nf = 3 → 0 < cvlSM a mZ s nf ∧ cvlSM a mZ s nf ^ 2 = 1.0232) := by
  constructor
  · intro h
    have h4 : (4 : Int) ≤ nf := by omega
    unfold cvlSM
    simp only [if_pos h4]
    refine ⟨by rw [div_self hZ.ne']; simp, ?_, fun ha hl => ?_⟩
    · rw [Real.log_div hZ.ne' hs.ne', Real.log_div hZ.ne' hs'.ne', Real.log_div hs'.ne' hs.ne']; ring
    · have : 0 < Real.log (mZ / s) := Real.log_pos ((one_lt_div hs).2 hl)
      have := Real.pi_pos
      have : 0 < a / Real.pi * Real.log (mZ / s) := by positivity
      linarith
  · rintro rfl
    unfold cvlSM
    rw [if_neg (by norm_num)]
    exact ⟨Real.sqrt_pos.2 (by norm_num), Real.sq_sqrt (by norm_num)⟩

end Verif.Wilson

/-! ## C94 -/
namespace Verif.Plnu

/-- **C94 (width)** The leptonic width of kaon and pion times the life time is the branching ratio. -/
theorem C94_width (d : Inp) (np : Lep → Lep → Wc) (P : Mes) (lep : Lep) (ht : d.tau P ≠ 0) :
    gammaPlnu d np P lep * d.tau P = br d np P lep := div_mul_cancel₀ _ ht

end Verif.Plnu

/-! ## C95 -/
namespace Verif.Tau

/-- **C95 (normalisation)** Without new physics, `BR(tau -> l nu nu)` is the life time times `GF² m_tau⁵/(192 π³)` times the phase space
function, with the electromagnetic correction `1 + α/2π (25/4 - π²)`. -/
theorem C95_normalization (d : Inp) (lep : String) (hl : lep = "e" ∨ lep = "mu") (h : TauWc d lep fun _ _ => (0, 0))
    (hmu : MuWc d 0 0) (hm : 0 < d.me) (hmm : d.me < d.mmu) (hG : 0 < d.GF) :
    br d lep = .ok (d.tauTau * (d.GF ^ 2 * d.mtau ^ 5 / (192 * Real.pi ^ 3)) * F (massOf d lep ^ 2 / d.mtau ^ 2)
      * (1 + d.alphaE / (2 * Real.pi) * (25 / 4 - Real.pi ^ 2))) := by
  rw [C95_standard_model d lep hl h hmu hm hmm hG]
  congr 1
  have := Real.pi_ne_zero
  unfold pre
  field_simp
  ring

end Verif.Tau

/-! ## C96 -/
namespace Verif.Tau
open Verif.Common Filter Topology

/-- **C96 (massless vectors)** For a massless vector the squared amplitude is the limit of that of a massive one from which the part of the
polarisation sum proportional to the momenta is removed; that part is the decay into a scalar with the couplings given by the
divergence of the current. -/
theorem C96_massless_vector (M mf : ℝ) (g : Vcpl) :
    Tendsto (fun mv : ℝ => amp2 M mv mf g
      - scalarSq M mv mf (((M : ℂ) * g.gR - (mf : ℂ) * g.gL) / (mv : ℂ)) (((M : ℂ) * g.gL - (mf : ℂ) * g.gR) / (mv : ℂ))) (𝓝[≠] 0)
      (𝓝 (amp2 M 0 mf g)) := by
  set P : ℝ → ℝ := fun mv => (‖g.gL‖ ^ 2 + ‖g.gR‖ ^ 2) * (M ^ 2 + mf ^ 2 - mv ^ 2) - 8 * mf * M * (g.gR * conj g.gL).re
    + ((‖g.gTL - g.gtTL‖ ^ 2 + ‖g.gTR + g.gtTR‖ ^ 2) * ((mf ^ 2 - M ^ 2) ^ 2 - mv ^ 2 / 2 * (mf ^ 2 + M ^ 2 + mv ^ 2))
      - mv ^ 2 * (6 * mf * M * ((g.gTR + g.gtTR) * conj (g.gTL - g.gtTL)).re)) + ampI M mv mf g with hP
  have h0 : amp2 M 0 mf g = P 0 := by
    rw [amp2_eq, if_pos rfl]
    simp only [hP]
    unfold ampV0 ampT0 ampI0 ampI
    simp only [nsq, Complex.add_re, Complex.add_im, Complex.sub_re, Complex.sub_im, Complex.mul_re, Complex.mul_im,
      Complex.conj_re, Complex.conj_im, map_add, map_sub]
    ring
  rw [h0]
  have hc : Continuous P := by
    simp only [hP]; unfold ampI; fun_prop
  refine (hc.tendsto 0).mono_left nhdsWithin_le_nhds |>.congr' ?_
  filter_upwards [self_mem_nhdsWithin] with mv hmv
  have hmv : mv ≠ 0 := hmv
  rw [amp2_eq, if_neg hmv]
  simp only [hP]
  unfold scalarSq ampV ampT
  have e1 : ((M : ℂ) * g.gR - (mf : ℂ) * g.gL) / (mv : ℂ) + ((M : ℂ) * g.gL - (mf : ℂ) * g.gR) / (mv : ℂ)
      = (((M - mf) / mv : ℝ) : ℂ) * (g.gL + g.gR) := by push_cast; ring
  have e2 : ((M : ℂ) * g.gR - (mf : ℂ) * g.gL) / (mv : ℂ) - ((M : ℂ) * g.gL - (mf : ℂ) * g.gR) / (mv : ℂ)
      = (((M + mf) / mv : ℝ) : ℂ) * (g.gR - g.gL) := by push_cast; ring
  rw [e1, e2]
  simp only [nsq, Complex.add_re, Complex.add_im, Complex.sub_re, Complex.sub_im, Complex.mul_re, Complex.mul_im,
    Complex.conj_re, Complex.conj_im, map_add, map_sub, Complex.ofReal_re, Complex.ofReal_im]
  field_simp
  ring

/-- **C96 (tau -> pi0 l)** Only the isovector axial and pseudoscalar couplings enter; amplitudes of opposite parity do not interfere. -/
theorem C96_tauPi0 (tau mtau mP ml fP mu md : ℝ) (u d : Fcpl) (hP : 0 < mP) :
    let AL := (u.LR - u.LL) - (d.LR - d.LL)
    let AR := (u.RR - u.RL) - (d.RR - d.RL)
    let SL := (u.sLR - u.sLL) - (d.sLR - d.sLL)
    let SR := (u.sRR - u.sRL) - (d.sRR - d.sRL)
    let r : ℝ := mP ^ 2 / (mu + md)
    brTauPi0 tau mtau mP ml fP mu md u d = tau * gamma (fP ^ 2 / 32 *
      (((mtau + ml) ^ 2 - mP ^ 2) * ‖((mtau - ml : ℝ) : ℂ) * (AL + AR) + (r : ℂ) * (SL + SR)‖ ^ 2
        + ((mtau - ml) ^ 2 - mP ^ 2) * ‖((mtau + ml : ℝ) : ℂ) * (AL - AR) - (r : ℂ) * (SL - SR)‖ ^ 2)) mtau ml mP := by
  intro AL AR SL SR r
  set k : ℝ := fP / 2 / Real.sqrt 2 with hk
  have hk2 : k ^ 2 = fP ^ 2 / 8 := by
    rw [hk, div_pow, Real.sq_sqrt (by norm_num)]; ring
  have hs2 : ((Real.sqrt 2 : ℝ) : ℂ) ≠ 0 := by exact_mod_cast (Real.sqrt_pos.2 two_pos).ne'
  have e : brTauPi0 tau mtau mP ml fP mu md u d = tau * gammaFsf mtau mP ml
      ((k : ℂ) * ((r : ℂ) * SL + (-AL * (ml : ℂ) + AR * (mtau : ℂ)))) ((k : ℂ) * ((r : ℂ) * SR + (-AR * (ml : ℂ) + AL * (mtau : ℂ)))) := by
    unfold brTauPi0
    simp only [hk, AL, AR, SL, SR, r]
    push_cast
    congr 2 <;> ring
  rw [e, (C96_amplitudes mtau mP ml ⟨0, 0, 0, 0, 0, 0⟩ _ _ hP.ne').1]
  unfold scalarSq
  have a1 : (k : ℂ) * ((r : ℂ) * SL + (-AL * (ml : ℂ) + AR * (mtau : ℂ))) + (k : ℂ) * ((r : ℂ) * SR + (-AR * (ml : ℂ) + AL * (mtau : ℂ)))
      = (k : ℂ) * (((mtau - ml : ℝ) : ℂ) * (AL + AR) + (r : ℂ) * (SL + SR)) := by push_cast; ring
  have a2 : (k : ℂ) * ((r : ℂ) * SL + (-AL * (ml : ℂ) + AR * (mtau : ℂ))) - (k : ℂ) * ((r : ℂ) * SR + (-AR * (ml : ℂ) + AL * (mtau : ℂ)))
      = -(k : ℂ) * (((mtau + ml : ℝ) : ℂ) * (AL - AR) - (r : ℂ) * (SL - SR)) := by push_cast; ring
  rw [a1, a2]
  simp only [norm_mul, norm_neg, mul_pow, Complex.norm_real, Real.norm_eq_abs, sq_abs, hk2]
  congr 2; ring

/-- **C96 (tau -> V l)** In terms of the sums of vector couplings, tensor couplings and photon dipoles: for each parity the longitudinal and the
transverse amplitudes. -/
theorem C96_tauV (tau mtau mV ml fV fTV KV : ℝ) (g : Fin 6 → ℂ) (cTaul cLtau : ℂ) (hV : 0 < mV) :
    let v := ((mV * fV / 2 : ℝ) : ℂ) * (g 0 + g 1 + (g 2 + g 3))
    let a := ((mV * fV / 2 : ℝ) : ℂ) * (g 0 + g 1 - (g 2 + g 3))
    let TL := 2 * ((fTV : ℂ) * conj (g 4) + ((fV * KV / mV : ℝ) : ℂ) * conj cLtau)
    let TR := 2 * ((fTV : ℂ) * g 5 + ((fV * KV / mV : ℝ) : ℂ) * cTaul)
    brTauV tau mtau mV ml fV fTV KV g cTaul cLtau = tau * gamma (
      ((mtau - ml) ^ 2 - mV ^ 2) / 4 * (‖(((mtau + ml) / mV : ℝ) : ℂ) * v + (mV : ℂ) * (TL + TR)‖ ^ 2
        + 2 * ‖v + ((mtau + ml : ℝ) : ℂ) * (TL + TR)‖ ^ 2)
      + ((mtau + ml) ^ 2 - mV ^ 2) / 4 * (‖(((mtau - ml) / mV : ℝ) : ℂ) * a - (mV : ℂ) * (TL - TR)‖ ^ 2
        + 2 * ‖a - ((mtau - ml : ℝ) : ℂ) * (TL - TR)‖ ^ 2)) mtau ml mV := by
  intro v a TL TR
  simp only [brTauV]
  rw [(C96_amplitudes mtau mV ml _ 0 0 hV.ne').2.1]
  unfold vectorSq
  have e1 : ((mV * fV / 2 : ℝ) : ℂ) * (g 0 + g 1) + ((mV * fV / 2 : ℝ) : ℂ) * (g 2 + g 3) = v := by simp only [v]; ring
  have e2 : ((mV * fV / 2 : ℝ) : ℂ) * (g 0 + g 1) - ((mV * fV / 2 : ℝ) : ℂ) * (g 2 + g 3) = a := by simp only [a]; ring
  have e3 : (fTV : ℂ) * conj (g 4) + ((2 * fV * KV / mV : ℝ) : ℂ) * conj cLtau - -(fTV : ℂ) * conj (g 4) = TL := by
    simp only [TL]; push_cast; ring
  have e4 : (fTV : ℂ) * g 5 + ((2 * fV * KV / mV : ℝ) : ℂ) * cTaul + (fTV : ℂ) * g 5 = TR := by
    simp only [TR]; push_cast; ring
  simp only [e1, e2, e3, e4]

end Verif.Tau

/-! ## C97 -/
namespace Verif.Tau3l
open Verif.Py

/-- Coefficients of the general effective Lagrangian, with flavour indices: dipoles, left-left, left-right and right-right vector
operators, scalar operators. (Specification.) -/
structure Tensors where
  D : String → String → ℂ
  LL : String → String → String → String → ℂ
  LR : String → String → String → String → ℂ
  RR : String → String → String → String → ℂ
  S : String → String → String → String → ℂ

/-- The symmetries of the coefficients: hermiticity, exchange of identical currents, and Fierz identities.
(Specification.) -/
structure Tensors.Symm (T : Tensors) : Prop where
  llx : ∀ a b c d, T.LL a b c d = T.LL c d a b
  llf : ∀ a b c d, T.LL a b c d = T.LL a d c b
  llh : ∀ a b c d, conj (T.LL a b c d) = T.LL b a d c
  lrh : ∀ a b c d, conj (T.LR a b c d) = T.LR b a d c
  rrx : ∀ a b c d, T.RR a b c d = T.RR c d a b
  rrf : ∀ a b c d, T.RR a b c d = T.RR a d c b
  rrh : ∀ a b c d, conj (T.RR a b c d) = T.RR b a d c
  sx : ∀ a b c d, T.S a b c d = T.S c d a b

/-- The names of the coefficients. (Specification.) -/
structure Tensors.Names (T : Tensors) (wc : String → ℂ) : Prop where
  d : ∀ a b, wc ("Cgamma_" ++ a ++ b) = T.D a b
  ll : ∀ a b c d, wc ("CVLL_" ++ a ++ b ++ c ++ d) = T.LL a b c d
  lr : ∀ a b c d, wc ("CVLR_" ++ a ++ b ++ c ++ d) = T.LR a b c d
  rr : ∀ a b c d, wc ("CVRR_" ++ a ++ b ++ c ++ d) = T.RR a b c d
  s : ∀ a b c d, wc ("CSRR_" ++ a ++ b ++ c ++ d) = T.S a b c d

/-- Effective coefficients of `i → f k k̄` with `f ≠ k`. (Specification.) -/
noncomputable def Tensors.eff (T : Tensors) (x : ℝ) (i f k : String) : Weff where
  C7 := x * T.D i f
  C7p := x * conj (T.D f i)
  VLL := T.LL k k i f
  VLR := T.LR i f k k
  VRL := T.LR k k i f
  VRR := T.RR k k i f
  SLL := conj (T.S k k f i - T.S f k k i / 2)
  SLR := -2 * T.LR i k k f
  SRL := -2 * T.LR k f i k
  SRR := T.S k k i f - T.S i k k f / 2
  TLL := -conj (T.S f k k i) / 8
  TRR := -T.S i k k f / 8

/-- Effective coefficients of `i → f f f̄`. (Specification.) -/
noncomputable def Tensors.effSame (T : Tensors) (x : ℝ) (i f : String) : Weff where
  C7 := x * T.D i f
  C7p := x * conj (T.D f i)
  VLL := T.LL f f i f
  VLR := T.LR i f f f
  VRL := T.LR f f i f
  VRR := T.RR f f i f
  SLL := conj (T.S f f f i)
  SLR := 0
  SRL := 0
  SRR := T.S f f i f
  TLL := 0
  TRR := 0

/-- Effective coefficients of `i → f f k̄` with `f ≠ k`. (Specification.) -/
noncomputable def Tensors.effTwo (T : Tensors) (i f k : String) : Weff where
  C7 := 0
  C7p := 0
  VLL := T.LL k f i f
  VLR := T.LR i f k f
  VRL := T.LR k f i f
  VRR := T.RR k f i f
  SLL := conj (T.S f k f i)
  SLR := 0
  SRL := 0
  SRR := T.S k f i f
  TLL := 0
  TRR := 0

/-- **C97 (flavour covariance)** The seven decays are instances of three formulas in the flavour-indexed coefficients of the effective
Lagrangian, whatever the coefficients, as long as they have the symmetries of the Lagrangian. -/
theorem C97_flavour (d : Inp) (T : Tensors) (hs : T.Symm) (wc : String → String → ℂ) (hn : ∀ s, T.Names (wc s))
    (hw : ∀ s ∈ ["mutau", "taue", "mue", "etauemu", "muemutau"], d.getWc s = .ok (wc s)) :
    let N := d.tauTau * d.m "tau" ^ 5 / (1536 * Real.pi ^ 3)
    let x := Real.sqrt (4 * Real.pi * d.alpha) / d.m "tau"
    let y := Real.sqrt (4 * Real.pi * d.alpha) / d.m "mu"
    br d "mu" "e" "e" = .ok (N * brTaumuee (d.m "tau") (d.m "e") (T.eff x "tau" "mu" "e")) ∧
    br d "e" "mu" "mu" = .ok (N * brTaumuee (d.m "tau") (d.m "mu") (T.eff x "tau" "e" "mu")) ∧
    br d "mu" "mu" "mu" = .ok (N * brTau3mu (d.m "tau") (d.m "mu") (T.effSame x "tau" "mu")) ∧
    br d "e" "e" "e" = .ok (N * brTau3mu (d.m "tau") (d.m "e") (T.effSame x "tau" "e")) ∧
    brMu3e d = .ok (1 / (8 * d.GF ^ 2) * brTau3mu (d.m "mu") (d.m "e") (T.effSame y "mu" "e")) ∧
    br d "e" "mu" "e" = .ok (N * brTaumuemu (T.effTwo "tau" "e" "mu")) ∧
    br d "mu" "e" "mu" = .ok (N * brTaumuemu (T.effTwo "tau" "mu" "e")) := by
  intro N x y
  have hN : ∀ r, d.tauTau * d.m "tau" ^ 5 / 192 / 8 / Real.pi ^ 3 * r = N * r := by
    intro r; simp only [N]; have := Real.pi_ne_zero; field_simp; ring
  have w1 := hw "mutau" (by simp)
  have w2 := hw "taue" (by simp)
  have w3 := hw "mue" (by simp)
  have w4 := hw "etauemu" (by simp)
  have w5 := hw "muemutau" (by simp)
  have key : ∀ l1 l2 l3 sec (W : (String → ℂ) → Weff) (R : Weff → ℝ), sectorOf "tau" l1 l2 l3 = .ok sec →
      d.getWc sec = .ok (wc sec) → (∀ wc, cases wc x "tau" l1 l2 l3 = .ok (W wc)) → (∀ w, rateOf d l1 l2 l3 w = .ok (R w)) →
      br d l1 l2 l3 = .ok (N * R (W (wc sec))) := by
    intro l1 l2 l3 sec W R h1 h2 h3 h4
    unfold br wcEff
    rw [h1]
    show (d.getWc sec >>= _) >>= _ = _
    rw [h2]
    show cases (wc sec) x "tau" l1 l2 l3 >>= _ = _
    rw [h3]
    show rateOf d l1 l2 l3 (W (wc sec)) >>= _ = _
    rw [h4, ← hN]
    rfl
  have same_eq : ∀ s x a b, same (wc s) x a b = T.effSame x a b := by
    intro s x a b
    unfold same Tensors.effSame
    simp only [(hn s).d, (hn s).ll, (hn s).lr, (hn s).rr, (hn s).s]
  have muee_eq : ∀ s, muee (wc s) x = T.eff x "tau" "mu" "e" := by
    intro s
    have h := hn s
    unfold muee Tensors.eff
    rw [show "Cgamma_taumu" = "Cgamma_" ++ "tau" ++ "mu" by decide +kernel, show "Cgamma_mutau" = "Cgamma_" ++ "mu" ++ "tau" by decide +kernel,
      show "CVLL_eetaumu" = "CVLL_" ++ "e" ++ "e" ++ "tau" ++ "mu" by decide +kernel,
      show "CVLR_taumuee" = "CVLR_" ++ "tau" ++ "mu" ++ "e" ++ "e" by decide +kernel,
      show "CVLR_eetaumu" = "CVLR_" ++ "e" ++ "e" ++ "tau" ++ "mu" by decide +kernel,
      show "CVRR_eetaumu" = "CVRR_" ++ "e" ++ "e" ++ "tau" ++ "mu" by decide +kernel,
      show "CSRR_eetaumu" = "CSRR_" ++ "e" ++ "e" ++ "tau" ++ "mu" by decide +kernel,
      show "CSRR_taueemu" = "CSRR_" ++ "tau" ++ "e" ++ "e" ++ "mu" by decide +kernel,
      show "CSRR_eemutau" = "CSRR_" ++ "e" ++ "e" ++ "mu" ++ "tau" by decide +kernel,
      show "CSRR_mueetau" = "CSRR_" ++ "mu" ++ "e" ++ "e" ++ "tau" by decide +kernel,
      show "CVLR_taueemu" = "CVLR_" ++ "tau" ++ "e" ++ "e" ++ "mu" by decide +kernel,
      show "CVLR_mueetau" = "CVLR_" ++ "mu" ++ "e" ++ "e" ++ "tau" by decide +kernel]
    simp only [h.d, h.ll, h.lr, h.rr, h.s, map_sub, map_div₀, map_ofNat, hs.lrh]
  have emumu_eq : ∀ s, emumu (wc s) x = T.eff x "tau" "e" "mu" := by
    intro s
    have h := hn s
    unfold emumu Tensors.eff
    rw [show "Cgamma_taue" = "Cgamma_" ++ "tau" ++ "e" by decide +kernel, show "Cgamma_etau" = "Cgamma_" ++ "e" ++ "tau" by decide +kernel,
      show "CVLL_muetaumu" = "CVLL_" ++ "mu" ++ "e" ++ "tau" ++ "mu" by decide +kernel,
      show "CVLR_tauemumu" = "CVLR_" ++ "tau" ++ "e" ++ "mu" ++ "mu" by decide +kernel,
      show "CVLR_mumutaue" = "CVLR_" ++ "mu" ++ "mu" ++ "tau" ++ "e" by decide +kernel,
      show "CVRR_muetaumu" = "CVRR_" ++ "mu" ++ "e" ++ "tau" ++ "mu" by decide +kernel,
      show "CSRR_tauemumu" = "CSRR_" ++ "tau" ++ "e" ++ "mu" ++ "mu" by decide +kernel,
      show "CSRR_muetaumu" = "CSRR_" ++ "mu" ++ "e" ++ "tau" ++ "mu" by decide +kernel,
      show "CSRR_mumuetau" = "CSRR_" ++ "mu" ++ "mu" ++ "e" ++ "tau" by decide +kernel,
      show "CSRR_emumutau" = "CSRR_" ++ "e" ++ "mu" ++ "mu" ++ "tau" by decide +kernel,
      show "CVLR_taumumue" = "CVLR_" ++ "tau" ++ "mu" ++ "mu" ++ "e" by decide +kernel,
      show "CVLR_muetaumu" = "CVLR_" ++ "mu" ++ "e" ++ "tau" ++ "mu" by decide +kernel]
    simp only [h.d, h.ll, h.lr, h.rr, h.s, map_sub, map_div₀, map_ofNat]
    rw [hs.llf "mu" "e" "tau" "mu", hs.rrf "mu" "e" "tau" "mu", hs.sx "tau" "e" "mu" "mu", hs.sx "mu" "e" "tau" "mu"]
  have emue_eq : ∀ s, emue (wc s) = T.effTwo "tau" "e" "mu" := by
    intro s
    have h := hn s
    unfold emue Tensors.effTwo
    rw [show "CVLL_muetaue" = "CVLL_" ++ "mu" ++ "e" ++ "tau" ++ "e" by decide +kernel,
      show "CVLR_tauemue" = "CVLR_" ++ "tau" ++ "e" ++ "mu" ++ "e" by decide +kernel,
      show "CVLR_muetaue" = "CVLR_" ++ "mu" ++ "e" ++ "tau" ++ "e" by decide +kernel,
      show "CVRR_muetaue" = "CVRR_" ++ "mu" ++ "e" ++ "tau" ++ "e" by decide +kernel,
      show "CSRR_muetaue" = "CSRR_" ++ "mu" ++ "e" ++ "tau" ++ "e" by decide +kernel,
      show "CSRR_emuetau" = "CSRR_" ++ "e" ++ "mu" ++ "e" ++ "tau" by decide +kernel]
    simp only [h.ll, h.lr, h.rr, h.s]
  have muemu_eq : ∀ s, brTaumuemu (muemu (wc s)) = brTaumuemu (T.effTwo "tau" "mu" "e") := by
    intro s
    have h := hn s
    unfold muemu Tensors.effTwo brTaumuemu
    rw [show "CVLL_muemutau" = "CVLL_" ++ "mu" ++ "e" ++ "mu" ++ "tau" by decide +kernel,
      show "CVLR_taumuemu" = "CVLR_" ++ "tau" ++ "mu" ++ "e" ++ "mu" by decide +kernel,
      show "CVLR_muemutau" = "CVLR_" ++ "mu" ++ "e" ++ "mu" ++ "tau" by decide +kernel,
      show "CVRR_muemutau" = "CVRR_" ++ "mu" ++ "e" ++ "mu" ++ "tau" by decide +kernel,
      show "CSRR_muemutau" = "CSRR_" ++ "mu" ++ "e" ++ "mu" ++ "tau" by decide +kernel,
      show "CSRR_emutaumu" = "CSRR_" ++ "e" ++ "mu" ++ "tau" ++ "mu" by decide +kernel]
    simp only [h.ll, h.lr, h.rr, h.s, hs.llh, hs.lrh, hs.rrh, RCLike.norm_conj]
    ring
  refine ⟨?_, ?_, ?_, ?_, ?_, ?_, ?_⟩
  · rw [key "mu" "e" "e" "mutau" (fun wc => muee wc x) _ rfl w1 (fun _ => rfl) (fun _ => rfl), muee_eq]
  · rw [key "e" "mu" "mu" "taue" (fun wc => emumu wc x) _ rfl w2 (fun _ => rfl) (fun _ => rfl), emumu_eq]
  · rw [key "mu" "mu" "mu" "mutau" (fun wc => same wc x "tau" "mu") _ rfl w1 (fun _ => rfl) (fun _ => rfl), same_eq]
  · rw [key "e" "e" "e" "taue" (fun wc => same wc x "tau" "e") _ rfl w2 (fun _ => rfl) (fun _ => rfl), same_eq]
  · unfold brMu3e wcEff
    show (d.getWc "mue" >>= _) >>= _ = _
    rw [w3, ← same_eq "mue"]
    rfl
  · rw [key "e" "mu" "e" "etauemu" (fun wc => emue wc) _ rfl w4 (fun _ => rfl) (fun _ => rfl), emue_eq]
  · rw [key "mu" "e" "mu" "muemutau" (fun wc => muemu wc) _ rfl w5 (fun _ => rfl) (fun _ => rfl), muemu_eq]

/-- Coefficients with the symmetries and names exist. -/
example : (⟨fun _ _ => 1, fun _ _ _ _ => 1, fun _ _ _ _ => 1, fun _ _ _ _ => 1, fun _ _ _ _ => 1⟩ : Tensors).Symm ∧
    (⟨fun _ _ => 1, fun _ _ _ _ => 1, fun _ _ _ _ => 1, fun _ _ _ _ => 1, fun _ _ _ _ => 1⟩ : Tensors).Names fun _ => 1 := by
  constructor <;> constructor <;> simp

end Verif.Tau3l
