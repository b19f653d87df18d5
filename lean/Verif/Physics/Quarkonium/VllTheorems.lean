import Verif.Physics.Quarkonium.Vll
import Verif.Physics.Kdecays.KllTheorems
/-!
# Theorems about `V → ℓ₁⁺ ℓ₂⁻` of quarkonium (C114)
-/
set_option linter.unusedVariables false
set_option linter.unusedSimpArgs false
set_option linter.unusedSectionVars false
namespace Verif.Quarkonium
open Verif.Py Verif.Running Verif.Common Complex

/-! ## Specification -/

/-- Sum over helicities of `|amplitude|²` of a spin-one meson decaying into two leptons with relative masses `y1, y2`,
for the vector and tensor couplings `a` of left- and right-handed leptons: two transverse and one longitudinal state for
each of the two parities. (Specification.) -/
noncomputable def helicitySum (a : VT) (y1 y2 : ℝ) : ℝ :=
  let s : ℂ := ((y1 + y2 : ℝ) : ℂ)
  let δ : ℂ := ((y1 - y2 : ℝ) : ℂ)
  (1 - (y1 - y2) ^ 2) / 24 * (2 * ‖(a.VL + a.VR) + 4 * s * (a.TL + a.TR)‖ ^ 2 + ‖s * (a.VL + a.VR) + 4 * (a.TL + a.TR)‖ ^ 2)
  + (1 - (y1 + y2) ^ 2) / 24 * (2 * ‖(a.VL - a.VR) + 4 * δ * (a.TL - a.TR)‖ ^ 2 + ‖δ * (a.VL - a.VR) + 4 * (a.TL - a.TR)‖ ^ 2)

/-- The decay rate of a meson of mass `M` and lifetime `τ` in units of its total rate. (Specification.) -/
noncomputable def brSpec (M τ m1 m2 : ℝ) (a : VT) : ℝ :=
  τ * M / (16 * Real.pi) * Real.sqrt ((1 - (m1 + m2) ^ 2 / M ^ 2) * (1 - (m1 - m2) ^ 2 / M ^ 2)) * helicitySum a (m1 / M) (m2 / M)

/-- The couplings of the conjugate channel: complex conjugates, with the tensor chiralities exchanged. (Specification.) -/
noncomputable def conjVT (a : VT) : VT :=
  ⟨(starRingEnd ℂ) a.VL, (starRingEnd ℂ) a.VR, (starRingEnd ℂ) a.TR, (starRingEnd ℂ) a.TL⟩

/-- The couplings `e_1 → τ/μ` first: `l1` is the heavier lepton name that comes first in the vector coefficients. (Specification.) -/
noncomputable def lfvSpec (d : Inp) (V qq : String) (Q : ℝ) (sec h l : String) : VT :=
  let m : ℂ := d.par ("m_" ++ V)
  let f : ℂ := d.par ("f_" ++ V)
  let fT : ℂ := d.par ("fT_" ++ V)
  let e : ℂ := Real.sqrt (4 * Real.pi * d.aem V)
  let C := d.wc sec
  { VL := f * m * (C ("CVLL_" ++ h ++ l ++ qq) + C ("CVLR_" ++ h ++ l ++ qq))
    VR := f * m * (C ("CVRR_" ++ h ++ l ++ qq) + C ("CVLR_" ++ qq ++ h ++ l))
    TR := fT * m * C ("CTRR_" ++ h ++ l ++ qq) - e * Q * f * C ("Cgamma_" ++ l ++ h)
    TL := (starRingEnd ℂ) (fT * m * C ("CTRR_" ++ l ++ h ++ qq) - e * Q * f * C ("Cgamma_" ++ h ++ l)) }

/-- The three flavour-violating channels: sector, lepton named first, lepton named second. (Specification.) -/
def lfvChannels : List (String × String × String) := [("mue", "mu", "e"), ("taue", "tau", "e"), ("mutau", "tau", "mu")]

/-- The quark pair of each meson. (Specification.) -/
def quarksOf (V : String) : String := if V = "J/psi" ∨ V = "psi(2S)" then "cc" else "bb"

/-- The couplings of a flavour-conserving channel: photon exchange plus four-fermion operators normalised to `4 G_F/√2`,
and the lepton dipole. (Specification.) -/
noncomputable def lfcSpec (d : Inp) (V qq : String) (Q : ℝ) (l : String) : VT :=
  let m : ℂ := d.par ("m_" ++ V)
  let f : ℂ := d.par ("f_" ++ V)
  let fT : ℂ := d.par ("fT_" ++ V)
  let e : ℂ := Real.sqrt (4 * Real.pi * d.aem V)
  let N : ℂ := 4 * d.par "GF" / Real.sqrt 2
  let ph : ℂ := 2 * Q * (4 * Real.pi * d.aem V) / m ^ 2
  let C := d.wc "dF=0"
  let T : ℂ := N * (fT * m * C ("CTRR_" ++ l ++ l ++ qq) - Q * f * C ("C7_" ++ l ++ l) * (e ^ 2 * d.par ("m_" ++ l) / (16 * Real.pi ^ 2)))
  { VL := f * m * (N * (C ("CVLL_" ++ l ++ l ++ qq) + C ("CVLR_" ++ l ++ l ++ qq)) - ph)
    VR := f * m * (N * (C ("CVRR_" ++ l ++ l ++ qq) + C ("CVLR_" ++ qq ++ l ++ l)) - ph)
    TR := T
    TL := (starRingEnd ℂ) T }

/-- A decay that is kinematically allowed. (Specification.) -/
structure Phys (d : Inp) (V l1 l2 : String) : Prop where
  mV : 0 < d.par ("m_" ++ V)
  m1 : 0 ≤ d.par ("m_" ++ l1)
  m2 : 0 ≤ d.par ("m_" ++ l2)
  thr : d.par ("m_" ++ l1) + d.par ("m_" ++ l2) ≤ d.par ("m_" ++ V)

/-! ## Lemmas -/

theorem nsq (z : ℂ) : ‖z‖ ^ 2 = z.re ^ 2 + z.im ^ 2 := by
  rw [← normSq_eq_norm_sq, normSq_apply]; ring

theorem ampSq_sos (a : VT) (y1 y2 : ℝ) : ampSq a y1 y2 = helicitySum a y1 y2 := by
  obtain ⟨⟨a1, a2⟩, ⟨b1, b2⟩, ⟨c1, c2⟩, ⟨d1, d2⟩⟩ := a
  unfold ampSq helicitySum
  simp only [nsq, add_re, add_im, sub_re, sub_im, mul_re, mul_im, conj_re, conj_im, ofReal_re, ofReal_im, re_ofNat, im_ofNat]
  ring

theorem sos_nonneg (a : VT) {y1 y2 : ℝ} (h1 : 0 ≤ 1 - (y1 + y2) ^ 2) (h2 : 0 ≤ 1 - (y1 - y2) ^ 2) : 0 ≤ helicitySum a y1 y2 := by
  unfold helicitySum
  have := div_nonneg h1 (show (0:ℝ) ≤ 24 by norm_num)
  have := div_nonneg h2 (show (0:ℝ) ≤ 24 by norm_num)
  positivity

theorem conj_sum (a : VT) (y1 y2 : ℝ) : ampSq (conjVT a) y2 y1 = ampSq a y1 y2 := by
  obtain ⟨⟨a1, a2⟩, ⟨b1, b2⟩, ⟨c1, c2⟩, ⟨d1, d2⟩⟩ := a
  unfold ampSq conjVT
  simp only [nsq, add_re, add_im, sub_re, sub_im, mul_re, mul_im, conj_re, conj_im, ofReal_re, ofReal_im, re_ofNat, im_ofNat]
  ring

theorem kallen1 (M a b : ℝ) : kallen 1 ((a / M) ^ 2) ((b / M) ^ 2) = (1 - (a + b) ^ 2 / M ^ 2) * (1 - (a - b) ^ 2 / M ^ 2) := by
  unfold kallen; simp only [div_pow]; ring

theorem lambda1 {M a b : ℝ} (h : 0 ≤ (1 - (a + b) ^ 2 / M ^ 2) * (1 - (a - b) ^ 2 / M ^ 2)) :
    lambdaK 1 ((a / M) ^ 2) ((b / M) ^ 2) = (1 - (a + b) ^ 2 / M ^ 2) * (1 - (a - b) ^ 2 / M ^ 2) := by
  unfold lambdaK; rw [kallen1, if_neg (not_lt.2 h)]

theorem mq_ok {V : String} (hV : V ∈ mesonsV) : mesonQuark V = .ok (quarksOf V) := by
  revert V; decide

/-- Value of the branching ratio once the couplings are known. -/
theorem br_of (d : Inp) (V : String) (Q : ℝ) (l1 l2 : String) (a : VT) (hm : d.par ("m_" ++ V) ≠ 0)
    (ha : (if l1 = l2 then getVTlfc d V Q l1 else getVTlfv d V Q l1 l2) = .ok a) :
    vllBr d V Q l1 l2 = .ok (d.par ("tau_" ++ V) * d.par ("m_" ++ V) / (16 * Real.pi)
      * Real.sqrt (lambdaK 1 ((d.par ("m_" ++ l1) / d.par ("m_" ++ V)) ^ 2) ((d.par ("m_" ++ l2) / d.par ("m_" ++ V)) ^ 2))
      * ampSq a (d.par ("m_" ++ l1) / d.par ("m_" ++ V)) (d.par ("m_" ++ l2) / d.par ("m_" ++ V))) := by
  unfold vllBr
  simp only [Mixing.pyDiv_ne hm, Bind.bind, Except.bind, pure, Except.pure]
  by_cases h : l1 = l2
  · rw [if_pos h] at ha ⊢; rw [ha]
  · rw [if_neg h] at ha ⊢; rw [ha]

theorem br_phys (d : Inp) (V : String) (Q : ℝ) (l1 l2 : String) (a : VT) (H : Phys d V l1 l2)
    (ha : (if l1 = l2 then getVTlfc d V Q l1 else getVTlfv d V Q l1 l2) = .ok a) :
    vllBr d V Q l1 l2 = .ok (brSpec (d.par ("m_" ++ V)) (d.par ("tau_" ++ V)) (d.par ("m_" ++ l1)) (d.par ("m_" ++ l2)) a) := by
  rw [br_of d V Q l1 l2 a H.mV.ne' ha, ampSq_sos, lambda1 (mul_nonneg (Kll.rel_p H.mV H.m1 H.m2 H.thr) (Kll.rel_m H.mV H.m1 H.m2 H.thr))]
  rfl

theorem spec_nonneg {M τ m1 m2 : ℝ} (a : VT) (hM : 0 < M) (hτ : 0 ≤ τ) (h1 : 0 ≤ m1) (h2 : 0 ≤ m2) (h : m1 + m2 ≤ M) :
    0 ≤ brSpec M τ m1 m2 a := by
  unfold brSpec
  have hp := Kll.rel_p hM h1 h2 h
  have hm := Kll.rel_m hM h1 h2 h
  have hs : 0 ≤ helicitySum a (m1 / M) (m2 / M) := by
    apply sos_nonneg
    · rw [← add_div, div_pow]; exact hp
    · rw [← sub_div, div_pow]; exact hm
  have := Real.pi_pos
  positivity

theorem conj_spec (a : VT) (M τ m1 m2 : ℝ) : brSpec M τ m2 m1 (conjVT a) = brSpec M τ m1 m2 a := by
  unfold brSpec
  rw [← ampSq_sos, conj_sum, ampSq_sos]
  congr 3
  ring

theorem conj_conj (a : VT) : conjVT (conjVT a) = a := by
  unfold conjVT; simp

/-- The couplings of both orderings of each flavour-violating channel. -/
theorem lfv_of (d : Inp) (V : String) (Q : ℝ) (hV : V ∈ mesonsV) (c : String × String × String) (hc : c ∈ lfvChannels) :
    getVTlfv d V Q c.2.1 c.2.2 = .ok (lfvSpec d V (quarksOf V) Q c.1 c.2.1 c.2.2) ∧
    getVTlfv d V Q c.2.2 c.2.1 = .ok (conjVT (lfvSpec d V (quarksOf V) Q c.1 c.2.1 c.2.2)) ∧ c.2.1 ≠ c.2.2 := by
  simp only [lfvChannels, List.mem_cons, List.not_mem_nil, or_false] at hc
  have e1 : wcSector "mu" "e" = .ok "mue" := by decide
  have e2 : wcSector "e" "mu" = .ok "mue" := by decide
  have e3 : wcSector "tau" "e" = .ok "taue" := by decide
  have e4 : wcSector "e" "tau" = .ok "taue" := by decide
  have e5 : wcSector "tau" "mu" = .ok "mutau" := by decide
  have e6 : wcSector "mu" "tau" = .ok "mutau" := by decide
  rcases hc with rfl | rfl | rfl <;> refine ⟨?_, ?_, by decide⟩ <;> unfold getVTlfv <;>
    simp only [e1, e2, e3, e4, e5, e6, mq_ok hV, Bind.bind, Except.bind, pure, Except.pure, bilinear, conjIf] <;>
    show Except.ok _ = Except.ok _ <;> congr 1 <;>
    simp [lfvSpec, conjVT, conj_ofReal, String.append_assoc]

theorem lfc_of (d : Inp) (V : String) (Q : ℝ) (hV : V ∈ mesonsV) (l : String) (hl : l ∈ ["e", "mu", "tau"])
    (hm : d.par ("m_" ++ V) ≠ 0) : getVTlfc d V Q l = .ok (lfcSpec d V (quarksOf V) Q l) := by
  have hs : wcSector l l = .ok "dF=0" := by revert l; decide
  unfold getVTlfc
  simp only [hs, mq_ok hV, Mixing.pyDiv_ne (pow_ne_zero 2 hm), Bind.bind, Except.bind, pure, Except.pure]
  show Except.ok _ = Except.ok _
  congr 1
  have eT : ((d.par ("fT_" ++ V) : ℂ)) * (d.par ("m_" ++ V) : ℂ) * d.wc "dF=0" ("CTRR_" ++ (l ++ l) ++ quarksOf V) * ((4 * d.par "GF" / Real.sqrt 2 : ℝ) : ℂ)
      - (Real.sqrt (4 * Real.pi * d.aem V) : ℂ) * (Q : ℂ) * (d.par ("f_" ++ V) : ℂ) * d.wc "dF=0" ("C7_" ++ (l ++ l))
        * ((4 * d.par "GF" / Real.sqrt 2 * Real.sqrt (4 * Real.pi * d.aem V) / (16 * Real.pi ^ 2) * d.par ("m_" ++ l) : ℝ) : ℂ)
      = (lfcSpec d V (quarksOf V) Q l).TR := by
    unfold lfcSpec
    simp only [String.append_assoc]
    push_cast
    ring
  have e1 : (lfcSpec d V (quarksOf V) Q l).TL = (starRingEnd ℂ) (lfcSpec d V (quarksOf V) Q l).TR := rfl
  rw [show lfcSpec d V (quarksOf V) Q l = ⟨(lfcSpec d V (quarksOf V) Q l).VL, (lfcSpec d V (quarksOf V) Q l).VR,
    (lfcSpec d V (quarksOf V) Q l).TL, (lfcSpec d V (quarksOf V) Q l).TR⟩ from rfl, e1, ← eT]
  congr 1
  · unfold lfcSpec; simp only [String.append_assoc]; push_cast; ring
  · unfold lfcSpec; simp only [String.append_assoc]; push_cast; ring

/-! ## Theorems -/

/-- Both orderings of a flavour-violating channel have the same branching ratio: lifetime times two-body phase space times
the sum over helicities of the squared amplitude built from the coefficients of the channel's sector; the sum of the two
is exactly twice that. -/
theorem C114_lfv_rate (d : Inp) (V : String) (Q : ℝ) (hV : V ∈ mesonsV) (sec h l : String) (hc : (sec, h, l) ∈ lfvChannels)
    (H : Phys d V h l) :
    let x := brSpec (d.par ("m_" ++ V)) (d.par ("tau_" ++ V)) (d.par ("m_" ++ h)) (d.par ("m_" ++ l)) (lfvSpec d V (quarksOf V) Q sec h l)
    vllBr d V Q h l = .ok x ∧ vllBr d V Q l h = .ok x ∧ vllBrComb d V Q h l = .ok (2 * x) ∧ vllBrComb d V Q l h = .ok (2 * x) := by
  intro x
  obtain ⟨a1, a2, hne⟩ := lfv_of d V Q hV _ hc
  have H' : Phys d V l h := ⟨H.mV, H.m2, H.m1, by rw [add_comm]; exact H.thr⟩
  have b1 : vllBr d V Q h l = .ok x := by
    refine br_phys d V Q h l _ H ?_
    rw [if_neg hne]; exact a1
  have b2 : vllBr d V Q l h = .ok x := by
    rw [br_phys d V Q l h (conjVT (lfvSpec d V (quarksOf V) Q sec h l)) H' (by rw [if_neg (Ne.symm hne)]; exact a2), conj_spec]
  refine ⟨b1, b2, ?_, ?_⟩ <;> unfold vllBrComb <;> rw [b1, b2] <;>
    simp only [Bind.bind, Except.bind, pure, Except.pure] <;> congr 1 <;> ring

/-- The branching ratio of a flavour-conserving channel: photon exchange, four-fermion operators and the lepton dipole
interfere in one helicity sum. -/
theorem C114_lfc_rate (d : Inp) (V : String) (Q : ℝ) (hV : V ∈ mesonsV) (l : String) (hl : l ∈ ["e", "mu", "tau"]) (H : Phys d V l l) :
    vllBr d V Q l l = .ok (brSpec (d.par ("m_" ++ V)) (d.par ("tau_" ++ V)) (d.par ("m_" ++ l)) (d.par ("m_" ++ l)) (lfcSpec d V (quarksOf V) Q l)) := by
  refine br_phys d V Q l l _ H ?_
  rw [if_pos rfl]; exact lfc_of d V Q hV l hl H.mV.ne'

/-- Without contributions beyond photon exchange the van Royen–Weisskopf formula comes out:
`Γ(V → ℓℓ) = 4π α² Q² f² / (3 M) · √(1 − 4x) (1 + 2x)` with `x = m_ℓ²/M²`. -/
theorem C114_photon (d : Inp) (V : String) (Q : ℝ) (hV : V ∈ mesonsV) (l : String) (hl : l ∈ ["e", "mu", "tau"]) (H : Phys d V l l)
    (hwc : ∀ C, d.wc "dF=0" C = 0) :
    vllBr d V Q l l = .ok (d.par ("tau_" ++ V) * (4 * Real.pi * d.aem V ^ 2 * Q ^ 2 * d.par ("f_" ++ V) ^ 2 / (3 * d.par ("m_" ++ V)))
      * (Real.sqrt (1 - 4 * (d.par ("m_" ++ l) ^ 2 / d.par ("m_" ++ V) ^ 2)) * (1 + 2 * (d.par ("m_" ++ l) ^ 2 / d.par ("m_" ++ V) ^ 2)))) := by
  rw [C114_lfc_rate d V Q hV l hl H]
  congr 1
  have hm := H.mV.ne'
  have hq : (lfcSpec d V (quarksOf V) Q l) = ⟨((-(8 * Real.pi * Q * d.aem V * d.par ("f_" ++ V) / d.par ("m_" ++ V)) : ℝ) : ℂ),
      ((-(8 * Real.pi * Q * d.aem V * d.par ("f_" ++ V) / d.par ("m_" ++ V)) : ℝ) : ℂ), 0, 0⟩ := by
    unfold lfcSpec
    have hmc : (d.par ("m_" ++ V) : ℂ) ≠ 0 := by exact_mod_cast hm
    simp only [hwc, mul_zero, zero_mul, sub_zero, add_zero, map_zero]
    congr 1 <;> · push_cast; field_simp; ring
  rw [hq]
  unfold brSpec helicitySum
  simp only [nsq, add_re, add_im, sub_re, sub_im, mul_re, mul_im, ofReal_re, ofReal_im, re_ofNat, im_ofNat, zero_re, zero_im]
  have e0 : (1 - (d.par ("m_" ++ l) + d.par ("m_" ++ l)) ^ 2 / d.par ("m_" ++ V) ^ 2) * (1 - (d.par ("m_" ++ l) - d.par ("m_" ++ l)) ^ 2 / d.par ("m_" ++ V) ^ 2)
      = 1 - 4 * (d.par ("m_" ++ l) ^ 2 / d.par ("m_" ++ V) ^ 2) := by ring
  rw [e0]
  generalize Real.sqrt (1 - 4 * (d.par ("m_" ++ l) ^ 2 / d.par ("m_" ++ V) ^ 2)) = s
  have := Real.pi_pos.ne'
  field_simp
  ring

/-- Above threshold (the leptons are heavier than the meson, the mass difference is smaller) every branching ratio is zero,
whatever the couplings. -/
theorem C114_forbidden (d : Inp) (V : String) (Q : ℝ) (l1 l2 : String) (x : ℝ) (hm : 0 < d.par ("m_" ++ V))
    (h1 : d.par ("m_" ++ V) < d.par ("m_" ++ l1) + d.par ("m_" ++ l2))
    (h2 : |d.par ("m_" ++ l1) - d.par ("m_" ++ l2)| < d.par ("m_" ++ V))
    (hx : vllBr d V Q l1 l2 = .ok x) : x = 0 := by
  have hA : ∃ a, (if l1 = l2 then getVTlfc d V Q l1 else getVTlfv d V Q l1 l2) = .ok a := by
    by_cases h : l1 = l2
    · unfold vllBr at hx
      simp only [Mixing.pyDiv_ne hm.ne', Bind.bind, Except.bind, pure, Except.pure] at hx
      rw [if_pos h] at hx ⊢
      cases hg : getVTlfc d V Q l1 with
      | error e => rw [hg] at hx; cases hx
      | ok a => exact ⟨a, rfl⟩
    · unfold vllBr at hx
      simp only [Mixing.pyDiv_ne hm.ne', Bind.bind, Except.bind, pure, Except.pure] at hx
      rw [if_neg h] at hx ⊢
      cases hg : getVTlfv d V Q l1 l2 with
      | error e => rw [hg] at hx; cases hx
      | ok a => exact ⟨a, rfl⟩
  obtain ⟨a, ha⟩ := hA
  rw [br_of d V Q l1 l2 a hm.ne' ha] at hx
  injection hx with hx
  have hk : kallen 1 ((d.par ("m_" ++ l1) / d.par ("m_" ++ V)) ^ 2) ((d.par ("m_" ++ l2) / d.par ("m_" ++ V)) ^ 2) < 0 := by
    rw [kallen1]
    apply mul_neg_of_neg_of_pos
    · rw [sub_neg, one_lt_div (by positivity)]
      exact pow_lt_pow_left₀ h1 hm.le (by norm_num)
    · rw [sub_pos, div_lt_one (by positivity), ← sq_abs (_ - _)]
      exact pow_lt_pow_left₀ h2 (abs_nonneg _) (by norm_num)
  rw [← hx, show lambdaK 1 ((d.par ("m_" ++ l1) / d.par ("m_" ++ V)) ^ 2) ((d.par ("m_" ++ l2) / d.par ("m_" ++ V)) ^ 2) = 0 by
    unfold lambdaK; rw [if_pos hk]]
  simp

/-- No flavour-violating coefficient, no flavour-violating decay; and all of them scaled by `t` scale the rate by `t²`. -/
theorem C114_lfv_scaling (d : Inp) (V : String) (Q : ℝ) (hV : V ∈ mesonsV) (sec h l : String) (hc : (sec, h, l) ∈ lfvChannels)
    (H : Phys d V h l) (t : ℝ) :
    (∃ x, vllBr d V Q h l = .ok x ∧ vllBr { d with wc := fun s C => t * d.wc s C } V Q h l = .ok (t ^ 2 * x)) ∧
    ((∀ C, d.wc sec C = 0) → vllBr d V Q h l = .ok 0) := by
  have H' : Phys { d with wc := fun s C => t * d.wc s C } V h l := ⟨H.mV, H.m1, H.m2, H.thr⟩
  constructor
  · refine ⟨_, (C114_lfv_rate d V Q hV sec h l hc H).1, ?_⟩
    rw [(C114_lfv_rate _ V Q hV sec h l hc H').1]
    congr 1
    have e : lfvSpec { d with wc := fun s C => t * d.wc s C } V (quarksOf V) Q sec h l =
        let a := lfvSpec d V (quarksOf V) Q sec h l
        (⟨t * a.VL, t * a.VR, t * a.TL, t * a.TR⟩ : VT) := by
      unfold lfvSpec
      simp only [map_sub, map_mul, conj_ofReal]
      congr 1 <;> ring
    rw [e]
    obtain ⟨⟨⟨a1, a2⟩, ⟨b1, b2⟩, ⟨c1, c2⟩, ⟨d1, d2⟩⟩, ha⟩ : ∃ a, lfvSpec d V (quarksOf V) Q sec h l = a := ⟨_, rfl⟩
    rw [ha]
    unfold brSpec helicitySum
    simp only [nsq, add_re, add_im, sub_re, sub_im, mul_re, mul_im, ofReal_re, ofReal_im, re_ofNat, im_ofNat]
    ring
  · intro hz
    rw [(C114_lfv_rate d V Q hV sec h l hc H).1]
    congr 1
    unfold brSpec helicitySum lfvSpec
    simp [hz]

/-- Every registered branching ratio is a non-negative number at every physical point, whatever the Wilson coefficients;
every registered ratio is that branching ratio over the one of `e⁺e⁻` and is defined iff the latter is not zero. -/
theorem C114_registry (d : Inp) (hτ : ∀ V ∈ mesonsV, 0 ≤ d.par ("tau_" ++ V))
    (H : ∀ V ∈ mesonsV, ∀ l1 ∈ ["e", "mu", "tau"], ∀ l2 ∈ ["e", "mu", "tau"], Phys d V l1 l2) :
    registryV.length = 135 ∧ (registryV.map Reg.name).Nodup ∧
    (∀ V ∈ mesonsV, ∀ l1 ∈ ["e", "mu", "tau"], ∀ l2 ∈ ["e", "mu", "tau"],
      ∃ r ∈ registryV, r.name = "BR(" ++ V ++ "->" ++ (l1 ++ l2) ++ ")" ∧ ∃ x, predictV d r = .ok x ∧ 0 ≤ x ∧ vllBr d V (charge V) l1 l2 = .ok x) ∧
    (∀ V ∈ mesonsV, ∀ l1 ∈ ["e", "mu", "tau"], ∀ l2 ∈ ["e", "mu", "tau"], l1 ≠ l2 →
      ∃ x xe, vllBr d V (charge V) l1 l2 = .ok x ∧ vllBr d V (charge V) "e" "e" = .ok xe ∧
      (∃ r ∈ registryV, r.name = "BR(" ++ V ++ "->" ++ (l1 ++ l2 ++ "," ++ l2 ++ l1) ++ ")" ∧ predictV d r = .ok (2 * x)) ∧
      (∃ r ∈ registryV, r.name = "R(" ++ V ++ "->" ++ (l1 ++ l2) ++ ")" ∧ predictV d r = if xe = 0 then .error .zeroDivisionError else .ok (x / xe)) ∧
      (∃ r ∈ registryV, r.name = "R(" ++ V ++ "->" ++ (l1 ++ l2 ++ "," ++ l2 ++ l1) ++ ")" ∧
        predictV d r = if xe = 0 then .error .zeroDivisionError else .ok (2 * x / xe))) := by
  have hbr : ∀ V ∈ mesonsV, ∀ l1 ∈ ["e", "mu", "tau"], ∀ l2 ∈ ["e", "mu", "tau"],
      ∃ x, 0 ≤ x ∧ vllBr d V (charge V) l1 l2 = .ok x ∧ vllBr d V (charge V) l2 l1 = .ok x := by
    intro V hV l1 h1 l2 h2
    have P := H V hV l1 h1 l2 h2
    have P' := H V hV l2 h2 l1 h1
    by_cases h : l1 = l2
    · subst h
      have := C114_lfc_rate d V (charge V) hV l1 h1 P
      exact ⟨_, spec_nonneg _ P.mV (hτ V hV) P.m1 P.m2 P.thr, this, this⟩
    · have hc : ∃ sec, (sec, l1, l2) ∈ lfvChannels ∨ (sec, l2, l1) ∈ lfvChannels := by
        clear P P' hV
        revert h; revert l2; revert l1
        intro l1 h1 l2 h2 h
        simp only [List.mem_cons, List.not_mem_nil, or_false] at h1 h2
        rcases h1 with rfl | rfl | rfl <;> rcases h2 with rfl | rfl | rfl
        · exact absurd rfl h
        · exact ⟨"mue", by decide⟩
        · exact ⟨"taue", by decide⟩
        · exact ⟨"mue", by decide⟩
        · exact absurd rfl h
        · exact ⟨"mutau", by decide⟩
        · exact ⟨"taue", by decide⟩
        · exact ⟨"mutau", by decide⟩
        · exact absurd rfl h
      obtain ⟨sec, hc | hc⟩ := hc
      · have := C114_lfv_rate d V (charge V) hV sec l1 l2 hc P
        exact ⟨_, spec_nonneg _ P.mV (hτ V hV) P.m1 P.m2 P.thr, this.1, this.2.1⟩
      · have := C114_lfv_rate d V (charge V) hV sec l2 l1 hc P'
        exact ⟨_, spec_nonneg _ P'.mV (hτ V hV) P'.m1 P'.m2 P'.thr, this.2.1, this.1⟩
  refine ⟨by decide +kernel, by decide +kernel, ?_, ?_⟩
  · intro V hV l1 h1 l2 h2
    obtain ⟨x, hx, e1, e2⟩ := hbr V hV l1 h1 l2 h2
    refine ⟨⟨"BR(" ++ V ++ "->" ++ (l1 ++ l2) ++ ")", .br, V, l1, l2⟩, ?_, rfl, x, e1, hx, e1⟩
    clear e1 e2 hx hbr H hτ
    revert l2; revert l1; revert V
    decide +kernel
  · intro V hV l1 h1 l2 h2 hne
    obtain ⟨x, hx, e1, e2⟩ := hbr V hV l1 h1 l2 h2
    obtain ⟨xe, hxe, f1, -⟩ := hbr V hV "e" (by decide) "e" (by decide)
    have hmem : (∃ p : String × String, (p = (l1, l2) ∨ p = (l2, l1)) ∧ (⟨"BR(" ++ V ++ "->" ++ (l1 ++ l2 ++ "," ++ l2 ++ l1) ++ ")", .brComb, V, p.1, p.2⟩ : Reg) ∈ registryV ∧
        (⟨"R(" ++ V ++ "->" ++ (l1 ++ l2 ++ "," ++ l2 ++ l1) ++ ")", .ratioComb, V, p.1, p.2⟩ : Reg) ∈ registryV) ∧
        (⟨"R(" ++ V ++ "->" ++ (l1 ++ l2) ++ ")", .ratio, V, l1, l2⟩ : Reg) ∈ registryV := by
      have key : ∀ V ∈ mesonsV, ∀ l1 ∈ ["e", "mu", "tau"], ∀ l2 ∈ ["e", "mu", "tau"], l1 ≠ l2 →
        (∃ p ∈ [(l1, l2), (l2, l1)], (⟨"BR(" ++ V ++ "->" ++ (l1 ++ l2 ++ "," ++ l2 ++ l1) ++ ")", .brComb, V, p.1, p.2⟩ : Reg) ∈ registryV ∧
        (⟨"R(" ++ V ++ "->" ++ (l1 ++ l2 ++ "," ++ l2 ++ l1) ++ ")", .ratioComb, V, p.1, p.2⟩ : Reg) ∈ registryV) ∧
        (⟨"R(" ++ V ++ "->" ++ (l1 ++ l2) ++ ")", .ratio, V, l1, l2⟩ : Reg) ∈ registryV := by decide +kernel
      obtain ⟨⟨p, hp, k1, k2⟩, k3⟩ := key V hV l1 h1 l2 h2 hne
      exact ⟨⟨p, by simpa using hp, k1, k2⟩, k3⟩
    obtain ⟨⟨p, hp, k1, k2⟩, k3⟩ := hmem
    have g : vllBr d V (charge V) p.1 p.2 = .ok x ∧ vllBr d V (charge V) p.2 p.1 = .ok x := by
      rcases hp with rfl | rfl
      · exact ⟨e1, e2⟩
      · exact ⟨e2, e1⟩
    refine ⟨x, xe, e1, f1, ⟨_, k1, rfl, ?_⟩, ⟨_, k3, rfl, ?_⟩, ⟨_, k2, rfl, ?_⟩⟩
    · simp only [predictV, vllBrComb, g.1, g.2, Bind.bind, Except.bind, pure, Except.pure]
      congr 1; ring
    · simp only [predictV, vllRatio, e1, f1, Bind.bind, Except.bind, pure, Except.pure, pyDiv]
    · simp only [predictV, vllRatioComb, g.1, g.2, f1, Bind.bind, Except.bind, pure, Except.pure, pyDiv, two_mul]

/-! ## A concrete case -/

/-- Masses: mesons `4`, `e` `1/1000`, `μ` `1/10`, `τ` `3/2`; a complex coefficient everywhere. (Example.) (Specification.) -/
noncomputable def exInp : Inp :=
  ⟨fun k => if k = "m_e" then 1 / 1000 else if k = "m_mu" then 1 / 10 else if k = "m_tau" then 3 / 2 else 4,
   fun _ _ => 1 + 2 * I, fun _ => 1 / 130⟩

theorem exInp_phys : ∀ V ∈ mesonsV, ∀ l1 ∈ ["e", "mu", "tau"], ∀ l2 ∈ ["e", "mu", "tau"], Phys exInp V l1 l2 := by
  intro V hV l1 h1 l2 h2
  have kV : exInp.par ("m_" ++ V) = 4 := by
    have : ∀ V ∈ mesonsV, "m_" ++ V ≠ "m_e" ∧ "m_" ++ V ≠ "m_mu" ∧ "m_" ++ V ≠ "m_tau" := by decide
    obtain ⟨a, b, c⟩ := this V hV
    unfold exInp; simp only [a, b, c, if_false]
  have ke : exInp.par ("m_" ++ "e") = 1 / 1000 := by simp [exInp]
  have km : exInp.par ("m_" ++ "mu") = 1 / 10 := by simp [exInp]
  have kt : exInp.par ("m_" ++ "tau") = 3 / 2 := by simp [exInp]
  simp only [List.mem_cons, List.not_mem_nil, or_false] at h1 h2
  rcases h1 with rfl | rfl | rfl <;> rcases h2 with rfl | rfl | rfl <;>
    constructor <;> simp only [kV, ke, km, kt] <;> norm_num

/-- The hypotheses of the registry statement are met, and the LFV rate is not the trivial zero. -/
example : ∃ x, vllBr exInp "J/psi" (charge "J/psi") "tau" "mu" = .ok x ∧ 0 < x := by
  have hP := exInp_phys "J/psi" (by decide) "tau" (by decide) "mu" (by decide)
  refine ⟨_, (C114_lfv_rate exInp "J/psi" _ (by decide) "mutau" "tau" "mu" (by decide) hP).1, ?_⟩
  have kV : exInp.par ("m_" ++ "J/psi") = 4 := by simp [exInp]
  have kf : exInp.par ("f_" ++ "J/psi") = 4 := by simp [exInp]
  have kt : exInp.par ("tau_" ++ "J/psi") = 4 := by simp [exInp]
  have km : exInp.par ("m_" ++ "mu") = 1 / 10 := by simp [exInp]
  have ktau : exInp.par ("m_" ++ "tau") = 3 / 2 := by simp [exInp]
  have hv : (lfvSpec exInp "J/psi" (quarksOf "J/psi") (charge "J/psi") "mutau" "tau" "mu").VL = 32 * (1 + 2 * I) ∧
      (lfvSpec exInp "J/psi" (quarksOf "J/psi") (charge "J/psi") "mutau" "tau" "mu").VR = 32 * (1 + 2 * I) := by
    constructor <;> unfold lfvSpec <;> simp only [kV, kf] <;> simp only [exInp] <;> push_cast <;> ring
  rw [kV, kt, km, ktau]
  obtain ⟨a, ha⟩ : ∃ a, lfvSpec exInp "J/psi" (quarksOf "J/psi") (charge "J/psi") "mutau" "tau" "mu" = a := ⟨_, rfl⟩
  rw [ha] at hv ⊢
  unfold brSpec
  refine mul_pos (mul_pos (by positivity) (Real.sqrt_pos.2 (by norm_num))) ?_
  unfold helicitySum
  rw [hv.1, hv.2]
  obtain ⟨T, hT⟩ : ∃ T, a.TL + a.TR = T := ⟨_, rfl⟩
  obtain ⟨U, hU⟩ : ∃ U, a.TL - a.TR = U := ⟨_, rfl⟩
  rw [hT, hU]
  have hpos : 0 < 2 * ‖(32 * (1 + 2 * I) + 32 * (1 + 2 * I) : ℂ) + 4 * ((3 / 2 / 4 + 1 / 10 / 4 : ℝ) : ℂ) * T‖ ^ 2
      + ‖((3 / 2 / 4 + 1 / 10 / 4 : ℝ) : ℂ) * (32 * (1 + 2 * I) + 32 * (1 + 2 * I)) + 4 * T‖ ^ 2 := by
    obtain ⟨T1, T2⟩ := T
    simp only [nsq, add_re, add_im, mul_re, mul_im, ofReal_re, ofReal_im, re_ofNat, im_ofNat, one_re, one_im, I_re, I_im]
    by_contra hn
    have hn := not_lt.1 hn
    norm_num at hn
    nlinarith [sq_nonneg T1, sq_nonneg T2, sq_nonneg (T1 + 20), sq_nonneg (T1 + 10)]
  have h2 : 0 ≤ 2 * ‖(32 * (1 + 2 * I) - 32 * (1 + 2 * I) : ℂ) + 4 * ((3 / 2 / 4 - 1 / 10 / 4 : ℝ) : ℂ) * U‖ ^ 2
      + ‖((3 / 2 / 4 - 1 / 10 / 4 : ℝ) : ℂ) * (32 * (1 + 2 * I) - 32 * (1 + 2 * I)) + 4 * U‖ ^ 2 := by positivity
  refine add_pos_of_pos_of_nonneg (mul_pos (by norm_num) hpos) (mul_nonneg (by norm_num) h2)

end Verif.Quarkonium
