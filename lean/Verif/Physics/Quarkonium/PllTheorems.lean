import Verif.Physics.Quarkonium.Pll
import Verif.Physics.Quarkonium.VllTheorems
/-!
# Theorems about `P, S → ℓ₁⁺ ℓ₂⁻` of quarkonium (C115)
-/
set_option linter.unusedVariables false
set_option linter.unusedSimpArgs false
set_option linter.unusedSectionVars false
namespace Verif.Quarkonium
open Verif.Py Verif.Running Verif.Common Complex

/-! ## Specification -/

/-- Branching ratio of a spin-zero meson with amplitude `ū₁ (σ + π γ₅) v₂`: the scalar part decays in a P wave, the
pseudoscalar part in an S wave. (Specification.) -/
noncomputable def brSpin0 (M τ m1 m2 : ℝ) (σ π : ℂ) : ℝ :=
  τ * M / (16 * Real.pi) * Real.sqrt ((1 - (m1 + m2) ^ 2 / M ^ 2) * (1 - (m1 - m2) ^ 2 / M ^ 2))
    * (2 * (1 - (m1 + m2) ^ 2 / M ^ 2) * ‖σ‖ ^ 2 + 2 * (1 - (m1 - m2) ^ 2 / M ^ 2) * ‖π‖ ^ 2)

/-- The quark pair and the quark of each meson. (Specification.) -/
def quarkS (M : String) : String := if M = "eta_c(1S)" ∨ M = "chi_c0(1P)" then "c" else "b"

/-- Sector of an unordered pair of leptons and its ordering in the vector coefficients. (Specification.) -/
def sectorOf : List (String × String × String × String) :=
  [("mu", "e", "mue", "mue"), ("e", "mu", "mue", "mue"), ("tau", "e", "taue", "taue"), ("e", "tau", "taue", "taue"),
   ("tau", "mu", "mutau", "taumu"), ("mu", "tau", "mutau", "taumu")]

/-- Pseudoscalar couplings of `ū₁ P_R v₂`, from a gluonic operator, `(ℓ̄₁ P_R ℓ₂)(q̄ γ₅ q)` and the axial quark
currents, as the code has them: `R` and `L` are the axial couplings to right- and left-handed leptons. (Specification.) -/
noncomputable def pCoup (d : InpS) (P l1 l2 sec ll : String) (cij cji : ℂ) : SLR :=
  let q := quarkS P
  let C := d.wc sec
  let f : ℂ := d.par ("f_" ++ P)
  let g : ℂ := d.par ("a_" ++ P) * 4 * Real.pi / d.als P
  let h : ℂ := (d.par ("m_" ++ P) ^ 2 * f - d.par ("a_" ++ P)) / (4 * d.par ("m_" ++ q))
  let R := C ("CVRR_" ++ ll ++ q ++ q) - C ("CVLR_" ++ q ++ q ++ ll)
  let L := C ("CVLL_" ++ ll ++ q ++ q) - C ("CVLR_" ++ ll ++ q ++ q)
  let X := fun a b => C ("CSRR_" ++ a ++ b ++ q ++ q) - C ("CSRL_" ++ a ++ b ++ q ++ q)
  { SR := I * g * cij + h * X l1 l2 - f / 2 * (d.par ("m_" ++ l1) * R - d.par ("m_" ++ l2) * L)
    SL := I * g * cji - h * (starRingEnd ℂ) (X l2 l1) - f / 2 * (d.par ("m_" ++ l2) * R - d.par ("m_" ++ l1) * L) }

/-- Scalar couplings. (Specification.) -/
noncomputable def sCoup (d : InpS) (S l1 l2 sec : String) (cij cji : ℂ) : SLR :=
  let q := quarkS S
  let C := d.wc sec
  let g : ℂ := d.par ("a_" ++ S) * 4 * Real.pi / d.als S
  let k : ℂ := d.par ("m_" ++ S) * d.par ("f_" ++ S) / 2
  let X := fun a b => C ("CSRR_" ++ a ++ b ++ q ++ q) + C ("CSRL_" ++ a ++ b ++ q ++ q)
  { SR := I * (g * cij - k * X l1 l2)
    SL := I * (g * cji - k * (starRingEnd ℂ) (X l2 l1)) }

/-- A physical point: nothing is divided by zero and the decay is kinematically allowed. (Specification.) -/
structure PhysS (d : InpS) (M l1 l2 : String) : Prop extends Phys d.toInp M l1 l2 where
  als : d.als M ≠ 0
  mq : d.par ("m_" ++ quarkS M) ≠ 0

/-! ## Lemmas -/

theorem conj4 : (starRingEnd ℂ) 4 = 4 := map_ofNat _ 4
theorem conj2 : (starRingEnd ℂ) 2 = 2 := map_ofNat _ 2

theorem mqP {P : String} (h : P ∈ mesonsP) : mesonQuarkP P = .ok (quarkS P ++ quarkS P) ∧ firstQuark (quarkS P ++ quarkS P) = quarkS P := by
  revert P; decide

theorem mqS {S : String} (h : S ∈ mesonsS) : mesonQuarkS S = .ok (quarkS S ++ quarkS S) := by
  revert S; decide

theorem sec_ok {l1 l2 sec ll : String} (h : (l1, l2, sec, ll) ∈ sectorOf) : wcSector l1 l2 = .ok sec ∧ bilinear sec = ll := by
  have key : ∀ t ∈ sectorOf, wcSector t.1 t.2.1 = .ok t.2.2.1 ∧ bilinear t.2.2.1 = t.2.2.2 := by decide
  exact key _ h

theorem sec_swap {l1 l2 sec ll : String} (h : (l1, l2, sec, ll) ∈ sectorOf) : (l2, l1, sec, ll) ∈ sectorOf := by
  have key : ∀ t ∈ sectorOf, (t.2.1, t.1, t.2.2.1, t.2.2.2) ∈ sectorOf := by decide
  exact key _ h

theorem getSP_ok (d : InpS) (P l1 l2 sec ll : String) (cij cji : ℂ) (hP : P ∈ mesonsP) (hs : (l1, l2, sec, ll) ∈ sectorOf)
    (ha : d.als P ≠ 0) (hq : d.par ("m_" ++ quarkS P) ≠ 0) :
    getSP d P l1 l2 cij cji = .ok (pCoup d P l1 l2 sec ll cij cji) := by
  unfold getSP
  simp only [(sec_ok hs).1, (sec_ok hs).2, (mqP hP).1, (mqP hP).2, Mixing.pyDiv_ne ha,
    Mixing.pyDiv_ne (mul_ne_zero (four_ne_zero) hq), Bind.bind, Except.bind, pure, Except.pure]
  show Except.ok _ = Except.ok _
  congr 1
  unfold pCoup
  simp only [String.append_assoc]
  congr 1
  · simp only [map_sub]; push_cast; ring
  · push_cast; ring

theorem getSS_ok (d : InpS) (S l1 l2 sec ll : String) (cij cji : ℂ) (hS : S ∈ mesonsS) (hs : (l1, l2, sec, ll) ∈ sectorOf)
    (ha : d.als S ≠ 0) : getSS d S l1 l2 cij cji = .ok (sCoup d S l1 l2 sec cij cji) := by
  unfold getSS
  simp only [(sec_ok hs).1, (mqS hS), Mixing.pyDiv_ne ha, Bind.bind, Except.bind, pure, Except.pure]
  show Except.ok _ = Except.ok _
  congr 1
  unfold sCoup
  simp only [String.append_assoc]
  congr 1
  · simp only [map_add]; push_cast; ring
  · push_cast; ring

theorem rate_ok (d : InpS) (M l1 l2 : String) (s : SLR) (H : Phys d.toInp M l1 l2) :
    sllRate d M l1 l2 (.ok s) = .ok (brSpin0 (d.par ("m_" ++ M)) (d.par ("tau_" ++ M)) (d.par ("m_" ++ l1)) (d.par ("m_" ++ l2))
      ((s.SR + s.SL) / 2) ((s.SR - s.SL) / 2)) := by
  unfold sllRate
  simp only [Mixing.pyDiv_ne H.mV.ne', Bind.bind, Except.bind, pure, Except.pure]
  congr 1
  rw [lambda1 (mul_nonneg (Kll.rel_p H.mV H.m1 H.m2 H.thr) (Kll.rel_m H.mV H.m1 H.m2 H.thr))]
  unfold brSpin0
  congr 1
  obtain ⟨⟨a1, a2⟩, ⟨b1, b2⟩⟩ := s
  have e : ∀ z : ℂ, ‖z / 2‖ ^ 2 = (z.re ^ 2 + z.im ^ 2) / 4 := by
    intro z; rw [norm_div, div_pow, nsq]; norm_num
  rw [e, e]
  simp only [nsq, add_re, add_im, sub_re, sub_im, mul_re, mul_im, conj_re, conj_im]
  have := H.mV.ne'
  field_simp
  ring

theorem spin0_nonneg {M τ m1 m2 : ℝ} (σ π : ℂ) (hM : 0 < M) (hτ : 0 ≤ τ) (h1 : 0 ≤ m1) (h2 : 0 ≤ m2) (h : m1 + m2 ≤ M) :
    0 ≤ brSpin0 M τ m1 m2 σ π := by
  unfold brSpin0
  have hp := Kll.rel_p hM h1 h2 h
  have hm := Kll.rel_m hM h1 h2 h
  have := Real.pi_pos
  positivity

theorem swapPhys {d : Inp} {M l1 l2 : String} (H : Phys d M l1 l2) : Phys d M l2 l1 :=
  ⟨H.mV, H.m2, H.m1, by rw [add_comm]; exact H.thr⟩

theorem pll_ok (d : InpS) (P l1 l2 sec ll : String) (cij cji : ℂ) (hP : P ∈ mesonsP) (hs : (l1, l2, sec, ll) ∈ sectorOf)
    (H : PhysS d P l1 l2) :
    let s := pCoup d P l1 l2 sec ll cij cji
    pllBr d P l1 l2 cij cji = .ok (brSpin0 (d.par ("m_" ++ P)) (d.par ("tau_" ++ P)) (d.par ("m_" ++ l1)) (d.par ("m_" ++ l2))
      ((s.SR + s.SL) / 2) ((s.SR - s.SL) / 2)) := by
  intro s
  unfold pllBr
  rw [getSP_ok d P l1 l2 sec ll cij cji hP hs H.als H.mq, rate_ok d P l1 l2 _ H.toPhys]

theorem sll_ok (d : InpS) (S l1 l2 sec ll : String) (cij cji : ℂ) (hS : S ∈ mesonsS) (hs : (l1, l2, sec, ll) ∈ sectorOf)
    (H : PhysS d S l1 l2) :
    let s := sCoup d S l1 l2 sec cij cji
    sllBr d S l1 l2 cij cji = .ok (brSpin0 (d.par ("m_" ++ S)) (d.par ("tau_" ++ S)) (d.par ("m_" ++ l1)) (d.par ("m_" ++ l2))
      ((s.SR + s.SL) / 2) ((s.SR - s.SL) / 2)) := by
  intro s
  unfold sllBr
  rw [getSS_ok d S l1 l2 sec ll cij cji hS hs H.als, rate_ok d S l1 l2 _ H.toPhys]

/-! ## Theorems -/

/-- Both kinds of branching ratios are the rate of a spin-zero meson with amplitude `ū₁ (SR P_R + SL P_L) v₂`, and are
never negative at a physical point, whatever the Wilson coefficients and the user arguments. -/
theorem C115_rate (d : InpS) (l1 l2 sec ll : String) (cij cji : ℂ) (hs : (l1, l2, sec, ll) ∈ sectorOf) :
    (∀ P ∈ mesonsP, PhysS d P l1 l2 →
      let s := pCoup d P l1 l2 sec ll cij cji
      let x := brSpin0 (d.par ("m_" ++ P)) (d.par ("tau_" ++ P)) (d.par ("m_" ++ l1)) (d.par ("m_" ++ l2)) ((s.SR + s.SL) / 2) ((s.SR - s.SL) / 2)
      pllBr d P l1 l2 cij cji = .ok x ∧ (0 ≤ d.par ("tau_" ++ P) → 0 ≤ x)) ∧
    (∀ S ∈ mesonsS, PhysS d S l1 l2 →
      let s := sCoup d S l1 l2 sec cij cji
      let x := brSpin0 (d.par ("m_" ++ S)) (d.par ("tau_" ++ S)) (d.par ("m_" ++ l1)) (d.par ("m_" ++ l2)) ((s.SR + s.SL) / 2) ((s.SR - s.SL) / 2)
      sllBr d S l1 l2 cij cji = .ok x ∧ (0 ≤ d.par ("tau_" ++ S) → 0 ≤ x)) := by
  constructor
  · intro P hP H
    exact ⟨pll_ok d P l1 l2 sec ll cij cji hP hs H, fun hτ => spin0_nonneg _ _ H.mV hτ H.m1 H.m2 H.thr⟩
  · intro S hS H
    exact ⟨sll_ok d S l1 l2 sec ll cij cji hS hs H, fun hτ => spin0_nonneg _ _ H.mV hτ H.m1 H.m2 H.thr⟩

/-- Scalars: exchanging the leptons together with the two (real) arguments leaves the branching ratio unchanged; the
combined prediction passes the arguments unexchanged, so it is the sum over both assignments of the arguments — and twice
the single-charge branching ratio for the default arguments. -/
theorem C115_scalar_charge (d : InpS) (S l1 l2 sec ll : String) (a b : ℝ) (hS : S ∈ mesonsS) (hs : (l1, l2, sec, ll) ∈ sectorOf)
    (H : PhysS d S l1 l2) :
    (∃ x, sllBr d S l1 l2 a b = .ok x ∧ sllBr d S l2 l1 b a = .ok x) ∧
    (∃ x y, sllBr d S l1 l2 a b = .ok x ∧ sllBr d S l1 l2 b a = .ok y ∧ sllBrComb d S l1 l2 a b = .ok (x + y)) ∧
    (∃ x, sllBr d S l1 l2 0 0 = .ok x ∧ sllBrComb d S l1 l2 0 0 = .ok (2 * x)) := by
  have H' : PhysS d S l2 l1 := ⟨swapPhys H.toPhys, H.als, H.mq⟩
  have key : ∀ a b : ℝ, ∃ x, sllBr d S l1 l2 a b = .ok x ∧ sllBr d S l2 l1 b a = .ok x := by
    intro a b
    refine ⟨_, sll_ok d S l1 l2 sec ll a b hS hs H, ?_⟩
    rw [sll_ok d S l2 l1 sec ll b a hS (sec_swap hs) H']
    congr 1
    have e1 : (sCoup d S l2 l1 sec b a).SR = -(starRingEnd ℂ) (sCoup d S l1 l2 sec a b).SL := by
      unfold sCoup; simp [conj_ofReal, conj4, conj2]
    have e2 : (sCoup d S l2 l1 sec b a).SL = -(starRingEnd ℂ) (sCoup d S l1 l2 sec a b).SR := by
      unfold sCoup; simp [conj_ofReal, conj4, conj2]
    rw [e1, e2]
    obtain ⟨⟨⟨p, q⟩, ⟨r, t⟩⟩, hh⟩ : ∃ s, sCoup d S l1 l2 sec a b = s := ⟨_, rfl⟩
    rw [hh]
    unfold brSpin0
    have e : ∀ z : ℂ, ‖z / 2‖ ^ 2 = (z.re ^ 2 + z.im ^ 2) / 4 := by
      intro z; rw [norm_div, div_pow, nsq]; norm_num
    rw [e, e, e, e]
    simp only [add_re, add_im, sub_re, sub_im, neg_re, neg_im, conj_re, conj_im]
    have f1 : (d.par ("m_" ++ l2) + d.par ("m_" ++ l1)) ^ 2 = (d.par ("m_" ++ l1) + d.par ("m_" ++ l2)) ^ 2 := by ring
    have f2 : (d.par ("m_" ++ l2) - d.par ("m_" ++ l1)) ^ 2 = (d.par ("m_" ++ l1) - d.par ("m_" ++ l2)) ^ 2 := by ring
    rw [f1, f2]
    ring
  refine ⟨key a b, ?_, ?_⟩
  · obtain ⟨x, hx, -⟩ := key a b
    obtain ⟨y, hy, hy'⟩ := key b a
    refine ⟨x, y, hx, hy, ?_⟩
    unfold sllBrComb
    rw [hx, hy']; rfl
  · obtain ⟨x, hx, hx'⟩ := key 0 0
    rw [ofReal_zero] at hx hx'
    refine ⟨x, hx, ?_⟩
    unfold sllBrComb
    rw [hx, hx']
    simp only [Bind.bind, Except.bind, pure, Except.pure]
    congr 1; ring

/-- Pseudoscalars, default arguments: the two charge modes agree if either the vector or the scalar coefficients of the
sector vanish. -/
theorem C115_pseudoscalar_charge (d : InpS) (P l1 l2 sec ll : String) (hP : P ∈ mesonsP) (hs : (l1, l2, sec, ll) ∈ sectorOf)
    (H : PhysS d P l1 l2)
    (hz : (∀ C ∈ ["CVRR_", "CVLL_", "CVLR_"], ∀ k, d.wc sec (C ++ k) = 0) ∨ (∀ C ∈ ["CSRR_", "CSRL_"], ∀ k, d.wc sec (C ++ k) = 0)) :
    ∃ x, pllBr d P l1 l2 0 0 = .ok x ∧ pllBr d P l2 l1 0 0 = .ok x ∧ pllBrComb d P l1 l2 0 0 = .ok (2 * x) := by
  have H' : PhysS d P l2 l1 := ⟨swapPhys H.toPhys, H.als, H.mq⟩
  have key : ∃ x, pllBr d P l1 l2 0 0 = .ok x ∧ pllBr d P l2 l1 0 0 = .ok x := by
    refine ⟨_, pll_ok d P l1 l2 sec ll 0 0 hP hs H, ?_⟩
    rw [pll_ok d P l2 l1 sec ll 0 0 hP (sec_swap hs) H']
    congr 1
    have f1 : (d.par ("m_" ++ l2) + d.par ("m_" ++ l1)) ^ 2 = (d.par ("m_" ++ l1) + d.par ("m_" ++ l2)) ^ 2 := by ring
    have f2 : (d.par ("m_" ++ l2) - d.par ("m_" ++ l1)) ^ 2 = (d.par ("m_" ++ l1) - d.par ("m_" ++ l2)) ^ 2 := by ring
    have e : ∀ z : ℂ, ‖z / 2‖ ^ 2 = (z.re ^ 2 + z.im ^ 2) / 4 := by
      intro z; rw [norm_div, div_pow, nsq]; norm_num
    rcases hz with hz | hz
    · have e1 : (pCoup d P l2 l1 sec ll 0 0).SR = -(starRingEnd ℂ) (pCoup d P l1 l2 sec ll 0 0).SL := by
        unfold pCoup
        simp [conj_ofReal, conj4, conj2, String.append_assoc, hz "CVRR_" (by decide), hz "CVLL_" (by decide), hz "CVLR_" (by decide)]
      have e2 : (pCoup d P l2 l1 sec ll 0 0).SL = -(starRingEnd ℂ) (pCoup d P l1 l2 sec ll 0 0).SR := by
        unfold pCoup
        simp [conj_ofReal, conj4, conj2, String.append_assoc, hz "CVRR_" (by decide), hz "CVLL_" (by decide), hz "CVLR_" (by decide)]
      rw [e1, e2]
      obtain ⟨⟨⟨p, q⟩, ⟨r, t⟩⟩, hh⟩ : ∃ s, pCoup d P l1 l2 sec ll 0 0 = s := ⟨_, rfl⟩
      rw [hh]
      unfold brSpin0
      rw [e, e, e, e]
      simp only [add_re, add_im, sub_re, sub_im, neg_re, neg_im, conj_re, conj_im]
      rw [f1, f2]
      ring
    · have e1 : (pCoup d P l2 l1 sec ll 0 0).SR = (pCoup d P l1 l2 sec ll 0 0).SL := by
        unfold pCoup
        simp [conj_ofReal, conj4, conj2, String.append_assoc, hz "CSRR_" (by decide), hz "CSRL_" (by decide)]
      have e2 : (pCoup d P l2 l1 sec ll 0 0).SL = (pCoup d P l1 l2 sec ll 0 0).SR := by
        unfold pCoup
        simp [conj_ofReal, conj4, conj2, String.append_assoc, hz "CSRR_" (by decide), hz "CSRL_" (by decide)]
      rw [e1, e2]
      obtain ⟨⟨⟨p, q⟩, ⟨r, t⟩⟩, hh⟩ : ∃ s, pCoup d P l1 l2 sec ll 0 0 = s := ⟨_, rfl⟩
      rw [hh]
      unfold brSpin0
      rw [e, e, e, e]
      simp only [add_re, add_im, sub_re, sub_im, neg_re, neg_im, conj_re, conj_im]
      rw [f1, f2]
      ring
  obtain ⟨x, h1, h2⟩ := key
  refine ⟨x, h1, h2, ?_⟩
  unfold pllBrComb
  rw [h1, h2]
  simp only [Bind.bind, Except.bind, pure, Except.pure]
  congr 1; ring

/-- Finding.  With a purely vectorial lepton current (equal axial quark couplings `R = L` for both lepton chiralities, no
other operator) the Dirac equation gives `ū₁ p̸ v₂ = (m₁ − m₂) ū₁ v₂`, a scalar amplitude, hence `SL = SR`; the code returns
`SL = −SR`, the pseudoscalar one, for every meson, channel and value of the coupling. -/
theorem C115_vector_current_finding (d : InpS) (P l1 l2 sec ll : String) (hP : P ∈ mesonsP) (hs : (l1, l2, sec, ll) ∈ sectorOf)
    (H : PhysS d P l1 l2) (c : ℂ)
    (hS : ∀ C ∈ ["CSRR_", "CSRL_"], ∀ k, d.wc sec (C ++ k) = 0) (hLR : ∀ k, d.wc sec ("CVLR_" ++ k) = 0)
    (hV : ∀ C ∈ ["CVRR_", "CVLL_"], ∀ k, d.wc sec (C ++ k) = c) :
    let A : ℂ := d.par ("f_" ++ P) / 2 * (d.par ("m_" ++ l1) - d.par ("m_" ++ l2)) * c
    getSP d P l1 l2 0 0 = .ok ⟨A, -A⟩ ∧
    pllBr d P l1 l2 0 0 = .ok (brSpin0 (d.par ("m_" ++ P)) (d.par ("tau_" ++ P)) (d.par ("m_" ++ l1)) (d.par ("m_" ++ l2)) 0 (-A)) := by
  intro A
  have e : pCoup d P l1 l2 sec ll 0 0 = ⟨A, -A⟩ := by
    unfold pCoup
    simp only [String.append_assoc, hS "CSRR_" (by decide), hS "CSRL_" (by decide), hLR, hV "CVRR_" (by decide), hV "CVLL_" (by decide),
      map_sub, map_zero, A]
    congr 1 <;> ring
  have h := getSP_ok d P l1 l2 sec ll 0 0 hP hs H.als H.mq
  rw [e] at h
  refine ⟨h, ?_⟩
  rw [pll_ok d P l1 l2 sec ll 0 0 hP hs H, e]
  congr 2
  · simp
  · simp only []; ring

/-- A point with `m_e = 1`, `m_μ = 2`, meson mass `4`, scalar coefficient `CSRR_mue…` and vector coefficient `CVLL_mue…`. (Specification.) -/
noncomputable def exS (v : ℂ) : InpS :=
  { par := fun k => if k = "m_mu" then 2 else if k = "m_e" then 1 else if k = "m_eta_c(1S)" then 4 else if k = "a_eta_c(1S)" then 0 else 1
    wc := fun _ k => if k = "CSRR_muecc" then 1 else if k = "CVLL_muecc" then v else 0
    aem := fun _ => 1
    als := fun _ => 1 }

theorem exS_phys (v : ℂ) : PhysS (exS v) "eta_c(1S)" "mu" "e" := by
  have k1 : (exS v).par ("m_" ++ "eta_c(1S)") = 4 := by simp [exS]
  have k2 : (exS v).par ("m_" ++ "mu") = 2 := by simp [exS]
  have k3 : (exS v).par ("m_" ++ "e") = 1 := by simp [exS]
  have k4 : (exS v).par ("m_" ++ quarkS "eta_c(1S)") = 1 := by
    rw [show ("m_" ++ quarkS "eta_c(1S)" : String) = "m_c" by decide]; simp [exS]
  have k5 : (exS v).als "eta_c(1S)" = 1 := rfl
  constructor
  · constructor <;> simp only [k1, k2, k3] <;> norm_num
  · rw [k5]; norm_num
  · rw [k4]; norm_num

/-- Finding.  With a scalar and a vector coefficient both present, and real, the code's two charge modes differ, although
nothing in the amplitude has an absorptive phase (compare `C114_lfv_rate`, `C115_scalar_charge`). -/
theorem C115_charge_finding : ∃ (d : InpS), PhysS d "eta_c(1S)" "mu" "e" ∧ PhysS d "eta_c(1S)" "e" "mu" ∧ (∀ s C, (d.wc s C).im = 0) ∧
    ∃ x y, pllBr d "eta_c(1S)" "mu" "e" 0 0 = .ok x ∧ pllBr d "eta_c(1S)" "e" "mu" 0 0 = .ok y ∧ x ≠ y := by
  have H := exS_phys 1
  have H' : PhysS (exS 1) "eta_c(1S)" "e" "mu" := ⟨swapPhys H.toPhys, H.als, H.mq⟩
  refine ⟨exS 1, H, H', ?_, _, _,
    pll_ok (exS 1) "eta_c(1S)" "mu" "e" "mue" "mue" 0 0 (by decide) (by decide) H,
    pll_ok (exS 1) "eta_c(1S)" "e" "mu" "mue" "mue" 0 0 (by decide) (by decide) H', ?_⟩
  · intro s C
    unfold exS
    simp only []
    by_cases h : C = "CSRR_muecc"
    · rw [if_pos h]; simp
    · rw [if_neg h]; by_cases h2 : C = "CVLL_muecc"
      · rw [if_pos h2]; simp
      · rw [if_neg h2]; simp
  have k1 : (exS 1).par ("m_" ++ "eta_c(1S)") = 4 := by simp [exS]
  have k2 : (exS 1).par ("m_" ++ "mu") = 2 := by simp [exS]
  have k3 : (exS 1).par ("m_" ++ "e") = 1 := by simp [exS]
  have k4 : (exS 1).par ("tau_" ++ "eta_c(1S)") = 1 := by simp [exS]
  have k5 : (exS 1).par ("f_" ++ "eta_c(1S)") = 1 := by simp [exS]
  have k6 : (exS 1).par ("a_" ++ "eta_c(1S)") = 0 := by simp [exS]
  have kq : quarkS "eta_c(1S)" = "c" := by decide
  have k7 : (exS 1).par ("m_" ++ "c") = 1 := by simp [exS]
  have w1 : pCoup (exS 1) "eta_c(1S)" "mu" "e" "mue" "mue" 0 0 = ⟨1, 4 + 1 / 2⟩ := by
    unfold pCoup
    simp only [kq, k1, k2, k3, k5, k6, k7]
    have q1 : (exS 1).wc "mue" ("CVRR_" ++ "mue" ++ "c" ++ "c") = 0 := by simp [exS]
    have q2 : (exS 1).wc "mue" ("CVLR_" ++ "c" ++ "c" ++ "mue") = 0 := by simp [exS]
    have q3 : (exS 1).wc "mue" ("CVLL_" ++ "mue" ++ "c" ++ "c") = 1 := by simp [exS]
    have q4 : (exS 1).wc "mue" ("CVLR_" ++ "mue" ++ "c" ++ "c") = 0 := by simp [exS]
    have q5 : (exS 1).wc "mue" ("CSRR_" ++ "mu" ++ "e" ++ "c" ++ "c") = 1 := by simp [exS]
    have q6 : (exS 1).wc "mue" ("CSRL_" ++ "mu" ++ "e" ++ "c" ++ "c") = 0 := by simp [exS]
    have q7 : (exS 1).wc "mue" ("CSRR_" ++ "e" ++ "mu" ++ "c" ++ "c") = 0 := by simp [exS]
    have q8 : (exS 1).wc "mue" ("CSRL_" ++ "e" ++ "mu" ++ "c" ++ "c") = 0 := by simp [exS]
    simp only [q1, q2, q3, q4, q5, q6, q7, q8]
    congr 1 <;> simp <;> norm_num
  have w2 : pCoup (exS 1) "eta_c(1S)" "e" "mu" "mue" "mue" 0 0 = ⟨-4 + 1 / 2, 1⟩ := by
    unfold pCoup
    simp only [kq, k1, k2, k3, k5, k6, k7]
    have q1 : (exS 1).wc "mue" ("CVRR_" ++ "mue" ++ "c" ++ "c") = 0 := by simp [exS]
    have q2 : (exS 1).wc "mue" ("CVLR_" ++ "c" ++ "c" ++ "mue") = 0 := by simp [exS]
    have q3 : (exS 1).wc "mue" ("CVLL_" ++ "mue" ++ "c" ++ "c") = 1 := by simp [exS]
    have q4 : (exS 1).wc "mue" ("CVLR_" ++ "mue" ++ "c" ++ "c") = 0 := by simp [exS]
    have q5 : (exS 1).wc "mue" ("CSRR_" ++ "mu" ++ "e" ++ "c" ++ "c") = 1 := by simp [exS]
    have q6 : (exS 1).wc "mue" ("CSRL_" ++ "mu" ++ "e" ++ "c" ++ "c") = 0 := by simp [exS]
    have q7 : (exS 1).wc "mue" ("CSRR_" ++ "e" ++ "mu" ++ "c" ++ "c") = 0 := by simp [exS]
    have q8 : (exS 1).wc "mue" ("CSRL_" ++ "e" ++ "mu" ++ "c" ++ "c") = 0 := by simp [exS]
    simp only [q1, q2, q3, q4, q5, q6, q7, q8]
    congr 1 <;> simp <;> norm_num
  rw [w1, w2, k1, k2, k3, k4]
  unfold brSpin0
  have e : ∀ z : ℂ, ‖z / 2‖ ^ 2 = (z.re ^ 2 + z.im ^ 2) / 4 := by
    intro z; rw [norm_div, div_pow, nsq]; norm_num
  rw [e, e, e, e]
  have f1 : ((1:ℝ) - (1 + 2) ^ 2 / 4 ^ 2) = 7 / 16 := by norm_num
  have f2 : ((1:ℝ) - (1 - 2) ^ 2 / 4 ^ 2) = 15 / 16 := by norm_num
  have f3 : ((1:ℝ) - (2 + 1) ^ 2 / 4 ^ 2) = 7 / 16 := by norm_num
  have f4 : ((1:ℝ) - (2 - 1) ^ 2 / 4 ^ 2) = 15 / 16 := by norm_num
  rw [f1, f2, f3, f4]
  have hpos : 0 < 1 * 4 / (16 * Real.pi) * Real.sqrt (7 / 16 * (15 / 16)) := by
    have := Real.pi_pos; positivity
  intro h
  have h := mul_left_cancel₀ hpos.ne' h
  norm_num at h

/-- Finding.  The loop that should register the three combined channels reads the leftover variables of the previous loop:
for every meson of both modules only `μτ` is registered (three times, in both spellings), and the combined `eμ` and `eτ`
channels do not exist; the six single-charge channels do. -/
theorem C115_registry :
    ∀ M ∈ mesonsP ++ mesonsS, (∀ l1 ∈ ["e", "mu", "tau"], ∀ l2 ∈ ["e", "mu", "tau"], l1 ≠ l2 →
      (("BR(" ++ M ++ "->" ++ (l1 ++ l2) ++ ")") ∈ (registryP ++ registryS).map Reg.name) ∧
      ((registryP ++ registryS).map Reg.name).count ("BR(" ++ M ++ "->" ++ (l1 ++ l2 ++ "," ++ l2 ++ l1) ++ ")")
        = if l1 = "e" ∨ l2 = "e" then 0 else 3) ∧
    (registryP ++ registryS).length = 60 ∧
    ∀ r ∈ registryP ++ registryS, r.kind = .brComb → (r.l1, r.l2) = ("tau", "mu") := by
  decide +kernel

/-- The hypotheses are met by a concrete point with a non-zero branching ratio. -/
example : ∃ x, pllBr (exS 0) "eta_c(1S)" "mu" "e" 0 0 = .ok x ∧ 0 ≤ x :=
  ⟨_, ((C115_rate (exS 0) "mu" "e" "mue" "mue" 0 0 (by decide)).1 "eta_c(1S)" (by decide) (exS_phys 0)).1,
    ((C115_rate (exS 0) "mu" "e" "mue" "mue" 0 0 (by decide)).1 "eta_c(1S)" (by decide) (exS_phys 0)).2 (by simp [exS])⟩

end Verif.Quarkonium
