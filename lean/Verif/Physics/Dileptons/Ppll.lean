import Verif.Physics.Dileptons.Spec
/-!
# `pp → ℓ⁺ℓ⁻`: partonic and hadronic cross sections
-/
set_option linter.unusedVariables false
set_option linter.unusedSimpArgs false
namespace Verif.Dileptons
open Verif.Py Verif.Running Complex MeasureTheory

local notation "conj" => starRingEnd ℂ

/-- The coefficients for quark `i1` and antiquark `i2` and the lepton `il`. (Specification.) -/
def contact (A : Amp) (il i1 i2 : Fin 3) : Contact :=
  ⟨A.VLL il il i1 i2, A.VLR il il i1 i2, A.VRL il il i1 i2, A.VRR il il i1 i2, A.SRL il il i1 i2, A.SRR il il i1 i2, A.TRR il il i1 i2,
    A.SRL il il i2 i1, A.SRR il il i2 i1, A.TRR il il i2 i1⟩

theorem partonic_int (A : Amp) (sh : ℝ) (il i1 i2 : Fin 3) : sh / (144 * Real.pi) * sumSq A il i1 i2 = ∫ c in (-1)..1, dsdc sh c (contact A il i1 i2) := by
  rw [dsdc_int]
  have := Real.pi_pos.ne'
  unfold sumSq contact
  field_simp; ring

/-- The quark charges and generations, and the leptons. (Specification.) -/
def quarkOf : List (String × UD × Fin 3) := [("u", .u, 0), ("c", .u, 1), ("d", .d, 0), ("s", .d, 1), ("b", .d, 2)]

/-- The charged leptons. (Specification.) -/
def leptonOf : List (String × Fin 3) := [("e", 0), ("mu", 1), ("tau", 2)]

/-- **C136 (partonic cross section)** For two quarks of the same charge and a charged lepton the cross section is the
integral over the scattering angle of the sum of the squared helicity amplitudes, whatever the coefficients. -/
theorem C136_partonic (sh : ℝ) (wc : WcEff) {q1 q2 l : String} {U : UD} {i1 i2 il : Fin 3}
    (h1 : (q1, U, i1) ∈ quarkOf) (h2 : (q2, U, i2) ∈ quarkOf) (hl : (l, il) ∈ leptonOf) :
    sigmaPartonic sh q1 q2 l wc = .ok (∫ c in (-1)..1, dsdc sh c (contact (wc U) il i1 i2)) := by
  rw [← partonic_int]
  simp only [quarkOf, leptonOf, List.mem_cons, Prod.mk.injEq, List.not_mem_nil, or_false] at h1 h2 hl
  rcases h1 with ⟨rfl, rfl, rfl⟩ | ⟨rfl, rfl, rfl⟩ | ⟨rfl, rfl, rfl⟩ | ⟨rfl, rfl, rfl⟩ | ⟨rfl, rfl, rfl⟩ <;>
    rcases h2 with ⟨rfl, h, rfl⟩ | ⟨rfl, h, rfl⟩ | ⟨rfl, h, rfl⟩ | ⟨rfl, h, rfl⟩ | ⟨rfl, h, rfl⟩ <;>
    first
    | exact absurd h (by decide)
    | (rcases hl with ⟨rfl, rfl⟩ | ⟨rfl, rfl⟩ | ⟨rfl, rfl⟩ <;> rfl)

/-- **C136 (charges)** Two quarks of different charge are refused. -/
theorem C136_charges (sh : ℝ) (wc : WcEff) {q1 q2 : String} (l : String) {U1 U2 : UD} {i1 i2 : Fin 3}
    (h1 : (q1, U1, i1) ∈ quarkOf) (h2 : (q2, U2, i2) ∈ quarkOf) (h : U1 ≠ U2) : sigmaPartonic sh q1 q2 l wc = .error .valueError := by
  simp only [quarkOf, List.mem_cons, Prod.mk.injEq, List.not_mem_nil, or_false] at h1 h2
  rcases h1 with ⟨rfl, rfl, rfl⟩ | ⟨rfl, rfl, rfl⟩ | ⟨rfl, rfl, rfl⟩ | ⟨rfl, rfl, rfl⟩ | ⟨rfl, rfl, rfl⟩ <;>
    rcases h2 with ⟨rfl, rfl, rfl⟩ | ⟨rfl, rfl, rfl⟩ | ⟨rfl, rfl, rfl⟩ | ⟨rfl, rfl, rfl⟩ | ⟨rfl, rfl, rfl⟩ <;>
    first
    | exact absurd rfl h
    | rfl

/-- **C136 (symmetry)** If the coefficients of the currents are Hermitian, exchanging the flavours of quark and antiquark does
not change the cross section. -/
theorem C136_symmetry (sh : ℝ) (wc : WcEff) (q1 q2 l : String)
    (hH : ∀ U i k m, (wc U).VLL i i m k = conj ((wc U).VLL i i k m)) (hH2 : ∀ U i k m, (wc U).VLR i i m k = conj ((wc U).VLR i i k m))
    (hH3 : ∀ U i k m, (wc U).VRL i i m k = conj ((wc U).VRL i i k m)) (hH4 : ∀ U i k m, (wc U).VRR i i m k = conj ((wc U).VRR i i k m)) :
    sigmaPartonic sh q1 q2 l wc = sigmaPartonic sh q2 q1 l wc := by
  have e : ∀ U il i1 i2, sumSq (wc U) il i1 i2 = sumSq (wc U) il i2 i1 := by
    intro U il i1 i2
    unfold sumSq
    rw [hH U il i2 i1, hH2 U il i2 i1, hH3 U il i2 i1, hH4 U il i2 i1]
    simp only [RCLike.norm_conj]; ring
  have k : ∀ n, (∃ v, fermionIndices n = .ok v) ∨ fermionIndices n = .error .keyError := by
    intro n; unfold fermionIndices; split <;> simp
  unfold sigmaPartonic
  rcases k q1 with ⟨a, ha⟩ | ha <;> rcases k q2 with ⟨b, hb⟩ | hb <;> simp only [ha, hb, Bind.bind, Except.bind]
  by_cases h : a.1 = b.1
  · simp only [h, ne_eq, not_true_eq_false, if_false, pure, Except.pure]
    rcases k l with ⟨c, hc⟩ | hc <;> simp only [hc]
    have ga : ∀ n, (∃ U, getAmp wc n = .ok (wc U)) ∨ getAmp wc n = .error .keyError := by
      intro n; unfold getAmp; split
      · exact .inl ⟨_, rfl⟩
      · exact .inl ⟨_, rfl⟩
      · exact .inr rfl
    rcases ga b.1 with ⟨U, hU⟩ | hU <;> simp only [hU]
    rw [e U c.2 a.2 b.2]
  · simp [h, Ne.symm h, throw, throwThe, MonadExceptOf.throw]

/-! ## Hadronic cross section -/

/-- The number of a quark in the Monte Carlo numbering scheme of the Particle Data Group. (Specification.) -/
def pid : UD → Fin 3 → ℤ
  | .d, k => 2 * (k : ℕ) + 1
  | .u, k => 2 * (k : ℕ) + 2

/-- **Specification.** Sum over quarks and antiquarks of the same charge (five flavours) in both protons. -/
noncomputable def hadronic (lumi : ℤ → ℤ → ℝ → ℝ) (tau : ℝ) (sig : UD → Fin 3 → Fin 3 → ℝ) : ℝ :=
  (∑ i : Fin 2, ∑ j : Fin 2, 2 * lumi (pid .u i.castSucc) (-pid .u j.castSucc) tau * sig .u i.castSucc j.castSucc)
  + ∑ i : Fin 3, ∑ j : Fin 3, 2 * lumi (pid .d i) (-pid .d j) tau * sig .d i j

theorem quarkStep_eq (lumi : ℤ → ℤ → ℝ → ℝ) (s tau : ℝ) (wc : WcEff) {q1 q2 l : String} {U U' : UD} {i1 i2 il : Fin 3} (x : ℝ)
    (h1 : (q1, U, i1) ∈ quarkOf) (h2 : (q2, U', i2) ∈ quarkOf) (hl : (l, il) ∈ leptonOf) :
    quarkStep lumi s tau l wc q1 x q2 = .ok (x + if U = U' then 2 * lumi (pid U i1) (-pid U' i2) tau * ∫ c in (-1)..1, dsdc (tau * s) c (contact (wc U) il i1 i2) else 0) := by
  by_cases hU : U = U'
  · subst hU
    have hp := C136_partonic (tau * s) wc h1 h2 hl
    have hf : ∀ {q U i}, (q, U, i) ∈ quarkOf → (∃ n, fermionIndices q = .ok (n, i) ∧ (n = "u" ↔ U = .u) ∧ (n = "d" ↔ U = .d)) ∧ pdfFlavor q = .ok (pid U i) := by
      intro q U i h
      simp only [quarkOf, List.mem_cons, Prod.mk.injEq, List.not_mem_nil, or_false] at h
      rcases h with ⟨rfl, rfl, rfl⟩ | ⟨rfl, rfl, rfl⟩ | ⟨rfl, rfl, rfl⟩ | ⟨rfl, rfl, rfl⟩ | ⟨rfl, rfl, rfl⟩ <;> refine ⟨⟨_, rfl, ?_⟩, rfl⟩ <;> decide
    obtain ⟨⟨n1, e1, a1, b1⟩, p1⟩ := hf h1
    obtain ⟨⟨n2, e2, a2, b2⟩, p2⟩ := hf h2
    have hn : n1 = n2 := by cases U <;> simp_all
    subst hn
    unfold quarkStep
    simp only [e1, e2, p1, p2, Bind.bind, Except.bind, ne_eq, not_true_eq_false, if_false, hp, if_true, pure, Except.pure, ite_not]
    split_ifs with h0
    · rw [h0]; simp
    · rfl
  · simp only [quarkOf, List.mem_cons, Prod.mk.injEq, List.not_mem_nil, or_false] at h1 h2
    rw [if_neg hU, add_zero]
    rcases h1 with ⟨rfl, rfl, rfl⟩ | ⟨rfl, rfl, rfl⟩ | ⟨rfl, rfl, rfl⟩ | ⟨rfl, rfl, rfl⟩ | ⟨rfl, rfl, rfl⟩ <;>
      rcases h2 with ⟨rfl, rfl, rfl⟩ | ⟨rfl, rfl, rfl⟩ | ⟨rfl, rfl, rfl⟩ | ⟨rfl, rfl, rfl⟩ | ⟨rfl, rfl, rfl⟩ <;>
      first
      | exact absurd rfl hU
      | rfl

/-- **C136 (hadronic cross section)** The differential cross section is the sum over the five quark flavours in either proton of
luminosity times partonic cross section; contributions skipped because they are zero do not matter. -/
theorem C136_hadronic (lumi : ℤ → ℤ → ℝ → ℝ) (s tau : ℝ) (wc : WcEff) {l : String} {il : Fin 3} (hl : (l, il) ∈ leptonOf) :
    dsigma lumi s tau l wc = .ok (hadronic lumi tau fun U i j => ∫ c in (-1)..1, dsdc (tau * s) c (contact (wc U) il i j)) := by
  have hd : ("d", UD.d, (0 : Fin 3)) ∈ quarkOf := by decide
  have hu : ("u", UD.u, (0 : Fin 3)) ∈ quarkOf := by decide
  have hs : ("s", UD.d, (1 : Fin 3)) ∈ quarkOf := by decide
  have hc : ("c", UD.u, (1 : Fin 3)) ∈ quarkOf := by decide
  have hb : ("b", UD.d, (2 : Fin 3)) ∈ quarkOf := by decide
  unfold dsigma quarks
  simp only [List.foldlM_cons, List.foldlM_nil, Bind.bind, Except.bind, pure, Except.pure,
    quarkStep_eq lumi s tau wc _ hd hd hl, quarkStep_eq lumi s tau wc _ hd hu hl, quarkStep_eq lumi s tau wc _ hd hs hl, quarkStep_eq lumi s tau wc _ hd hc hl, quarkStep_eq lumi s tau wc _ hd hb hl,
    quarkStep_eq lumi s tau wc _ hu hd hl, quarkStep_eq lumi s tau wc _ hu hu hl, quarkStep_eq lumi s tau wc _ hu hs hl, quarkStep_eq lumi s tau wc _ hu hc hl, quarkStep_eq lumi s tau wc _ hu hb hl,
    quarkStep_eq lumi s tau wc _ hs hd hl, quarkStep_eq lumi s tau wc _ hs hu hl, quarkStep_eq lumi s tau wc _ hs hs hl, quarkStep_eq lumi s tau wc _ hs hc hl, quarkStep_eq lumi s tau wc _ hs hb hl,
    quarkStep_eq lumi s tau wc _ hc hd hl, quarkStep_eq lumi s tau wc _ hc hu hl, quarkStep_eq lumi s tau wc _ hc hs hl, quarkStep_eq lumi s tau wc _ hc hc hl, quarkStep_eq lumi s tau wc _ hc hb hl,
    quarkStep_eq lumi s tau wc _ hb hd hl, quarkStep_eq lumi s tau wc _ hb hu hl, quarkStep_eq lumi s tau wc _ hb hs hl, quarkStep_eq lumi s tau wc _ hb hc hl, quarkStep_eq lumi s tau wc _ hb hb hl]
  refine congrArg Except.ok ?_
  simp only [hadronic, Fin.sum_univ_two, Fin.sum_univ_three, reduceCtorEq, if_true, if_false, Fin.castSucc_zero, Fin.castSucc_one]
  ring

/-! ## The amplitude of the Standard Model -/

/-- Third component of the weak isospin of the left-handed and right-handed quark. (Specification.) -/
noncomputable def isospin : UD → Chi → ℝ
  | .u, .L => 1 / 2
  | .d, .L => -1 / 2
  | _, .R => 0

/-- The charge of the quark. (Specification.) -/
noncomputable def charge : UD → ℝ
  | .u => 2 / 3
  | .d => -1 / 3

/-- **C136 (Standard Model)** With `g²`, `g'²` at 1 TeV, `sin²θ = g'²/(g²+g'²)` and `e² = g² sin²θ` the amplitude is the exchange
of a photon and a `Z` with couplings `√(g²+g'²) (T₃ - 1.001 sin²θ Q)`. -/
theorem C136_standard_model (p : Zpole.Par) (U : UD) (Xq Xl : Chi) (s : ℝ) :
    let g := 4 * Real.pi * p.alphaE / p.s2w * 0.9608
    let g' := 4 * Real.pi * p.alphaE / (1 - p.s2w) * 1.0272
    let sw := g' / (g + g')
    smAmp p U Xq Xl s = ((-(g * sw) * charge U / s : ℝ) : ℂ)
      + ((Real.sqrt (g + g') * (isospin U Xq - 1.001 * sw * charge U) * (Real.sqrt (g + g') * ((match Xl with | .L => -1 / 2 | .R => 0) + 1.001 * sw)) : ℝ) : ℂ)
        / ((s : ℂ) - (p.mZ : ℂ) ^ 2 + I * (p.mZ / p.tauZ : ℝ)) := by
  intro g g' sw
  have hg : g2 p = g := rfl
  have hg' : gp2 p = g' := rfl
  have hs : s2w' p = sw := rfl
  unfold smAmp gZ Zpole.gVSM Zpole.gASM
  simp only [hg, hg', hs]
  clear_value sw g g'
  congr 1
  · congr 1; cases U <;> simp [UD.fm, Zpole.Fm.q, Zpole.Fm.sec, charge]
  · congr 1
    · congr 1
      cases U <;> cases Xq <;> cases Xl <;> simp [UD.fm, Zpole.Fm.q, Zpole.Fm.t3, Zpole.Fm.sec, charge, isospin] <;> ring
    · push_cast; ring

end Verif.Dileptons
