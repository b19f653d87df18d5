import Verif.Physics.Dipoles.Edm
import Verif.Physics.Kdecays.KllTheorems
set_option linter.unusedVariables false
set_option linter.unusedSimpArgs false
namespace Verif.Edm
open Verif.Py Verif.Running Verif.Bll Complex

theorem names_neq : (("d" : String) ∈ ["e", "mu", "tau"]) = False ∧ (("u" : String) ∈ ["e", "mu", "tau"]) = False
    ∧ (("s" : String) ∈ ["e", "mu", "tau"]) = False ∧ (("e" : String) ∈ ["e", "mu", "tau"]) = True
    ∧ (("d" : String) = "u") = False ∧ (("s" : String) = "u") = False ∧ (("s" : String) = "d") = False
    ∧ eftNfOut "WET-3" = .ok 3 := by
  refine ⟨?_, ?_, ?_, ?_, ?_, ?_, ?_, ?_⟩ <;> first | rfl | decide

/-- The running mass the EDM code uses for a fermion, in words: leptons take their pole mass parameter, the strange
quark its running mass, and – the finding – the *up* quark takes the running *down* mass and conversely.
(Specification.) -/
def massUsed (d : Inp) (f : String) : ℝ :=
  if f = "u" then d.getMd 3 else if f = "d" then d.getMu 3 else if f = "s" then d.getMs 3 else d.par ("m_" ++ f)

theorem getM_d (d : Inp) : getM d "d" "WET-3" = .ok (d.getMu 3) := by
  simp [getM, names_neq, Bind.bind, Except.bind, pure, Except.pure]
theorem getM_u (d : Inp) : getM d "u" "WET-3" = .ok (d.getMd 3) := by
  simp [getM, names_neq, Bind.bind, Except.bind, pure, Except.pure]
theorem getM_s (d : Inp) : getM d "s" "WET-3" = .ok (d.getMs 3) := by
  simp [getM, names_neq, Bind.bind, Except.bind, pure, Except.pure]
theorem getM_e (d : Inp) : getM d "e" "WET-3" = .ok (d.par "m_e") := by
  simp [getM]

/-- (FINDING) the mass handed out for the up quark is the down mass and conversely, in every EFT; the two agree with
the right masses exactly when the running masses are equal. -/
theorem C117_quark_masses_swapped (d : Inp) (eft : String) (nf : Nat) (h : eftNfOut eft = .ok nf) :
    getM d "u" eft = .ok (d.getMd nf) ∧ getM d "d" eft = .ok (d.getMu nf) ∧ getM d "s" eft = .ok (d.getMs nf)
    ∧ ((getM d "u" eft = .ok (d.getMu nf) ∧ getM d "d" eft = .ok (d.getMd nf)) ↔ d.getMu nf = d.getMd nf) := by
  have hu : getM d "u" eft = .ok (d.getMd nf) := by
    simp [getM, h, Bind.bind, Except.bind, pure, Except.pure]
  have hd : getM d "d" eft = .ok (d.getMu nf) := by
    simp [getM, h, Bind.bind, Except.bind, pure, Except.pure]
  refine ⟨hu, hd, ?_, ?_⟩
  · simp [getM, h, Bind.bind, Except.bind, pure, Except.pure]
  · rw [hu, hd]; simp only [Except.ok.injEq]; constructor
    · rintro ⟨h1, _⟩; exact h1.symm
    · intro h1; exact ⟨h1.symm, h1⟩
example : eftNfOut "WET" = .ok 5 ∧ eftNfOut "WET-4" = .ok 4 ∧ eftNfOut "WET-3" = .ok 3 ∧ eftNfOut "WET-2" = .ok 2 := by
  refine ⟨?_, ?_, ?_, ?_⟩ <;> rfl

/-- Charged leptons need no EFT name; anything else with an unknown EFT is a `KeyError`, and a fermion that is neither
a charged lepton nor u, d, s is a `ValueError`. -/
theorem C117_errors (d : Inp) (f eft : String) :
    (f ∈ ["e", "mu", "tau"] → getM d f eft = .ok (d.par ("m_" ++ f)))
    ∧ (f ∉ ["e", "mu", "tau"] → eft ∉ ["WET", "WET-4", "WET-3", "WET-2"] → getM d f eft = .error .keyError)
    ∧ (f ∉ ["e", "mu", "tau", "u", "d", "s"] → eft ∈ ["WET", "WET-4", "WET-3", "WET-2"] → getM d f eft = .error .valueError) := by
  refine ⟨fun h => by rw [getM, if_pos h], fun h h2 => ?_, fun h h2 => ?_⟩
  · rw [getM, if_neg h]
    have : eftNfOut eft = .error .keyError := by
      simp only [List.mem_cons, List.not_mem_nil, or_false, not_or] at h2
      obtain ⟨a, b, c, e⟩ := h2
      simp only [eftNfOut, List.lookup, beq_eq_false_iff_ne.mpr a, beq_eq_false_iff_ne.mpr b, beq_eq_false_iff_ne.mpr c, beq_eq_false_iff_ne.mpr e]
    rw [this]; rfl
  · simp only [List.mem_cons, List.not_mem_nil, or_false, not_or] at h
    obtain ⟨a, b, c, u, dd, s⟩ := h
    have hn : f ∉ ["e", "mu", "tau"] := by simp [a, b, c]
    rw [getM, if_neg hn]
    have : ∃ n, eftNfOut eft = .ok n := by
      simp only [List.mem_cons, List.not_mem_nil, or_false] at h2
      rcases h2 with rfl | rfl | rfl | rfl
      exacts [⟨5, rfl⟩, ⟨4, rfl⟩, ⟨3, rfl⟩, ⟨2, rfl⟩]
    obtain ⟨n, hn⟩ := this
    simp only [hn, Bind.bind, Except.bind, if_neg u, if_neg dd, if_neg s]; rfl
example (d : Inp) : getM d "u" "SMEFT" = .error .keyError ∧ getM d "c" "WET" = .error .valueError :=
  ⟨(C117_errors d "u" "SMEFT").2.1 (by decide) (by decide), (C117_errors d "c" "WET").2.2 (by decide) (by decide)⟩

/-- The dipole prefactor `2 · (4 GF/√2)/(16 π²)` (independent of the model's helpers). (Specification.) -/
noncomputable def k0 (d : Inp) : ℝ := 2 * (4 * d.par "GF" / Real.sqrt 2 / (16 * Real.pi ^ 2))

/-- An EDM is `2p Im C7`, with `e = √(4πα)` and the mass of `massUsed`. -/
theorem edm_val (d : Inp) (h : 0 ≤ d.alphaE 3) (f : String) (hf : f ∈ ["e", "u", "d", "s"]) :
    edmF d f "WET-3" = .ok (k0 d * Real.sqrt (4 * Real.pi * d.alphaE 3) * massUsed d f * (d.wc ("C7_" ++ f ++ f)).im) := by
  have hp : (0:ℝ) ≤ 4 * Real.pi * d.alphaE 3 := by positivity
  simp only [List.mem_cons, List.not_mem_nil, or_false] at hf
  have e3 := names_neq.2.2.2.2.2.2.2
  have me : ("m_" ++ "e" : String) = "m_e" := rfl
  rcases hf with rfl | rfl | rfl | rfl
  all_goals
    simp only [edmF, getM_e, getM_u, getM_d, getM_s, e3, Bind.bind, Except.bind, Kll.pySqrt_ok hp, pure, Except.pure, k0, massUsed]
    congr 1
    simp only [String.reduceEq, if_true, if_false, me]
    ring_nf
    try rfl

theorem cedm_val (d : Inp) (f : String) (hf : f ∈ ["u", "d", "s"]) :
    cedmF d f "WET-3" = .ok (k0 d * massUsed d f * (d.wc ("C8_" ++ f ++ f)).im) := by
  simp only [List.mem_cons, List.not_mem_nil, or_false] at hf
  rcases hf with rfl | rfl | rfl
  all_goals
    simp only [cedmF, getM_e, getM_u, getM_d, getM_s, Bind.bind, Except.bind, pure, Except.pure, k0, massUsed]
    congr 1
    simp only [String.reduceEq, if_true, if_false]
    ring_nf
    try rfl

/-- What multiplies the Weinberg coefficient's real partner: the quark (C)EDM sum. (Specification.) -/
noncomputable def quarkPart (d : Inp) : ℝ :=
  let e := Real.sqrt (4 * Real.pi * d.alphaE 3)
  k0 d * (e * (d.par "gT_u" * d.getMu 3 * (d.wc "C7_dd").im + d.par "gT_d" * d.getMd 3 * (d.wc "C7_uu").im + d.par "gT_s" * d.getMs 3 * (d.wc "C7_ss").im)
    + d.par "nEDM ~rho_d" * d.getMu 3 * (d.wc "C8_dd").im + d.par "nEDM ~rho_u" * d.getMd 3 * (d.wc "C8_uu").im
    + d.par "nEDM ~rho_s" * d.getMs 3 * (d.wc "C8_ss").im)

/-- The exact neutron EDM: quark EDMs with the proton charges of the *other* quark, chromo-EDMs, and the Weinberg
operator, in modulus.  The masses are the ones the code uses (down and up exchanged). -/
theorem C117_nedm_value (d : Inp) (h : 0 ≤ d.alphaE 3) :
    nedm d = .ok ‖((quarkPart d : ℝ) : ℂ) + (d.par "nEDM beta_G" : ℂ) * d.wc "CGtilde"‖ := by
  have s1 : ("C7_" ++ "d" ++ "d" : String) = "C7_dd" := rfl
  have s2 : ("C7_" ++ "u" ++ "u" : String) = "C7_uu" := rfl
  have s3 : ("C7_" ++ "s" ++ "s" : String) = "C7_ss" := rfl
  have s4 : ("C8_" ++ "d" ++ "d" : String) = "C8_dd" := rfl
  have s5 : ("C8_" ++ "u" ++ "u" : String) = "C8_uu" := rfl
  have s6 : ("C8_" ++ "s" ++ "s" : String) = "C8_ss" := rfl
  have m1 : massUsed d "d" = d.getMu 3 := by simp [massUsed]
  have m2 : massUsed d "u" = d.getMd 3 := by simp [massUsed]
  have m3 : massUsed d "s" = d.getMs 3 := by simp [massUsed]
  simp only [nedm, edm_val d h "d" (by simp), edm_val d h "u" (by simp), edm_val d h "s" (by simp),
    cedm_val d "d" (by simp), cedm_val d "u" (by simp), cedm_val d "s" (by simp), Bind.bind, Except.bind, pure, Except.pure,
    s1, s2, s3, s4, s5, s6, m1, m2, m3]
  congr 3
  push_cast [quarkPart]
  ring

theorem alpha_neg (d : Inp) (h : d.alphaE 3 < 0) : nedm d = .error .valueError := by
  have hp : 4 * Real.pi * d.alphaE 3 < 0 := by have := Real.pi_pos; nlinarith [mul_pos this this, mul_neg_of_pos_of_neg this h]
  have e3 := names_neq.2.2.2.2.2.2.2
  have : pySqrt (4 * Real.pi * d.alphaE 3) = .error .valueError := by
    simp [pySqrt, hp]
  simp only [nedm, edmF, getM_d, e3, Bind.bind, Except.bind, this]

/-- The neutron EDM is never negative; a value is produced exactly when `α_e ≥ 0` (otherwise `math.sqrt` raises). -/
theorem C117_nedm_nonneg (d : Inp) : (∀ x, nedm d = .ok x → 0 ≤ x) ∧ ((∃ x, nedm d = .ok x) ↔ 0 ≤ d.alphaE 3)
    ∧ (d.alphaE 3 < 0 → nedm d = .error .valueError) := by
  refine ⟨fun x hx => ?_, ⟨fun ⟨x, hx⟩ => ?_, fun h => ⟨_, C117_nedm_value d h⟩⟩, alpha_neg d⟩
  · by_cases h : 0 ≤ d.alphaE 3
    · rw [C117_nedm_value d h] at hx; injection hx with hx; rw [← hx]; positivity
    · rw [alpha_neg d (lt_of_not_ge h)] at hx; cases hx
  · by_contra h; rw [alpha_neg d (lt_of_not_ge h)] at hx; cases hx

/-- CP conservation: with real dipole coefficients (imaginary parts zero) and no Weinberg operator, the neutron EDM is
zero, whatever the real parts are. -/
theorem C117_nedm_zero (d : Inp) (h : 0 ≤ d.alphaE 3) (hG : d.wc "CGtilde" = 0)
    (h7 : ∀ n ∈ ["C7_dd", "C7_uu", "C7_ss", "C8_dd", "C8_uu", "C8_ss"], (d.wc n).im = 0) : nedm d = .ok 0 := by
  rw [C117_nedm_value d h, hG]
  have q : quarkPart d = 0 := by
    have := h7 "C7_dd" (by simp); have := h7 "C7_uu" (by simp); have := h7 "C7_ss" (by simp)
    have := h7 "C8_dd" (by simp); have := h7 "C8_uu" (by simp); have := h7 "C8_ss" (by simp)
    simp [quarkPart, *]
  simp [q]

/-- Only the imaginary parts of the six dipole coefficients and the Weinberg coefficient matter. -/
theorem C117_nedm_reads (d d' : Inp) (hp : d'.par = d.par) (ha : d'.alphaE = d.alphaE) (h1 : d'.getMu = d.getMu) (h2 : d'.getMd = d.getMd)
    (h3 : d'.getMs = d.getMs) (hG : d'.wc "CGtilde" = d.wc "CGtilde")
    (h7 : ∀ n ∈ ["C7_dd", "C7_uu", "C7_ss", "C8_dd", "C8_uu", "C8_ss"], (d'.wc n).im = (d.wc n).im) : nedm d' = nedm d := by
  by_cases h : 0 ≤ d.alphaE 3
  · have h' : 0 ≤ d'.alphaE 3 := by rw [ha]; exact h
    rw [C117_nedm_value d h, C117_nedm_value d' h', hG]
    have q : quarkPart d' = quarkPart d := by
      simp only [quarkPart, k0, hp, ha, h1, h2, h3, h7 "C7_dd" (by simp), h7 "C7_uu" (by simp), h7 "C7_ss" (by simp),
        h7 "C8_dd" (by simp), h7 "C8_uu" (by simp), h7 "C8_ss" (by simp)]
    rw [q, hp]
  · rw [alpha_neg d (lt_of_not_ge h), alpha_neg d' (by rw [ha]; exact lt_of_not_ge h)]

/-- Multiplying every coefficient by a real `t` multiplies the neutron EDM by `|t|`. -/
theorem C117_nedm_scaling (d : Inp) (t x : ℝ) (hx : nedm d = .ok x) :
    nedm { d with wc := fun n => (t : ℂ) * d.wc n } = .ok (|t| * x) := by
  have h : 0 ≤ d.alphaE 3 := (C117_nedm_nonneg d).2.1.mp ⟨x, hx⟩
  rw [C117_nedm_value d h] at hx; injection hx with hx
  rw [C117_nedm_value _ (by exact h)]
  congr 1
  have q : quarkPart { d with wc := fun n => (t : ℂ) * d.wc n } = t * quarkPart d := by
    simp only [quarkPart, k0, Complex.im_ofReal_mul]; ring
  rw [q, ← hx, ← Real.norm_eq_abs, ← Complex.norm_real, ← norm_mul]
  congr 1; push_cast; ring

/-- A concrete case: unit masses, charges and α, only an up-quark dipole. -/
noncomputable def ref : Inp := { par := fun _ => 1, wc := fun n => if n = "C7_uu" then I else 0, getMu := fun _ => 2, getMd := fun _ => 5, getMs := fun _ => 90, alphaE := fun _ => 1 }
/-- (FINDING witness) a purely up-quark dipole gives a neutron EDM proportional to the down-quark mass (here 5, not 2). -/
example : nedm ref = .ok ‖((k0 ref * (Real.sqrt (4 * Real.pi * 1) * 5) : ℝ) : ℂ)‖ := by
  rw [C117_nedm_value ref (by norm_num [ref])]
  congr 3
  simp [quarkPart, ref]
example : nedm { ref with wc := fun _ => 7 * 0 } = .ok 0 := C117_nedm_zero _ (by norm_num [ref]) (by simp) (by simp)

/-! ## Scalar electron–nucleon coupling and paramagnetic systems -/

/-- The proton charges exist exactly when no quark-mass combination vanishes; otherwise a division by zero. -/
theorem C117_charges (d : Inp) :
    ((∃ c, protonCharges d = .ok c) ↔ (d.getMd 3 + d.getMu 3 ≠ 0 ∧ d.getMs 3 ≠ 0))
    ∧ (¬ (d.getMd 3 + d.getMu 3 ≠ 0 ∧ d.getMs 3 ≠ 0) → protonCharges d = .error .zeroDivisionError)
    ∧ (∀ c, protonCharges d = .ok c → c.gSupd = 2 * d.par "sigma_piN" / (d.getMd 3 + d.getMu 3) ∧ c.gSumd = d.par "gS_u-d"
        ∧ c.gSs = d.par "sigma_s" / d.getMs 3 ∧ c.gTumd + c.gTupd = 2 * d.par "gT_u" ∧ c.gTupd - c.gTumd = 2 * d.par "gT_d"
        ∧ c.gPumd = (d.par "m_p" + d.par "m_n") / (d.getMd 3 + d.getMu 3) + d.par "g_A" ∧ c.gVumd = 1 ∧ c.gAumd = d.par "g_A"
        ∧ c.gAs = d.par "gA_s" ∧ c.gTs = d.par "gT_s") := by
  by_cases h1 : d.getMd 3 + d.getMu 3 = 0
  · have e : protonCharges d = .error .zeroDivisionError := by
      simp only [protonCharges, h1, Mixing.pyDiv_zero, Bind.bind, Except.bind]
    rw [e]; simp [h1]
  · have h1' : (d.getMd 3 + d.getMu 3) / 2 ≠ 0 := div_ne_zero h1 (by norm_num)
    by_cases h2 : d.getMs 3 = 0
    · have e : protonCharges d = .error .zeroDivisionError := by
        simp only [protonCharges, Mixing.pyDiv_ne h1, Mixing.pyDiv_ne h1', h2, Mixing.pyDiv_zero, Bind.bind, Except.bind]
      rw [e]; simp [h2]
    · simp only [protonCharges, Mixing.pyDiv_ne h1, Mixing.pyDiv_ne h1', Mixing.pyDiv_ne h2, Bind.bind, Except.bind, pure, Except.pure]
      refine ⟨⟨fun _ => ⟨h1, h2⟩, fun _ => ⟨_, rfl⟩⟩, fun h => absurd ⟨h1, h2⟩ h, ?_⟩
      rintro c hc; injection hc with hc; subst hc
      refine ⟨?_, rfl, rfl, by ring, by ring, rfl, rfl, rfl, rfl, rfl⟩
      show d.par "sigma_piN" / ((d.getMd 3 + d.getMu 3) / 2) = _
      field_simp

/-- Scalar couplings of up and down seen by the electron EDM formulas. (Specification.) -/
noncomputable def cSq (d : Inp) (q : String) : ℝ := -((d.wc ("CSRR_ee" ++ q ++ q)).im + (d.wc ("CSRL_ee" ++ q ++ q)).im)

theorem CS_val (d : Inp) (Z N : ℝ) (h1 : d.getMd 3 + d.getMu 3 ≠ 0) (h2 : d.getMs 3 ≠ 0) (h3 : Z + N ≠ 0) :
    CSc d Z N = .ok (2 * d.par "sigma_piN" / (d.getMd 3 + d.getMu 3) * (cSq d "u" + cSq d "d")
      + (Z - N) / (Z + N) * (d.par "gS_u-d" * (cSq d "u" - cSq d "d"))) := by
  obtain ⟨c, hc⟩ := (C117_charges d).1.mpr ⟨h1, h2⟩
  obtain ⟨a, b, _⟩ := (C117_charges d).2.2 c hc
  simp only [CSc, hc, Bind.bind, Except.bind, pure, Except.pure, Mixing.pyDiv_ne h3, a, b, cSq]
  rfl

/-- The exact energy shift / atomic EDM: `α_de d_e + α_CS C_S`, for every entry of the two tables; molecules (registered
with `Z = N`) do not see the isovector coupling, thallium sees it with weight `-1/7`. -/
theorem C117_para_value (d : Inp) (h : 0 ≤ d.alphaE 3) (h1 : d.getMd 3 + d.getMu 3 ≠ 0) (h2 : d.getMs 3 ≠ 0) :
    (∀ s ∈ ["YbF", "HfF", "ThO"], para d tabMolecules s = .ok
      (d.par ("alpha_de(" ++ s ++ ")") * (k0 d * Real.sqrt (4 * Real.pi * d.alphaE 3) * d.par "m_e" * (d.wc "C7_ee").im)
       + d.par ("alpha_CS(" ++ s ++ ")") * (2 * d.par "sigma_piN" / (d.getMd 3 + d.getMu 3) * (cSq d "u" + cSq d "d"))))
    ∧ para d tabAtoms "Tl" = .ok
      (d.par "alpha_de(Tl)" * (k0 d * Real.sqrt (4 * Real.pi * d.alphaE 3) * d.par "m_e" * (d.wc "C7_ee").im)
       + d.par "alpha_CS(Tl)" * (2 * d.par "sigma_piN" / (d.getMd 3 + d.getMu 3) * (cSq d "u" + cSq d "d")
          - 1 / 7 * (d.par "gS_u-d" * (cSq d "u" - cSq d "d")))) := by
  have s1 : ("C7_" ++ "e" ++ "e" : String) = "C7_ee" := rfl
  have m1 : massUsed d "e" = d.par "m_e" := by simp [massUsed]
  have l1 : tabMolecules.lookup "YbF" = some (1, 1, "\\text{HfF}") := rfl
  have l2 : tabMolecules.lookup "HfF" = some (1, 1, "\\text{HfF}") := rfl
  have l3 : tabMolecules.lookup "ThO" = some (1, 1, "\\text{HfF}") := rfl
  have l4 : tabAtoms.lookup "Tl" = some (3, 4, "\\text{Tl}") := rfl
  constructor
  · intro s hs
    simp only [List.mem_cons, List.not_mem_nil, or_false] at hs
    rcases hs with rfl | rfl | rfl
    all_goals
      simp only [para, l1, l2, l3, Bind.bind, Except.bind, edm_val d h "e" (by simp), CS_val d ((1 : ℕ) : ℝ) ((1 : ℕ) : ℝ) h1 h2 (by norm_num), pure, Except.pure, s1, m1]
      congr 1; norm_num
  · simp only [para, l4, Bind.bind, Except.bind, edm_val d h "e" (by simp), CS_val d ((3 : ℕ) : ℝ) ((4 : ℕ) : ℝ) h1 h2 (by norm_num), pure, Except.pure, s1, m1]
    have s5 : ("alpha_de(" ++ "Tl" ++ ")" : String) = "alpha_de(Tl)" := rfl
    have s6 : ("alpha_CS(" ++ "Tl" ++ ")" : String) = "alpha_CS(Tl)" := rfl
    rw [s5, s6]
    congr 1; push_cast; ring

/-- A system that is not in the table is a `KeyError`; massless quarks give a `ZeroDivisionError`. -/
theorem C117_para_errors (d : Inp) (s : String) :
    (s ∉ ["YbF", "HfF", "ThO"] → para d tabMolecules s = .error .keyError) ∧ (s ≠ "Tl" → para d tabAtoms s = .error .keyError)
    ∧ (0 ≤ d.alphaE 3 → d.getMd 3 + d.getMu 3 = 0 → para d tabAtoms "Tl" = .error .zeroDivisionError
        ∧ ∀ m ∈ ["YbF", "HfF", "ThO"], para d tabMolecules m = .error .zeroDivisionError) := by
  refine ⟨fun hs => ?_, fun hs => ?_, fun h h1 => ?_⟩
  · simp only [List.mem_cons, List.not_mem_nil, or_false, not_or] at hs
    obtain ⟨a, b, c⟩ := hs
    have : tabMolecules.lookup s = none := by
      simp only [tabMolecules, List.lookup, beq_eq_false_iff_ne.mpr a, beq_eq_false_iff_ne.mpr b, beq_eq_false_iff_ne.mpr c]
    simp only [para, this, Bind.bind, Except.bind]
  · have : tabAtoms.lookup s = none := by simp only [tabAtoms, List.lookup, beq_eq_false_iff_ne.mpr hs]
    simp only [para, this, Bind.bind, Except.bind]
  · have e : protonCharges d = .error .zeroDivisionError := (C117_charges d).2.1 (fun h => h.1 h1)
    have l1 : tabMolecules.lookup "YbF" = some (1, 1, "\\text{HfF}") := rfl
    have l2 : tabMolecules.lookup "HfF" = some (1, 1, "\\text{HfF}") := rfl
    have l3 : tabMolecules.lookup "ThO" = some (1, 1, "\\text{HfF}") := rfl
    have l4 : tabAtoms.lookup "Tl" = some (3, 4, "\\text{Tl}") := rfl
    constructor
    · simp only [para, l4, Bind.bind, Except.bind, edm_val d h "e" (by simp), CSc, e]
    · intro m hm
      simp only [List.mem_cons, List.not_mem_nil, or_false] at hm
      rcases hm with rfl | rfl | rfl
      all_goals simp only [para, l1, l2, l3, Bind.bind, Except.bind, edm_val d h "e" (by simp), CSc, e]

/-- CP conservation and linearity: with real coefficients every shift vanishes, and shifts of two sets of coefficients add. -/
theorem C117_para_linear (d : Inp) (h : 0 ≤ d.alphaE 3) (h1 : d.getMd 3 + d.getMu 3 ≠ 0) (h2 : d.getMs 3 ≠ 0) (w1 w2 : String → ℂ) (t : ℝ)
    (tab : List (String × Nat × Nat × String)) (s : String)
    (hs : (tab = tabMolecules ∧ s ∈ ["YbF", "HfF", "ThO"]) ∨ (tab = tabAtoms ∧ s = "Tl")) :
    ∃ x1 x2, para { d with wc := w1 } tab s = .ok x1 ∧ para { d with wc := w2 } tab s = .ok x2
      ∧ para { d with wc := fun n => w1 n + (t : ℂ) * w2 n } tab s = .ok (x1 + t * x2)
      ∧ ((∀ n, (w1 n).im = 0) → x1 = 0) := by
  rcases hs with ⟨rfl, hs⟩ | ⟨rfl, rfl⟩
  · refine ⟨_, _, (C117_para_value { d with wc := w1 } h h1 h2).1 s hs, (C117_para_value { d with wc := w2 } h h1 h2).1 s hs, ?_, ?_⟩
    · rw [(C117_para_value { d with wc := fun n => w1 n + (t : ℂ) * w2 n } h h1 h2).1 s hs]
      congr 1; simp only [cSq, k0, Complex.add_im, Complex.im_ofReal_mul]; ring
    · intro hz; simp [cSq, hz]
  · refine ⟨_, _, (C117_para_value { d with wc := w1 } h h1 h2).2, (C117_para_value { d with wc := w2 } h h1 h2).2, ?_, ?_⟩
    · rw [(C117_para_value { d with wc := fun n => w1 n + (t : ℂ) * w2 n } h h1 h2).2]
      congr 1; simp only [cSq, k0, Complex.add_im, Complex.im_ofReal_mul]; ring
    · intro hz; simp [cSq, hz]
example : 0 ≤ ref.alphaE 3 ∧ ref.getMd 3 + ref.getMu 3 ≠ 0 ∧ ref.getMs 3 ≠ 0 := by norm_num [ref]

/-- The five registered EDM observables; each table entry is evaluated with its own parameters.  (FINDING) all three
molecules carry the tex symbol of hafnium fluoride, so their labels coincide. -/
theorem C117_registry (d : Inp) :
    (registry d).map (·.1) = ["d_n", "omega_YbF", "omega_HfF", "omega_ThO", "d_Tl"] ∧ ((registry d).map (·.1)).Nodup
    ∧ (registry d).map (·.2) = [nedm d, para d tabMolecules "YbF", para d tabMolecules "HfF", para d tabMolecules "ThO", para d tabAtoms "Tl"]
    ∧ (tabMolecules.map fun t => t.2.2.2) = ["\\text{HfF}", "\\text{HfF}", "\\text{HfF}"] := by
  refine ⟨rfl, ?_, rfl, rfl⟩
  show ["d_n", "omega_YbF", "omega_HfF", "omega_ThO", "d_Tl"].Nodup
  decide

end Verif.Edm
