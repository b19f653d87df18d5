import Verif.Physics.Bvll.Assembly
set_option linter.unusedVariables false
set_option linter.unusedSimpArgs false
namespace Verif.Bvll
open Verif.Py Verif.Angular Complex

local notation "conj" => starRingEnd ℂ

/-- **Specification.** The complex number `(Re a + i Im a) + (Re b + i Im b) q²` made of four parameters. -/
def deltaLin (par : String → ℝ) (a b : String) (q2 : ℝ) : ℂ :=
  ⟨par (a ++ " Re") + par (b ++ " Re") * q2, par (a ++ " Im") + par (b ++ " Im") * q2⟩
/-- **Specification.** The complex number made of two parameters. -/
def deltaConst (par : String → ℝ) (a : String) : ℂ := ⟨par (a ++ " Re"), par (a ++ " Im")⟩

theorem poly_eq (d : Inp) (q2 : ℝ) (a b : String) : poly d q2 a b = deltaLin d.par a b q2 := by
  apply Complex.ext <;> simp [poly, deltaLin]
theorem cpar_eq (d : Inp) (a : String) : cpar d a = deltaConst d.par a := by
  apply Complex.ext <;> simp [cpar, deltaConst]

/-- The factorisable amplitude with given effective coefficients (the one of `C91`), before spectator scattering.
(Specification.) -/
noncomputable def ffAmp (d : Inp) (q2 : ℝ) (w : Wc) : AmpV := helicityV q2 d.mB d.mM d.mb 0 d.ml d.ml (d.ffV q2) w (prefactor d)

theorem ha7 (d : Inp) (q2 : ℝ) (w : Wc) (c : ℂ) :
    (ffAmp d q2 w).zeV + (haDeltaC d q2 c "7").zeV = (ffAmp d q2 { w with c7 := w.c7 + c }).zeV
    ∧ (ffAmp d q2 w).miV + (haDeltaC d q2 c "7").miV = (ffAmp d q2 { w with c7 := w.c7 + c }).miV := by
  constructor
  · simp only [ffAmp, haDeltaC, helicityV, AmpV.scale, helV1, wcOnly, wcZero, if_true]; ring
  · simp only [ffAmp, haDeltaC, helicityV, AmpV.scale, helV1, wcOnly, wcZero, if_true, transAmp, dipAmp]; ring

theorem ha7p (d : Inp) (q2 : ℝ) (w : Wc) (c : ℂ) :
    (ffAmp d q2 w).plV + (haDeltaC d q2 c "7p").plV = (ffAmp d q2 { w with c7p := w.c7p + c }).plV := by
  have h : ("7p" : String) ≠ "7" := by decide
  simp only [ffAmp, haDeltaC, helicityV, AmpV.scale, helV1, wcOnly, wcZero, if_true, if_neg h, transAmp, dipAmp]; ring

theorem ha9 (d : Inp) (q2 : ℝ) (w : Wc) (c : ℂ) :
    (ffAmp d q2 w).zeV + (haDeltaC d q2 c "v").zeV = (ffAmp d q2 { w with v := w.v + c }).zeV
    ∧ (ffAmp d q2 w).plV + (haDeltaC d q2 c "v").plV = (ffAmp d q2 { w with v := w.v + c }).plV
    ∧ (ffAmp d q2 w).miV + (haDeltaC d q2 c "v").miV = (ffAmp d q2 { w with v := w.v + c }).miV := by
  have h : ("v" : String) ≠ "7" := by decide
  have h' : ("v" : String) ≠ "7p" := by decide
  refine ⟨?_, ?_, ?_⟩ <;>
    simp only [ffAmp, haDeltaC, helicityV, AmpV.scale, helV1, wcOnly, wcZero, if_true, if_neg h, if_neg h', transAmp, dipAmp] <;> ring

/-- The spectator scattering part that enters at `q2`: that of the implementation below 8.9 GeV², nothing from there on.
(Specification.) -/
noncomputable def ssAt (d : Inp) (q2 : ℝ) (cp : Bool) : ℂ × ℂ × ℂ := if q2 < 8.9 then d.ss cp q2 else (0, 0, 0)

theorem getSS_ok (d : Inp) {B V : String} (h : (B, V) ∈ ssRegistered) (q2 : ℝ) (cp : Bool) : getSS d B V q2 cp = .ok (ssAt d q2 cp) := by
  unfold getSS ssAt
  by_cases hq : q2 < 8.9
  · rw [if_neg (not_le.mpr hq), if_pos h, if_pos hq]
  · rw [if_pos (not_lt.mp hq), if_neg hq]

theorem sub_ss {B V : String} (h : (B, V) ∈ subRegistered) : (B, V) ∈ ssRegistered ∧ ¬(B = "Bs" ∧ V = "K*0") := by
  simp only [subRegistered, ssRegistered, List.mem_cons, List.not_mem_nil, or_false, Prod.mk.injEq] at h ⊢
  rcases h with ⟨rfl, rfl⟩ | ⟨rfl, rfl⟩ | ⟨rfl, rfl⟩ <;> simp

/-- Up to 9 GeV² the correction to `B → V ll` is an effective shift of the coefficients, `C7 → C7 + δ` in the 0 and −
amplitudes and `C7' → C7' + δ'` in the + amplitude, each linear in q²; spectator scattering is added below 8.9 GeV²; all
other amplitudes (axial, scalar, tensor) are unchanged. -/
theorem C124_low_q2 (d : Inp) (B V : String) (h : (B, V) ∈ subRegistered) (q2 : ℝ) (hq : q2 ≤ 9) :
    ∃ H, helicityAmps d B V q2 false = .ok H
      ∧ let w := d.wc false q2
        let M := B ++ "->" ++ V
        let s := ssAt d q2 false
        H.zeV = (ffAmp d q2 { w with c7 := w.c7 + deltaLin d.par (M ++ " deltaC7 a_0") (M ++ " deltaC7 b_0") q2 }).zeV + s.1
        ∧ H.plV = (ffAmp d q2 { w with c7p := w.c7p + deltaLin d.par (M ++ " deltaC7p a_+") (M ++ " deltaC7p b_+") q2 }).plV + s.2.1
        ∧ H.miV = (ffAmp d q2 { w with c7 := w.c7 + deltaLin d.par (M ++ " deltaC7 a_-") (M ++ " deltaC7 b_-") q2 }).miV + s.2.2
        ∧ H = { ffAmp d q2 w with zeV := H.zeV, plV := H.plV, miV := H.miV } := by
  have g := getSS_ok d (sub_ss h).1 q2 false
  refine ⟨_, by simp only [helicityAmps, g, getSub, if_neg (sub_ss h).2, if_pos hq, if_pos h, Bind.bind, Except.bind, pure, Except.pure]; rfl, ?_⟩
  simp only [addV, c7poly, poly_eq]
  have e : haFF d q2 false = ffAmp d q2 (d.wc false q2) := rfl
  rw [e]
  refine ⟨?_, ?_, ?_, rfl⟩
  · rw [← (ha7 d q2 _ _).1]; ring
  · rw [← ha7p d q2 _ _]; ring
  · rw [← (ha7 d q2 _ _).2]; ring

/-- Above 14 GeV² it is a constant shift of `C9` per helicity, without spectator scattering. -/
theorem C124_high_q2 (d : Inp) (B V : String) (h : (B, V) ∈ subRegistered) (q2 : ℝ) (hq : 14 < q2) :
    ∃ H, helicityAmps d B V q2 false = .ok H
      ∧ let w := d.wc false q2
        let M := B ++ "->" ++ V
        H.zeV = (ffAmp d q2 { w with v := w.v + deltaConst d.par (M ++ " deltaC9 c_0") }).zeV
        ∧ H.plV = (ffAmp d q2 { w with v := w.v + deltaConst d.par (M ++ " deltaC9 c_+") }).plV
        ∧ H.miV = (ffAmp d q2 { w with v := w.v + deltaConst d.par (M ++ " deltaC9 c_-") }).miV
        ∧ H = { ffAmp d q2 w with zeV := H.zeV, plV := H.plV, miV := H.miV } := by
  have g := getSS_ok d (sub_ss h).1 q2 false
  have hs : ssAt d q2 false = (0, 0, 0) := by unfold ssAt; rw [if_neg (by norm_num; linarith)]
  rw [hs] at g
  refine ⟨_, by simp only [helicityAmps, g, getSub, if_neg (sub_ss h).2, if_neg (show ¬ q2 ≤ 9 by linarith), if_pos hq, if_pos h, Bind.bind, Except.bind, pure, Except.pure]; rfl, ?_⟩
  simp only [addV, c9shift, cpar_eq, add_zero]
  have e : haFF d q2 false = ffAmp d q2 (d.wc false q2) := rfl
  rw [e]
  refine ⟨?_, ?_, ?_, rfl⟩
  · rw [← (ha9 d q2 _ _).1]
  · rw [← (ha9 d q2 _ _).2.1]
  · rw [← (ha9 d q2 _ _).2.2]

/-- Between 9 and 14 GeV² (14 included) nothing is added to the factorisable amplitudes; `Bs → K*0` gets only spectator
scattering everywhere; a pair of mesons that is not registered raises `KeyError` outside that region, e.g. `B → ρ`. -/
theorem C124_gap (d : Inp) (q2 : ℝ) (cp : Bool) :
    (∀ B V, 9 < q2 → q2 ≤ 14 → helicityAmps d B V q2 cp = .ok (haFF d q2 cp))
    ∧ helicityAmps d "Bs" "K*0" q2 cp = .ok (addV (haFF d q2 cp) (ssAt d q2 cp))
    ∧ (∀ B V, (B, V) ∉ subRegistered → ¬(B = "Bs" ∧ V = "K*0") → (q2 ≤ 9 ∨ 14 < q2) → helicityAmps d B V q2 cp = .error .keyError)
    ∧ (q2 ≤ 9 ∨ 14 < q2 → helicityAmps d "B+" "rho+" q2 cp = .error .keyError) := by
  have z : ∀ h : AmpV, addV h (0, 0, 0) = h := by intro h; simp [addV]
  have K : ∀ B V, (B, V) ∉ subRegistered → ¬(B = "Bs" ∧ V = "K*0") → (q2 ≤ 9 ∨ 14 < q2) → helicityAmps d B V q2 cp = .error .keyError := by
    intro B V h h2 hq
    have s : getSub d B V q2 cp = .error .keyError := by
      unfold getSub
      rw [if_neg h2]
      rcases hq with hq | hq
      · rw [if_pos hq, if_neg h]
      · rw [if_neg (by linarith), if_pos hq, if_neg h]
    unfold helicityAmps
    rcases hg : getSS d B V q2 cp with e | a
    · unfold getSS at hg
      split_ifs at hg
      simp only [Bind.bind, Except.bind]
      injection hg with hg; rw [hg]
    · simp only [Bind.bind, Except.bind, s]
  refine ⟨?_, ?_, K, fun hq => K _ _ (by decide) (by decide) hq⟩
  · intro B V h1 h2
    have hs : getSS d B V q2 cp = .ok (0, 0, 0) := by unfold getSS; rw [if_pos (by norm_num; linarith)]
    have ht : getSub d B V q2 cp = .ok (0, 0, 0) := by
      unfold getSub
      split_ifs
      · rfl
      · linarith
      · linarith
      · linarith
      · linarith
      · rfl
    simp only [helicityAmps, hs, ht, Bind.bind, Except.bind, pure, Except.pure, z]
  · have g := getSS_ok d (show ("Bs", "K*0") ∈ ssRegistered by decide) q2 cp
    simp only [helicityAmps, g, getSub, and_self, if_true, Bind.bind, Except.bind, pure, Except.pure, z]

/-- In `B → P ll` the correction is an effective shift of `C9` (linear in q² up to 9 GeV², constant above 14 GeV²) of all
amplitudes; none between, none for pions. -/
theorem C124_pseudoscalar (d : Inp) (B P : String) (q2 : ℝ) (hp : (B, P) ∈ subRegisteredP) :
    let amp (c : ℂ) := helicityP q2 d.mB d.mM d.mb 0 d.ml d.ml (d.ffP q2) { d.wc false q2 with v := (d.wc false q2).v + c } (prefactor d)
    let M := B ++ "->" ++ P
    (q2 ≤ 9 → helicityAmpsP d false B P q2 false = .ok (amp (deltaLin d.par (M ++ " deltaC9 a") (M ++ " deltaC9 b") q2)))
    ∧ (14 < q2 → helicityAmpsP d false B P q2 false = .ok (amp (deltaConst d.par (M ++ " deltaC9 c"))))
    ∧ (9 < q2 → q2 ≤ 14 → helicityAmpsP d false B P q2 false = .ok (amp 0))
    ∧ helicityAmpsP d true B P q2 false = .ok (amp 0) := by
  intro amp M
  have h : ("v" : String) ≠ "7" := by decide
  have h' : ("v" : String) ≠ "7p" := by decide
  have S : ∀ c, addP (haFFP d q2 false) (haDeltaCP d q2 c "v") = amp c := by
    intro c
    simp only [amp, haFFP, haDeltaCP, helicityP, AmpP.scale, helP1, wcOnly, wcZero, if_neg h, if_neg h', if_true, addP, AmpP.mk.injEq, Bool.false_eq_true, if_false]
    refine ⟨?_, ?_, ?_, ?_, ?_, ?_⟩
    · ring
    · ring
    · simp only [sub_self, zero_div, Complex.ofReal_zero]; ring
    · simp only [add_zero, zero_div, Complex.ofReal_zero]; ring
    · ring
    · ring
  have Z : addP (haFFP d q2 false) ⟨0, 0, 0, 0, 0, 0⟩ = amp 0 := by
    simp only [amp, haFFP, addP, add_zero, Bool.false_eq_true, if_false]
  refine ⟨fun hq => ?_, fun hq => ?_, fun h1 h2 => ?_, ?_⟩
  · simp only [helicityAmpsP, getSubP, Bool.false_eq_true, if_false, if_pos hq, if_pos hp, Bind.bind, Except.bind, pure, Except.pure, pC9poly, poly_eq, S]; rfl
  · simp only [helicityAmpsP, getSubP, Bool.false_eq_true, if_false, if_neg (show ¬ q2 ≤ 9 by linarith), if_pos hq, if_pos hp, Bind.bind, Except.bind, pure, Except.pure, pC9const, cpar_eq, S]; rfl
  · simp only [helicityAmpsP, getSubP, Bool.false_eq_true, if_false, if_neg (show ¬ q2 ≤ 9 by linarith), if_neg (show ¬ q2 > 14 by linarith), Bind.bind, Except.bind, pure, Except.pure, Z]
  · simp only [helicityAmpsP, getSubP, if_true, Bind.bind, Except.bind, pure, Except.pure, Z]

/-- (FINDING) the correction entering the CP-conjugate amplitudes is identical to that of the amplitudes themselves: its CKM
factor is not conjugated, in `B → V` always, in `B → P` in both default implementations; only the alternative `C7`
implementation of `B → P` conjugates it. -/
theorem C124_cp_ignored (d : Inp) (B M : String) (q2 : ℝ) :
    getSub d B M q2 true = getSub d B M q2 false
    ∧ (∀ isPi, getSubP d isPi B M q2 true = getSubP d isPi B M q2 false)
    ∧ pC7poly d B M q2 true = pC7poly { d with xit := conj d.xit } B M q2 false := by
  refine ⟨rfl, fun _ => rfl, rfl⟩

/-- (FINDING) as a consequence a CP asymmetry of the amplitudes appears without any strong phase: with real coefficients and
a real correction, the moduli of the vector amplitude and of its CP conjugate differ by `4 x y (Im ξ_t)²`, `x` and `y` being
the factorisable amplitude and the correction in units of `ξ_t`; it depends on the phase convention of the CKM matrix. -/
theorem C124_spurious_asymmetry (d : Inp) (B P : String) (q2 : ℝ) (hp : (B, P) ∈ subRegisteredP) (hq : 14 < q2)
    (c C : ℝ) (h0 : d.wc false q2 = { wcZero with v := (C : ℂ) }) (h1 : d.wc true q2 = { wcZero with v := (C : ℂ) })
    (hr : d.par (B ++ "->" ++ P ++ " deltaC9 c" ++ " Re") = c) (hi : d.par (B ++ "->" ++ P ++ " deltaC9 c" ++ " Im") = 0) :
    ∃ H Hb K, helicityAmpsP d false B P q2 false = .ok H ∧ helicityAmpsP d false B P q2 true = .ok Hb
      ∧ K = 4 * d.GF / Real.sqrt 2 * d.alpha / (4 * Real.pi) * (Real.sqrt (Verif.Common.lambdaK (d.mB ^ 2) (d.mM ^ 2) q2) / (2 * Real.sqrt q2)) * (d.ffP q2).fp
      ∧ ‖H.V‖ ^ 2 - ‖Hb.V‖ ^ 2 = 4 * (K * C) * (K * c) * (d.xit.im) ^ 2 := by
  have h : ("v" : String) ≠ "7" := by decide
  have h' : ("v" : String) ≠ "7p" := by decide
  have hc : cpar d (B ++ "->" ++ P ++ " deltaC9 c") = (c : ℂ) := by
    rw [cpar, hr, hi]; simp
  have hne : ¬ q2 ≤ 9 := by linarith
  refine ⟨_, _, _, by simp only [helicityAmpsP, getSubP, Bool.false_eq_true, if_false, if_neg hne, if_pos hq, if_pos hp, Bind.bind, Except.bind, pure, Except.pure]; rfl,
    by simp only [helicityAmpsP, getSubP, Bool.false_eq_true, if_false, if_neg hne, if_pos hq, if_pos hp, Bind.bind, Except.bind, pure, Except.pure]; rfl, rfl, ?_⟩
  obtain ⟨K, hK⟩ : ∃ K : ℝ, K = 4 * d.GF / Real.sqrt 2 * d.alpha / (4 * Real.pi) * (Real.sqrt (Verif.Common.lambdaK (d.mB ^ 2) (d.mM ^ 2) q2) / (2 * Real.sqrt q2)) * (d.ffP q2).fp := ⟨_, rfl⟩
  rw [← hK]
  have A : (addP (haFFP d q2 false) (pC9const d B P q2 false)).V = ((K * C : ℝ) : ℂ) * d.xit + ((K * c : ℝ) : ℂ) * d.xit := by
    simp only [addP, haFFP, pC9const, haDeltaCP, hc, h0, helicityP, AmpP.scale, helP1, wcOnly, wcZero, if_neg h, if_neg h', if_true, Bool.false_eq_true, if_false, prefactor]
    rw [hK]; push_cast; ring
  have Bb : (addP (haFFP d q2 true) (pC9const d B P q2 true)).V = ((K * C : ℝ) : ℂ) * conj d.xit + ((K * c : ℝ) : ℂ) * d.xit := by
    simp only [addP, haFFP, pC9const, haDeltaCP, hc, h1, helicityP, AmpP.scale, helP1, wcOnly, wcZero, if_neg h, if_neg h', if_true, Bool.false_eq_true, if_false, prefactor, conjPar]
    rw [hK]; push_cast; ring
  rw [A, Bb, ← Complex.normSq_eq_norm_sq, ← Complex.normSq_eq_norm_sq, Complex.normSq_apply, Complex.normSq_apply]
  simp only [Complex.add_re, Complex.add_im, Complex.re_ofReal_mul, Complex.im_ofReal_mul, Complex.conj_re, Complex.conj_im]
  ring

/-- A concrete non-trivial case of the hypotheses: registered mesons in the three regions. -/
example (d : Inp) : ("Bs", "phi") ∈ subRegistered ∧ ("B+", "K+") ∈ subRegisteredP ∧ ∃ H, helicityAmps d "Bs" "phi" 6 false = .ok H :=
  ⟨by decide, by decide, (C124_low_q2 d "Bs" "phi" (by decide) 6 (by norm_num)).imp fun H h => h.1⟩

end Verif.Bvll
