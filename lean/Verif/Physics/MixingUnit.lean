import Verif.Physics.EnergyUnit
import Verif.Physics.Mixing.Amplitude
import Verif.Physics.Mixing.Common
/-!
# The unit of energy: meson mixing

Continues `EnergyUnit.lean`: `flavio/physics/mesonmixing/`.  For the D0 the Standard Model part is read from parameters in
inverse picoseconds, with a conversion constant in GeV, so that it is excluded.
-/
set_option linter.unusedVariables false
set_option linter.unusedSimpArgs false
set_option linter.unusedSectionVars false
namespace Verif.EnergyUnit
open Verif.Mixing Verif.Py Complex Verif.Ckm

/-- The inputs in the new unit (specification). -/
noncomputable def mix (x : ℝ) (q : Inputs) : Inputs where
  par := par x q.par
  mtmt := x * q.mtmt
  mq1 := x * q.mq1
  mq2 := x * q.mq2
  alphaS := q.alphaS

theorem par_0 (x : ℝ) (p : String → ℝ) (k : String) (h : parPow k = 0) : par x p k = p k := by
  rw [par, h, zpow_zero, one_mul]
theorem par_bag (x : ℝ) (p : String → ℝ) (s t : String) : par x p ("bag_" ++ s ++ t) = p ("bag_" ++ s ++ t) := by
  apply par_0
  have h : ("bag_" ++ s ++ t) ≠ "GF" := by
    intro h; have := congrArg String.toList h; simp [String.toList_append] at this
  simp [parPow, String.toList_append, List.isPrefixOf, h]

theorem threeBoxes_unit (x N a b c : ℝ) (f g : ℂ) (u v w : ℝ) :
    threeBoxes (N / x ^ 2) a b c f g u v w = (threeBoxes N a b c f g u v w >>= fun c => .ok (c / x ^ 2)) := by
  unfold threeBoxes
  cases s0Box a a c with
  | error e => rfl
  | ok s1 =>
    cases s0Box b a c with
    | error e => rfl
    | ok s2 =>
      cases s0Box b b c with
      | error e => rfl
      | ok s3 =>
        simp only [ok_bind_eq]
        congr 1
        push_cast
        ring

theorem cvllD_unit {x : ℝ} (hx : 0 < x) (conf : String) (V : Mat) (q : Inputs) (m : Meson) :
    cvllD conf V (mix x q) m = (cvllD conf V q m >>= fun c => .ok (c / x ^ 2)) := by
  have hx' := hx.ne'
  have hxc : (x : ℂ) ≠ 0 := by exact_mod_cast hx'
  have hW : (mix x q).par "m_W" = x * q.par "m_W" := par_m x q.par "W"
  have hc : (mix x q).par "m_c" = x * q.par "m_c" := par_m x q.par "c"
  have hu : (mix x q).par "m_u" = x * q.par "m_u" := par_m x q.par "u"
  have hG : (mix x q).par "GF" = q.par "GF" / x ^ 2 := par_GF x q.par
  have hr : ∀ a, ratio (mix x q).par (x * a) = ratio q.par a := by
    intro a; unfold ratio; rw [hW, sq_ratio hx]
  have hN : normN (mix x q).par = normN q.par / x ^ 2 := by
    unfold normN; rw [hW, hG]; field_simp
  have hp : ∀ k, parPow k = 0 → (mix x q).par k = q.par k := par_0 x q.par
  have hm : (mix x q).mtmt = x * q.mtmt := rfl
  unfold cvllD
  simp only [hm, hc, hu, hr, hN, threeBoxes_unit]
  have one : ∀ (m : Meson), (mix x q).par ("eta_tt_" ++ m.name) = q.par ("eta_tt_" ++ m.name) := by
    intro m; cases m <;> exact hp _ (by decide)
  by_cases hK : m = .K0
  · subst hK
    rw [if_pos rfl, if_pos rfl]
    by_cases h1 : conf = "ut"
    · rw [if_pos h1, if_pos h1, hp ("eta_tt_" ++ Meson.K0.name ++ "_ut") (by decide),
        hp ("eta_ut_" ++ Meson.K0.name ++ "_ut") (by decide), hp ("eta_uu_" ++ Meson.K0.name ++ "_ut") (by decide)]
      cases xi 't' Meson.K0.quarks with
      | error e => rfl
      | ok ft =>
        cases xi 'u' Meson.K0.quarks with
        | error e => rfl
        | ok fu => rfl
    · rw [if_neg h1, if_neg h1]
      by_cases h2 : conf = "ct"
      · rw [if_pos h2, if_pos h2, one, hp ("eta_ct_" ++ Meson.K0.name) (by decide), hp ("eta_cc_" ++ Meson.K0.name) (by decide)]
        cases xi 't' Meson.K0.quarks with
        | error e => rfl
        | ok ft =>
          cases xi 'c' Meson.K0.quarks with
          | error e => rfl
          | ok fu => rfl
      · rw [if_neg h2, if_neg h2]; rfl
  · rw [if_neg hK, if_neg hK, one]
    cases xi 't' m.quarks with
    | error e => rfl
    | ok ft =>
      simp only [ok_bind_eq]
      cases s0Box (ratio q.par q.mtmt) (ratio q.par q.mtmt) (ratio q.par (q.par "m_u")) with
      | error e => rfl
      | ok s =>
        simp only [ok_bind_eq]
        congr 1
        push_cast
        ring

theorem mf2_unit {x : ℝ} (q : Inputs) (m : Meson) : mf2 (mix x q) m = x ^ 3 * mf2 q m := by
  unfold mf2
  show par x q.par _ * par x q.par _ ^ 2 = _
  rw [par_m, par_f]; ring

theorem rFactor_unit {x : ℝ} (hx : 0 < x) (q : Inputs) (m : Meson) : rFactor (mix x q) m = rFactor q m := by
  unfold rFactor
  show (par x q.par _ / (x * q.mq1 + x * q.mq2)) ^ 2 = _
  rw [par_m, ← mul_add, mul_div_mul_left _ _ hx.ne']

theorem bag_unit {x : ℝ} (q : Inputs) (m : Meson) (i : String) : bag (mix x q) m i = bag q m i := by
  unfold bag
  show par x q.par _ = _
  have := par_bag x q.par m.name ("_" ++ i)
  rw [← String.append_assoc] at this
  exact this

theorem matrixElements_unit {x : ℝ} (hx : 0 < x) (q : Inputs) (m : Meson) :
    matrixElements (mix x q) m = (matrixElements q m).map fun e => (e.1, x ^ 3 * e.2) := by
  unfold matrixElements
  simp only [mf2_unit, rFactor_unit hx, bag_unit, List.map, List.cons.injEq, Prod.mk.injEq, true_and, and_true]
  refine ⟨?_, ?_, ?_, ?_, ?_, ?_, ?_, ?_⟩ <;> ring

theorem contributionNp_unit {x : ℝ} (hx : 0 < x) (q : Inputs) (m : Meson) (wc : String → ℂ) :
    contributionNp (mix x q) m (fun k => wc k / x ^ 2) = x * contributionNp q m wc := by
  have hxc : (x : ℂ) ≠ 0 := by exact_mod_cast hx.ne'
  unfold contributionNp
  rw [matrixElements_unit hx, List.foldl_map]
  have : ∀ (l : List (String × ℝ)) (a : ℂ),
      l.foldl (fun acc e => acc + -(wc (wcName m e.1) / (x : ℂ) ^ 2) * ((x ^ 3 * e.2 : ℝ) : ℂ)) (x * a)
        = x * l.foldl (fun acc e => acc + -wc (wcName m e.1) * e.2) a := by
    intro l
    induction l with
    | nil => intro a; rfl
    | cons e t ih =>
      intro a
      simp only [List.foldl]
      rw [← ih]
      congr 1
      push_cast
      field_simp
  have h := this (matrixElements q m) 0
  rw [mul_zero] at h
  exact h

theorem m12dSM_unit {x : ℝ} (hx : 0 < x) (conf : String) (V : Mat) (q : Inputs) (m : Meson) :
    m12dSM conf V (mix x q) m = (m12dSM conf V q m >>= fun c => .ok (x * c)) := by
  have hxc : (x : ℂ) ≠ 0 := by exact_mod_cast hx.ne'
  unfold m12dSM
  rw [cvllD_unit hx, mf2_unit, bag_unit]
  show (bagMsbar2rgi q.alphaS m >>= _) = _
  cases bagMsbar2rgi q.alphaS m with
  | error e => rfl
  | ok b =>
    cases cvllD conf V q m with
    | error e => rfl
    | ok c =>
      simp only [ok_bind_eq]
      congr 1
      push_cast
      field_simp

theorem m12_unit {x : ℝ} (hx : 0 < x) (conf : String) (V : Mat) (q : Inputs) (m : Meson) (hD : m ≠ .D0) (wc : String → ℂ) :
    getM12G12 conf V (mix x q) m (fun k => wc k / x ^ 2)
      = (getM12G12 conf V q m wc >>= fun p => .ok ((x : ℂ) * p.1, (x : ℂ) * p.2)) := by
  have h12 : m12 conf V (mix x q) m (fun k => wc k / x ^ 2) = (m12 conf V q m wc >>= fun c => .ok (x * c)) := by
    unfold m12
    rw [if_neg hD, if_neg hD, m12dSM_unit hx, contributionNp_unit hx]
    cases m12dSM conf V q m with
    | error e => rfl
    | ok c => simp only [ok_bind_eq]; congr 1; ring
  have hg : g12dSM conf V (mix x q) m = (g12dSM conf V q m >>= fun c => .ok (x * c)) := by
    have h1 : (mix x q).par ("Gamma12_" ++ m.name ++ "_c") = q.par ("Gamma12_" ++ m.name ++ "_c") := by
      cases m <;> exact par_0 x q.par _ (by decide)
    have h2 : (mix x q).par ("Gamma12_" ++ m.name ++ "_a") = q.par ("Gamma12_" ++ m.name ++ "_a") := by
      cases m <;> exact par_0 x q.par _ (by decide)
    unfold g12dSM
    rw [h1, h2, m12dSM_unit hx]
    cases xi 't' m.quarks with
    | error e => rfl
    | ok ft =>
      cases xi 'u' m.quarks with
      | error e => rfl
      | ok fu =>
        cases m12dSM conf V q m with
        | error e => rfl
        | ok M => simp only [ok_bind_eq]; congr 1; ring
  unfold getM12G12
  rw [h12]
  cases m12 conf V q m wc with
  | error e => rfl
  | ok M =>
    simp only [ok_bind_eq]
    cases m with
    | K0 => simp
    | D0 => exact absurd rfl hD
    | B0 => simp only [hg]; cases g12dSM conf V q .B0 <;> rfl
    | Bs => simp only [hg]; cases g12dSM conf V q .Bs <;> rfl

theorem qOverP_unit {x : ℝ} (hx : 0 < x) (M G : ℂ) : qOverP (x * M) (x * G) = qOverP M G := by
  have hxc : (x : ℂ) ≠ 0 := by exact_mod_cast hx.ne'
  unfold qOverP
  rw [map_mul, map_mul, conj_ofReal, show 2 * ((x : ℂ) * M) - I * (x * G) = x * (2 * M - I * G) by ring,
    show 2 * ((x : ℂ) * (starRingEnd ℂ) M) - I * (x * (starRingEnd ℂ) G) = x * (2 * (starRingEnd ℂ) M - I * (starRingEnd ℂ) G) by ring,
    mul_div_mul_left _ _ hxc]
  simp only [mul_eq_zero, hxc, false_or]

/-- **C165 (meson mixing).** For B0, Bs and K0 the mixing amplitudes are energies; for all amplitudes the mass and width
differences are energies, and the phase `q/p`, `x`, `y`, `x12`, `y12`, `phi12`, the semileptonic asymmetry, `S` and
`epsilon_K` do not depend on the unit of energy. -/
theorem C165_mixing {x : ℝ} (hx : 0 < x) (conf : String) (V : Mat) (q : Inputs) (m : Meson) (hD : m ≠ .D0) (wc : String → ℂ) :
    getM12G12 conf V (mix x q) m (fun k => wc k / x ^ 2)
      = (getM12G12 conf V q m wc >>= fun p => .ok ((x : ℂ) * p.1, (x : ℂ) * p.2)) ∧
    ∀ M G : ℂ,
      deltaM12 (x * M) (x * G) = x * deltaM12 M G ∧ deltaMPositive (x * M) (x * G) = x * deltaMPositive M G ∧
      deltaGammaB (x * M) (x * G) = x * deltaGammaB M G ∧ phi12 (x * M) (x * G) = phi12 M G ∧
      phiD (x * M) (x * G) = phiD M G ∧ aFs (x * M) (x * G) = aFs M G ∧
      (∀ tau, xMix (x * M) (x * G) (tau / x) = xMix M G tau ∧ yMix (x * M) (x * G) (tau / x) = yMix M G tau ∧
        x12 (x * M) (tau / x) = x12 M tau ∧ y12 (x * G) (tau / x) = y12 G tau ∧
        x12Im (x * M) (x * G) (tau / x) = x12Im M G tau) ∧
      (∀ kappa dmk, epsK kappa (x * dmk) (x * M) = epsK kappa dmk M) ∧
      (∀ A Abar eta, sMix (x * M) (x * G) A Abar eta = sMix M G A Abar eta) := by
  refine ⟨m12_unit hx conf V q m hD wc, fun M G => ?_⟩
  have hx' := hx.ne'
  have hxc : (x : ℂ) ≠ 0 := by exact_mod_cast hx'
  have hq := qOverP_unit hx M G
  have e : (x : ℂ) * M - I / 2 * (x * G) = x * (M - I / 2 * G) := by ring
  have e' : ∀ a z : ℂ, a * (x * z) = x * (a * z) := fun a z => by ring
  have hM : deltaM (x * M) (x * G) = x * deltaM M G := by
    unfold deltaM; rw [hq, e, e', re_ofReal_mul]; ring
  have hG : deltaGamma (x * M) (x * G) = x * deltaGamma M G := by
    unfold deltaGamma; rw [hq, e, e', im_ofReal_mul]; ring
  have hn : ∀ z : ℂ, ‖(x : ℂ) * z‖ = x * ‖z‖ := fun z => by rw [norm_mul, norm_real, Real.norm_of_nonneg hx.le]
  have hphi : phi12 (x * M) (x * G) = phi12 M G := by unfold phi12; rw [mul_div_mul_left _ _ hxc]
  have hx12 : ∀ tau, x12 (x * M) (tau / x) = x12 M tau := fun tau => by unfold x12; rw [hn]; field_simp
  have h12 : deltaM12 (x * M) (x * G) = x * deltaM12 M G := by unfold deltaM12; rw [hM]; ring
  refine ⟨h12, ?_, ?_, hphi, ?_, ?_, fun tau => ⟨?_, ?_, hx12 tau, ?_, ?_⟩, fun kappa dmk => ?_, fun A Abar eta => ?_⟩
  · unfold deltaMPositive; rw [hM, abs_mul, abs_of_pos hx]
  · unfold deltaGammaB
    rw [hM, hG]
    by_cases h : deltaM M G > 0
    · rw [if_pos h, if_pos (mul_pos hx h)]
    · rw [if_neg h, if_neg (fun c => h ((mul_pos_iff_of_pos_left hx).1 c))]; ring
  · unfold phiD; rw [hq]
  · unfold aFs
    rw [hn, hn, mul_div_mul_left _ _ hx', ← mul_neg, mul_div_mul_left _ _ hxc]
    simp only [mul_eq_zero, hxc, false_or]
  · unfold xMix; rw [h12]; field_simp
  · unfold yMix; rw [hG]; field_simp
  · unfold y12; rw [hn]; field_simp
  · unfold x12Im; rw [hx12, hphi]
  · unfold epsK
    rw [im_ofReal_mul, show kappa * (x * M.im) = x * (kappa * M.im) by ring, mul_div_mul_left _ _ hx']
    simp only [mul_eq_zero, hx', false_or]
  · have hp : qpPositive (x * M) (x * G) = qpPositive M G := by
      unfold qpPositive
      rw [hM, hq]
      by_cases h : deltaM M G < 0
      · rw [if_pos h, if_pos (mul_neg_of_pos_of_neg hx h)]
      · rw [if_neg h, if_neg]
        exact not_lt.2 (mul_nonneg hx.le (not_lt.1 h))
    unfold sMix
    rw [hp]

end Verif.EnergyUnit
