import Verif.Physics.Semilep.V
set_option linter.unusedVariables false
set_option linter.unusedSimpArgs false
namespace Verif.Semilep.Vec
open Verif.Py Verif.Common Verif.Angular Verif.Running Verif.Semilep Complex ComplexConjugate MeasureTheory Set

/-- (Specification.) -/
structure AmpCont {X : Type*} [TopologicalSpace X] (H : X → AmpV) : Prop where
  plV : Continuous fun x => (H x).plV
  miV : Continuous fun x => (H x).miV
  zeV : Continuous fun x => (H x).zeV
  plA : Continuous fun x => (H x).plA
  miA : Continuous fun x => (H x).miA
  zeA : Continuous fun x => (H x).zeA
  plT : Continuous fun x => (H x).plT
  miT : Continuous fun x => (H x).miT
  zeT : Continuous fun x => (H x).zeT
  plTt : Continuous fun x => (H x).plTt
  miTt : Continuous fun x => (H x).miTt
  zeTt : Continuous fun x => (H x).zeTt
  S : Continuous fun x => (H x).S
  P : Continuous fun x => (H x).P

theorem g_cont {X : Type*} [TopologicalSpace X] {H : X → AmpV} (hH : AmpCont H) (la E1 E2 q : X → ℝ) (m1 m2 : ℝ) (c1 : Continuous la)
    (c2 : Continuous E1) (c3 : Continuous E2) (c4 : Continuous q) (hq : ∀ x, 0 < q x) :
    (Continuous fun x => g000 (H x) (la x) (E1 x) (E2 x) m1 m2 (q x)) ∧
    (Continuous fun x => g010 (H x) (la x) (E1 x) (E2 x) m1 m2 (q x)) ∧
    (Continuous fun x => g020 (H x) (la x) (E1 x) (E2 x) m1 m2 (q x)) ∧
    (Continuous fun x => g200 (H x) (la x) (E1 x) (E2 x) m1 m2 (q x)) ∧
    (Continuous fun x => g210 (H x) (la x) (E1 x) (E2 x) m1 m2 (q x)) ∧
    (Continuous fun x => g220 (H x) (la x) (E1 x) (E2 x) m1 m2 (q x)) ∧
    (Continuous fun x => g222 (H x) (la x) (E1 x) (E2 x) m1 m2 (q x)) := by
  obtain ⟨h1, h2, h3, h4, h5, h6, h7, h8, h9, h10, h11, h12, h13, h14⟩ := hH
  have hq0 : ∀ x, q x ≠ 0 := fun x => (hq x).ne'
  have hq4 : ∀ x, 4 * q x ≠ 0 := fun x => mul_ne_zero (by norm_num) (hq0 x)
  have hs : ∀ x, Real.sqrt (q x) ≠ 0 := fun x => (Real.sqrt_pos.2 (hq x)).ne'
  simp only [g000, g010, g020, g200, g210, g220, g222, starRingEnd_apply]
  refine ⟨?_, ?_, ?_, ?_, ?_, ?_, ?_⟩ <;> fun_prop (disch := assumption)

/-! ## Continuity -/

theorem lambdaK_max (a b c : ℝ) : lambdaK a b c = max 0 (kallen a b c) := by
  unfold lambdaK
  split_ifs with h
  · exact (max_eq_left h.le).symm
  · exact (max_eq_right (not_lt.1 h)).symm

/-- A linear function of the coefficients of the CP-even angular functions. (Specification.) -/
def Lin (F : JV → ℝ) : Prop :=
  ∃ c : Fin 8 → ℝ, ∀ J, F J = c 0 * J.j1s + c 1 * J.j1c + c 2 * J.j2s + c 3 * J.j2c + c 4 * J.j6s + c 5 * J.j6c + c 6 * J.j3 + c 7 * J.j9

theorem angularV_cont {X : Type*} [TopologicalSpace X] {H : X → AmpV} (hH : AmpCont H) (q : X → ℝ) (mB mV m1 m2 : ℝ) (c4 : Continuous q)
    (hq : ∀ x, 0 < q x) (hB : mB ≠ 0) (F : JV → ℝ) (hF : Lin F) : Continuous fun x => F (angularV (H x) (q x) mB mV m1 m2) := by
  have hq0 : ∀ x, q x ≠ 0 := fun x => (hq x).ne'
  have hq4 : ∀ x, 4 * q x ≠ 0 := fun x => mul_ne_zero (by norm_num) (hq0 x)
  have cl : Continuous fun x => laGa (q x) m1 m2 := by
    unfold laGa; simp only [lambdaK_max, kallen]; fun_prop
  have ce : ∀ m, Continuous fun x => energy (q x) m1 m2 m := by
    intro m; unfold energy; fun_prop (disch := assumption)
  obtain ⟨g0, g1, g2, g3, g4, g5, g6⟩ := g_cont hH (fun x => laGa (q x) m1 m2) (fun x => energy (q x) m1 m2 m1)
    (fun x => energy (q x) m1 m2 m2) q m1 m2 cl (ce m1) (ce m2) c4 hq
  have cp : Continuous fun x => phaseSpace (2 ^ 9 * Real.pi ^ 3) (q x) mB mV m1 m2 := by
    unfold phaseSpace
    have hd : ∀ x, 2 ^ 9 * Real.pi ^ 3 * mB ^ 3 * q x ≠ 0 := fun x =>
      mul_ne_zero (mul_ne_zero (by positivity) (pow_ne_zero 3 hB)) (hq0 x)
    have : Continuous fun x => lambdaK (mB ^ 2) (mV ^ 2) (q x) := by
      simp only [lambdaK_max, kallen]; fun_prop
    fun_prop (disch := assumption)
  obtain ⟨c, hc⟩ := hF
  simp only [hc, angularV, signflip, gToG, gbasisV, GV.scale, gbasisV0, re_ofReal_mul, im_ofReal_mul]
  have gen : ∀ {Y : Type} (f : X → Y), ∃ g : X → Y, ∀ x, f x = g x := fun f => ⟨f, fun _ => rfl⟩
  obtain ⟨p, hp⟩ := gen fun x => phaseSpace (2 ^ 9 * Real.pi ^ 3) (q x) mB mV m1 m2
  obtain ⟨a0, h0⟩ := gen fun x => g000 (H x) (laGa (q x) m1 m2) (energy (q x) m1 m2 m1) (energy (q x) m1 m2 m2) m1 m2 (q x)
  obtain ⟨a1, h1⟩ := gen fun x => g010 (H x) (laGa (q x) m1 m2) (energy (q x) m1 m2 m1) (energy (q x) m1 m2 m2) m1 m2 (q x)
  obtain ⟨a2, h2⟩ := gen fun x => g020 (H x) (laGa (q x) m1 m2) (energy (q x) m1 m2 m1) (energy (q x) m1 m2 m2) m1 m2 (q x)
  obtain ⟨a3, h3⟩ := gen fun x => g200 (H x) (laGa (q x) m1 m2) (energy (q x) m1 m2 m1) (energy (q x) m1 m2 m2) m1 m2 (q x)
  obtain ⟨a4, h4⟩ := gen fun x => g210 (H x) (laGa (q x) m1 m2) (energy (q x) m1 m2 m1) (energy (q x) m1 m2 m2) m1 m2 (q x)
  obtain ⟨a5, h5⟩ := gen fun x => g220 (H x) (laGa (q x) m1 m2) (energy (q x) m1 m2 m1) (energy (q x) m1 m2 m2) m1 m2 (q x)
  obtain ⟨a6, h6⟩ := gen fun x => g222 (H x) (laGa (q x) m1 m2) (energy (q x) m1 m2 m1) (energy (q x) m1 m2 m2) m1 m2 (q x)
  simp only [hp, h0, h1, h2, h3, h4, h5, h6] at *
  fun_prop

theorem helV1_cont {X : Type*} [TopologicalSpace X] (q : X → ℝ) (mM mV mq ml m : ℝ) (ff : X → FFV) (w : Wc) (c4 : Continuous q)
    (hq : ∀ x, 0 < q x) (hs : mM + mV ≠ 0) (f1 : Continuous fun x => (ff x).A0) (f2 : Continuous fun x => (ff x).A1)
    (f3 : Continuous fun x => (ff x).A12) (f4 : Continuous fun x => (ff x).V) (f5 : Continuous fun x => (ff x).T1)
    (f6 : Continuous fun x => (ff x).T2) (f7 : Continuous fun x => (ff x).T23) :
    AmpCont fun x => helV1 (q x) mM mV mq ml m 0 (ff x) w := by
  have hq0 : ∀ x, q x ≠ 0 := fun x => (hq x).ne'
  have hsq : ∀ x, Real.sqrt (q x) ≠ 0 := fun x => (Real.sqrt_pos.2 (hq x)).ne'
  have h1 : ∀ x, Real.sqrt (q x) * (mM + mV) ≠ 0 := fun x => mul_ne_zero (hsq x) hs
  have h2 : ∀ x, 2 * Real.sqrt (q x) ≠ 0 := fun x => mul_ne_zero two_ne_zero (hsq x)
  have h3 : ∀ x, Real.sqrt 2 * Real.sqrt (q x) ≠ 0 := fun x => mul_ne_zero (by positivity) (hsq x)
  have cl : Continuous fun x => lambdaK (mM ^ 2) (mV ^ 2) (q x) := by
    simp only [lambdaK_max, kallen]; fun_prop
  constructor <;> simp only [helV1, transAmp, dipAmp, tenAmp] <;> fun_prop (disch := assumption)

end Verif.Semilep.Vec
