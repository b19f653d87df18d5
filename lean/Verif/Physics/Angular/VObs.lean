import Mathlib.Analysis.SpecialFunctions.Integrals.Basic
import Verif.Physics.Angular.VTheorems
/-!
# Observables built from the angular coefficients (`flavio/physics/bdecays/bvll/observables.py`)
-/
set_option linter.unusedVariables false
set_option linter.unusedSimpArgs false
namespace Verif.Angular
open Verif.Common Complex ComplexConjugate

/-- The keys of the dictionary of angular coefficients.  /repo/flavio/physics/bdecays/angular.py:159-173. -/
inductive Idx | i1s | i1c | i2s | i2c | i6s | i6c | i3 | i4 | i5 | i7 | i8 | i9
  deriving DecidableEq, Repr

/-- `J[i]`.  /repo/flavio/physics/bdecays/bvll/observables.py:38 -/
def JV.get (J : JV) : Idx → ℝ
  | .i1s => J.j1s | .i1c => J.j1c | .i2s => J.j2s | .i2c => J.j2c | .i6s => J.j6s | .i6c => J.j6c
  | .i3 => J.j3 | .i4 => J.j4 | .i5 => J.j5 | .i7 => J.j7 | .i8 => J.j8 | .i9 => J.j9

/-- `dGdq2`.  /repo/flavio/physics/bdecays/bvll/observables.py:15-16 -/
noncomputable def dGdq2 (J : JV) : ℝ := 3 / 4 * (2 * J.j1s + J.j1c) - 1 / 4 * (2 * J.j2s + J.j2c)

/-- `dGdq2_ave`.  /repo/flavio/physics/bdecays/bvll/observables.py:18-19 -/
noncomputable def dGdq2Ave (J Jb : JV) : ℝ := (dGdq2 J + dGdq2 Jb) / 2

/-- `dGdq2_diff`.  /repo/flavio/physics/bdecays/bvll/observables.py:21-22 -/
noncomputable def dGdq2Diff (J Jb : JV) : ℝ := (dGdq2 J - dGdq2 Jb) / 2

/-- `SA_den`.  /repo/flavio/physics/bdecays/bvll/observables.py:25-26 -/
noncomputable def saDen (J Jb : JV) : ℝ := 2 * dGdq2Ave J Jb

/-- `S_theory_num`.  /repo/flavio/physics/bdecays/bvll/observables.py:37-38 -/
def sTheoryNum (J Jb : JV) (i : Idx) : ℝ := J.get i + Jb.get i

/-- `P_den`.  /repo/flavio/physics/bdecays/bvll/observables.py:29-30 -/
def pDen (J Jb : JV) : ℝ := sTheoryNum J Jb .i2s

/-- `A_theory_num`.  /repo/flavio/physics/bdecays/bvll/observables.py:45-46 -/
def aTheoryNum (J Jb : JV) (i : Idx) : ℝ := J.get i - Jb.get i

/-- `i in [4, '6s', '6c', 7, 9]`.  /repo/flavio/physics/bdecays/bvll/observables.py:57 and :71. -/
def flips (i : Idx) : Bool := i == .i4 || i == .i6s || i == .i6c || i == .i7 || i == .i9

/-- `S_experiment_num`.  /repo/flavio/physics/bdecays/bvll/observables.py:56-59 -/
def sExpNum (J Jb : JV) (i : Idx) : ℝ := if flips i then -sTheoryNum J Jb i else sTheoryNum J Jb i

/-- `A_experiment_num`.  /repo/flavio/physics/bdecays/bvll/observables.py:70-73 -/
def aExpNum (J Jb : JV) (i : Idx) : ℝ := if flips i then -aTheoryNum J Jb i else aTheoryNum J Jb i

/-- `S_theory`.  /repo/flavio/physics/bdecays/bvll/observables.py:32-34 -/
noncomputable def sTheory (J Jb : JV) (i : Idx) : ℝ := sTheoryNum J Jb i / saDen J Jb
/-- `A_theory`.  /repo/flavio/physics/bdecays/bvll/observables.py:40-42 -/
noncomputable def aTheory (J Jb : JV) (i : Idx) : ℝ := aTheoryNum J Jb i / saDen J Jb
/-- `S_experiment`.  /repo/flavio/physics/bdecays/bvll/observables.py:48-53 -/
noncomputable def sExp (J Jb : JV) (i : Idx) : ℝ := sExpNum J Jb i / saDen J Jb
/-- `A_experiment`.  /repo/flavio/physics/bdecays/bvll/observables.py:61-67 -/
noncomputable def aExp (J Jb : JV) (i : Idx) : ℝ := aExpNum J Jb i / saDen J Jb

/-- `AFB_theory_num` and `AFB_theory`.  /repo/flavio/physics/bdecays/bvll/observables.py:85-91 -/
noncomputable def afbTheoryNum (J Jb : JV) : ℝ := 3 / 4 * sTheoryNum J Jb .i6s
/-- `AFB_experiment_num`.  /repo/flavio/physics/bdecays/bvll/observables.py:82-83 -/
noncomputable def afbExpNum (J Jb : JV) : ℝ := 3 / 4 * sExpNum J Jb .i6s
/-- `AFB_theory`.  /repo/flavio/physics/bdecays/bvll/observables.py:85-88 -/
noncomputable def afbTheory (J Jb : JV) : ℝ := afbTheoryNum J Jb / saDen J Jb
/-- `AFB_experiment`.  /repo/flavio/physics/bdecays/bvll/observables.py:75-80 -/
noncomputable def afbExp (J Jb : JV) : ℝ := afbExpNum J Jb / saDen J Jb

/-- `FL_num`.  /repo/flavio/physics/bdecays/bvll/observables.py:97-98 -/
def flNum (J Jb : JV) : ℝ := -sTheoryNum J Jb .i2c
/-- `FL`.  /repo/flavio/physics/bdecays/bvll/observables.py:93-95 -/
noncomputable def fl (J Jb : JV) : ℝ := flNum J Jb / saDen J Jb
/-- `FLhat_num`.  /repo/flavio/physics/bdecays/bvll/observables.py:107-108 -/
def flHatNum (J Jb : JV) : ℝ := -sTheoryNum J Jb .i1c
/-- `FLhat`.  /repo/flavio/physics/bdecays/bvll/observables.py:99-105 -/
noncomputable def flHat (J Jb : JV) : ℝ := flHatNum J Jb / saDen J Jb

/-- The numerators of the `P_i` observables of `_observables_p`.
/repo/flavio/physics/bdecays/bvll/observables.py:455-460 -/
noncomputable def p1Num (J Jb : JV) : ℝ := sExpNum J Jb .i3 / 2
/-- See `p1Num`. /repo/flavio/physics/bdecays/bvll/observables.py:457 -/
noncomputable def p2Num (J Jb : JV) : ℝ := sExpNum J Jb .i6s / 8
/-- See `p1Num`. /repo/flavio/physics/bdecays/bvll/observables.py:458 -/
noncomputable def p3Num (J Jb : JV) : ℝ := -sExpNum J Jb .i9 / 4
/-- See `p1Num`. /repo/flavio/physics/bdecays/bvll/observables.py:459 -/
noncomputable def atImNum (J Jb : JV) : ℝ := aExpNum J Jb .i9 / 2

/-- `BVll_ratio.__call__` / `bvll_obs_ratio` at an allowed q2, from the coefficients there.
/repo/flavio/physics/bdecays/bvll/observables.py:268-275 -/
noncomputable def ratioV (num den : JV → JV → ℝ) (J Jb : JV) : ℝ :=
  if num J Jb = 0 then 0 else num J Jb / den J Jb

/-- `BVll_pprime.__call__` at an allowed q2.  /repo/flavio/physics/bdecays/bvll/observables.py:278-303 -/
noncomputable def pprimeV (num : JV → JV → ℝ) (J Jb : JV) : ℝ :=
  if num J Jb = 0 then 0 else
    num J Jb / (2 * Real.sqrt (-sExpNum J Jb .i2s * sExpNum J Jb .i2c))

/-! ## Integrals over the angles -/

section integrals
open intervalIntegral

theorem int_phi (a b c d e : ℝ) :
    ∫ p in (-Real.pi)..Real.pi, (a + b * Real.cos p + c * Real.sin p + d * Real.cos (2 * p) + e * Real.sin (2 * p))
      = 2 * Real.pi * a := by
  have hd : ∀ x : ℝ, HasDerivAt (fun p => a * p + b * Real.sin p - c * Real.cos p + d / 2 * Real.sin (2 * p)
      - e / 2 * Real.cos (2 * p))
      (a + b * Real.cos x + c * Real.sin x + d * Real.cos (2 * x) + e * Real.sin (2 * x)) x := by
    intro x
    have h2 : HasDerivAt (fun p : ℝ => 2 * p) 2 x := by simpa using (hasDerivAt_id x).const_mul 2
    have := ((((((hasDerivAt_id x).const_mul a).add ((Real.hasDerivAt_sin x).const_mul b)).sub
      ((Real.hasDerivAt_cos x).const_mul c)).add ((h2.sin).const_mul (d / 2))).sub ((h2.cos).const_mul (e / 2)))
    refine this.congr_deriv ?_
    simp; ring
  rw [integral_eq_sub_of_hasDerivAt (fun x _ => hd x)
    (Continuous.intervalIntegrable (by fun_prop) _ _)]
  simp [Real.sin_two_mul, Real.cos_two_mul]; ring

theorem int_l (lo hi a b c : ℝ) :
    ∫ t in lo..hi, (a + b * Real.cos (2 * t) + c * Real.cos t) * Real.sin t
      = (-(a - b) * Real.cos hi - 2 * b / 3 * Real.cos hi ^ 3 - c / 2 * Real.cos hi ^ 2)
        - (-(a - b) * Real.cos lo - 2 * b / 3 * Real.cos lo ^ 3 - c / 2 * Real.cos lo ^ 2) := by
  have hd : ∀ x : ℝ, HasDerivAt (fun t => -(a - b) * Real.cos t - 2 * b / 3 * Real.cos t ^ 3
      - c / 2 * Real.cos t ^ 2) ((a + b * Real.cos (2 * x) + c * Real.cos x) * Real.sin x) x := by
    intro x
    have := (((Real.hasDerivAt_cos x).const_mul (-(a - b))).sub
      (((Real.hasDerivAt_cos x).pow 3).const_mul (2 * b / 3))).sub (((Real.hasDerivAt_cos x).pow 2).const_mul (c / 2))
    refine this.congr_deriv ?_
    rw [Real.cos_two_mul]; simp; ring
  rw [integral_eq_sub_of_hasDerivAt (fun x _ => hd x)
    (Continuous.intervalIntegrable (by fun_prop) _ _)]

theorem int_k (a b : ℝ) :
    ∫ t in (0:ℝ)..Real.pi, (a * Real.sin t ^ 2 + b * Real.cos t ^ 2) * Real.sin t = 4 / 3 * a + 2 / 3 * b := by
  have := int_l 0 Real.pi ((a + b) / 2) ((b - a) / 2) 0
  have e : ∀ t : ℝ, (a * Real.sin t ^ 2 + b * Real.cos t ^ 2) * Real.sin t
      = ((a + b) / 2 + (b - a) / 2 * Real.cos (2 * t) + 0 * Real.cos t) * Real.sin t := by
    intro t; rw [Real.cos_two_mul, Real.sin_sq]; ring
  simp only [e]
  rw [this]; simp; ring
end integrals

/-- **Specification.** The rate integrated over the azimuthal angle, the lepton angle in `[lo, hi]` and the meson
angle, with the measure `sin θ_K dθ_K sin θ_ℓ dθ_ℓ dφ`. -/
noncomputable def angInt (J : JV) (lo hi : ℝ) : ℝ :=
  ∫ tK in (0:ℝ)..Real.pi, (∫ tl in lo..hi, (∫ ph in (-Real.pi)..Real.pi, rateV J tK tl ph) * Real.sin tl) * Real.sin tK

theorem angInt_eq (J : JV) (lo hi : ℝ) :
    let P := fun a b c : ℝ => (-(a - b) * Real.cos hi - 2 * b / 3 * Real.cos hi ^ 3 - c / 2 * Real.cos hi ^ 2)
        - (-(a - b) * Real.cos lo - 2 * b / 3 * Real.cos lo ^ 3 - c / 2 * Real.cos lo ^ 2)
    angInt J lo hi = 2 * Real.pi * (4 / 3 * P J.j1s J.j2s J.j6s + 2 / 3 * P J.j1c J.j2c J.j6c) := by
  intro P
  unfold angInt
  have hphi : ∀ tK tl : ℝ, (∫ ph in (-Real.pi)..Real.pi, rateV J tK tl ph) = 2 * Real.pi * (J.j1s * Real.sin tK ^ 2
      + J.j1c * Real.cos tK ^ 2 + (J.j2s * Real.sin tK ^ 2 + J.j2c * Real.cos tK ^ 2) * Real.cos (2 * tl)
      + (J.j6s * Real.sin tK ^ 2 + J.j6c * Real.cos tK ^ 2) * Real.cos tl) := by
    intro tK tl
    rw [← int_phi _ (J.j4 * Real.sin (2 * tK) * Real.sin (2 * tl) + J.j5 * Real.sin (2 * tK) * Real.sin tl)
      (J.j7 * Real.sin (2 * tK) * Real.sin tl + J.j8 * Real.sin (2 * tK) * Real.sin (2 * tl))
      (J.j3 * Real.sin tK ^ 2 * Real.sin tl ^ 2) (J.j9 * Real.sin tK ^ 2 * Real.sin tl ^ 2)]
    congr 1; ext p; unfold rateV; ring
  simp only [hphi]
  have hl : ∀ tK : ℝ, (∫ tl in lo..hi, 2 * Real.pi * (J.j1s * Real.sin tK ^ 2
      + J.j1c * Real.cos tK ^ 2 + (J.j2s * Real.sin tK ^ 2 + J.j2c * Real.cos tK ^ 2) * Real.cos (2 * tl)
      + (J.j6s * Real.sin tK ^ 2 + J.j6c * Real.cos tK ^ 2) * Real.cos tl) * Real.sin tl)
      = 2 * Real.pi * P J.j1s J.j2s J.j6s * Real.sin tK ^ 2 + 2 * Real.pi * P J.j1c J.j2c J.j6c * Real.cos tK ^ 2 := by
    intro tK
    have := int_l lo hi (2 * Real.pi * (J.j1s * Real.sin tK ^ 2 + J.j1c * Real.cos tK ^ 2))
      (2 * Real.pi * (J.j2s * Real.sin tK ^ 2 + J.j2c * Real.cos tK ^ 2))
      (2 * Real.pi * (J.j6s * Real.sin tK ^ 2 + J.j6c * Real.cos tK ^ 2))
    calc _ = _ := by congr 1; ext t; ring
      _ = _ := this
      _ = _ := by simp only [P]; ring
  simp only [hl]
  rw [int_k]; ring

/-- **C81 (rate).** `dGdq2` is, up to the constant `9/32π` of the standard normalisation, the distribution
integrated over all three angles, and the numerator of the forward-backward asymmetry is the integral over
the forward minus the one over the backward hemisphere — provided `J6c = 0`. -/
theorem C81_angular_integrals (J : JV) :
    dGdq2 J = 9 / (32 * Real.pi) * angInt J 0 Real.pi ∧
    9 / (32 * Real.pi) * (angInt J 0 (Real.pi / 2) - angInt J (Real.pi / 2) Real.pi)
      = 3 / 4 * J.j6s + 3 / 8 * J.j6c := by
  have hpi := Real.pi_ne_zero
  constructor
  · rw [angInt_eq]; simp [dGdq2]; field_simp; ring
  · rw [angInt_eq, angInt_eq]; simp; field_simp; ring


/-! ## The coefficients in terms of squared amplitudes -/

theorem tX_nonneg (u u' al be r : ℝ) (H : AmpV) : 0 ≤ tX u u' al be r H := by
  have n := fun z : ℂ => normSq_nonneg z
  unfold tX; linarith [n (amX u al H.plV H.plTt), n (amX u al H.miV H.miTt), n (amY r u' be H.plA H.plT),
    n (amY r u' be H.miA H.miT)]
theorem tF_nonneg (u u' al be r : ℝ) (H : AmpV) : 0 ≤ tF u u' al be r H := by
  have n := fun z : ℂ => normSq_nonneg z
  unfold tF; linarith [n (amF u al H.plV H.plTt), n (amF u al H.miV H.miTt), n (amK r u' be H.plA H.plT),
    n (amK r u' be H.miA H.miT)]
theorem lX_nonneg (u u' al be r : ℝ) (H : AmpV) : 0 ≤ lX u u' al be r H := by
  have n := fun z : ℂ => normSq_nonneg z
  unfold lX; linarith [n (amX u al H.zeV H.zeTt), n (amY r u' be H.zeA H.zeT)]
theorem lF_nonneg (u u' al be r : ℝ) (H : AmpV) : 0 ≤ lF u u' al be r H := by
  have n := fun z : ℂ => normSq_nonneg z
  unfold lF; linarith [n (amF u al H.zeV H.zeTt), n (amK r u' be H.zeA H.zeT)]

theorem two_re_le (a b : ℂ) : 2 * |(a * conj b).re| ≤ normSq a + normSq b := by
  have h1 := normSq_nonneg (a + b)
  have h2 := normSq_nonneg (a - b)
  rw [nadd] at h1; rw [nsub] at h2
  rcases abs_cases (a * conj b).re with ⟨h, _⟩ | ⟨h, _⟩ <;> rw [h] <;> linarith

theorem fbT_le (u u' al be r : ℝ) (H : AmpV) : 2 * |fbT u u' al be r H| ≤ tX u u' al be r H := by
  have h1 := two_re_le (amX u al H.plV H.plTt) (amY r u' be H.plA H.plT)
  have h2 := two_re_le (amX u al H.miV H.miTt) (amY r u' be H.miA H.miT)
  have h3 := abs_sub (amX u al H.plV H.plTt * conj (amY r u' be H.plA H.plT)).re
    (amX u al H.miV H.miTt * conj (amY r u' be H.miA H.miT)).re
  unfold fbT tX; linarith

/-- All diagonal coefficients in terms of squares, with a common non-negative factor `F`. -/
theorem jforms {q2 m1 m2 u u' al be r : ℝ}
    (k : Kin (laGa q2 m1 m2) (energy q2 m1 m2 m1) (energy q2 m1 m2 m2) m1 m2 q2 u u' al be r)
    (H : AmpV) (mB mV : ℝ) :
    let F := 32 / 3 * phaseSpace (2 ^ 9 * Real.pi ^ 3) q2 mB mV m1 m2
    let J := angularV H q2 mB mV m1 m2
    J.j1s = F * (3 / 8 * tX u u' al be r H + 1 / 8 * tF u u' al be r H) ∧
    J.j1c = F * (1 / 2 * lX u u' al be r H + 1 / 2 * lF u u' al be r H
      + (u' ^ 2 * normSq H.S + u ^ 2 * normSq H.P)) ∧
    J.j2s = F * (1 / 8 * (tX u u' al be r H - tF u u' al be r H)) ∧
    J.j2c = -(F * (1 / 2 * (lX u u' al be r H - lF u u' al be r H))) ∧
    J.j6s = -(F * fbT u u' al be r H) ∧ J.j6c = F * (2 * fbL u u' al be r H) := by
  refine ⟨?_, ?_, ?_, ?_, ?_, ?_⟩ <;>
    simp only [angularV, signflip, gToG, gbasisV, GV.scale, gbasisV0] <;>
    simp only [form000 k, form020 k, form200 k, form220 k, form010 k, form210 k] <;> ring

/-- The rate in terms of squares. -/
theorem dGdq2_form {q2 m1 m2 u u' al be r : ℝ}
    (k : Kin (laGa q2 m1 m2) (energy q2 m1 m2 m1) (energy q2 m1 m2 m2) m1 m2 q2 u u' al be r)
    (H : AmpV) (mB mV : ℝ) :
    dGdq2 (angularV H q2 mB mV m1 m2) = 32 / 3 * phaseSpace (2 ^ 9 * Real.pi ^ 3) q2 mB mV m1 m2 *
      (1 / 2 * tX u u' al be r H + 1 / 4 * tF u u' al be r H + 1 / 2 * lX u u' al be r H
        + 1 / 4 * lF u u' al be r H + 3 / 4 * (u' ^ 2 * normSq H.S + u ^ 2 * normSq H.P)) := by
  obtain ⟨h1, h2, h3, h4, _, _⟩ := jforms k H mB mV
  unfold dGdq2
  rw [h1, h2, h3, h4]; ring

/-- The six diagonal inequalities every set of coefficients satisfies. -/
theorem diag_bounds (H : AmpV) (q2 mB mV m1 m2 : ℝ) (hB : 0 < mB) (h1 : 0 ≤ m1) (h2 : 0 ≤ m2) (hq : 0 < q2)
    (hth : (m1 + m2) ^ 2 ≤ q2) :
    let J := angularV H q2 mB mV m1 m2
    0 ≤ dGdq2 J ∧ |J.j6s| ≤ dGdq2 J ∧ -J.j2c ≤ dGdq2 J ∧ -(2 * dGdq2 J) ≤ -J.j2c ∧ 0 ≤ J.j1c ∧ 0 ≤ J.j1s := by
  obtain ⟨u, u', al, be, r, k⟩ := exists_kin q2 m1 m2 h1 h2 hq hth
  intro J
  obtain ⟨e1, e2, e3, e4, e5, e6⟩ := jforms k H mB mV
  have ed := dGdq2_form k H mB mV
  have hF : 0 ≤ 32 / 3 * phaseSpace (2 ^ 9 * Real.pi ^ 3) q2 mB mV m1 m2 :=
    mul_nonneg (by norm_num) (phaseSpace_nonneg _ _ _ _ _ _ (by positivity) hB hq)
  set F := 32 / 3 * phaseSpace (2 ^ 9 * Real.pi ^ 3) q2 mB mV m1 m2
  have a1 := tX_nonneg u u' al be r H
  have a2 := tF_nonneg u u' al be r H
  have a3 := lX_nonneg u u' al be r H
  have a4 := lF_nonneg u u' al be r H
  have a5 := fbT_le u u' al be r H
  have a6 : 0 ≤ u' ^ 2 * normSq H.S + u ^ 2 * normSq H.P :=
    add_nonneg (mul_nonneg (sq_nonneg _) (normSq_nonneg _)) (mul_nonneg (sq_nonneg _) (normSq_nonneg _))
  simp only [J]
  rw [ed, e1, e2, e4, e5]
  refine ⟨mul_nonneg hF (by linarith), ?_, ?_, ?_, mul_nonneg hF (by linarith), mul_nonneg hF (by linarith)⟩
  · rw [abs_neg, abs_mul, abs_of_nonneg hF]
    exact mul_le_mul_of_nonneg_left (by linarith) hF
  · rw [neg_neg]; exact mul_le_mul_of_nonneg_left (by linarith) hF
  · rw [neg_neg, ← sub_nonneg]
    have := mul_nonneg hF (by linarith : (0:ℝ) ≤ 1 / 2 * (lX u u' al be r H - lF u u' al be r H)
      + 2 * (1 / 2 * tX u u' al be r H + 1 / 4 * tF u u' al be r H + 1 / 2 * lX u u' al be r H
        + 1 / 4 * lF u u' al be r H + 3 / 4 * (u' ^ 2 * normSq H.S + u ^ 2 * normSq H.P)))
    linarith

end Verif.Angular
