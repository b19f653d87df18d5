import Mathlib.Analysis.SpecialFunctions.Log.Deriv
import Mathlib.Analysis.SpecialFunctions.Log.NegMulLog
import Mathlib.Analysis.Calculus.Deriv.Slope
import Mathlib.Tactic.FieldSimp
import Mathlib.Tactic.Linarith
import Mathlib.Tactic.LinearCombination
import Verif.Physics.Running
/-!
# The ΔF=2 box functions: `flavio/physics/mesonmixing/wilsoncoefficient.py`

Real arithmetic; the arguments are mass ratios.  `math.log` and divisions raise as in Python.
-/
set_option linter.unusedVariables false
set_option linter.unusedSimpArgs false
namespace Verif.Mixing
open Verif.Py Verif.Running Filter Topology

/-- The branch `x == 0` (and with `x`, `y` exchanged `y == 0`) of `F_box`: the numerator, with its logarithm, is
computed before the division.  /repo/flavio/physics/mesonmixing/wilsoncoefficient.py:22-25. -/
noncomputable def fBoxZero (y : ℝ) : Except PyErr ℝ :=
  pyLog y >>= fun l => pyDiv (1 - y + y * l) ((-1 + y) ^ 2)

/-- The branch `x == y` of `F_box`.  /repo/flavio/physics/mesonmixing/wilsoncoefficient.py:26-28. -/
noncomputable def fBoxDiag (x : ℝ) : Except PyErr ℝ :=
  pyDiv (4 + 4 * x - 15 * x ^ 2 + x ^ 3) (4 * (-1 + x) ^ 2) >>= fun a =>
  pyLog x >>= fun l =>
  pyDiv (x * (-4 + 4 * x + 3 * x ^ 2) * l) (2 * (-1 + x) ^ 3) >>= fun b => .ok (a + b)

/-- The general branch of `F_box`.  /repo/flavio/physics/mesonmixing/wilsoncoefficient.py:29-31. -/
noncomputable def fBoxGen (x y : ℝ) : Except PyErr ℝ :=
  pyDiv (4 - 7 * x * y) (4 - 4 * x - 4 * y + 4 * x * y) >>= fun a =>
  pyLog x >>= fun lx =>
  pyDiv (x ^ 2 * (4 + (-8 + x) * y) * lx) (4 * (-1 + x) ^ 2 * (x - y)) >>= fun b =>
  pyLog y >>= fun ly =>
  pyDiv ((4 + x * (-8 + y)) * y ^ 2 * ly) (4 * (x - y) * (-1 + y) ^ 2) >>= fun c =>
    .ok (a + b - c)

/-- `F_box`.  /repo/flavio/physics/mesonmixing/wilsoncoefficient.py:9-31. -/
noncomputable def fBox (x y : ℝ) : Except PyErr ℝ :=
  if x = 0 ∧ y = 0 then .ok 1
  else if x = 0 then fBoxZero y
  else if y = 0 then fBoxZero x
  else if x = y then fBoxDiag x
  else fBoxGen x y

/-- `S0_box`.  /repo/flavio/physics/mesonmixing/wilsoncoefficient.py:33-36. -/
noncomputable def s0Box (x y xu : ℝ) : Except PyErr ℝ :=
  fBox x y >>= fun a => fBox xu xu >>= fun b => fBox x xu >>= fun c => fBox y xu >>= fun d =>
    .ok (a + b - c - d)

/-! ## Values -/

theorem pyLog_pos {x : ℝ} (h : 0 < x) : pyLog x = .ok (Real.log x) := by
  unfold pyLog; rw [if_neg (not_le.2 h)]

theorem pyLog_neg {x : ℝ} (h : x ≤ 0) : pyLog x = .error .valueError := by
  unfold pyLog; rw [if_pos h]

theorem pyDiv_ne {x y : ℝ} (h : y ≠ 0) : pyDiv x y = .ok (x / y) := by
  unfold pyDiv; rw [if_neg h]

theorem pyDiv_zero (x : ℝ) : pyDiv x 0 = .error .zeroDivisionError := by
  unfold pyDiv; rw [if_pos rfl]

/-- The formula of the branch `x == 0`. Used for /repo/flavio/physics/mesonmixing/wilsoncoefficient.py:9-31. -/
noncomputable def vZero (y : ℝ) : ℝ := (1 - y + y * Real.log y) / (-1 + y) ^ 2
/-- The formula of the branch `x == y`. Used for /repo/flavio/physics/mesonmixing/wilsoncoefficient.py:9-31. -/
noncomputable def vDiag (x : ℝ) : ℝ :=
  (4 + 4 * x - 15 * x ^ 2 + x ^ 3) / (4 * (-1 + x) ^ 2) +
    x * (-4 + 4 * x + 3 * x ^ 2) * Real.log x / (2 * (-1 + x) ^ 3)
/-- The formula of the general branch. Used for /repo/flavio/physics/mesonmixing/wilsoncoefficient.py:9-31. -/
noncomputable def vGen (x y : ℝ) : ℝ :=
  (4 - 7 * x * y) / (4 - 4 * x - 4 * y + 4 * x * y) +
    x ^ 2 * (4 + (-8 + x) * y) * Real.log x / (4 * (-1 + x) ^ 2 * (x - y)) -
    (4 + x * (-8 + y)) * y ^ 2 * Real.log y / (4 * (x - y) * (-1 + y) ^ 2)

theorem fBoxZero_ok {y : ℝ} (h : 0 < y) (h1 : y ≠ 1) : fBoxZero y = .ok (vZero y) := by
  unfold fBoxZero
  rw [pyLog_pos h, ok_bind_eq, pyDiv_ne (pow_ne_zero 2 fun h0 => h1 (by linarith))]; rfl

theorem fBoxDiag_ok {x : ℝ} (h : 0 < x) (h1 : x ≠ 1) : fBoxDiag x = .ok (vDiag x) := by
  have hx : -1 + x ≠ 0 := fun h0 => h1 (by linarith)
  unfold fBoxDiag
  rw [pyLog_pos h, pyDiv_ne (by positivity), ok_bind_eq, ok_bind_eq, pyDiv_ne (by positivity), ok_bind_eq]; rfl

theorem den_eq (x y : ℝ) : 4 - 4 * x - 4 * y + 4 * x * y = 4 * (1 - x) * (1 - y) := by ring

theorem fBoxGen_ok {x y : ℝ} (hx : 0 < x) (hy : 0 < y) (hx1 : x ≠ 1) (hy1 : y ≠ 1) (h : x ≠ y) :
    fBoxGen x y = .ok (vGen x y) := by
  have h1 : 1 - x ≠ 0 := fun h0 => hx1 (by linarith)
  have h2 : 1 - y ≠ 0 := fun h0 => hy1 (by linarith)
  have h3 : -1 + x ≠ 0 := fun h0 => hx1 (by linarith)
  have h4 : -1 + y ≠ 0 := fun h0 => hy1 (by linarith)
  have h5 : x - y ≠ 0 := sub_ne_zero.2 h
  unfold fBoxGen
  rw [pyDiv_ne (by rw [den_eq]; positivity), ok_bind_eq, pyLog_pos hx, ok_bind_eq, pyDiv_ne (by positivity),
    ok_bind_eq, pyLog_pos hy, ok_bind_eq, pyDiv_ne (by positivity), ok_bind_eq]
  rfl

/-- The value of `F_box` for valid arguments. Used for /repo/flavio/physics/mesonmixing/wilsoncoefficient.py:9-31. -/
noncomputable def vBox (x y : ℝ) : ℝ :=
  if x = 0 ∧ y = 0 then 1 else if x = 0 then vZero y else if y = 0 then vZero x
  else if x = y then vDiag x else vGen x y

theorem fBox_ok {x y : ℝ} (hx : 0 ≤ x) (hy : 0 ≤ y) (hx1 : x ≠ 1) (hy1 : y ≠ 1) :
    fBox x y = .ok (vBox x y) := by
  unfold fBox vBox
  by_cases h0 : x = 0 ∧ y = 0
  · rw [if_pos h0, if_pos h0]
  rw [if_neg h0, if_neg h0]
  by_cases h1 : x = 0
  · rw [if_pos h1, if_pos h1, fBoxZero_ok (lt_of_le_of_ne hy fun h => h0 ⟨h1, h.symm⟩) hy1]
  rw [if_neg h1, if_neg h1]
  have px : 0 < x := lt_of_le_of_ne hx (Ne.symm h1)
  by_cases h2 : y = 0
  · rw [if_pos h2, if_pos h2, fBoxZero_ok px hx1]
  rw [if_neg h2, if_neg h2]
  have py : 0 < y := lt_of_le_of_ne hy (Ne.symm h2)
  by_cases h3 : x = y
  · rw [if_pos h3, if_pos h3, fBoxDiag_ok px hx1]
  rw [if_neg h3, if_neg h3, fBoxGen_ok px py hx1 hy1 h3]

theorem vGen_symm (x y : ℝ) : vGen x y = vGen y x := by
  unfold vGen
  have e1 : (4 - 4 * y - 4 * x + 4 * y * x) = 4 - 4 * x - 4 * y + 4 * x * y := by ring
  have e2 : 4 * (-1 + y) ^ 2 * (y - x) = -(4 * (x - y) * (-1 + y) ^ 2) := by ring
  have e3 : 4 * (y - x) * (-1 + x) ^ 2 = -(4 * (-1 + x) ^ 2 * (x - y)) := by ring
  rw [e1, e2, e3, div_neg, div_neg]
  ring

/-- **C87 (symmetry)** `F_box` is symmetric for every pair of real numbers, including the exceptions raised. -/
theorem C87_F_symmetric (x y : ℝ) : fBox x y = fBox y x := by
  unfold fBox
  by_cases hx : x = 0 <;> by_cases hy : y = 0
  · simp [hx, hy]
  · simp [hx, hy]
  · simp [hx, hy]
  simp only [hx, hy, false_and, if_false]
  by_cases h : x = y
  · subst h; simp
  rw [if_neg h, if_neg (Ne.symm h)]
  have hd : (4 - 4 * y - 4 * x + 4 * y * x) = 4 - 4 * x - 4 * y + 4 * x * y := by ring
  have hxy : x - y ≠ 0 := sub_ne_zero.2 h
  have hyx : y - x ≠ 0 := sub_ne_zero.2 (Ne.symm h)
  by_cases h1 : (x = 1 ∨ y = 1)
  · have : 4 - 4 * x - 4 * y + 4 * x * y = 0 := by
      rw [den_eq]; rcases h1 with rfl | rfl <;> ring
    unfold fBoxGen
    rw [hd, this, pyDiv_zero, pyDiv_zero]; rfl
  push Not at h1
  have g1 : 1 - x ≠ 0 := fun h0 => h1.1 (by linarith)
  have g2 : 1 - y ≠ 0 := fun h0 => h1.2 (by linarith)
  have h3 : -1 + x ≠ 0 := fun h0 => h1.1 (by linarith)
  have h4 : -1 + y ≠ 0 := fun h0 => h1.2 (by linarith)
  by_cases px : 0 < x
  · by_cases py : 0 < y
    · rw [fBoxGen_ok px py h1.1 h1.2 h, fBoxGen_ok py px h1.2 h1.1 (Ne.symm h), vGen_symm]
    · unfold fBoxGen
      rw [pyDiv_ne (by rw [den_eq]; positivity), ok_bind_eq, pyLog_pos px, ok_bind_eq, pyDiv_ne (by positivity),
        ok_bind_eq, pyLog_neg (not_lt.1 py), hd, pyDiv_ne (by rw [den_eq]; positivity), ok_bind_eq]
      rfl
  · unfold fBoxGen
    rw [pyDiv_ne (by rw [den_eq]; positivity), ok_bind_eq, pyLog_neg (not_lt.1 px), hd,
      pyDiv_ne (by rw [den_eq]; positivity), ok_bind_eq]
    by_cases py : 0 < y
    · rw [pyLog_pos py, ok_bind_eq, pyDiv_ne (by positivity), ok_bind_eq]; rfl
    · rw [pyLog_neg (not_lt.1 py)]; rfl

/-- **C87 (domain)** For non-negative mass ratios `F_box` raises only if one of them is exactly 1, and then
always `ZeroDivisionError`. -/
theorem C87_F_domain (x y : ℝ) (hx : 0 ≤ x) (hy : 0 ≤ y) :
    (x ≠ 1 → y ≠ 1 → ∃ v, fBox x y = .ok v) ∧ (x = 1 ∨ y = 1 → fBox x y = .error .zeroDivisionError) := by
  refine ⟨fun h1 h2 => ⟨_, fBox_ok hx hy h1 h2⟩, ?_⟩
  have key : ∀ y, 0 ≤ y → fBox 1 y = .error .zeroDivisionError := by
    intro y hy
    unfold fBox
    have hz : fBoxZero 1 = .error .zeroDivisionError := by
      unfold fBoxZero; rw [pyLog_pos one_pos, ok_bind_eq]; norm_num [pyDiv_zero]
    by_cases h2 : y = 0
    · simp [h2, hz]
    by_cases h3 : (1 : ℝ) = y
    · rw [if_neg (by simp), if_neg one_ne_zero, if_neg h2, if_pos h3]
      unfold fBoxDiag
      norm_num [pyDiv_zero, error_bind_eq]
    · rw [if_neg (by simp), if_neg one_ne_zero, if_neg h2, if_neg h3]
      unfold fBoxGen
      rw [den_eq]; norm_num [pyDiv_zero, error_bind_eq]
  rintro (rfl | rfl)
  · exact key y hy
  · rw [C87_F_symmetric]; exact key x hx

/-! ## The special cases are the limits of the general formula -/

/-- `f(y)` is defined near (but off) `a`, inside `S`, and tends to `l`. (Specification.) -/
def LimitAt (f : ℝ → Except PyErr ℝ) (S : Set ℝ) (a l : ℝ) : Prop :=
  ∀ ε > 0, ∃ δ > 0, ∀ y ∈ S, y ≠ a → |y - a| < δ → ∃ v, f y = .ok v ∧ |v - l| < ε

theorem limitAt_of_tendsto {f : ℝ → Except PyErr ℝ} {S : Set ℝ} {a l : ℝ} {g : ℝ → ℝ} {U : Set ℝ} (hU : U ∈ 𝓝 a)
    (hf : ∀ y ∈ U, y ∈ S → y ≠ a → f y = .ok (g y)) (hg : Tendsto g (𝓝[≠] a) (𝓝 l)) : LimitAt f S a l := by
  intro ε he
  have h1 : ∀ᶠ y in 𝓝[≠] a, |g y - l| < ε := by
    have := Metric.tendsto_nhds.1 hg ε he
    simpa [Real.dist_eq] using this
  have h2 : ∀ᶠ y in 𝓝[≠] a, y ∈ U := mem_nhdsWithin_of_mem_nhds hU
  have h3 := h1.and h2
  rw [eventually_nhdsWithin_iff, Metric.eventually_nhds_iff] at h3
  obtain ⟨δ, hδ, h⟩ := h3
  refine ⟨δ, hδ, fun y hy hya hd => ?_⟩
  obtain ⟨q1, q2⟩ := h (by rwa [Real.dist_eq]) hya
  exact ⟨_, hf y q2 hy hya, q1⟩

theorem vGen_tendsto_diag {x : ℝ} (hx : 0 < x) (hx1 : x ≠ 1) :
    Tendsto (fun y => vGen x y) (𝓝[≠] x) (𝓝 (vDiag x)) := by
  have h3 : -1 + x ≠ 0 := fun h0 => hx1 (by linarith)
  have h3' : 1 - x ≠ 0 := fun h0 => hx1 (by linarith)
  let h : ℝ → ℝ := fun y => x ^ 2 * (4 + (-8 + x) * y) * Real.log x / (4 * (-1 + x) ^ 2) -
    (4 + x * (-8 + y)) * y ^ 2 * Real.log y / (4 * (-1 + y) ^ 2)
  have h0 : h x = 0 := by
    show x ^ 2 * (4 + (-8 + x) * x) * Real.log x / (4 * (-1 + x) ^ 2) -
      (4 + x * (-8 + x)) * x ^ 2 * Real.log x / (4 * (-1 + x) ^ 2) = 0
    ring
  have hd : HasDerivAt h (x ^ 2 * (-8 + x) * Real.log x / (4 * (-1 + x) ^ 2) -
      (((x * x ^ 2 + (4 + x * (-8 + x)) * (2 * x)) * Real.log x + (4 + x * (-8 + x)) * x ^ 2 * x⁻¹) *
        (4 * (-1 + x) ^ 2) - (4 + x * (-8 + x)) * x ^ 2 * Real.log x * (4 * (2 * (-1 + x)))) /
        (4 * (-1 + x) ^ 2) ^ 2) x := by
    have a1 : HasDerivAt (fun y => 4 + (-8 + x) * y) (-8 + x) x := by
      simpa using ((hasDerivAt_id x).const_mul (-8 + x)).const_add 4
    have a2 : HasDerivAt (fun y => x ^ 2 * (4 + (-8 + x) * y) * Real.log x / (4 * (-1 + x) ^ 2))
        (x ^ 2 * (-8 + x) * Real.log x / (4 * (-1 + x) ^ 2)) x :=
      ((a1.const_mul (x ^ 2)).mul_const _).div_const _
    have b1 : HasDerivAt (fun y => 4 + x * (-8 + y)) x x := by
      simpa using (((hasDerivAt_id x).const_add (-8)).const_mul x).const_add 4
    have b2 : HasDerivAt (fun y : ℝ => y ^ 2) (2 * x) x := by simpa using hasDerivAt_pow 2 x
    have b3 := (b1.mul b2).mul (Real.hasDerivAt_log hx.ne')
    have b4 : HasDerivAt (fun y : ℝ => 4 * (-1 + y) ^ 2) (4 * (2 * (-1 + x))) x := by
      simpa using ((((hasDerivAt_id x).const_add (-1)).pow 2).const_mul 4)
    have b5 := b3.div b4 (by positivity)
    exact a2.sub b5
  have hs := hasDerivAt_iff_tendsto_slope.1 hd
  have hA : Tendsto (fun y => (4 - 7 * x * y) / (4 - 4 * x - 4 * y + 4 * x * y)) (𝓝[≠] x)
      (𝓝 ((4 - 7 * x * x) / (4 - 4 * x - 4 * x + 4 * x * x))) := by
    have : ContinuousAt (fun y => (4 - 7 * x * y) / (4 - 4 * x - 4 * y + 4 * x * y)) x := by
      apply ContinuousAt.div
      · fun_prop
      · fun_prop
      · rw [den_eq]; positivity
    exact this.tendsto.mono_left nhdsWithin_le_nhds
  have := hA.sub hs
  have hval : (4 - 7 * x * x) / (4 - 4 * x - 4 * x + 4 * x * x) - (x ^ 2 * (-8 + x) * Real.log x / (4 * (-1 + x) ^ 2) -
      (((x * x ^ 2 + (4 + x * (-8 + x)) * (2 * x)) * Real.log x + (4 + x * (-8 + x)) * x ^ 2 * x⁻¹) *
        (4 * (-1 + x) ^ 2) - (4 + x * (-8 + x)) * x ^ 2 * Real.log x * (4 * (2 * (-1 + x)))) /
        (4 * (-1 + x) ^ 2) ^ 2) = vDiag x := by
    unfold vDiag
    have e : 4 - 4 * x - 4 * x + 4 * x * x = 4 * (-1 + x) ^ 2 := by ring
    rw [e]
    field_simp
    ring
  rw [hval] at this
  refine this.congr' ?_
  filter_upwards [self_mem_nhdsWithin, mem_nhdsWithin_of_mem_nhds (isOpen_ne.mem_nhds hx1)] with y hy hy1
  have hxy : x - y ≠ 0 := sub_ne_zero.2 (Ne.symm hy)
  have hyx : y - x ≠ 0 := sub_ne_zero.2 hy
  have h4 : -1 + y ≠ 0 := fun h0 => hy1 (by linarith)
  rw [slope_def_field, h0, sub_zero]
  show _ - (x ^ 2 * (4 + (-8 + x) * y) * Real.log x / (4 * (-1 + x) ^ 2) -
    (4 + x * (-8 + y)) * y ^ 2 * Real.log y / (4 * (-1 + y) ^ 2)) / (y - x) = vGen x y
  unfold vGen
  have : y - x = -(x - y) := by ring
  rw [this, div_neg]
  field_simp
  ring

/-- **C87 (special cases are limits)** For mass ratios different from 1 the branches of `F_box` for equal and for
vanishing arguments continue the general formula: the general value tends to the special one. -/
theorem C87_F_limits (x : ℝ) (hx1 : x ≠ 1) :
    (0 < x → ∃ v, fBox x x = .ok v ∧ LimitAt (fun y => fBox x y) Set.univ x v) ∧
    (0 < x → ∃ v, fBox x 0 = .ok v ∧ LimitAt (fun y => fBox x y) {y | 0 ≤ y} 0 v) ∧
    (∃ v, fBox 0 0 = .ok v ∧ LimitAt (fun y => fBox 0 y) {y | 0 ≤ y} 0 v) := by
  refine ⟨fun hx => ?_, fun hx => ?_, ?_⟩
  · refine ⟨vBox x x, fBox_ok hx.le hx.le hx1 hx1, ?_⟩
    have hv : vBox x x = vDiag x := by unfold vBox; simp [hx.ne']
    rw [hv]
    refine limitAt_of_tendsto (g := fun y => vGen x y) (U := {y | 0 < y ∧ y ≠ 1})
      ((isOpen_lt continuous_const continuous_id).inter isOpen_ne |>.mem_nhds ⟨hx, hx1⟩) ?_ (vGen_tendsto_diag hx hx1)
    intro y hy _ hyx
    show fBox x y = _
    rw [fBox_ok hx.le hy.1.le hx1 hy.2]
    unfold vBox; simp [hx.ne', hy.1.ne', Ne.symm hyx]
  · refine ⟨vBox x 0, fBox_ok hx.le le_rfl hx1 zero_ne_one, ?_⟩
    have hv : vBox x 0 = vZero x := by unfold vBox; simp [hx.ne']
    rw [hv]
    have h3 : -1 + x ≠ 0 := fun h0 => hx1 (by linarith)
    have h3' : 1 - x ≠ 0 := fun h0 => hx1 (by linarith)
    refine limitAt_of_tendsto (g := fun y => vGen x y) (U := {y | y < x ∧ y < 1})
      ((isOpen_lt continuous_id continuous_const).inter (isOpen_lt continuous_id continuous_const)
        |>.mem_nhds ⟨hx, zero_lt_one (α := ℝ)⟩) ?_ ?_
    · intro y hy hy0 hyx
      show fBox x y = _
      have py : 0 < y := lt_of_le_of_ne hy0 (Ne.symm hyx)
      rw [fBox_ok hx.le py.le hx1 hy.2.ne]
      unfold vBox; simp [hx.ne', py.ne', hy.1.ne']
    · have hc : ContinuousAt (fun y => (4 - 7 * x * y) / (4 - 4 * x - 4 * y + 4 * x * y) +
          x ^ 2 * (4 + (-8 + x) * y) * Real.log x / (4 * (-1 + x) ^ 2 * (x - y)) -
          (4 + x * (-8 + y)) * y * (y * Real.log y) / (4 * (x - y) * (-1 + y) ^ 2)) 0 := by
        apply ContinuousAt.sub
        · apply ContinuousAt.add
          · apply ContinuousAt.div
            · fun_prop
            · fun_prop
            · rw [den_eq]; simp only [sub_zero, mul_one]; positivity
          · apply ContinuousAt.div
            · fun_prop
            · fun_prop
            · simp only [sub_zero]; positivity
        · apply ContinuousAt.div
          · apply ContinuousAt.mul
            · fun_prop
            · exact Real.continuous_mul_log.continuousAt
          · fun_prop
          · simp only [sub_zero, add_zero]; norm_num; exact hx.ne'
      have ht := hc.tendsto.mono_left (nhdsWithin_le_nhds (s := {0}ᶜ))
      have hval : (4 - 7 * x * 0) / (4 - 4 * x - 4 * 0 + 4 * x * 0) +
          x ^ 2 * (4 + (-8 + x) * 0) * Real.log x / (4 * (-1 + x) ^ 2 * (x - 0)) -
          (4 + x * (-8 + 0)) * 0 * (0 * Real.log 0) / (4 * (x - 0) * (-1 + 0) ^ 2) = vZero x := by
        unfold vZero
        have e : 4 - 4 * x - 4 * 0 + 4 * x * 0 = -(4 * (-1 + x)) := by ring
        rw [e]
        simp only [mul_zero, zero_mul, sub_zero, zero_div, add_zero]
        field_simp
        ring
      rw [hval] at ht
      refine ht.congr fun y => ?_
      unfold vGen; ring
  · refine ⟨1, by unfold fBox; simp, ?_⟩
    refine limitAt_of_tendsto (g := vZero) (U := {y | y < 1})
      ((isOpen_lt continuous_id continuous_const).mem_nhds (zero_lt_one (α := ℝ))) ?_ ?_
    · intro y hy hy0 hyx
      show fBox 0 y = _
      have py : 0 < y := lt_of_le_of_ne hy0 (Ne.symm hyx)
      rw [fBox_ok le_rfl py.le zero_ne_one (ne_of_lt hy)]
      unfold vBox; simp [py.ne']
    · have hc : ContinuousAt vZero 0 := by
        unfold vZero
        apply ContinuousAt.div
        · apply ContinuousAt.add (by fun_prop) Real.continuous_mul_log.continuousAt
        · fun_prop
        · norm_num
      have hv : vZero 0 = 1 := by unfold vZero; simp
      have := hc.tendsto.mono_left (nhdsWithin_le_nhds (s := {0}ᶜ))
      rwa [hv] at this

/-! ## GIM -/

theorem s0Box_ok {x y u : ℝ} (hx : 0 ≤ x) (hy : 0 ≤ y) (hu : 0 ≤ u) (hx1 : x ≠ 1) (hy1 : y ≠ 1) (hu1 : u ≠ 1) :
    s0Box x y u = .ok (vBox x y + vBox u u - vBox x u - vBox y u) := by
  unfold s0Box
  rw [fBox_ok hx hy hx1 hy1, fBox_ok hu hu hu1 hu1, fBox_ok hx hu hx1 hu1, fBox_ok hy hu hy1 hu1]; rfl

theorem vBox_symm {x y : ℝ} (hx : 0 ≤ x) (hy : 0 ≤ y) (hx1 : x ≠ 1) (hy1 : y ≠ 1) : vBox x y = vBox y x := by
  have := C87_F_symmetric x y
  rw [fBox_ok hx hy hx1 hy1, fBox_ok hy hx hy1 hx1] at this
  exact Except.ok.inj this

/-- **C87 (GIM)** `S0_box` is symmetric in its first two arguments and vanishes when one of the two quarks is
degenerate with the reference quark. -/
theorem C87_GIM (x y u : ℝ) (hx : 0 ≤ x) (hy : 0 ≤ y) (hu : 0 ≤ u) (hx1 : x ≠ 1) (hy1 : y ≠ 1) (hu1 : u ≠ 1) :
    s0Box x y u = s0Box y x u ∧ s0Box u y u = .ok 0 ∧ s0Box x u u = .ok 0 := by
  rw [s0Box_ok hx hy hu hx1 hy1 hu1, s0Box_ok hy hx hu hy1 hx1 hu1, s0Box_ok hu hy hu hu1 hy1 hu1,
    s0Box_ok hx hu hu hx1 hu1 hu1, vBox_symm hy hx hy1 hx1, vBox_symm hy hu hy1 hu1]
  refine ⟨?_, ?_, ?_⟩ <;> congr 1 <;> ring

/-- **C87 (Inami-Lim functions)** For a massless reference quark `S0_box` is the Inami-Lim function
`S0(x)` for equal arguments and `S0(x, y)` for different ones. -/
theorem C87_inami_lim (x y : ℝ) (hx : 0 < x) (hy : 0 < y) (hx1 : x ≠ 1) (hy1 : y ≠ 1) :
    s0Box x x 0 = .ok ((4 * x - 11 * x ^ 2 + x ^ 3) / (4 * (1 - x) ^ 2) -
      3 * x ^ 3 * Real.log x / (2 * (1 - x) ^ 3)) ∧
    (x ≠ y → s0Box x y 0 = .ok (x * y * (
      Real.log x / (x - y) * (1 / 4 + 3 / 2 / (1 - x) - 3 / 4 / (1 - x) ^ 2) +
      Real.log y / (y - x) * (1 / 4 + 3 / 2 / (1 - y) - 3 / 4 / (1 - y) ^ 2) -
      3 / 4 / ((1 - x) * (1 - y))))) := by
  have h1 : 1 - x ≠ 0 := fun h0 => hx1 (by linarith)
  have h2 : 1 - y ≠ 0 := fun h0 => hy1 (by linarith)
  have h3 : -1 + x = -(1 - x) := by ring
  have h4 : -1 + y = -(1 - y) := by ring
  constructor
  · rw [s0Box_ok hx.le hx.le le_rfl hx1 hx1 zero_ne_one]
    congr 1
    simp only [vBox, hx.ne', false_and, if_false, and_self, if_true, and_false]
    unfold vDiag vZero
    rw [h3]
    field_simp
    ring
  · intro h
    have h5 : x - y ≠ 0 := sub_ne_zero.2 h
    have h6 : y - x = -(x - y) := by ring
    rw [s0Box_ok hx.le hy.le le_rfl hx1 hy1 zero_ne_one]
    congr 1
    simp only [vBox, hx.ne', hy.ne', h, false_and, if_false, and_self, if_true, and_false]
    unfold vGen vZero
    rw [den_eq, h3, h4, h6]
    field_simp
    ring

end Verif.Mixing
