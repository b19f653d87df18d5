import Verif.Physics.Angular.Amps
import Verif.Physics.Bdecays.Bll
import Verif.Physics.Mixing.Box
import Mathlib.Analysis.Calculus.Deriv.Pow
import Mathlib.Analysis.Asymptotics.Lemmas
/-!
# The conformal variable of form factor expansions (`flavio/physics/bdecays/formfactors/common.py`)

The `lru_cache` decorator is not modelled: `z` is a pure function of hashable numbers (caching is property C38's subject).
-/
set_option linter.unusedVariables false
set_option linter.unusedSimpArgs false
namespace Verif.FormFactors
open Verif.Py Verif.Running Verif.Bll

/-- The argument `t0` of `z`: not given, the string `'tm'`, or a number.
/repo/flavio/physics/bdecays/formfactors/common.py:7-24. -/
inductive T0 where
  | none
  | tm
  | num (x : ℝ)

/-- The value of `t0` used.  /repo/flavio/physics/bdecays/formfactors/common.py:25-30. -/
noncomputable def t0Val (tm tp : ℝ) : T0 → Except PyErr ℝ
  | .none => do
    let r ← pyDiv tm tp
    let s ← pySqrt (1 - r)
    return tp * (1 - s)
  | .tm => .ok tm
  | .num x => .ok x

/-- `z`.  /repo/flavio/physics/bdecays/formfactors/common.py:7-33. -/
noncomputable def z (mB mM q2 : ℝ) (t0 : T0) : Except PyErr ℝ := do
  let tm := (mB - mM) ^ 2
  let tp := (mB + mM) ^ 2
  let t ← t0Val tm tp t0
  let sq2 ← pySqrt (tp - q2)
  let st0 ← pySqrt (tp - t)
  pyDiv (sq2 - st0) (sq2 + st0)

/-- The coefficient array `a` of `w_minus_1_pow_n` (only assigned for `n = 1, 2, 3`).
/repo/flavio/physics/bdecays/formfactors/common.py:49-54. -/
def wCoeffs : ℕ → List ℝ
  | 1 => [0, 8, 16, 24]
  | 2 => [0, 0, 64, 256]
  | _ => [0, 0, 0, 512]

/-- `w_minus_1_pow_n`, for natural numbers `n` and `order_z`.
/repo/flavio/physics/bdecays/formfactors/common.py:36-55. -/
noncomputable def wMinus1Pow (x : ℝ) (n m : ℕ) : Except PyErr ℝ :=
  let zs : List ℝ := [1, x, x ^ 2, x ^ 3]
  if m > 3 then .error .valueError
  else if n > 3 then .error .valueError
  else if n = 0 then .ok 1
  else .ok (((List.zipWith (· * ·) (wCoeffs n) zs).take (m + 1)).sum)

/-! ## Specification -/

/-- The conformal map of the cut plane (cut from `tp` on) to the unit disk that sends `t0` to the origin.
(Specification.) -/
noncomputable def conformal (tp t0 q2 : ℝ) : ℝ :=
  (Real.sqrt (tp - q2) - Real.sqrt (tp - t0)) / (Real.sqrt (tp - q2) + Real.sqrt (tp - t0))

/-- The point `t₊ (1 - √(1 - t₋/t₊))`. (Specification.) -/
noncomputable def tOpt (tm tp : ℝ) : ℝ := tp * (1 - Real.sqrt (1 - tm / tp))

/-- The point at which `z` vanishes. (Specification.) -/
noncomputable def T0.val (tm tp : ℝ) : T0 → ℝ
  | .none => tOpt tm tp
  | .tm => tm
  | .num x => x

/-- The recoil variable `w = v·v'` of the final meson. (Specification.) -/
noncomputable def recoil (mB mM q2 : ℝ) : ℝ := (mB ^ 2 + mM ^ 2 - q2) / (2 * mB * mM)

/-! ## Lemmas -/

theorem one_sub_ratio {mB mM : ℝ} (hB : 0 < mB) (hM : 0 < mM) :
    1 - (mB - mM) ^ 2 / (mB + mM) ^ 2 = 4 * mB * mM / (mB + mM) ^ 2 := by
  have : mB + mM ≠ 0 := by positivity
  field_simp; ring

theorem t0Val_eq {mB mM : ℝ} (hB : 0 < mB) (hM : 0 < mM) (t0 : T0) :
    t0Val ((mB - mM) ^ 2) ((mB + mM) ^ 2) t0 = .ok (t0.val ((mB - mM) ^ 2) ((mB + mM) ^ 2)) := by
  cases t0 with
  | none =>
    have h : (mB + mM) ^ 2 ≠ 0 := by positivity
    have h2 : (0:ℝ) ≤ 1 - (mB - mM) ^ 2 / (mB + mM) ^ 2 := by
      rw [one_sub_ratio hB hM]; positivity
    show (pyDiv _ _ >>= _) = _
    rw [Mixing.pyDiv_ne h]
    show (pySqrt _ >>= _) = _
    rw [pySqrt_nonneg h2]
    rfl
  | tm => rfl
  | num x => rfl

theorem tOpt_lt {mB mM : ℝ} (hB : 0 < mB) (hM : 0 < mM) :
    tOpt ((mB - mM) ^ 2) ((mB + mM) ^ 2) < (mB + mM) ^ 2 := by
  have h2 : (0:ℝ) < 1 - (mB - mM) ^ 2 / (mB + mM) ^ 2 := by
    rw [one_sub_ratio hB hM]; positivity
  have := Real.sqrt_pos.2 h2
  have h : 0 < (mB + mM) ^ 2 := by positivity
  unfold tOpt
  nlinarith

/-- `z` is the conformal map wherever it is defined. -/
theorem z_eq {mB mM q2 : ℝ} (hB : 0 < mB) (hM : 0 < mM) (t0 : T0)
    (h0 : t0.val ((mB - mM) ^ 2) ((mB + mM) ^ 2) < (mB + mM) ^ 2) (hq : q2 ≤ (mB + mM) ^ 2) :
    z mB mM q2 t0 = .ok (conformal ((mB + mM) ^ 2) (t0.val ((mB - mM) ^ 2) ((mB + mM) ^ 2)) q2) := by
  show (t0Val _ _ _ >>= _) = _
  rw [t0Val_eq hB hM]
  show (pySqrt _ >>= _) = _
  rw [pySqrt_nonneg (by linarith)]
  show (pySqrt _ >>= _) = _
  rw [pySqrt_nonneg (by linarith)]
  have : Real.sqrt ((mB + mM) ^ 2 - q2) + Real.sqrt ((mB + mM) ^ 2 - t0.val ((mB - mM) ^ 2) ((mB + mM) ^ 2)) ≠ 0 := by
    have := Real.sqrt_pos.2 (show (0:ℝ) < (mB + mM) ^ 2 - t0.val ((mB - mM) ^ 2) ((mB + mM) ^ 2) by linarith)
    have := Real.sqrt_nonneg ((mB + mM) ^ 2 - q2)
    linarith
  show pyDiv _ _ = _
  rw [Mixing.pyDiv_ne this]
  rfl

theorem conformal_lt_one {tp t0 q2 : ℝ} (h0 : t0 < tp) (hq : q2 ≤ tp) : conformal tp t0 q2 < 1 := by
  have a := Real.sqrt_pos.2 (show (0:ℝ) < tp - t0 by linarith)
  have b := Real.sqrt_nonneg (tp - q2)
  unfold conformal
  rw [div_lt_one (by linarith)]
  linarith

theorem neg_one_le_conformal {tp t0 q2 : ℝ} (h0 : t0 < tp) (hq : q2 ≤ tp) : -1 ≤ conformal tp t0 q2 := by
  have a := Real.sqrt_pos.2 (show (0:ℝ) < tp - t0 by linarith)
  have b := Real.sqrt_nonneg (tp - q2)
  unfold conformal
  rw [le_div_iff₀ (by linarith)]
  linarith

theorem conformal_anti {tp t0 : ℝ} (h0 : t0 < tp) {x y : ℝ} (hy : y ≤ tp) (hxy : x < y) :
    conformal tp t0 y < conformal tp t0 x := by
  have a := Real.sqrt_pos.2 (show (0:ℝ) < tp - t0 by linarith)
  have b := Real.sqrt_nonneg (tp - y)
  have c := Real.sqrt_lt_sqrt (show (0:ℝ) ≤ tp - y by linarith) (show tp - y < tp - x by linarith)
  unfold conformal
  rw [div_lt_div_iff₀ (by linarith) (by linarith)]
  nlinarith

theorem conformal_self (tp t0 : ℝ) : conformal tp t0 t0 = 0 := by simp [conformal]

/-! ## Properties -/

/-- **C104**: the expansion variable is the conformal map: for positive masses and `t0` below threshold it is defined for all `q2`
up to the threshold `t₊ = (mB + mM)²`, takes values in `[-1, 1)`, `-1` only at the threshold, vanishes exactly at `t0`, is
strictly decreasing in `q2`; above the threshold `ValueError` is raised. -/
theorem C104_z {mB mM : ℝ} (hB : 0 < mB) (hM : 0 < mM) (t0 : T0)
    (h0 : t0.val ((mB - mM) ^ 2) ((mB + mM) ^ 2) < (mB + mM) ^ 2) :
    (∀ q2, q2 ≤ (mB + mM) ^ 2 →
      ∃ v, z mB mM q2 t0 = .ok v ∧ -1 ≤ v ∧ v < 1 ∧ (v = -1 ↔ q2 = (mB + mM) ^ 2) ∧
        (v = 0 ↔ q2 = t0.val ((mB - mM) ^ 2) ((mB + mM) ^ 2)) ∧
        (0 < v ↔ q2 < t0.val ((mB - mM) ^ 2) ((mB + mM) ^ 2))) ∧
    (∀ q q' v v', z mB mM q t0 = .ok v → z mB mM q' t0 = .ok v' → q < q' → v' < v) ∧
    (∀ q2, (mB + mM) ^ 2 < q2 → z mB mM q2 t0 = .error .valueError) := by
  have hout : ∀ q2, (mB + mM) ^ 2 < q2 → z mB mM q2 t0 = .error .valueError := by
    intro q2 hq
    show (t0Val _ _ _ >>= _) = _
    rw [t0Val_eq hB hM]
    show (pySqrt _ >>= _) = _
    have : (mB + mM) ^ 2 - q2 < 0 := by linarith
    rw [pySqrt, if_pos this]; rfl
  refine ⟨fun q2 hq => ⟨_, z_eq hB hM t0 h0 hq, neg_one_le_conformal h0 hq, conformal_lt_one h0 hq, ?_, ?_, ?_⟩, ?_, hout⟩
  · constructor
    · intro h
      by_contra hne
      have h1 := conformal_anti h0 le_rfl (lt_of_le_of_ne hq hne)
      have h2 := neg_one_le_conformal h0 (le_refl ((mB + mM) ^ 2))
      linarith
    · rintro rfl
      have a := Real.sqrt_pos.2 (show (0:ℝ) < (mB + mM) ^ 2 - t0.val ((mB - mM) ^ 2) ((mB + mM) ^ 2) by linarith)
      unfold conformal
      rw [sub_self, Real.sqrt_zero, zero_sub, zero_add, neg_div, div_self a.ne']
  · constructor
    · intro h
      rcases lt_trichotomy q2 (t0.val ((mB - mM) ^ 2) ((mB + mM) ^ 2)) with h1 | h1 | h1
      · have := conformal_anti h0 h0.le h1
        rw [conformal_self] at this; linarith
      · exact h1
      · have := conformal_anti h0 hq h1
        rw [conformal_self] at this; linarith
    · rintro rfl; exact conformal_self _ _
  · constructor
    · intro h
      by_contra hn
      rcases (not_lt.1 hn).lt_or_eq with h1 | h1
      · have := conformal_anti h0 hq h1
        rw [conformal_self] at this; linarith
      · rw [← h1, conformal_self] at h; exact lt_irrefl _ h
    · intro h
      have := conformal_anti h0 h0.le h
      rwa [conformal_self] at this
  · intro q q' v v' h h' hlt
    have hq' : q' ≤ (mB + mM) ^ 2 := by
      by_contra hn
      rw [hout q' (not_le.1 hn)] at h'; cases h'
    have hq : q ≤ (mB + mM) ^ 2 := by linarith
    rw [z_eq hB hM t0 h0 hq] at h
    rw [z_eq hB hM t0 h0 hq'] at h'
    cases h; cases h'
    exact conformal_anti h0 hq' hlt

/-- The hypotheses of `C104_z` hold for all masses and the default `t0` and `'tm'`. -/
theorem C104_z_nonvacuous {mB mM : ℝ} (hB : 0 < mB) (hM : 0 < mM) :
    T0.none.val ((mB - mM) ^ 2) ((mB + mM) ^ 2) < (mB + mM) ^ 2 ∧
    T0.tm.val ((mB - mM) ^ 2) ((mB + mM) ^ 2) < (mB + mM) ^ 2 ∧
    (T0.num 0).val ((mB - mM) ^ 2) ((mB + mM) ^ 2) < (mB + mM) ^ 2 := by
  refine ⟨tOpt_lt hB hM, ?_, ?_⟩
  · show (mB - mM) ^ 2 < _
    nlinarith
  · show (0:ℝ) < _
    positivity

/-- The optimum: `√(t₊ - t_opt)` is the geometric mean of `√t₊` and `√(t₊ - t₋)`. -/
theorem sqrt_tOpt {tm tp : ℝ} (h0 : 0 ≤ tm) (h : tm < tp) :
    Real.sqrt (tp - tOpt tm tp) ^ 2 = Real.sqrt tp * Real.sqrt (tp - tm) := by
  have hp : 0 < tp := by linarith
  have e : tp - tOpt tm tp = tp * Real.sqrt (1 - tm / tp) := by unfold tOpt; ring
  have e2 : 1 - tm / tp = (tp - tm) / tp := by field_simp
  rw [e, Real.sq_sqrt (by positivity), e2, Real.sqrt_div (by linarith)]
  have : tp = Real.sqrt tp * Real.sqrt tp := (Real.mul_self_sqrt hp.le).symm
  have hs : Real.sqrt tp ≠ 0 := (Real.sqrt_pos.2 hp).ne'
  field_simp
  rw [Real.sq_sqrt hp.le, mul_comm]

/-- With the default `t0`, `z` is antisymmetric between the end points of the semi-leptonic region. -/
theorem tOpt_symm {tm tp : ℝ} (h0 : 0 ≤ tm) (h : tm < tp) :
    conformal tp (tOpt tm tp) tm = -conformal tp (tOpt tm tp) 0 := by
  have hp : 0 < tp := by linarith
  have e := sqrt_tOpt h0 h
  have a := Real.sqrt_pos.2 hp
  have b := Real.sqrt_pos.2 (show (0:ℝ) < tp - tm by linarith)
  have c := Real.sqrt_nonneg (tp - tOpt tm tp)
  unfold conformal
  rw [sub_zero]
  generalize Real.sqrt (tp - tOpt tm tp) = s at *
  generalize Real.sqrt tp = u at *
  generalize Real.sqrt (tp - tm) = v at *
  rw [← neg_div, div_eq_div_iff (by linarith) (by linarith)]
  nlinarith

theorem conformal_zero_anti {tp : ℝ} {x y : ℝ} (hp : 0 < tp) (hy : y ≤ tp) (hxy : x ≤ y) :
    conformal tp x 0 ≤ conformal tp y 0 := by
  have a := Real.sqrt_pos.2 hp
  have b := Real.sqrt_nonneg (tp - y)
  have c := Real.sqrt_le_sqrt (show tp - y ≤ tp - x by linarith)
  unfold conformal
  rw [sub_zero, div_le_div_iff₀ (by linarith) (by linarith)]
  nlinarith

theorem conformal_tm_anti {tp tm : ℝ} {x y : ℝ} (hp : tm < tp) (hy : y ≤ tp) (hxy : x ≤ y) :
    conformal tp x tm ≤ conformal tp y tm := by
  have a := Real.sqrt_pos.2 (show (0:ℝ) < tp - tm by linarith)
  have b := Real.sqrt_nonneg (tp - y)
  have c := Real.sqrt_le_sqrt (show tp - y ≤ tp - x by linarith)
  unfold conformal
  rw [div_le_div_iff₀ (by linarith) (by linarith)]
  nlinarith

/-- **C104**: with the default `t0` the semi-leptonic region `[0, t₋]` is mapped to an interval symmetric around zero,
`|z| ≤ z(0)`, with equality at both ends, and no other `t0` gives a smaller bound. -/
theorem C104_z_optimal {mB mM : ℝ} (hB : 0 < mB) (hM : 0 < mM) :
    ∃ zmax, z mB mM 0 .none = .ok zmax ∧ z mB mM ((mB - mM) ^ 2) .none = .ok (-zmax) ∧ 0 ≤ zmax ∧
      (∀ q2, 0 ≤ q2 → q2 ≤ (mB - mM) ^ 2 → ∃ v, z mB mM q2 .none = .ok v ∧ |v| ≤ zmax) ∧
      ∀ t, t < (mB + mM) ^ 2 → ∃ q2 v, 0 ≤ q2 ∧ q2 ≤ (mB - mM) ^ 2 ∧ z mB mM q2 (.num t) = .ok v ∧ zmax ≤ |v| := by
  have htm : (mB - mM) ^ 2 < (mB + mM) ^ 2 := by nlinarith
  have h0 : 0 ≤ (mB - mM) ^ 2 := sq_nonneg _
  have hp : 0 < (mB + mM) ^ 2 := by positivity
  have hopt := tOpt_lt hB hM
  have hs := tOpt_symm h0 htm
  have key : ∀ q2, 0 ≤ q2 → q2 ≤ (mB - mM) ^ 2 →
      conformal ((mB + mM) ^ 2) (tOpt ((mB - mM) ^ 2) ((mB + mM) ^ 2)) q2 ≤
        conformal ((mB + mM) ^ 2) (tOpt ((mB - mM) ^ 2) ((mB + mM) ^ 2)) 0 ∧
      conformal ((mB + mM) ^ 2) (tOpt ((mB - mM) ^ 2) ((mB + mM) ^ 2)) ((mB - mM) ^ 2) ≤
        conformal ((mB + mM) ^ 2) (tOpt ((mB - mM) ^ 2) ((mB + mM) ^ 2)) q2 := by
    intro q2 hq hq'
    constructor
    · rcases hq.lt_or_eq with h | h
      · exact (conformal_anti hopt (by linarith) h).le
      · rw [← h]
    · rcases hq'.lt_or_eq with h | h
      · exact (conformal_anti hopt htm.le h).le
      · rw [← h]
  refine ⟨_, z_eq hB hM .none hopt hp.le, ?_, ?_, ?_, ?_⟩
  · rw [z_eq hB hM .none hopt htm.le]
    exact congrArg Except.ok hs
  · have := key 0 le_rfl h0
    rw [hs] at this
    show (0:ℝ) ≤ conformal ((mB + mM) ^ 2) (tOpt ((mB - mM) ^ 2) ((mB + mM) ^ 2)) 0
    linarith [this.2]
  · intro q2 hq hq'
    refine ⟨_, z_eq hB hM .none hopt (by linarith), ?_⟩
    have := key q2 hq hq'
    rw [hs] at this
    exact abs_le.2 ⟨this.2, this.1⟩
  · intro t ht
    rcases le_total (tOpt ((mB - mM) ^ 2) ((mB + mM) ^ 2)) t with h | h
    · refine ⟨0, _, le_rfl, h0, z_eq hB hM (.num t) ht hp.le, ?_⟩
      exact (conformal_zero_anti hp ht.le h).trans (le_abs_self _)
    · refine ⟨(mB - mM) ^ 2, _, h0, le_rfl, z_eq hB hM (.num t) ht htm.le, ?_⟩
      have := conformal_tm_anti htm hopt.le h
      rw [hs] at this
      exact (show conformal ((mB + mM) ^ 2) (tOpt ((mB - mM) ^ 2) ((mB + mM) ^ 2)) 0 ≤ -conformal ((mB + mM) ^ 2) t ((mB - mM) ^ 2)
        by linarith).trans (neg_le_abs _)

/-- **C104**: with `t0 = 'tm'`, the recoil variable is `w = (1 + 6 z + z²)/(1 - z)²`, so `w - 1 = 8 z/(1 - z)²`. -/
theorem C104_recoil {mB mM q2 v : ℝ} (hB : 0 < mB) (hM : 0 < mM) (h : z mB mM q2 .tm = .ok v) :
    recoil mB mM q2 = (1 + 6 * v + v ^ 2) / (-1 + v) ^ 2 ∧ recoil mB mM q2 - 1 = 8 * v / (1 - v) ^ 2 := by
  have htm : (mB - mM) ^ 2 < (mB + mM) ^ 2 := by nlinarith
  have hq : q2 ≤ (mB + mM) ^ 2 := by
    by_contra hn
    rw [(C104_z hB hM .tm htm).2.2 q2 (not_le.1 hn)] at h; cases h
  rw [z_eq hB hM .tm htm hq] at h
  cases h
  have hlt := conformal_lt_one htm hq
  show _ ∧ _
  have hne : (1:ℝ) - conformal ((mB + mM) ^ 2) ((mB - mM) ^ 2) q2 ≠ 0 := by linarith
  have key : recoil mB mM q2 - 1 = 8 * conformal ((mB + mM) ^ 2) ((mB - mM) ^ 2) q2 /
      (1 - conformal ((mB + mM) ^ 2) ((mB - mM) ^ 2) q2) ^ 2 := by
    have a := Real.sq_sqrt (show (0:ℝ) ≤ (mB + mM) ^ 2 - q2 by linarith)
    have b : Real.sqrt ((mB + mM) ^ 2 - (mB - mM) ^ 2) ^ 2 = 4 * mB * mM := by
      rw [Real.sq_sqrt (by linarith)]; ring
    have c := Real.sqrt_pos.2 (show (0:ℝ) < (mB + mM) ^ 2 - (mB - mM) ^ 2 by linarith)
    have d := Real.sqrt_nonneg ((mB + mM) ^ 2 - q2)
    have e : recoil mB mM q2 - 1 = (Real.sqrt ((mB + mM) ^ 2 - q2) ^ 2 - Real.sqrt ((mB + mM) ^ 2 - (mB - mM) ^ 2) ^ 2) /
        (Real.sqrt ((mB + mM) ^ 2 - (mB - mM) ^ 2) ^ 2 / 2) := by
      rw [a, b]; unfold recoil; field_simp; ring
    rw [e]
    clear a b e hne hlt
    unfold conformal
    generalize Real.sqrt ((mB + mM) ^ 2 - (mB - mM) ^ 2) = s at *
    generalize Real.sqrt ((mB + mM) ^ 2 - q2) = u at *
    have hsu : u + s ≠ 0 := by linarith
    have h1 : 1 - (u - s) / (u + s) = 2 * s / (u + s) := by field_simp; ring
    rw [h1]
    field_simp
    ring
  refine ⟨?_, key⟩
  have h2 : (-1 + conformal ((mB + mM) ^ 2) ((mB - mM) ^ 2) q2) ^ 2 = (1 - conformal ((mB + mM) ^ 2) ((mB - mM) ^ 2) q2) ^ 2 := by ring
  show _ = (1 + 6 * conformal ((mB + mM) ^ 2) ((mB - mM) ^ 2) q2 + conformal ((mB + mM) ^ 2) ((mB - mM) ^ 2) q2 ^ 2) /
    (-1 + conformal ((mB + mM) ^ 2) ((mB - mM) ^ 2) q2) ^ 2
  rw [h2, eq_div_iff (pow_ne_zero 2 hne)]
  rw [eq_div_iff (pow_ne_zero 2 hne)] at key
  nlinarith

open Asymptotics Filter in
theorem bigO_of {f g : ℝ → ℝ} {k d : ℕ} (hg : Continuous g)
    (h : ∀ x : ℝ, x ≠ 1 → f x = x ^ k * (g x / (1 - x) ^ d)) : f =O[nhds 0] fun x => x ^ k := by
  have hc : ContinuousAt (fun x : ℝ => g x / (1 - x) ^ d) 0 := by
    refine hg.continuousAt.div (by fun_prop) (by simp)
  have hb : (fun x : ℝ => g x / (1 - x) ^ d) =O[nhds 0] fun _ => (1:ℝ) := hc.isBigO_one ℝ
  have hm : (fun x : ℝ => x ^ k * (g x / (1 - x) ^ d)) =O[nhds 0] fun x => x ^ k * 1 := (isBigO_refl _ _).mul hb
  simp only [mul_one] at hm
  refine hm.congr' ?_ EventuallyEq.rfl
  have : ∀ᶠ x in nhds (0:ℝ), x ≠ 1 := isOpen_ne.mem_nhds (by norm_num)
  filter_upwards [this] with x hx using (h x hx).symm

open Polynomial Asymptotics Filter in
/-- **C104**: `w_minus_1_pow_n` for `n, order_z ≤ 3` is the Taylor polynomial of `(w(z) - 1)^n = (8 z/(1 - z)²)^n` at `z = 0`: a
polynomial of degree at most `order_z` that differs from it by `O(z^(order_z + 1))`; otherwise `ValueError`. -/
theorem C104_w_expansion (n m : ℕ) :
    (n ≤ 3 → m ≤ 3 → ∃ p : ℝ[X], p.natDegree ≤ m ∧ (∀ x, wMinus1Pow x n m = .ok (p.eval x)) ∧
      (fun x : ℝ => (8 * x / (1 - x) ^ 2) ^ n - p.eval x) =O[nhds 0] fun x => x ^ (m + 1)) ∧
    ((3 < n ∨ 3 < m) → ∀ x, wMinus1Pow x n m = .error .valueError) := by
  refine ⟨fun hn hm => ?_, fun h x => ?_⟩
  · have aux : ∀ x : ℝ, x ≠ 1 → (1:ℝ) - x ≠ 0 := fun x hx => sub_ne_zero.2 (Ne.symm hx)
    interval_cases n <;> interval_cases m
    · refine ⟨C 1 * X ^ 0, by compute_degree, fun x => ?_, bigO_of (g := fun x => x ^ 3 * 0 + 0 * x ^ 0 * (1 - x) ^ 0 + 0 * x ^ 1 * (1 - x) ^ 0 + 0 * x ^ 2 * (1 - x) ^ 0) (d := 0) (by fun_prop) ?_⟩
      · simp [wMinus1Pow, wCoeffs]; try ring
      · intro x hx
        have := aux x hx
        simp only [eval_add, eval_mul, eval_C, eval_pow, eval_X]
        field_simp
        ring
    · refine ⟨C 1 * X ^ 0 + C 0 * X ^ 1, by compute_degree, fun x => ?_, bigO_of (g := fun x => x ^ 2 * 0 + 0 * x ^ 0 * (1 - x) ^ 0 + 0 * x ^ 1 * (1 - x) ^ 0) (d := 0) (by fun_prop) ?_⟩
      · simp [wMinus1Pow, wCoeffs]; try ring
      · intro x hx
        have := aux x hx
        simp only [eval_add, eval_mul, eval_C, eval_pow, eval_X]
        field_simp
        ring
    · refine ⟨C 1 * X ^ 0 + C 0 * X ^ 1 + C 0 * X ^ 2, by compute_degree, fun x => ?_, bigO_of (g := fun x => x ^ 1 * 0 + 0 * x ^ 0 * (1 - x) ^ 0) (d := 0) (by fun_prop) ?_⟩
      · simp [wMinus1Pow, wCoeffs]; try ring
      · intro x hx
        have := aux x hx
        simp only [eval_add, eval_mul, eval_C, eval_pow, eval_X]
        field_simp
        ring
    · refine ⟨C 1 * X ^ 0 + C 0 * X ^ 1 + C 0 * X ^ 2 + C 0 * X ^ 3, by compute_degree, fun x => ?_, bigO_of (g := fun x => x ^ 0 * 0) (d := 0) (by fun_prop) ?_⟩
      · simp [wMinus1Pow, wCoeffs]; try ring
      · intro x hx
        have := aux x hx
        simp only [eval_add, eval_mul, eval_C, eval_pow, eval_X]
        field_simp
        ring
    · refine ⟨C 0 * X ^ 0, by compute_degree, fun x => ?_, bigO_of (g := fun x => x ^ 3 * (32 - 24 * x) + 8 * x ^ 0 * (1 - x) ^ 2 + 16 * x ^ 1 * (1 - x) ^ 2 + 24 * x ^ 2 * (1 - x) ^ 2) (d := 2) (by fun_prop) ?_⟩
      · simp [wMinus1Pow, wCoeffs]; try ring
      · intro x hx
        have := aux x hx
        simp only [eval_add, eval_mul, eval_C, eval_pow, eval_X]
        field_simp
        ring
    · refine ⟨C 0 * X ^ 0 + C 8 * X ^ 1, by compute_degree, fun x => ?_, bigO_of (g := fun x => x ^ 2 * (32 - 24 * x) + 16 * x ^ 0 * (1 - x) ^ 2 + 24 * x ^ 1 * (1 - x) ^ 2) (d := 2) (by fun_prop) ?_⟩
      · simp [wMinus1Pow, wCoeffs]; try ring
      · intro x hx
        have := aux x hx
        simp only [eval_add, eval_mul, eval_C, eval_pow, eval_X]
        field_simp
        ring
    · refine ⟨C 0 * X ^ 0 + C 8 * X ^ 1 + C 16 * X ^ 2, by compute_degree, fun x => ?_, bigO_of (g := fun x => x ^ 1 * (32 - 24 * x) + 24 * x ^ 0 * (1 - x) ^ 2) (d := 2) (by fun_prop) ?_⟩
      · simp [wMinus1Pow, wCoeffs]; try ring
      · intro x hx
        have := aux x hx
        simp only [eval_add, eval_mul, eval_C, eval_pow, eval_X]
        field_simp
        ring
    · refine ⟨C 0 * X ^ 0 + C 8 * X ^ 1 + C 16 * X ^ 2 + C 24 * X ^ 3, by compute_degree, fun x => ?_, bigO_of (g := fun x => x ^ 0 * (32 - 24 * x)) (d := 2) (by fun_prop) ?_⟩
      · simp [wMinus1Pow, wCoeffs]; try ring
      · intro x hx
        have := aux x hx
        simp only [eval_add, eval_mul, eval_C, eval_pow, eval_X]
        field_simp
        ring
    · refine ⟨C 0 * X ^ 0, by compute_degree, fun x => ?_, bigO_of (g := fun x => x ^ 3 * (640 - 1280 * x + 960 * x ^ 2 - 256 * x ^ 3) + 0 * x ^ 0 * (1 - x) ^ 4 + 64 * x ^ 1 * (1 - x) ^ 4 + 256 * x ^ 2 * (1 - x) ^ 4) (d := 4) (by fun_prop) ?_⟩
      · simp [wMinus1Pow, wCoeffs]; try ring
      · intro x hx
        have := aux x hx
        simp only [eval_add, eval_mul, eval_C, eval_pow, eval_X]
        field_simp
        ring
    · refine ⟨C 0 * X ^ 0 + C 0 * X ^ 1, by compute_degree, fun x => ?_, bigO_of (g := fun x => x ^ 2 * (640 - 1280 * x + 960 * x ^ 2 - 256 * x ^ 3) + 64 * x ^ 0 * (1 - x) ^ 4 + 256 * x ^ 1 * (1 - x) ^ 4) (d := 4) (by fun_prop) ?_⟩
      · simp [wMinus1Pow, wCoeffs]; try ring
      · intro x hx
        have := aux x hx
        simp only [eval_add, eval_mul, eval_C, eval_pow, eval_X]
        field_simp
        ring
    · refine ⟨C 0 * X ^ 0 + C 0 * X ^ 1 + C 64 * X ^ 2, by compute_degree, fun x => ?_, bigO_of (g := fun x => x ^ 1 * (640 - 1280 * x + 960 * x ^ 2 - 256 * x ^ 3) + 256 * x ^ 0 * (1 - x) ^ 4) (d := 4) (by fun_prop) ?_⟩
      · simp [wMinus1Pow, wCoeffs]; try ring
      · intro x hx
        have := aux x hx
        simp only [eval_add, eval_mul, eval_C, eval_pow, eval_X]
        field_simp
        ring
    · refine ⟨C 0 * X ^ 0 + C 0 * X ^ 1 + C 64 * X ^ 2 + C 256 * X ^ 3, by compute_degree, fun x => ?_, bigO_of (g := fun x => x ^ 0 * (640 - 1280 * x + 960 * x ^ 2 - 256 * x ^ 3)) (d := 4) (by fun_prop) ?_⟩
      · simp [wMinus1Pow, wCoeffs]; try ring
      · intro x hx
        have := aux x hx
        simp only [eval_add, eval_mul, eval_C, eval_pow, eval_X]
        field_simp
        ring
    · refine ⟨C 0 * X ^ 0, by compute_degree, fun x => ?_, bigO_of (g := fun x => x ^ 3 * (512 * (6 - 15 * x + 20 * x ^ 2 - 15 * x ^ 3 + 6 * x ^ 4 - x ^ 5)) + 0 * x ^ 0 * (1 - x) ^ 6 + 0 * x ^ 1 * (1 - x) ^ 6 + 512 * x ^ 2 * (1 - x) ^ 6) (d := 6) (by fun_prop) ?_⟩
      · simp [wMinus1Pow, wCoeffs]; try ring
      · intro x hx
        have := aux x hx
        simp only [eval_add, eval_mul, eval_C, eval_pow, eval_X]
        field_simp
        ring
    · refine ⟨C 0 * X ^ 0 + C 0 * X ^ 1, by compute_degree, fun x => ?_, bigO_of (g := fun x => x ^ 2 * (512 * (6 - 15 * x + 20 * x ^ 2 - 15 * x ^ 3 + 6 * x ^ 4 - x ^ 5)) + 0 * x ^ 0 * (1 - x) ^ 6 + 512 * x ^ 1 * (1 - x) ^ 6) (d := 6) (by fun_prop) ?_⟩
      · simp [wMinus1Pow, wCoeffs]; try ring
      · intro x hx
        have := aux x hx
        simp only [eval_add, eval_mul, eval_C, eval_pow, eval_X]
        field_simp
        ring
    · refine ⟨C 0 * X ^ 0 + C 0 * X ^ 1 + C 0 * X ^ 2, by compute_degree, fun x => ?_, bigO_of (g := fun x => x ^ 1 * (512 * (6 - 15 * x + 20 * x ^ 2 - 15 * x ^ 3 + 6 * x ^ 4 - x ^ 5)) + 512 * x ^ 0 * (1 - x) ^ 6) (d := 6) (by fun_prop) ?_⟩
      · simp [wMinus1Pow, wCoeffs]; try ring
      · intro x hx
        have := aux x hx
        simp only [eval_add, eval_mul, eval_C, eval_pow, eval_X]
        field_simp
        ring
    · refine ⟨C 0 * X ^ 0 + C 0 * X ^ 1 + C 0 * X ^ 2 + C 512 * X ^ 3, by compute_degree, fun x => ?_, bigO_of (g := fun x => x ^ 0 * (512 * (6 - 15 * x + 20 * x ^ 2 - 15 * x ^ 3 + 6 * x ^ 4 - x ^ 5))) (d := 6) (by fun_prop) ?_⟩
      · simp [wMinus1Pow, wCoeffs]; try ring
      · intro x hx
        have := aux x hx
        simp only [eval_add, eval_mul, eval_C, eval_pow, eval_X]
        field_simp
        ring
  · unfold wMinus1Pow
    rcases h with h | h
    · by_cases hm : m > 3
      · simp [hm]
      · simp [hm, h]
    · simp [h]

end Verif.FormFactors
