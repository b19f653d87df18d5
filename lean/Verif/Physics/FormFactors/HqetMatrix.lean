import Verif.Physics.FormFactors.Hqet
import Verif.Physics.FormFactors.SeriesTheorems
import Mathlib.LinearAlgebra.BilinearMap
import Mathlib.Tactic.Module
/-!
# The conversion of HQET form factors reproduces the matrix elements

The specification is the equality of the hadronic matrix elements written in the two bases: a vector identity in any real vector space
containing the four velocities `v`, `v'` and the polarisation vector `ε`.
-/
set_option linter.unusedVariables false
set_option linter.unusedSimpArgs false
namespace Verif.FormFactors
open Verif.Py Verif.Running Verif.Bll Verif.Angular

theorem sqrt_ratio {mB mP : ℝ} (hB : 0 < mB) (hP : 0 < mP) : Real.sqrt (mP / mB) = Real.sqrt (mB * mP) / mB := by
  have : mP / mB = mB * mP / mB ^ 2 := by field_simp
  rw [this, Real.sqrt_div (by positivity), Real.sqrt_sq hB.le]

/-- **C105**: `⟨P|V^μ|B⟩ = √(mB mP) (h₊ (v + v') + h₋ (v - v'))` equals
`f₊ [(p + k) - (mB² - mP²)/q² q] + f₀ (mB² - mP²)/q² q` with the form factors of `h_to_f`, for all positive masses, all `q² ≠ 0` and all `h₊, h₋`; at
`q² = 0`, `f₊ = f₀`; and `f_T/(mB + mP) · 2 mB mP = √(mB mP) h_T`. -/
theorem C105_matrix_P {E : Type*} [AddCommGroup E] [Module ℝ E] (v v' : E) {mB mP q2 : ℝ} (hB : 0 < mB) (hP : 0 < mP)
    (hne : mB ≠ mP) (h : HP) :
    (q2 ≠ 0 →
      let p := mB • v
      let k := mP • v'
      let q := p - k
      let F := hToF mB mP h q2
      Real.sqrt (mB * mP) • (h.hp • (v + v') + h.hm • (v - v')) =
        F.fp • ((p + k) - ((mB ^ 2 - mP ^ 2) / q2) • q) + (F.f0 * ((mB ^ 2 - mP ^ 2) / q2)) • q) ∧
    (hToF mB mP h 0).fp = (hToF mB mP h 0).f0 ∧
    (hToF mB mP h q2).fT / (mB + mP) * (2 * mB * mP) = Real.sqrt (mB * mP) * h.hT := by
  have hs : 0 < Real.sqrt (mB * mP) := Real.sqrt_pos.2 (by positivity)
  have hs2 : Real.sqrt (mB * mP) ^ 2 = mB * mP := Real.sq_sqrt (by positivity)
  have hD : mB ^ 2 - mP ^ 2 ≠ 0 := by
    have : mB ^ 2 - mP ^ 2 = (mB - mP) * (mB + mP) := by ring
    rw [this]
    exact mul_ne_zero (sub_ne_zero.2 hne) (by positivity)
  refine ⟨fun hq => ?_, ?_, ?_⟩
  · intro p k q F
    have hF : F = hToF mB mP h q2 := rfl
    have h1 : Real.sqrt (mB * mP) * (h.hp + h.hm) =
        mB * (F.fp + (F.f0 - F.fp) * ((mB ^ 2 - mP ^ 2) / q2)) := by
      rw [hF]
      simp only [hToF, sqrt_ratio hB hP]
      generalize Real.sqrt (mB * mP) = s at *
      field_simp
      linear_combination (2 * h.hp + 2 * h.hm) * q2 * hs2
    have h2 : Real.sqrt (mB * mP) * (h.hp - h.hm) =
        mP * (F.fp - (F.f0 - F.fp) * ((mB ^ 2 - mP ^ 2) / q2)) := by
      rw [hF]
      simp only [hToF, sqrt_ratio hB hP]
      generalize Real.sqrt (mB * mP) = s at *
      field_simp
      linear_combination (2 * h.hp - 2 * h.hm) * q2 * hs2
    calc Real.sqrt (mB * mP) • (h.hp • (v + v') + h.hm • (v - v'))
        = (Real.sqrt (mB * mP) * (h.hp + h.hm)) • v + (Real.sqrt (mB * mP) * (h.hp - h.hm)) • v' := by module
      _ = _ := by
        rw [h1, h2]
        show _ = F.fp • ((mB • v + mP • v') - ((mB ^ 2 - mP ^ 2) / q2) • (mB • v - mP • v')) +
          (F.f0 * ((mB ^ 2 - mP ^ 2) / q2)) • (mB • v - mP • v')
        module
  · simp [hToF]
  · simp only [hToF, sqrt_ratio hB hP]
    generalize Real.sqrt (mB * mP) = s at *
    field_simp
    linear_combination (-h.hT * (mP + mB)) * hs2

/-- **C105**: `⟨V|A^μ|B⟩ = √(mB mV) [h_A1 (w + 1) ε - (ε·v)(h_A2 v + h_A3 v')]` equals
`(mB + mV) A₁ [ε - (ε·q)/q² q] - A₂ (ε·q)/(mB + mV) [(p + k) - (mB² - mV²)/q² q] + 2 mV A₀ (ε·q)/q² q` (with `ε·v' = 0`, so `ε·q = mB ε·v`), and
`⟨V|V^μ|B⟩`: `2 V/(mB + mV) mB mV = √(mB mV) h_V`, for all positive masses, `q² ≠ 0` and all HQET form factors. -/
theorem C105_matrix_VA {E : Type*} [AddCommGroup E] [Module ℝ E] (v v' ε : E) (ev : ℝ) {mB mV q2 : ℝ} (hB : 0 < mB) (hV : 0 < mV)
    (hq : q2 ≠ 0) (h : HV) :
    (let p := mB • v
     let k := mV • v'
     let q := p - k
     let w := (mB ^ 2 + mV ^ 2 - q2) / (2 * mB * mV)
     let eq := mB * ev
     let F := hToTrad mB mV h q2
     Real.sqrt (mB * mV) • ((h.A1 * (w + 1)) • ε - ev • (h.A2 • v + h.A3 • v')) =
       ((mB + mV) * F.A1) • (ε - (eq / q2) • q) - (F.A2 * eq / (mB + mV)) • ((p + k) - ((mB ^ 2 - mV ^ 2) / q2) • q)
         + (2 * mV * F.A0 * eq / q2) • q) ∧
    2 * (hToTrad mB mV h q2).V / (mB + mV) * (mB * mV) = Real.sqrt (mB * mV) * h.V := by
  have hs : 0 < Real.sqrt (mB * mV) := Real.sqrt_pos.2 (by positivity)
  have hs2 : Real.sqrt (mB * mV) ^ 2 = mB * mV := Real.sq_sqrt (by positivity)
  constructor
  · intro p k q w eq F
    have hF : F = hToTrad mB mV h q2 := rfl
    have h1 : Real.sqrt (mB * mV) * (h.A1 * (w + 1)) = (mB + mV) * F.A1 := by
      rw [hF]
      show Real.sqrt (mB * mV) * (h.A1 * ((mB ^ 2 + mV ^ 2 - q2) / (2 * mB * mV) + 1)) = _
      simp only [hToTrad]
      generalize Real.sqrt (mB * mV) = s at *
      have : mB + mV ≠ 0 := by positivity
      field_simp
      rw [hs2]; field_simp; ring
    have h2 : -(Real.sqrt (mB * mV) * ev * h.A2) = mB * (-((mB + mV) * F.A1 * (eq / q2)) - F.A2 * eq / (mB + mV) *
        (1 - (mB ^ 2 - mV ^ 2) / q2) + 2 * mV * F.A0 * eq / q2) := by
      rw [hF]
      show _ = mB * (-((mB + mV) * (hToTrad mB mV h q2).A1 * (mB * ev / q2)) - (hToTrad mB mV h q2).A2 * (mB * ev) / (mB + mV) *
        (1 - (mB ^ 2 - mV ^ 2) / q2) + 2 * mV * (hToTrad mB mV h q2).A0 * (mB * ev) / q2)
      simp only [hToTrad]
      generalize Real.sqrt (mB * mV) = s at *
      have : mB + mV ≠ 0 := by positivity
      field_simp
      rw [hs2]; ring
    have h3 : -(Real.sqrt (mB * mV) * ev * h.A3) = mV * ((mB + mV) * F.A1 * (eq / q2) - F.A2 * eq / (mB + mV) *
        (1 + (mB ^ 2 - mV ^ 2) / q2) - 2 * mV * F.A0 * eq / q2) := by
      rw [hF]
      show _ = mV * ((mB + mV) * (hToTrad mB mV h q2).A1 * (mB * ev / q2) - (hToTrad mB mV h q2).A2 * (mB * ev) / (mB + mV) *
        (1 + (mB ^ 2 - mV ^ 2) / q2) - 2 * mV * (hToTrad mB mV h q2).A0 * (mB * ev) / q2)
      simp only [hToTrad]
      generalize Real.sqrt (mB * mV) = s at *
      have : mB + mV ≠ 0 := by positivity
      field_simp
      rw [hs2]; ring
    calc Real.sqrt (mB * mV) • ((h.A1 * (w + 1)) • ε - ev • (h.A2 • v + h.A3 • v'))
        = (Real.sqrt (mB * mV) * (h.A1 * (w + 1))) • ε + (-(Real.sqrt (mB * mV) * ev * h.A2)) • v
            + (-(Real.sqrt (mB * mV) * ev * h.A3)) • v' := by module
      _ = _ := by
        rw [h1, h2, h3]
        show _ = ((mB + mV) * F.A1) • (ε - (eq / q2) • (mB • v - mV • v')) - (F.A2 * eq / (mB + mV)) •
          ((mB • v + mV • v') - ((mB ^ 2 - mV ^ 2) / q2) • (mB • v - mV • v')) + (2 * mV * F.A0 * eq / q2) • (mB • v - mV • v')
        module
  · simp only [hToTrad]
    generalize Real.sqrt (mB * mV) = s at *
    have : mB + mV ≠ 0 := by positivity
    field_simp
    rw [hs2]

/-- **C105**: the tensor current.  With `σ^{μν}γ₅` contracted with `q`, `a ∧ b ↦ (b·q) a - (a·q) b`:
`√(mB mV) [h_T1 ε ∧ (v + v') + h_T2 ε ∧ (v - v') + h_T3 (ε·v) v ∧ v']·q` equals
`T₂ [(mB² - mV²) ε - (ε·q)(p + k)] + T₃ (ε·q) [q - q²/(mB² - mV²) (p + k)]`, for every symmetric bilinear form with `v² = v'² = 1`, `ε·v' = 0`; and for
every alternating trilinear form `A` (the Levi-Civita contraction of `σ^{μν}`),
`√(mB mV) [h_T1 A(q, ε, v + v') + h_T2 A(q, ε, v - v') + h_T3 (ε·v) A(q, v, v')] = 2 T₁ A(p, ε, k)`. -/
theorem C105_matrix_T {E : Type*} [AddCommGroup E] [Module ℝ E] (B : E →ₗ[ℝ] E →ₗ[ℝ] ℝ) (hsym : ∀ x y, B x y = B y x)
    (v v' ε : E) (hv : B v v = 1) (hv' : B v' v' = 1) (he : B ε v' = 0)
    (A : E →ₗ[ℝ] E →ₗ[ℝ] E →ₗ[ℝ] ℝ) (ha : ∀ x y, A x x y = 0) (ha' : ∀ x y, A x y x = 0) (ha'' : ∀ x y, A x y y = 0)
    {mB mV : ℝ} (hB : 0 < mB) (hV : 0 < mV) (hne : mB ≠ mV) (h : HV) :
    let p := mB • v
    let k := mV • v'
    let q := p - k
    let q2 := B q q
    let wd := fun a b : E => B b q • a - B a q • b
    let F := hToTrad mB mV h q2
    Real.sqrt (mB * mV) • (h.T1 • wd ε (v + v') + h.T2 • wd ε (v - v') + (h.T3 * B ε v) • wd v v') =
      F.T2 • ((mB ^ 2 - mV ^ 2) • ε - B ε q • (p + k)) + (F.T3 * B ε q) • (q - (q2 / (mB ^ 2 - mV ^ 2)) • (p + k)) ∧
    Real.sqrt (mB * mV) * (h.T1 * A q ε (v + v') + h.T2 * A q ε (v - v') + h.T3 * B ε v * A q v v') = 2 * F.T1 * A p ε k := by
  intro p k q q2 wd F
  have hs : 0 < Real.sqrt (mB * mV) := Real.sqrt_pos.2 (by positivity)
  have hs2 : Real.sqrt (mB * mV) ^ 2 = mB * mV := Real.sq_sqrt (by positivity)
  have hD : mB - mV ≠ 0 := sub_ne_zero.2 hne
  have hS : mB + mV ≠ 0 := by positivity
  have hDD : mB ^ 2 - mV ^ 2 ≠ 0 := by
    have : mB ^ 2 - mV ^ 2 = (mB - mV) * (mB + mV) := by ring
    rw [this]; exact mul_ne_zero hD hS
  set w := B v v' with hw
  have b1 : B v q = mB - mV * w := by
    show B v (mB • v - mV • v') = _
    rw [map_sub, map_smul, map_smul, hv, ← hw, smul_eq_mul, smul_eq_mul, mul_one]
  have b2 : B v' q = mB * w - mV := by
    show B v' (mB • v - mV • v') = _
    rw [map_sub, map_smul, map_smul, hv', hsym v' v, ← hw, smul_eq_mul, smul_eq_mul, mul_one]
  have b3 : B ε q = mB * B ε v := by
    show B ε (mB • v - mV • v') = _
    simp [he]
  have b4 : q2 = mB ^ 2 + mV ^ 2 - 2 * mB * mV * w := by
    have lin : ∀ x, B (mB • v - mV • v') x = mB * B v x - mV * B v' x := by
      intro x
      simp only [map_sub, map_smul, LinearMap.sub_apply, LinearMap.smul_apply, smul_eq_mul]
    show B (mB • v - mV • v') q = _
    rw [lin q, b1, b2]; ring
  have hF : F = hToTrad mB mV h (mB ^ 2 + mV ^ 2 - 2 * mB * mV * w) := by rw [← b4]
  set e := B ε v
  constructor
  · have h1 : Real.sqrt (mB * mV) * (h.T1 * ((mB - mV) * (1 + w)) + h.T2 * ((mB + mV) * (1 - w))) = F.T2 * (mB ^ 2 - mV ^ 2) := by
      rw [hF]
      simp only [hToTrad]
      generalize Real.sqrt (mB * mV) = s at *
      field_simp
      rw [hs2]; ring
    have h2 : Real.sqrt (mB * mV) * (-(h.T1 * (mB * e)) - h.T2 * (mB * e) + h.T3 * e * (mB * w - mV)) =
        mB * (-(F.T2 * (mB * e)) + F.T3 * (mB * e) * (1 - q2 / (mB ^ 2 - mV ^ 2))) := by
      rw [hF, b4]
      simp only [hToTrad]
      generalize Real.sqrt (mB * mV) = s at *
      field_simp
      rw [hs2]; ring
    have h3 : Real.sqrt (mB * mV) * (-(h.T1 * (mB * e)) + h.T2 * (mB * e) - h.T3 * e * (mB - mV * w)) =
        mV * (-(F.T2 * (mB * e)) + F.T3 * (mB * e) * (-1 - q2 / (mB ^ 2 - mV ^ 2))) := by
      rw [hF, b4]
      simp only [hToTrad]
      generalize Real.sqrt (mB * mV) = s at *
      field_simp
      rw [hs2]; ring
    have w1 : wd ε (v + v') = ((mB - mV) * (1 + w)) • ε - (mB * e) • (v + v') := by
      show B (v + v') q • ε - B ε q • (v + v') = _
      have lin : ∀ x, B (v + v') x = B v x + B v' x := by intro x; simp
      rw [lin q, b1, b2, b3]
      congr 2; ring
    have w2 : wd ε (v - v') = ((mB + mV) * (1 - w)) • ε - (mB * e) • (v - v') := by
      show B (v - v') q • ε - B ε q • (v - v') = _
      have lin : ∀ x, B (v - v') x = B v x - B v' x := by intro x; simp
      rw [lin q, b1, b2, b3]
      congr 2; ring
    have w3 : wd v v' = (mB * w - mV) • v - (mB - mV * w) • v' := by
      show B v' q • v - B v q • v' = _
      rw [b1, b2]
    rw [w1, w2, w3, b3]
    calc Real.sqrt (mB * mV) • (h.T1 • (((mB - mV) * (1 + w)) • ε - (mB * e) • (v + v')) +
          h.T2 • (((mB + mV) * (1 - w)) • ε - (mB * e) • (v - v')) + (h.T3 * e) • ((mB * w - mV) • v - (mB - mV * w) • v'))
        = (Real.sqrt (mB * mV) * (h.T1 * ((mB - mV) * (1 + w)) + h.T2 * ((mB + mV) * (1 - w)))) • ε
          + (Real.sqrt (mB * mV) * (-(h.T1 * (mB * e)) - h.T2 * (mB * e) + h.T3 * e * (mB * w - mV))) • v
          + (Real.sqrt (mB * mV) * (-(h.T1 * (mB * e)) + h.T2 * (mB * e) - h.T3 * e * (mB - mV * w))) • v' := by module
      _ = _ := by
        rw [h1, h2, h3]
        show _ = F.T2 • ((mB ^ 2 - mV ^ 2) • ε - (mB * e) • (mB • v + mV • v')) +
          (F.T3 * (mB * e)) • ((mB • v - mV • v') - (q2 / (mB ^ 2 - mV ^ 2)) • (mB • v + mV • v'))
        module
  · have anti : A v' ε v = -A v ε v' := by
      have := ha' (v + v') ε
      simp only [map_add, LinearMap.add_apply, ha'] at this
      linarith
    have t1 : A q ε (v + v') = (mB + mV) * A v ε v' := by
      show A (mB • v - mV • v') ε (v + v') = _
      simp only [map_sub, map_smul, LinearMap.sub_apply, LinearMap.smul_apply, map_add, smul_eq_mul, ha', anti]
      ring
    have t2 : A q ε (v - v') = -(mB - mV) * A v ε v' := by
      show A (mB • v - mV • v') ε (v - v') = _
      simp only [map_sub, map_smul, LinearMap.sub_apply, LinearMap.smul_apply, map_add, smul_eq_mul, ha', anti]
      ring
    have t3 : A q v v' = 0 := by
      show A (mB • v - mV • v') v v' = _
      simp only [map_sub, map_smul, LinearMap.sub_apply, LinearMap.smul_apply, smul_eq_mul, ha, ha']
      ring
    have t4 : A p ε k = mB * mV * A v ε v' := by
      show A (mB • v) ε (mV • v') = _
      simp only [map_smul, LinearMap.smul_apply, smul_eq_mul]; ring
    rw [t1, t2, t3, t4, hF]
    simp only [hToTrad]
    generalize Real.sqrt (mB * mV) = s at *
    field_simp
    rw [hs2]; ring

/-- **C105**: relations among the `B → V` form factors of `h_to_A`, for all HQET form factors: at `q² = 0`, `T₁ = T₂` and
`8 mB mV A₁₂ = (mB² - mV²) A₀`; at the end point `q² = (mB - mV)²`, `8 mB mV A₁₂ = (mB² - mV²) A₁` and `4 mB mV T₂₃ = (mB + mV)² T₂`. -/
theorem C105_relations_V {mB mV : ℝ} (hB : 0 < mB) (hV : 0 < mV) (hne : mB ≠ mV) (h : HV) :
    (hToA mB mV h 0).T1 = (hToA mB mV h 0).T2 ∧
    8 * mB * mV * (hToA mB mV h 0).A12 = (mB ^ 2 - mV ^ 2) * (hToA mB mV h 0).A0 ∧
    8 * mB * mV * (hToA mB mV h ((mB - mV) ^ 2)).A12 = (mB ^ 2 - mV ^ 2) * (hToA mB mV h ((mB - mV) ^ 2)).A1 ∧
    4 * mB * mV * (hToA mB mV h ((mB - mV) ^ 2)).T23 = (mB + mV) ^ 2 * (hToA mB mV h ((mB - mV) ^ 2)).T2 := by
  have hs : 0 < Real.sqrt (mB * mV) := Real.sqrt_pos.2 (by positivity)
  have hD : mB - mV ≠ 0 := sub_ne_zero.2 hne
  have hS : mB + mV ≠ 0 := by positivity
  refine ⟨?_, ?_, ?_, ?_⟩
  · simp only [hToA, hToTrad, sub_zero]
    field_simp
  · simp only [hToA, hToTrad, a12, sub_zero, add_zero]
    field_simp
    ring
  · simp only [hToA, hToTrad, a12]
    field_simp
    ring
  · have hl : Common.lambdaK (mB ^ 2) (mV ^ 2) ((mB - mV) ^ 2) = 0 := by
      have : Common.kallen (mB ^ 2) (mV ^ 2) ((mB - mV) ^ 2) = 0 := by unfold Common.kallen; ring
      unfold Common.lambdaK; rw [this]; simp
    have e : (hToA mB mV h ((mB - mV) ^ 2)).T23 = (mB ^ 2 - mV ^ 2) * (mB ^ 2 + 3 * mV ^ 2 - (mB - mV) ^ 2) *
        (hToA mB mV h ((mB - mV) ^ 2)).T2 / (8 * mB * (mB - mV) * mV ^ 2) := by
      show ((mB ^ 2 - mV ^ 2) * (mB ^ 2 + 3 * mV ^ 2 - (mB - mV) ^ 2) * (hToA mB mV h ((mB - mV) ^ 2)).T2 -
        Common.lambdaK (mB ^ 2) (mV ^ 2) ((mB - mV) ^ 2) * _) / _ = _
      rw [hl, zero_mul, sub_zero]
    rw [e]
    generalize (hToA mB mV h ((mB - mV) ^ 2)).T2 = t
    field_simp
    ring

/-- The hypotheses of `C105_matrix_T` can be met by velocities with recoil `w = 5/4` and a polarisation with `ε·v ≠ 0`. -/
theorem C105_matrix_T_nonvacuous : ∃ (B : (ℝ × ℝ) →ₗ[ℝ] (ℝ × ℝ) →ₗ[ℝ] ℝ) (v v' ε : ℝ × ℝ), (∀ x y, B x y = B y x) ∧
    B v v = 1 ∧ B v' v' = 1 ∧ B ε v' = 0 ∧ B v v' = 5 / 4 ∧ B ε v ≠ 0 := by
  refine ⟨LinearMap.mk₂ ℝ (fun x y => x.1 * y.1 - x.2 * y.2) ?_ ?_ ?_ ?_, (1, 0), (5 / 4, 3 / 4), (3 / 4, 5 / 4), ?_, ?_, ?_, ?_, ?_, ?_⟩
  · intro x y z; simp; ring
  · intro c x y; simp; ring
  · intro x y z; simp; ring
  · intro c x y; simp; ring
  · intro x y; simp; ring
  all_goals simp; try norm_num

end Verif.FormFactors
