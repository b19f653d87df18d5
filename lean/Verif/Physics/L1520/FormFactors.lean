import Verif.Physics.L1520.Theorems2
/-!
# C107: the form factors
-/
set_option linter.unusedVariables false
set_option linter.unusedSimpArgs false
set_option maxHeartbeats 1000000
namespace Verif.L1520
open Verif.Angular Verif.Py Verif.Running Complex MeasureTheory Set Filter Topology
local notation "conj" => starRingEnd ℂ

/-- The helicity amplitudes in terms of the lattice form factors: no singularity at the end point.  (Specification.) -/
noncomputable def lattHA (p : Latt) (q2 mLb mL : ℝ) : HA :=
  let sp := (mLb + mL) ^ 2 - q2
  let sm := (mLb - mL) ^ 2 - q2
  { v0 := -(lin p.fplus q2 mLb mL) * (mLb + mL) / Real.sqrt q2 * Real.sqrt sp / Real.sqrt 6
    v1 := -(lin p.fperp q2 mLb mL) * Real.sqrt sp / Real.sqrt 3
    v3 := lin p.fperpP q2 mLb mL * Real.sqrt sp
    a0 := -(lin p.gplus q2 mLb mL) * (mLb - mL) / Real.sqrt q2 * Real.sqrt sm / Real.sqrt 6
    a1 := lin p.gperp q2 mLb mL * Real.sqrt sm / Real.sqrt 3
    a3 := lin p.gperpP q2 mLb mL * Real.sqrt sm
    t0 := lin p.hplus q2 mLb mL * Real.sqrt q2 * Real.sqrt sp / Real.sqrt 6
    t1 := lin p.hperp q2 mLb mL * (mLb + mL) * Real.sqrt sp / Real.sqrt 3
    t3 := -(lin p.hperpP q2 mLb mL) * (mLb + mL) * Real.sqrt sp
    t50 := -(lin p.hTplus q2 mLb mL) * Real.sqrt q2 * Real.sqrt sm / Real.sqrt 6
    t51 := lin p.hTperp q2 mLb mL * (mLb - mL) * Real.sqrt sm / Real.sqrt 3
    t53 := lin p.hTperpP q2 mLb mL * (mLb - mL) * Real.sqrt sm }

/-- **C107**: below the end point the lattice form factors exist and give the helicity amplitudes of `lattHA`. -/
theorem C107_lattice (p : Latt) (q2 mLb mL : ℝ) (hL : 0 < mL) (hm : mL < mLb) (h : q2 < (mLb - mL) ^ 2) :
    ∃ ff, lattFF p q2 mLb mL = .ok ff ∧ helAmps q2 mLb mL ff = lattHA p q2 mLb mL := by
  have hsm : (mLb - mL) ^ 2 - q2 ≠ 0 := by linarith
  have hsp : (mLb + mL) ^ 2 - q2 ≠ 0 := by nlinarith
  refine ⟨_, by rw [lattFF, Mixing.pyDiv_ne hsm, Mixing.pyDiv_ne hsp]; rfl, ?_⟩
  have h6 : Real.sqrt 6 ≠ 0 := (Real.sqrt_pos.2 (by norm_num)).ne'
  have h3 : Real.sqrt 3 ≠ 0 := (Real.sqrt_pos.2 (by norm_num)).ne'
  simp only [helAmps, lattHA, HA.mk.injEq]
  generalize lin p.fplus q2 mLb mL = x1
  generalize lin p.fperp q2 mLb mL = x2
  generalize lin p.gplus q2 mLb mL = x3
  generalize lin p.gperp q2 mLb mL = x4
  generalize lin p.hplus q2 mLb mL = x5
  generalize lin p.hperp q2 mLb mL = x6
  generalize lin p.hTplus q2 mLb mL = x7
  generalize lin p.hTperp q2 mLb mL = x8
  generalize Real.sqrt ((mLb - mL) ^ 2 - q2) = u
  generalize Real.sqrt ((mLb + mL) ^ 2 - q2) = v
  generalize Real.sqrt q2 = w
  generalize (mLb - mL) ^ 2 - q2 = X at *
  generalize (mLb + mL) ^ 2 - q2 = Y at *
  generalize Real.sqrt 6 = r6 at *
  generalize Real.sqrt 3 = r3 at *
  have hL' := hL.ne'
  refine ⟨?_, ?_, trivial, ?_, ?_, ?_, ?_, ?_, ?_, ?_, ?_, ?_⟩
  · rw [show -(mL / X * x1) * (mLb + mL) / w * (X * v) / (r6 * mL) = -x1 * (mLb + mL) / w * v / r6 * (mL / mL) * (X / X) by ring, div_self hL', div_self hsm]; ring
  · field_simp
  · rw [show -(mL / Y * x3) * (mLb - mL) / w * (Y * u) / (r6 * mL) = -x3 * (mLb - mL) / w * u / r6 * (mL / mL) * (Y / Y) by ring, div_self hL', div_self hsp]; ring
  · field_simp
  · ring
  · field_simp
  · field_simp
  · ring
  · field_simp
  · field_simp
  · ring

/-- Finding: exactly at the end point `q² = (m_Λb - m_Λ*)²`, which the observables admit, the lattice form factors raise a `ZeroDivisionError` although the amplitudes are regular there. -/
theorem C107_lattice_witness (p : Latt) (mLb mL : ℝ) : lattFF p ((mLb - mL) ^ 2) mLb mL = .error .zeroDivisionError := by
  rw [lattFF, sub_self, Mixing.pyDiv_zero]; rfl

/-- The lattice form factors as a function (0 where they are not defined). (Specification.) -/
noncomputable def lattF (p : Latt) (mLb mL q2 : ℝ) : FF :=
  match lattFF p q2 mLb mL with
  | .ok f => f
  | .error _ => ⟨0, 0, 0, 0, 0, 0, 0, 0, 0, 0, 0, 0⟩

theorem smooth_lattice (d : Inp) (p : Latt) (hff : d.ff = lattF p d.mLb d.mL) (hml : d.ml ≠ 0) (hL : 0 < d.mL) (hm : d.mL < d.mLb)
    (hw : ∀ g ∈ [Wc.c7, Wc.c7p, Wc.v, Wc.vp, Wc.a, Wc.ap], ContinuousOn (fun t => g (d.wc t)) (Icc (4 * d.ml ^ 2) ((d.mLb - d.mL) ^ 2)))
    (hwb : ∀ g ∈ [Wc.c7, Wc.c7p, Wc.v, Wc.vp, Wc.a, Wc.ap], ContinuousOn (fun t => g (d.wcb t)) (Icc (4 * d.ml ^ 2) ((d.mLb - d.mL) ^ 2))) : Smooth d := by
  refine ⟨⟨fun t => lattHA p t d.mLb d.mL, ?_, ?_⟩, hw, hwb⟩
  · have hpos : ∀ t ∈ Icc (4 * d.ml ^ 2) ((d.mLb - d.mL) ^ 2), Real.sqrt t ≠ 0 := fun t ht => (Real.sqrt_pos.2 (lt_of_lt_of_le (by positivity) ht.1)).ne'
    have hl : ∀ x : FA, ContinuousOn (fun t => lin x t d.mLb d.mL) (Icc (4 * d.ml ^ 2) ((d.mLb - d.mL) ^ 2)) := by
      intro x; unfold lin; fun_prop
    simp only [List.mem_cons, List.not_mem_nil, or_false, forall_eq_or_imp, forall_eq, lattHA]
    generalize Icc (4 * d.ml ^ 2) ((d.mLb - d.mL) ^ 2) = S at *
    have l1 := hl p.fplus; have l2 := hl p.fperp; have l3 := hl p.fperpP; have l4 := hl p.gplus; have l5 := hl p.gperp; have l6 := hl p.gperpP
    have l7 := hl p.hplus; have l8 := hl p.hperp; have l9 := hl p.hperpP; have l10 := hl p.hTplus; have l11 := hl p.hTperp; have l12 := hl p.hTperpP
    have sm : ContinuousOn (fun t => Real.sqrt ((d.mLb - d.mL) ^ 2 - t)) S := by fun_prop
    have sp : ContinuousOn (fun t => Real.sqrt ((d.mLb + d.mL) ^ 2 - t)) S := by fun_prop
    have sq : ContinuousOn (fun t => Real.sqrt t) S := by fun_prop
    refine ⟨(((l1.neg.mul continuousOn_const).div sq hpos).mul sp).div_const _, (l2.neg.mul sp).div_const _, l3.mul sp, (((l4.neg.mul continuousOn_const).div sq hpos).mul sm).div_const _,
      (l5.mul sm).div_const _, l6.mul sm, ((l7.mul sq).mul sp).div_const _, ((l8.mul continuousOn_const).mul sp).div_const _, (l9.neg.mul continuousOn_const).mul sp, ((l10.neg.mul sq).mul sm).div_const _,
      ((l11.mul continuousOn_const).mul sm).div_const _, (l12.mul continuousOn_const).mul sm⟩
  · intro t ht
    obtain ⟨ff, e1, e2⟩ := C107_lattice p t d.mLb d.mL hL hm ht.2
    have : lattF p d.mLb d.mL t = ff := by rw [lattF, e1]
    rw [hff, this, e2]

/-- A point of the parameter space with lattice form factors. (Specification.) -/
noncomputable def exD : Inp :=
  { mLb := 5, mL := 1, ml := 1 / 10, mb := 4, tau := 1, brNK := 1 / 2, n0 := I, wc := fun _ => ⟨-1, 0, 4, 0, -4, 0, 0, 0, 0, 0, 0, 0⟩, wcb := fun _ => ⟨-1, 0, 4, I, -4, 0, 0, 0, 0, 0, 0, 0⟩,
    ff := lattF ⟨⟨1, 1⟩, ⟨1, 1⟩, ⟨1, 1⟩, ⟨1, 1⟩, ⟨1, 1⟩, ⟨1, 1⟩, ⟨1, 1⟩, ⟨1, 1⟩, ⟨1, 1⟩, ⟨1, 1⟩, ⟨1, 1⟩, ⟨1, 1⟩⟩ 5 1 }

/-- The hypotheses of the theorems on bins are met by the default form factors. -/
theorem C107_nonvacuous : Smooth exD ∧ exD.ml ≠ 0 ∧ 0 ≤ exD.brNK ∧ 0 < exD.mL ∧ exD.mL < exD.mLb ∧ 4 * exD.ml ^ 2 < (exD.mLb - exD.mL) ^ 2 := by
  refine ⟨smooth_lattice exD _ rfl (by norm_num [exD]) (by norm_num [exD]) (by norm_num [exD]) ?_ ?_, by norm_num [exD], by norm_num [exD], by norm_num [exD], by norm_num [exD], by norm_num [exD]⟩
  · intro g _; exact (continuousOn_const (c := g ⟨-1, 0, 4, 0, -4, 0, 0, 0, 0, 0, 0, 0⟩))
  · intro g _; exact (continuousOn_const (c := g ⟨-1, 0, 4, I, -4, 0, 0, 0, 0, 0, 0, 0⟩))

/-! ## The quark model -/

/-- **C107**: kinematic constraints of the quark model form factors at `q² = 0`: the longitudinal and time-like amplitudes agree, and the tensor and pseudotensor amplitudes of the same helicity agree (a real photon couples to a current of definite chirality). -/
theorem C107_quark_model_zero (f : QM) (mL mLb : ℝ) (hL : 0 < mL) (hm : mL < mLb) :
    (qmFF f 0 mL mLb).fV0 = qmVt f 0 mL mLb ∧ (qmFF f 0 mL mLb).fA0 = qmAt f 0 mL mLb
    ∧ (helAmps 0 mLb mL (qmFF f 0 mL mLb)).t1 = (helAmps 0 mLb mL (qmFF f 0 mL mLb)).t51
    ∧ (helAmps 0 mLb mL (qmFF f 0 mL mLb)).t3 = (helAmps 0 mLb mL (qmFF f 0 mL mLb)).t53 := by
  have hb : 0 < mLb := hL.trans hm
  have h1 : mL - mLb ≠ 0 := by linarith
  have h2 : mL + mLb ≠ 0 := by linarith
  have e1 : mL ^ 2 - 2 * mL * mLb + mLb ^ 2 - 0 = (mL - mLb) ^ 2 := by ring
  have e2 : mL ^ 2 + 2 * mL * mLb + mLb ^ 2 - 0 = (mL + mLb) ^ 2 := by ring
  have f2 : mL ^ 2 + 2 * mL * mLb + mLb ^ 2 = (mL + mLb) ^ 2 := by ring
  have r1 : Real.sqrt ((mLb - mL) ^ 2) = mLb - mL := Real.sqrt_sq (by linarith)
  have r2 : Real.sqrt ((mLb + mL) ^ 2) = mLb + mL := Real.sqrt_sq (by linarith)
  have hr : Real.sqrt 3 ≠ 0 := (Real.sqrt_pos.2 (by norm_num)).ne'
  refine ⟨?_, ?_, ?_, ?_⟩
  · simp only [qmFF, qmVt, e1]; field_simp; ring
  · simp only [qmFF, qmAt, e2]; field_simp; ring
  · simp only [helAmps, qmFF, sub_zero, f2, r1, r2]; field_simp; ring
  · simp only [helAmps, qmFF, sub_zero, f2, r1, r2]; field_simp; ring

/-- The components of the quark model form factors are continuous at a point.  (Specification.) -/
def QMCont (f : ℝ → QM) (a : ℝ) : Prop :=
  ∀ g ∈ [QM.F1, QM.F2, QM.F3, QM.F4, QM.G1, QM.G2, QM.G3, QM.G4, QM.H1, QM.H2, QM.H3, QM.H4, QM.H5, QM.H6], ContinuousAt (fun t => g (f t)) a

/-- **C107**: end point relations of the quark model form factors.  At the end point only the amplitudes with an S wave survive, and they are related by rotations: vector and tensor amplitudes with
`(λ_V, s) = (0, 1/2), (1, -1/2), (1, -3/2)` tend to `-√(2/3) y, y/√3, y`, the axial vector and pseudotensor ones to 0. -/
theorem C107_quark_model_endpoint (f : ℝ → QM) (mL mLb : ℝ) (hL : 0 < mL) (hm : mL < mLb) (hf : QMCont f ((mLb - mL) ^ 2)) :
    let H := fun q2 => helAmps q2 mLb mL (qmFF (f q2) q2 mL mLb)
    let y := (f ((mLb - mL) ^ 2)).F4 * Real.sqrt (4 * mLb * mL)
    let z := ((f ((mLb - mL) ^ 2)).H5 + (f ((mLb - mL) ^ 2)).H6) * (mLb - mL) * Real.sqrt (4 * mLb * mL)
    Tendsto (fun q2 => (H q2).v0) (𝓝[≠] ((mLb - mL) ^ 2)) (𝓝 (-(Real.sqrt 2 / Real.sqrt 3) * y))
    ∧ Tendsto (fun q2 => (H q2).v1) (𝓝[≠] ((mLb - mL) ^ 2)) (𝓝 (y / Real.sqrt 3))
    ∧ Tendsto (fun q2 => (H q2).v3) (𝓝[≠] ((mLb - mL) ^ 2)) (𝓝 y)
    ∧ Tendsto (fun q2 => (H q2).t0) (𝓝[≠] ((mLb - mL) ^ 2)) (𝓝 (-(Real.sqrt 2 / Real.sqrt 3) * z))
    ∧ Tendsto (fun q2 => (H q2).t1) (𝓝[≠] ((mLb - mL) ^ 2)) (𝓝 (z / Real.sqrt 3))
    ∧ Tendsto (fun q2 => (H q2).t3) (𝓝[≠] ((mLb - mL) ^ 2)) (𝓝 z)
    ∧ Tendsto (fun q2 => (H q2).a0) (𝓝[≠] ((mLb - mL) ^ 2)) (𝓝 0) ∧ Tendsto (fun q2 => (H q2).a1) (𝓝[≠] ((mLb - mL) ^ 2)) (𝓝 0) ∧ Tendsto (fun q2 => (H q2).a3) (𝓝[≠] ((mLb - mL) ^ 2)) (𝓝 0)
    ∧ Tendsto (fun q2 => (H q2).t50) (𝓝[≠] ((mLb - mL) ^ 2)) (𝓝 0) ∧ Tendsto (fun q2 => (H q2).t51) (𝓝[≠] ((mLb - mL) ^ 2)) (𝓝 0) ∧ Tendsto (fun q2 => (H q2).t53) (𝓝[≠] ((mLb - mL) ^ 2)) (𝓝 0) := by
  have hb : 0 < mLb := hL.trans hm
  set q0 := (mLb - mL) ^ 2 with hq0
  have hq0p : 0 < q0 := pow_pos (by linarith) 2
  simp only [QMCont, List.mem_cons, List.not_mem_nil, or_false, forall_eq_or_imp, forall_eq] at hf
  obtain ⟨cF1, cF2, cF3, cF4, cG1, cG2, cG3, cG4, cH1, cH2, cH3, cH4, cH5, cH6⟩ := hf
  have id1 : ContinuousAt (fun t : ℝ => t) q0 := continuousAt_id
  have csq : ContinuousAt (fun t : ℝ => Real.sqrt t) q0 := by fun_prop
  have csp : ContinuousAt (fun t : ℝ => Real.sqrt ((mLb + mL) ^ 2 - t)) q0 := by fun_prop
  have csm : ContinuousAt (fun t : ℝ => Real.sqrt (q0 - t)) q0 := by fun_prop
  have hsq : Real.sqrt q0 = mLb - mL := by rw [hq0, Real.sqrt_sq (by linarith)]
  have hsqne : Real.sqrt q0 ≠ 0 := by rw [hsq]; linarith
  have hsp : Real.sqrt ((mLb + mL) ^ 2 - q0) = Real.sqrt (4 * mLb * mL) := by rw [hq0]; congr 1; ring
  have h3 : Real.sqrt 3 ≠ 0 := (Real.sqrt_pos.2 (by norm_num)).ne'
  have h2 : Real.sqrt 2 ≠ 0 := (Real.sqrt_pos.2 (by norm_num)).ne'
  have h2s : Real.sqrt 2 ^ 2 = 2 := Real.sq_sqrt (by norm_num)
  have h6 : Real.sqrt 6 = Real.sqrt 2 * Real.sqrt 3 := by rw [← Real.sqrt_mul (by norm_num)]; norm_num
  have hmm : mL + mLb ≠ 0 := by linarith
  have hmd : mL - mLb ≠ 0 := by linarith
  have hYne : (mLb + mL) ^ 2 - q0 ≠ 0 := by
    rw [hq0, show (mLb + mL) ^ 2 - (mLb - mL) ^ 2 = 4 * mLb * mL by ring]; positivity
  have hY2 : mL ^ 2 + 2 * mL * mLb + mLb ^ 2 - q0 ≠ 0 := by
    have : mL ^ 2 + 2 * mL * mLb + mLb ^ 2 - q0 = (mLb + mL) ^ 2 - q0 := by ring
    rw [this]; exact hYne
  -- a function that agrees with one continuous at the end point has its value as limit
  have lim {g r : ℝ → ℝ} {l : ℝ} (hr : ContinuousAt r q0) (hl : r q0 = l) (e : ∀ t, t ≠ q0 → g t = r t) : Tendsto g (𝓝[≠] q0) (𝓝 l) := by
    rw [← hl]
    refine (hr.tendsto.mono_left nhdsWithin_le_nhds).congr' ?_
    filter_upwards [self_mem_nhdsWithin] with t ht
    exact (e t ht).symm
  have eX : ∀ t, mL ^ 2 - 2 * mL * mLb + mLb ^ 2 - t = q0 - t := fun t => by rw [hq0]; ring
  have eX2 : ∀ t, (mL - mLb) ^ 2 - t = q0 - t := fun t => by rw [hq0]; ring
  intro H y z
  refine ⟨?_, ?_, ?_, ?_, ?_, ?_, ?_, ?_, ?_, ?_, ?_, ?_⟩
  · refine lim (r := fun t => -((f t).F2 * mL * (mL ^ 4 + (mLb ^ 2 - t) ^ 2 - 2 * mL ^ 2 * (mLb ^ 2 + t))
        + mLb * (2 * (f t).F1 * mL * (mL + mLb) * (q0 - t) - 2 * (f t).F4 * mL * mLb * (mL ^ 2 - mLb ^ 2 + t)
          + (f t).F3 * (mL ^ 4 + (mLb ^ 2 - t) ^ 2 - 2 * mL ^ 2 * (mLb ^ 2 + t)))) / (2 * mL * mLb ^ 2 * (mL + mLb)) * (mLb + mL) / Real.sqrt t * Real.sqrt ((mLb + mL) ^ 2 - t) / (Real.sqrt 6 * mL)) ?_ ?_ ?_
    · have : ContinuousAt (fun t => (mLb + mL) / Real.sqrt t) q0 := continuousAt_const.div csq hsqne
      fun_prop (disch := assumption)
    · simp only [hsp, hsq, h6, y]
      rw [show mL ^ 4 + (mLb ^ 2 - q0) ^ 2 - 2 * mL ^ 2 * (mLb ^ 2 + q0) = 0 by rw [hq0]; ring, show mL ^ 2 - mLb ^ 2 + q0 = 2 * mL * (mL - mLb) by rw [hq0]; ring]
      have : mLb - mL ≠ 0 := by linarith
      field_simp
      rw [h2s]
      ring
    · intro t ht
      have : q0 - t ≠ 0 := sub_ne_zero.2 (Ne.symm ht)
      simp only [H, helAmps, qmFF, eX, ← hq0]
      field_simp
  · refine lim (r := fun t => -((f t).F1 / mLb * (q0 - t) - (f t).F4 * mL) * Real.sqrt ((mLb + mL) ^ 2 - t) / (Real.sqrt 3 * mL)) ?_ ?_ ?_
    · fun_prop (disch := assumption)
    · simp only [hsp, y, sub_self]; field_simp; ring
    · intro t ht
      have : q0 - t ≠ 0 := sub_ne_zero.2 (Ne.symm ht)
      simp only [H, helAmps, qmFF, eX, ← hq0]
      field_simp
  · refine lim (r := fun t => (f t).F4 * Real.sqrt ((mLb + mL) ^ 2 - t)) (by fun_prop) ?_ (fun t _ => rfl)
    simp only [hsp, y]
  · refine lim (r := fun t => (((f t).H1 + (f t).H2 - (f t).H3 - (f t).H6) / mLb * (q0 - t) - 2 * (((f t).H5 + (f t).H6) * mL) + (f t).H4 * ((mL + mLb) ^ 2 - t) / (2 * mL * mLb ^ 2) * (q0 - t))
        * Real.sqrt t * Real.sqrt ((mLb + mL) ^ 2 - t) / (Real.sqrt 6 * mL)) ?_ ?_ ?_
    · fun_prop (disch := assumption)
    · simp only [hsp, hsq, h6, z, sub_self]
      field_simp
      rw [h2s]; ring
    · intro t ht
      have : q0 - t ≠ 0 := sub_ne_zero.2 (Ne.symm ht)
      simp only [H, helAmps, qmFF, eX, eX2, ← hq0]
      field_simp
  · refine lim (r := fun t => ((2 * (f t).H5 * mL - (((f t).H3 + (f t).H6) * mL ^ 2) / mLb + (f t).H3 * mLb + 2 * (f t).H1 * mL * (mL + mLb) / mLb
        - (f t).H3 * t / mLb + (f t).H2 * mL * (-mL ^ 2 + mLb ^ 2 + t) / mLb ^ 2) * (q0 - t) - 2 * ((f t).H5 + (f t).H6) * mL ^ 2 * (mL - mLb))
      / (2 * mL * (mL + mLb)) * (mLb + mL) * Real.sqrt ((mLb + mL) ^ 2 - t) / (Real.sqrt 3 * mL)) ?_ ?_ ?_
    · fun_prop (disch := assumption)
    · simp only [hsp, z, sub_self]
      field_simp
      ring
    · intro t ht
      have : q0 - t ≠ 0 := sub_ne_zero.2 (Ne.symm ht)
      simp only [H, helAmps, qmFF, eX, eX2, ← hq0]
      field_simp
      ring
  · refine lim (r := fun t => -((f t).H5 * (mL - mLb) - (f t).H6 * (-mL ^ 2 + mLb ^ 2 + t) / (2 * mLb)) * Real.sqrt ((mLb + mL) ^ 2 - t)) (by fun_prop (disch := assumption)) ?_ (fun t _ => rfl)
    simp only [hsp, z]
    rw [show -mL ^ 2 + mLb ^ 2 + q0 = 2 * mLb * (mLb - mL) by rw [hq0]; ring]
    field_simp
    ring
  · refine lim (r := fun t => (H t).a0) ?_ ?_ (fun t _ => rfl)
    · simp only [H, helAmps, qmFF, ← hq0]
      have h1 : 2 * mL * (mL - mLb) * mLb ^ 2 * (mL ^ 2 + 2 * mL * mLb + mLb ^ 2 - q0) ≠ 0 := by positivity
      fun_prop (disch := assumption)
    · simp only [H, helAmps, ← hq0, sub_self, Real.sqrt_zero, mul_zero, zero_div]
  · refine lim (r := fun t => (H t).a1) ?_ ?_ (fun t _ => rfl)
    · simp only [H, helAmps, qmFF, ← hq0]
      fun_prop (disch := assumption)
    · simp only [H, helAmps, ← hq0, sub_self, Real.sqrt_zero, mul_zero, zero_div]
  · refine lim (r := fun t => (H t).a3) ?_ ?_ (fun t _ => rfl)
    · simp only [H, helAmps, qmFF, ← hq0]
      fun_prop (disch := assumption)
    · simp only [H, helAmps, ← hq0, sub_self, Real.sqrt_zero, mul_zero, zero_div]
  · refine lim (r := fun t => (H t).t50) ?_ ?_ (fun t _ => rfl)
    · simp only [H, helAmps, qmFF, ← hq0]
      fun_prop (disch := assumption)
    · simp only [H, helAmps, ← hq0, sub_self, Real.sqrt_zero, mul_zero, zero_div]
  · refine lim (r := fun t => (H t).t51) ?_ ?_ (fun t _ => rfl)
    · simp only [H, helAmps, qmFF, ← hq0]
      have h1 : 2 * mL * (mL - mLb) * mLb ^ 2 * (mL ^ 2 + 2 * mL * mLb + mLb ^ 2 - q0) ≠ 0 := by positivity
      fun_prop (disch := assumption)
    · simp only [H, helAmps, ← hq0, sub_self, Real.sqrt_zero, mul_zero, zero_div]
  · refine lim (r := fun t => (H t).t53) ?_ ?_ (fun t _ => rfl)
    · simp only [H, helAmps, qmFF, ← hq0]
      fun_prop (disch := assumption)
    · simp only [H, helAmps, ← hq0, sub_self, Real.sqrt_zero, mul_zero, zero_div]

/-- **C107**: the momentum used by the quark model is that of the `Λ(1520)` in the rest frame of the `Λb`, in the allowed region. -/
theorem C107_momentum (q2 mL mLb : ℝ) (hL : 0 < mL) (hm : mL < mLb) (h : q2 < (mLb - mL) ^ 2) :
    momentum q2 mL mLb = Real.sqrt (Common.kallen (mLb ^ 2) (mL ^ 2) q2) / (2 * mLb) := by
  have hb : 0 < mLb := hL.trans hm
  have hk : Common.kallen (mLb ^ 2) (mL ^ 2) q2 = ((mLb - mL) ^ 2 - q2) * ((mLb + mL) ^ 2 - q2) := by unfold Common.kallen; ring
  have hp : 0 < ((mLb - mL) ^ 2 - q2) * ((mLb + mL) ^ 2 - q2) := mul_pos (by linarith) (by nlinarith)
  have e : (1 - (mL / mLb) ^ 2) ^ 2 - 2 * (1 + (mL / mLb) ^ 2) * (q2 / mLb ^ 2) + (q2 / mLb ^ 2) ^ 2 = ((mLb - mL) ^ 2 - q2) * ((mLb + mL) ^ 2 - q2) / (mLb ^ 2) ^ 2 := by
    field_simp; ring
  simp only [momentum, e]
  rw [if_pos (by positivity), hk, Real.sqrt_div' _ (by positivity), Real.sqrt_sq (by positivity)]
  field_simp

/-- Non-vacuity: constant quark model functions. -/
example (f : QM) (a : ℝ) : QMCont (fun _ => f) a := fun _ _ => continuousAt_const

end Verif.L1520
