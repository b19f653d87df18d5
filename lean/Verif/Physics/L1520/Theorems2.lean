import Verif.Physics.L1520.Theorems
/-!
# C107: observables, bins, form factors
-/
set_option linter.unusedVariables false
set_option linter.unusedSimpArgs false
set_option maxHeartbeats 1000000
namespace Verif.L1520
open Verif.Angular Verif.Py Verif.Running Complex MeasureTheory Set
local notation "conj" => starRingEnd ℂ

/-- **C107**: outside of the allowed region all observables vanish. -/
theorem C107_outside (d : Inp) (F : Ls → Ls → ℝ) (q2 : ℝ) (h : q2 < 4 * d.ml ^ 2 ∨ (d.mLb - d.mL) ^ 2 < q2) :
    getObs d F q2 = 0 ∧ dbr d q2 = 0 ∧ ratio d F q2 = .ok 0 := by
  have h0 : ∀ F, getObs d F q2 = 0 := fun F => by rw [getObs, if_pos h]
  exact ⟨h0 F, by rw [dbr, h0, mul_zero], by rw [ratio, h0, if_pos rfl]⟩

theorem getObs_bounds (d : Inp) (hbr : 0 ≤ d.brNK) (q2 : ℝ) :
    0 ≤ getObs d flNum q2 ∧ getObs d flNum q2 ≤ getObs d dG q2
    ∧ |getObs d afblNum q2| ≤ 3 / 4 * (getObs d dG q2 - getObs d flNum q2)
    ∧ (∀ g ∈ coeffs, |getObs d (obsS g) q2| ≤ getObs d dG q2 ∧ |getObs d (obsA g) q2| ≤ getObs d dG q2)
    ∧ getObs d zeroNum q2 = 0 := by
  unfold getObs
  by_cases h : q2 < 4 * d.ml ^ 2 ∨ q2 > (d.mLb - d.mL) ^ 2
  · simp only [if_pos h]; simp
  · simp only [if_neg h]
    obtain ⟨h1, h2, h3, h4⟩ := C107_bounds (amps d false q2) (amps d true q2) (d.brNK / 2) (by linarith)
    exact ⟨h1, h2, h3, h4, rfl⟩

theorem div_ratio {x D c : ℝ} (hD : 0 ≤ D) (h : |x| ≤ c * D) (hc : 0 ≤ c) :
    ∃ v, (if x = 0 then Except.ok 0 else pyDiv x D : Except PyErr ℝ) = .ok v ∧ v * D = x ∧ |v| ≤ c := by
  by_cases hx : x = 0
  · exact ⟨0, by rw [if_pos hx], by rw [hx, zero_mul], by simpa using hc⟩
  · have hD0 : D ≠ 0 := by rintro rfl; simp at h; exact hx h
    refine ⟨x / D, by rw [if_neg hx, Mixing.pyDiv_ne hD0], by field_simp, ?_⟩
    rw [abs_div, abs_of_nonneg hD, div_le_iff₀ (lt_of_le_of_ne hD (Ne.symm hD0))]
    exact h

theorem ratios_of {D L A : ℝ} (h0 : 0 ≤ L) (h1 : L ≤ D) (h2 : |A| ≤ 3 / 4 * (D - L)) :
    ∃ fl al : ℝ, (if L = 0 then Except.ok 0 else pyDiv L D : Except PyErr ℝ) = .ok fl ∧ (if A = 0 then Except.ok 0 else pyDiv A D : Except PyErr ℝ) = .ok al
      ∧ fl * D = L ∧ al * D = A ∧ 0 ≤ fl ∧ fl ≤ 1 ∧ |al| ≤ 3 / 4 * (1 - fl) := by
  have hD : 0 ≤ D := h0.trans h1
  obtain ⟨fl, e1, m1, b1⟩ := div_ratio (x := L) (c := 1) hD (by rw [abs_of_nonneg h0]; linarith) zero_le_one
  obtain ⟨a, e2, m2, b2⟩ := div_ratio (x := A) (c := 3 / 4) hD (h2.trans (by linarith)) (by norm_num)
  refine ⟨fl, a, e1, e2, m1, m2, ?_, (le_abs_self _).trans b1, ?_⟩
  · by_cases hL : L = 0
    · rw [if_pos hL] at e1; cases e1; exact le_rfl
    · have : 0 < D := lt_of_lt_of_le (lt_of_le_of_ne h0 (Ne.symm hL)) h1
      exact nonneg_of_mul_nonneg_left (by rw [m1]; exact h0) this
  · rcases hD.eq_or_lt with h | h
    · have hA : A = 0 := by
        have : D - L ≤ 0 := by linarith
        exact abs_eq_zero.1 (le_antisymm (h2.trans (by linarith)) (abs_nonneg _))
      rw [if_pos hA] at e2; cases e2
      have := le_abs_self fl
      simp; linarith
    · rw [← m2, ← m1, abs_mul, abs_of_pos h] at h2
      exact le_of_mul_le_mul_right (h2.trans (le_of_eq (by ring))) h

/-- **C107**: no ratio raises an exception; `0 ≤ FL ≤ 1`, `|AFBl| ≤ 3/4 (1 - FL)`, and all `S_i` and `A_i` have modulus at most 1. -/
theorem C107_ratios (d : Inp) (hbr : 0 ≤ d.brNK) (q2 : ℝ) :
    (∃ fl al : ℝ, ratio d flNum q2 = .ok fl ∧ ratio d afblNum q2 = .ok al ∧ fl * getObs d dG q2 = getObs d flNum q2 ∧ al * getObs d dG q2 = getObs d afblNum q2
      ∧ 0 ≤ fl ∧ fl ≤ 1 ∧ |al| ≤ 3 / 4 * (1 - fl))
    ∧ (∀ g ∈ coeffs, ∃ s a : ℝ, ratio d (obsS g) q2 = .ok s ∧ ratio d (obsA g) q2 = .ok a ∧ s * getObs d dG q2 = getObs d (obsS g) q2 ∧ a * getObs d dG q2 = getObs d (obsA g) q2
      ∧ |s| ≤ 1 ∧ |a| ≤ 1)
    ∧ ratio d zeroNum q2 = .ok 0 := by
  obtain ⟨h0, h1, h2, h3, h4⟩ := getObs_bounds d hbr q2
  have hD := h0.trans h1
  refine ⟨ratios_of h0 h1 h2, fun g hg => ?_, by rw [ratio, if_pos h4]⟩
  obtain ⟨s, e1, m1, b1⟩ := div_ratio (x := getObs d (obsS g) q2) (c := 1) hD (by rw [one_mul]; exact (h3 g hg).1) zero_le_one
  obtain ⟨a, e2, m2, b2⟩ := div_ratio (x := getObs d (obsA g) q2) (c := 1) hD (by rw [one_mul]; exact (h3 g hg).2) zero_le_one
  exact ⟨s, a, e1, e2, m1, m2, b1, b2⟩

/-! ## Symmetries -/

theorem re_scale (N a b : ℂ) : (N * a * conj (N * b)).re = ‖N‖ ^ 2 * (a * conj b).re := by
  rw [map_mul, show N * a * (conj N * conj b) = (N * conj N) * (a * conj b) by ring, Complex.mul_conj, Complex.re_ofReal_mul, ← Complex.sq_norm]
theorem im_scale (N a b : ℂ) : (N * a * conj (N * b)).im = ‖N‖ ^ 2 * (a * conj b).im := by
  rw [map_mul, show N * a * (conj N * conj b) = (N * conj N) * (a * conj b) by ring, Complex.mul_conj, Complex.im_ofReal_mul, ← Complex.sq_norm]

/-- **C107**: the angular coefficients depend on the prefactor only through its modulus, to which (squared) they are proportional. -/
theorem C107_normalisation (ha : HA) (q2 m br : ℝ) (w : Wc) (N : ℂ) (g : Ls → ℝ) (hg : g ∈ coeffs) :
    g (angCoeff (transAmps ha q2 m w N) br) = ‖N‖ ^ 2 * g (angCoeff (transAmps ha q2 m w 1) br) := by
  simp only [coeffs, List.mem_cons, List.not_mem_nil, or_false] at hg
  rcases hg with rfl | rfl | rfl | rfl | rfl | rfl | rfl | rfl | rfl | rfl | rfl | rfl <;>
    simp only [angCoeff, transAmps, six, re_scale, im_scale, norm_mul, mul_pow, norm_one, one_pow, one_mul] <;> ring

/-- Finding: the Wilson coefficients are not conjugated for the antiparticle (only the parameters are).  If the effective coefficients do not depend on the phases of the parameters, all CP asymmetries
vanish, whatever the phases of the Wilson coefficients are. -/
theorem C107_cp_witness (d : Inp) (h : d.wcb = d.wc) (g : Ls → ℝ) (hg : g ∈ coeffs) (q2 : ℝ) : getObs d (obsA g) q2 = 0 := by
  unfold getObs
  by_cases hq : q2 < 4 * d.ml ^ 2 ∨ q2 > (d.mLb - d.mL) ^ 2
  · rw [if_pos hq]
  · rw [if_neg hq]
    simp only [obsA, amps, h, Bool.false_eq_true, if_false, if_true]
    rw [C107_normalisation _ _ _ _ _ _ g hg, C107_normalisation _ _ _ _ _ (pref d (conj d.n0) q2) g hg]
    have : ‖pref d (conj d.n0) q2‖ = ‖pref d d.n0 q2‖ := by simp only [pref, norm_mul, Complex.norm_conj]
    rw [this]; ring

/-- The Wilson coefficients of the CP conjugated process.  (Specification.) -/
noncomputable def conjWc (w : Wc) : Wc :=
  ⟨conj w.c7, conj w.c7p, conj w.v, conj w.vp, conj w.a, conj w.ap, conj w.s, conj w.sp, conj w.p, conj w.pp, conj w.t, conj w.tp⟩

/-- With properly conjugated coefficients, there are CP asymmetries without strong phases. -/
theorem C107_cp_witness' : ∃ (ha : HA) (w : Wc), obsA Ls.ss4 (angCoeff (transAmps ha 1 1 w 1) 1) (angCoeff (transAmps ha 1 1 (conjWc w) 1) 1) ≠ 0 := by
  refine ⟨⟨0, 0, 1, 0, 1, 0, 0, 0, 0, 0, 0, 0⟩, ⟨0, 0, 1, I, 0, 0, 0, 0, 0, 0, 0, 0⟩, ?_⟩
  have h2 : Real.sqrt 2 * Real.sqrt 2 = 2 := Real.mul_self_sqrt (by norm_num)
  have h3 : Real.sqrt 3 ≠ 0 := (Real.sqrt_pos.2 (by norm_num)).ne'
  simp [obsA, angCoeff, transAmps, six, conjWc]
  ring_nf
  simpa using h3

/-! ## Bins -/

/-- The helicity amplitudes extend continuously to the end point, and the Wilson coefficients are continuous.  (Specification.) -/
structure Smooth (d : Inp) : Prop where
  ha : ∃ h : ℝ → HA, (∀ g ∈ [HA.v0, HA.v1, HA.v3, HA.a0, HA.a1, HA.a3, HA.t0, HA.t1, HA.t3, HA.t50, HA.t51, HA.t53], ContinuousOn (fun t => g (h t)) (Icc (4 * d.ml ^ 2) ((d.mLb - d.mL) ^ 2)))
    ∧ ∀ t ∈ Ico (4 * d.ml ^ 2) ((d.mLb - d.mL) ^ 2), helAmps t d.mLb d.mL (d.ff t) = h t
  wc : ∀ g ∈ [Wc.c7, Wc.c7p, Wc.v, Wc.vp, Wc.a, Wc.ap], ContinuousOn (fun t => g (d.wc t)) (Icc (4 * d.ml ^ 2) ((d.mLb - d.mL) ^ 2))
  wcb : ∀ g ∈ [Wc.c7, Wc.c7p, Wc.v, Wc.vp, Wc.a, Wc.ap], ContinuousOn (fun t => g (d.wcb t)) (Icc (4 * d.ml ^ 2) ((d.mLb - d.mL) ^ 2))

/-- All amplitudes are continuous on a set. (Specification.) -/
def TaCont (f : ℝ → Ta) (S : Set ℝ) : Prop :=
  (ContinuousOn (fun t => (f t).L.aperp1) S ∧ ContinuousOn (fun t => (f t).L.apara1) S ∧ ContinuousOn (fun t => (f t).L.aperp0) S ∧ ContinuousOn (fun t => (f t).L.apara0) S
    ∧ ContinuousOn (fun t => (f t).L.bperp1) S ∧ ContinuousOn (fun t => (f t).L.bpara1) S)
  ∧ (ContinuousOn (fun t => (f t).R.aperp1) S ∧ ContinuousOn (fun t => (f t).R.apara1) S ∧ ContinuousOn (fun t => (f t).R.aperp0) S ∧ ContinuousOn (fun t => (f t).R.apara0) S
    ∧ ContinuousOn (fun t => (f t).R.bperp1) S ∧ ContinuousOn (fun t => (f t).R.bpara1) S)

theorem lambdaK_cont (a b : ℝ) : Continuous (fun t => Common.lambdaK a b t) := by
  have : (fun t => Common.lambdaK a b t) = fun t => max 0 (Common.kallen a b t) := by
    funext t; unfold Common.lambdaK; by_cases h : Common.kallen a b t < 0
    · rw [if_pos h, max_eq_left h.le]
    · rw [if_neg h, max_eq_right (not_lt.1 h)]
  rw [this]
  unfold Common.kallen
  fun_prop

theorem pref_cont (d : Inp) (n : ℂ) : Continuous (pref d n) := by
  have h := (lambdaK_cont (d.mLb ^ 2) (d.mL ^ 2)).rpow_const (p := (1 / 4 : ℝ)) (fun _ => Or.inr (by norm_num))
  have h2 : Continuous (fun q2 : ℝ => (Real.sqrt q2 * Common.lambdaK (d.mLb ^ 2) (d.mL ^ 2) q2 ^ (1 / 4 : ℝ) / Real.sqrt (3 * 2 * d.mLb ^ 3 * Real.pi ^ 5) / 32 : ℝ)) :=
    ((Real.continuous_sqrt.mul h).div_const _).div_const _
  exact continuous_const.mul (Complex.continuous_ofReal.comp h2)

theorem trans_cont {S : Set ℝ} (hS : ∀ t ∈ S, 0 < t) (m : ℝ) {h : ℝ → HA} {w : ℝ → Wc} {N : ℝ → ℂ}
    (hh : ∀ g ∈ [HA.v0, HA.v1, HA.v3, HA.a0, HA.a1, HA.a3, HA.t0, HA.t1, HA.t3, HA.t50, HA.t51, HA.t53], ContinuousOn (fun t => g (h t)) S)
    (hw : ∀ g ∈ [Wc.c7, Wc.c7p, Wc.v, Wc.vp, Wc.a, Wc.ap], ContinuousOn (fun t => g (w t)) S) (hN : ContinuousOn N S) :
    TaCont (fun t => transAmps (h t) t m (w t) (N t)) S := by
  simp only [List.mem_cons, List.not_mem_nil, or_false, forall_eq_or_imp, forall_eq] at hh hw
  obtain ⟨f1, f2, f3, f4, f5, f6, f7, f8, f9, f10, f11, f12⟩ := hh
  obtain ⟨w1, w2, w3, w4, w5, w6⟩ := hw
  have hne : ∀ t ∈ S, (t : ℂ) ≠ 0 := fun t ht => by exact_mod_cast (hS t ht).ne'
  have id1 : ContinuousOn (fun t : ℝ => t) S := continuousOn_id
  have o {g : ℝ → ℝ} (hg : ContinuousOn g S) : ContinuousOn (fun t => ((g t : ℝ) : ℂ)) S := Complex.continuous_ofReal.comp_continuousOn hg
  have c : ∀ (z : ℂ), ContinuousOn (fun _ : ℝ => z) S := fun z => continuousOn_const
  have d7p : ContinuousOn (fun t : ℝ => 2 * (m : ℂ) * ((w t).c7 + (w t).c7p) / (t : ℂ)) S := ((c _).mul (w1.add w2)).div (o id1) hne
  have d7m : ContinuousOn (fun t : ℝ => 2 * (m : ℂ) * ((w t).c7 - (w t).c7p) / (t : ℂ)) S := ((c _).mul (w1.sub w2)).div (o id1) hne
  have lp := (w3.sub w5).add (w4.sub w6)
  have lm := (w3.sub w5).sub (w4.sub w6)
  have rp := (w3.add w5).add (w4.add w6)
  have rm := (w3.add w5).sub (w4.add w6)
  refine ⟨⟨?_, ?_, ?_, ?_, ?_, ?_⟩, ⟨?_, ?_, ?_, ?_, ?_, ?_⟩⟩
  · exact hN.mul ((c _).mul ((lp.mul (o f2)).sub (d7p.mul (o f8))))
  · exact hN.mul ((c _).mul ((lm.mul (o f5)).add (d7m.mul (o f11))))
  · exact hN.mul ((c _).mul ((lp.mul (o f1)).sub (d7p.mul (o f7))))
  · exact hN.mul ((c _).mul ((lm.mul (o f4)).add (d7m.mul (o f10))))
  · exact hN.mul ((c _).mul ((lp.mul (o f3)).sub (d7p.mul (o f9))))
  · exact hN.mul ((c _).mul ((lm.mul (o f6)).add (d7m.mul (o f12))))
  · exact hN.mul ((c _).mul ((rp.mul (o f2)).sub (d7p.mul (o f8))))
  · exact hN.mul ((c _).mul ((rm.mul (o f5)).add (d7m.mul (o f11))))
  · exact hN.mul ((c _).mul ((rp.mul (o f1)).sub (d7p.mul (o f7))))
  · exact hN.mul ((c _).mul ((rm.mul (o f4)).add (d7m.mul (o f10))))
  · exact hN.mul ((c _).mul ((rp.mul (o f3)).sub (d7p.mul (o f9))))
  · exact hN.mul ((c _).mul ((rm.mul (o f6)).add (d7m.mul (o f12))))

theorem coeff_cont {S : Set ℝ} {f : ℝ → Ta} (h : TaCont f S) (br : ℝ) (g : Ls → ℝ) (hg : g ∈ coeffs) : ContinuousOn (fun t => g (angCoeff (f t) br)) S := by
  obtain ⟨⟨a1, a2, a3, a4, a5, a6⟩, ⟨b1, b2, b3, b4, b5, b6⟩⟩ := h
  have P {x y : ℝ → ℂ} (hx : ContinuousOn x S) (hy : ContinuousOn y S) : ContinuousOn (fun t => (x t * conj (y t)).re) S :=
    Complex.continuous_re.comp_continuousOn (hx.mul (Complex.continuous_conj.comp_continuousOn hy))
  have Q {x y : ℝ → ℂ} (hx : ContinuousOn x S) (hy : ContinuousOn y S) : ContinuousOn (fun t => (x t * conj (y t)).im) S :=
    Complex.continuous_im.comp_continuousOn (hx.mul (Complex.continuous_conj.comp_continuousOn hy))
  have n {x : ℝ → ℂ} (hx : ContinuousOn x S) : ContinuousOn (fun t => ‖x t‖ ^ 2) S := hx.norm.pow 2
  have n1 := n a1; have n2 := n a2; have n3 := n a3; have n4 := n a4; have n5 := n a5; have n6 := n a6
  have m1 := n b1; have m2 := n b2; have m3 := n b3; have m4 := n b4; have m5 := n b5; have m6 := n b6
  have c : ∀ (z : ℝ), ContinuousOn (fun _ : ℝ => z) S := fun z => continuousOn_const
  simp only [coeffs, List.mem_cons, List.not_mem_nil, or_false] at hg
  rcases hg with rfl | rfl | rfl | rfl | rfl | rfl | rfl | rfl | rfl | rfl | rfl | rfl
  · exact (c _).mul ((P a1 a2).sub (P b1 b2))
  · exact (c _).mul (((n2.add n1).add m2).add m1)
  · exact (c _).mul (((((((c 2).mul (n4.add n3)).add n2).add n1).add ((c 2).mul (m4.add m3))).add m2).add m1)
  · exact (c _).mul ((((P a1 a2).add ((c 3).mul (P a5 a6))).sub (P b1 b2)).sub ((c 3).mul (P b5 b6)))
  · exact (c _).mul (((((n2.add n1).add ((c 3).mul (n6.add n5))).add m2).add m1).add ((c 3).mul (m6.add m5)))
  · have p1 := P a6 a2; have p2 := P a5 a1; have p3 := P b6 b2; have p4 := P b5 b1
    simp only [angCoeff]
    fun_prop
  · exact (c _).mul ((((P a6 a2).sub (P a5 a1)).add (P b6 b2)).sub (P b5 b1))
  · exact (c _).mul ((((Q a5 a2).sub (Q a6 a1)).add (Q b5 b2)).sub (Q b6 b1))
  · exact (c _).mul ((((P a5 a4).sub (P a6 a3)).sub (P b5 b4)).add (P b6 b3))
  · exact (c _).mul ((((P a6 a4).neg.add (P a5 a3)).sub (P b6 b4)).add (P b5 b3))
  · exact (c _).mul ((((Q a6 a4).sub (Q a5 a3)).sub (Q b6 b4)).add (Q b5 b3))
  · exact (c _).mul ((((Q a5 a4).sub (Q a6 a3)).add (Q b5 b4)).sub (Q b6 b3))

/-- `F` is a linear combination of the coefficients (as all functions used by the observables are).
(Specification.) -/
def Lin (F : Ls → Ls → ℝ) : Prop :=
  ∀ (S : Set ℝ) (x y : ℝ → Ls), (∀ g ∈ coeffs, ContinuousOn (fun t => g (x t)) S) → (∀ g ∈ coeffs, ContinuousOn (fun t => g (y t)) S) → ContinuousOn (fun t => F (x t) (y t)) S

theorem lin_obs : Lin dG ∧ Lin flNum ∧ Lin afblNum ∧ (∀ g ∈ coeffs, Lin (obsS g) ∧ Lin (obsA g)) := by
  refine ⟨?_, ?_, ?_, ?_⟩
  · intro S x y hx hy
    simp only [coeffs, List.mem_cons, List.not_mem_nil, or_false, forall_eq_or_imp, forall_eq] at hx hy
    obtain ⟨a1, a2, a3, a4, a5, a6, a7, -⟩ := hx
    obtain ⟨b1, b2, b3, b4, b5, b6, b7, -⟩ := hy
    simp only [dG]; fun_prop
  · intro S x y hx hy
    simp only [coeffs, List.mem_cons, List.not_mem_nil, or_false, forall_eq_or_imp, forall_eq] at hx hy
    obtain ⟨a1, a2, a3, a4, a5, a6, a7, -⟩ := hx
    obtain ⟨b1, b2, b3, b4, b5, b6, b7, -⟩ := hy
    simp only [flNum]; fun_prop
  · intro S x y hx hy
    simp only [coeffs, List.mem_cons, List.not_mem_nil, or_false, forall_eq_or_imp, forall_eq] at hx hy
    obtain ⟨a1, a2, a3, a4, a5, a6, a7, -⟩ := hx
    obtain ⟨b1, b2, b3, b4, b5, b6, b7, -⟩ := hy
    simp only [afblNum]; fun_prop
  · exact fun g hg => ⟨fun S x y hx hy => ((hx g hg).add (hy g hg)).div_const 2, fun S x y hx hy => ((hx g hg).sub (hy g hg)).div_const 2⟩

theorem getObs_integrable (d : Inp) (hml : d.ml ≠ 0) (h : Smooth d) {F : Ls → Ls → ℝ} (hF : Lin F) (a b : ℝ) : IntervalIntegrable (getObs d F) volume a b := by
  obtain ⟨⟨ha, hh, he⟩, hw, hwb⟩ := h
  set lo := 4 * d.ml ^ 2 with hlo
  set hi := (d.mLb - d.mL) ^ 2 with hhi
  have hlo0 : 0 < lo := by positivity
  have hS : ∀ t ∈ Icc lo hi, 0 < t := fun t ht => lt_of_lt_of_le hlo0 ht.1
  have c1 := trans_cont hS d.mb hh hw (pref_cont d d.n0).continuousOn
  have c2 := trans_cont hS d.mb hh hwb (pref_cont d (conj d.n0)).continuousOn
  have hc := hF (Icc lo hi) _ _ (fun g hg => coeff_cont c1 (d.brNK / 2) g hg) (fun g hg => coeff_cont c2 (d.brNK / 2) g hg)
  have h1 : IntegrableOn (getObs d F) (Ico lo hi) volume := by
    refine ((hc.integrableOn_compact isCompact_Icc).mono_set Ico_subset_Icc_self).congr_fun (fun t ht => ?_) measurableSet_Ico
    rw [getObs, if_neg (by rintro (h | h) <;> linarith [ht.1, ht.2])]
    simp only [amps, Bool.false_eq_true, if_false, if_true, he t ht]
  have h2 : IntegrableOn (getObs d F) {hi} volume := by
    rw [IntegrableOn, Measure.restrict_singleton]
    simp
  have h4 : IntegrableOn (getObs d F) (Icc lo hi)ᶜ volume := by
    refine (show IntegrableOn (fun _ : ℝ => (0:ℝ)) (Icc lo hi)ᶜ volume from integrableOn_zero).congr_fun (fun t ht => ?_) measurableSet_Icc.compl
    show (0:ℝ) = getObs d F t
    rw [getObs, if_pos]
    by_contra hc
    push Not at hc
    exact ht ⟨hc.1, hc.2⟩
  have hall : IntegrableOn (getObs d F) univ volume := by
    refine ((h1.union h2).union h4).mono_set (fun t _ => ?_)
    by_cases ht : t ∈ Icc lo hi
    · rcases ht.2.lt_or_eq with g | g
      · exact Or.inl (Or.inl ⟨ht.1, g⟩)
      · exact Or.inl (Or.inr g)
    · exact Or.inr ht
  exact (integrableOn_univ.1 hall).intervalIntegrable

/-- **C107**: binned observables with an exact integrator: the binned branching ratio is the mean over the bin; no binned ratio raises an exception; the bounds of the differential observables hold. -/
theorem C107_bins (nint : Nint) (hx : Exact nint) (d : Inp) (hbr : 0 ≤ d.brNK) (hml : d.ml ≠ 0) (h : Smooth d) (a b : ℝ) (hab : a < b) :
    dbrInt nint d a b * (b - a) = d.tau * (∫ t in a..b, getObs d dG t)
    ∧ (∃ fl al : ℝ, ratioInt nint d flNum a b = .ok fl ∧ ratioInt nint d afblNum a b = .ok al
      ∧ fl * (∫ t in a..b, getObs d dG t) = (∫ t in a..b, getObs d flNum t) ∧ al * (∫ t in a..b, getObs d dG t) = (∫ t in a..b, getObs d afblNum t)
      ∧ 0 ≤ fl ∧ fl ≤ 1 ∧ |al| ≤ 3 / 4 * (1 - fl))
    ∧ (∀ g ∈ coeffs, ∃ s x : ℝ, ratioInt nint d (obsS g) a b = .ok s ∧ ratioInt nint d (obsA g) a b = .ok x
      ∧ s * (∫ t in a..b, getObs d dG t) = (∫ t in a..b, getObs d (obsS g) t) ∧ x * (∫ t in a..b, getObs d dG t) = (∫ t in a..b, getObs d (obsA g) t)
      ∧ |s| ≤ 1 ∧ |x| ≤ 1) := by
  obtain ⟨l1, l2, l3, l4⟩ := lin_obs
  have i1 := getObs_integrable d hml h l1 a b
  have i2 := getObs_integrable d hml h l2 a b
  have i3 := getObs_integrable d hml h l3 a b
  have b1 := fun t => getObs_bounds d hbr t
  have habs {F : Ls → Ls → ℝ} {g : ℝ → ℝ} (hF : IntervalIntegrable (getObs d F) volume a b) (hg : IntervalIntegrable g volume a b) (hb : ∀ t, |getObs d F t| ≤ g t) :
      |∫ t in a..b, getObs d F t| ≤ ∫ t in a..b, g t :=
    (intervalIntegral.abs_integral_le_integral_abs hab.le).trans (intervalIntegral.integral_mono_on hab.le hF.abs hg (fun t _ => hb t))
  have h0 : 0 ≤ ∫ t in a..b, getObs d flNum t := intervalIntegral.integral_nonneg hab.le (fun t _ => (b1 t).1)
  have h1 : (∫ t in a..b, getObs d flNum t) ≤ ∫ t in a..b, getObs d dG t := intervalIntegral.integral_mono_on hab.le i2 i1 (fun t _ => (b1 t).2.1)
  refine ⟨?_, ?_, fun g hg => ?_⟩
  · rw [dbrInt, div_mul_cancel₀ _ (by linarith), obsIntL, hx _ _ _ _ i1]
  · have h2 := habs i3 ((i1.sub i2).const_mul (3 / 4)) (fun t => (b1 t).2.2.1)
    rw [intervalIntegral.integral_const_mul, intervalIntegral.integral_sub i1 i2] at h2
    simp only [ratioInt, obsIntL, hx _ _ _ _ i1, hx _ _ _ _ i2, hx _ _ _ _ i3]
    exact ratios_of h0 h1 h2
  · have i4 := getObs_integrable d hml h (l4 g hg).1 a b
    have i5 := getObs_integrable d hml h (l4 g hg).2 a b
    have h3 := habs i4 i1 (fun t => ((b1 t).2.2.2.1 g hg).1)
    have h4 := habs i5 i1 (fun t => ((b1 t).2.2.2.1 g hg).2)
    have hD := h0.trans h1
    simp only [ratioInt, obsIntL, hx _ _ _ _ i1, hx _ _ _ _ i4, hx _ _ _ _ i5]
    obtain ⟨s, e1, m1, b1⟩ := div_ratio (c := 1) hD (by rw [one_mul]; exact h3) zero_le_one
    obtain ⟨x, e2, m2, b2⟩ := div_ratio (c := 1) hD (by rw [one_mul]; exact h4) zero_le_one
    exact ⟨s, x, e1, e2, m1, m2, b1, b2⟩

/-- Non-vacuity: constant form factors and coefficients. -/
example (f : FF) (w : Wc) : ∃ d : Inp, Smooth d ∧ 0 ≤ d.brNK ∧ d.ml ≠ 0 ∧ 4 * d.ml ^ 2 < (d.mLb - d.mL) ^ 2 ∧ (∀ t, d.ff t = f ∧ d.wc t = w) := by
  refine ⟨⟨5, 1, 1, 4, 1, 1, 1, fun _ => w, fun _ => w, fun _ => f⟩, ⟨⟨fun t => helAmps t 5 1 f, ?_, fun _ _ => rfl⟩, ?_, ?_⟩, by norm_num, by norm_num, by norm_num,
    fun _ => ⟨rfl, rfl⟩⟩
  · intro g hg
    have hq : ∀ t ∈ Icc (4 * (1:ℝ) ^ 2) ((5 - 1) ^ 2), Real.sqrt t ≠ 0 := fun t ht => (Real.sqrt_pos.mpr (by have := ht.1; norm_num at this; linarith)).ne'
    have h6 : Real.sqrt 6 ≠ 0 := by positivity
    have h3 : Real.sqrt 3 ≠ 0 := by positivity
    simp only [List.mem_cons, List.not_mem_nil, or_false] at hg
    rcases hg with rfl | rfl | rfl | rfl | rfl | rfl | rfl | rfl | rfl | rfl | rfl | rfl <;> simp only [helAmps] <;> fun_prop (disch := assumption)
  · intro g _; dsimp only; exact continuous_const.continuousOn
  · intro g _; dsimp only; exact continuous_const.continuousOn

end Verif.L1520
