import Verif.Physics.Inclusive.Xlnu
import Mathlib.Analysis.Calculus.Deriv.MeanValue
import Mathlib.Analysis.SpecialFunctions.Log.Deriv
import Mathlib.Analysis.SpecialFunctions.Sqrt
import Mathlib.Analysis.SpecialFunctions.Log.NegMulLog
/-!
# The phase-space functions of B → X_c ℓ ν: real closed forms and their behaviour

`t` stands for the lepton-pair invariant mass `q²/m_b²`, `c = b² = m_c²/m_b²`.
-/
set_option linter.unusedVariables false
set_option linter.unusedSimpArgs false
namespace Verif.Xlnu
open Set

/-- The momentum of the charm quark at `q² = t` (in units of the b mass, times two). (Specification.) -/
noncomputable def w (c t : ℝ) : ℝ := √((1 - c - t)^2 - 4*c*t)
/-- `log((1+c−t+w)/(1+c−t−w))`. (Specification.) -/
noncomputable def Lc (c t : ℝ) : ℝ := 2*Real.log (1 + c - t + w c t) - Real.log (4*c)
/-- `log((1−c+t+w)/(1−c+t−w))`. (Specification.) -/
noncomputable def Ll (c t : ℝ) : ℝ := 2*Real.log (1 - c + t + w c t) - Real.log (4*t)

theorem disc (b t : ℝ) : (1 - b^2 - t)^2 - 4*b^2*t = ((1-b)^2 - t)*((1+b)^2 - t) := by ring

variable {b t : ℝ}

theorem D_nonneg (hb : 0 < b) (hb1 : b < 1) (ht : t ≤ (1-b)^2) : 0 ≤ (1 - b^2 - t)^2 - 4*b^2*t := by
  rw [disc]; exact mul_nonneg (by linarith) (by nlinarith)
theorem D_pos (hb : 0 < b) (hb1 : b < 1) (ht : t < (1-b)^2) : 0 < (1 - b^2 - t)^2 - 4*b^2*t := by
  rw [disc]; exact mul_pos (by linarith) (by nlinarith)
theorem w_nonneg (c t : ℝ) : 0 ≤ w c t := Real.sqrt_nonneg _
theorem w_pos (hb : 0 < b) (hb1 : b < 1) (ht : t < (1-b)^2) : 0 < w (b^2) t := Real.sqrt_pos.mpr (D_pos hb hb1 ht)
theorem w_sq (hb : 0 < b) (hb1 : b < 1) (ht : t ≤ (1-b)^2) : w (b^2) t ^ 2 = (1 - b^2 - t)^2 - 4*b^2*t :=
  Real.sq_sqrt (D_nonneg hb hb1 ht)
theorem w_E (b : ℝ) : w (b^2) ((1-b)^2) = 0 := by
  simp only [w, disc]; simp
theorem argB_pos (hb : 0 < b) (ht : t ≤ (1-b)^2) : 0 < 1 + b^2 - t + w (b^2) t := by
  have := w_nonneg (b^2) t; nlinarith
theorem argBp_pos (hb : 0 < b) (hb1 : b < 1) (ht0 : 0 ≤ t) : 0 < 1 - b^2 + t + w (b^2) t := by
  have := w_nonneg (b^2) t; nlinarith

theorem Lc_E (hb : 0 < b) (hb1 : b < 1) : Lc (b^2) ((1-b)^2) = 0 := by
  simp only [Lc, w_E]
  have : 1 + b^2 - (1-b)^2 + 0 = 2*b := by ring
  rw [this, show 4*b^2 = (2*b)^2 by ring, Real.log_pow]; push_cast; ring
theorem Ll_E (hb : 0 < b) (hb1 : b < 1) : Ll (b^2) ((1-b)^2) = 0 := by
  simp only [Ll, w_E]
  have : 1 - b^2 + (1-b)^2 + 0 = 2*(1-b) := by ring
  rw [this, show 4*(1-b)^2 = (2*(1-b))^2 by ring, Real.log_pow]; push_cast; ring

theorem w_deriv (hb : 0 < b) (hb1 : b < 1) (ht : t < (1-b)^2) :
    HasDerivAt (w (b^2)) (-(1 + b^2 - t)/w (b^2) t) t := by
  have h1 : HasDerivAt (fun t => (1 - b^2 - t)^2 - 4*b^2*t) (2*(1-b^2-t)*(-1) - 4*b^2) t := by
    have := (((hasDerivAt_id t).const_sub (1-b^2)).pow 2).sub ((hasDerivAt_id t).const_mul (4*b^2))
    exact this.congr_deriv (by simp)
  have h2 := h1.sqrt (D_pos hb hb1 ht).ne'
  refine h2.congr_deriv ?_
  have hw := (w_pos hb hb1 ht).ne'
  simp only [w] at hw ⊢
  field_simp
  ring

theorem Lc_deriv (hb : 0 < b) (hb1 : b < 1) (ht : t < (1-b)^2) :
    HasDerivAt (Lc (b^2)) (-2/w (b^2) t) t := by
  have h := ((((hasDerivAt_id t).const_sub (1+b^2)).add (w_deriv hb hb1 ht)).log (argB_pos hb ht.le).ne').const_mul 2
  refine (h.sub_const (Real.log (4*b^2))).congr_deriv ?_
  have hw := (w_pos hb hb1 ht).ne'
  have hB := (argB_pos hb ht.le).ne'
  simp only [id] at *
  field_simp
  ring_nf
  simp only [Pi.add_apply, id]
  field_simp
  ring

theorem Ll_deriv (hb : 0 < b) (hb1 : b < 1) (ht0 : 0 < t) (ht : t < (1-b)^2) :
    HasDerivAt (Ll (b^2)) (-(1 - b^2 - t)/(t*w (b^2) t)) t := by
  have h := ((((hasDerivAt_id t).const_add (1-b^2)).add (w_deriv hb hb1 ht)).log (argBp_pos hb hb1 ht0.le).ne').const_mul 2
  have h4 := ((hasDerivAt_id t).const_mul 4).log (by simpa using ht0.ne')
  refine (h.sub h4).congr_deriv ?_
  have hw := (w_pos hb hb1 ht).ne'
  have hB := (argBp_pos hb hb1 ht0.le).ne'
  have hs := w_sq hb hb1 ht.le
  simp only [Pi.add_apply, id] at *
  field_simp
  linear_combination (-(1:ℝ)) * hs

/-- `∫_t^E u^k w(u) du` for `k = -2, …, 2`, in closed form. (Specification.) -/
noncomputable def Im2 (c t : ℝ) : ℝ := w c t/t - c/(1-c)*Lc c t - (1+c)/(1-c)*Ll c t
/-- (Specification.) -/
noncomputable def Im1 (c t : ℝ) : ℝ := -w c t - c*Lc c t + (1-c)*Ll c t
/-- (Specification.) -/
noncomputable def I0 (c t : ℝ) : ℝ := w c t*(1+c-t)/2 - c*Lc c t
/-- (Specification.) -/
noncomputable def I1 (c t : ℝ) : ℝ := (1+c)*I0 c t - w c t^3/3
/-- (Specification.) -/
noncomputable def I2 (c t : ℝ) : ℝ := (-t*w c t^3 - (1-c)^2*I0 c t + 5*(1+c)*I1 c t)/4

theorem c_lt (hb : 0 < b) (hb1 : b < 1) : 0 < 1 - b^2 := by nlinarith

theorem Im2_deriv (hb : 0 < b) (hb1 : b < 1) (ht0 : 0 < t) (ht : t < (1-b)^2) :
    HasDerivAt (Im2 (b^2)) (-w (b^2) t/t^2) t := by
  have hc := (c_lt hb hb1).ne'
  have hw := (w_pos hb hb1 ht).ne'
  have h := (((w_deriv hb hb1 ht).div (hasDerivAt_id t) ht0.ne').sub ((Lc_deriv hb hb1 ht).const_mul (b^2/(1-b^2)))).sub
    ((Ll_deriv hb hb1 ht0 ht).const_mul ((1+b^2)/(1-b^2)))
  refine h.congr_deriv ?_
  have hs := w_sq hb hb1 ht.le
  simp only [id]
  generalize w (b^2) t = W at *
  field_simp
  linear_combination (0:ℝ) * hs

theorem Im1_deriv (hb : 0 < b) (hb1 : b < 1) (ht0 : 0 < t) (ht : t < (1-b)^2) :
    HasDerivAt (Im1 (b^2)) (-w (b^2) t/t) t := by
  have hw := (w_pos hb hb1 ht).ne'
  have h := (((w_deriv hb hb1 ht).neg).sub ((Lc_deriv hb hb1 ht).const_mul (b^2))).add
    ((Ll_deriv hb hb1 ht0 ht).const_mul (1-b^2))
  refine h.congr_deriv ?_
  have hs := w_sq hb hb1 ht.le
  generalize w (b^2) t = W at *
  field_simp
  linear_combination hs

theorem I0_deriv (hb : 0 < b) (hb1 : b < 1) (ht : t < (1-b)^2) :
    HasDerivAt (I0 (b^2)) (-w (b^2) t) t := by
  have hw := (w_pos hb hb1 ht).ne'
  have h := (((w_deriv hb hb1 ht).mul ((hasDerivAt_id t).const_sub (1+b^2))).div_const 2).sub
    ((Lc_deriv hb hb1 ht).const_mul (b^2))
  refine h.congr_deriv ?_
  have hs := w_sq hb hb1 ht.le
  simp only [id]
  generalize w (b^2) t = W at *
  field_simp
  linear_combination hs

theorem w3_deriv (hb : 0 < b) (hb1 : b < 1) (ht : t < (1-b)^2) :
    HasDerivAt (fun t => w (b^2) t^3) (-3*w (b^2) t*(1+b^2-t)) t := by
  refine ((w_deriv hb hb1 ht).pow 3).congr_deriv ?_
  have hw := (w_pos hb hb1 ht).ne'
  push_cast
  field_simp

theorem I1_deriv (hb : 0 < b) (hb1 : b < 1) (ht : t < (1-b)^2) :
    HasDerivAt (I1 (b^2)) (-w (b^2) t*t) t := by
  refine (((I0_deriv hb hb1 ht).const_mul (1+b^2)).sub ((w3_deriv hb hb1 ht).div_const 3)).congr_deriv ?_
  ring

theorem I2_deriv (hb : 0 < b) (hb1 : b < 1) (ht : t < (1-b)^2) :
    HasDerivAt (I2 (b^2)) (-w (b^2) t*t^2) t := by
  have h := ((((hasDerivAt_id t).neg.mul (w3_deriv hb hb1 ht)).sub ((I0_deriv hb hb1 ht).const_mul ((1-b^2)^2))).add
    ((I1_deriv hb hb1 ht).const_mul (5*(1+b^2)))).div_const 4
  refine h.congr_deriv ?_
  have hs := w_sq hb hb1 ht.le
  simp only [id, Pi.neg_apply]
  generalize w (b^2) t = W at *
  linear_combination (-W/4) * hs

theorem I_E (hb : 0 < b) (hb1 : b < 1) : Im2 (b^2) ((1-b)^2) = 0 ∧ Im1 (b^2) ((1-b)^2) = 0 ∧ I0 (b^2) ((1-b)^2) = 0 ∧
    I1 (b^2) ((1-b)^2) = 0 ∧ I2 (b^2) ((1-b)^2) = 0 := by
  simp [Im2, Im1, I0, I1, I2, w_E, Lc_E hb hb1, Ll_E hb hb1]

theorem w_cont (c : ℝ) : Continuous (w c) := by unfold w; fun_prop
theorem Lc_cont (hb : 0 < b) (hb1 : b < 1) : ContinuousOn (Lc (b^2)) (Iic ((1-b)^2)) := by
  unfold Lc
  refine ((ContinuousOn.log ?_ fun t ht => (argB_pos hb ht).ne').const_mul 2).sub continuousOn_const
  have := w_cont (b^2); fun_prop
theorem Ll_cont (hb : 0 < b) (hb1 : b < 1) : ContinuousOn (Ll (b^2)) (Ioi 0) := by
  unfold Ll
  refine ((ContinuousOn.log ?_ fun t ht => (argBp_pos hb hb1 (le_of_lt ht)).ne').const_mul 2).sub
    (ContinuousOn.log (by fun_prop) fun t ht => by have := ne_of_gt (Set.mem_Ioi.mp ht); positivity)
  have := w_cont (b^2); fun_prop

variable {l : ℝ}
theorem I0_cont (hb : 0 < b) (hb1 : b < 1) : ContinuousOn (I0 (b^2)) (Icc l ((1-b)^2)) := by
  have h1 := (w_cont (b^2)).continuousOn (s := Icc l ((1-b)^2))
  have h2 := (Lc_cont hb hb1).mono (Icc_subset_Iic_self (a := l))
  unfold I0; fun_prop
theorem I1_cont (hb : 0 < b) (hb1 : b < 1) : ContinuousOn (I1 (b^2)) (Icc l ((1-b)^2)) := by
  have h1 := (w_cont (b^2)).continuousOn (s := Icc l ((1-b)^2))
  have h2 := I0_cont (l := l) hb hb1
  unfold I1; fun_prop
theorem I2_cont (hb : 0 < b) (hb1 : b < 1) : ContinuousOn (I2 (b^2)) (Icc l ((1-b)^2)) := by
  have h1 := (w_cont (b^2)).continuousOn (s := Icc l ((1-b)^2))
  have h2 := I0_cont (l := l) hb hb1
  have h3 := I1_cont (l := l) hb hb1
  unfold I2; fun_prop
theorem Icc_Ioi (h : 0 < l) (E : ℝ) : Icc l E ⊆ Ioi 0 := fun x hx => lt_of_lt_of_le h hx.1
theorem Im1_cont (hb : 0 < b) (hb1 : b < 1) (hl : 0 < l) : ContinuousOn (Im1 (b^2)) (Icc l ((1-b)^2)) := by
  have h1 := (w_cont (b^2)).continuousOn (s := Icc l ((1-b)^2))
  have h2 := (Lc_cont hb hb1).mono (Icc_subset_Iic_self (a := l))
  have h3 := (Ll_cont hb hb1).mono (Icc_Ioi hl ((1-b)^2))
  unfold Im1; fun_prop
theorem Im2_cont (hb : 0 < b) (hb1 : b < 1) (hl : 0 < l) : ContinuousOn (Im2 (b^2)) (Icc l ((1-b)^2)) := by
  have h1 := (w_cont (b^2)).continuousOn (s := Icc l ((1-b)^2))
  have h2 := (Lc_cont hb hb1).mono (Icc_subset_Iic_self (a := l))
  have h3 := (Ll_cont hb hb1).mono (Icc_Ioi hl ((1-b)^2))
  have h4 : ContinuousOn (fun t => w (b^2) t / t) (Icc l ((1-b)^2)) :=
    h1.div continuousOn_id fun x hx => (lt_of_lt_of_le hl hx.1).ne'
  unfold Im2; fun_prop

/-- A function that vanishes at the end point and whose derivative is `-q ≤ 0` is non-negative. -/
theorem nonneg_of {Ψ q : ℝ → ℝ} {E : ℝ} (hl : l ≤ E) (hc : ContinuousOn Ψ (Icc l E))
    (hd : ∀ t ∈ Ioo l E, HasDerivAt Ψ (-q t) t) (hq : ∀ t ∈ Ioo l E, 0 ≤ q t) (hE : Ψ E = 0) : 0 ≤ Ψ l := by
  have h : AntitoneOn Ψ (Icc l E) := by
    refine antitoneOn_of_deriv_nonpos (convex_Icc l E) hc ?_ ?_
    · rw [interior_Icc]; exact fun t ht => (hd t ht).differentiableAt.differentiableWithinAt
    · rw [interior_Icc]; intro t ht; rw [(hd t ht).deriv]; linarith [hq t ht]
  have := h (left_mem_Icc.mpr hl) (right_mem_Icc.mpr hl) hl
  linarith
theorem pos_of {Ψ q : ℝ → ℝ} {E : ℝ} (hl : l < E) (hc : ContinuousOn Ψ (Icc l E))
    (hd : ∀ t ∈ Ioo l E, HasDerivAt Ψ (-q t) t) (hq : ∀ t ∈ Ioo l E, 0 < q t) (hE : Ψ E = 0) : 0 < Ψ l := by
  have h : StrictAntiOn Ψ (Icc l E) := by
    refine strictAntiOn_of_deriv_neg (convex_Icc l E) hc ?_
    rw [interior_Icc]; intro t ht; rw [(hd t ht).deriv]; linarith [hq t ht]
  have := h (left_mem_Icc.mpr hl.le) (right_mem_Icc.mpr hl.le) hl
  linarith

/-- `∫_t^E (u-l)² w(u)/u du` and `∫_t^E (u-l)² w(u)(1+c-u)/u du`, `∫_t^E (u-l)² w(u)/u² du`. (Specification.) -/
noncomputable def Kf (c l t : ℝ) : ℝ := I1 c t - 2*l*I0 c t + l^2*Im1 c t
/-- (Specification.) -/
noncomputable def Gf (c l t : ℝ) : ℝ := (1+c)*Kf c l t - (I2 c t - 2*l*I1 c t + l^2*I0 c t)
/-- (Specification.) -/
noncomputable def Hf (c l t : ℝ) : ℝ := I0 c t - 2*l*Im1 c t + l^2*Im2 c t

theorem Kf_deriv (hb : 0 < b) (hb1 : b < 1) (ht0 : 0 < t) (ht : t < (1-b)^2) :
    HasDerivAt (Kf (b^2) l) (-((t-l)^2*w (b^2) t/t)) t := by
  refine (((I1_deriv hb hb1 ht).sub ((I0_deriv hb hb1 ht).const_mul (2*l))).add ((Im1_deriv hb hb1 ht0 ht).const_mul (l^2))).congr_deriv ?_
  field_simp; ring
theorem Gf_deriv (hb : 0 < b) (hb1 : b < 1) (ht0 : 0 < t) (ht : t < (1-b)^2) :
    HasDerivAt (Gf (b^2) l) (-((t-l)^2*w (b^2) t*(1+b^2-t)/t)) t := by
  refine (((Kf_deriv (l := l) hb hb1 ht0 ht).const_mul (1+b^2)).sub
    (((I2_deriv hb hb1 ht).sub ((I1_deriv hb hb1 ht).const_mul (2*l))).add ((I0_deriv hb hb1 ht).const_mul (l^2)))).congr_deriv ?_
  field_simp; ring
theorem Hf_deriv (hb : 0 < b) (hb1 : b < 1) (ht0 : 0 < t) (ht : t < (1-b)^2) :
    HasDerivAt (Hf (b^2) l) (-((t-l)^2*w (b^2) t/t^2)) t := by
  refine (((I0_deriv hb hb1 ht).sub ((Im1_deriv hb hb1 ht0 ht).const_mul (2*l))).add ((Im2_deriv hb hb1 ht0 ht).const_mul (l^2))).congr_deriv ?_
  field_simp; ring
theorem f_E (hb : 0 < b) (hb1 : b < 1) (l : ℝ) : Kf (b^2) l ((1-b)^2) = 0 ∧ Gf (b^2) l ((1-b)^2) = 0 ∧ Hf (b^2) l ((1-b)^2) = 0 := by
  obtain ⟨h1, h2, h3, h4, h5⟩ := I_E hb hb1
  simp [Kf, Gf, Hf, h1, h2, h3, h4, h5]
theorem Kf_cont (hb : 0 < b) (hb1 : b < 1) {a : ℝ} (ha : 0 < a) (l : ℝ) : ContinuousOn (Kf (b^2) l) (Icc a ((1-b)^2)) := by
  have h1 := I1_cont (l := a) hb hb1
  have h0 := I0_cont (l := a) hb hb1
  have hm := Im1_cont hb hb1 ha
  unfold Kf; fun_prop
theorem Gf_cont (hb : 0 < b) (hb1 : b < 1) {a : ℝ} (ha : 0 < a) (l : ℝ) : ContinuousOn (Gf (b^2) l) (Icc a ((1-b)^2)) := by
  have h1 := I1_cont (l := a) hb hb1
  have h0 := I0_cont (l := a) hb hb1
  have h2 := I2_cont (l := a) hb hb1
  have hk := Kf_cont hb hb1 ha l
  unfold Gf; fun_prop
theorem Hf_cont (hb : 0 < b) (hb1 : b < 1) {a : ℝ} (ha : 0 < a) (l : ℝ) : ContinuousOn (Hf (b^2) l) (Icc a ((1-b)^2)) := by
  have h2 := Im2_cont hb hb1 ha
  have h0 := I0_cont (l := a) hb hb1
  have hm := Im1_cont hb hb1 ha
  unfold Hf; fun_prop

end Verif.Xlnu
