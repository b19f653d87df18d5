import Verif.Physics.Inclusive.Xll
import Verif.Physics.Kdecays.Radcorr
import Mathlib.Analysis.Calculus.LHopital
import Mathlib.Analysis.Calculus.MeanValue
/-!
# The end point of the QCD corrections to `B → X_q ℓℓ`

`tau77`, `tau99`, `tau79`, `tau710`, `tau910`, `f7` and `f9` of `flavio/physics/bdecays/bxll.py` are written with poles of
second and first order at `s = 1`, the end of the phase space.  They cancel.
-/
set_option linter.unusedVariables false
set_option linter.unusedSimpArgs false
namespace Verif.Xll
open Verif.Py Verif Verif.Running Verif.FormFactors Verif.Radcorr
open Set Filter Topology

/-! ## Expansions to second order -/

/-- `f w = a + b w + c w² + o(w²)` for `w → 0+`. (Specification.) -/
def E2 (f : ℝ → ℝ) (a b c : ℝ) : Prop := Tendsto (fun w => (f w - a - b * w) / w ^ 2) (𝓝[>] 0) (𝓝 c)

theorem E2.congr {f g : ℝ → ℝ} {a b c a' b' c' : ℝ} (h : E2 f a b c) (e : ∀ᶠ w in 𝓝[>] (0 : ℝ), f w = g w)
    (ha : a = a') (hb : b = b') (hc : c = c') : E2 g a' b' c' := by
  subst ha hb hc
  exact Tendsto.congr' (e.mono fun w hw => by simp only [hw]) h

theorem E2.const (k : ℝ) : E2 (fun _ => k) k 0 0 := by
  simp [E2]

theorem E2.var : E2 (fun w => w) 0 1 0 := by
  simp [E2]

theorem E2.add {f g : ℝ → ℝ} {a b c a' b' c' : ℝ} (hf : E2 f a b c) (hg : E2 g a' b' c') :
    E2 (fun w => f w + g w) (a + a') (b + b') (c + c') :=
  (Tendsto.add hf hg).congr fun w => by ring

theorem E2.sub {f g : ℝ → ℝ} {a b c a' b' c' : ℝ} (hf : E2 f a b c) (hg : E2 g a' b' c') :
    E2 (fun w => f w - g w) (a - a') (b - b') (c - c') :=
  (Tendsto.sub hf hg).congr fun w => by ring

theorem E2.lim {f : ℝ → ℝ} {a b c : ℝ} (hf : E2 f a b c) : Tendsto f (𝓝[>] 0) (𝓝 a) := by
  have h := (((tid.pow 2).mul hf).add (tid.const_mul b)).add_const a
  simp only [ne_eq, OfNat.ofNat_ne_zero, not_false_eq_true, zero_pow, zero_mul, mul_zero, add_zero, zero_add] at h
  refine h.congr' ?_
  filter_upwards [self_mem_nhdsWithin] with w h0
  have hw : (w : ℝ) ≠ 0 := ne_of_gt h0
  field_simp
  ring

theorem E2.mul {f g : ℝ → ℝ} {a b c a' b' c' : ℝ} (hf : E2 f a b c) (hg : E2 g a' b' c') :
    E2 (fun w => f w * g w) (a * a') (a * b' + b * a') (a * c' + b * b' + c * a') := by
  have hl : Tendsto (fun w : ℝ => a + b * w) (𝓝[>] 0) (𝓝 (a + b * 0)) := (tid.const_mul b).const_add a
  have h := ((Tendsto.mul hf hg.lim).add (hl.mul hg)).add_const (b * b')
  rw [show c * a' + (a + b * 0) * c' + b * b' = a * c' + b * b' + c * a' by ring] at h
  refine h.congr' ?_
  filter_upwards [self_mem_nhdsWithin] with w h0
  have hw : (w : ℝ) ≠ 0 := ne_of_gt h0
  field_simp
  ring

/-- The quotient by `w²` of what begins at second order. -/
theorem E2.quot {f : ℝ → ℝ} {c : ℝ} (hf : E2 f 0 0 c) : Tendsto (fun w => f w / w ^ 2) (𝓝[>] 0) (𝓝 c) :=
  Tendsto.congr (fun w => by ring_nf) hf

theorem E2.log : E2 (fun w => Real.log (1 - w)) 0 (-1) (-1 / 2) := by
  have h := rho_lim.sub_const (1 / 2)
  rw [show (0 : ℝ) - 1 / 2 = -1 / 2 by norm_num] at h
  refine h.congr' ?_
  filter_upwards [self_mem_nhdsWithin] with w h0
  have hw : (w : ℝ) ≠ 0 := ne_of_gt h0
  unfold rho
  field_simp
  ring

theorem half_lim : Tendsto (fun w : ℝ => w / 2) (𝓝[>] 0) (𝓝[>] 0) := by
  refine tendsto_nhdsWithin_iff.2 ⟨by simpa using tid.div_const 2, ?_⟩
  filter_upwards [self_mem_nhdsWithin] with w h0
  have hw : (0 : ℝ) < w := h0
  exact half_pos hw

theorem E2.logHalf : E2 (fun w => Real.log (1 - w / 2)) 0 (-1 / 2) (-1 / 8) := by
  have h := (Tendsto.comp E2.log half_lim).div_const 4
  rw [show (-1 / 2 : ℝ) / 4 = -1 / 8 by norm_num] at h
  refine h.congr' ?_
  filter_upwards [self_mem_nhdsWithin] with w h0
  have hw : (w : ℝ) ≠ 0 := ne_of_gt h0
  simp only [Function.comp]
  field_simp
  ring

/-! ## The dilogarithm -/

theorem li2_deriv {t : ℝ} (h0 : t ≠ 0) (h1 : t < 1) : HasDerivAt li2 (-Real.log (1 - t) / t) t := by
  have h := spence_deriv (x := 1 - t) (by linarith)
  rw [dslope_log (by intro h; apply h0; linarith)] at h
  have := h.comp t ((hasDerivAt_id' t).const_sub 1)
  refine (this.congr_of_eventuallyEq (Eventually.of_forall fun u => rfl)).congr_deriv ?_
  rw [sub_sub_cancel]; ring

theorem li2_lim : Tendsto li2 (𝓝[>] 0) (𝓝 0) := by
  have h := tid.mul li2_slope
  rw [zero_mul] at h
  refine h.congr' ?_
  filter_upwards [self_mem_nhdsWithin] with w h0
  have hw : (w : ℝ) ≠ 0 := ne_of_gt h0
  field_simp

theorem E2.dilog : E2 li2 0 1 (1 / 4) := by
  refine HasDerivAt.lhopital_zero_nhdsGT (f' := fun w => -Real.log (1 - w) / w - 1) (g' := fun w => 2 * w) ?_ ?_ ?_ ?_ ?_ ?_
  · filter_upwards [self_mem_nhdsWithin, ev_lt 1 one_pos] with w h0 h1
    have hw : (0 : ℝ) < w := h0
    exact (((li2_deriv hw.ne' h1).sub_const 0).sub ((hasDerivAt_id' w).const_mul 1)).congr_deriv (by ring)
  · filter_upwards with w
    exact (hasDerivAt_pow 2 w).congr_deriv (by norm_num)
  · filter_upwards [self_mem_nhdsWithin] with w h0
    have hw : (0 : ℝ) < w := h0
    positivity
  · simpa using li2_lim.sub tid
  · simpa using tid.pow 2
  · have h := (rho_lim.div_const 2).const_sub (1 / 4)
    rw [show (1 / 4 : ℝ) - 0 / 2 = 1 / 4 by norm_num] at h
    refine h.congr' ?_
    filter_upwards [self_mem_nhdsWithin] with w h0
    have hw : (w : ℝ) ≠ 0 := ne_of_gt h0
    unfold rho
    field_simp
    ring

theorem u_lim : Tendsto (fun w : ℝ => w * (2 - w)) (𝓝[>] 0) (𝓝[>] 0) := by
  refine tendsto_nhdsWithin_iff.2 ⟨by simpa using tid.mul (tid.const_sub 2), ?_⟩
  filter_upwards [self_mem_nhdsWithin, ev_lt 1 one_pos] with w h0 h1
  have hw : (0 : ℝ) < w := h0
  exact mul_pos hw (by linarith)

theorem E2.dilogU : E2 (fun w => li2 (w * (2 - w))) 0 2 0 := by
  have h := (((tid.const_sub 2).pow 2).mul (Tendsto.comp E2.dilog u_lim)).sub_const 1
  rw [show ((2 : ℝ) - 0) ^ 2 * (1 / 4) - 1 = 0 by norm_num] at h
  refine h.congr' ?_
  filter_upwards [self_mem_nhdsWithin, ev_lt 1 one_pos] with w h0 h1
  have hw : (w : ℝ) ≠ 0 := ne_of_gt h0
  have hu : (2 - w : ℝ) ≠ 0 := by linarith
  simp only [Function.comp]
  field_simp
  ring

/-- Euler's reflection formula. -/
theorem li2_reflect {x : ℝ} (h0 : 0 < x) (h1 : x < 1) :
    FormFactors.li2 x + FormFactors.li2 (1 - x) = Real.pi ^ 2 / 6 - Real.log x * Real.log (1 - x) := by
  let g : ℝ → ℝ := fun t => FormFactors.li2 t + spence t + Real.log t * Real.log (1 - t)
  have hd : ∀ t ∈ Ioo (0 : ℝ) 1, HasDerivAt g 0 t := by
    intro t ht
    have hs := spence_deriv ht.1
    rw [dslope_log ht.2.ne] at hs
    have hl := (Real.hasDerivAt_log ht.1.ne').mul (((hasDerivAt_id' t).const_sub 1).log (by linarith [ht.2]))
    refine (((li2_deriv ht.1.ne' ht.2).add hs).add hl).congr_deriv ?_
    have := ht.1.ne'
    have h3 : (1 - t : ℝ) ≠ 0 := by linarith [ht.2]
    field_simp
    ring
  have hc : ∀ t ∈ Ioo (0 : ℝ) 1, g t = g x := by
    intro t ht
    exact (convex_Ioo (0 : ℝ) 1).is_const_of_fderivWithin_eq_zero (𝕜 := ℝ)
      (fun y hy => (hd y hy).differentiableAt.differentiableWithinAt)
      (fun y hy => by
        rw [(hd y hy).hasFDerivAt.hasFDerivWithinAt.fderivWithin (isOpen_Ioo.uniqueDiffWithinAt hy)]
        ext; simp) ht ⟨h0, h1⟩
  have hl : Tendsto g (𝓝[>] 0) (𝓝 (Real.pi ^ 2 / 6)) := by
    have ha : Tendsto (fun t => t * Real.log t * (t * rho t - 1 - t / 2)) (𝓝[>] 0) (𝓝 0) := by
      have := ulog.mul (((tid.mul rho_lim).sub_const 1).sub (tid.div_const 2))
      simpa using this
    have h := (li2_lim.add spence_lim).add ha
    rw [zero_add, add_zero] at h
    refine h.congr' ?_
    filter_upwards [self_mem_nhdsWithin] with w hw
    have hw : (w : ℝ) ≠ 0 := ne_of_gt hw
    simp only [g, rho]
    field_simp
    ring
  have hk : Tendsto g (𝓝[>] 0) (𝓝 (g x)) := by
    refine tendsto_const_nhds.congr' ?_
    filter_upwards [self_mem_nhdsWithin, ev_lt 1 one_pos] with w h2 h3
    exact (hc w ⟨h2, h3⟩).symm
  have := tendsto_nhds_unique hk hl
  simp only [g] at this
  rw [show FormFactors.li2 (1 - x) = spence x by rw [FormFactors.li2, sub_sub_cancel]]
  linarith

/-! ## From the series to the end of the phase space -/

/-- `s → 1-` through `u = 1 - s`. -/
theorem end_of_u {f : ℝ → ℝ} {l : Filter ℝ} (h : Tendsto (fun u => f (1 - u)) (𝓝[>] 0) l) : Tendsto f (𝓝[<] 1) l := by
  have hm : Tendsto (fun s : ℝ => 1 - s) (𝓝[<] 1) (𝓝[>] 0) := by
    refine tendsto_nhdsWithin_iff.2 ⟨?_, ?_⟩
    · have : Tendsto (fun s : ℝ => 1 - s) (𝓝 1) (𝓝 (1 - 1)) := (continuous_const.sub continuous_id).tendsto 1
      rw [sub_self] at this
      exact this.mono_left nhdsWithin_le_nhds
    · filter_upwards [self_mem_nhdsWithin] with s hs
      exact sub_pos.2 (show s < 1 from hs)
  exact (h.comp hm).congr fun s => by simp only [Function.comp, sub_sub_cancel]

/-- `s → 1-` through `w = 1 - √s`. -/
theorem end_of_w {f : ℝ → ℝ} {l : Filter ℝ} (h : Tendsto (fun w => f ((1 - w) ^ 2)) (𝓝[>] 0) l) : Tendsto f (𝓝[<] 1) l := by
  have hm : Tendsto (fun s : ℝ => 1 - Real.sqrt s) (𝓝[<] 1) (𝓝[>] 0) := by
    refine tendsto_nhdsWithin_iff.2 ⟨?_, ?_⟩
    · have : Tendsto (fun s : ℝ => 1 - Real.sqrt s) (𝓝 1) (𝓝 (1 - Real.sqrt 1)) :=
        (continuous_const.sub Real.continuous_sqrt).tendsto 1
      rw [Real.sqrt_one, sub_self] at this
      exact this.mono_left nhdsWithin_le_nhds
    · filter_upwards [self_mem_nhdsWithin] with s hs
      have : Real.sqrt s < 1 := by rw [Real.sqrt_lt' one_pos]; simpa using hs
      exact sub_pos.2 this
  refine (h.comp hm).congr' ?_
  have hpos : ∀ᶠ s in 𝓝[<] (1 : ℝ), 0 < s := mem_nhdsWithin_of_mem_nhds (lt_mem_nhds one_pos)
  filter_upwards [hpos] with s hs
  simp only [Function.comp, sub_sub_cancel, Real.sq_sqrt hs.le]

theorem usq_log : Tendsto (fun u : ℝ => u ^ 2 * Real.log u) (𝓝[>] 0) (𝓝 0) := by
  have := tid.mul ulog
  rw [zero_mul] at this
  exact this.congr fun u => by ring

/-- The powers of `1 - u`. -/
theorem E2.s : E2 (fun u => 1 - u) 1 (-1) 0 := ((E2.const 1).sub E2.var).congr (Eventually.of_forall fun _ => rfl) (by norm_num) (by norm_num) (by norm_num)

/-- **C169 (tau77).** The correction to the square of the dipole amplitude vanishes at the end point: its simple and double poles
and its constant cancel. -/
theorem C169_tau77 : Tendsto tau77 (𝓝[<] 1) (𝓝 0) := by
  refine end_of_u ?_
  have hn : E2 (fun u => 6 * (1 - u) * (2 - 2 * (1 - u) - (1 - u) * (1 - u)) * Real.log (1 - u) + (11 - 7 * (1 - u) - 10 * ((1 - u) * (1 - u))) * u) 0 0 0 := by
    have h := ((((E2.const 6).mul E2.s).mul (((E2.const 2).sub ((E2.const 2).mul E2.s)).sub (E2.s.mul E2.s))).mul E2.log).add
      ((((E2.const 11).sub ((E2.const 7).mul E2.s)).sub ((E2.const 10).mul (E2.s.mul E2.s))).mul E2.var)
    exact h.congr (Eventually.of_forall fun _ => rfl) (by norm_num) (by norm_num) (by norm_num)
  have hp : Tendsto (fun u : ℝ => -2 / (9 * (3 - u))) (𝓝[>] 0) (𝓝 (-2 / (9 * (3 - 0)))) :=
    Tendsto.div tendsto_const_nhds ((tid.const_sub 3).const_mul 9) (by norm_num)
  have h := hp.mul ((usq_log.const_mul 2).add hn.quot)
  rw [show (-2 : ℝ) / (9 * (3 - 0)) * (2 * 0 + 0) = 0 by norm_num] at h
  refine h.congr' ?_
  filter_upwards [self_mem_nhdsWithin, ev_lt 1 one_pos] with u h0 h1
  have hu : (u : ℝ) ≠ 0 := ne_of_gt h0
  have h3 : (3 - u : ℝ) ≠ 0 := by linarith
  have h4 : (2 + (1 - u) : ℝ) ≠ 0 := by linarith
  unfold tau77
  rw [sub_sub_cancel, show (2 + (1 - u) : ℝ) = 3 - u by ring]
  field_simp
  ring

/-- **C169 (tau99).** So does that to the square of the semileptonic amplitude. -/
theorem C169_tau99 : Tendsto tau99 (𝓝[<] 1) (𝓝 0) := by
  refine end_of_u ?_
  have hn : E2 (fun u => 3 * (1 - u) * (1 + (1 - u)) * (1 - 2 * (1 - u)) * Real.log (1 - u) + (3 * (1 - 3 * ((1 - u) * (1 - u)))) * u) 0 0 0 := by
    have h := (((((E2.const 3).mul E2.s).mul ((E2.const 1).add E2.s)).mul ((E2.const 1).sub ((E2.const 2).mul E2.s))).mul E2.log).add
      (((E2.const 3).mul ((E2.const 1).sub ((E2.const 3).mul (E2.s.mul E2.s)))).mul E2.var)
    exact h.congr (Eventually.of_forall fun _ => rfl) (by norm_num) (by norm_num) (by norm_num)
  have hp : Tendsto (fun u : ℝ => -4 / (9 * (3 - 2 * u))) (𝓝[>] 0) (𝓝 (-4 / (9 * (3 - 2 * 0)))) :=
    Tendsto.div tendsto_const_nhds (((tid.const_mul 2).const_sub 3).const_mul 9) (by norm_num)
  have h := hp.mul ((usq_log.const_mul 2).add hn.quot)
  rw [show (-4 : ℝ) / (9 * (3 - 2 * 0)) * (2 * 0 + 0) = 0 by norm_num] at h
  refine h.congr' ?_
  filter_upwards [self_mem_nhdsWithin, ev_lt 1 one_pos] with u h0 h1
  have hu : (u : ℝ) ≠ 0 := ne_of_gt h0
  have h3 : (3 - 2 * u : ℝ) ≠ 0 := by linarith
  unfold tau99
  rw [sub_sub_cancel, show (1 + 2 * (1 - u) : ℝ) = 3 - 2 * u by ring]
  field_simp
  ring

/-- **C169 (tau79).** So does that to their interference. -/
theorem C169_tau79 : Tendsto tau79 (𝓝[<] 1) (𝓝 0) := by
  refine end_of_u ?_
  have hn : E2 (fun u => (-4 / 9) * (1 - u) * (3 - 2 * (1 - u)) * Real.log (1 - u) - ((2 / 9) * (5 - 3 * (1 - u))) * u) 0 0 0 := by
    have h := ((((E2.const (-4 / 9)).mul E2.s).mul ((E2.const 3).sub ((E2.const 2).mul E2.s))).mul E2.log).sub
      (((E2.const (2 / 9)).mul ((E2.const 5).sub ((E2.const 3).mul E2.s))).mul E2.var)
    exact h.congr (Eventually.of_forall fun _ => rfl) (by norm_num) (by norm_num) (by norm_num)
  have hp : Tendsto (fun u : ℝ => -4 / (9 * (1 - u))) (𝓝[>] 0) (𝓝 (-4 / (9 * (1 - 0)))) :=
    Tendsto.div tendsto_const_nhds ((tid.const_sub 1).const_mul 9) (by norm_num)
  have h := (hp.mul usq_log).add hn.quot
  rw [show (-4 : ℝ) / (9 * (1 - 0)) * 0 + 0 = 0 by norm_num] at h
  refine h.congr' ?_
  filter_upwards [self_mem_nhdsWithin, ev_lt 1 one_pos] with u h0 h1
  have hu : (u : ℝ) ≠ 0 := ne_of_gt h0
  have h3 : (1 - u : ℝ) ≠ 0 := by linarith
  unfold tau79
  rw [sub_sub_cancel]
  field_simp
  ring

/-! ### `f7` and `f9` -/

/-- The common value at the end point. (Specification.) -/
noncomputable def kappaEnd : ℝ := 6 * Real.log 2 + 2 * Real.pi ^ 2 / 3 - 11

/-- The square of `1 - w`. -/
theorem E2.ss : E2 (fun w => (1 - w) * (1 - w)) 1 (-2) 1 := (E2.s.mul E2.s).congr (Eventually.of_forall fun _ => rfl) (by norm_num) (by norm_num) (by norm_num)

theorem logs_w {w : ℝ} (h0 : 0 < w) (h1 : w < 1) :
    Real.log ((1 - w) ^ 2) = 2 * Real.log (1 - w) ∧
    Real.log (1 - (1 - w) ^ 2) = Real.log w + (Real.log 2 + Real.log (1 - w / 2)) ∧
    Real.sqrt ((1 - w) ^ 2) = 1 - w ∧
    FormFactors.li2 (1 - w) = Real.pi ^ 2 / 6 - Real.log w * Real.log (1 - w) - FormFactors.li2 w ∧
    FormFactors.li2 ((1 - w) ^ 2) = Real.pi ^ 2 / 6 -
      (Real.log w + (Real.log 2 + Real.log (1 - w / 2))) * (2 * Real.log (1 - w)) - FormFactors.li2 (w * (2 - w)) := by
  have hw : (0 : ℝ) < 1 - w := by linarith
  have hw2 : (0 : ℝ) < 1 - w / 2 := by linarith
  have e : (1 - (1 - w) ^ 2 : ℝ) = w * (2 * (1 - w / 2)) := by ring
  have l1 : Real.log ((1 - w) ^ 2) = 2 * Real.log (1 - w) := by rw [Real.log_pow]; norm_num
  have l2 : Real.log (1 - (1 - w) ^ 2) = Real.log w + (Real.log 2 + Real.log (1 - w / 2)) := by
    rw [e, Real.log_mul h0.ne' (by positivity), Real.log_mul two_ne_zero hw2.ne']
  refine ⟨l1, l2, Real.sqrt_sq hw.le, ?_, ?_⟩
  · have := li2_reflect h0 h1
    linarith
  · have h := li2_reflect (x := w * (2 - w)) (by apply mul_pos h0; linarith) (by nlinarith)
    rw [show (1 - w * (2 - w) : ℝ) = (1 - w) ^ 2 by ring, show w * (2 - w) = 1 - (1 - w) ^ 2 by ring, l1, l2] at h
    rw [show w * (2 - w) = 1 - (1 - w) ^ 2 by ring]
    linarith

theorem E2.kap : E2 (fun w => Real.log 2 + Real.log (1 - w / 2)) (Real.log 2) (-1 / 2) (-1 / 8) :=
  ((E2.const (Real.log 2)).add E2.logHalf).congr (Eventually.of_forall fun _ => rfl) (by ring) (by ring) (by ring)

theorem E2.li : E2 (fun w => Real.pi ^ 2 / 6 - FormFactors.li2 w) (Real.pi ^ 2 / 6) (-1) (-1 / 4) :=
  ((E2.const (Real.pi ^ 2 / 6)).sub E2.dilog).congr (Eventually.of_forall fun _ => rfl) (by ring) (by ring) (by ring)

theorem E2.liu : E2 (fun w => Real.pi ^ 2 / 6 - (Real.log 2 + Real.log (1 - w / 2)) * (2 * Real.log (1 - w)) - FormFactors.li2 (w * (2 - w)))
    (Real.pi ^ 2 / 6) (2 * Real.log 2 - 2) (Real.log 2 - 1) :=
  (((E2.const (Real.pi ^ 2 / 6)).sub (E2.kap.mul ((E2.const 2).mul E2.log))).sub E2.dilogU).congr (Eventually.of_forall fun _ => rfl)
    (by ring) (by ring) (by ring)

theorem E2.u : E2 (fun w => 1 - (1 - w) * (1 - w)) 0 2 (-1) := ((E2.const 1).sub E2.ss).congr (Eventually.of_forall fun _ => rfl) (by norm_num) (by norm_num) (by norm_num)

/-- **C169 (f7).** `f7` has no pole at the end point. -/
theorem C169_f7 : Tendsto f7 (𝓝[<] 1) (𝓝 kappaEnd) := by
  refine end_of_w ?_
  have s := E2.ss
  have c := E2.const
  have h := ((((((((c 24).mul (((c 1).add ((c 13).mul s)).sub ((c 4).mul (s.mul s)))).mul E2.li).add
    (((c 12).mul (((c 1).sub ((c 17).mul s)).add ((c 6).mul (s.mul s)))).mul E2.liu)).add
    ((((c 6).mul s).mul ((c 6).sub ((c 7).mul s))).mul ((c 2).mul E2.log))).add
    ((((c 24).mul (E2.u.mul E2.u)).mul ((c 2).mul E2.log)).mul E2.kap)).sub
    (((c 12).mul (((c (-13)).add ((c 16).mul s)).sub ((c 3).mul (s.mul s)))).mul E2.kap)).add
    (((c (39 - 2 * Real.pi ^ 2)).add ((c (252 - 26 * Real.pi ^ 2)).mul s)).add ((c (21 + 8 * Real.pi ^ 2)).mul (s.mul s)))).sub
    (((c 180).mul E2.s).add (((c 132).mul s).mul E2.s))
  have hn := h.congr (Eventually.of_forall fun _ => rfl) (a' := 0) (b' := 0) (c' := 24 * kappaEnd) (by ring) (by ring) (by unfold kappaEnd; ring)
  have hq : Tendsto (fun w : ℝ => 6 * (2 - w) ^ 2) (𝓝[>] 0) (𝓝 (6 * (2 - 0) ^ 2)) := ((tid.const_sub 2).pow 2).const_mul 6
  have h := hn.quot.div hq (by norm_num)
  rw [show 24 * kappaEnd / (6 * (2 - 0) ^ 2) = kappaEnd by ring] at h
  refine h.congr' ?_
  filter_upwards [self_mem_nhdsWithin, ev_lt 1 one_pos] with w h0 h1
  have hw : (w : ℝ) ≠ 0 := ne_of_gt h0
  have h2 : (2 - w : ℝ) ≠ 0 := by linarith
  obtain ⟨l1, l2, l3, l4, l5⟩ := logs_w h0 h1
  unfold f7
  rw [l3, l1, l2, l4, l5, Pi.div_apply, show (((1 - w) ^ 2 - 1) ^ 2 : ℝ) = w ^ 2 * (2 - w) ^ 2 by ring]
  field_simp
  ring

/-- **C169 (f9).** Nor does `f9`, and its value there is the same. -/
theorem C169_f9 : Tendsto f9 (𝓝[<] 1) (𝓝 kappaEnd) := by
  refine end_of_w ?_
  have s := E2.ss
  have c := E2.const
  have h := ((((((((c 48).mul (s.mul ((c (-5)).add ((c 2).mul s)))).mul E2.li).add
    (((c 24).mul (((c (-1)).add ((c 7).mul s)).sub ((c 3).mul (s.mul s)))).mul E2.liu)).add
    ((((c 6).mul s).mul ((c (-6)).add ((c 7).mul s))).mul ((c 2).mul E2.log))).sub
    ((((c 24).mul (E2.u.mul E2.u)).mul ((c 2).mul E2.log)).mul E2.kap)).sub
    (((c 24).mul (((c 5).sub ((c 7).mul s)).add ((c 2).mul (s.mul s)))).mul E2.kap)).add
    (((c (-21)).add ((c (-156 + 20 * Real.pi ^ 2)).mul s)).add ((c (9 - 8 * Real.pi ^ 2)).mul (s.mul s)))).add
    (((c 120).mul E2.s).add (((c 48).mul s).mul E2.s))
  have hn := h.congr (Eventually.of_forall fun _ => rfl) (a' := 0) (b' := 0) (c' := -24 * kappaEnd) (by ring) (by ring) (by unfold kappaEnd; ring)
  have hq : Tendsto (fun w : ℝ => -6 * (2 - w) ^ 2) (𝓝[>] 0) (𝓝 (-6 * (2 - 0) ^ 2)) := ((tid.const_sub 2).pow 2).const_mul (-6)
  have h := hn.quot.div hq (by norm_num)
  rw [show -24 * kappaEnd / (-6 * (2 - 0) ^ 2) = kappaEnd by ring] at h
  refine h.congr' ?_
  filter_upwards [self_mem_nhdsWithin, ev_lt 1 one_pos] with w h0 h1
  have hw : (w : ℝ) ≠ 0 := ne_of_gt h0
  have h2 : (2 - w : ℝ) ≠ 0 := by linarith
  obtain ⟨l1, l2, l3, l4, l5⟩ := logs_w h0 h1
  unfold f9
  rw [l3, l1, l2, l4, l5, Pi.div_apply, show (((1 - w) ^ 2 - 1) ^ 2 : ℝ) = w ^ 2 * (2 - w) ^ 2 by ring]
  field_simp
  ring

/-- **C169 (tau910).** The correction to the forward-backward asymmetry from two semileptonic amplitudes is regular at the end point. -/
theorem C169_tau910 : Tendsto tau910 (𝓝[<] 1) (𝓝 (kappaEnd / 3)) := by
  have ht : Tendsto (fun s => -5/2 + 1/(3 * (1-s)) - 1/3 * (s * (6-7*s) * Real.log s)/((1-s)^2) - 2/9 * ((3-5 * s + 2 * s^2) * Real.log (1-s))/s) (𝓝[<] 1) (𝓝 0) := by
    refine end_of_u ?_
    have hn : E2 (fun u => 1 / 3 * u - 1 / 3 * ((1 - u) * (6 - 7 * (1 - u))) * Real.log (1 - u)) 0 0 (5 / 2) := by
      have h := ((E2.const (1 / 3)).mul E2.var).sub (((E2.const (1 / 3)).mul (E2.s.mul ((E2.const 6).sub ((E2.const 7).mul E2.s)))).mul E2.log)
      exact h.congr (Eventually.of_forall fun _ => rfl) (by norm_num) (by norm_num) (by norm_num)
    have hr : Tendsto (fun u : ℝ => -2 / 9 * (1 + 2 * u) / (1 - u)) (𝓝[>] 0) (𝓝 (-2 / 9 * (1 + 2 * 0) / (1 - 0))) :=
      (((tid.const_mul 2).const_add 1).const_mul _).div (tid.const_sub 1) (by norm_num)
    have h := (hn.quot.const_add (-5 / 2)).add (hr.mul ulog)
    rw [mul_zero, add_zero, show (-5 / 2 + 5 / 2 : ℝ) = 0 by norm_num] at h
    refine h.congr' ?_
    filter_upwards [self_mem_nhdsWithin, ev_lt 1 one_pos] with u h0 h1
    have hu : (u : ℝ) ≠ 0 := ne_of_gt h0
    have h3 : (1 - u : ℝ) ≠ 0 := by linarith
    rw [sub_sub_cancel]
    field_simp
    ring
  have h := ht.add (C169_f9.div_const 3)
  rw [zero_add] at h
  exact h

/-- What `tau710` gives where it does not divide by zero. (Specification.) -/
noncomputable def tau710Val (s : ℝ) : ℝ :=
  -5/2 + 1 / (3 * (1-3*s)) - 1/3 * (s * (6-7 * s) * Real.log s)/((1-s)^2) - 1/9 * ((3-7 * s + 4 * s^2) * Real.log (1-s))/s + (f7 s)/3

theorem tau710_ok {s : ℝ} (h : s ≠ 1 / 3) : tau710 s = .ok (tau710Val s) := by
  have h3 : (3 * (1 - 3 * s) : ℝ) ≠ 0 := by
    intro h2; apply h; linarith
  unfold tau710
  rw [show pyDiv (1:ℝ) (3 * (1 - 3 * s)) = .ok (1 / (3 * (1 - 3 * s))) from if_neg h3]
  rfl

theorem tau710_lim : Tendsto (fun s => tau710Val s - 1 / (3 * (1 - 3 * s)) + 1 / (3 * (1 - s))) (𝓝[<] 1) (𝓝 (kappaEnd / 3)) := by
  have ht : Tendsto (fun s => -5/2 + 1/(3 * (1-s)) - 1/3 * (s * (6-7*s) * Real.log s)/((1-s)^2) - 1/9 * ((3-7 * s + 4 * s^2) * Real.log (1-s))/s) (𝓝[<] 1) (𝓝 0) := by
    refine end_of_u ?_
    have hn : E2 (fun u => 1 / 3 * u - 1 / 3 * ((1 - u) * (6 - 7 * (1 - u))) * Real.log (1 - u)) 0 0 (5 / 2) := by
      have h := ((E2.const (1 / 3)).mul E2.var).sub (((E2.const (1 / 3)).mul (E2.s.mul ((E2.const 6).sub ((E2.const 7).mul E2.s)))).mul E2.log)
      exact h.congr (Eventually.of_forall fun _ => rfl) (by norm_num) (by norm_num) (by norm_num)
    have hr : Tendsto (fun u : ℝ => -1 / 9 * (-1 + 4 * u) / (1 - u)) (𝓝[>] 0) (𝓝 (-1 / 9 * (-1 + 4 * 0) / (1 - 0))) :=
      (((tid.const_mul 4).const_add (-1)).const_mul _).div (tid.const_sub 1) (by norm_num)
    have h := (hn.quot.const_add (-5 / 2)).add (hr.mul ulog)
    rw [mul_zero, add_zero, show (-5 / 2 + 5 / 2 : ℝ) = 0 by norm_num] at h
    refine h.congr' ?_
    filter_upwards [self_mem_nhdsWithin, ev_lt 1 one_pos] with u h0 h1
    have hu : (u : ℝ) ≠ 0 := ne_of_gt h0
    have h3 : (1 - u : ℝ) ≠ 0 := by linarith
    rw [sub_sub_cancel]
    field_simp
    ring
  have h := ht.add (C169_f7.div_const 3)
  rw [zero_add] at h
  refine h.congr fun s => ?_
  unfold tau710Val
  ring

/-- **C169 (tau710, partial).** The correction to the forward-backward asymmetry from a dipole and a semileptonic amplitude would be
regular, with the limit of `tau910`, if its second term, which is `1/(3 (1 - 3 s))`, were `1/(3 (1 - s))`. -/
theorem C169_tau710_partial : ∃ v : ℝ → ℝ, (∀ s, s ≠ 1 / 3 → tau710 s = .ok (v s)) ∧
    Tendsto (fun s => v s - 1 / (3 * (1 - 3 * s)) + 1 / (3 * (1 - s))) (𝓝[<] 1) (𝓝 (kappaEnd / 3)) :=
  ⟨tau710Val, fun s h => tau710_ok h, tau710_lim⟩

/-- **C169 (witness).** As it is written, `tau710` is unbounded below at the end point. -/
theorem C169_tau710_witness : ∃ v : ℝ → ℝ, (∀ s, s ≠ 1 / 3 → tau710 s = .ok (v s)) ∧ Tendsto v (𝓝[<] 1) atBot := by
  refine ⟨tau710Val, fun s h => tau710_ok h, ?_⟩
  have ha : Tendsto (fun s : ℝ => 1 / (3 * (1 - 3 * s))) (𝓝[<] 1) (𝓝 (1 / (3 * (1 - 3 * 1)))) := by
    have : ContinuousAt (fun s : ℝ => 1 / (3 * (1 - 3 * s))) 1 := by
      refine ContinuousAt.div continuousAt_const (by fun_prop) (by norm_num)
    exact this.tendsto.mono_left nhdsWithin_le_nhds
  have hb : Tendsto (fun s : ℝ => -(1 / 3) * (1 - s)⁻¹) (𝓝[<] 1) atBot := by
    refine end_of_u ?_
    simp only [sub_sub_cancel]
    exact tendsto_inv_nhdsGT_zero.const_mul_atTop_of_neg (by norm_num)
  refine ((tau710_lim.add ha).add_atBot hb).congr' ?_
  filter_upwards [self_mem_nhdsWithin] with s hs
  have : (1 - s : ℝ) ≠ 0 := by
    have : s < 1 := hs
    linarith
  field_simp
  ring

/-! ### Instances -/

/-- The limit is neither zero nor an artefact: it is negative. -/
example : kappaEnd < 0 := by
  unfold kappaEnd
  have := Real.log_two_lt_d9
  have := Real.pi_lt_d2
  nlinarith [Real.pi_pos]

example : ∃ v, tau710 (1 / 2) = .ok v := ⟨_, tau710_ok (by norm_num)⟩

end Verif.Xll
