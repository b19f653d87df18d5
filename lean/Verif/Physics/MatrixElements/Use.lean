import Verif.Physics.MatrixElements.Theorems
/-!
# C134: the four-quark contributions built from the loop functions
-/
set_option linter.unusedVariables false
set_option linter.unusedSimpArgs false
namespace Verif.MatrixElements
open Verif.Py Verif Verif.Running Verif.FormFactors Complex Filter Topology

/-- `Y` can be evaluated for every `q² ≠ 0`, for massive charm and bottom; at `q² = 0` it raises `ValueError` (the light-quark loop). -/
theorem C134_domain (q2 mb mc mu : ℝ) (w : Wc) (hb : mb ≠ 0) (hc : mc ≠ 0) :
    (q2 ≠ 0 → ∃ x, Y q2 w mb mc mu = .ok x) ∧ Y 0 w mb mc mu = .error .valueError ∧ Yu 0 w mc mu = .error .valueError := by
  refine ⟨fun hq => ?_, ?_, ?_⟩
  · obtain ⟨x, hx⟩ := h_ok q2 mc mu (Or.inl hq)
    obtain ⟨y, hy⟩ := h_ok q2 mb mu (Or.inl hq)
    obtain ⟨z, hz⟩ := h_ok q2 0 mu (Or.inl hq)
    simp only [Y, hx, hy, hz, Bind.bind, Except.bind, pure, Except.pure]
    exact ⟨_, rfl⟩
  · obtain ⟨x, hx⟩ := h_ok 0 mc mu (Or.inr hc)
    obtain ⟨y, hy⟩ := h_ok 0 mb mu (Or.inr hb)
    have hz : h 0 0 mu = .error .valueError := (C133_domain 0 0 mu).mpr ⟨rfl, rfl⟩
    simp only [Y, hx, hy, hz, Bind.bind, Except.bind, pure, Except.pure]
  · obtain ⟨x, hx⟩ := h_ok 0 mc mu (Or.inr hc)
    have hz : h 0 0 mu = .error .valueError := (C133_domain 0 0 mu).mpr ⟨rfl, rfl⟩
    simp only [Yu, hx, hz, Bind.bind, Except.bind, pure, Except.pure]

/-- Scale dependence: changing the renormalisation scale changes `Y` by `8/9 log(μ/μ')` times the one-loop mixing of the four-quark
operators into `O9`, and does not change `Yu`, at every `q²` and for all masses and coefficients. -/
theorem C134_scale (q2 mb mc mu mu' : ℝ) (w : Wc) (hq : q2 ≠ 0) (hmu : 0 < mu) (hmu' : 0 < mu') :
    (∃ x y, Y q2 w mb mc mu = .ok x ∧ Y q2 w mb mc mu' = .ok y ∧
      x - y = ((8/9*Real.log (mu/mu') : ℝ) : ℂ)*(4/3*w.c1 + w.c2 + 2*w.c3 - 4/3*w.c4 + 14*w.c5 - 64/3*w.c6)) ∧
    (∃ x, Yu q2 w mc mu = .ok x ∧ Yu q2 w mc mu' = .ok x) := by
  obtain ⟨a, a', ha, ha', ea⟩ := C133_scale q2 mc mu mu' hmu hmu' (Or.inl hq)
  obtain ⟨b, b', hb, hb', eb⟩ := C133_scale q2 mb mu mu' hmu hmu' (Or.inl hq)
  obtain ⟨u, u', hu, hu', eu⟩ := C133_scale q2 0 mu mu' hmu hmu' (Or.inl hq)
  constructor
  · refine ⟨_, _, by simp only [Y, ha, hb, hu, Bind.bind, Except.bind, pure, Except.pure]; rfl,
      by simp only [Y, ha', hb', hu', Bind.bind, Except.bind, pure, Except.pure]; rfl, ?_⟩
    have e1 : a = a' + ((8/9*Real.log (mu/mu') : ℝ) : ℂ) := by linear_combination ea
    have e2 : b = b' + ((8/9*Real.log (mu/mu') : ℝ) : ℂ) := by linear_combination eb
    have e3 : u = u' + ((8/9*Real.log (mu/mu') : ℝ) : ℂ) := by linear_combination eu
    rw [e1, e2, e3]
    ring
  · refine ⟨_, by simp only [Yu, ha, hu, Bind.bind, Except.bind, pure, Except.pure]; rfl, ?_⟩
    simp only [Yu, ha', hu', Bind.bind, Except.bind, pure, Except.pure]
    have : a - u = a' - u' := by linear_combination ea - eu
    rw [this]

/-- The value of `Y`, operator by operator. -/
theorem C134_value (q2 mb mc mu : ℝ) (w : Wc) (hc hb hu : ℂ) (e1 : h q2 mc mu = .ok hc) (e2 : h q2 mb mu = .ok hb) (e3 : h q2 0 mu = .ok hu) :
    Y q2 w mb mc mu = .ok (w.c1*(4/3*hc) + w.c2*hc + w.c3*(6*hc - 7/2*hb - 1/2*hu + 4/3) + w.c4*(-2/3*hb - 2/3*hu)
      + w.c5*(60*hc - 38*hb - 8*hu + 64/9) + w.c6*(-32/3*hb - 32/3*hu + 64/27)) ∧
    Yu q2 w mc mu = .ok ((4/3*w.c1 + w.c2)*(hc - hu)) := by
  constructor
  · simp only [Y, e1, e2, e3, Bind.bind, Except.bind, pure, Except.pure]
    refine congrArg Except.ok ?_
    ring
  · simp only [Yu, e1, e3, Bind.bind, Except.bind, pure, Except.pure]

/-- GIM: the doubly Cabibbo-suppressed contribution vanishes when the charm mass goes to zero. -/
theorem C134_gim (q2 mu : ℝ) (w : Wc) (hq : 0 < q2) (hmu : 0 < mu) :
    ∃ g : ℝ → ℂ, (∀ mc, 0 < mc → Yu q2 w mc mu = .ok (g mc)) ∧ Tendsto g (𝓝[>] 0) (𝓝 0) := by
  refine ⟨fun mc => (4/3*w.c1 + w.c2)*(hgen q2 mc mu - h0 q2 mu), fun mc hmc => ?_, ?_⟩
  · simp only [Yu, h, if_neg hmc.ne', if_neg hq.ne', if_true, Bind.bind, Except.bind, pure, Except.pure]
  · have := ((C133_massless q2 mu hq hmu).sub_const (h0 q2 mu)).const_mul (4/3*w.c1 + w.c2)
    simpa using this

/-- `F_87` has no jump at `q² = 0`: its special branch is the limit of the general expression. -/
theorem C134_F87_continuous (lmu : ℂ) : ContinuousWithinAt (F87 lmu) (Set.Ici 0) 0 := by
  have hg : ContinuousAt (fun sh : ℝ => (-32/9*lmu + 8/27*Real.pi^2 - 44/9 - 8/9*I*Real.pi : ℂ) + (4/3*Real.pi^2 - 40/3)*sh + (32/9*Real.pi^2 - 316/9)*sh^2
    + (200/27*Real.pi^2 - 658/9)*sh^3 - 8/9*((sh*Real.log sh : ℝ) : ℂ)*(1 + sh + sh^2)) 0 := by
    have : Continuous (fun z : ℝ => ((z*Real.log z : ℝ) : ℂ)) := Complex.continuous_ofReal.comp Real.continuous_mul_log
    fun_prop
  refine (hg.continuousWithinAt (s := Set.Ici 0)).congr (fun sh hs => ?_) ?_
  · simp only [F87]
    split_ifs with h
    · subst h; push_cast; ring_nf
    · rw [clog sh hs]; push_cast; ring
  · simp only [F87, if_true]; push_cast; ring_nf

theorem arctan_le (u : ℝ) (hu : 0 ≤ u) : Real.arctan u ≤ u := by
  have d1 : ∀ x : ℝ, HasDerivAt (fun x => x - Real.arctan x) (x^2/(1+x^2)) x := by
    intro x
    refine ((hasDerivAt_id x).sub (Real.hasDerivAt_arctan x)).congr_deriv ?_
    have : (1:ℝ) + x^2 ≠ 0 := by positivity
    field_simp
    ring
  have m1 := monotone_of_deriv_nonneg (fun x => (d1 x).differentiableAt) (fun x => by rw [(d1 x).deriv]; positivity)
  have a := m1 hu
  norm_num at a
  exact a

theorem li2_le (x : ℝ) (h0 : 0 < x) (h1 : x ≤ 1/2) : |li2 x| ≤ 2*x := by
  have h := intervalIntegral.norm_integral_le_of_norm_le_const (a := 1) (b := 1 - x) (C := 2) (f := fun t => Real.log t/(1 - t)) ?_
  · rw [Real.norm_eq_abs] at h
    rw [li2, spence]
    have e : |1 - x - 1| = x := by rw [show 1 - x - 1 = -x by ring, abs_neg, abs_of_pos h0]
    rw [e] at h
    exact h
  · intro t ht
    rw [Set.uIoc_of_ge (by linarith)] at ht
    obtain ⟨ht1, ht2⟩ := ht
    have htp : 1/2 < t := by linarith
    rcases eq_or_lt_of_le ht2 with rfl | hlt
    · simp
    · rw [norm_div, Real.norm_eq_abs, Real.norm_eq_abs, abs_of_pos (sub_pos.mpr hlt), div_le_iff₀ (sub_pos.mpr hlt),
        abs_of_neg (Real.log_neg (by linarith) hlt)]
      have := Real.one_sub_inv_le_log_of_pos (show 0 < t by linarith)
      have h3 : t⁻¹ - 1 ≤ 2*(1 - t) := by
        have : t⁻¹ - 1 = (1 - t)/t := by field_simp
        rw [this, div_le_iff₀ (by linarith)]
        nlinarith
      linarith

theorem root_acot (r : ℝ) (hr : 0 < r) : |r*acot r - 1| ≤ 1/r^2 := by
  have e : acot r = Real.arctan r⁻¹ := by rw [acot, Real.arctan_inv_of_pos hr]
  have hu : 0 < r⁻¹ := inv_pos.mpr hr
  obtain ⟨b1, b2⟩ := arctan_bounds r⁻¹ hu.le
  rw [e]
  set u := r⁻¹ with hudef
  have hru : r = u⁻¹ := by rw [hudef, inv_inv]
  have h1 : 1/r^2 = u^2 := by rw [hru]; field_simp
  rw [h1, hru]
  have x1 : Real.arctan u ≤ u := arctan_le u hu.le
  have h2 : u⁻¹*Real.arctan u ≤ 1 := by
    rw [inv_mul_le_iff₀ hu]; linarith
  have h3 : 1 - u^2/3 ≤ u⁻¹*Real.arctan u := by
    rw [le_inv_mul_iff₀ hu]; nlinarith
  rw [abs_le]
  constructor <;> nlinarith [sq_nonneg u]

/-- The special value of `SeidelA` at `q² = 0` is the limit of the general expression. -/
theorem C134_seidel_zero (mb mu : ℝ) (hb : 0 < mb) (hmu : 0 < mu) :
    Tendsto (fun q2 => seidelA q2 mb mu) (𝓝[>] 0) (𝓝 (seidelA 0 mb mu)) := by
  -- the building blocks
  let R : ℝ → ℝ := fun sh => Real.sqrt (4/sh - 1)*acot (Real.sqrt (4/sh - 1))
  have hsmall : ∀ᶠ sh in 𝓝[>] (0:ℝ), sh < 1 := mem_nhdsWithin_of_mem_nhds (gt_mem_nhds (by norm_num))
  have hid : Tendsto (fun sh : ℝ => sh) (𝓝[>] 0) (𝓝 0) := tendsto_id.mono_left nhdsWithin_le_nhds
  have hroot : ∀ᶠ sh in 𝓝[>] (0:ℝ), 0 < 4/sh - 1 := by
    filter_upwards [hsmall, self_mem_nhdsWithin] with sh h1 h0
    have : 0 < sh := h0
    rw [sub_pos, lt_div_iff₀ this]; linarith
  have hR : Tendsto R (𝓝[>] 0) (𝓝 1) := by
    rw [tendsto_iff_norm_sub_tendsto_zero]
    refine squeeze_zero' (Eventually.of_forall fun _ => norm_nonneg _) (g := fun sh => sh/(4 - sh)) ?_ ?_
    · filter_upwards [hsmall, self_mem_nhdsWithin, hroot] with sh h1 h0 hr
      have h0' : 0 < sh := h0
      rw [Real.norm_eq_abs]
      refine (root_acot _ (Real.sqrt_pos.mpr hr)).trans (le_of_eq ?_)
      rw [Real.sq_sqrt hr.le]
      have : 4 - sh ≠ 0 := by linarith
      have := h0'.ne'
      have := hr.ne'
      field_simp
    · have c : ContinuousAt (fun sh : ℝ => sh/(4 - sh)) 0 := by
        apply ContinuousAt.div continuousAt_id (continuousAt_const.sub continuousAt_id)
        show (4:ℝ) - 0 ≠ 0
        norm_num
      have := c.tendsto
      rw [zero_div] at this
      exact this.mono_left nhdsWithin_le_nhds
  have hac : Tendsto (fun sh : ℝ => sh*acot (Real.sqrt (4/sh - 1))^2) (𝓝[>] 0) (𝓝 0) := by
    refine squeeze_zero' (g := fun sh => sh*(Real.pi/2)^2) ?_ ?_ ?_
    · filter_upwards [self_mem_nhdsWithin] with sh h0
      have : 0 < sh := h0
      positivity
    · filter_upwards [self_mem_nhdsWithin] with sh h0
      have h0' : 0 < sh := h0
      apply mul_le_mul_of_nonneg_left _ h0'.le
      have h1 := Real.arctan_nonneg.mpr (Real.sqrt_nonneg (4/sh - 1))
      have h2 := Real.arctan_lt_pi_div_two (Real.sqrt (4/sh - 1))
      have : acot (Real.sqrt (4/sh - 1)) ≤ Real.pi/2 := by rw [acot]; linarith
      have : 0 ≤ acot (Real.sqrt (4/sh - 1)) := by rw [acot]; linarith
      gcongr
    · simpa using hid.mul_const ((Real.pi/2)^2)
  have hxl : Tendsto (fun sh : ℝ => sh*Real.log sh) (𝓝[>] 0) (𝓝 0) := by
    have := Real.continuous_mul_log.tendsto 0
    rw [zero_mul] at this
    exact this.mono_left nhdsWithin_le_nhds
  have hl1 : Tendsto (fun sh : ℝ => Real.log (1 - sh)) (𝓝[>] 0) (𝓝 0) := by
    have c : ContinuousAt (fun sh : ℝ => Real.log (1 - sh)) 0 := by
      apply ContinuousAt.log (by fun_prop); norm_num
    have := c.tendsto
    rw [sub_zero, Real.log_one] at this
    exact this.mono_left nhdsWithin_le_nhds
  have hli : Tendsto (fun sh : ℝ => li2 sh) (𝓝[>] 0) (𝓝 0) := by
    rw [tendsto_zero_iff_norm_tendsto_zero]
    refine squeeze_zero' (Eventually.of_forall fun _ => norm_nonneg _) (g := fun sh => 2*sh) ?_ (by simpa using hid.const_mul 2)
    have hs2 : ∀ᶠ sh in 𝓝[>] (0:ℝ), sh < 1/2 := mem_nhdsWithin_of_mem_nhds (gt_mem_nhds (by norm_num))
    filter_upwards [hs2, self_mem_nhdsWithin] with sh h1 h0
    exact li2_le sh h0 h1.le
  let G : ℝ × ℝ × ℝ × ℝ × ℝ × ℝ → ℂ := fun p =>
    ((-104/243*Real.log (mb^2/mu^2) + 4/(27*(1 - p.1))*(p.1*p.2.1 + p.2.2.1*p.2.2.2.1)
    + 1/(729*(1 - p.1)^2)*(6*p.2.2.1*(29 - 47*p.1) + 785 - 1600*p.1 + 833*p.1^2)
    - 2/(243*(1 - p.1)^3)*(2*p.2.2.2.2.1*(-4 + 9*p.1 - 15*p.1^2 + 4*p.1^3) + 9*p.1*p.2.2.1^2)
    + 2/(243*(1 - p.1)^4)*(36*p.2.2.2.2.2 + p.1*(Real.pi^2*(-4 + 9*p.1 - 9*p.1^2 + 3*p.1^3))) : ℝ) : ℂ)
    + I*((1/(729*(1 - p.1)^2)*(6*Real.pi*(20 - 49*p.1 + 47*p.1^2)) - 2/(243*(1 - p.1)^3)*(18*Real.pi*(1 - 2*p.1)*p.2.2.1) : ℝ) : ℂ)
  have hG : ContinuousAt G (0, 0, 0, 0, 1, 0) := by
    simp only [G]
    refine ContinuousAt.add (Complex.continuous_ofReal.continuousAt.comp ?_) (continuousAt_const.mul (Complex.continuous_ofReal.continuousAt.comp ?_)) <;>
    fun_prop (disch := norm_num)
  have hG0 : G (0, 0, 0, 0, 1, 0) = seidelA 0 mb mu := by
    simp only [G, seidelA, if_true]
    push_cast
    ring
  have hp : Tendsto (fun sh : ℝ => (sh, li2 sh, sh*Real.log sh, Real.log (1 - sh), R sh, sh*acot (Real.sqrt (4/sh - 1))^2)) (𝓝[>] 0)
      (𝓝 (0, 0, 0, 0, 1, 0)) :=
    hid.prodMk_nhds (hli.prodMk_nhds (hxl.prodMk_nhds (hl1.prodMk_nhds (hR.prodMk_nhds hac))))
  have hgen' : Tendsto (fun sh => seidelGen sh mb mu) (𝓝[>] 0) (𝓝 (seidelA 0 mb mu)) := by
    rw [← hG0]
    refine (hG.tendsto.comp hp).congr (fun sh => ?_)
    simp only [Function.comp, G, R, seidelGen]
    congr 2
    all_goals congr 1
    all_goals first | rfl | ring
  have hq : Tendsto (fun q2 : ℝ => min (q2/mb^2) 0.999) (𝓝[>] 0) (𝓝[>] 0) := by
    rw [tendsto_nhdsWithin_iff]
    constructor
    · have c : Continuous (fun q2 : ℝ => min (q2/mb^2) 0.999) := by fun_prop
      have e0 : min ((0:ℝ)/mb^2) 0.999 = 0 := by rw [zero_div]; exact min_eq_left (by norm_num)
      have := c.tendsto 0
      simp only [e0] at this
      exact this.mono_left nhdsWithin_le_nhds
    · filter_upwards [self_mem_nhdsWithin] with q h0
      have h0' : 0 < q := h0
      exact Set.mem_Ioi.mpr (lt_min (by positivity) (by norm_num))
  refine (hgen'.comp hq).congr' ?_
  filter_upwards [self_mem_nhdsWithin] with q h0
  have h0' : 0 < q := h0
  simp only [Function.comp, seidelA, if_neg h0'.ne']

/-- Above `0.999 mb²` the function is frozen at its value there. -/
theorem C134_seidel_clamp (q2 mb mu : ℝ) (hb : 0 < mb) (hq : 0.999*mb^2 ≤ q2) : seidelA q2 mb mu = seidelA (0.999*mb^2) mb mu := by
  have hp : (0:ℝ) < 0.999*mb^2 := by positivity
  have e1 : min (q2/mb^2) 0.999 = (0.999:ℝ) := min_eq_right (by rw [le_div_iff₀ (by positivity)]; exact hq)
  have e2 : min (0.999*mb^2/mb^2) 0.999 = (0.999:ℝ) := by
    rw [mul_div_assoc, div_self (by positivity), mul_one, min_self]
  simp only [seidelA, if_neg (lt_of_lt_of_le hp hq).ne', if_neg hp.ne', e1, e2]

/-- `SeidelA` runs with `208/243` per unit of `log μ`, at every `q²`. -/
theorem C134_seidel_scale (q2 mb mu mu' : ℝ) (hb : 0 < mb) (hmu : 0 < mu) (hmu' : 0 < mu') :
    seidelA q2 mb mu - seidelA q2 mb mu' = ((208/243*Real.log (mu/mu') : ℝ) : ℂ) := by
  have e : ∀ m : ℝ, 0 < m → Real.log (mb^2/m^2) = 2*Real.log mb - 2*Real.log m := by
    intro m hm
    rw [Real.log_div (by positivity) (by positivity), Real.log_pow, Real.log_pow]; push_cast; ring
  rw [Real.log_div hmu.ne' hmu'.ne']
  simp only [seidelA]
  split_ifs with h
  · rw [e mu hmu, e mu' hmu']; push_cast; ring
  · simp only [seidelGen, e mu hmu, e mu' hmu']
    push_cast
    ring

/-- The correction to `C7`: the charm loops enter with the unitarity combination `1 - λu/λt`, the up-quark loops with
`λu/λt (6 C2 - C1)`; the correction is linear in the coefficients and in `αs`. -/
theorem C134_deltaC7 (E : Env) (w : Wc) (q2 scale : ℝ) :
    deltaC7 E w q2 scale = -(E.alphas/(4*Real.pi))*(
      w.c8*F87 (Complex.log ((scale/E.mb : ℝ) : ℂ)) (q2/E.mb^2)
      + (1 - E.xiu/E.xit)*(w.c1*E.f17 (scale/E.mb) (E.mcBVgamma^2/E.mb^2) (q2/E.mb^2)
          + w.c2*E.f27 (scale/E.mb) (E.mcBVgamma^2/E.mb^2) (q2/E.mb^2))
      - E.xiu/E.xit*((6*w.c2 - w.c1)*seidelA q2 E.mb scale)) := by
  simp only [deltaC7, fu17, fu27]
  ring

/-- The correction to `C9` exists at every `q² ≠ 0` and has the same structure; at `q² = 0` it raises `ValueError`, although the
tabulated functions are guarded against it. -/
theorem C134_deltaC9 (E : Env) (w : Wc) (q2 scale : ℝ) (hb : E.mb ≠ 0) (hs : scale ≠ 0) :
    deltaC9 E w 0 scale = .error .valueError ∧
    (q2 ≠ 0 → deltaC9 E w q2 scale = .ok (-(E.alphas/(4*Real.pi))*(
      w.c8*F89 (Complex.log ((q2/E.mb^2 : ℝ) : ℂ)) (q2/E.mb^2)
      + (1 - E.xiu/E.xit)*(w.c1*(E.sf19 (scale/E.mb) (E.mc^2/E.mb^2) (q2/E.mb^2)/((q2/E.mb^2 : ℝ) : ℂ))
          + w.c2*(E.sf29 (scale/E.mb) (E.mc^2/E.mb^2) (q2/E.mb^2)/((q2/E.mb^2 : ℝ) : ℂ)))
      - E.xiu/E.xit*((6*w.c2 - w.c1)*E.seidelB q2 E.mb scale
          - (4*w.c1 + 3*w.c2)*(-16/81*Complex.log ((q2/scale^2 : ℝ) : ℂ) + 428/243 - 64/27*zeta3 + 16/81*Real.pi*I))))) := by
  constructor
  · simp only [deltaC9, cLog, zero_div, if_true, Bind.bind, Except.bind]
  · intro hq
    have h1 : q2/E.mb^2 ≠ 0 := div_ne_zero hq (pow_ne_zero 2 hb)
    have h2 : q2/scale^2 ≠ 0 := div_ne_zero hq (pow_ne_zero 2 hs)
    simp only [deltaC9, fu19, fu29, seidelC, cLog, Env.f19, Env.f29, if_neg h1, if_neg h2, Bind.bind, Except.bind, pure, Except.pure]
    refine congrArg Except.ok ?_
    ring

/-- Non-vacuity: a `q²` above the charm and below the bottom threshold; `Y` exists there, its charm part has an absorptive part and
its bottom part has none. -/
example (w : Wc) : (∃ x, Y 8 w 4 1 2 = .ok x) ∧ (∀ x, h 8 1 2 = .ok x → 0 < x.im) ∧ (∀ x, h 8 4 2 = .ok x → x.im = 0) := by
  refine ⟨(C134_domain 8 4 1 2 w (by norm_num) (by norm_num)).1 (by norm_num), fun x hx => ?_, fun x hx => ?_⟩
  · rw [((C133_cut 8 1 2 (by norm_num) (by norm_num) x hx).2 (by norm_num)).1]
    have : 0 < Real.sqrt (1 - 4*1^2/8) := Real.sqrt_pos.mpr (by norm_num)
    positivity
  · exact (C133_cut 8 4 2 (by norm_num) (by norm_num) x hx).1 (by norm_num)

/-- Non-vacuity of the clamp: `q² = 30 GeV²` for `mb = 4`. -/
example : seidelA 30 4 2 = seidelA (0.999*4^2) 4 2 := C134_seidel_clamp 30 4 2 (by norm_num) (by norm_num)

end Verif.MatrixElements
