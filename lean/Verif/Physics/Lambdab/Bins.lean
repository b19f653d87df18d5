import Verif.Physics.Lambdab.Theorems2
/-!
# C106: binned observables
-/
set_option linter.unusedVariables false
set_option linter.unusedSimpArgs false
set_option maxHeartbeats 1000000
namespace Verif.Lambdab
open Verif.Angular Verif.FormFactors Complex MeasureTheory Set
local notation "conj" => starRingEnd ℂ

/-- All eight amplitudes are continuous on a set.  (Specification.) -/
def TaCont (f : ℝ → Ta) (S : Set ℝ) : Prop :=
  ContinuousOn (fun t => (f t).L.perp1) S ∧ ContinuousOn (fun t => (f t).L.para1) S ∧ ContinuousOn (fun t => (f t).L.perp0) S ∧ ContinuousOn (fun t => (f t).L.para0) S
  ∧ ContinuousOn (fun t => (f t).R.perp1) S ∧ ContinuousOn (fun t => (f t).R.para1) S ∧ ContinuousOn (fun t => (f t).R.perp0) S ∧ ContinuousOn (fun t => (f t).R.para0) S

/-- Form factors and Wilson coefficients that enter are continuous functions of `q2`, and so are the subleading amplitudes, in the allowed region.  (Specification.) -/
structure Smooth (d : Inp) : Prop where
  ff : ∀ g ∈ [FFL.fA0, FFL.fAperp, FFL.fT0, FFL.fT50, FFL.fT5perp, FFL.fTperp, FFL.fV0, FFL.fVperp], ContinuousOn (fun t => g (d.ff t)) (Icc (4 * d.ml ^ 2) ((d.mLb - d.mL) ^ 2))
  wc : ∀ g ∈ [Wc.c7, Wc.c7p, Wc.v, Wc.vp, Wc.a, Wc.ap], ContinuousOn (fun t => g (d.wc t)) (Icc (4 * d.ml ^ 2) ((d.mLb - d.mL) ^ 2))
  low : TaCont d.low (Icc (4 * d.ml ^ 2) ((d.mLb - d.mL) ^ 2))
  high : TaCont d.high (Icc (4 * d.ml ^ 2) ((d.mLb - d.mL) ^ 2))

theorem TaCont.add {f g : ℝ → Ta} {S : Set ℝ} (h : TaCont f S) (k : TaCont g S) : TaCont (fun t => ⟨(f t).L.add (g t).L, (f t).R.add (g t).R⟩) S := by
  obtain ⟨a1, a2, a3, a4, a5, a6, a7, a8⟩ := h
  obtain ⟨b1, b2, b3, b4, b5, b6, b7, b8⟩ := k
  exact ⟨a1.add b1, a2.add b2, a3.add b3, a4.add b4, a5.add b5, a6.add b6, a7.add b7, a8.add b8⟩

theorem lambdaK_cont (a b : ℝ) : Continuous (fun t => Common.lambdaK a b t) := by
  have : (fun t => Common.lambdaK a b t) = fun t => max 0 (Common.kallen a b t) := by
    funext t; unfold Common.lambdaK; by_cases h : Common.kallen a b t < 0
    · rw [if_pos h, max_eq_left h.le]
    · rw [if_neg h, max_eq_right (not_lt.1 h)]
  rw [this]
  unfold Common.kallen
  fun_prop

theorem pref_cont (d : Inp) : Continuous (pref d) := by
  have h := (lambdaK_cont (d.mLb ^ 2) (d.mL ^ 2)).rpow_const (p := (1 / 4 : ℝ)) (fun _ => Or.inr (by norm_num))
  have h2 : Continuous (fun q2 : ℝ => (Real.sqrt q2 * Common.lambdaK (d.mLb ^ 2) (d.mL ^ 2) q2 ^ (1 / 4 : ℝ) / Real.sqrt (3 * 2 * d.mLb ^ 3 * Real.pi ^ 5) / 32 : ℝ)) :=
    ((Real.continuous_sqrt.mul h).div_const _).div_const _
  exact continuous_const.mul (Complex.continuous_ofReal.comp h2)

theorem ampsFF_cont (d : Inp) (hml : d.ml ≠ 0) (h : Smooth d) : TaCont (ampsFF d) (Icc (4 * d.ml ^ 2) ((d.mLb - d.mL) ^ 2)) := by
  set S := Icc (4 * d.ml ^ 2) ((d.mLb - d.mL) ^ 2) with hS
  have hpos : ∀ t ∈ S, 0 < t := fun t ht => lt_of_lt_of_le (by positivity) ht.1
  have hne : ∀ t ∈ S, (t : ℂ) ≠ 0 := fun t ht => by exact_mod_cast (hpos t ht).ne'
  have hne2 : ∀ t ∈ S, Real.sqrt t ≠ 0 := fun t ht => (Real.sqrt_pos.2 (hpos t ht)).ne'
  have f := h.ff
  have w := h.wc
  simp only [List.mem_cons, List.not_mem_nil, or_false, forall_eq_or_imp, forall_eq] at f w
  obtain ⟨f1, f2, f3, f4, f5, f6, f7, f8⟩ := f
  obtain ⟨w1, w2, w3, w4, w5, w6⟩ := w
  have hp : ContinuousOn (pref d) S := (pref_cont d).continuousOn
  have id1 : ContinuousOn (fun t : ℝ => t) S := continuousOn_id
  have o {g : ℝ → ℝ} (hg : ContinuousOn g S) : ContinuousOn (fun t => ((g t : ℝ) : ℂ)) S := Complex.continuous_ofReal.comp_continuousOn hg
  have sm : ContinuousOn (fun t => Real.sqrt ((d.mLb - d.mL) ^ 2 - t)) S := by fun_prop
  have sp : ContinuousOn (fun t => Real.sqrt ((d.mLb + d.mL) ^ 2 - t)) S := by fun_prop
  have sm2 : ContinuousOn (fun t => Real.sqrt (2 * ((d.mLb - d.mL) ^ 2 - t))) S := by fun_prop
  have sp2 : ContinuousOn (fun t => Real.sqrt (2 * ((d.mLb + d.mL) ^ 2 - t))) S := by fun_prop
  have sq : ContinuousOn (fun t => Real.sqrt t) S := by fun_prop
  have v0 : ContinuousOn (fun t => ((helAmps t d.mLb d.mL (d.ff t)).v0 : ℂ)) S := o (((f7.mul continuousOn_const).div sq hne2).mul sm)
  have vp : ContinuousOn (fun t => ((helAmps t d.mLb d.mL (d.ff t)).vp : ℂ)) S := o (f8.neg.mul sm2)
  have a0 : ContinuousOn (fun t => ((helAmps t d.mLb d.mL (d.ff t)).a0 : ℂ)) S := o (((f1.mul continuousOn_const).div sq hne2).mul sp)
  have ap : ContinuousOn (fun t => ((helAmps t d.mLb d.mL (d.ff t)).ap : ℂ)) S := o (f2.neg.mul sp2)
  have t0 : ContinuousOn (fun t => ((helAmps t d.mLb d.mL (d.ff t)).t0 : ℂ)) S := o ((f3.neg.mul sq).mul sm)
  have tp : ContinuousOn (fun t => ((helAmps t d.mLb d.mL (d.ff t)).tp : ℂ)) S := o ((f6.mul continuousOn_const).mul sm2)
  have t50 : ContinuousOn (fun t => ((helAmps t d.mLb d.mL (d.ff t)).t50 : ℂ)) S := o ((f4.mul sq).mul sp)
  have t5p : ContinuousOn (fun t => ((helAmps t d.mLb d.mL (d.ff t)).t5p : ℂ)) S := o ((f5.neg.mul continuousOn_const).mul sp2)
  have c : ∀ (z : ℂ), ContinuousOn (fun _ : ℝ => z) S := fun z => continuousOn_const
  have d7p : ContinuousOn (fun t : ℝ => 2 * (d.mb : ℂ) * ((d.wc t).c7 + (d.wc t).c7p) / (t : ℂ)) S := ((c _).mul (w1.add w2)).div (o id1) hne
  have d7m : ContinuousOn (fun t : ℝ => 2 * (d.mb : ℂ) * ((d.wc t).c7 - (d.wc t).c7p) / (t : ℂ)) S := ((c _).mul (w1.sub w2)).div (o id1) hne
  have lp := (w3.sub w5).add (w4.sub w6)
  have lm := (w3.sub w5).sub (w4.sub w6)
  have rp := (w3.add w5).add (w4.add w6)
  have rm := (w3.add w5).sub (w4.add w6)
  refine ⟨hp.mul ((c _).mul ((lp.mul vp).sub (d7p.mul tp))), hp.mul ((c _).mul ((lm.mul ap).add (d7m.mul t5p))), hp.mul ((c _).mul ((lp.mul v0).sub (d7p.mul t0))), hp.mul ((c _).mul ((lm.mul a0).add (d7m.mul t50))),
    hp.mul ((c _).mul ((rp.mul vp).sub (d7p.mul tp))), hp.mul ((c _).mul ((rm.mul ap).add (d7m.mul t5p))), hp.mul ((c _).mul ((rp.mul v0).sub (d7p.mul t0))), hp.mul ((c _).mul ((rm.mul a0).add (d7m.mul t50)))⟩

/-- The five functions of the angular coefficients used by the observables. (Specification.) -/
noncomputable def obsFns : List (Ks → ℝ) := [dG, flNum, afblNum, afbhNum, afblhNum]

theorem obs_cont {F : Ks → ℝ} (hF : F ∈ obsFns) {f : ℝ → Ta} {S : Set ℝ} (h : TaCont f S) (alpha : ℝ) : ContinuousOn (fun t => F (angCoeff (f t) alpha)) S := by
  obtain ⟨a1, a2, a3, a4, a5, a6, a7, a8⟩ := h
  have n1 := a1.norm; have n2 := a2.norm; have n3 := a3.norm; have n4 := a4.norm
  have n5 := a5.norm; have n6 := a6.norm; have n7 := a7.norm; have n8 := a8.norm
  have e1 : ContinuousOn (fun t => (angCoeff (f t) alpha).ss1) S := by simp only [angCoeff]; fun_prop
  have e2 : ContinuousOn (fun t => (angCoeff (f t) alpha).cc1) S := by simp only [angCoeff]; fun_prop
  have cj : Continuous (fun z : ℂ => conj z) := Complex.continuous_conj
  have j2 := cj.comp_continuousOn a2; have j4 := cj.comp_continuousOn a4
  have j6 := cj.comp_continuousOn a6; have j8 := cj.comp_continuousOn a8
  have re {g : ℝ → ℂ} (hg : ContinuousOn g S) : ContinuousOn (fun t => (g t).re) S := Complex.continuous_re.comp_continuousOn hg
  have c : ∀ (z : ℂ), ContinuousOn (fun _ : ℝ => z) S := fun z => continuousOn_const
  have cr : ∀ (z : ℝ), ContinuousOn (fun _ : ℝ => z) S := fun z => continuousOn_const
  have e3 : ContinuousOn (fun t => (angCoeff (f t) alpha).c1) S := (re ((a5.mul j6).sub (a1.mul j2))).neg
  have e4 : ContinuousOn (fun t => (angCoeff (f t) alpha).ss2) S :=
    (cr _).mul (re ((((a5.mul j6).add (((c 2).mul a7).mul j8)).add (a1.mul j2)).add (((c 2).mul a3).mul j4)))
  have e5 : ContinuousOn (fun t => (angCoeff (f t) alpha).cc2) S := (cr _).mul (re ((a5.mul j6).add (a1.mul j2)))
  have e6 : ContinuousOn (fun t => (angCoeff (f t) alpha).c2) S := by simp only [angCoeff]; fun_prop
  simp only [obsFns, List.mem_cons, List.not_mem_nil, or_false] at hF
  rcases hF with rfl | rfl | rfl | rfl | rfl
  · exact ((cr 2).mul e1).add e2
  · exact ((cr 2).mul e1).sub e2
  · exact (cr _).mul e3
  · exact e4.add (e5.div_const 2)
  · exact (cr _).mul e6

theorem getObs_integrable (d : Inp) (hml : d.ml ≠ 0) (h : Smooth d) {F : Ks → ℝ} (hF : F ∈ obsFns) (a b : ℝ) : IntervalIntegrable (getObs d F) volume a b := by
  set S := Icc (4 * d.ml ^ 2) ((d.mLb - d.mL) ^ 2) with hS
  have hff := ampsFF_cont d hml h
  have int {f : ℝ → Ta} (hf : TaCont f S) {T : Set ℝ} (hT : MeasurableSet T) (hTS : T ⊆ S) (e : ∀ t ∈ T, amps d t = f t) : IntegrableOn (getObs d F) T volume := by
    have h1 : IntegrableOn (fun t => F (angCoeff (f t) d.alpha)) T volume := ((obs_cont hF hf d.alpha).integrableOn_compact isCompact_Icc).mono_set hTS
    refine h1.congr_fun (fun t ht => ?_) hT
    have := hTS ht
    rw [getObs, if_neg (by rintro (h | h) <;> linarith [this.1, this.2]), e t ht]
  have h1 : IntegrableOn (getObs d F) (S ∩ Iic 9) volume :=
    int (hff.add h.low) (measurableSet_Icc.inter measurableSet_Iic) inter_subset_left (fun t ht => (C106_regions d t).1 ht.2)
  have h2 : IntegrableOn (getObs d F) (S ∩ Ioc 9 14) volume :=
    int hff (measurableSet_Icc.inter measurableSet_Ioc) inter_subset_left (fun t ht => (C106_regions d t).2.1 ht.2.1 ht.2.2)
  have h3 : IntegrableOn (getObs d F) (S ∩ Ioi 14) volume :=
    int (hff.add h.high) (measurableSet_Icc.inter measurableSet_Ioi) inter_subset_left (fun t ht => (C106_regions d t).2.2 ht.2)
  have h4 : IntegrableOn (getObs d F) Sᶜ volume := by
    refine (show IntegrableOn (fun _ : ℝ => (0:ℝ)) Sᶜ volume from integrableOn_zero).congr_fun (fun t ht => ?_) measurableSet_Icc.compl
    show (0:ℝ) = getObs d F t
    rw [getObs, if_pos]
    by_contra hc
    push Not at hc
    exact ht ⟨hc.1, hc.2⟩
  have hall : IntegrableOn (getObs d F) univ volume := by
    refine (((h1.union h2).union h3).union h4).mono_set (fun t _ => ?_)
    by_cases ht : t ∈ S
    · rcases le_or_gt t 9 with g | g
      · exact Or.inl (Or.inl (Or.inl ⟨ht, g⟩))
      · rcases le_or_gt t 14 with g' | g'
        · exact Or.inl (Or.inl (Or.inr ⟨ht, g, g'⟩))
        · exact Or.inl (Or.inr ⟨ht, g'⟩)
    · exact Or.inr ht
  exact (integrableOn_univ.1 hall).intervalIntegrable

/-- **C106**: with an exact integrator and continuous inputs, the binned observables exist: the binned branching ratio is the mean of the differential one over the bin, the binned ratios never raise an
exception, are the quotients of the integrals, and fulfil the same bounds as the differential ones. -/
theorem C106_bins (nint : Nint) (hx : Exact nint) (d : Inp) (hml : d.ml ≠ 0) (h : Smooth d) (a b : ℝ) (hab : a < b) :
    dbrInt nint d a b * (b - a) = d.tau * (∫ t in a..b, getObs d dG t)
    ∧ ∃ fl al ah alh : ℝ,
      ratioInt nint d flNum a b = .ok fl ∧ ratioInt nint d afblNum a b = .ok al ∧ ratioInt nint d afbhNum a b = .ok ah ∧ ratioInt nint d afblhNum a b = .ok alh
      ∧ fl * (∫ t in a..b, getObs d dG t) = (∫ t in a..b, getObs d flNum t) ∧ al * (∫ t in a..b, getObs d dG t) = (∫ t in a..b, getObs d afblNum t)
      ∧ ah * (∫ t in a..b, getObs d dG t) = (∫ t in a..b, getObs d afbhNum t) ∧ alh * (∫ t in a..b, getObs d dG t) = (∫ t in a..b, getObs d afblhNum t)
      ∧ 0 ≤ fl ∧ fl ≤ 1 ∧ |al| ≤ 3 / 4 * (1 - fl) ∧ |ah| ≤ |d.alpha| / 2 ∧ |alh| ≤ 3 / 8 * |d.alpha| * (1 - fl) := by
  have i {F : Ks → ℝ} (hF : F ∈ obsFns) := getObs_integrable d hml h hF a b
  have i1 := i (F := dG) (by simp [obsFns])
  have i2 := i (F := flNum) (by simp [obsFns])
  have i3 := i (F := afblNum) (by simp [obsFns])
  have i4 := i (F := afbhNum) (by simp [obsFns])
  have i5 := i (F := afblhNum) (by simp [obsFns])
  have b1 := fun t => getObs_bounds d t
  have habs {F : Ks → ℝ} {g : ℝ → ℝ} (hF : IntervalIntegrable (getObs d F) volume a b) (hg : IntervalIntegrable g volume a b) (hb : ∀ t, |getObs d F t| ≤ g t) :
      |∫ t in a..b, getObs d F t| ≤ ∫ t in a..b, g t :=
    (intervalIntegral.abs_integral_le_integral_abs hab.le).trans (intervalIntegral.integral_mono_on hab.le hF.abs hg (fun t _ => hb t))
  constructor
  · rw [dbrInt, div_mul_cancel₀ _ (by linarith), hx (dbr d) _ _ _ (i1.const_mul d.tau)]
    simp only [dbr]
    rw [intervalIntegral.integral_const_mul]
  · have h0 : 0 ≤ ∫ t in a..b, getObs d flNum t := intervalIntegral.integral_nonneg hab.le (fun t _ => (b1 t).1)
    have h1 : (∫ t in a..b, getObs d flNum t) ≤ ∫ t in a..b, getObs d dG t := intervalIntegral.integral_mono_on hab.le i2 i1 (fun t _ => (b1 t).2.1)
    have h2 := habs i3 ((i1.sub i2).const_mul (3 / 4)) (fun t => (b1 t).2.2.1)
    have h3 := habs i4 (i1.const_mul (|d.alpha| / 2)) (fun t => (b1 t).2.2.2.1)
    have h4 := habs i5 ((i1.sub i2).const_mul (3 / 8 * |d.alpha|)) (fun t => (b1 t).2.2.2.2)
    rw [intervalIntegral.integral_const_mul, intervalIntegral.integral_sub i1 i2] at h2 h4
    rw [intervalIntegral.integral_const_mul] at h3
    simp only [ratioInt, obsIntL, hx _ _ _ _ i1, hx _ _ _ _ i2, hx _ _ _ _ i3, hx _ _ _ _ i4, hx _ _ _ _ i5]
    exact ratios_of h0 h1 h2 h3 h4

/-! ## The hypotheses are met -/

/-- A point of the parameter space with constant form factors and Wilson coefficients and a subleading shift of `C7` at low `q2`.
(Specification.) -/
noncomputable def exD : Inp :=
  { mLb := 5, mL := 1, ml := 1 / 10, mb := 4, tau := 1, alpha := 1 / 2, n0 := I, wc := fun _ => ⟨-1, 0, 4, 0, -4, 0, 0, 0, 0, 0, 0, 0⟩,
    ff := fun _ => ⟨1, 1, 1, 1, 1, 1, 1, 1, 1, 1⟩, low := fun _ => ⟨⟨1, 0, 0, 0⟩, ⟨0, I, 0, 0⟩⟩, high := fun _ => Ta.zero }

theorem C106_nonvacuous : Smooth exD ∧ exD.ml ≠ 0 ∧ (0:ℝ) ≤ exD.mL ∧ exD.mL < exD.mLb ∧ 4 * exD.ml ^ 2 < 10 ∧ (10:ℝ) < (exD.mLb - exD.mL) ^ 2
    ∧ |exD.alpha| ≤ 1 ∧ 0 < getObs exD dG 10 := by
  refine ⟨⟨?_, ?_, ?_, ?_⟩, by norm_num [exD], by norm_num [exD], by norm_num [exD], by norm_num [exD], by norm_num [exD], by norm_num [exD, abs_of_pos], ?_⟩
  · intro g _; exact (continuousOn_const (c := g ⟨1, 1, 1, 1, 1, 1, 1, 1, 1, 1⟩))
  · intro g _; exact (continuousOn_const (c := g ⟨-1, 0, 4, 0, -4, 0, 0, 0, 0, 0, 0, 0⟩))
  · exact ⟨continuousOn_const, continuousOn_const, continuousOn_const, continuousOn_const, continuousOn_const, continuousOn_const, continuousOn_const, continuousOn_const⟩
  · exact ⟨continuousOn_const, continuousOn_const, continuousOn_const, continuousOn_const, continuousOn_const, continuousOn_const, continuousOn_const, continuousOn_const⟩
  · rw [getObs, if_neg (by norm_num [exD]), (C106_regions exD 10).2.1 (by norm_num) (by norm_num), (C106_longitudinal _ _).1]
    have h : (ampsFF exD 10).L.perp1 ≠ 0 := by
      rw [C106_amplitudes exD 10 (by norm_num) (by norm_num [exD]) (by norm_num [exD]) (by norm_num [exD])]
      have hp : pref exD 10 ≠ 0 := by
        have := C106_prefactor exD 10 (by norm_num) (by norm_num [exD]) (by norm_num [exD]) (by norm_num [exD])
        intro h0
        rw [h0] at this
        have h2 : 0 < ‖exD.n0‖ ^ 2 * 10 * Real.sqrt (((exD.mLb - exD.mL) ^ 2 - 10) * ((exD.mLb + exD.mL) ^ 2 - 10)) / (3 * 2 ^ 11 * Real.pi ^ 5 * exD.mLb ^ 3) := by
          have : 0 < Real.sqrt (((exD.mLb - exD.mL) ^ 2 - 10) * ((exD.mLb + exD.mL) ^ 2 - 10)) := Real.sqrt_pos.2 (by norm_num [exD])
          have : 0 < exD.mLb := by norm_num [exD]
          have : ‖exD.n0‖ = 1 := by simp [exD]
          rw [this]
          positivity
        rw [← this] at h2
        simp at h2
      have hs : (Real.sqrt ((exD.mLb - exD.mL) ^ 2 - 10) : ℝ) ≠ 0 := (Real.sqrt_pos.2 (by norm_num [exD])).ne'
      simp only [specFour]
      refine mul_ne_zero (mul_ne_zero (mul_ne_zero (by norm_num) hp) (by exact_mod_cast hs)) ?_
      norm_num [exD]
    have : 0 < ‖(ampsFF exD 10).L.perp1‖ ^ 2 := pow_pos (norm_pos_iff.2 h) 2
    positivity

/-! ## CP conjugation of the subleading amplitudes -/

/-- `conjugate_par` acts on the overall factor (the CKM elements) only.  /repo/flavio/physics/bdecays/lambdablambdall_subleading.py:77-88. -/
noncomputable def conjInp (d : Inp) : Inp := { d with n0 := conj d.n0 }

/-- `fct_deltaC7_polynomial`.  /repo/flavio/physics/bdecays/lambdablambdall_subleading.py:77-81. -/
noncomputable def fctC7 (d : Inp) (s : Shift) (q2 : ℝ) (cp : Bool) : Ta := ampsC7 (if cp then conjInp d else d) q2 s

/-- `fct_deltaC9_constant`: the conjugated parameters are not used.  /repo/flavio/physics/bdecays/lambdablambdall_subleading.py:84-88. -/
noncomputable def fctC9 (d : Inp) (s : Shift) (q2 : ℝ) (_cp : Bool) : Ta := ampsC9 d q2 s

/-- **C106**: CP conjugation replaces the CKM factor of the `C7` contribution by its complex conjugate. -/
theorem C106_cp (d : Inp) (s : Shift) (q2 : ℝ) (h : d.n0 ≠ 0) :
    (fctC7 d s q2 true).L.perp1 * d.n0 = (fctC7 d s q2 false).L.perp1 * conj d.n0 := by
  simp only [fctC7, ampsC7, dC7, transAmps, Four.scale, pref, conjInp, if_true, Bool.false_eq_true, if_false]
  ring

/-- Finding: `fct_deltaC9_constant` ignores `cp_conjugate`, so its contribution is the same for particle and antiparticle although the CKM factor of the amplitude is complex.  (The observables of the
program only use `cp_conjugate=False`.) -/
theorem C106_cp_witness (d : Inp) (s : Shift) (q2 : ℝ) (hn : conj d.n0 ≠ d.n0) (h0 : (fctC9 d s q2 false).L.perp1 ≠ 0) :
    (fctC9 d s q2 true).L.perp1 * d.n0 ≠ (fctC9 d s q2 false).L.perp1 * conj d.n0 := fun h => hn (mul_left_cancel₀ h0 h).symm

/-- Non-vacuity: constant form factors and coefficients. -/
example (f : FFL) (w : Wc) : ∃ d : Inp, Smooth d ∧ d.ml ≠ 0 ∧ 4 * d.ml ^ 2 < (d.mLb - d.mL) ^ 2 ∧ (∀ t, d.ff t = f ∧ d.wc t = w) := by
  refine ⟨⟨5, 1, 1, 4, 1, 1, 1, fun _ => w, fun _ => f, fun _ => Ta.zero, fun _ => Ta.zero⟩, ⟨?_, ?_, ?_, ?_⟩, by norm_num, by norm_num, fun _ => ⟨rfl, rfl⟩⟩
  · intro g _; dsimp only; exact continuous_const.continuousOn
  · intro g _; dsimp only; exact continuous_const.continuousOn
  · simp only [TaCont]; refine ⟨?_, ?_, ?_, ?_, ?_, ?_, ?_, ?_⟩ <;> exact continuousOn_const
  · simp only [TaCont]; refine ⟨?_, ?_, ?_, ?_, ?_, ?_, ?_, ?_⟩ <;> exact continuousOn_const

end Verif.Lambdab
