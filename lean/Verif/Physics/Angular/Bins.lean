import Verif.Physics.Angular.VHTheorems
/-!
# Binned observables (`flavio/physics/bdecays/bvll/observables.py`, `observables_bs.py`)

The numerical integrator (`flavio.math.integrate.nintegrate`, i.e. `scipy.integrate.quad`) is a parameter
`nint f a b epsrel`; `Exact nint` says that it returns the integral.
-/
set_option linter.unusedVariables false
namespace Verif.Angular
open MeasureTheory Set

/-- The signature of `flavio.math.integrate.nintegrate(f, a, b, epsrel)`.
/repo/flavio/math/integrate.py:15-19. -/
abbrev Nint := (ℝ → ℝ) → ℝ → ℝ → ℝ → ℝ

/-- **Specification.** An exact integrator. -/
def Exact (nint : Nint) : Prop :=
  ∀ f a b e, IntervalIntegrable f volume a b → nint f a b e = ∫ x in a..b, f x

/-- The integrand of the first branch of `nintegrate_pole`, with the pole part subtracted.
/repo/flavio/physics/bdecays/bvll/observables.py:389. -/
noncomputable def poleSub (f : ℝ → ℝ) (q20 : ℝ) : ℝ → ℝ := fun q2 => f q2 - f q20 * q20 / q2

/-- `nintegrate_pole` (the second branch calls the integrator with its default `epsrel=0.005`).
/repo/flavio/physics/bdecays/bvll/observables.py:380-394. -/
noncomputable def nintPole (nint : Nint) (f : ℝ → ℝ) (q2min q2max epsrel : ℝ) : ℝ :=
  if q2min ≤ 1 / 10 ∧ 0 < q2min then
    nint (poleSub f q2min) q2min q2max epsrel + f q2min * q2min * Real.log (q2max / q2min)
  else nint f q2min q2max (5 / 1000)

/-- `q2min_allowed`.  /repo/flavio/physics/bdecays/bvll/observables.py:229. -/
noncomputable def q2lo (ml q2min : ℝ) : ℝ := max (4 * ml ^ 2) q2min
/-- `q2max_allowed`.  /repo/flavio/physics/bdecays/bvll/observables.py:230. -/
noncomputable def q2hi (mB mV q2max : ℝ) : ℝ := min ((mB - mV) ^ 2) q2max

/-- `BVllObservableDifferential.allowed`.  /repo/flavio/physics/bdecays/bvll/observables.py:216-219. -/
def allowed (ml mB mV q2 : ℝ) : Prop := ¬ (q2 < 4 * ml ^ 2 ∨ (mB - mV) ^ 2 < q2)

open Classical in
/-- `BVll_obs.__call__` (and `BVll_dBRdq2.__call__`) for the function `f` of q2.
/repo/flavio/physics/bdecays/bvll/observables.py:233-256. -/
noncomputable def obsDiff (f : ℝ → ℝ) (ml mB mV q2 : ℝ) : ℝ := if ¬ allowed ml mB mV q2 then 0 else f q2

/-- `BVll_obs_int.__call__` and `BVll_dBRdq2_int.__call__`.
/repo/flavio/physics/bdecays/bvll/observables.py:306-336. -/
noncomputable def obsInt (nint : Nint) (f : ℝ → ℝ) (ml mB mV eps q2min q2max : ℝ) : ℝ :=
  if q2hi mB mV q2max ≤ q2lo ml q2min then 0
  else nintPole nint f (q2lo ml q2min) (q2hi mB mV q2max) eps / (q2max - q2min)

/-- `BVll_int_ratio.__call__`.  /repo/flavio/physics/bdecays/bvll/observables.py:339-361. -/
noncomputable def intRatio (nint : Nint) (num den : ℝ → ℝ) (ml mB mV eps q2min q2max : ℝ) : ℝ :=
  if q2hi mB mV q2max ≤ q2lo ml q2min then 0
  else if nintPole nint num (q2lo ml q2min) (q2hi mB mV q2max) eps = 0 then 0
  else nintPole nint num (q2lo ml q2min) (q2hi mB mV q2max) eps
    / nintPole nint den (q2lo ml q2min) (q2hi mB mV q2max) eps

/-- `bsvll_obs_int` / `bsvll_dbrdq2_int`: no clipping of the bin, the integrand returns 0 outside the allowed
region.  /repo/flavio/physics/bdecays/bvll/observables_bs.py:77-85. -/
noncomputable def obsIntBs (nint : Nint) (f : ℝ → ℝ) (ml mB mV eps q2min q2max : ℝ) : ℝ :=
  nintPole nint (fun q2 => obsDiff f ml mB mV q2) q2min q2max eps / (q2max - q2min)

/-- `bvll_obs_int_ratio_leptonflavour`: ratio of the binned quantity for two leptons (`ml1` over `ml2`), whose
functions of q2 are `f1` and `f2`.  /repo/flavio/physics/bdecays/bvll/observables.py:400-413. -/
noncomputable def intRatioLfu (nint : Nint) (f1 f2 : ℝ → ℝ) (ml1 ml2 mB mV q2min q2max : ℝ) : ℝ :=
  if obsInt nint f1 ml1 mB mV (5 / 10000) q2min q2max = 0 then 0
  else obsInt nint f1 ml1 mB mV (5 / 10000) q2min q2max / obsInt nint f2 ml2 mB mV (5 / 10000) q2min q2max

theorem pole_integrable {f : ℝ → ℝ} {a b : ℝ} (ha : 0 < a) (hab : a ≤ b) (c : ℝ) :
    IntervalIntegrable (fun q2 => c / q2) volume a b := by
  apply ContinuousOn.intervalIntegrable
  intro x hx
  rw [uIcc_of_le hab] at hx
  exact (continuousAt_const.div continuousAt_id (by have := hx.1; simp; linarith)).continuousWithinAt

theorem pole_integral {a b : ℝ} (ha : 0 < a) (hab : a ≤ b) (c : ℝ) :
    ∫ q2 in a..b, c / q2 = c * Real.log (b / a) := by
  have : (fun q2 : ℝ => c / q2) = fun q2 => c * q2⁻¹ := by ext; rw [div_eq_mul_inv]
  rw [this, intervalIntegral.integral_const_mul, integral_inv_of_pos ha (by linarith)]

/-- **C84 (pole subtraction).** For any integrator: the error of `nintegrate_pole` is the error of the integrator on
the integrand with the pole subtracted (if `0 < q2min ≤ 0.1`) or on the integrand itself (otherwise); hence with an
exact integrator the result is the integral. -/
theorem C84_pole_error (nint : Nint) (f : ℝ → ℝ) (a b e : ℝ) (hab : a ≤ b) (hf : IntervalIntegrable f volume a b) :
    (a ≤ 1 / 10 → 0 < a → nintPole nint f a b e - ∫ x in a..b, f x
      = nint (poleSub f a) a b e - ∫ x in a..b, poleSub f a x) ∧
    (¬ (a ≤ 1 / 10 ∧ 0 < a) → nintPole nint f a b e - ∫ x in a..b, f x
      = nint f a b (5 / 1000) - ∫ x in a..b, f x) ∧
    (Exact nint → nintPole nint f a b e = ∫ x in a..b, f x) := by
  have h1 : a ≤ 1 / 10 → 0 < a → nintPole nint f a b e - ∫ x in a..b, f x
      = nint (poleSub f a) a b e - ∫ x in a..b, poleSub f a x := by
    intro h h0
    unfold nintPole
    rw [if_pos ⟨h, h0⟩]
    have : ∫ x in a..b, poleSub f a x = (∫ x in a..b, f x) - f a * a * Real.log (b / a) := by
      unfold poleSub
      rw [intervalIntegral.integral_sub hf (pole_integrable (f := f) h0 hab _), pole_integral h0 hab]
    rw [this]; ring
  have h2 : ¬ (a ≤ 1 / 10 ∧ 0 < a) → nintPole nint f a b e - ∫ x in a..b, f x
      = nint f a b (5 / 1000) - ∫ x in a..b, f x := by
    intro h; unfold nintPole; rw [if_neg h]
  refine ⟨h1, h2, fun hx => ?_⟩
  by_cases h : a ≤ 1 / 10 ∧ 0 < a
  · have := h1 h.1 h.2
    have hi : IntervalIntegrable (poleSub f a) volume a b := hf.sub (pole_integrable (f := f) h.2 hab _)
    rw [hx _ _ _ _ hi] at this
    linarith
  · have := h2 h
    rw [hx _ _ _ _ hf] at this
    linarith

/-- **C84 (finding).** Above 0.1 GeV² the requested precision is ignored. -/
theorem C84_epsrel_ignored (nint : Nint) (f : ℝ → ℝ) (a b e e' : ℝ) (h : 1 / 10 < a) :
    nintPole nint f a b e = nintPole nint f a b e' := by
  unfold nintPole
  rw [if_neg (by intro h'; linarith [h'.1]), if_neg (by intro h'; linarith [h'.1])]

theorem allowed_iff (ml mB mV q2 : ℝ) : allowed ml mB mV q2 ↔ q2 ∈ Icc (4 * ml ^ 2) ((mB - mV) ^ 2) := by
  unfold allowed; simp only [not_or, not_lt, mem_Icc]

theorem obsDiff_indicator (f : ℝ → ℝ) (ml mB mV : ℝ) :
    (fun q2 => obsDiff f ml mB mV q2) = indicator (Icc (4 * ml ^ 2) ((mB - mV) ^ 2)) f := by
  ext q
  unfold obsDiff indicator
  by_cases h : q ∈ Icc (4 * ml ^ 2) ((mB - mV) ^ 2)
  · rw [if_pos h, if_neg (by rw [allowed_iff]; exact not_not.mpr h)]
  · rw [if_neg h, if_pos (by rw [allowed_iff]; exact h)]

theorem integral_obsDiff (f : ℝ → ℝ) (ml mB mV a b : ℝ) (hab : a ≤ b) :
    ∫ q in a..b, obsDiff f ml mB mV q
      = if q2hi mB mV b ≤ q2lo ml a then 0 else ∫ q in (q2lo ml a)..(q2hi mB mV b), f q := by
  have e : ∫ q in a..b, obsDiff f ml mB mV q = ∫ q in Ioc a b ∩ Icc (4 * ml ^ 2) ((mB - mV) ^ 2), f q := by
    rw [intervalIntegral.integral_of_le hab]
    have := obsDiff_indicator f ml mB mV
    rw [this, setIntegral_indicator measurableSet_Icc]
  have ae : (Ioc a b ∩ Icc (4 * ml ^ 2) ((mB - mV) ^ 2) : Set ℝ) =ᵐ[volume] Ioc (q2lo ml a) (q2hi mB mV b) := by
    have h1 : (Ioc (q2lo ml a) (q2hi mB mV b) : Set ℝ)
        = Ioc a b ∩ Ioc (4 * ml ^ 2) ((mB - mV) ^ 2) := by
      rw [Ioc_inter_Ioc]; unfold q2lo q2hi; rw [max_comm, min_comm]
    rw [h1]
    exact (ae_eq_refl _).inter (Ioc_ae_eq_Icc (μ := volume)).symm
  rw [e, setIntegral_congr_set ae]
  split_ifs with h
  · rw [Ioc_eq_empty (not_lt.mpr h)]; simp
  · rw [intervalIntegral.integral_of_le (not_le.mp h).le]

/-- **C84 (binned = averaged differential).** With an exact integrator a binned observable is the average of the
differential one over the whole bin (which is 0 outside the kinematically allowed region), wherever the bin lies:
inside, across or outside the allowed region. -/
theorem C84_binned_is_average (nint : Nint) (hx : Exact nint) (f : ℝ → ℝ) (ml mB mV eps a b : ℝ) (hab : a < b)
    (hf : IntervalIntegrable f volume (q2lo ml a) (q2hi mB mV b)) :
    obsInt nint f ml mB mV eps a b = (∫ q in a..b, obsDiff f ml mB mV q) / (b - a) := by
  rw [integral_obsDiff f ml mB mV a b hab.le]
  unfold obsInt
  split_ifs with h
  · simp
  · rw [(C84_pole_error nint f _ _ eps (not_le.mp h).le hf).2.2 hx]

/-- **C84 (additivity).** Bins add up. -/
theorem C84_bins_add (nint : Nint) (hx : Exact nint) (f : ℝ → ℝ) (ml mB mV eps a b c : ℝ) (hab : a < b) (hbc : b < c)
    (hf : IntegrableOn f (Icc (4 * ml ^ 2) ((mB - mV) ^ 2)) volume) :
    (c - a) * obsInt nint f ml mB mV eps a c
      = (b - a) * obsInt nint f ml mB mV eps a b + (c - b) * obsInt nint f ml mB mV eps b c := by
  have hii : ∀ x y : ℝ, IntervalIntegrable (fun q => obsDiff f ml mB mV q) volume x y := by
    intro x y
    rw [obsDiff_indicator]
    have : Integrable (indicator (Icc (4 * ml ^ 2) ((mB - mV) ^ 2)) f) volume :=
      (integrable_indicator_iff measurableSet_Icc).mpr hf
    exact this.intervalIntegrable
  have hloc : ∀ x y : ℝ, x < y → obsInt nint f ml mB mV eps x y = (∫ q in x..y, obsDiff f ml mB mV q) / (y - x) := by
    intro x y hxy
    by_cases h : q2hi mB mV y ≤ q2lo ml x
    · rw [integral_obsDiff f ml mB mV x y hxy.le, if_pos h]
      unfold obsInt; rw [if_pos h]; simp
    · refine C84_binned_is_average nint hx f ml mB mV eps x y hxy ?_
      rw [intervalIntegrable_iff_integrableOn_Ioc_of_le (not_le.mp h).le]
      refine hf.mono_set ?_
      intro z hz
      exact ⟨(le_max_left _ _).trans hz.1.le, hz.2.trans (min_le_left _ _)⟩
  rw [hloc a c (hab.trans hbc), hloc a b hab, hloc b c hbc,
    ← intervalIntegral.integral_add_adjacent_intervals (hii a b) (hii b c)]
  have h1 : b - a ≠ 0 := by linarith
  have h2 : c - b ≠ 0 := by linarith
  have h3 : c - a ≠ 0 := by linarith
  field_simp

/-- **C84 (two conventions).** The unclipped integration used for `B_s` decays and the clipped one used for `B`
decays give the same binned observable. -/
theorem C84_bs_same (nint : Nint) (hx : Exact nint) (f : ℝ → ℝ) (ml mB mV eps a b : ℝ) (hab : a < b)
    (hf : IntegrableOn f (Icc (4 * ml ^ 2) ((mB - mV) ^ 2)) volume) :
    obsIntBs nint f ml mB mV eps a b = obsInt nint f ml mB mV eps a b := by
  have hint : Integrable (indicator (Icc (4 * ml ^ 2) ((mB - mV) ^ 2)) f) volume :=
    (integrable_indicator_iff measurableSet_Icc).mpr hf
  have hI : IntervalIntegrable (fun q => obsDiff f ml mB mV q) volume a b := by
    rw [obsDiff_indicator]; exact hint.intervalIntegrable
  unfold obsIntBs
  rw [(C84_pole_error nint _ a b eps hab.le hI).2.2 hx]
  by_cases h : q2hi mB mV b ≤ q2lo ml a
  · rw [integral_obsDiff f ml mB mV a b hab.le, if_pos h]
    unfold obsInt; rw [if_pos h]; simp
  · rw [C84_binned_is_average nint hx f ml mB mV eps a b hab]
    rw [intervalIntegrable_iff_integrableOn_Ioc_of_le (not_le.mp h).le]
    refine hf.mono_set ?_
    intro z hz
    exact ⟨(le_max_left _ _).trans hz.1.le, hz.2.trans (min_le_left _ _)⟩

/-- Bounds survive binning: if `|num| ≤ c · den` at every allowed q², the binned ratio is within `±c`. -/
theorem intRatio_bound (nint : Nint) (hx : Exact nint) (num den : ℝ → ℝ) (ml mB mV eps a b c : ℝ) (hc : 0 ≤ c)
    (hb : ∀ q, q2lo ml a ≤ q → q ≤ q2hi mB mV b → |num q| ≤ c * den q)
    (hn : IntervalIntegrable num volume (q2lo ml a) (q2hi mB mV b))
    (hd : IntervalIntegrable den volume (q2lo ml a) (q2hi mB mV b)) :
    |intRatio nint num den ml mB mV eps a b| ≤ c := by
  unfold intRatio
  split_ifs with h h0
  · simpa using hc
  · simpa using hc
  · have hle := (not_le.mp h).le
    rw [(C84_pole_error nint num _ _ eps hle hn).2.2 hx, (C84_pole_error nint den _ _ eps hle hd).2.2 hx] at *
    set lo := q2lo ml a
    set hi := q2hi mB mV b
    have h1 : |∫ q in lo..hi, num q| ≤ c * ∫ q in lo..hi, den q := by
      rw [← intervalIntegral.integral_const_mul]
      refine (intervalIntegral.abs_integral_le_integral_abs hle).trans ?_
      exact intervalIntegral.integral_mono_on hle hn.abs (hd.const_mul c) (fun q hq => hb q hq.1 hq.2)
    rcases hc.eq_or_lt with rfl | hc'
    · rw [zero_mul] at h1
      rw [abs_eq_zero.mp (le_antisymm h1 (abs_nonneg _))]; simp
    · have h2 : 0 ≤ ∫ q in lo..hi, den q := by
        have := (abs_nonneg _).trans h1
        exact nonneg_of_mul_nonneg_right this hc'
      rw [abs_div, abs_of_nonneg h2]
      exact div_le_of_le_mul₀ h2 hc h1

/-- **C84 (ranges of binned observables).** For arbitrary q²-dependent amplitudes whose coefficients are integrable,
every binned forward-backward asymmetry is within ±3/4 and — without tensor amplitudes — every binned longitudinal
fraction within ±1 and `P₁` within ±1, whatever the bin. -/
theorem C84_binned_ranges (nint : Nint) (hx : Exact nint) (H Hb : ℝ → AmpV) (ml mB mV eps a b : ℝ)
    (hB : 0 < mB) (hml : 0 < ml)
    (hint : ∀ i, IntervalIntegrable (fun q => (angularV (H q) q mB mV ml ml).get i) volume (q2lo ml a) (q2hi mB mV b) ∧
      IntervalIntegrable (fun q => (angularV (Hb q) q mB mV ml ml).get i) volume (q2lo ml a) (q2hi mB mV b)) :
    let bin := fun num den : JV → JV → ℝ => intRatio nint
      (fun q => num (angularV (H q) q mB mV ml ml) (angularV (Hb q) q mB mV ml ml))
      (fun q => den (angularV (H q) q mB mV ml ml) (angularV (Hb q) q mB mV ml ml)) ml mB mV eps a b
    |bin afbExpNum saDen| ≤ 3 / 4 ∧
    ((∀ q, NoTensor (H q)) → (∀ q, NoTensor (Hb q)) → |bin flNum saDen| ≤ 1 ∧ |bin p1Num pDen| ≤ 1) := by
  intro bin
  have phys : ∀ q, q2lo ml a ≤ q → Phys q mB ml ml := by
    intro q hq
    have h4 : 4 * ml ^ 2 ≤ q := (le_max_left _ _).trans hq
    exact ⟨hB, hml.le, hml.le, lt_of_lt_of_le (by positivity) h4, by nlinarith⟩
  have hS : ∀ i, IntervalIntegrable (fun q => sTheoryNum (angularV (H q) q mB mV ml ml) (angularV (Hb q) q mB mV ml ml) i)
      volume (q2lo ml a) (q2hi mB mV b) := fun i => (hint i).1.add (hint i).2
  have hG : ∀ K : ℝ → AmpV, (∀ i, IntervalIntegrable (fun q => (angularV (K q) q mB mV ml ml).get i) volume
      (q2lo ml a) (q2hi mB mV b)) → IntervalIntegrable (fun q => dGdq2 (angularV (K q) q mB mV ml ml)) volume
      (q2lo ml a) (q2hi mB mV b) := by
    intro K hK
    have := (((hK .i1s).const_mul 2).add (hK .i1c)).const_mul (3 / 4)
    have h' := (((hK .i2s).const_mul 2).add (hK .i2c)).const_mul (1 / 4)
    exact this.sub h'
  have hden : IntervalIntegrable (fun q => saDen (angularV (H q) q mB mV ml ml) (angularV (Hb q) q mB mV ml ml)) volume
      (q2lo ml a) (q2hi mB mV b) := by
    have := (((hG H fun i => (hint i).1).add (hG Hb fun i => (hint i).2)).div_const 2).const_mul 2
    exact this
  have hdpos : ∀ q, q2lo ml a ≤ q → 0 ≤ saDen (angularV (H q) q mB mV ml ml) (angularV (Hb q) q mB mV ml ml) := by
    intro q hq
    have h1 := (C81_rate_nonneg (H q) (Hb q) q mB mV ml ml 1 (phys q hq) (by norm_num)).2
    unfold saDen; linarith
  refine ⟨?_, fun n nb => ⟨?_, ?_⟩⟩
  · refine intRatio_bound nint hx _ _ ml mB mV eps a b (3 / 4) (by norm_num) ?_ ?_ hden
    · intro q h1 h2
      obtain ⟨_, a2, _⟩ := diag_bounds (H q) q mB mV ml ml hB hml.le hml.le (phys q h1).hq (phys q h1).th
      obtain ⟨_, b2, _⟩ := diag_bounds (Hb q) q mB mV ml ml hB hml.le hml.le (phys q h1).hq (phys q h1).th
      unfold afbExpNum sExpNum
      rw [if_pos (by decide), abs_mul, abs_neg, abs_of_nonneg (by norm_num : (0:ℝ) ≤ 3 / 4)]
      refine mul_le_mul_of_nonneg_left ?_ (by norm_num)
      have := abs_add_le (angularV (H q) q mB mV ml ml).j6s (angularV (Hb q) q mB mV ml ml).j6s
      unfold sTheoryNum saDen dGdq2Ave JV.get
      simp only
      linarith
    · have : (fun q => afbExpNum (angularV (H q) q mB mV ml ml) (angularV (Hb q) q mB mV ml ml))
          = fun q => -3 / 4 * sTheoryNum (angularV (H q) q mB mV ml ml) (angularV (Hb q) q mB mV ml ml) .i6s := by
        ext q; unfold afbExpNum sExpNum; rw [if_pos (by decide)]; ring
      rw [this]; exact (hS .i6s).const_mul _
  · refine intRatio_bound nint hx _ _ ml mB mV eps a b 1 (by norm_num) ?_ ?_ hden
    · intro q h1 h2
      obtain ⟨_, _, _, f1, f2, f3, _, f4⟩ := C81_afb_fl_ranges (H q) (Hb q) q mB mV ml ml (phys q h1)
      have f3 := f3 (n q) (nb q)
      set d := saDen (angularV (H q) q mB mV ml ml) (angularV (Hb q) q mB mV ml ml)
      have hd := hdpos q h1
      unfold ratioV at f2 f3
      split_ifs at f2 f3 with h0
      · rw [h0]; simpa using hd
      · have hdp : 0 < d := lt_of_le_of_ne hd (f4 h0).symm
        rw [div_le_one hdp] at f2
        rw [le_div_iff₀ hdp, zero_mul] at f3
        rw [one_mul, abs_of_nonneg f3]; exact f2
    · have := (hS .i2c).neg
      exact this
  · refine intRatio_bound nint hx _ _ ml mB mV eps a b 1 (by norm_num) ?_ ?_ (hS .i2s)
    · intro q h1 h2
      obtain ⟨f1, _, _, _, f4⟩ := C82_p_ranges (H q) (Hb q) q mB mV ml ml (phys q h1) (n q) (nb q)
      set N := p1Num (angularV (H q) q mB mV ml ml) (angularV (Hb q) q mB mV ml ml) with hN
      have hd : 0 ≤ pDen (angularV (H q) q mB mV ml ml) (angularV (Hb q) q mB mV ml ml) := by
        show 0 ≤ (angularV (H q) q mB mV ml ml).j2s + (angularV (Hb q) q mB mV ml ml).j2s
        rw [nt_2s (n q), nt_2s (nb q)]
        have hF : 0 ≤ phaseSpace (2 ^ 9 * Real.pi ^ 3) q mB mV ml ml :=
          phaseSpace_nonneg _ _ _ _ _ _ (by have := Real.pi_pos; positivity) hB (phys q h1).hq
        have hl := div_nonneg (laGa_nonneg q ml ml) (phys q h1).hq.le
        have h1 := mul_nonneg hF (mul_nonneg hl (sT_nonneg (H q)))
        have h2 := mul_nonneg hF (mul_nonneg hl (sT_nonneg (Hb q)))
        linarith
      rw [one_mul]
      unfold ratioV at f1
      rw [← hN] at f1
      split_ifs at f1 with h0
      · rw [h0]; simpa using hd
      · have hdp := lt_of_le_of_ne hd (f4 (Or.inl h0)).symm
        rw [abs_div, abs_of_pos hdp, div_le_one hdp] at f1
        exact f1
    · have : (fun q => p1Num (angularV (H q) q mB mV ml ml) (angularV (Hb q) q mB mV ml ml))
          = fun q => sTheoryNum (angularV (H q) q mB mV ml ml) (angularV (Hb q) q mB mV ml ml) .i3 / 2 := by
        ext q; unfold p1Num sExpNum; rw [if_neg (by decide)]
      rw [this]; exact (hS .i3).div_const 2

/-- Non-vacuity: an exact integrator exists, and an integrand with a photon pole over a bin that straddles the
threshold `4 mℓ² = 0.04`. -/
example : Exact (fun f a b _ => ∫ x in a..b, f x) ∧
    obsInt (fun f a b _ => ∫ x in a..b, f x) (fun q => 1 / q) (1 / 10) 5 1 (5 / 1000) (1 / 100) 1
      = Real.log 25 / (1 - 1 / 100) := by
  have hex : Exact (fun f a b _ => ∫ x in a..b, f x) := fun f a b e h => rfl
  refine ⟨hex, ?_⟩
  have lo : q2lo (1 / 10) (1 / 100) = 1 / 25 := by unfold q2lo; norm_num
  have hi : q2hi 5 1 1 = 1 := by unfold q2hi; norm_num
  rw [C84_binned_is_average _ hex _ _ _ _ _ _ _ (by norm_num)
    (by rw [lo, hi]; exact pole_integrable (f := id) (by norm_num) (by norm_num) 1),
    integral_obsDiff _ _ _ _ _ _ (by norm_num), lo, hi, if_neg (by norm_num), pole_integral (by norm_num) (by norm_num)]
  norm_num

end Verif.Angular
