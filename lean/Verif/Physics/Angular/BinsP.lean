import Verif.Physics.Angular.Bins
import Verif.Physics.Angular.P
/-!
# Differential and binned `B → P ℓ ℓ` observables (`flavio/physics/bdecays/bpll.py`, `bpll_lfv.py`)

The helicity amplitudes (form factors, Wilson coefficients, resonances) are arbitrary functions `H`, `Hb` of q²; the
numerical integrator is a parameter as in `Bins.lean`.
-/
set_option linter.unusedVariables false
set_option linter.unusedSimpArgs false
namespace Verif.Angular
open MeasureTheory Set Verif.Common

/-- What a `B → P ℓ ℓ` observable reads: the masses, the life time, whether the pseudoscalar is a neutral pion, and the
helicity amplitudes of the decay and of its CP conjugate.
/repo/flavio/physics/bdecays/bpll.py:67-97. -/
structure PDecay where
  mB : ℝ
  mP : ℝ
  ml1 : ℝ
  ml2 : ℝ
  tauB : ℝ
  pi0 : Bool
  H : ℝ → AmpP
  Hb : ℝ → AmpP

open Classical in
/-- `bpll_obs`: 0 at or below threshold and above the endpoint, otherwise the function of the two sets of angular
coefficients.  /repo/flavio/physics/bdecays/bpll.py:79-97 (with `ml1 = ml2`),
/repo/flavio/physics/bdecays/bpll_lfv.py:34-45. -/
noncomputable def bpllObs (d : PDecay) (F : JP → JP → ℝ) (q2 : ℝ) : ℝ :=
  if q2 ≤ (d.ml1 + d.ml2) ^ 2 ∨ (d.mB - d.mP) ^ 2 < q2 then 0
  else F (angularP (d.H q2) q2 d.mB d.mP d.ml1 d.ml2) (angularP (d.Hb q2) q2 d.mB d.mP d.ml1 d.ml2)

/-- `bpll_obs_int`.  /repo/flavio/physics/bdecays/bpll.py:119-122. -/
noncomputable def bpllObsInt (nint : Nint) (d : PDecay) (F : JP → JP → ℝ) (a b eps : ℝ) : ℝ :=
  nint (bpllObs d F) a b eps

/-- `bpll_dbrdq2`.  /repo/flavio/physics/bdecays/bpll.py:125-132, with `F = dGdq2_cpaverage`;
/repo/flavio/physics/bdecays/bpll_lfv.py:50-57, with `F = dGdq2`. -/
noncomputable def bpllDbr (d : PDecay) (F : JP → JP → ℝ) (q2 : ℝ) : ℝ :=
  if d.pi0 then d.tauB * bpllObs d F q2 / 2 else d.tauB * bpllObs d F q2

/-- `bpll_dbrdq2_int`.  /repo/flavio/physics/bdecays/bpll.py:134-137. -/
noncomputable def bpllDbrInt (nint : Nint) (d : PDecay) (F : JP → JP → ℝ) (a b eps : ℝ) : ℝ :=
  nint (bpllDbr d F) a b eps / (b - a)

/-- `bpll_dbrdq2_tot_func` and (with another `epsrel`) `bpll_dbrdq2_Belle_func`.
/repo/flavio/physics/bdecays/bpll.py:146-169. -/
noncomputable def bpllTot (nint : Nint) (d : PDecay) (F : JP → JP → ℝ) (eps : ℝ) : ℝ :=
  bpllDbrInt nint d F ((d.ml1 + d.ml2) ^ 2) ((d.mB - d.mP) ^ 2) eps * ((d.mB - d.mP) ^ 2 - (d.ml1 + d.ml2) ^ 2)

/-- `bpll_obs_int_ratio_func`.  /repo/flavio/physics/bdecays/bpll.py:176-183. -/
noncomputable def bpllIntRatio (nint : Nint) (d : PDecay) (Fn Fd : JP → JP → ℝ) (a b : ℝ) : ℝ :=
  if bpllObsInt nint d Fn a b (5 / 1000) = 0 then 0
  else bpllObsInt nint d Fn a b (5 / 1000) / bpllObsInt nint d Fd a b (5 / 1000)

/-- `bpll_obs_ratio_func`.  /repo/flavio/physics/bdecays/bpll.py:207-214. -/
noncomputable def bpllRatio (d : PDecay) (Fn Fd : JP → JP → ℝ) (q2 : ℝ) : ℝ :=
  if bpllObs d Fn q2 = 0 then 0 else bpllObs d Fn q2 / bpllObs d Fd q2

/-- `bpll_obs_int_ratio_leptonflavour`; `d1`, `d2` are the decays to the two lepton flavours.
/repo/flavio/physics/bdecays/bpll.py:185-194. -/
noncomputable def bpllIntRatioLfu (nint : Nint) (d1 d2 : PDecay) (F : JP → JP → ℝ) (a b : ℝ) : ℝ :=
  if bpllObsInt nint d1 F a b (5 / 10000) = 0 then 0
  else bpllObsInt nint d1 F a b (5 / 10000) / bpllObsInt nint d2 F a b (5 / 10000)

/-- `bpll_obs_ratio_leptonflavour`.  /repo/flavio/physics/bdecays/bpll.py:196-205. -/
noncomputable def bpllRatioLfu (d1 d2 : PDecay) (F : JP → JP → ℝ) (q2 : ℝ) : ℝ :=
  if bpllObs d1 F q2 = 0 then 0 else bpllObs d1 F q2 / bpllObs d2 F q2

open Classical in
/-- `bpll_dbrdq2_int` of the lepton-flavour violating decays: 0 if all Wilson coefficients `wc` are below 1e-12.
/repo/flavio/physics/bdecays/bpll_lfv.py:59-68. -/
noncomputable def lfvInt (nint : Nint) (wc : List ℂ) (d : PDecay) (a b eps : ℝ) : ℝ :=
  if ∀ v ∈ wc, ‖v‖ < 1 / 10 ^ 12 then 0 else bpllDbrInt nint d (fun J _ => dGdq2P J) a b eps

/-- `bpll_dbrdq2_tot_func` of the lepton-flavour violating decays.
/repo/flavio/physics/bdecays/bpll_lfv.py:73-82. -/
noncomputable def lfvTot (nint : Nint) (wc : List ℂ) (d : PDecay) : ℝ :=
  lfvInt nint wc d ((d.ml1 + d.ml2) ^ 2) ((d.mB - d.mP) ^ 2) (5 / 1000) * ((d.mB - d.mP) ^ 2 - (d.ml1 + d.ml2) ^ 2)

/-- `bpll_dbrdq2_tot_lfv_comb_func`: the range is computed from the first ordering `d` and used for both.
/repo/flavio/physics/bdecays/bpll_lfv.py:84-96. -/
noncomputable def lfvComb (nint : Nint) (wc wc' : List ℂ) (d d' : PDecay) : ℝ :=
  (lfvInt nint wc d ((d.ml1 + d.ml2) ^ 2) ((d.mB - d.mP) ^ 2) (5 / 1000)
    + lfvInt nint wc' d' ((d.ml1 + d.ml2) ^ 2) ((d.mB - d.mP) ^ 2) (5 / 1000))
    * ((d.mB - d.mP) ^ 2 - (d.ml1 + d.ml2) ^ 2)

/-! ## Specification -/

/-- The kinematically allowed region as `bpll.py` sees it: threshold excluded, endpoint included. (Specification.) -/
def PDecay.region (d : PDecay) : Set ℝ := Ioc ((d.ml1 + d.ml2) ^ 2) ((d.mB - d.mP) ^ 2)

/-- The value of a function of the angular coefficients at q².
Used for /repo/flavio/physics/bdecays/bpll.py:79-121. -/
noncomputable def PDecay.val (d : PDecay) (F : JP → JP → ℝ) (q2 : ℝ) : ℝ :=
  F (angularP (d.H q2) q2 d.mB d.mP d.ml1 d.ml2) (angularP (d.Hb q2) q2 d.mB d.mP d.ml1 d.ml2)

/-- Branching ratio per decay rate: the life time, halved for a neutral pion. (Specification.) -/
noncomputable def PDecay.norm (d : PDecay) : ℝ := if d.pi0 then d.tauB / 2 else d.tauB

theorem bpllObs_indicator (d : PDecay) (F : JP → JP → ℝ) : bpllObs d F = indicator d.region (d.val F) := by
  ext q
  unfold bpllObs indicator PDecay.region PDecay.val
  by_cases h : q ∈ Ioc ((d.ml1 + d.ml2) ^ 2) ((d.mB - d.mP) ^ 2)
  · rw [if_pos h, if_neg]
    rintro (h' | h')
    · exact absurd h.1 (not_lt.mpr h')
    · exact absurd h.2 (not_le.mpr h')
  · rw [if_neg h, if_pos]
    by_contra hc
    push Not at hc
    exact h ⟨hc.1, hc.2⟩

theorem bpllDbr_eq (d : PDecay) (F : JP → JP → ℝ) (q : ℝ) : bpllDbr d F q = d.norm * bpllObs d F q := by
  unfold bpllDbr PDecay.norm; split_ifs <;> ring

theorem bpllObs_ii (d : PDecay) (F : JP → JP → ℝ) (hf : IntegrableOn (d.val F) d.region volume) (a b : ℝ) :
    IntervalIntegrable (bpllObs d F) volume a b := by
  rw [bpllObs_indicator]
  exact ((integrable_indicator_iff measurableSet_Ioc).mpr hf).intervalIntegrable

theorem bpllObs_integral (d : PDecay) (F : JP → JP → ℝ) (a b : ℝ) (hab : a ≤ b) :
    ∫ q in a..b, bpllObs d F q = ∫ q in Ioc a b ∩ d.region, d.val F q := by
  have hm : MeasurableSet d.region := measurableSet_Ioc
  rw [intervalIntegral.integral_of_le hab, bpllObs_indicator, setIntegral_indicator hm]

/-- **C90 (kinematics).** At or below threshold and above the endpoint everything is exactly zero — differential
branching ratio, asymmetries and lepton-flavour ratios; strictly above threshold up to and including the endpoint the
angular coefficients are used.  (The vector decays of `bvll` include the threshold, see `Angular.allowed`.) -/
theorem C90_kinematics (d d' : PDecay) (Fn Fd : JP → JP → ℝ) (q : ℝ) :
    (q ∉ d.region → bpllObs d Fn q = 0 ∧ bpllDbr d Fn q = 0 ∧ bpllRatio d Fn Fd q = 0 ∧ bpllRatioLfu d d' Fn q = 0) ∧
    (q ∈ d.region → bpllObs d Fn q = d.val Fn q ∧ bpllDbr d Fn q = d.norm * d.val Fn q ∧
      (d.val Fd q ≠ 0 → bpllRatio d Fn Fd q = d.val Fn q / d.val Fd q) ∧
      (q ∈ d'.region → d'.val Fn q ≠ 0 → bpllRatioLfu d d' Fn q = d.val Fn q / d'.val Fn q)) ∧
    (d.ml1 + d.ml2) ^ 2 ∉ d.region ∧
    ((d.ml1 + d.ml2) ^ 2 < (d.mB - d.mP) ^ 2 → (d.mB - d.mP) ^ 2 ∈ d.region) := by
  refine ⟨fun h => ?_, fun h => ?_, fun h => absurd h.1 (lt_irrefl _), fun h => ⟨h, le_refl _⟩⟩
  · have e : bpllObs d Fn q = 0 := by rw [bpllObs_indicator]; exact indicator_of_notMem h _
    refine ⟨e, by rw [bpllDbr_eq, e, mul_zero], ?_, ?_⟩
    · unfold bpllRatio; rw [if_pos e]
    · unfold bpllRatioLfu; rw [if_pos e]
  · have e : ∀ F, bpllObs d F q = d.val F q := by
      intro F; rw [bpllObs_indicator]; exact indicator_of_mem h _
    refine ⟨e _, by rw [bpllDbr_eq, e], fun h0 => ?_, fun h' h0 => ?_⟩
    · unfold bpllRatio; rw [e, e]; split_ifs with hz
      · rw [hz, zero_div]
      · rfl
    · have e' : bpllObs d' Fn q = d'.val Fn q := by rw [bpllObs_indicator]; exact indicator_of_mem h' _
      unfold bpllRatioLfu; rw [e, e']; split_ifs with hz
      · rw [hz, zero_div]
      · rfl

/-- **C90 (bins).** With an exact integrator: the binned branching ratio is the average over the bin of the
differential one; neighbouring bins add up; a bin that misses the allowed region gives 0; every bin that covers the
allowed region contains the total branching ratio. -/
theorem C90_bins (nint : Nint) (hx : Exact nint) (d : PDecay) (F : JP → JP → ℝ) (eps eps' : ℝ)
    (hf : IntegrableOn (d.val F) d.region volume) (hr : (d.ml1 + d.ml2) ^ 2 < (d.mB - d.mP) ^ 2) :
    (∀ a b, a < b → bpllDbrInt nint d F a b eps = (∫ q in a..b, bpllDbr d F q) / (b - a)) ∧
    (∀ a b c, a < b → b < c → (c - a) * bpllDbrInt nint d F a c eps
      = (b - a) * bpllDbrInt nint d F a b eps + (c - b) * bpllDbrInt nint d F b c eps) ∧
    (∀ a b, a < b → (b ≤ (d.ml1 + d.ml2) ^ 2 ∨ (d.mB - d.mP) ^ 2 ≤ a) → bpllDbrInt nint d F a b eps = 0) ∧
    bpllTot nint d F eps = d.norm * ∫ q in ((d.ml1 + d.ml2) ^ 2)..((d.mB - d.mP) ^ 2), d.val F q ∧
    (∀ a b, a ≤ (d.ml1 + d.ml2) ^ 2 → (d.mB - d.mP) ^ 2 ≤ b →
      (b - a) * bpllDbrInt nint d F a b eps' = bpllTot nint d F eps) := by
  have ii : ∀ a b, IntervalIntegrable (bpllDbr d F) volume a b := by
    intro a b
    have := (bpllObs_ii d F hf a b).const_mul d.norm
    have e : bpllDbr d F = fun q => d.norm * bpllObs d F q := by ext q; exact bpllDbr_eq d F q
    rw [e]; exact this
  have av : ∀ e a b, bpllDbrInt nint d F a b e = (∫ q in a..b, bpllDbr d F q) / (b - a) := by
    intro e a b; unfold bpllDbrInt; rw [hx _ _ _ _ (ii a b)]
  have pull : ∀ a b, ∫ q in a..b, bpllDbr d F q = d.norm * ∫ q in a..b, bpllObs d F q := by
    intro a b
    rw [← intervalIntegral.integral_const_mul]
    congr 1; ext q; exact bpllDbr_eq d F q
  have cover : ∀ a b, a ≤ (d.ml1 + d.ml2) ^ 2 → (d.mB - d.mP) ^ 2 ≤ b →
      ∫ q in a..b, bpllDbr d F q = d.norm * ∫ q in ((d.ml1 + d.ml2) ^ 2)..((d.mB - d.mP) ^ 2), d.val F q := by
    intro a b h1 h2
    rw [pull, bpllObs_integral d F a b (by linarith), intervalIntegral.integral_of_le hr.le]
    congr 2
    have : Ioc a b ∩ d.region = d.region := by
      apply inter_eq_right.mpr
      intro x hx; exact ⟨lt_of_le_of_lt h1 hx.1, hx.2.trans h2⟩
    rw [this]; rfl
  have tot : bpllTot nint d F eps = d.norm * ∫ q in ((d.ml1 + d.ml2) ^ 2)..((d.mB - d.mP) ^ 2), d.val F q := by
    unfold bpllTot
    rw [av, cover _ _ le_rfl le_rfl, div_mul_cancel₀ _ (by linarith)]
  refine ⟨fun a b _ => av eps a b, ?_, ?_, tot, ?_⟩
  · intro a b c hab hbc
    rw [av, av, av, ← intervalIntegral.integral_add_adjacent_intervals (ii a b) (ii b c)]
    have h1 : b - a ≠ 0 := by linarith
    have h2 : c - b ≠ 0 := by linarith
    have h3 : c - a ≠ 0 := by linarith
    field_simp
  · intro a b hab h
    rw [av, pull, bpllObs_integral d F a b hab.le]
    have : Ioc a b ∩ d.region = ∅ := by
      rw [eq_empty_iff_forall_notMem]
      rintro x ⟨h1, h2⟩
      rcases h with h | h
      · exact absurd (lt_of_lt_of_le h2.1 (h1.2.trans h)) (lt_irrefl _)
      · exact absurd (lt_of_lt_of_le h1.1 (h2.2.trans h)) (lt_irrefl _)
    rw [this]; simp
  · intro a b h1 h2
    rw [av, cover a b h1 h2, tot, mul_div_cancel₀ _ (by linarith)]

/-- Bounds survive binning. -/
theorem bpllIntRatio_bound (nint : Nint) (hx : Exact nint) (d : PDecay) (Fn Fd : JP → JP → ℝ) (a b c : ℝ) (hab : a ≤ b)
    (hc : 0 ≤ c) (hb : ∀ q ∈ d.region, |d.val Fn q| ≤ c * d.val Fd q)
    (hn : IntegrableOn (d.val Fn) d.region volume) (hd : IntegrableOn (d.val Fd) d.region volume) :
    |bpllIntRatio nint d Fn Fd a b| ≤ c ∧
      |∫ q in a..b, bpllObs d Fn q| ≤ c * ∫ q in a..b, bpllObs d Fd q := by
  have h1 : |∫ q in a..b, bpllObs d Fn q| ≤ c * ∫ q in a..b, bpllObs d Fd q := by
    rw [← intervalIntegral.integral_const_mul]
    refine (intervalIntegral.abs_integral_le_integral_abs hab).trans ?_
    refine intervalIntegral.integral_mono_on hab (bpllObs_ii d Fn hn a b).abs ((bpllObs_ii d Fd hd a b).const_mul c) ?_
    intro q _
    rw [bpllObs_indicator, bpllObs_indicator]
    by_cases h : q ∈ d.region
    · rw [indicator_of_mem h, indicator_of_mem h]; exact hb q h
    · rw [indicator_of_notMem h, indicator_of_notMem h]; simp
  refine ⟨?_, h1⟩
  unfold bpllIntRatio bpllObsInt
  rw [hx _ _ _ _ (bpllObs_ii d Fn hn a b), hx _ _ _ _ (bpllObs_ii d Fd hd a b)]
  split_ifs with h0
  · simpa using hc
  · rcases hc.eq_or_lt with rfl | hc'
    · rw [zero_mul] at h1
      exact absurd (abs_eq_zero.mp (le_antisymm h1 (abs_nonneg _))) h0
    · have h2 : 0 ≤ ∫ q in a..b, bpllObs d Fd q := nonneg_of_mul_nonneg_right ((abs_nonneg _).trans h1) hc'
      rw [abs_div, abs_of_nonneg h2]
      exact div_le_of_le_mul₀ h2 hc h1

/-- The three coefficients are integrable over the allowed region, for both sets of amplitudes. (Specification.) -/
def PDecay.Integrable (d : PDecay) : Prop :=
  ∀ f ∈ [JP.a, JP.b, JP.c], IntegrableOn (d.val fun J _ => f J) d.region volume ∧
    IntegrableOn (d.val fun _ Jb => f Jb) d.region volume

theorem PDecay.Integrable.lin {d : PDecay} (h : d.Integrable) (x y z x' y' z' : ℝ) :
    IntegrableOn (d.val fun J Jb => x * J.a + y * J.b + z * J.c + (x' * Jb.a + y' * Jb.b + z' * Jb.c)) d.region volume := by
  have ha := h JP.a (by simp)
  have hb := h JP.b (by simp)
  have hc := h JP.c (by simp)
  exact (((ha.1.const_mul x).add (hb.1.const_mul y)).add (hc.1.const_mul z)).add
    (((ha.2.const_mul x').add (hb.2.const_mul y')).add (hc.2.const_mul z'))

/-- **C90 (ranges of binned observables).** For arbitrary amplitudes and every bin, inside, across or outside the
allowed region: the binned branching ratio is not negative, `0 ≤ ⟨F_H⟩ ≤ 3`, `|⟨A_FB⟩| ≤ ⟨F_H⟩/2`, `|⟨A_CP⟩| ≤ 1`, and
the division is by a non-zero number whenever it is carried out. -/
theorem C90_binned_ranges (nint : Nint) (hx : Exact nint) (d : PDecay) (hi : d.Integrable) (hB : 0 < d.mB)
    (h1 : 0 ≤ d.ml1) (h2 : 0 ≤ d.ml2) (ht : 0 ≤ d.tauB) (a b eps : ℝ) (hab : a < b) :
    let FH := bpllIntRatio nint d (cpAve fhNumP) (cpAve dGdq2P) a b
    let AFB := bpllIntRatio nint d (cpAve afbNumP) (cpAve dGdq2P) a b
    let ACP := bpllIntRatio nint d (cpDiff dGdq2P) (cpAve dGdq2P) a b
    0 ≤ bpllDbrInt nint d (cpAve dGdq2P) a b eps ∧ 0 ≤ FH ∧ FH ≤ 3 ∧ |AFB| ≤ FH / 2 ∧ |ACP| ≤ 1 ∧
    ((bpllObsInt nint d (cpAve fhNumP) a b (5 / 1000) ≠ 0 ∨ bpllObsInt nint d (cpAve afbNumP) a b (5 / 1000) ≠ 0 ∨
      bpllObsInt nint d (cpDiff dGdq2P) a b (5 / 1000) ≠ 0) →
        0 < bpllObsInt nint d (cpAve dGdq2P) a b (5 / 1000)) := by
  intro FH AFB ACP
  have iG : IntegrableOn (d.val (cpAve dGdq2P)) d.region volume := by
    have := hi.lin 1 0 (1/3) 1 0 (1/3)
    have e : (fun J Jb : JP => 1 * J.a + 0 * J.b + 1/3 * J.c + (1 * Jb.a + 0 * Jb.b + 1/3 * Jb.c)) = cpAve dGdq2P := by
      ext J Jb; unfold cpAve dGdq2P; ring
    rwa [e] at this
  have iF : IntegrableOn (d.val (cpAve fhNumP)) d.region volume := by
    have := hi.lin 1 0 1 1 0 1
    have e : (fun J Jb : JP => 1 * J.a + 0 * J.b + 1 * J.c + (1 * Jb.a + 0 * Jb.b + 1 * Jb.c)) = cpAve fhNumP := by
      ext J Jb; unfold cpAve fhNumP; ring
    rwa [e] at this
  have iA : IntegrableOn (d.val (cpAve afbNumP)) d.region volume := by
    have := hi.lin 0 (1/2) 0 0 (1/2) 0
    have e : (fun J Jb : JP => 0 * J.a + 1/2 * J.b + 0 * J.c + (0 * Jb.a + 1/2 * Jb.b + 0 * Jb.c)) = cpAve afbNumP := by
      ext J Jb; unfold cpAve afbNumP; ring
    rwa [e] at this
  have iC : IntegrableOn (d.val (cpDiff dGdq2P)) d.region volume := by
    have := hi.lin 1 0 (1/3) (-1) 0 (-1/3)
    have e : (fun J Jb : JP => 1 * J.a + 0 * J.b + 1/3 * J.c + ((-1) * Jb.a + 0 * Jb.b + (-1/3) * Jb.c)) = cpDiff dGdq2P := by
      ext J Jb; unfold cpDiff dGdq2P; ring
    rwa [e] at this
  have phys : ∀ q ∈ d.region, Physical (angularP (d.H q) q d.mB d.mP d.ml1 d.ml2) ∧
      Physical (angularP (d.Hb q) q d.mB d.mP d.ml1 d.ml2) := by
    intro q hq
    have hq0 : 0 < q := lt_of_le_of_lt (sq_nonneg _) hq.1
    exact ⟨fun x hx => C79_distribution_nonneg _ q d.mB d.mP d.ml1 d.ml2 hB h1 h2 hq0 hq.1.le x hx,
      fun x hx => C79_distribution_nonneg _ q d.mB d.mP d.ml1 d.ml2 hB h1 h2 hq0 hq.1.le x hx⟩
  have g0 : ∀ q ∈ d.region, 0 ≤ d.val (cpAve dGdq2P) q ∧ 0 ≤ d.val (cpAve fhNumP) q ∧
      |d.val (cpAve fhNumP) q| ≤ 3 * d.val (cpAve dGdq2P) q ∧
      |d.val (cpAve afbNumP) q| ≤ 1 / 2 * d.val (cpAve fhNumP) q ∧
      |d.val (cpDiff dGdq2P) q| ≤ 1 * d.val (cpAve dGdq2P) q := by
    intro q hq
    obtain ⟨p, pb⟩ := phys q hq
    obtain ⟨a1, a2, a3, a4⟩ := physical_ineq p
    obtain ⟨b1, b2, b3, b4⟩ := physical_ineq pb
    unfold PDecay.val
    set J := angularP (d.H q) q d.mB d.mP d.ml1 d.ml2
    set Jb := angularP (d.Hb q) q d.mB d.mP d.ml1 d.ml2
    have u := abs_le.mp a2; have v := abs_le.mp b2
    have f0 : 0 ≤ cpAve fhNumP J Jb := by unfold cpAve fhNumP; linarith [abs_nonneg J.b, abs_nonneg Jb.b]
    refine ⟨by unfold cpAve; linarith, f0, ?_, ?_, ?_⟩
    · rw [abs_of_nonneg f0]; unfold cpAve; linarith
    · rw [abs_le]; unfold cpAve afbNumP fhNumP; constructor <;> linarith
    · rw [abs_le]; unfold cpDiff cpAve; constructor <;> linarith
  have nn : ∀ F, (∀ q ∈ d.region, 0 ≤ d.val F q) → 0 ≤ ∫ q in a..b, bpllObs d F q := by
    intro F hF
    apply intervalIntegral.integral_nonneg hab.le
    intro q _
    rw [bpllObs_indicator]; exact indicator_nonneg hF q
  have nG := nn _ fun q hq => (g0 q hq).1
  have nF := nn _ fun q hq => (g0 q hq).2.1
  have bF := bpllIntRatio_bound nint hx d (cpAve fhNumP) (cpAve dGdq2P) a b 3 hab.le (by norm_num)
    (fun q hq => (g0 q hq).2.2.1) iF iG
  have bC := bpllIntRatio_bound nint hx d (cpDiff dGdq2P) (cpAve dGdq2P) a b 1 hab.le (by norm_num)
    (fun q hq => (g0 q hq).2.2.2.2) iC iG
  have bA := bpllIntRatio_bound nint hx d (cpAve afbNumP) (cpAve fhNumP) a b (1/2) hab.le (by norm_num)
    (fun q hq => (g0 q hq).2.2.2.1) iA iF
  have eI : ∀ F, IntegrableOn (d.val F) d.region volume → ∀ e, bpllObsInt nint d F a b e = ∫ q in a..b, bpllObs d F q :=
    fun F hF e => hx _ _ _ _ (bpllObs_ii d F hF a b)
  have hR : ∀ F, IntegrableOn (d.val F) d.region volume → bpllIntRatio nint d F (cpAve dGdq2P) a b
      = (∫ q in a..b, bpllObs d F q) / ∫ q in a..b, bpllObs d (cpAve dGdq2P) q := by
    intro F hF
    unfold bpllIntRatio
    rw [eI F hF, eI _ iG]
    split_ifs with h
    · rw [h, zero_div]
    · rfl
  have eF : FH = _ := hR _ iF
  have eA : AFB = _ := hR _ iA
  refine ⟨?_, ?_, (le_abs_self _).trans bF.1, ?_, bC.1, ?_⟩
  · have hN : 0 ≤ d.norm := by unfold PDecay.norm; split_ifs <;> linarith
    have e : bpllDbr d (cpAve dGdq2P) = fun q => d.norm * bpllObs d (cpAve dGdq2P) q := by
      ext q; exact bpllDbr_eq d _ q
    unfold bpllDbrInt
    rw [e, hx _ _ _ _ ((bpllObs_ii d _ iG a b).const_mul _), intervalIntegral.integral_const_mul]
    exact div_nonneg (mul_nonneg hN nG) (by linarith)
  · rw [eF]; exact div_nonneg nF nG
  · rw [eF, eA, abs_div, abs_of_nonneg nG, div_div, mul_comm, ← div_div]
    refine div_le_div_of_nonneg_right ?_ nG
    linarith [bA.2]
  · rw [eI _ iF, eI _ iA, eI _ iC, eI _ iG]
    intro h
    refine lt_of_le_of_ne nG (fun h0 => ?_)
    rw [← h0] at bF bC
    have f0 : ∫ q in a..b, bpllObs d (cpAve fhNumP) q = 0 := by
      have := bF.2; rw [mul_zero] at this; exact abs_eq_zero.mp (le_antisymm this (abs_nonneg _))
    have c0 : ∫ q in a..b, bpllObs d (cpDiff dGdq2P) q = 0 := by
      have := bC.2; rw [mul_zero] at this; exact abs_eq_zero.mp (le_antisymm this (abs_nonneg _))
    have a0 : ∫ q in a..b, bpllObs d (cpAve afbNumP) q = 0 := by
      have := bA.2; rw [f0, mul_zero] at this; exact abs_eq_zero.mp (le_antisymm this (abs_nonneg _))
    rcases h with h | h | h
    · exact h f0
    · exact h a0
    · exact h c0

/-- **C90 (neutral pion).** Declaring the pseudoscalar a neutral pion halves every branching ratio — differential,
binned and total — and changes no asymmetry or lepton-flavour ratio.  With an integrator that is homogeneous. -/
theorem C90_neutral_pion (nint : Nint) (hh : ∀ c f a b e, nint (fun q => c * f q) a b e = c * nint f a b e)
    (d d' : PDecay) (F G : JP → JP → ℝ) (q a b eps : ℝ) (hd : d.pi0 = false) :
    let dp : PDecay := { d with pi0 := true }
    bpllDbr dp F q = bpllDbr d F q / 2 ∧ bpllDbrInt nint dp F a b eps = bpllDbrInt nint d F a b eps / 2 ∧
    bpllTot nint dp F eps = bpllTot nint d F eps / 2 ∧
    bpllRatio dp F G q = bpllRatio d F G q ∧ bpllIntRatio nint dp F G a b = bpllIntRatio nint d F G a b ∧
    bpllIntRatioLfu nint dp d' F a b = bpllIntRatioLfu nint d d' F a b := by
  intro dp
  have p : ∀ q, bpllDbr dp F q = 1 / 2 * bpllDbr d F q := by
    intro q; unfold bpllDbr bpllObs; simp only [hd, dp, if_true]
    simp only [Bool.false_eq_true, if_false]; ring
  have i : ∀ a b, bpllDbrInt nint dp F a b eps = bpllDbrInt nint d F a b eps / 2 := by
    intro a b; unfold bpllDbrInt
    have : bpllDbr dp F = fun q => 1 / 2 * bpllDbr d F q := funext p
    rw [this, hh]; ring
  refine ⟨by rw [p]; ring, i a b, ?_, rfl, rfl, rfl⟩
  unfold bpllTot; rw [i]; ring

/-- **C90 (lepton universality).** Identical decays give exactly 1 whenever the rate does not vanish; exchanging
numerator and denominator inverts the ratio; a non-zero differential ratio needs both decays above their thresholds
when the numerator has the heavier lepton. -/
theorem C90_lepton_flavour (nint : Nint) (d d' : PDecay) (F : JP → JP → ℝ) (q a b : ℝ) :
    (bpllObs d F q ≠ 0 → bpllRatioLfu d d F q = 1) ∧
    (bpllObsInt nint d F a b (5 / 10000) ≠ 0 → bpllIntRatioLfu nint d d F a b = 1) ∧
    (bpllObs d F q ≠ 0 → bpllObs d' F q ≠ 0 → bpllRatioLfu d d' F q * bpllRatioLfu d' d F q = 1) ∧
    (bpllObsInt nint d F a b (5 / 10000) ≠ 0 → bpllObsInt nint d' F a b (5 / 10000) ≠ 0 →
      bpllIntRatioLfu nint d d' F a b * bpllIntRatioLfu nint d' d F a b = 1) ∧
    (d.mB = d'.mB → d.mP = d'.mP → 0 ≤ d'.ml1 → 0 ≤ d'.ml2 → d'.ml1 ≤ d.ml1 → d'.ml2 ≤ d.ml2 →
      bpllRatioLfu d d' F q ≠ 0 → q ∈ d.region ∧ q ∈ d'.region) := by
  refine ⟨fun h => ?_, fun h => ?_, fun h h' => ?_, fun h h' => ?_, fun h1 h2 h3 h4 h5 h6 h => ?_⟩
  · unfold bpllRatioLfu; rw [if_neg h, div_self h]
  · unfold bpllIntRatioLfu; rw [if_neg h, div_self h]
  · unfold bpllRatioLfu; rw [if_neg h, if_neg h']; field_simp
  · unfold bpllIntRatioLfu; rw [if_neg h, if_neg h']; field_simp
  · have hq : q ∈ d.region := by
      by_contra hc
      exact h (((C90_kinematics d d' F F q).1 hc).2.2.2)
    refine ⟨hq, lt_of_le_of_lt ?_ hq.1, ?_⟩
    · exact pow_le_pow_left₀ (by linarith) (by linarith) 2
    · rw [← h1, ← h2]; exact hq.2

/-- **C90 (lepton-flavour violation).** Wilson coefficients that are all zero give exactly zero for every integrator;
the sum over the two charge assignments is the sum of the two predictions and does not depend on which is named
first; the total is not negative. -/
theorem C90_lfv (nint : Nint) (hx : Exact nint) (wc wc' : List ℂ) (d d' : PDecay)
    (hm : d'.ml1 = d.ml2 ∧ d'.ml2 = d.ml1 ∧ d'.mB = d.mB ∧ d'.mP = d.mP)
    (hi : IntegrableOn (d.val fun J _ => dGdq2P J) d.region volume) :
    ((∀ v ∈ wc, v = 0) → lfvTot nint wc d = 0) ∧
    lfvComb nint wc wc' d d' = lfvTot nint wc d + lfvTot nint wc' d' ∧
    lfvComb nint wc wc' d d' = lfvComb nint wc' wc d' d ∧
    (0 < d.mB → 0 ≤ d.ml1 → 0 ≤ d.ml2 → 0 ≤ d.tauB → (d.ml1 + d.ml2) ^ 2 < (d.mB - d.mP) ^ 2 → 0 ≤ lfvTot nint wc d) ∧
    ((∃ v ∈ wc, 1 / 10 ^ 12 ≤ ‖v‖) → (d.ml1 + d.ml2) ^ 2 < (d.mB - d.mP) ^ 2 → lfvTot nint wc d
      = d.norm * ∫ q in ((d.ml1 + d.ml2) ^ 2)..((d.mB - d.mP) ^ 2), d.val (fun J _ => dGdq2P J) q) := by
  obtain ⟨e1, e2, e3, e4⟩ := hm
  have hs : (d'.ml1 + d'.ml2) ^ 2 = (d.ml1 + d.ml2) ^ 2 := by rw [e1, e2]; ring
  have hfull : (d.ml1 + d.ml2) ^ 2 < (d.mB - d.mP) ^ 2 → (∃ v ∈ wc, 1 / 10 ^ 12 ≤ ‖v‖) → lfvTot nint wc d
      = d.norm * ∫ q in ((d.ml1 + d.ml2) ^ 2)..((d.mB - d.mP) ^ 2), d.val (fun J _ => dGdq2P J) q := by
    intro hr ⟨v, hv, hb⟩
    have := (C90_bins nint hx d (fun J _ => dGdq2P J) (5 / 1000) 0 hi hr).2.2.2.1
    rw [← this]
    unfold lfvTot lfvInt bpllTot
    rw [if_neg (fun h => absurd (h v hv) (not_lt.mpr hb))]
  refine ⟨fun h => ?_, ?_, ?_, fun hB h1 h2 ht hr => ?_, fun hv hr => hfull hr hv⟩
  · unfold lfvTot lfvInt
    rw [if_pos (fun v hv => by rw [h v hv]; norm_num), zero_mul]
  · unfold lfvComb lfvTot
    rw [hs, e3, e4]; ring
  · unfold lfvComb
    rw [hs, e3, e4]; ring
  · by_cases hv : ∃ v ∈ wc, 1 / 10 ^ 12 ≤ ‖v‖
    · rw [hfull hr hv]
      have hN : 0 ≤ d.norm := by unfold PDecay.norm; split_ifs <;> linarith
      refine mul_nonneg hN ?_
      rw [intervalIntegral.integral_of_le hr.le]
      refine setIntegral_nonneg measurableSet_Ioc fun q hq => ?_
      have hq0 : 0 < q := lt_of_le_of_lt (sq_nonneg _) hq.1
      exact (physical_ineq (fun x hx =>
        C79_distribution_nonneg _ q d.mB d.mP d.ml1 d.ml2 hB h1 h2 hq0 hq.1.le x hx)).1
    · push Not at hv
      unfold lfvTot lfvInt
      rw [if_pos hv, zero_mul]

/-- A concrete decay: massive leptons, constant vector, axial, scalar and pseudoscalar amplitudes. -/
noncomputable def sampleP : PDecay :=
  ⟨5, 1, 1, 1, 1, false, fun _ => ⟨1, 2, 1, 1, 0, 0⟩, fun _ => ⟨1, 1, 2, 1, 0, 0⟩⟩

theorem lambdaK_max (a b c : ℝ) : lambdaK a b c = max 0 (kallen a b c) := by
  unfold lambdaK; split_ifs with h
  · rw [max_eq_left h.le]
  · rw [max_eq_right (not_lt.mp h)]

theorem const_integrable (h : AmpP) (mB mP m1 m2 c : ℝ) (hB : 0 < mB) (hm : 0 < m1 + m2) :
    (IntegrableOn (fun q => (angularP h q mB mP m1 m2).a) (Ioc ((m1 + m2) ^ 2) c) volume) ∧
    (IntegrableOn (fun q => (angularP h q mB mP m1 m2).b) (Ioc ((m1 + m2) ^ 2) c) volume) ∧
    (IntegrableOn (fun q => (angularP h q mB mP m1 m2).c) (Ioc ((m1 + m2) ^ 2) c) volume) := by
  have hq0 : ∀ q ∈ Icc ((m1 + m2) ^ 2) c, q ≠ 0 := fun q hq => (lt_of_lt_of_le (by positivity) hq.1).ne'
  have hs0 : ∀ q ∈ Icc ((m1 + m2) ^ 2) c, Real.sqrt q ≠ 0 := fun q hq =>
    (Real.sqrt_pos.mpr (lt_of_lt_of_le (by positivity) hq.1)).ne'
  have hl : Continuous fun q => laGa q m1 m2 := by
    unfold laGa; simp only [lambdaK_max, kallen]; fun_prop
  have hL : Continuous fun q => lambdaK (mB ^ 2) (mP ^ 2) q := by
    simp only [lambdaK_max, kallen]; fun_prop
  have hE : ∀ m, ContinuousOn (fun q => energy q m1 m2 m) (Icc ((m1 + m2) ^ 2) c) := by
    intro m; unfold energy
    refine Real.continuous_sqrt.comp_continuousOn (continuousOn_const.add (hl.continuousOn.div (by fun_prop) ?_))
    intro q hq; have := hq0 q hq; positivity
  have hp : ContinuousOn (fun q => phaseSpace (2 ^ 9 * Real.pi ^ 3) q mB mP m1 m2) (Icc ((m1 + m2) ^ 2) c) := by
    unfold phaseSpace
    refine ((Real.continuous_sqrt.comp hL).mul (Real.continuous_sqrt.comp hl)).continuousOn.div (by fun_prop) ?_
    intro q hq; have := hq0 q hq; have := Real.pi_pos; positivity
  have d1 : ∀ k : ℝ, k ≠ 0 → ContinuousOn (fun q => laGa q m1 m2 / (k * q)) (Icc ((m1 + m2) ^ 2) c) := by
    intro k hk
    exact hl.continuousOn.div (by fun_prop) (fun q hq => mul_ne_zero hk (hq0 q hq))
  have d0 : ContinuousOn (fun q => laGa q m1 m2 / q) (Icc ((m1 + m2) ^ 2) c) :=
    hl.continuousOn.div (by fun_prop) hq0
  have g0 : ContinuousOn (fun q => (gbasisP0 h q m1 m2).g0) (Icc ((m1 + m2) ^ 2) c) := by
    unfold gbasisP0
    have := hE m1; have := hE m2; have := d1 3 (by norm_num); have := d1 12 (by norm_num)
    simp only
    fun_prop
  have g2 : ContinuousOn (fun q => (gbasisP0 h q m1 m2).g2) (Icc ((m1 + m2) ^ 2) c) := by
    unfold gbasisP0
    have := d1 3 (by norm_num)
    simp only [mul_div_assoc]
    fun_prop
  have sq : Continuous fun q => Real.sqrt (laGa q m1 m2) := Real.continuous_sqrt.comp hl
  have sd : ∀ k : ℝ, ContinuousOn (fun q => ((k / Real.sqrt q : ℝ) : ℂ)) (Icc ((m1 + m2) ^ 2) c) := by
    intro k
    exact Complex.continuous_ofReal.comp_continuousOn (continuousOn_const.div (by fun_prop) hs0)
  have g1 : ContinuousOn (fun q => (gbasisP0 h q m1 m2).g1) (Icc ((m1 + m2) ^ 2) c) := by
    unfold gbasisP0
    have e1 := sd (m1 + m2); have e2 := sd (m1 - m2)
    simp only
    refine (continuousOn_const.mul sq.continuousOn).mul (ContinuousOn.sub ?_ continuousOn_const)
    exact Complex.continuous_re.comp_continuousOn (((e1.mul continuousOn_const).mul continuousOn_const).add
      ((e2.mul continuousOn_const).mul continuousOn_const))
  have fin : ∀ f : ℝ → ℝ, ContinuousOn f (Icc ((m1 + m2) ^ 2) c) → IntegrableOn f (Ioc ((m1 + m2) ^ 2) c) volume :=
    fun f hf => (hf.integrableOn_compact isCompact_Icc).mono_set Ioc_subset_Icc_self
  refine ⟨fin _ ?_, fin _ ?_, fin _ ?_⟩
  · exact (hp.mul g0).sub ((hp.mul g2).div_const 2)
  · exact hp.mul g1
  · exact (continuousOn_const.mul (hp.mul g2)).div_const 2

/-- The hypotheses of the theorems above are met by a decay with a non-vanishing forward-backward asymmetry and CP
violation, and its rate is positive inside the allowed region. -/
theorem C90_sample : sampleP.Integrable ∧ (sampleP.ml1 + sampleP.ml2) ^ 2 < (sampleP.mB - sampleP.mP) ^ 2 ∧
    0 < sampleP.val (cpAve dGdq2P) 8 ∧ 0 < |sampleP.val (cpAve afbNumP) 8| ∧ 0 < |sampleP.val (cpDiff dGdq2P) 8| := by
  have hl : laGa 8 1 1 = 32 := by unfold laGa lambdaK kallen; norm_num
  have hE : energy 8 1 1 1 = Real.sqrt 2 := by
    unfold energy; rw [hl]; norm_num
  have hf : 0 < phaseSpace (2 ^ 9 * Real.pi ^ 3) 8 5 1 1 1 := by
    unfold phaseSpace
    rw [hl]
    have : 0 < lambdaK (5 ^ 2) (1 ^ 2) 8 := by unfold lambdaK kallen; norm_num
    positivity
  have s2 : Real.sqrt 2 * Real.sqrt 2 = 2 := Real.mul_self_sqrt (by norm_num)
  have s32 : 0 < Real.sqrt 32 := by positivity
  have s8 : 0 < Real.sqrt 8 := by positivity
  refine ⟨?_, ?_, ?_, ?_, ?_⟩
  · intro f hf
    have A := const_integrable ⟨1, 2, 1, 1, 0, 0⟩ 5 1 1 1 ((5 - 1) ^ 2) (by norm_num) (by norm_num)
    have B := const_integrable ⟨1, 1, 2, 1, 0, 0⟩ 5 1 1 1 ((5 - 1) ^ 2) (by norm_num) (by norm_num)
    simp only [List.mem_cons, List.not_mem_nil, or_false] at hf
    rcases hf with rfl | rfl | rfl
    · exact ⟨A.1, B.1⟩
    · exact ⟨A.2.1, B.2.1⟩
    · exact ⟨A.2.2, B.2.2⟩
  · norm_num [sampleP]
  · simp only [sampleP, PDecay.val, cpAve, dGdq2P, angularP, gbasisP, gbasisP0, hl, hE, s2]
    norm_num at hf ⊢
    linarith
  · simp only [sampleP, PDecay.val, cpAve, afbNumP, angularP, gbasisP, gbasisP0, hl, hE, s2]
    norm_num at hf ⊢
    have k : 0 < phaseSpace (512 * Real.pi ^ 3) 8 5 1 1 1 * (4 * Real.sqrt 32 * (2 / Real.sqrt 8)) := by positivity
    intro h0
    linarith
  · simp only [sampleP, PDecay.val, cpDiff, dGdq2P, angularP, gbasisP, gbasisP0, hl, hE, s2]
    norm_num at hf ⊢
    intro h0
    linarith

/-- The integral itself is an exact and homogeneous integrator. -/
example : Exact (fun f a b _ => ∫ x in a..b, f x) ∧
    ∀ (c : ℝ) (f : ℝ → ℝ) (a b : ℝ), (∫ x in a..b, c * f x) = c * ∫ x in a..b, f x :=
  ⟨fun _ _ _ _ _ => rfl, fun c f a b => intervalIntegral.integral_const_mul _ _⟩

end Verif.Angular
