import Verif.Physics.Dileptons.Ppll
/-!
# `pp → ℓ⁺ℓ⁻`: integrated cross sections and the ratio to the Standard Model
-/
set_option linter.unusedVariables false
set_option linter.unusedSimpArgs false
namespace Verif.Dileptons
open Verif.Py Verif.Running Complex MeasureTheory

local notation "conj" => starRingEnd ℂ

/-- The cross section as a function of `τ`, for a choice of coefficients at each `ŝ`. (Specification.) -/
noncomputable def sigAt (lumi : ℤ → ℤ → ℝ → ℝ) (s : ℝ) (il : Fin 3) (wc : ℝ → WcEff) (t : ℝ) : ℝ :=
  hadronic lumi t fun U i j => ∫ c in (-1)..1, dsdc (t * s) c (contact (wc (t * s) U) il i j)

/-- The coefficients with and without new physics. (Specification.) -/
noncomputable def full (q : Inp) (scale : ℝ) (np : Bool) (sh : ℝ) : WcEff :=
  if np then addWc (wcSM q.p sh) (wcNP (q.C scale) q.V) else wcSM q.p sh

theorem sigmaInt_eq (nint : Angular.Nint) (q : Inp) (s a b Q2 scale : ℝ) (np : Bool) {l : String} {il : Fin 3} (hl : (l, il) ∈ leptonOf) :
    sigmaInt nint q s a b l Q2 scale np = .ok (nint (sigAt (q.lumi Q2 (pyInt q.member)) s il (full q scale np)) (a ^ 2 / s) (b ^ 2 / s) 1e-5) := by
  have e : ∀ t, dsigma (q.lumi Q2 (pyInt q.member)) s t l (full q scale np (t * s)) = .ok (sigAt (q.lumi Q2 (pyInt q.member)) s il (full q scale np) t) :=
    fun t => C136_hadronic _ s t _ hl
  have : sigmaInt nint q s a b l Q2 scale np = integral nint (fun t => dsigma (q.lumi Q2 (pyInt q.member)) s t l (full q scale np (t * s))) (a ^ 2 / s) (b ^ 2 / s) := rfl
  rw [this]
  unfold integral
  simp only [e, val]

theorem ratio_eq (nint : Angular.Nint) (q : Inp) (s a b : ℝ) {l : String} {il : Fin 3} (hl : (l, il) ∈ leptonOf) :
    ratio nint q s a b l = pyDiv (nint (sigAt (q.lumi (((a + b) / 2) ^ 2) (pyInt q.member)) s il (full q ((a + b) / 2) true)) (a ^ 2 / s) (b ^ 2 / s) 1e-5)
      (nint (sigAt (q.lumi (((a + b) / 2) ^ 2) (pyInt q.member)) s il (full q ((a + b) / 2) false)) (a ^ 2 / s) (b ^ 2 / s) 1e-5) := by
  unfold ratio
  simp only [sigmaInt_eq nint q s a b _ _ _ hl, Bind.bind, Except.bind]

/-! ## Continuity and sign -/

/-- Physical parameters, a bin inside the kinematic range, and a luminosity that is continuous and non-negative there, positive for
down quarks. (Specification.) -/
structure Good (q : Inp) (s a b : ℝ) : Prop where
  s0 : 0 < q.p.s2w
  s1 : q.p.s2w < 1
  al : 0 < q.p.alphaE
  mZ : 0 < q.p.mZ
  tZ : 0 < q.p.tauZ
  sp : 0 < s
  ap : 0 < a
  ab : a < b
  lc : ∀ i j, ContinuousOn (q.lumi (((a + b) / 2) ^ 2) (pyInt q.member) i j) (Set.Icc (a ^ 2 / s) (b ^ 2 / s))
  ln : ∀ i j, ∀ t ∈ Set.Icc (a ^ 2 / s) (b ^ 2 / s), 0 ≤ q.lumi (((a + b) / 2) ^ 2) (pyInt q.member) i j t
  ld : ∀ t ∈ Set.Icc (a ^ 2 / s) (b ^ 2 / s), 0 < q.lumi (((a + b) / 2) ^ 2) (pyInt q.member) 1 (-1) t

theorem denom_ne {p : Zpole.Par} (hm : 0 < p.mZ) (ht : 0 < p.tauZ) (s : ℝ) : (((s - p.mZ ^ 2 : ℝ) : ℂ) + I * ((p.mZ * (1 / p.tauZ) : ℝ) : ℂ)) ≠ 0 := by
  intro h
  have := congrArg Complex.im h
  simp only [add_im, ofReal_im, mul_im, I_re, I_im, ofReal_re, zero_mul, zero_add, one_mul, zero_im] at this
  have : 0 < p.mZ * (1 / p.tauZ) := by positivity
  linarith

theorem smAmp_cont {p : Zpole.Par} (hm : 0 < p.mZ) (ht : 0 < p.tauZ) (U : UD) (Xq Xl : Chi) {s : ℝ} (hs : 0 < s) :
    ContinuousOn (fun t => smAmp p U Xq Xl (t * s)) (Set.Ioi 0) := by
  unfold smAmp
  refine ContinuousOn.add ?_ ?_
  · refine Complex.continuous_ofReal.comp_continuousOn (ContinuousOn.div continuousOn_const (by fun_prop) fun t h => ?_)
    exact (mul_pos h hs).ne'
  · refine ContinuousOn.div continuousOn_const ?_ fun t h => denom_ne hm ht _
    exact (Continuous.continuousOn (by fun_prop))

/-- All entries are continuous. (Specification.) -/
def ContAmp (A : ℝ → Amp) (S : Set ℝ) : Prop :=
  ∀ i j k l, ContinuousOn (fun t => (A t).VLL i j k l) S ∧ ContinuousOn (fun t => (A t).VLR i j k l) S ∧ ContinuousOn (fun t => (A t).VRL i j k l) S
    ∧ ContinuousOn (fun t => (A t).VRR i j k l) S ∧ ContinuousOn (fun t => (A t).SRL i j k l) S ∧ ContinuousOn (fun t => (A t).SRR i j k l) S ∧ ContinuousOn (fun t => (A t).TRR i j k l) S

theorem full_cont {q : Inp} {s a b : ℝ} (h : Good q s a b) (scale : ℝ) (np : Bool) (U : UD) : ContAmp (fun t => full q scale np (t * s) U) (Set.Icc (a ^ 2 / s) (b ^ 2 / s)) := by
  have hS : Set.Icc (a ^ 2 / s) (b ^ 2 / s) ⊆ Set.Ioi 0 := fun t ht => by
    have := h.ap; have := h.sp
    exact (show (0 : ℝ) < a ^ 2 / s by positivity).trans_le ht.1
  have k := fun Xq Xl => (smAmp_cont h.mZ h.tZ U Xq Xl h.sp).mono hS
  intro i j m n
  cases np
  · simp only [full, wcSM, Bool.false_eq_true, if_false]
    exact ⟨(k _ _).mul continuousOn_const, (k _ _).mul continuousOn_const, (k _ _).mul continuousOn_const, (k _ _).mul continuousOn_const, continuousOn_const, continuousOn_const, continuousOn_const⟩
  · simp only [full, addWc, wcSM, if_true, Pi.add_apply]
    exact ⟨((k _ _).mul continuousOn_const).add continuousOn_const, ((k _ _).mul continuousOn_const).add continuousOn_const, ((k _ _).mul continuousOn_const).add continuousOn_const,
      ((k _ _).mul continuousOn_const).add continuousOn_const, continuousOn_const.add continuousOn_const, continuousOn_const.add continuousOn_const, continuousOn_const.add continuousOn_const⟩

theorem sumSq_cont {A : ℝ → Amp} {S : Set ℝ} (h : ContAmp A S) (il i j : Fin 3) : ContinuousOn (fun t => sumSq (A t) il i j) S := by
  obtain ⟨h1, h2, h3, h4, h5, h6, h7⟩ := h il il i j
  obtain ⟨_, _, _, _, g5, g6, g7⟩ := h il il j i
  unfold sumSq
  exact (((((((((h1.norm.pow 2).add (h2.norm.pow 2)).add (h3.norm.pow 2)).add (h4.norm.pow 2)).add (continuousOn_const.mul (h5.norm.pow 2))).add (continuousOn_const.mul (h6.norm.pow 2))).add
    (continuousOn_const.mul (h7.norm.pow 2))).add (continuousOn_const.mul (g5.norm.pow 2))).add (continuousOn_const.mul (g6.norm.pow 2))).add (continuousOn_const.mul (g7.norm.pow 2))

theorem hadronic_cont {lumi : ℤ → ℤ → ℝ → ℝ} {sig : ℝ → UD → Fin 3 → Fin 3 → ℝ} {S : Set ℝ} (hl : ∀ i j, ContinuousOn (lumi i j) S) (hs : ∀ U i j, ContinuousOn (fun t => sig t U i j) S) :
    ContinuousOn (fun t => hadronic lumi t (sig t)) S := by
  unfold hadronic
  refine ContinuousOn.add (continuousOn_finsetSum _ fun i _ => continuousOn_finsetSum _ fun j _ => ?_) (continuousOn_finsetSum _ fun i _ => continuousOn_finsetSum _ fun j _ => ?_) <;>
    exact (continuousOn_const.mul (hl _ _)).mul (hs _ _ _)

theorem hadronic_mono {lumi : ℤ → ℤ → ℝ → ℝ} {t : ℝ} (hl : ∀ i j, 0 ≤ lumi i j t) {f g : UD → Fin 3 → Fin 3 → ℝ} (h : ∀ U i j, f U i j ≤ g U i j) : hadronic lumi t f ≤ hadronic lumi t g := by
  unfold hadronic
  refine add_le_add (Finset.sum_le_sum fun i _ => Finset.sum_le_sum fun j _ => ?_) (Finset.sum_le_sum fun i _ => Finset.sum_le_sum fun j _ => ?_) <;>
    exact mul_le_mul_of_nonneg_left (h _ _ _) (mul_nonneg zero_le_two (hl _ _))

theorem hadronic_zero (lumi : ℤ → ℤ → ℝ → ℝ) (t : ℝ) : hadronic lumi t (fun _ _ _ => 0) = 0 := by simp [hadronic]

theorem hadronic_lin (lumi : ℤ → ℤ → ℝ → ℝ) (t x y : ℝ) (f g h : UD → Fin 3 → Fin 3 → ℝ) :
    hadronic lumi t (fun U i j => f U i j + x * g U i j + y * h U i j) = hadronic lumi t f + x * hadronic lumi t g + y * hadronic lumi t h := by
  simp only [hadronic, Fin.sum_univ_two, Fin.sum_univ_three]; ring

theorem sigAt_eq (lumi : ℤ → ℤ → ℝ → ℝ) (s : ℝ) (il : Fin 3) (wc : ℝ → WcEff) (t : ℝ) :
    sigAt lumi s il wc t = hadronic lumi t fun U i j => t * s / (144 * Real.pi) * sumSq (wc (t * s) U) il i j := by
  unfold sigAt; simp only [partonic_int]

theorem sigAt_cont {q : Inp} {s a b : ℝ} (h : Good q s a b) (scale : ℝ) (np : Bool) (il : Fin 3) :
    ContinuousOn (sigAt (q.lumi (((a + b) / 2) ^ 2) (pyInt q.member)) s il (full q scale np)) (Set.Icc (a ^ 2 / s) (b ^ 2 / s)) := by
  refine (hadronic_cont h.lc (sig := fun t U i j => t * s / (144 * Real.pi) * sumSq (full q scale np (t * s) U) il i j) fun U i j => ?_).congr fun t _ => sigAt_eq _ _ _ _ _
  exact (Continuous.continuousOn (by fun_prop)).mul (sumSq_cont (full_cont h scale np U) il i j)

theorem bin_lt {q : Inp} {s a b : ℝ} (h : Good q s a b) : 0 < a ^ 2 / s ∧ a ^ 2 / s < b ^ 2 / s := by
  have := h.ap; have := h.sp; have := h.ab
  exact ⟨by positivity, by gcongr⟩

theorem sigAt_int {q : Inp} {s a b : ℝ} (h : Good q s a b) (scale : ℝ) (np : Bool) (il : Fin 3) :
    IntervalIntegrable (sigAt (q.lumi (((a + b) / 2) ^ 2) (pyInt q.member)) s il (full q scale np)) volume (a ^ 2 / s) (b ^ 2 / s) := by
  refine ContinuousOn.intervalIntegrable ?_
  rw [Set.uIcc_of_le (bin_lt h).2.le]; exact sigAt_cont h scale np il

theorem sumSq_nonneg (A : Amp) (il i j : Fin 3) : 0 ≤ sumSq A il i j := by unfold sumSq; positivity

theorem sigAt_nonneg {lumi : ℤ → ℤ → ℝ → ℝ} {s t : ℝ} (hl : ∀ i j, 0 ≤ lumi i j t) (hs : 0 ≤ s) (ht : 0 ≤ t) (il : Fin 3) (wc : ℝ → WcEff) : 0 ≤ sigAt lumi s il wc t := by
  rw [sigAt_eq, ← hadronic_zero lumi t]
  have := Real.pi_pos
  refine hadronic_mono hl fun U i j => mul_nonneg (by positivity) (sumSq_nonneg _ _ _ _)

theorem coup_pos {p : Zpole.Par} (h0 : 0 < p.s2w) (h1 : p.s2w < 1) (ha : 0 < p.alphaE) : 0 < g2 p ∧ 0 < gp2 p ∧ 0 < s2w' p ∧ s2w' p < 1 := by
  have := Real.pi_pos
  have e : 0 < 1 - p.s2w := by linarith
  have a1 : 0 < g2 p := by unfold g2; positivity
  have a2 : 0 < gp2 p := by unfold gp2; positivity
  refine ⟨a1, a2, by unfold s2w'; positivity, ?_⟩
  unfold s2w'
  rw [div_lt_one (by positivity)]; linarith

/-- The amplitude for down quarks of left chirality and leptons of right chirality never vanishes: its imaginary part is the width of
the `Z`. -/
theorem smAmp_ne {p : Zpole.Par} (h0 : 0 < p.s2w) (h1 : p.s2w < 1) (ha : 0 < p.alphaE) (hm : 0 < p.mZ) (ht : 0 < p.tauZ) (s : ℝ) : smAmp p .d .L .R s ≠ 0 := by
  obtain ⟨a1, a2, a3, a4⟩ := coup_pos h0 h1 ha
  have hr := Real.sqrt_pos.2 (add_pos a1 a2)
  have e1 : gZ p .d .L < 0 := by
    have : gZ p .d .L = Real.sqrt (g2 p + gp2 p) * (-1 / 2 + 1 / 3 * (s2w' p * 1.0010)) := by
      simp [gZ, Zpole.gVSM, Zpole.gASM, Zpole.Fm.t3, Zpole.Fm.q, Zpole.Fm.sec]; ring
    rw [this]
    refine mul_neg_of_pos_of_neg hr ?_
    norm_num; linarith
  have e2 : 0 < gZ p .e .R := by
    have : gZ p .e .R = Real.sqrt (g2 p + gp2 p) * (s2w' p * 1.0010) := by
      simp [gZ, Zpole.gVSM, Zpole.gASM, Zpole.Fm.t3, Zpole.Fm.q, Zpole.Fm.sec]; ring
    rw [this]; positivity
  intro h
  have hi := congrArg Complex.im h
  have hd := denom_ne hm ht s
  unfold smAmp at hi
  rw [add_im, ofReal_im, zero_add, zero_im, div_im] at hi
  simp only [ofReal_im, ofReal_re, zero_mul, zero_div, add_im, mul_im, I_re, I_im, zero_add, one_mul, zero_sub, neg_eq_zero] at hi
  have hn : normSq (((s - p.mZ ^ 2 : ℝ) : ℂ) + I * ((p.mZ * (1 / p.tauZ) : ℝ) : ℂ)) ≠ 0 := (map_ne_zero _).2 hd
  have hg : gZ p UD.d.fm .L * gZ p .e .R ≠ 0 := (mul_neg_of_neg_of_pos e1 e2).ne
  have hmt : p.mZ * (1 / p.tauZ) ≠ 0 := by positivity
  exact (div_ne_zero (mul_ne_zero hg hmt) hn) hi

theorem sigAt_pos {q : Inp} {s a b : ℝ} (h : Good q s a b) (scale : ℝ) (il : Fin 3) {t : ℝ} (ht : t ∈ Set.Icc (a ^ 2 / s) (b ^ 2 / s)) :
    0 < sigAt (q.lumi (((a + b) / 2) ^ 2) (pyInt q.member)) s il (full q scale false) t := by
  have t0 : 0 < t := (bin_lt h).1.trans_le ht.1
  have hpi := Real.pi_pos
  have hs := h.sp
  have hk : 0 < t * s / (144 * Real.pi) := by positivity
  set lumi := q.lumi (((a + b) / 2) ^ 2) (pyInt q.member) with hlumi
  set y := t * s / (144 * Real.pi) * sumSq (full q scale false (t * s) .d) il 0 0 with hy
  have hy0 : 0 < y := by
    refine mul_pos hk ?_
    have : 0 < ‖(full q scale false (t * s) .d).VRL il il 0 0‖ ^ 2 := by
      have : (full q scale false (t * s) .d).VRL il il 0 0 = smAmp q.p .d .L .R (t * s) := by simp [full, wcSM, eye]
      rw [this]
      have := norm_pos_iff.2 (smAmp_ne h.s0 h.s1 h.al h.mZ h.tZ (t * s))
      positivity
    unfold sumSq; positivity
  rw [sigAt_eq]
  have hm := hadronic_mono (lumi := lumi) (t := t) (fun i j => h.ln i j t ht)
    (f := fun U i j => if U = .d ∧ i = 0 ∧ j = 0 then y else 0) (g := fun U i j => t * s / (144 * Real.pi) * sumSq (full q scale false (t * s) U) il i j) (by
      intro U i j
      split_ifs with hc
      · obtain ⟨rfl, rfl, rfl⟩ := hc; exact le_rfl
      · exact mul_nonneg hk.le (sumSq_nonneg _ _ _ _))
  refine lt_of_lt_of_le ?_ hm
  have : hadronic lumi t (fun U i j => if U = .d ∧ i = 0 ∧ j = 0 then y else 0) = 2 * lumi 1 (-1) t * y := by
    simp [hadronic, Fin.sum_univ_two, Fin.sum_univ_three, pid]
  rw [this]
  have := h.ld t ht
  positivity

theorem sm_pos {q : Inp} {s a b : ℝ} (h : Good q s a b) (scale : ℝ) (il : Fin 3) :
    0 < ∫ t in (a ^ 2 / s)..(b ^ 2 / s), sigAt (q.lumi (((a + b) / 2) ^ 2) (pyInt q.member)) s il (full q scale false) t :=
  intervalIntegral.intervalIntegral_pos_of_pos_on (sigAt_int h scale false il) (fun t ht => sigAt_pos h scale il (Set.Ioo_subset_Icc_self ht)) (bin_lt h).2

/-! ## The ratio -/

/-- **C136 (ratio)** In a bin the ratio is that of the integrated cross sections; that of the Standard Model is positive. -/
theorem C136_ratio {nint : Angular.Nint} (hx : Angular.Exact nint) {q : Inp} {s a b : ℝ} (h : Good q s a b) {l : String} {il : Fin 3} (hl : (l, il) ∈ leptonOf) :
    let sg (np : Bool) := ∫ t in (a ^ 2 / s)..(b ^ 2 / s), sigAt (q.lumi (((a + b) / 2) ^ 2) (pyInt q.member)) s il (full q ((a + b) / 2) np) t
    ratio nint q s a b l = .ok (sg true / sg false) ∧ 0 < sg false ∧ 0 ≤ sg true ∧ 0 ≤ sg true / sg false := by
  have hp := sm_pos h ((a + b) / 2) il
  have hn : 0 ≤ ∫ t in (a ^ 2 / s)..(b ^ 2 / s), sigAt (q.lumi (((a + b) / 2) ^ 2) (pyInt q.member)) s il (full q ((a + b) / 2) true) t :=
    intervalIntegral.integral_nonneg (bin_lt h).2.le fun t ht => sigAt_nonneg (fun i j => h.ln i j t ht) h.sp.le ((bin_lt h).1.le.trans ht.1) _ _
  refine ⟨?_, hp, hn, div_nonneg hn hp.le⟩
  rw [ratio_eq nint q s a b hl, hx _ _ _ _ (sigAt_int h _ _ _), hx _ _ _ _ (sigAt_int h _ _ _), Mixing.pyDiv_ne hp.ne']

/-- No new physics. (Specification.) -/
def Smeft.zero : Smeft := ⟨0, 0, 0, 0, 0, 0, 0, 0, 0, 0⟩

theorem full_zero (q : Inp) (scale sh : ℝ) (h : q.C scale = .zero) : full q scale true sh = full q scale false sh := by
  funext U
  cases U <;> simp [full, addWc, wcSM, wcNP, h, Smeft.zero] <;> (try constructor)

/-- **C136 (Standard Model value)** Without new physics the ratio is one for every integrator, unless the cross section itself
vanishes (`ZeroDivisionError`). -/
theorem C136_ratio_sm (nint : Angular.Nint) (q : Inp) (s a b : ℝ) {l : String} {il : Fin 3} (hl : (l, il) ∈ leptonOf) (h : q.C ((a + b) / 2) = .zero) :
    ratio nint q s a b l = .ok 1 ∨ (ratio nint q s a b l = .error .zeroDivisionError ∧ sigmaInt nint q s a b l (((a + b) / 2) ^ 2) ((a + b) / 2) false = .ok 0) := by
  rw [ratio_eq nint q s a b hl, sigmaInt_eq nint q s a b _ _ _ hl, show full q ((a + b) / 2) true = full q ((a + b) / 2) false from funext fun sh => full_zero q _ sh h]
  by_cases h0 : nint (sigAt (q.lumi (((a + b) / 2) ^ 2) (pyInt q.member)) s il (full q ((a + b) / 2) false)) (a ^ 2 / s) (b ^ 2 / s) 1e-5 = 0
  · right; rw [h0]; exact ⟨Mixing.pyDiv_zero _, rfl⟩
  · left; rw [Mixing.pyDiv_ne h0, div_self h0]

/-- **C136 (empty bins)** A bin without width has no ratio. -/
theorem C136_empty {nint : Angular.Nint} (hx : Angular.Exact nint) (q : Inp) (s a : ℝ) {l : String} {il : Fin 3} (hl : (l, il) ∈ leptonOf) :
    ratio nint q s a a l = .error .zeroDivisionError := by
  rw [ratio_eq nint q s a a hl, hx _ _ _ _ (by simp), hx _ _ _ _ (by simp), intervalIntegral.integral_same, intervalIntegral.integral_same]
  exact Mixing.pyDiv_zero _

/-! ## The energy of the collider -/

/-- The numerical integral depends on the integrand between the limits only. (Specification.) -/
def Inside (nint : Angular.Nint) : Prop := ∀ f g a b e, a ≤ b → (∀ t ∈ Set.Icc a b, f t = g t) → nint f a b e = nint g a b e

theorem dsigma_congr (lumi lumi' : ℤ → ℤ → ℝ → ℝ) (s tau : ℝ) (l : String) (wc : WcEff) (h : ∀ i j, lumi i j tau = lumi' i j tau) :
    dsigma lumi s tau l wc = dsigma lumi' s tau l wc := by
  unfold dsigma
  have : ∀ q1 sigma q2, quarkStep lumi s tau l wc q1 sigma q2 = quarkStep lumi' s tau l wc q1 sigma q2 := by
    intro q1 sigma q2
    unfold quarkStep
    simp only [h]
  simp only [funext fun q1 => funext fun sigma => funext fun q2 => this q1 sigma q2]

/-- **C136 (13 TeV).** `R_13` is about proton collisions at 13 TeV: a pair of invariant mass `M` GeV is made by partons with the product
`(M / 13000)²` of momentum fractions, so that two sets of parton distributions that agree for these products give the same value. -/
theorem C136_energy {nint : Angular.Nint} (hn : Inside nint) (q q' : Inp) (l : String) (qmin qmax : ℝ) (h0 : 0 ≤ qmin) (h1 : qmin ≤ qmax)
    (hq : q' = { q with lumi := q'.lumi })
    (h : ∀ M, qmin ≤ M → M ≤ qmax → ∀ Q2 m i j, q.lumi Q2 m i j ((M / 13000) ^ 2) = q'.lumi Q2 m i j ((M / 13000) ^ 2)) :
    ratio13 nint q l qmin qmax = ratio13 nint q' l qmin qmax := by
  have hab : qmin ^ 2 / (13000 : ℝ) ^ 2 ≤ qmax ^ 2 / (13000 : ℝ) ^ 2 := by gcongr
  have hl : ∀ Q2 m i j, ∀ t ∈ Set.Icc (qmin ^ 2 / (13000 : ℝ) ^ 2) (qmax ^ 2 / (13000 : ℝ) ^ 2), q.lumi Q2 m i j t = q'.lumi Q2 m i j t := by
    intro Q2 m i j t ht
    have ht0 : 0 ≤ t := le_trans (by positivity) ht.1
    have e : t = ((13000 * Real.sqrt t) / 13000) ^ 2 := by
      rw [mul_div_cancel_left₀ _ (by norm_num), Real.sq_sqrt ht0]
    rw [e]
    refine h _ ?_ ?_ Q2 m i j
    · refine (sq_le_sq₀ (by linarith) (by positivity)).1 ?_
      rw [mul_pow, Real.sq_sqrt ht0]
      have := ht.1
      rw [div_le_iff₀ (by norm_num)] at this
      linarith
    · refine (sq_le_sq₀ (by positivity) (by linarith)).1 ?_
      rw [mul_pow, Real.sq_sqrt ht0]
      have := ht.2
      rw [le_div_iff₀ (by norm_num)] at this
      linarith
  have key : ∀ Q2 scale np, sigmaInt nint q (13000 ^ 2) qmin qmax l Q2 scale np = sigmaInt nint q' (13000 ^ 2) qmin qmax l Q2 scale np := by
    intro Q2 scale np
    rw [hq]
    unfold sigmaInt integral
    simp only
    have e : ∀ t ∈ Set.Icc (qmin ^ 2 / (13000 : ℝ) ^ 2) (qmax ^ 2 / (13000 : ℝ) ^ 2), ∀ wc,
        dsigma (q.lumi Q2 (pyInt q.member)) (13000 ^ 2) t l wc = dsigma (q'.lumi Q2 (pyInt q.member)) (13000 ^ 2) t l wc :=
      fun t ht wc => dsigma_congr _ _ _ _ _ _ fun i j => hl _ _ _ _ t ht
    rw [e _ (Set.left_mem_Icc.2 hab)]
    split
    · rfl
    · congr 1
      refine hn _ _ _ _ _ hab fun t ht => ?_
      rw [e t ht]
  unfold ratio13 ratio
  simp only [key]

/-- An exact integral depends on the values between the limits only. -/
example : Inside fun f a b _ => ∫ x in a..b, f x := fun f g a b e hab h =>
  intervalIntegral.integral_congr fun t ht => h t (by rwa [Set.uIcc_of_le hab] at ht)

end Verif.Dileptons
