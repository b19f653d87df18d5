import Verif.Probability.Gamma
import Mathlib.Tactic.FieldSimp
import Mathlib.Tactic.Linarith
import Mathlib.Tactic.Positivity
import Mathlib.Order.Monotone.Basic
import Mathlib.Analysis.SpecialFunctions.Log.Basic
import Mathlib.Analysis.Complex.ExponentialBounds
import Mathlib.Analysis.SpecialFunctions.Exp
import Mathlib.Topology.Order.IntermediateValue
/-!
# C37, C75, C76: counting processes, upper limits and errors of Gamma-type distributions
-/
set_option linter.unusedVariables false
set_option linter.unusedSimpArgs false
namespace Verif.Probability
open Verif.Py

/-! ## C37 -/

theorem resolve_tb {t b : ℝ} (ht : 0 ≤ t) (hb : 0 ≤ b) :
    resolveCounts (some t) (some b) none = .ok ⟨t, b, t - b⟩ := by
  unfold resolveCounts
  rw [if_neg (by rintro ⟨x, hx, h⟩; injection hx with hx; linarith),
    if_neg (by rintro ⟨x, hx, h⟩; injection hx with hx; linarith), if_neg (by simp [badTriple]),
    if_neg (by simp [countNone])]

theorem resolve_ts {t s : ℝ} (ht : 0 ≤ t) :
    resolveCounts (some t) none (some s) = .ok ⟨t, t - s, s⟩ := by
  unfold resolveCounts
  rw [if_neg (by rintro ⟨x, hx, h⟩; injection hx with hx; linarith),
    if_neg (by rintro ⟨x, hx, h⟩; cases hx), if_neg (by simp [badTriple]),
    if_neg (by simp [countNone])]

theorem resolve_bs {b s : ℝ} (hb : 0 ≤ b) :
    resolveCounts none (some b) (some s) = .ok ⟨s + b, b, s⟩ := by
  unfold resolveCounts
  rw [if_neg (by rintro ⟨x, hx, h⟩; cases hx),
    if_neg (by rintro ⟨x, hx, h⟩; injection hx with hx; linarith), if_neg (by simp [badTriple]),
    if_neg (by simp [countNone])]

theorem resolve_tbs {t b s : ℝ} (ht : 0 ≤ t) (hb : 0 ≤ b) (h : t = s + b) :
    resolveCounts (some t) (some b) (some s) = .ok ⟨t, b, s⟩ := by
  unfold resolveCounts
  rw [if_neg (by rintro ⟨x, hx, h⟩; injection hx with hx; linarith),
    if_neg (by rintro ⟨x, hx, h⟩; injection hx with hx; linarith), if_neg,
    if_neg (by simp [countNone])]
  show ¬ _ > _
  rw [show t - b - s = 0 by rw [h]; ring, zero_div, abs_zero]
  norm_num

theorem resolve_error {t b s : Option ℝ} {e : PyErr} (h : resolveCounts t b s = .error e) : e = .valueError := by
  unfold resolveCounts at h
  split at h
  · injection h with h; exact h.symm
  split at h
  · injection h with h; exact h.symm
  split at h
  · injection h with h; exact h.symm
  split at h
  · injection h with h; exact h.symm
  · rename_i hc
    cases t <;> cases b <;> cases s <;> simp_all [countNone]

/-- Specification: the arguments given agree with the numbers `t`, `b`, `s`, and at least two are given. -/
def TwoGiven (t b s : ℝ) (at' ab as : Option ℝ) : Prop :=
  (∀ x ∈ at', x = t) ∧ (∀ x ∈ ab, x = b) ∧ (∀ x ∈ as, x = s) ∧ countNone [at', ab, as] ≤ 1

theorem resolve_twoGiven {t b s : ℝ} (ht : 0 ≤ t) (hb : 0 ≤ b) (h : t = s + b) {at' ab as : Option ℝ}
    (hg : TwoGiven t b s at' ab as) : resolveCounts at' ab as = .ok ⟨t, b, s⟩ := by
  obtain ⟨h1, h2, h3, h4⟩ := hg
  cases at' with
  | none =>
    cases ab with
    | none => simp [countNone] at h4
    | some y =>
      cases as with
      | none => simp [countNone] at h4
      | some z =>
        rw [h2 y rfl, h3 z rfl, resolve_bs hb, h]
  | some x =>
    rw [h1 x rfl]
    cases ab with
    | none =>
      cases as with
      | none => simp [countNone] at h4
      | some z => rw [h3 z rfl, resolve_ts ht, show t - s = b by rw [h]; ring]
    | some y =>
      rw [h2 y rfl]
      cases as with
      | none => rw [resolve_tb ht hb, show t - b = s by rw [h]; ring]
      | some z => rw [h3 z rfl, resolve_tbs ht hb h]

/-- **C37 (any two of three)** For a positive scale factor and counts with `total = signal + background`, total and
background not negative, every choice of at least two arguments creates the same counting process, with these counts.
Its central value is the scaled signal, or 0 if that is negative. -/
theorem C37_two_of_three (sf t b s : ℝ) (hsf : 0 < sf) (ht : 0 ≤ t) (hb : 0 ≤ b) (h : t = s + b)
    (at' ab as : Option ℝ) (hg : TwoGiven t b s at' ab as) :
    ∃ p, mkCounting sf at' ab as = .ok p ∧ p.scaleFactor = sf ∧ p.counts = ⟨t, b, s⟩ ∧
      p.gamma = ⟨t + 1, -b * sf, sf⟩ ∧ p.gamma.modePos = max 0 (sf * s) := by
  refine ⟨⟨sf, ⟨t, b, s⟩, ⟨t + 1, -b * sf, sf⟩⟩, ?_, rfl, rfl, rfl, ?_⟩
  · unfold mkCounting
    rw [if_neg (not_le.2 hsf), resolve_twoGiven ht hb h hg]
    simp only [ok_bind_eq]
    unfold mkGamma
    rw [if_neg (by have := mul_nonneg hb hsf.le; linarith)]
    rfl
  · unfold FrozenGamma.modePos FrozenGamma.mode
    simp only
    have : -b * sf + (t + 1 - 1) * sf = sf * s := by rw [h]; ring
    rw [this]
    split
    · rename_i hneg; rw [max_eq_left hneg.le]
    · rename_i hpos; rw [max_eq_right (not_lt.1 hpos)]

/-- **C37 (too few)** With fewer than two of the counts given, `ValueError`. -/
theorem C37_too_few (sf : ℝ) (t b s : Option ℝ) (h : 2 ≤ countNone [t, b, s]) :
    mkCounting sf t b s = .error .valueError := by
  unfold mkCounting
  split
  · rfl
  have : resolveCounts t b s = .error .valueError := by
    cases hr : resolveCounts t b s with
    | error e => rw [resolve_error hr]
    | ok c =>
      exfalso
      unfold resolveCounts at hr
      have hc : countNone [t, s, b] > 1 := by
        cases t <;> cases b <;> cases s <;> simp_all [countNone]
      simp only [hc, if_true] at hr
      split at hr
      · cases hr
      split at hr
      · cases hr
      split at hr <;> cases hr
  rw [this]; rfl

/-- **C37 (inconsistent)** Three counts that violate `total = signal + background` by more than the relative
tolerance `1e-15` raise `ValueError`. -/
theorem C37_inconsistent (sf t b s : ℝ) (h : |t - b - s| > 1 / 10 ^ 15 * |if t ≠ 0 then t else 1|) :
    mkCounting sf (some t) (some b) (some s) = .error .valueError := by
  unfold mkCounting
  split
  · rfl
  have : resolveCounts (some t) (some b) (some s) = .error .valueError := by
    cases hr : resolveCounts (some t) (some b) (some s) with
    | error e => rw [resolve_error hr]
    | ok c =>
      exfalso
      unfold resolveCounts at hr
      have hbad : badTriple (some t) (some b) (some s) := by
        show _ > _
        have hne : 0 < |if t ≠ 0 then t else 1| := by
          rw [abs_pos]
          split
          · assumption
          · norm_num
        rw [abs_div, gt_iff_lt, lt_div_iff₀ hne]
        exact h
      simp only [hbad, if_true] at hr
      split at hr
      · cases hr
      split at hr <;> cases hr
  rw [this]; rfl

/-- **C37 (accepted arguments)** Whatever arguments are accepted, the given ones are stored unchanged, and
`total = signal + background` up to the tolerance (exactly if one was inferred). -/
theorem C37_stored (sf : ℝ) (t b s : Option ℝ) (p : CountingProcess) (h : mkCounting sf t b s = .ok p) :
    (∀ x ∈ t, p.counts.total = x) ∧ (∀ x ∈ b, p.counts.background = x) ∧ (∀ x ∈ s, p.counts.signal = x) ∧
    ((t = none ∨ b = none ∨ s = none) → p.counts.total = p.counts.signal + p.counts.background) ∧
    |p.counts.total - p.counts.background - p.counts.signal| ≤
      1 / 10 ^ 15 * |if p.counts.total ≠ 0 then p.counts.total else 1| := by
  unfold mkCounting at h
  split at h
  · cases h
  obtain ⟨c, hc, h⟩ := bind_eq_ok h
  obtain ⟨g, hg, h⟩ := bind_eq_ok h
  injection h with h
  subst h
  unfold resolveCounts at hc
  split at hc
  · cases hc
  split at hc
  · cases hc
  split at hc
  · cases hc
  rename_i hbad
  split at hc
  · cases hc
  have tol : ∀ x : ℝ, 0 ≤ 1 / 10 ^ 15 * |if x ≠ 0 then x else 1| := fun x => by positivity
  cases t with
  | none =>
    cases b with
    | none => cases hc
    | some b =>
      cases s with
      | none => cases hc
      | some s =>
        injection hc with hc
        subst hc
        refine ⟨by simp, by simp, by simp, fun _ => rfl, ?_⟩
        simp only
        rw [show s + b - b - s = 0 by ring, abs_zero]
        exact tol _
  | some t =>
    cases b with
    | none =>
      cases s with
      | none => cases hc
      | some s =>
        injection hc with hc
        subst hc
        refine ⟨by simp, by simp, by simp, fun _ => by ring, ?_⟩
        simp only
        rw [show t - (t - s) - s = 0 by ring, abs_zero]
        exact tol _
    | some b =>
      cases s with
      | none =>
        injection hc with hc
        subst hc
        refine ⟨by simp, by simp, by simp, fun _ => by ring, ?_⟩
        simp only
        rw [show t - b - (t - b) = 0 by ring, abs_zero]
        exact tol _
      | some s =>
        injection hc with hc
        subst hc
        refine ⟨by simp, by simp, by simp, by simp, ?_⟩
        simp only
        have hb : ¬ |(t - b - s) / (if t ≠ 0 then t else 1)| > 1 / 10 ^ 15 := hbad
        have hne : 0 < |if t ≠ 0 then t else 1| := by
          rw [abs_pos]
          split
          · assumption
          · norm_num
        rw [abs_div, gt_iff_lt, lt_div_iff₀ hne, not_lt] at hb
        exact hb

/-- **C37 (gap in the validation)** A negative total is rejected when given, but accepted when it is inferred. -/
theorem C37_negative_total_accepted : ∃ p, mkCounting 1 none (some 1) (some (-5)) = .ok p ∧ p.counts.total < 0 ∧
    mkCounting 1 (some (-4)) (some 1) none = .error .valueError := by
  refine ⟨⟨1, ⟨-5 + 1, 1, -5⟩, ⟨-5 + 1 + 1, -1 * 1, 1⟩⟩, ?_, by norm_num, ?_⟩
  · unfold mkCounting
    rw [if_neg (by norm_num), resolve_bs (by norm_num)]
    simp only [ok_bind_eq]
    unfold mkGamma
    rw [if_neg (by norm_num)]
    rfl
  · unfold mkCounting
    rw [if_neg (by norm_num)]
    have : resolveCounts (some (-4)) (some 1) none = .error .valueError := by
      unfold resolveCounts
      rw [if_pos ⟨-4, rfl, by norm_num⟩]
    rw [this]; rfl

theorem mkCounting_error {sf : ℝ} {t b s : Option ℝ} {e : PyErr} (h : mkCounting sf t b s = .error e) :
    e = .valueError := by
  unfold mkCounting at h
  split at h
  · injection h with h; exact h.symm
  cases hr : resolveCounts t b s with
  | error e' =>
    rw [hr] at h
    simp only [error_bind_eq, Except.error.injEq] at h
    rw [← h]; exact resolve_error hr
  | ok c =>
    rw [hr] at h
    simp only [ok_bind_eq] at h
    unfold mkGamma at h
    split at h
    · simp only [error_bind_eq, Except.error.injEq] at h; exact h.symm
    · simp at h

/-- **C37 fails for `GammaUpperLimit`**: unless both `counts_total` and `counts_background` are given, the constructor
raises `ValueError`, whatever `counts_signal` is (it is not passed on). -/
theorem C37_upper_limit_needs_total_and_background (S : StdGamma) (limit cl : ℝ) (t b s : Option ℝ)
    (h : t = none ∨ b = none) : mkGammaUpperLimit S limit cl t b s = .error .valueError := by
  unfold mkGammaUpperLimit
  split
  · rfl
  split
  · rfl
  cases hu : mkCounting 1 t b s with
  | error e => rw [mkCounting_error hu]; rfl
  | ok u =>
    simp only [ok_bind_eq]
    rw [C37_too_few _ t b none (by
      rcases h with rfl | rfl
      · cases b <;> simp [countNone]
      · cases t <;> simp [countNone])]
    rfl

/-- **C37 (upper limit, partial)** With total and background given (and a positive unscaled limit), the upper limit
distribution has these counts and the inferred signal. -/
theorem C37_upper_limit_partial (S : StdGamma) (limit cl t b : ℝ) (hcl0 : 0 ≤ cl) (hcl1 : cl ≤ 1) (hl : 0 < limit)
    (ht : 0 ≤ t) (hb : 0 ≤ b) (hppf : 0 < FrozenGamma.ppfPos S ⟨t + 1, -b * 1, 1⟩ cl) :
    ∃ d, mkGammaUpperLimit S limit cl (some t) (some b) none = .ok d ∧ d.limit = limit ∧ d.confidenceLevel = cl ∧
      d.process.counts = ⟨t, b, t - b⟩ ∧
      d.process.scaleFactor = limit / FrozenGamma.ppfPos S ⟨t + 1, -b * 1, 1⟩ cl := by
  have g : TwoGiven t b (t - b) (some t) (some b) none := ⟨by simp, by simp, by simp, by simp [countNone]⟩
  obtain ⟨u, hu, -, -, hug, -⟩ := C37_two_of_three 1 t b (t - b) one_pos ht hb (by ring) _ _ _ g
  obtain ⟨p, hp, hps, hpc, -, -⟩ := C37_two_of_three (limit / FrozenGamma.ppfPos S ⟨t + 1, -b * 1, 1⟩ cl) t b (t - b)
    (div_pos hl hppf) ht hb (by ring) _ _ _ g
  refine ⟨⟨limit, cl, p⟩, ?_, rfl, rfl, hpc, hps⟩
  unfold mkGammaUpperLimit
  rw [if_neg (by rintro (h | h) <;> linarith), if_neg (not_le.2 hl), hu]
  simp only [ok_bind_eq, hug]
  rw [hp]; rfl

section
variable {N : Type} (build : ℝ → ℝ → ℝ → ℝ → Except PyErr N) (sqrt : ℝ → ℝ)

/-- **C37 (general counting process)** Any two of three also for `GeneralGammaCountingProcess`. -/
theorem C37_general_two_of_three (sf t b s std : ℝ) (hsf : 0 < sf) (ht : 0 ≤ t) (hb : 0 ≤ b) (hstd : 0 ≤ std)
    (h : t = s + b) (at' ab as : Option ℝ) (hg : TwoGiven t b s at' ab as) (n : N)
    (hn : build (t + 1) (-b * sf) sf std = .ok n) :
    ∃ p, mkGeneralCounting build sqrt sf at' ab as std = .ok p ∧ p.scaleFactor = sf ∧ p.counts = ⟨t, b, s⟩ ∧
      p.num = n := by
  refine ⟨⟨sf, ⟨t, b, s⟩, if std / sqrt (t + 1) < 1 / 100 then 0 else std,
    if std / sqrt (t + 1) < 1 / 100 then 0 else std, n⟩, ?_, rfl, rfl, rfl⟩
  unfold mkGeneralCounting
  rw [if_neg (not_le.2 hsf), if_neg (not_lt.2 hstd), resolve_twoGiven ht hb h hg]
  simp only [ok_bind_eq]
  rw [if_neg (by have := mul_nonneg hb hsf.le; linarith), hn]
  rfl

/-- **C37 (general upper limit)** Any two of three also for `GeneralGammaUpperLimit`. -/
theorem C37_general_limit_two_of_three (ppf : N → ℝ → ℝ) (limit cl t b s std : ℝ) (ht : 0 ≤ t) (hb : 0 ≤ b)
    (hstd : 0 ≤ std) (h : t = s + b) (at' ab as : Option ℝ) (hg : TwoGiven t b s at' ab as) (u n : N)
    (hu : build (t + 1) (-b * 1) 1 std = .ok u) (hpos : 0 < limit / ppf u cl)
    (hn : build (t + 1) (-b * (limit / ppf u cl)) (limit / ppf u cl) std = .ok n)
    (astd avar : Option ℝ) (hs : (astd = some std ∧ (avar = none ∨ avar = some std)) ∨ (astd = none ∧ avar = some std)) :
    ∃ d, mkGeneralLimit build sqrt ppf limit cl at' ab as astd avar = .ok d ∧ d.limit = limit ∧
      d.confidenceLevel = cl ∧ d.process.counts = ⟨t, b, s⟩ ∧ d.process.scaleFactor = limit / ppf u cl ∧
      d.process.num = n := by
  have hr : resolveStd astd avar = .ok std := by
    rcases hs with ⟨rfl, rfl | rfl⟩ | ⟨rfl, rfl⟩
    · rfl
    · simp [resolveStd]
    · rfl
  obtain ⟨q, hq, -, -, hqn⟩ := C37_general_two_of_three build sqrt 1 t b s std one_pos ht hb hstd h _ _ _ hg u hu
  obtain ⟨p, hp, hps, hpc, hpn⟩ := C37_general_two_of_three build sqrt _ t b s std hpos ht hb hstd h _ _ _ hg n hn
  refine ⟨⟨limit, cl, std, p⟩, ?_, rfl, rfl, hpc, hps, hpn⟩
  unfold mkGeneralLimit
  rw [hr]
  simp only [ok_bind_eq]
  rw [hq]
  simp only [ok_bind_eq, hqn]
  rw [hp]
  rfl
end

/-- The hypotheses are met e.g. by 3 observed events with 2 expected background events. -/
example : TwoGiven 3 2 1 (some 3) none (some 1) := ⟨by simp, by simp, by simp, by simp [countNone]⟩

/-! ## C75: an upper limit has its confidence level -/

/-- What is assumed about scipy's Gamma distribution with shape `a`: a strictly increasing CDF on `[0, ∞)` with values
in `[0, 1)`, and a quantile function inverting it. (Specification.) -/
structure StdGamma.Ok (S : StdGamma) (a : ℝ) : Prop where
  cdf_ppf : ∀ q, 0 ≤ q → q < 1 → S.cdf a (S.ppf a q) = q
  ppf_nonneg : ∀ q, 0 ≤ q → q < 1 → 0 ≤ S.ppf a q
  cdf_nonneg : ∀ x, 0 ≤ S.cdf a x
  cdf_lt_one : ∀ x, S.cdf a x < 1
  cdf_mono : StrictMonoOn (S.cdf a) (Set.Ici 0)

theorem ppfPos_pos {S : StdGamma} {a b sf q : ℝ} (hS : S.Ok a) (hb : 0 ≤ b) (hsf : 0 < sf) (h0 : 0 < q) (h1 : q < 1) :
    0 < FrozenGamma.ppfPos S ⟨a, -b * sf, sf⟩ q := by
  unfold FrozenGamma.ppfPos FrozenGamma.ppf FrozenGamma.cdf
  simp only
  have e : (0 - -b * sf) / sf = b := by field_simp; ring
  rw [e]
  have hb1 := hS.cdf_lt_one b
  have hb0 := hS.cdf_nonneg b
  have hq0 : S.cdf a b < (1 - S.cdf a b) * q + S.cdf a b := by
    have : 0 < (1 - S.cdf a b) * q := mul_pos (by linarith) h0
    linarith
  have hq1 : (1 - S.cdf a b) * q + S.cdf a b < 1 := by
    have : (1 - S.cdf a b) * q < (1 - S.cdf a b) * 1 := mul_lt_mul_of_pos_left h1 (by linarith)
    linarith
  have hp := hS.cdf_ppf _ (by linarith) hq1
  have hp0 := hS.ppf_nonneg _ (by linarith) hq1
  have hlt : b < S.ppf a ((1 - S.cdf a b) * q + S.cdf a b) := by
    by_contra hcon
    have := hS.cdf_mono.monotoneOn (a := S.ppf a ((1 - S.cdf a b) * q + S.cdf a b)) (b := b) hp0 hb (not_lt.1 hcon)
    rw [hp] at this
    linarith
  have := mul_lt_mul_of_pos_left hlt hsf
  linarith

theorem cdfPos_ppfPos {S : StdGamma} {a b sf q : ℝ} (hS : S.Ok a) (hb : 0 ≤ b) (hsf : 0 < sf) (h0 : 0 ≤ q) (h1 : q < 1) :
    FrozenGamma.cdfPos S ⟨a, -b * sf, sf⟩ (FrozenGamma.ppfPos S ⟨a, -b * sf, sf⟩ q) = q := by
  have hb1 := hS.cdf_lt_one b
  have hb0 := hS.cdf_nonneg b
  have e : (0 - -b * sf) / sf = b := by field_simp; ring
  have hq1 : (1 - S.cdf a b) * q + S.cdf a b < 1 := by
    have : (1 - S.cdf a b) * q < (1 - S.cdf a b) * 1 := mul_lt_mul_of_pos_left h1 (by linarith)
    linarith
  have hq0 : 0 ≤ (1 - S.cdf a b) * q := mul_nonneg (by linarith) h0
  have hp := hS.cdf_ppf _ (by linarith) hq1
  unfold FrozenGamma.cdfPos
  rw [if_neg]
  · unfold FrozenGamma.ppfPos FrozenGamma.ppf FrozenGamma.cdf
    simp only [e]
    rw [show (-b * sf + sf * S.ppf a ((1 - S.cdf a b) * q + S.cdf a b) - -b * sf) / sf =
      S.ppf a ((1 - S.cdf a b) * q + S.cdf a b) by field_simp; ring, hp]
    have : 1 - S.cdf a b ≠ 0 := by linarith
    field_simp
    ring
  · rcases h0.eq_or_lt with h | h
    · subst h
      unfold FrozenGamma.ppfPos FrozenGamma.ppf FrozenGamma.cdf
      simp only [e]
      rw [mul_zero, zero_add] at hp ⊢
      have := hS.cdf_mono.injOn (hS.ppf_nonneg _ hb0 hb1) (show b ∈ Set.Ici (0 : ℝ) from hb) hp
      rw [this]
      rw [not_lt]
      exact le_of_eq (by ring)
    · exact not_lt.2 (ppfPos_pos hS hb hsf h h1).le

/-- **C75** The distribution created by `GammaUpperLimit(limit, confidence_level, counts_total, counts_background)`
has CDF `confidence_level` at `limit`. -/
theorem C75_upper_limit (S : StdGamma) (limit cl t b : ℝ) (hS : S.Ok (t + 1)) (hcl0 : 0 < cl) (hcl1 : cl < 1)
    (hl : 0 < limit) (ht : 0 ≤ t) (hb : 0 ≤ b) :
    ∃ d, mkGammaUpperLimit S limit cl (some t) (some b) none = .ok d ∧ d.process.gamma.cdfPos S limit = cl := by
  have hpos := ppfPos_pos (S := S) (a := t + 1) (b := b) hS hb one_pos hcl0 hcl1
  have g : TwoGiven t b (t - b) (some t) (some b) none := ⟨by simp, by simp, by simp, by simp [countNone]⟩
  obtain ⟨u, hu, -, -, hug, -⟩ := C37_two_of_three 1 t b (t - b) one_pos ht hb (by ring) _ _ _ g
  have hsf := div_pos hl hpos
  obtain ⟨p, hp, hps, hpc, hpg, -⟩ := C37_two_of_three (limit / FrozenGamma.ppfPos S ⟨t + 1, -b * 1, 1⟩ cl) t b (t - b)
    hsf ht hb (by ring) _ _ _ g
  refine ⟨⟨limit, cl, p⟩, ?_, ?_⟩
  · unfold mkGammaUpperLimit
    rw [if_neg (by rintro (h | h) <;> linarith), if_neg (not_le.2 hl), hu]
    simp only [ok_bind_eq, hug]
    rw [hp]; rfl
  · simp only [hpg]
    have key : limit = FrozenGamma.ppfPos S ⟨t + 1, -b * (limit / FrozenGamma.ppfPos S ⟨t + 1, -b * 1, 1⟩ cl),
        limit / FrozenGamma.ppfPos S ⟨t + 1, -b * 1, 1⟩ cl⟩ cl := by
      generalize hL : FrozenGamma.ppfPos S ⟨t + 1, -b * 1, 1⟩ cl = L at *
      have e : (0 - -b * (limit / L)) / (limit / L) = b := by
        rw [show (0 - -b * (limit / L)) = b * (limit / L) by ring, mul_div_assoc, div_self hsf.ne', mul_one]
      have hL' : L = -b + S.ppf (t + 1) ((1 - S.cdf (t + 1) b) * cl + S.cdf (t + 1) b) := by
        rw [← hL]
        unfold FrozenGamma.ppfPos FrozenGamma.ppf FrozenGamma.cdf
        simp only [mul_one, sub_neg_eq_add, zero_add, div_one, one_mul]
      unfold FrozenGamma.ppfPos FrozenGamma.ppf FrozenGamma.cdf
      simp only [e]
      rw [show -b * (limit / L) + limit / L * S.ppf (t + 1) ((1 - S.cdf (t + 1) b) * cl + S.cdf (t + 1) b) =
        limit / L * (-b + S.ppf (t + 1) ((1 - S.cdf (t + 1) b) * cl + S.cdf (t + 1) b)) by ring, ← hL',
        div_mul_cancel₀ _ hpos.ne']
    have h2 := cdfPos_ppfPos (S := S) (a := t + 1) hS hb hsf hcl0.le hcl1
    rw [← key] at h2
    exact h2

/-! ## C76: errors contain the confidence level -/

/-- **C76 (Gamma)** The interval `[central - error_left, central + error_right]` of a `GammaDistribution` contains
probability `cl`, wherever the root finder put the lower end. -/
theorem C76_gamma (S : StdGamma) (g : FrozenGamma) (hS : S.Ok g.a) (hsc : 0 < g.scale) (brentq : ℝ → ℝ) (cl : ℝ)
    (hcl : 0 ≤ cl) (h0 : 0 ≤ brentq cl) (h1 : brentq cl + cl < 1) :
    g.cdf S (g.mode + (g.errors S brentq cl).2) - g.cdf S (g.mode - (g.errors S brentq cl).1) = cl := by
  have e : ∀ q, 0 ≤ q → q < 1 → g.cdf S (g.ppf S q) = q := by
    intro q hq0 hq1
    unfold FrozenGamma.cdf FrozenGamma.ppf
    rw [show (g.loc + g.scale * S.ppf g.a q - g.loc) / g.scale = S.ppf g.a q by field_simp; ring,
      hS.cdf_ppf q hq0 hq1]
  unfold FrozenGamma.errors
  simp only
  rw [show g.mode + (g.ppf S (brentq cl + cl) - g.mode) = g.ppf S (brentq cl + cl) by ring,
    show g.mode - (g.mode - g.ppf S (brentq cl)) = g.ppf S (brentq cl) by ring,
    e _ (by linarith) h1, e _ h0 (by linarith)]
  ring

/-- **C76 (positive, two-sided)** The same for `GammaDistributionPositive` if the PDF at 0 is not larger than at the
one-sided limit. -/
theorem C76_positive_two_sided_partial (S : StdGamma) (log : ℝ → ℝ) (a b sf : ℝ) (hS : S.Ok a) (hb : 0 ≤ b)
    (hsf : 0 < sf) (brentq : ℝ → ℝ) (cl : ℝ) (hcl : 0 ≤ cl) (h0 : 0 ≤ brentq cl) (h1 : brentq cl + cl < 1)
    (g : FrozenGamma) (hg : g = ⟨a, -b * sf, sf⟩)
    (hb2 : ¬ g.logpdfPos S log 0 > g.logpdfPos S log (g.ppfPos S cl)) :
    g.cdfPos S (g.modePos + g.errorRightPos S log brentq cl) -
      g.cdfPos S (g.modePos - g.errorLeftPos S log brentq cl) = cl := by
  unfold FrozenGamma.errorRightPos FrozenGamma.errorLeftPos
  rw [if_neg hb2, if_neg hb2,
    show g.modePos + (g.ppfPos S (brentq cl + cl) - g.modePos) = g.ppfPos S (brentq cl + cl) by ring,
    show g.modePos - (g.modePos - g.ppfPos S (brentq cl)) = g.ppfPos S (brentq cl) by ring, hg,
    cdfPos_ppfPos hS hb hsf (by linarith) h1, cdfPos_ppfPos hS hb hsf h0 (by linarith)]
  ring

theorem cdfPos_lt {S : StdGamma} {a b sf : ℝ} (hS : S.Ok a) (hb : 0 ≤ b) (hsf : 0 < sf) {x y : ℝ} (hx : 0 ≤ x)
    (hxy : x < y) : FrozenGamma.cdfPos S ⟨a, -b * sf, sf⟩ x < FrozenGamma.cdfPos S ⟨a, -b * sf, sf⟩ y := by
  unfold FrozenGamma.cdfPos
  rw [if_neg (not_lt.2 hx), if_neg (not_lt.2 (hx.trans hxy.le))]
  have h1 : 0 < 1 - FrozenGamma.cdf S ⟨a, -b * sf, sf⟩ 0 := by
    have := hS.cdf_lt_one ((0 - -b * sf) / sf)
    unfold FrozenGamma.cdf
    simp only
    linarith
  refine div_lt_div_of_pos_right ?_ h1
  have hbs := mul_nonneg hb hsf.le
  have : FrozenGamma.cdf S ⟨a, -b * sf, sf⟩ x < FrozenGamma.cdf S ⟨a, -b * sf, sf⟩ y := by
    unfold FrozenGamma.cdf
    apply hS.cdf_mono
    · exact div_nonneg (by simp only; linarith) hsf.le
    · exact div_nonneg (by simp only; linarith) hsf.le
    · exact div_lt_div_of_pos_right (by simp only; linarith) hsf
  linarith

/-- **C76 (positive, one-sided)** If the PDF at 0 is larger than at the one-sided limit, the interval starts at 0 and
contains exactly `cl` if the central value is 0, but strictly more if it is positive: the code returns the one-sided
limit itself as right error, not its distance to the central value. -/
theorem C76_positive_one_sided (S : StdGamma) (log : ℝ → ℝ) (a b sf : ℝ) (hS : S.Ok a) (hb : 0 ≤ b)
    (hsf : 0 < sf) (brentq : ℝ → ℝ) (cl : ℝ) (hcl0 : 0 < cl) (hcl1 : cl < 1)
    (g : FrozenGamma) (hg : g = ⟨a, -b * sf, sf⟩)
    (hb2 : g.logpdfPos S log 0 > g.logpdfPos S log (g.ppfPos S cl)) :
    g.modePos - g.errorLeftPos S log brentq cl = 0 ∧
    (g.modePos = 0 → g.cdfPos S (g.modePos + g.errorRightPos S log brentq cl) = cl) ∧
    (0 < g.modePos → cl < g.cdfPos S (g.modePos + g.errorRightPos S log brentq cl)) := by
  unfold FrozenGamma.errorRightPos FrozenGamma.errorLeftPos
  rw [if_pos hb2, if_pos hb2]
  refine ⟨sub_self _, fun h => ?_, fun h => ?_⟩
  · rw [h, zero_add, hg, cdfPos_ppfPos hS hb hsf hcl0.le hcl1]
  · have hp := ppfPos_pos (S := S) hS hb hsf hcl0 hcl1
    have := cdfPos_lt (S := S) (a := a) (b := b) (sf := sf) hS hb hsf (x := FrozenGamma.ppfPos S ⟨a, -b * sf, sf⟩ cl)
      (y := g.modePos + FrozenGamma.ppfPos S ⟨a, -b * sf, sf⟩ cl) hp.le (by linarith)
    rw [cdfPos_ppfPos hS hb hsf hcl0.le hcl1] at this
    rw [hg] at this ⊢
    exact this

/-! ### The real Gamma distribution with `a = 2` -/

/-- The CDF of the Gamma distribution with shape 2: `1 - (1 + x) exp(-x)` for `x ≥ 0`. (Specification.) -/
noncomputable def gamma2cdf (x : ℝ) : ℝ := if x < 0 then 0 else 1 - (1 + x) * Real.exp (-x)

theorem gamma2_strictMono : StrictMonoOn gamma2cdf (Set.Ici 0) := by
  intro x hx y hy hxy
  have hx' : (0 : ℝ) ≤ x := hx
  unfold gamma2cdf
  rw [if_neg (not_lt.2 hx'), if_neg (not_lt.2 (hx'.trans hxy.le))]
  have h1 : 1 + (y - x) < Real.exp (y - x) := by
    have := Real.add_one_lt_exp (x := y - x) (by linarith)
    linarith
  have h2 : Real.exp (-x) = Real.exp (y - x) * Real.exp (-y) := by rw [← Real.exp_add]; congr 1; ring
  have h3 := Real.exp_pos (-y)
  have h4 : (1 + y) ≤ (1 + x) * (1 + (y - x)) := by nlinarith
  have h5 : (1 + y) * Real.exp (-y) < (1 + x) * Real.exp (-x) := by
    rw [h2]
    calc (1 + y) * Real.exp (-y) ≤ (1 + x) * (1 + (y - x)) * Real.exp (-y) :=
          mul_le_mul_of_nonneg_right h4 h3.le
      _ < (1 + x) * Real.exp (y - x) * Real.exp (-y) := by
          refine mul_lt_mul_of_pos_right ?_ h3
          exact mul_lt_mul_of_pos_left h1 (by linarith)
      _ = _ := by ring
  linarith

theorem gamma2_lt_one (x : ℝ) : gamma2cdf x < 1 := by
  unfold gamma2cdf
  split
  · norm_num
  · rename_i h
    have : 0 < (1 + x) * Real.exp (-x) := mul_pos (by linarith) (Real.exp_pos _)
    linarith

theorem gamma2_nonneg (x : ℝ) : 0 ≤ gamma2cdf x := by
  by_cases h : x < 0
  · unfold gamma2cdf; rw [if_pos h]
  · have := gamma2_strictMono.monotoneOn (show (0 : ℝ) ∈ Set.Ici 0 by simp) (show x ∈ Set.Ici (0 : ℝ) from not_lt.1 h)
      (not_lt.1 h)
    have h0 : gamma2cdf 0 = 0 := by unfold gamma2cdf; simp
    linarith

theorem gamma2_surj {q : ℝ} (h0 : 0 ≤ q) (h1 : q < 1) : ∃ x, 0 ≤ x ∧ gamma2cdf x = q := by
  have hcont : ContinuousOn (fun x : ℝ => 1 - (1 + x) * Real.exp (-x)) (Set.Icc 0 (4 / (1 - q))) := by fun_prop
  have hpos : 0 < 4 / (1 - q) := by apply div_pos <;> linarith
  have hend : q ≤ 1 - (1 + 4 / (1 - q)) * Real.exp (-(4 / (1 - q))) := by
    -- exp(y) ≥ 1 + y + y²/2, so (1+y) exp(-y) ≤ 4 / y for y ≥ 4
    set y := 4 / (1 - q) with hy
    have hy4 : 4 ≤ y := by rw [hy, le_div_iff₀ (by linarith)]; linarith
    have hq := Real.quadratic_le_exp_of_nonneg (x := y) (by linarith)
    have he : (1 + y) * Real.exp (-y) ≤ 4 / y := by
      rw [Real.exp_neg, ← div_eq_mul_inv, div_le_div_iff₀ (Real.exp_pos _) (by linarith)]
      nlinarith
    have : 4 / y = 1 - q := by rw [hy]; field_simp
    linarith
  obtain ⟨x, hx, hxq⟩ := intermediate_value_Icc hpos.le hcont ⟨by simpa using h0, hend⟩
  refine ⟨x, hx.1, ?_⟩
  unfold gamma2cdf
  rw [if_neg (not_lt.2 hx.1)]
  exact hxq

open Classical in
/-- The Gamma distribution with shape 2 (used for every shape here). (Specification.) -/
noncomputable def gamma2 : StdGamma where
  cdf := fun _ x => gamma2cdf x
  ppf := fun _ q => if h : 0 ≤ q ∧ q < 1 then (gamma2_surj h.1 h.2).choose else 0
  logpdf := fun _ x => Real.log x - x

theorem gamma2_ok (a : ℝ) : gamma2.Ok a where
  cdf_ppf q h0 h1 := by
    show gamma2cdf (dite _ _ _) = q
    rw [dif_pos ⟨h0, h1⟩]
    exact (gamma2_surj h0 h1).choose_spec.2
  ppf_nonneg q h0 h1 := by
    show 0 ≤ dite _ _ _
    rw [dif_pos ⟨h0, h1⟩]
    exact (gamma2_surj h0 h1).choose_spec.1
  cdf_nonneg := gamma2_nonneg
  cdf_lt_one := gamma2_lt_one
  cdf_mono := gamma2_strictMono

/-- **C76 fails**: one observed event with an expected background of one half (`a = 2`, `loc = -1/2`): the 68.27 %
interval given by the errors starts at 0 and contains more than 68.27 %. -/
theorem C76_one_sided_error_overcovers (brentq : ℝ → ℝ) :
    ∃ p, mkCounting 1 (some 1) (some (1 / 2)) none = .ok p ∧ p.gamma.a = 2 ∧ p.gamma.modePos = 1 / 2 ∧
      p.gamma.modePos - p.gamma.errorLeftPos gamma2 Real.log brentq 0.6827 = 0 ∧
      0.6827 < p.gamma.cdfPos gamma2 (p.gamma.modePos + p.gamma.errorRightPos gamma2 Real.log brentq 0.6827) := by
  have g : TwoGiven 1 (1 / 2) (1 / 2) (some 1) (some (1 / 2)) none := ⟨by simp, by simp, by simp, by simp [countNone]⟩
  obtain ⟨p, hp, -, -, hpg, hpm⟩ := C37_two_of_three 1 1 (1 / 2) (1 / 2) one_pos (by norm_num) (by norm_num) (by norm_num) _ _ _ g
  have hmode : p.gamma.modePos = 1 / 2 := by rw [hpm]; norm_num
  refine ⟨p, hp, by rw [hpg]; norm_num, hmode, ?_⟩
  have hcond : p.gamma.logpdfPos gamma2 Real.log 0 >
      p.gamma.logpdfPos gamma2 Real.log (p.gamma.ppfPos gamma2 0.6827) := by
    rw [hpg]
    -- the argument of the PDF at the one-sided limit
    obtain ⟨u, hu⟩ : ∃ u, u = gamma2.ppf (1 + 1) ((1 - gamma2cdf (1 / 2)) * 0.6827 + gamma2cdf (1 / 2)) := ⟨_, rfl⟩
    have hppf : FrozenGamma.ppfPos gamma2 ⟨1 + 1, -(1 / 2) * 1, 1⟩ 0.6827 = -(1 / 2) + u := by
      unfold FrozenGamma.ppfPos FrozenGamma.ppf FrozenGamma.cdf
      simp only
      rw [hu]
      norm_num
      rfl
    have hlt := gamma2_lt_one (1 / 2)
    have hge := gamma2_nonneg (1 / 2)
    have hq0 : 0 ≤ (1 - gamma2cdf (1 / 2)) * 0.6827 + gamma2cdf (1 / 2) := by nlinarith
    have hq1 : (1 - gamma2cdf (1 / 2)) * 0.6827 + gamma2cdf (1 / 2) < 1 := by nlinarith
    have hu0 : 0 ≤ u := by rw [hu]; exact (gamma2_ok 2).ppf_nonneg _ hq0 hq1
    have hcu : gamma2cdf u = (1 - gamma2cdf (1 / 2)) * 0.6827 + gamma2cdf (1 / 2) := by
      rw [hu]; exact (gamma2_ok 2).cdf_ppf _ hq0 hq1
    have e12 : gamma2cdf (1 / 2) = 1 - 3 / 2 * Real.exp (-(1 / 2)) := by
      unfold gamma2cdf; rw [if_neg (by norm_num)]; norm_num
    have e2 : gamma2cdf 2 = 1 - 3 * Real.exp (-2) := by
      unfold gamma2cdf; rw [if_neg (by norm_num)]; norm_num
    have hexp : Real.exp (-(1 / 2)) = Real.exp (3 / 2) * Real.exp (-2) := by
      rw [← Real.exp_add]; congr 1; norm_num
    have h32 : Real.exp (3 / 2) < 4.5 := by
      have h3 : Real.exp (3 / 2) ^ 2 = Real.exp 1 ^ 3 := by
        rw [← Real.exp_nat_mul, ← Real.exp_nat_mul]; congr 1; norm_num
      have he := Real.exp_one_lt_d9
      have he0 := Real.exp_pos 1
      have hc : Real.exp 1 ^ 3 < 2.7182818286 ^ 3 := pow_lt_pow_left₀ he he0.le (by norm_num)
      by_contra hcon
      rw [not_lt] at hcon
      have : (4.5 : ℝ) ^ 2 ≤ Real.exp (3 / 2) ^ 2 := pow_le_pow_left₀ (by norm_num) hcon 2
      rw [h3] at this
      norm_num at this hc
      linarith
    have hu2 : 2 < u := by
      by_contra hcon
      have := gamma2_strictMono.monotoneOn (show u ∈ Set.Ici (0 : ℝ) from hu0) (show (2 : ℝ) ∈ Set.Ici (0 : ℝ) by norm_num)
        (not_lt.1 hcon)
      rw [hcu, e12, e2, hexp] at this
      have hp2 := Real.exp_pos (-2)
      nlinarith
    have e1 : FrozenGamma.logpdfPos gamma2 Real.log ⟨1 + 1, -(1 / 2) * 1, 1⟩ 0 =
        (Real.log (1 / 2) - 1 / 2) - Real.log 1 + Real.log (1 / (1 - FrozenGamma.cdf gamma2 ⟨1 + 1, -(1 / 2) * 1, 1⟩ 0)) := by
      unfold FrozenGamma.logpdfPos
      simp only [gamma2]
      norm_num
    have e1' : FrozenGamma.logpdfPos gamma2 Real.log ⟨1 + 1, -(1 / 2) * 1, 1⟩ (-(1 / 2) + u) =
        (Real.log u - u) - Real.log 1 + Real.log (1 / (1 - FrozenGamma.cdf gamma2 ⟨1 + 1, -(1 / 2) * 1, 1⟩ 0)) := by
      unfold FrozenGamma.logpdfPos
      simp only [gamma2]
      rw [show (-(1 / 2) + u - -(1 / 2) * 1) / 1 = u by ring]
    rw [hppf, e1, e1']
    -- log u - u < log (1/2) - 1/2 for u > 2
    have hlog : Real.log u ≤ Real.log 2 + (u / 2 - 1) := by
      have h := Real.log_le_sub_one_of_pos (x := u / 2) (by linarith)
      rw [Real.log_div (by linarith) (by norm_num)] at h
      linarith
    have hl2 : Real.log (1 / 2) = -Real.log 2 := by rw [Real.log_div (by norm_num) (by norm_num), Real.log_one]; ring
    have hl2b := Real.log_two_lt_d9
    rw [hl2]
    linarith
  have hone := C76_positive_one_sided gamma2 Real.log (1 + 1) (1 / 2) 1 (gamma2_ok _) (by norm_num) one_pos brentq 0.6827
    (by norm_num) (by norm_num) p.gamma hpg hcond
  exact ⟨hone.1, hone.2.2 (by rw [hmode]; norm_num)⟩

end Verif.Probability
