import Verif.Dict.Theorems
/-!
# C38 for the Gamma-type, KDE and multivariate classes; C40
-/
set_option linter.unusedSectionVars false
set_option linter.unusedSimpArgs false
set_option linter.unusedVariables false
namespace Verif.DistDict
open Verif.Py Verif.Probability

/-- Resolved counts are the given ones or consistent. -/
theorem resolveCounts_good {t b s : Option ℝ} {c : Counts} (h : resolveCounts t b s = .ok c) :
    ¬ badTriple (some c.total) (some c.background) (some c.signal) := by
  unfold resolveCounts at h
  split at h
  · cases h
  split at h
  · cases h
  split at h
  · cases h
  rename_i hb
  split at h
  · cases h
  have z : ∀ t b s : ℝ, t - b - s = 0 → ¬ badTriple (some t) (some b) (some s) := by
    intro t b s h; simp only [badTriple, h, zero_div, abs_zero, not_lt, gt_iff_lt]; norm_num
  match t, b, s, h, hb with
  | some t, some b, some s, h, hb => cases h; exact hb
  | some t, some b, none, h, _ => cases h; exact z _ _ _ (by ring)
  | some t, none, some s, h, _ => cases h; exact z _ _ _ (by ring)
  | none, some b, some s, h, _ => cases h; exact z _ _ _ (by ring)
  | some _, none, none, h, _ => cases h
  | none, some _, none, h, _ => cases h
  | none, none, some _, h, _ => cases h
  | none, none, none, h, _ => cases h

theorem mkCounting_ok {sf : ℝ} {t b s : Option ℝ} {p : CountingProcess} (h : mkCounting sf t b s = .ok p) :
    0 < sf ∧ resolveCounts t b s = .ok p.counts ∧ p.scaleFactor = sf ∧
      p.gamma = ⟨p.counts.total + 1, -p.counts.background * sf, sf⟩ ∧ 0 ≤ p.counts.background := by
  unfold mkCounting at h
  split at h
  · cases h
  rename_i hsf
  obtain ⟨c, hc, h⟩ := bind_eq_ok h
  obtain ⟨g, hg, h⟩ := bind_eq_ok h
  cases h
  unfold mkGamma at hg
  split at hg
  · cases hg
  rename_i hloc
  cases hg
  push Not at hsf
  refine ⟨hsf, hc, rfl, rfl, ?_⟩
  by_contra hneg
  push Not at hneg
  exact hloc (mul_pos (by simpa using hneg) hsf)

theorem mkCounting_of {sf : ℝ} {t b s : Option ℝ} {c : Counts} (hsf : 0 < sf) (h : resolveCounts t b s = .ok c)
    (hb : 0 ≤ c.background) :
    mkCounting sf t b s = .ok ⟨sf, c, ⟨c.total + 1, -c.background * sf, sf⟩⟩ := by
  unfold mkCounting
  rw [if_neg (not_le.2 hsf), h]
  simp only [ok_bind_eq, mkGamma]
  rw [if_neg]
  · rfl
  · have : 0 ≤ c.background * sf := mul_nonneg hb hsf.le
    rw [not_lt]; linarith

/-- A counting process with its own counts, all three given. -/
theorem mkCounting_again {sf : ℝ} {t b s : Option ℝ} {p : CountingProcess} (h : mkCounting sf t b s = .ok p)
    (h0 : 0 ≤ p.counts.total) :
    mkCounting p.scaleFactor (some p.counts.total) (some p.counts.background) (some p.counts.signal) = .ok p := by
  obtain ⟨hsf, hc, h1, h2, hb⟩ := mkCounting_ok h
  rw [h1, mkCounting_of hsf (resolveCounts_again hc h0 hb (resolveCounts_good hc)) hb, ← h2, ← h1]

theorem build_gammaCounting (E : Env) {args : List PVal} {a : Dict String PVal} (h : build E .gammaCounting args = .ok a)
    (h0 : ∀ x, Dict.get? a "counts_total" = some (.float x) → 0 ≤ x) : Reloads E ⟨.gammaCounting, a⟩ := by
  match args, h with
  | [sf, t, b, s], h =>
    replace h : bCounting sf t b s = .ok a := h
    unfold bCounting at h
    obtain ⟨sf', _, h⟩ := bind_eq_ok h
    obtain ⟨t', _, h⟩ := bind_eq_ok h
    obtain ⟨b', _, h⟩ := bind_eq_ok h
    obtain ⟨s', _, h⟩ := bind_eq_ok h
    obtain ⟨p, hp, h⟩ := bind_eq_ok h
    cases h
    have ht : 0 ≤ p.counts.total := h0 _ rfl
    refine reloads_of_build E _ _ (countAttrs p) [.float p.scaleFactor, .float p.counts.total,
      .float p.counts.background, .float p.counts.signal] rfl ?_ ?_ rfl
    · simp only [List.mem_cons, List.not_mem_nil, or_false]
      rintro v (rfl | rfl | rfl | rfl) <;> exact float_notDist _
    · show bCounting (thru (.float p.scaleFactor)) (thru (.float p.counts.total)) (thru (.float p.counts.background))
        (thru (.float p.counts.signal)) = _
      simp only [bCounting, num_thru, optNum_thru, num_float, optNum_float, ok_bind_eq, mkCounting_again hp ht]

/-- The upper limit needs the total and the background. -/
theorem mkGammaUpperLimit_ok {S : StdGamma} {l cl : ℝ} {t b s : Option ℝ} {u : UpperLimit}
    (h : mkGammaUpperLimit S l cl t b s = .ok u) : u.limit = l ∧ u.confidenceLevel = cl ∧
      0 ≤ u.process.counts.total ∧
      mkGammaUpperLimit S l cl (some u.process.counts.total) (some u.process.counts.background)
        (some u.process.counts.signal) = .ok u := by
  unfold mkGammaUpperLimit at h
  split at h
  · cases h
  rename_i hcl
  split at h
  · cases h
  rename_i hl
  obtain ⟨v, hv, h⟩ := bind_eq_ok h
  obtain ⟨p, hp, h⟩ := bind_eq_ok h
  cases h
  obtain ⟨hsf1, hc1, hs1, hg1, hb1⟩ := mkCounting_ok hv
  obtain ⟨hsf2, hc2, hs2, hg2, hb2⟩ := mkCounting_ok hp
  -- `t` and `b` are given
  have hgiven : ∃ t' b', t = some t' ∧ b = some b' ∧ 0 ≤ t' ∧ p.counts = ⟨t', b', t' - b'⟩ := by
    have hh := hc2
    unfold resolveCounts at hh
    split at hh
    · cases hh
    rename_i h1
    split at hh
    · cases hh
    split at hh
    · cases hh
    split at hh
    · cases hh
    match t, b, hh, h1 with
    | some t, some b, hh, h1 =>
      refine ⟨t, b, rfl, rfl, ?_, ?_⟩
      · by_contra hn; exact h1 ⟨t, rfl, not_le.1 hn⟩
      · injection hh with hh; exact hh.symm
    | some _, none, hh, _ => cases hh
    | none, some _, hh, _ => cases hh
    | none, none, hh, _ => cases hh
  obtain ⟨t', b', rfl, rfl, h0, hpc⟩ := hgiven
  have hb' : 0 ≤ b' := by rw [hpc] at hb2; exact hb2
  have hr : resolveCounts (some t') (some b') (some (t' - b')) = .ok ⟨t', b', t' - b'⟩ := by
    have := resolveCounts_again hc2 (by rw [hpc]; exact h0) hb2 (resolveCounts_good hc2)
    rw [hpc] at this; exact this
  have hr2 : resolveCounts (some t') (some b') none = .ok ⟨t', b', t' - b'⟩ := by rw [hc2, hpc]
  have hvc : v.counts.total = t' ∧ v.counts.background = b' := by
    unfold resolveCounts at hc1
    split at hc1
    · cases hc1
    split at hc1
    · cases hc1
    split at hc1
    · cases hc1
    split at hc1
    · cases hc1
    cases s with
    | none => injection hc1 with hc1; rw [← hc1]; exact ⟨rfl, rfl⟩
    | some s => injection hc1 with hc1; rw [← hc1]; exact ⟨rfl, rfl⟩
  refine ⟨rfl, rfl, by rw [hpc]; exact h0, ?_⟩
  show mkGammaUpperLimit S l cl (some p.counts.total) (some p.counts.background) (some p.counts.signal) = _
  rw [hpc]
  unfold mkGammaUpperLimit
  rw [if_neg hcl, if_neg hl, mkCounting_of hsf1 hr hb']
  simp only [ok_bind_eq]
  have hgeq : (⟨t' + 1, -b' * 1, 1⟩ : FrozenGamma) = v.gamma := by rw [hg1, hvc.1, hvc.2]
  rw [hgeq, mkCounting_of (by exact hsf2) hr2 hb']
  simp only [ok_bind_eq]
  congr 1
  rw [UpperLimit.mk.injEq]
  refine ⟨rfl, rfl, ?_⟩
  obtain ⟨a1, a2, a3⟩ := p
  simp only at hpc hs2 hg2
  rw [CountingProcess.mk.injEq]
  refine ⟨hs2.symm, hpc.symm, ?_⟩
  rw [hg2, hpc]

theorem build_gammaUpperLimit (E : Env) {args : List PVal} {a : Dict String PVal}
    (h : build E .gammaUpperLimit args = .ok a) : Reloads E ⟨.gammaUpperLimit, a⟩ := by
  match args, h with
  | [l, cl, t, b, s], h =>
    replace h : bGammaLimit E l cl t b s = .ok a := h
    unfold bGammaLimit at h
    obtain ⟨l', _, h⟩ := bind_eq_ok h
    obtain ⟨cl', _, h⟩ := bind_eq_ok h
    obtain ⟨t', _, h⟩ := bind_eq_ok h
    obtain ⟨b', _, h⟩ := bind_eq_ok h
    obtain ⟨s', _, h⟩ := bind_eq_ok h
    obtain ⟨u, hu, h⟩ := bind_eq_ok h
    cases h
    obtain ⟨h1, h2, h3, h4⟩ := mkGammaUpperLimit_ok hu
    refine reloads_of_build E _ _
      ([("limit", .float u.limit), ("confidence_level", .float u.confidenceLevel)] ++ countAttrs u.process)
      [.float u.limit, .float u.confidenceLevel, .float u.process.counts.total,
      .float u.process.counts.background, .float u.process.counts.signal] rfl ?_ ?_ rfl
    · simp only [List.mem_cons, List.not_mem_nil, or_false]
      rintro v (rfl | rfl | rfl | rfl | rfl) <;> exact float_notDist _
    · show bGammaLimit E (thru (.float u.limit)) (thru (.float u.confidenceLevel))
        (thru (.float u.process.counts.total)) (thru (.float u.process.counts.background))
        (thru (.float u.process.counts.signal)) = _
      simp only [bGammaLimit, num_thru, optNum_thru, num_float, optNum_float, ok_bind_eq]
      rw [h1, h2, h4, ok_bind_eq, h1, h2]

/-! ### General Gamma -/

/-- "very small" background uncertainty: l.1150 (Specification.) -/
def SmallStd (std total : ℝ) : Prop := std / Real.sqrt (total + 1) < 1 / 100

theorem mkGeneralCounting_ok {G : ℝ → ℝ → ℝ → ℝ → Except PyErr (Num ℝ)} {sf : ℝ} {t b s : Option ℝ} {std : ℝ}
    {p : GeneralCounting (Num ℝ)} (h : mkGeneralCounting G Real.sqrt sf t b s std = .ok p) :
    0 < sf ∧ 0 ≤ std ∧ resolveCounts t b s = .ok p.counts ∧ p.scaleFactor = sf ∧ 0 ≤ p.counts.background ∧
      G (p.counts.total + 1) (-p.counts.background * sf) sf std = .ok p.num ∧
      (SmallStd std p.counts.total → p.backgroundStd = 0 ∧ p.gaussianStd = 0) ∧
      (¬ SmallStd std p.counts.total → p.backgroundStd = std ∧ p.gaussianStd = std) := by
  unfold mkGeneralCounting at h
  split at h
  · cases h
  rename_i hsf
  split at h
  · cases h
  rename_i hstd
  obtain ⟨c, hc, h⟩ := bind_eq_ok h
  split at h
  · cases h
  rename_i hloc
  obtain ⟨n, hn, h⟩ := bind_eq_ok h
  cases h
  push Not at hsf hstd
  refine ⟨hsf, hstd, hc, rfl, ?_, hn, ?_, ?_⟩
  · by_contra hneg
    push Not at hneg
    exact hloc (mul_pos (by simpa using hneg) hsf)
  · intro hs; exact ⟨if_pos hs, if_pos hs⟩
  · intro hs; exact ⟨if_neg hs, if_neg hs⟩

theorem mkGeneralCounting_of {G : ℝ → ℝ → ℝ → ℝ → Except PyErr (Num ℝ)} {sf : ℝ} {t b s : Option ℝ} {std : ℝ}
    {c : Counts} (hsf : 0 < sf) (hstd : 0 ≤ std) (hc : resolveCounts t b s = .ok c) (hb : 0 ≤ c.background) :
    mkGeneralCounting G Real.sqrt sf t b s std =
      G (c.total + 1) (-c.background * sf) sf std >>= fun n =>
        .ok ⟨sf, c, if std / Real.sqrt (c.total + 1) < 1 / 100 then 0 else std,
          if std / Real.sqrt (c.total + 1) < 1 / 100 then 0 else std, n⟩ := by
  unfold mkGeneralCounting
  rw [if_neg (not_le.2 hsf), if_neg (not_lt.2 hstd), hc]
  simp only [ok_bind_eq]
  rw [if_neg]
  have : 0 ≤ c.background * sf := mul_nonneg hb hsf.le
  rw [not_lt]; linarith

/-- Rebuilding a general counting process from the counts it has inferred, with some background uncertainty. -/
theorem mkGeneralCounting_again {G : ℝ → ℝ → ℝ → ℝ → Except PyErr (Num ℝ)} {sf : ℝ} {t b s : Option ℝ} {std : ℝ}
    {p : GeneralCounting (Num ℝ)} (h : mkGeneralCounting G Real.sqrt sf t b s std = .ok p) (h0 : 0 ≤ p.counts.total)
    (std' : ℝ) (hs : 0 ≤ std') :
    mkGeneralCounting G Real.sqrt p.scaleFactor (some p.counts.total) (some p.counts.background) (some p.counts.signal) std' =
      G (p.counts.total + 1) (-p.counts.background * p.scaleFactor) p.scaleFactor std' >>= fun n =>
        .ok ⟨p.scaleFactor, p.counts, if std' / Real.sqrt (p.counts.total + 1) < 1 / 100 then 0 else std',
          if std' / Real.sqrt (p.counts.total + 1) < 1 / 100 then 0 else std', n⟩ := by
  obtain ⟨hsf, hstd, hc, h1, hb, _, _, _⟩ := mkGeneralCounting_ok h
  exact mkGeneralCounting_of (by rw [h1]; exact hsf) hs
    (resolveCounts_again hc h0 hb (resolveCounts_good hc)) hb

theorem smallStd_zero (t : ℝ) : SmallStd 0 t := by unfold SmallStd; rw [zero_div]; norm_num

theorem mkGeneralCounting_same {G : ℝ → ℝ → ℝ → ℝ → Except PyErr (Num ℝ)} {sf : ℝ} {t b s : Option ℝ} {std : ℝ}
    {p : GeneralCounting (Num ℝ)} (h : mkGeneralCounting G Real.sqrt sf t b s std = .ok p) (h0 : 0 ≤ p.counts.total)
    (hs : std = 0 ∨ ¬ SmallStd std p.counts.total) :
    p.backgroundStd = std ∧
    mkGeneralCounting G Real.sqrt p.scaleFactor (some p.counts.total) (some p.counts.background) (some p.counts.signal)
      std = .ok p := by
  obtain ⟨hsf, hstd, hc, h1, hb, hG, h2, h3⟩ := mkGeneralCounting_ok h
  have hbs : p.backgroundStd = std ∧ p.gaussianStd = std := by
    rcases hs with rfl | hs
    · exact h2 (smallStd_zero _)
    · exact h3 hs
  refine ⟨hbs.1, ?_⟩
  rw [mkGeneralCounting_again h h0 std hstd, h1, hG]
  simp only [ok_bind_eq]
  have hif : (if std / Real.sqrt (p.counts.total + 1) < 1 / 100 then 0 else std) = std := by
    split
    · rename_i hh
      rcases hs with rfl | hs
      · rfl
      · exact absurd hh hs
    · rfl
  rw [hif]
  obtain ⟨a1, a2, a3, a4, a5⟩ := p
  simp only at h1 hbs
  congr 1
  rw [GeneralCounting.mk.injEq]
  exact ⟨h1.symm, rfl, hbs.1.symm, hbs.2.symm, rfl⟩

theorem build_generalGammaCounting (E : Env) {sf t b s std : PVal} {a : Dict String PVal} {d tot : ℝ}
    (h : build E .generalGammaCounting [sf, t, b, s, std] = .ok a) (hd : num std = .ok d)
    (ht : Dict.get? a "counts_total" = some (.float tot)) (h0 : 0 ≤ tot) (hs : d = 0 ∨ ¬ SmallStd d tot) :
    Reloads E ⟨.generalGammaCounting, a⟩ := by
  replace h : bGenCounting E sf t b s std = .ok a := h
  unfold bGenCounting at h
  obtain ⟨sf', _, h⟩ := bind_eq_ok h
  obtain ⟨t', _, h⟩ := bind_eq_ok h
  obtain ⟨b', _, h⟩ := bind_eq_ok h
  obtain ⟨s', _, h⟩ := bind_eq_ok h
  obtain ⟨d', hd', h⟩ := bind_eq_ok h
  rw [hd] at hd'; cases hd'
  obtain ⟨p, hp, h⟩ := bind_eq_ok h
  cases h
  have htot : p.counts.total = tot := by
    have : some (PVal.float p.counts.total) = some (.float tot) := ht
    injection this with this; injection this
  obtain ⟨hbs, hagain⟩ := mkGeneralCounting_same hp (by rw [htot]; exact h0) (by rw [htot]; exact hs)
  refine reloads_of_build E _ _ (genAttrs p) [.float p.scaleFactor, .float p.counts.total,
    .float p.counts.background, .float p.counts.signal, .float p.backgroundStd] rfl ?_ ?_ rfl
  · simp only [List.mem_cons, List.not_mem_nil, or_false]
    rintro v (rfl | rfl | rfl | rfl | rfl) <;> exact float_notDist _
  · show bGenCounting E (thru (.float p.scaleFactor)) (thru (.float p.counts.total)) (thru (.float p.counts.background))
      (thru (.float p.counts.signal)) (thru (.float p.backgroundStd)) = _
    simp only [bGenCounting, num_thru, optNum_thru, num_float, optNum_float, ok_bind_eq]
    rw [hbs, hagain]; rfl

end Verif.DistDict
