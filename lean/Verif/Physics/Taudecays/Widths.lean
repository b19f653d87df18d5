import Verif.Physics.Common
import Verif.Physics.Bdecays.Plnu
import Mathlib.Tactic.Linarith
import Mathlib.Tactic.Ring
/-!
# Two-body widths of fermions, and the lepton flavour violating and semihadronic tau decays

`flavio/physics/taudecays/common.py`, `taulgamma.py`, `taupnu.py`, `taupl.py`, `tauvl.py`, `flavio/physics/mudecays/muegamma.py`.
Floats are real numbers.
-/
set_option linter.unusedVariables false
set_option linter.unusedSimpArgs false
namespace Verif.Tau
open Verif.Common

local notation "conj" => starRingEnd ℂ

/-- `Gamma`.  /repo/flavio/physics/taudecays/common.py:58-59. -/
noncomputable def gamma (amp2 M m1 m2 : ℝ) : ℝ :=
  Real.sqrt (lambdaK (M ^ 2) (m1 ^ 2) (m2 ^ 2)) / (16 * Real.pi * M ^ 3) * amp2

/-- `GammaFsf`.  /repo/flavio/physics/taudecays/common.py:52-56. -/
noncomputable def gammaFsf (M ms mf : ℝ) (gL gR : ℂ) : ℝ :=
  gamma (((‖gL‖ ^ 2 + ‖gR‖ ^ 2) * (M ^ 2 + mf ^ 2 - ms ^ 2) + 4 * M * mf * (gL.re * gR.re + gL.im * gR.im)) / 2) M mf ms

/-- The couplings of a vector boson to two fermions.  /repo/flavio/physics/taudecays/common.py:6. -/
structure Vcpl where
  gL : ℂ
  gR : ℂ
  gTL : ℂ
  gtTL : ℂ
  gTR : ℂ
  gtTR : ℂ

/-- `any([gL, gR])`.  /repo/flavio/physics/taudecays/common.py:9,28. -/
def Vcpl.anyV (g : Vcpl) : Prop := g.gL ≠ 0 ∨ g.gR ≠ 0
/-- `any([gTL, gtTL, gTR, gtTR])`.  /repo/flavio/physics/taudecays/common.py:14,34. -/
def Vcpl.anyT (g : Vcpl) : Prop := g.gTL ≠ 0 ∨ g.gtTL ≠ 0 ∨ g.gTR ≠ 0 ∨ g.gtTR ≠ 0

/-- `amp2_I`, massless case.  /repo/flavio/physics/taudecays/common.py:23-26. -/
noncomputable def ampI0 (M mf : ℝ) (g : Vcpl) : ℝ :=
  3 * M * (M ^ 2 - mf ^ 2) * (g.gL * conj (g.gTR + g.gtTR) + g.gR * conj (g.gTL - g.gtTL)).re
    + 3 * mf * (mf ^ 2 - M ^ 2) * (g.gR * conj (g.gTR + g.gtTR) + g.gL * conj (g.gTL - g.gtTL)).re

/-- `amp2_I`, massive case.  /repo/flavio/physics/taudecays/common.py:42-46. -/
noncomputable def ampI (M mv mf : ℝ) (g : Vcpl) : ℝ :=
  3 * M * (M ^ 2 - mf ^ 2 - mv ^ 2) * (g.gL * conj (g.gTR + g.gtTR) + g.gR * conj (g.gTL - g.gtTL)).re
    + 3 * mf * (mf ^ 2 - M ^ 2 - mv ^ 2) * (g.gR * conj (g.gTR + g.gtTR) + g.gL * conj (g.gTL - g.gtTL)).re

/-- `amp2_V`, massless case.  /repo/flavio/physics/taudecays/common.py:9-13. -/
noncomputable def ampV0 (M mf : ℝ) (g : Vcpl) : ℝ :=
  (‖g.gL‖ ^ 2 + ‖g.gR‖ ^ 2) * (M ^ 2 + mf ^ 2) - 8 * mf * M * (g.gR * conj g.gL).re

/-- `amp2_V`, massive case.  /repo/flavio/physics/taudecays/common.py:28-33. -/
noncomputable def ampV (M mv mf : ℝ) (g : Vcpl) : ℝ :=
  ((‖g.gL‖ ^ 2 + ‖g.gR‖ ^ 2) * ((mf ^ 2 - M ^ 2) ^ 2 / mv ^ 2 + mf ^ 2 + M ^ 2 - 2 * mv ^ 2)
    - 12 * mf * M * (g.gR * conj g.gL).re) / 2

/-- `amp2_T`, massless case.  /repo/flavio/physics/taudecays/common.py:14-20. -/
noncomputable def ampT0 (M mf : ℝ) (g : Vcpl) : ℝ :=
  (M ^ 2 - mf ^ 2) ^ 2 * (‖g.gTL‖ ^ 2 + ‖g.gTR‖ ^ 2 + ‖g.gtTL‖ ^ 2 + ‖g.gtTR‖ ^ 2
    - 2 * ((g.gTL * conj g.gtTL).re - (g.gTR * conj g.gtTR).re))

/-- `amp2_T`, massive case.  /repo/flavio/physics/taudecays/common.py:34-39. -/
noncomputable def ampT (M mv mf : ℝ) (g : Vcpl) : ℝ :=
  mv ^ 2 / 2 * ((‖g.gTL - g.gtTL‖ ^ 2 + ‖g.gTR + g.gtTR‖ ^ 2) * (2 * (mf ^ 2 - M ^ 2) ^ 2 / mv ^ 2 - mf ^ 2 - M ^ 2 - mv ^ 2)
    - 12 * mf * M * ((g.gTR + g.gtTR) * conj (g.gTL - g.gtTL)).re)

open Classical in
/-- `amp2` with its guards (`float(False)` is zero; the interference is dropped if one of the two is absent).
/repo/flavio/physics/taudecays/common.py:8-48. -/
noncomputable def amp2 (M mv mf : ℝ) (g : Vcpl) : ℝ :=
  if mv = 0 then
    (if g.anyV then ampV0 M mf g else 0) + (if g.anyT then ampT0 M mf g else 0)
      + (if g.anyV ∧ g.anyT then ampI0 M mf g else 0)
  else
    (if g.anyV then ampV M mv mf g else 0) + (if g.anyT then ampT M mv mf g else 0)
      + (if g.anyV ∧ g.anyT then ampI M mv mf g else 0)

/-- `GammaFvf`.  /repo/flavio/physics/taudecays/common.py:6-50. -/
noncomputable def gammaFvf (M mv mf : ℝ) (g : Vcpl) : ℝ := gamma (amp2 M mv mf g) M mf mv

/-- `BR_llgamma`: `c12` and `c21` are `Cgamma_l1l2` and `Cgamma_l2l1`.  /repo/flavio/physics/taudecays/taulgamma.py:13-27. -/
noncomputable def brLlgamma (tau m1 m2 : ℝ) (c12 c21 : ℂ) : ℝ :=
  tau * gammaFvf m1 0 m2 ⟨0, 0, 2 * conj c12, 0, 2 * c21, 0⟩

/-- The parameters of the tau decays.  /repo/flavio/physics/taudecays/taupnu.py:10-37. -/
structure TInp where
  mtau : ℝ
  tauTau : ℝ
  GF : ℝ
  mP : ℝ
  fP : ℝ
  mq1 : ℝ
  mq2 : ℝ
  V : ℂ
  cvl : ℝ
  rGF : ℝ

/-- `_br_taupnu`: `own` says that the neutrino is the tau neutrino.  /repo/flavio/physics/taudecays/taupnu.py:10-37. -/
noncomputable def brTaupnuNu (d : TInp) (wc : Plnu.Wc) (own : Bool) : ℝ :=
  let wc := if own then wc.addVL ((d.cvl * d.rGF : ℝ)) else wc
  let rWC := (wc.VL - wc.VR) + ((d.mP ^ 2 / d.mtau / (d.mq1 + d.mq2) : ℝ) : ℂ) * (wc.SR - wc.SL)
  let gR := ((-Real.sqrt 2 * d.GF : ℝ) : ℂ) * d.V * rWC * ((d.fP * d.mtau : ℝ) : ℂ)
  d.tauTau * gammaFsf d.mtau d.mP 0 0 gR

/-- `br_taupnu`.  /repo/flavio/physics/taudecays/taupnu.py:40-43. -/
noncomputable def brTaupnu (d : TInp) (np : Plnu.Lep → Plnu.Wc) : ℝ :=
  ([Plnu.Lep.e, .mu, .tau].map fun l => brTaupnuNu d (np l) (decide (l = .tau))).sum

/-- Vector and scalar coefficients of one quark flavour read by `br_taupl`.
/repo/flavio/physics/taudecays/taupl.py:32-41. -/
structure Fcpl where
  LL : ℂ
  RR : ℂ
  LR : ℂ
  RL : ℂ
  sRR : ℂ
  sRL : ℂ
  sLL : ℂ
  sLR : ℂ

/-- `br_taupl` for the neutral pion (`mu`, `md` quark masses).  /repo/flavio/physics/taudecays/taupl.py:17-49,71. -/
noncomputable def brTauPi0 (tau mtau mP ml fP mu md : ℝ) (u d : Fcpl) : ℝ :=
  let vL := (fP : ℂ) * ((u.LR - u.LL) / 2 - (d.LR - d.LL) / 2) / ((Real.sqrt 2 : ℝ) : ℂ)
  let vR := (fP : ℂ) * ((u.RR - u.RL) / 2 - (d.RR - d.RL) / 2) / ((Real.sqrt 2 : ℝ) : ℂ)
  let sL := ((fP * mP ^ 2 / (mu + md) : ℝ) : ℂ) * ((u.sLR - u.sLL) / 2 - (d.sLR - d.sLL) / 2) / ((Real.sqrt 2 : ℝ) : ℂ)
  let sR := ((fP * mP ^ 2 / (mu + md) : ℝ) : ℂ) * ((u.sRR - u.sRL) / 2 - (d.sRR - d.sRL) / 2) / ((Real.sqrt 2 : ℝ) : ℂ)
  let gL := sL + (-vL * ml + vR * mtau)
  let gR := sR + (-vR * ml + vL * mtau)
  tau * gammaFsf mtau mP ml gL gR

/-- The coefficients of `sdtaul` read by `br_taupl`.  /repo/flavio/physics/taudecays/taupl.py:58-61. -/
structure Kcpl where
  c9 : ℂ
  c9p : ℂ
  c10 : ℂ
  c10p : ℂ
  cs : ℂ
  csp : ℂ
  cp : ℂ
  cpp : ℂ

/-- `br_taupl` for the K0.  /repo/flavio/physics/taudecays/taupl.py:51-71. -/
noncomputable def brTauK0 (tau mtau mP ml fP mq1 mq2 GF alpha : ℝ) (xit : ℂ) (w : Kcpl) : ℝ :=
  let C9m := -w.c9 + w.c9p
  let C10m := -w.c10 + w.c10p
  let CSm := w.cs - w.csp
  let CPm := w.cp - w.cpp
  let Kv := xit * ((4 * GF / Real.sqrt 2 * alpha / (4 * Real.pi) : ℝ) : ℂ)
  let Ks := Kv * mq2
  let gV := -(fP : ℂ) * Kv * C9m / 2
  let gA := -(fP : ℂ) * Kv * C10m / 2
  let gS := -(fP : ℂ) * Ks * (mP : ℂ) ^ 2 * CSm / 2 / ((mq1 + mq2 : ℝ) : ℂ)
  let gP := -(fP : ℂ) * Ks * (mP : ℂ) ^ 2 * CPm / 2 / ((mq1 + mq2 : ℝ) : ℂ)
  let gVS := gS + gV * ((mtau - ml : ℝ) : ℂ)
  let gAP := gP - gA * ((mtau + ml : ℝ) : ℂ)
  tau * gammaFsf mtau mP ml (gVS - gAP) (gVS + gAP)

/-- `br_tauvl` from the combination `g` of quark flavours and the constant `KV`.
/repo/flavio/physics/taudecays/tauvl.py:25-53. -/
noncomputable def brTauV (tau mtau mV ml fV fTV KV : ℝ) (g : Fin 6 → ℂ) (cTaul cLtau : ℂ) : ℝ :=
  let gL := ((mV * fV / 2 : ℝ) : ℂ) * (g 0 + g 1)
  let gR := ((mV * fV / 2 : ℝ) : ℂ) * (g 2 + g 3)
  let gTL := (fTV : ℂ) * conj (g 4) + ((2 * fV * KV / mV : ℝ) : ℂ) * conj cLtau
  let gtTL := -(fTV : ℂ) * conj (g 4)
  let gTR := (fTV : ℂ) * g 5 + ((2 * fV * KV / mV : ℝ) : ℂ) * cTaul
  let gtTR := (fTV : ℂ) * g 5
  tau * gammaFvf mtau mV ml ⟨gL, gR, gTL, gtTL, gTR, gtTR⟩

theorem nsq (z : ℂ) : ‖z‖ ^ 2 = z.re ^ 2 + z.im ^ 2 := by
  rw [← Complex.normSq_eq_norm_sq, Complex.normSq_apply]; ring

/-- The guards do not change the result: without couplings the contributions are zero anyway. -/
theorem amp2_eq (M mv mf : ℝ) (g : Vcpl) : amp2 M mv mf g =
    if mv = 0 then ampV0 M mf g + ampT0 M mf g + ampI0 M mf g else ampV M mv mf g + ampT M mv mf g + ampI M mv mf g := by
  unfold amp2
  have hV : ¬ g.anyV → g.gL = 0 ∧ g.gR = 0 := by
    intro h; unfold Vcpl.anyV at h; push Not at h; exact h
  have hT : ¬ g.anyT → g.gTL = 0 ∧ g.gtTL = 0 ∧ g.gTR = 0 ∧ g.gtTR = 0 := by
    intro h; unfold Vcpl.anyT at h; push Not at h; exact h
  by_cases v : g.anyV <;> by_cases t : g.anyT
  · simp [v, t]
  · obtain ⟨a, b, c, e⟩ := hT t
    simp [v, t, ampT0, ampT, ampI0, ampI, a, b, c, e]
  · obtain ⟨a, b⟩ := hV v
    simp [v, t, ampV0, ampV, ampI0, ampI, a, b]
  · obtain ⟨a, b⟩ := hV v
    obtain ⟨a', b', c', e'⟩ := hT t
    simp [v, t, ampV0, ampV, ampT0, ampT, ampI0, ampI, a, b, a', b', c', e']

/-- The squared amplitude for a scalar in terms of parity eigenstates (specification). -/
noncomputable def scalarSq (M ms mf : ℝ) (gL gR : ℂ) : ℝ :=
  (((M + mf) ^ 2 - ms ^ 2) * ‖gL + gR‖ ^ 2 + ((M - mf) ^ 2 - ms ^ 2) * ‖gL - gR‖ ^ 2) / 4

/-- The squared amplitude for a massive vector: for each parity the longitudinal and the two transverse polarizations
(specification). -/
noncomputable def vectorSq (M mv mf : ℝ) (g : Vcpl) : ℝ :=
  let v := g.gL + g.gR
  let a := g.gL - g.gR
  let s := (g.gTL - g.gtTL) + (g.gTR + g.gtTR)
  let t := (g.gTL - g.gtTL) - (g.gTR + g.gtTR)
  ((M - mf) ^ 2 - mv ^ 2) / 4 * (‖(((M + mf) / mv : ℝ) : ℂ) * v + (mv : ℂ) * s‖ ^ 2 + 2 * ‖v + ((M + mf : ℝ) : ℂ) * s‖ ^ 2)
  + ((M + mf) ^ 2 - mv ^ 2) / 4 * (‖(((M - mf) / mv : ℝ) : ℂ) * a - (mv : ℂ) * t‖ ^ 2 + 2 * ‖a - ((M - mf : ℝ) : ℂ) * t‖ ^ 2)

/-- **C96 (squared amplitudes).** The width of a fermion into a scalar or a massive vector and a fermion is the phase
space factor times the sum over parities (and polarizations) of squared amplitudes; for a massless vector with dipole
couplings it is `(M² - m²)²` times the sum of the two squared dipoles. -/
theorem C96_amplitudes (M mv mf : ℝ) (g : Vcpl) (gL gR : ℂ) (hmv : mv ≠ 0) :
    gammaFsf M mv mf gL gR = gamma (scalarSq M mv mf gL gR) M mf mv ∧
    gammaFvf M mv mf g = gamma (vectorSq M mv mf g) M mf mv ∧
    (g.gL = 0 → g.gR = 0 → gammaFvf M 0 mf g
      = gamma ((M ^ 2 - mf ^ 2) ^ 2 * (‖g.gTL - g.gtTL‖ ^ 2 + ‖g.gTR + g.gtTR‖ ^ 2)) M mf 0) := by
  refine ⟨?_, ?_, ?_⟩
  · unfold gammaFsf scalarSq
    congr 1
    simp only [nsq, Complex.add_re, Complex.add_im, Complex.sub_re, Complex.sub_im]
    ring
  · unfold gammaFvf
    rw [amp2_eq, if_neg hmv]
    congr 1
    unfold vectorSq ampV ampT ampI
    simp only [nsq, Complex.add_re, Complex.add_im, Complex.sub_re, Complex.sub_im, Complex.mul_re, Complex.mul_im,
      Complex.conj_re, Complex.conj_im, Complex.ofReal_re, Complex.ofReal_im, map_add, map_sub]
    field_simp
    ring
  · intro h1 h2
    unfold gammaFvf
    rw [amp2_eq, if_pos rfl]
    congr 1
    unfold ampV0 ampT0 ampI0
    rw [h1, h2]
    simp only [nsq, Complex.add_re, Complex.add_im, Complex.sub_re, Complex.sub_im, Complex.mul_re, Complex.mul_im,
      Complex.conj_re, Complex.conj_im, Complex.zero_re, Complex.zero_im, map_add, map_sub, norm_zero]
    ring

theorem gamma_nonneg (x M m1 m2 : ℝ) (hM : 0 ≤ M) (hx : 0 ≤ x) : 0 ≤ gamma x M m1 m2 := by
  have := Real.pi_pos
  unfold gamma
  positivity

theorem thr (M m w : ℝ) (hm : 0 ≤ m) (hw : 0 ≤ w) (h : m + w ≤ M) : 0 ≤ (M - m) ^ 2 - w ^ 2 ∧ 0 ≤ (M + m) ^ 2 - w ^ 2 := by
  constructor
  · have := pow_le_pow_left₀ hw (by linarith : w ≤ M - m) 2
    linarith
  · have := pow_le_pow_left₀ hw (by linarith : w ≤ M + m) 2
    linarith

/-- **C96 (widths are not negative).** Above threshold, for all couplings, the widths into a scalar and into a massive
vector are not negative, and so is the width into a massless vector with dipole couplings; at threshold they vanish. -/
theorem C96_nonneg (M m0 mf : ℝ) (g : Vcpl) (gL gR : ℂ) (hf : 0 ≤ mf) (h0 : 0 ≤ m0) (hM : mf + m0 ≤ M) :
    0 ≤ gammaFsf M m0 mf gL gR ∧ (m0 ≠ 0 → 0 ≤ gammaFvf M m0 mf g) ∧
    (g.gL = 0 → g.gR = 0 → 0 ≤ gammaFvf M 0 mf g) ∧
    (M = mf + m0 → gammaFsf M m0 mf gL gR = 0 ∧ gammaFvf M m0 mf g = 0) := by
  have hM0 : 0 ≤ M := by linarith
  obtain ⟨t1, t2⟩ := thr M mf m0 hf h0 hM
  refine ⟨?_, fun h => ?_, fun h1 h2 => ?_, fun h => ?_⟩
  · have e : gammaFsf M m0 mf gL gR = gamma (scalarSq M m0 mf gL gR) M mf m0 := by
      unfold gammaFsf scalarSq
      congr 1
      simp only [nsq, Complex.add_re, Complex.add_im, Complex.sub_re, Complex.sub_im]
      ring
    rw [e]
    refine gamma_nonneg _ _ _ _ hM0 ?_
    unfold scalarSq
    positivity
  · rw [(C96_amplitudes M m0 mf g 0 0 h).2.1]
    refine gamma_nonneg _ _ _ _ hM0 ?_
    unfold vectorSq
    positivity
  · rw [(C96_amplitudes M 1 mf g 0 0 one_ne_zero).2.2 h1 h2]
    exact gamma_nonneg _ _ _ _ hM0 (by positivity)
  · have : lambdaK (M ^ 2) (mf ^ 2) (m0 ^ 2) = 0 := by
      unfold lambdaK kallen
      rw [h]
      have : ((mf + m0) ^ 2) ^ 2 + (mf ^ 2) ^ 2 + (m0 ^ 2) ^ 2 - 2 * ((mf + m0) ^ 2 * mf ^ 2 + mf ^ 2 * m0 ^ 2
        + (mf + m0) ^ 2 * m0 ^ 2) = 0 := by ring
      simp only [this]
      simp
    constructor
    · unfold gammaFsf gamma; rw [this]; simp
    · unfold gammaFvf gamma; rw [this]; simp

/-- **C96 (finding).** For a massless vector the formula with `gL`, `gR` is not a squared amplitude: there are couplings
and masses above threshold for which the width is negative.  (No decay of the library has such couplings: see
`C96_lgamma`.) -/
theorem C96_massless_vector_negative : ∃ (M mf : ℝ) (g : Vcpl), 0 < mf ∧ mf < M ∧ gammaFvf M 0 mf g < 0 := by
  refine ⟨10, 9, ⟨1, 1, 0, 0, 0, 0⟩, by norm_num, by norm_num, ?_⟩
  unfold gammaFvf
  rw [amp2_eq, if_pos rfl]
  have : ampV0 10 9 ⟨1, 1, 0, 0, 0, 0⟩ + ampT0 10 9 ⟨1, 1, 0, 0, 0, 0⟩ + ampI0 10 9 ⟨1, 1, 0, 0, 0, 0⟩ = -358 := by
    norm_num [ampV0, ampT0, ampI0]
  rw [this]
  have hp := Real.pi_pos
  have hl : 0 < Real.sqrt (lambdaK (10 ^ 2) (9 ^ 2) (0 ^ 2)) := by
    apply Real.sqrt_pos.mpr
    norm_num [lambdaK, kallen]
  unfold gamma
  have : 0 < Real.sqrt (lambdaK (10 ^ 2) (9 ^ 2) (0 ^ 2)) / (16 * Real.pi * 10 ^ 3) := by positivity
  linarith

/-- **C96 (continuity at zero mass).** With dipole couplings the width into a massive vector tends to the one into a
massless vector. -/
theorem C96_massless_limit (M mf : ℝ) (g : Vcpl) (h1 : g.gL = 0) (h2 : g.gR = 0) (hf : 0 ≤ mf) (hM : mf < M) :
    Filter.Tendsto (fun w => gammaFvf M w mf g) (nhdsWithin 0 (Set.Ioi 0)) (nhds (gammaFvf M 0 mf g)) := by
  have hM0 : 0 < M := by linarith
  have e0 := (C96_amplitudes M 1 mf g 0 0 one_ne_zero).2.2 h1 h2
  set A := ‖g.gTL - g.gtTL‖ ^ 2 + ‖g.gTR + g.gtTR‖ ^ 2
  set B := ((g.gTR + g.gtTR) * conj (g.gTL - g.gtTL)).re
  set k : ℝ → ℝ := fun w => ((M - mf) ^ 2 - w ^ 2) * ((M + mf) ^ 2 - w ^ 2)
  set f : ℝ → ℝ := fun w => Real.sqrt (k w) / (16 * Real.pi * M ^ 3)
    * (A * (mf ^ 2 - M ^ 2) ^ 2 - w ^ 2 / 2 * (A * (mf ^ 2 + M ^ 2 + w ^ 2) + 12 * mf * M * B)) with hf'
  have hk : ∀ w, 0 ≤ w → w ≤ M - mf → lambdaK (M ^ 2) (mf ^ 2) (w ^ 2) = k w := by
    intro w hw hw'
    obtain ⟨a, b⟩ := thr M mf w hf hw (by linarith)
    have : kallen (M ^ 2) (mf ^ 2) (w ^ 2) = k w := by simp only [kallen, k]; ring
    unfold lambdaK
    rw [this, if_neg (not_lt.mpr (mul_nonneg a b))]
  have f0 : gammaFvf M 0 mf g = f 0 := by
    rw [e0]
    simp only [hf', gamma]
    rw [show lambdaK (M ^ 2) (mf ^ 2) (0 ^ 2) = k 0 from hk 0 le_rfl (by linarith)]
    ring
  have fw : ∀ w, 0 < w → w ≤ M - mf → gammaFvf M w mf g = f w := by
    intro w hw hw'
    unfold gammaFvf gamma
    rw [amp2_eq, if_neg hw.ne', hk w hw.le hw']
    simp only [hf']
    congr 1
    unfold ampV ampT ampI
    rw [h1, h2]
    simp only [norm_zero, zero_mul, Complex.zero_re, mul_zero, add_zero]
    field_simp
    ring
  rw [f0]
  have hc : Continuous f := by
    simp only [hf', k]
    fun_prop
  refine ((hc.continuousAt (x := 0)).tendsto.mono_left nhdsWithin_le_nhds).congr' ?_
  have : Set.Ioo (0 : ℝ) (M - mf) ∈ nhdsWithin (0 : ℝ) (Set.Ioi 0) := Ioo_mem_nhdsGT (by linarith)
  filter_upwards [this] with w hw
  exact (fw w hw.1 hw.2.le).symm

/-- **C96 (radiative decays).** `BR(l1 → l2 gamma)` is `tau (m1² - m2²)³ / (4 pi m1³)` times the sum of the squares of the
two dipole coefficients: symmetric in them, not negative, and zero without lepton flavour violation. -/
theorem C96_lgamma (tau m1 m2 : ℝ) (c12 c21 : ℂ) (h2 : 0 ≤ m2) (h1 : m2 < m1) :
    brLlgamma tau m1 m2 c12 c21 = tau * ((m1 ^ 2 - m2 ^ 2) ^ 3 / (4 * Real.pi * m1 ^ 3) * (‖c12‖ ^ 2 + ‖c21‖ ^ 2)) ∧
    brLlgamma tau m1 m2 c12 c21 = brLlgamma tau m1 m2 c21 c12 ∧
    (0 < tau → 0 ≤ brLlgamma tau m1 m2 c12 c21 ∧ (brLlgamma tau m1 m2 c12 c21 = 0 ↔ c12 = 0 ∧ c21 = 0)) := by
  have hm : 0 < m1 := by linarith
  have hp := Real.pi_pos
  have hd : 0 < m1 ^ 2 - m2 ^ 2 := by
    have := pow_lt_pow_left₀ h1 h2 (by norm_num : 2 ≠ 0); linarith
  have main : ∀ a b : ℂ, brLlgamma tau m1 m2 a b
      = tau * ((m1 ^ 2 - m2 ^ 2) ^ 3 / (4 * Real.pi * m1 ^ 3) * (‖a‖ ^ 2 + ‖b‖ ^ 2)) := by
    intro a b
    have hk : lambdaK (m1 ^ 2) (m2 ^ 2) (0 ^ 2) = (m1 ^ 2 - m2 ^ 2) ^ 2 := by
      unfold lambdaK
      have : kallen (m1 ^ 2) (m2 ^ 2) (0 ^ 2) = (m1 ^ 2 - m2 ^ 2) ^ 2 := by simp only [kallen]; ring
      rw [this, if_neg (not_lt.mpr (by positivity))]
    unfold brLlgamma
    rw [(C96_amplitudes m1 1 m2 _ 0 0 one_ne_zero).2.2 rfl rfl]
    unfold gamma
    rw [hk, Real.sqrt_sq hd.le]
    simp only [sub_zero, add_zero, norm_mul, RCLike.norm_conj, Complex.norm_ofNat]
    field_simp
    ring
  refine ⟨main c12 c21, ?_, fun ht => ⟨?_, ?_⟩⟩
  · rw [main, main]; ring
  · rw [main]; positivity
  · rw [main]
    constructor
    · intro h
      have h' : ‖c12‖ ^ 2 + ‖c21‖ ^ 2 = 0 := by
        have hx : tau * ((m1 ^ 2 - m2 ^ 2) ^ 3 / (4 * Real.pi * m1 ^ 3)) ≠ 0 := by positivity
        rw [← mul_assoc] at h
        exact (mul_eq_zero.mp h).resolve_left hx
      have a1 : ‖c12‖ ^ 2 = 0 := by nlinarith [sq_nonneg ‖c12‖, sq_nonneg ‖c21‖]
      have a2 : ‖c21‖ ^ 2 = 0 := by nlinarith [sq_nonneg ‖c12‖, sq_nonneg ‖c21‖]
      exact ⟨norm_eq_zero.mp (pow_eq_zero_iff (by norm_num) |>.mp a1), norm_eq_zero.mp (pow_eq_zero_iff (by norm_num) |>.mp a2)⟩
    · rintro ⟨rfl, rfl⟩; simp

/-- The amplitude of tau → P nu (specification): the same combination as in P → tau nu. -/
noncomputable def tauAmp (d : TInp) (w : Plnu.Wc) (sm : ℝ) : ℂ :=
  (sm : ℂ) + (w.VL - w.VR) + ((d.mP ^ 2 / (d.mtau * (d.mq1 + d.mq2)) : ℝ) : ℂ) * (w.SR - w.SL)

/-- **C96 (tau → P nu).** The branching ratio is the lifetime times the textbook rate
`GF² f² |V|² m_tau³/(16 pi) (1 - mP²/m_tau²)²`, summed incoherently over the neutrinos, with the Standard Model amplitude
in the tau neutrino only; hence non-negative, and independent of the phase of the CKM element. -/
theorem C96_taupnu (d : TInp) (np : Plnu.Lep → Plnu.Wc) (hP : 0 ≤ d.mP) (hm : d.mP ≤ d.mtau) (h0 : 0 < d.mtau) :
    brTaupnu d np = d.tauTau * (d.GF ^ 2 * d.fP ^ 2 * ‖d.V‖ ^ 2 * d.mtau ^ 3 / (16 * Real.pi) * (1 - d.mP ^ 2 / d.mtau ^ 2) ^ 2
      * (‖tauAmp d (np .e) 0‖ ^ 2 + ‖tauAmp d (np .mu) 0‖ ^ 2 + ‖tauAmp d (np .tau) (d.cvl * d.rGF)‖ ^ 2)) := by
  have hp := Real.pi_pos
  have hd : 0 ≤ d.mtau ^ 2 - d.mP ^ 2 := by
    have := pow_le_pow_left₀ hP hm 2; linarith
  have hk : lambdaK (d.mtau ^ 2) (0 ^ 2) (d.mP ^ 2) = (d.mtau ^ 2 - d.mP ^ 2) ^ 2 := by
    unfold lambdaK
    have : kallen (d.mtau ^ 2) (0 ^ 2) (d.mP ^ 2) = (d.mtau ^ 2 - d.mP ^ 2) ^ 2 := by simp only [kallen]; ring
    rw [this, if_neg (not_lt.mpr (by positivity))]
  have g : ∀ r : ℂ, gammaFsf d.mtau d.mP 0 0 (((-Real.sqrt 2 * d.GF : ℝ) : ℂ) * d.V * r * ((d.fP * d.mtau : ℝ) : ℂ))
      = d.GF ^ 2 * d.fP ^ 2 * ‖d.V‖ ^ 2 * d.mtau ^ 3 / (16 * Real.pi) * (1 - d.mP ^ 2 / d.mtau ^ 2) ^ 2 * ‖r‖ ^ 2 := by
    intro r
    have hn : ‖((-Real.sqrt 2 * d.GF : ℝ) : ℂ) * d.V * r * ((d.fP * d.mtau : ℝ) : ℂ)‖ ^ 2
        = 2 * d.GF ^ 2 * ‖d.V‖ ^ 2 * ‖r‖ ^ 2 * (d.fP * d.mtau) ^ 2 := by
      rw [norm_mul, norm_mul, norm_mul, Complex.norm_real, Complex.norm_real, Real.norm_eq_abs, Real.norm_eq_abs]
      simp only [mul_pow, sq_abs]
      rw [neg_sq, Real.sq_sqrt (by norm_num)]
    unfold gammaFsf gamma
    rw [hk, Real.sqrt_sq hd, hn]
    simp only [norm_zero, Complex.zero_re, Complex.zero_im]
    field_simp
    ring
  have dv : ∀ a b c : ℝ, a / b / c = a / (b * c) := fun a b c => by rw [div_div]
  have a1 : ∀ w, brTaupnuNu d w false = d.tauTau * (d.GF ^ 2 * d.fP ^ 2 * ‖d.V‖ ^ 2 * d.mtau ^ 3 / (16 * Real.pi)
      * (1 - d.mP ^ 2 / d.mtau ^ 2) ^ 2 * ‖tauAmp d w 0‖ ^ 2) := by
    intro w
    show d.tauTau * gammaFsf _ _ _ _ _ = _
    rw [g, dv]
    simp [tauAmp]
  have a2 : ∀ w, brTaupnuNu d w true = d.tauTau * (d.GF ^ 2 * d.fP ^ 2 * ‖d.V‖ ^ 2 * d.mtau ^ 3 / (16 * Real.pi)
      * (1 - d.mP ^ 2 / d.mtau ^ 2) ^ 2 * ‖tauAmp d w (d.cvl * d.rGF)‖ ^ 2) := by
    intro w
    show d.tauTau * gammaFsf _ _ _ _ _ = _
    rw [g, dv]
    simp only [tauAmp, Plnu.Wc.addVL, if_true]
    congr 4
    ring
  unfold brTaupnu
  simp only [List.map, List.sum_cons, List.sum_nil, reduceCtorEq, decide_false, decide_true, a1, a2]
  ring

/-- **C96 (crossing).** The ratio of `tau → P nu` to `P → mu nu` in the Standard Model does not depend on the CKM
element, the decay constant, the Fermi constant or new physics in muon decay. -/
theorem C96_crossing (d : TInp) (p : Plnu.Inp) (P : Plnu.Mes) (hPK : P = .K ∨ P = .pi) (h1 : d.GF = p.GF)
    (h2 : d.fP = p.f P) (h3 : ‖d.V‖ = ‖Plnu.ckmOf p P‖) (h5 : d.rGF = p.rGF)
    (hP : 0 ≤ d.mP) (hm : d.mP ≤ d.mtau) (h0 : 0 < d.mtau) :
    brTaupnu d (fun _ => ⟨0, 0, 0, 0⟩) * (2 * p.tau P * p.mP P * p.ml .mu ^ 2 * (1 - p.ml .mu ^ 2 / p.mP P ^ 2) ^ 2
        * (1 + p.delta P .mu) * p.cvl .rho ^ 2)
      = Plnu.br p Plnu.noNP P .mu * (d.tauTau * d.mtau ^ 3 * (1 - d.mP ^ 2 / d.mtau ^ 2) ^ 2 * d.cvl ^ 2) := by
  rw [C96_taupnu d _ hP hm h0, Plnu.br_eq]
  have hs : ‖Plnu.amp p Plnu.noNP P .mu .e (Plnu.used p P)‖ ^ 2 + ‖Plnu.amp p Plnu.noNP P .mu .mu (Plnu.used p P)‖ ^ 2
      + ‖Plnu.amp p Plnu.noNP P .mu .tau (Plnu.used p P)‖ ^ 2 = (p.cvl .rho * p.rGF) ^ 2 := by
    rcases hPK with rfl | rfl <;> simp [Plnu.amp, Plnu.noNP, Plnu.smOf, mul_pow]
  have hc : Plnu.corr p P .mu = p.delta P .mu := by rcases hPK with rfl | rfl <;> simp [Plnu.corr]
  unfold Plnu.rate
  rw [hs, hc]
  have e1 : tauAmp d ⟨0, 0, 0, 0⟩ 0 = 0 := by simp [tauAmp]
  have e2 : ‖tauAmp d ⟨0, 0, 0, 0⟩ (d.cvl * d.rGF)‖ ^ 2 = (d.cvl * d.rGF) ^ 2 := by
    simp only [tauAmp, sub_self, mul_zero, add_zero, Complex.norm_real, Real.norm_eq_abs, sq_abs]
  rw [e1, e2, norm_zero, h1, h2, h3, h5]
  ring

/-- **C96 (LFV tau decays).** `BR(tau → pi0 l)`, `BR(tau → K0 l)` and `BR(tau → V l)` are not negative above threshold, for
all coefficients, and vanish without new physics. -/
theorem C96_lfv_nonneg (tau mtau mP ml fP mu md mq1 mq2 GF alpha fV fTV KV : ℝ) (u d : Fcpl) (xit : ℂ) (w : Kcpl) (g : Fin 6 → ℂ)
    (c c' : ℂ) (ht : 0 ≤ tau) (hl : 0 ≤ ml) (hP : 0 < mP) (hM : ml + mP ≤ mtau) :
    0 ≤ brTauPi0 tau mtau mP ml fP mu md u d ∧ 0 ≤ brTauK0 tau mtau mP ml fP mq1 mq2 GF alpha xit w ∧
    0 ≤ brTauV tau mtau mP ml fV fTV KV g c c' ∧
    brTauPi0 tau mtau mP ml fP mu md ⟨0, 0, 0, 0, 0, 0, 0, 0⟩ ⟨0, 0, 0, 0, 0, 0, 0, 0⟩ = 0 ∧
    brTauK0 tau mtau mP ml fP mq1 mq2 GF alpha xit ⟨0, 0, 0, 0, 0, 0, 0, 0⟩ = 0 ∧
    brTauV tau mtau mP ml fV fTV KV (fun _ => 0) 0 0 = 0 := by
  have z : gammaFsf mtau mP ml 0 0 = 0 := by simp [gammaFsf, gamma]
  refine ⟨mul_nonneg ht ?_, mul_nonneg ht ?_, mul_nonneg ht ?_, ?_, ?_, ?_⟩
  · exact (C96_nonneg mtau mP ml ⟨0, 0, 0, 0, 0, 0⟩ _ _ hl hP.le hM).1
  · exact (C96_nonneg mtau mP ml ⟨0, 0, 0, 0, 0, 0⟩ _ _ hl hP.le hM).1
  · exact (C96_nonneg mtau mP ml _ 0 0 hl hP.le hM).2.1 hP.ne'
  · simp [brTauPi0, z]
  · simp [brTauK0, z]
  · have z' : gammaFvf mtau mP ml ⟨0, 0, 0, 0, 0, 0⟩ = 0 := by
      unfold gammaFvf
      rw [amp2_eq, if_neg hP.ne']
      simp [ampV, ampT, ampI, gamma]
    simp [brTauV, z']

/-- **C96 (tau → K0 l).** The scalar/vector and pseudoscalar/axial amplitudes do not interfere: the branching ratio
depends on `C9 - C9'`, `C10 - C10'`, `CS - CS'`, `CP - CP'` through two squares. -/
theorem C96_tauK0 (tau mtau mP ml fP mq1 mq2 GF alpha : ℝ) (xit : ℂ) (w : Kcpl) (hP : 0 < mP) :
    let k := ‖xit‖ ^ 2 * (GF * alpha * fP) ^ 2 / (8 * Real.pi ^ 2)
    brTauK0 tau mtau mP ml fP mq1 mq2 GF alpha xit w = tau * gamma
      (k * (((mtau + ml) ^ 2 - mP ^ 2) * ‖((mtau - ml : ℝ) : ℂ) * (w.c9 - w.c9p) - ((mq2 * mP ^ 2 / (mq1 + mq2) : ℝ) : ℂ) * (w.cs - w.csp)‖ ^ 2
        + ((mtau - ml) ^ 2 - mP ^ 2) * ‖((mtau + ml : ℝ) : ℂ) * (w.c10 - w.c10p) + ((mq2 * mP ^ 2 / (mq1 + mq2) : ℝ) : ℂ) * (w.cp - w.cpp)‖ ^ 2))
      mtau ml mP := by
  intro k
  have hp := Real.pi_pos
  set x := ((mtau - ml : ℝ) : ℂ) * (w.c9 - w.c9p) - ((mq2 * mP ^ 2 / (mq1 + mq2) : ℝ) : ℂ) * (w.cs - w.csp) with hx
  set y := ((mtau + ml : ℝ) : ℂ) * (w.c10 - w.c10p) + ((mq2 * mP ^ 2 / (mq1 + mq2) : ℝ) : ℂ) * (w.cp - w.cpp) with hy
  set K : ℂ := xit * ((4 * GF / Real.sqrt 2 * alpha / (4 * Real.pi) : ℝ) : ℂ) with hK
  have hs2 : Real.sqrt 2 ^ 2 = 2 := Real.sq_sqrt (by norm_num)
  have nK : ‖(fP : ℂ) * K‖ ^ 2 = 4 * k := by
    simp only [hK, norm_mul, mul_pow, Complex.norm_real, Real.norm_eq_abs, sq_abs, div_pow, hs2, k]
    field_simp
    ring
  have e : brTauK0 tau mtau mP ml fP mq1 mq2 GF alpha xit w
      = tau * gammaFsf mtau mP ml ((fP : ℂ) * K / 2 * x - (-((fP : ℂ) * K / 2 * y))) ((fP : ℂ) * K / 2 * x + (-((fP : ℂ) * K / 2 * y))) := by
    unfold brTauK0
    simp only [← hK]
    rw [hx, hy]
    push_cast
    congr 2 <;> ring
  rw [e, (C96_amplitudes mtau mP ml ⟨0, 0, 0, 0, 0, 0⟩ _ _ hP.ne').1]
  congr 2
  unfold scalarSq
  have r1 : (fP : ℂ) * K / 2 * x - (-((fP : ℂ) * K / 2 * y)) + ((fP : ℂ) * K / 2 * x + (-((fP : ℂ) * K / 2 * y))) = (fP : ℂ) * K * x := by ring
  have r2 : (fP : ℂ) * K / 2 * x - (-((fP : ℂ) * K / 2 * y)) - ((fP : ℂ) * K / 2 * x + (-((fP : ℂ) * K / 2 * y))) = (fP : ℂ) * K * y := by ring
  rw [r1, r2, norm_mul (↑fP * K) x, norm_mul (↑fP * K) y, mul_pow, mul_pow, nK]
  ring

/-- Non-vacuity: the hypotheses of the theorems hold for masses like the physical ones, with non-zero results. -/
example : 0 < brLlgamma 1 17 1 1 0 ∧ 0 ≤ brTauV 1 17 8 1 1 1 1 (fun _ => 1) 1 1 := by
  constructor
  · obtain ⟨h1, h2, h3⟩ := C96_lgamma 1 17 1 1 0 (by norm_num) (by norm_num)
    obtain ⟨h4, h5⟩ := h3 one_pos
    exact lt_of_le_of_ne h4 (fun h => one_ne_zero (h5.mp h.symm).1)
  · exact (C96_lfv_nonneg 1 17 8 1 1 1 1 1 1 1 1 1 1 1 ⟨0, 0, 0, 0, 0, 0, 0, 0⟩ ⟨0, 0, 0, 0, 0, 0, 0, 0⟩ 0
      ⟨0, 0, 0, 0, 0, 0, 0, 0⟩ _ 1 1 (by norm_num) (by norm_num) (by norm_num) (by norm_num)).2.2.1

end Verif.Tau
