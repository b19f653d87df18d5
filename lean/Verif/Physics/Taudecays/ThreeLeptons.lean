import Verif.Py.Basic
import Verif.Py.Dict
import Mathlib.Analysis.SpecialFunctions.Log.Basic
import Mathlib.Analysis.Complex.Basic
import Mathlib.Analysis.Real.Pi.Bounds
import Mathlib.Analysis.Complex.ExponentialBounds
import Mathlib.Tactic.Linarith
import Mathlib.Tactic.Ring
import Mathlib.Tactic.Positivity
import Mathlib.Tactic.FieldSimp
import Mathlib.Tactic.NormNum
/-!
# Lepton flavour violating decays into three charged leptons

`flavio/physics/taudecays/tau3l.py`, `flavio/physics/mudecays/mu3e.py`.  Floats are real numbers; the dictionary `wceff` is a
record (an absent entry, which the rate functions of the decay do not read, is zero); `wc` is a total function of the name of
the coefficient (`get_wc` returns every coefficient of the sector).
-/
set_option linter.unusedVariables false
set_option linter.unusedSimpArgs false
namespace Verif.Tau3l
open Verif.Py

local notation "conj" => starRingEnd ℂ

/-- The effective coefficients.  /repo/flavio/physics/taudecays/tau3l.py:60-123. -/
structure Weff where
  C7 : ℂ
  C7p : ℂ
  VLL : ℂ
  VLR : ℂ
  VRL : ℂ
  VRR : ℂ
  SLL : ℂ
  SLR : ℂ
  SRL : ℂ
  SRR : ℂ
  TLL : ℂ
  TRR : ℂ

/-- `_BR_taumuee`.  /repo/flavio/physics/taudecays/tau3l.py:15-23. -/
noncomputable def brTaumuee (mtau me : ℝ) (w : Weff) : ℝ :=
  ‖w.VLL‖ ^ 2 + ‖w.VLR‖ ^ 2 + ‖w.VRL‖ ^ 2 + ‖w.VRR‖ ^ 2
    + 1 / 4 * (‖w.SLL‖ ^ 2 + ‖w.SLR‖ ^ 2 + ‖w.SRL‖ ^ 2 + ‖w.SRR‖ ^ 2)
    + 12 * (‖w.TLL‖ ^ 2 + ‖w.TRR‖ ^ 2)
    + 8 * (w.C7 * conj (w.VLL + w.VLR) + w.C7p * conj (w.VRL + w.VRR)).re
    + 32 * (‖w.C7‖ ^ 2 + ‖w.C7p‖ ^ 2) * (Real.log (mtau ^ 2 / me ^ 2) - 3)

/-- `_BR_tau3mu`.  /repo/flavio/physics/taudecays/tau3l.py:26-36. -/
noncomputable def brTau3mu (mtau mmu : ℝ) (w : Weff) : ℝ :=
  2 * ‖w.VLL‖ ^ 2 + ‖w.VLR‖ ^ 2 + ‖w.VRL‖ ^ 2 + 2 * ‖w.VRR‖ ^ 2
    + 1 / 8 * (‖w.SLL‖ ^ 2 + ‖w.SRR‖ ^ 2)
    + 8 * (w.C7 * conj (2 * w.VLL + w.VLR) + w.C7p * conj (w.VRL + 2 * w.VRR)).re
    + 32 * (‖w.C7‖ ^ 2 + ‖w.C7p‖ ^ 2) * (Real.log (mtau ^ 2 / mmu ^ 2) - 11 / 4)

/-- `_BR_taumuemu`.  /repo/flavio/physics/taudecays/tau3l.py:39-42. -/
noncomputable def brTaumuemu (w : Weff) : ℝ :=
  2 * ‖w.VLL‖ ^ 2 + ‖w.VLR‖ ^ 2 + ‖w.VRL‖ ^ 2 + 2 * ‖w.VRR‖ ^ 2 + 1 / 8 * (‖w.SLL‖ ^ 2 + ‖w.SRR‖ ^ 2)

/-- `wcxf_sector_names[l0, l1]`.  /repo/flavio/physics/taudecays/tau3l.py:8-10,49. -/
def sector2 (l0 l1 : String) : Except PyErr String :=
  if (l0, l1) = ("tau", "mu") then .ok "mutau" else if (l0, l1) = ("tau", "e") then .ok "taue"
  else if (l0, l1) = ("mu", "e") then .ok "mue" else .error .keyError

/-- `wcxf_sector_names[l0, l1, l2, l3]`.  /repo/flavio/physics/taudecays/tau3l.py:11-12,51. -/
def sector4 (l0 l1 l2 l3 : String) : Except PyErr String :=
  if (l0, l1, l2, l3) = ("tau", "e", "mu", "e") then .ok "etauemu"
  else if (l0, l1, l2, l3) = ("tau", "mu", "e", "mu") then .ok "muemutau" else .error .keyError

/-- The part of `wc_eff` common to `tau → 3 mu`, `tau → 3 e`, `mu → 3 e`, with the names of the coefficients.
/repo/flavio/physics/taudecays/tau3l.py:57-74,95-103. -/
noncomputable def same (wc : String → ℂ) (x : ℝ) (a b : String) : Weff where
  C7 := x * wc ("Cgamma_" ++ a ++ b)
  C7p := x * conj (wc ("Cgamma_" ++ b ++ a))
  VLL := wc ("CVLL_" ++ b ++ b ++ a ++ b)
  VLR := wc ("CVLR_" ++ a ++ b ++ b ++ b)
  VRL := wc ("CVLR_" ++ b ++ b ++ a ++ b)
  VRR := wc ("CVRR_" ++ b ++ b ++ a ++ b)
  SRR := wc ("CSRR_" ++ b ++ b ++ a ++ b)
  SLL := conj (wc ("CSRR_" ++ b ++ b ++ b ++ a))
  SLR := 0
  SRL := 0
  TLL := 0
  TRR := 0

/-- `wc_eff` for `tau → mu e e`.  /repo/flavio/physics/taudecays/tau3l.py:75-87. -/
noncomputable def muee (wc : String → ℂ) (x : ℝ) : Weff where
  C7 := x * wc "Cgamma_taumu"
  C7p := x * conj (wc "Cgamma_mutau")
  VLL := wc "CVLL_eetaumu"
  VLR := wc "CVLR_taumuee"
  VRL := wc "CVLR_eetaumu"
  VRR := wc "CVRR_eetaumu"
  SRR := wc "CSRR_eetaumu" - wc "CSRR_taueemu" / 2
  SLL := conj (wc "CSRR_eemutau") - conj (wc "CSRR_mueetau") / 2
  SLR := -2 * wc "CVLR_taueemu"
  SRL := -2 * conj (wc "CVLR_mueetau")
  TLL := -conj (wc "CSRR_mueetau") / 8
  TRR := -wc "CSRR_taueemu" / 8

/-- `wc_eff` for `tau → e mu mu`.  /repo/flavio/physics/taudecays/tau3l.py:88-100. -/
noncomputable def emumu (wc : String → ℂ) (x : ℝ) : Weff where
  C7 := x * wc "Cgamma_taue"
  C7p := x * conj (wc "Cgamma_etau")
  VLL := wc "CVLL_muetaumu"
  VLR := wc "CVLR_tauemumu"
  VRL := wc "CVLR_mumutaue"
  VRR := wc "CVRR_muetaumu"
  SRR := wc "CSRR_tauemumu" - wc "CSRR_muetaumu" / 2
  SLL := conj (wc "CSRR_mumuetau") - conj (wc "CSRR_emumutau") / 2
  SLR := -2 * wc "CVLR_taumumue"
  SRL := -2 * wc "CVLR_muetaumu"
  TLL := -conj (wc "CSRR_emumutau") / 8
  TRR := -wc "CSRR_muetaumu" / 8

/-- `wc_eff` for `tau → e mu+ e`.  /repo/flavio/physics/taudecays/tau3l.py:110-116. -/
noncomputable def emue (wc : String → ℂ) : Weff where
  C7 := 0
  C7p := 0
  VLL := wc "CVLL_muetaue"
  VLR := wc "CVLR_tauemue"
  VRL := wc "CVLR_muetaue"
  VRR := wc "CVRR_muetaue"
  SRR := wc "CSRR_muetaue"
  SLL := conj (wc "CSRR_emuetau")
  SLR := 0
  SRL := 0
  TLL := 0
  TRR := 0

/-- `wc_eff` for `tau → mu e+ mu`.  /repo/flavio/physics/taudecays/tau3l.py:117-123. -/
noncomputable def muemu (wc : String → ℂ) : Weff where
  C7 := 0
  C7p := 0
  VLL := conj (wc "CVLL_muemutau")
  VLR := wc "CVLR_taumuemu"
  VRL := conj (wc "CVLR_muemutau")
  VRR := conj (wc "CVRR_muemutau")
  SRR := conj (wc "CSRR_muemutau")
  SLL := wc "CSRR_emutaumu"
  SLR := 0
  SRL := 0
  TLL := 0
  TRR := 0

/-- What the code reads.  /repo/flavio/physics/taudecays/tau3l.py:45-56,129-151, /repo/flavio/physics/mudecays/mu3e.py:9-17. -/
structure Inp where
  m : String → ℝ
  alpha : ℝ
  tauTau : ℝ
  GF : ℝ
  getWc : String → Except PyErr (String → ℂ)

/-- The sector of a decay.  /repo/flavio/physics/taudecays/tau3l.py:48-51. -/
def sectorOf (l0 l1 l2 l3 : String) : Except PyErr String := if l2 = l3 then sector2 l0 l1 else sector4 l0 l1 l2 l3

/-- The chain of cases of `wc_eff`.  `x` is `e/m`.  /repo/flavio/physics/taudecays/tau3l.py:57-126. -/
noncomputable def cases (wc : String → ℂ) (x : ℝ) (l0 l1 l2 l3 : String) : Except PyErr Weff :=
  if (l0, l1, l2, l3) = ("tau", "mu", "mu", "mu") then .ok (same wc x "tau" "mu")
  else if (l0, l1, l2, l3) = ("tau", "e", "e", "e") then .ok (same wc x "tau" "e")
  else if (l0, l1, l2, l3) = ("tau", "mu", "e", "e") then .ok (muee wc x)
  else if (l0, l1, l2, l3) = ("tau", "e", "mu", "mu") then .ok (emumu wc x)
  else if (l0, l1, l2, l3) = ("mu", "e", "e", "e") then .ok (same wc x "mu" "e")
  else if (l0, l1, l2, l3) = ("tau", "e", "mu", "e") then .ok (emue wc)
  else if (l0, l1, l2, l3) = ("tau", "mu", "e", "mu") then .ok (muemu wc)
  else .error .valueError

/-- `wc_eff`.  /repo/flavio/physics/taudecays/tau3l.py:45-126. -/
noncomputable def wcEff (d : Inp) (l0 l1 l2 l3 : String) : Except PyErr Weff :=
  sectorOf l0 l1 l2 l3 >>= fun sec =>
  d.getWc sec >>= fun wc =>
  cases wc (Real.sqrt (4 * Real.pi * d.alpha) / d.m l0) l0 l1 l2 l3

/-- The rate function of each decay: unbound (`UnboundLocalError`) otherwise.
/repo/flavio/physics/taudecays/tau3l.py:134-146. -/
noncomputable def rateOf (d : Inp) (l1 l2 l3 : String) (w : Weff) : Except PyErr ℝ :=
  if (l1, l2, l3) = ("mu", "e", "e") then .ok (brTaumuee (d.m "tau") (d.m "e") w)
  else if (l1, l2, l3) = ("e", "mu", "mu") then .ok (brTaumuee (d.m "tau") (d.m "mu") w)
  else if (l1, l2, l3) = ("mu", "mu", "mu") then .ok (brTau3mu (d.m "tau") (d.m "mu") w)
  else if (l1, l2, l3) = ("e", "e", "e") then .ok (brTau3mu (d.m "tau") (d.m "e") w)
  else if (l1, l2, l3) = ("e", "mu", "e") then .ok (brTaumuemu w)
  else if (l1, l2, l3) = ("mu", "e", "mu") then .ok (brTaumuemu w)
  else .error .unboundLocalError

/-- `BR_taul1l2l3`.  /repo/flavio/physics/taudecays/tau3l.py:129-148. -/
noncomputable def br (d : Inp) (l1 l2 l3 : String) : Except PyErr ℝ :=
  wcEff d "tau" l1 l2 l3 >>= fun w =>
  rateOf d l1 l2 l3 w >>= fun r => .ok (d.tauTau * d.m "tau" ^ 5 / 192 / 8 / Real.pi ^ 3 * r)

/-- `BR_mu3e`.  /repo/flavio/physics/mudecays/mu3e.py:9-17. -/
noncomputable def brMu3e (d : Inp) : Except PyErr ℝ :=
  wcEff d "mu" "e" "e" "e" >>= fun w => .ok (1 / (8 * d.GF ^ 2) * brTau3mu (d.m "mu") (d.m "e") w)

theorem nsq (z : ℂ) : ‖z‖ ^ 2 = z.re ^ 2 + z.im ^ 2 := by
  rw [← Complex.normSq_eq_norm_sq, Complex.normSq_apply]; ring

/-- **C97 (sum of squares).** Each rate function is a sum of squared moduli: the dipole shifts the vector coefficients by
`4 C7` and what remains of it has the weight `32 (log(m²/m'²) - 4)`, respectively `32 (log(m²/m'²) - 17/4)`. -/
theorem C97_squares (m m' : ℝ) (w : Weff) :
    brTaumuee m m' w = ‖w.VLL + 4 * w.C7‖ ^ 2 + ‖w.VLR + 4 * w.C7‖ ^ 2 + ‖w.VRL + 4 * w.C7p‖ ^ 2 + ‖w.VRR + 4 * w.C7p‖ ^ 2
      + (‖w.SLL‖ ^ 2 + ‖w.SLR‖ ^ 2 + ‖w.SRL‖ ^ 2 + ‖w.SRR‖ ^ 2) / 4 + 12 * (‖w.TLL‖ ^ 2 + ‖w.TRR‖ ^ 2)
      + 32 * (Real.log (m ^ 2 / m' ^ 2) - 4) * (‖w.C7‖ ^ 2 + ‖w.C7p‖ ^ 2) ∧
    brTau3mu m m' w = 2 * ‖w.VLL + 4 * w.C7‖ ^ 2 + ‖w.VLR + 4 * w.C7‖ ^ 2 + ‖w.VRL + 4 * w.C7p‖ ^ 2 + 2 * ‖w.VRR + 4 * w.C7p‖ ^ 2
      + (‖w.SLL‖ ^ 2 + ‖w.SRR‖ ^ 2) / 8 + 32 * (Real.log (m ^ 2 / m' ^ 2) - 17 / 4) * (‖w.C7‖ ^ 2 + ‖w.C7p‖ ^ 2) := by
  constructor
  · unfold brTaumuee
    simp only [nsq, Complex.add_re, Complex.add_im, Complex.mul_re, Complex.mul_im, Complex.conj_re, Complex.conj_im,
      map_add, Complex.re_ofNat, Complex.im_ofNat]
    ring
  · unfold brTau3mu
    simp only [nsq, Complex.add_re, Complex.add_im, Complex.mul_re, Complex.mul_im, Complex.conj_re, Complex.conj_im,
      map_add, Complex.re_ofNat, Complex.im_ofNat]
    ring

/-- A mass ratio of nine is enough for the logarithm. -/
theorem log_large (m m' : ℝ) (h' : 0 < m') (h : 9 * m' ≤ m) : 17 / 4 ≤ Real.log (m ^ 2 / m' ^ 2) := by
  have hm : 0 < m := by linarith
  rw [Real.le_log_iff_exp_le (by positivity)]
  have e : Real.exp (17 / 4) ≤ 81 := by
    have h1 : Real.exp 1 < 2.7182818286 := Real.exp_one_lt_d9
    have h2 : Real.exp (17 / 4) ^ 4 = Real.exp 1 ^ 17 := by
      rw [← Real.exp_nat_mul, ← Real.exp_nat_mul]; norm_num
    have h3 : Real.exp 1 ^ 17 ≤ (2.7182818286 : ℝ) ^ 17 := pow_le_pow_left₀ (Real.exp_pos _).le h1.le 17
    have h4 : (2.7182818286 : ℝ) ^ 17 ≤ 81 ^ 4 := by norm_num
    by_contra hc
    push Not at hc
    have : (81 : ℝ) ^ 4 < Real.exp (17 / 4) ^ 4 := pow_lt_pow_left₀ hc (by norm_num) (by norm_num)
    linarith
  refine e.trans ?_
  rw [le_div_iff₀ (by positivity)]
  have := pow_le_pow_left₀ (by positivity) h 2
  linarith

/-- **C97 (range).** If the decaying lepton is at least nine times heavier than the leptons of the logarithm (it is, in all
decays of the library) the rate functions are not negative; the one for `Delta L = 2` decays is never negative. -/
theorem C97_nonneg (m m' : ℝ) (w : Weff) (h' : 0 < m') (h : 9 * m' ≤ m) :
    0 ≤ brTaumuee m m' w ∧ 0 ≤ brTau3mu m m' w ∧ 0 ≤ brTaumuemu w := by
  obtain ⟨e1, e2⟩ := C97_squares m m' w
  have hl := log_large m m' h' h
  have l4 : 0 ≤ Real.log (m ^ 2 / m' ^ 2) - 4 := by linarith
  have l5 : 0 ≤ Real.log (m ^ 2 / m' ^ 2) - 17 / 4 := by linarith
  refine ⟨?_, ?_, ?_⟩
  · rw [e1]; positivity
  · rw [e2]; positivity
  · unfold brTaumuemu; positivity

/-- Exchange of left and right (specification). -/
def Weff.flip (w : Weff) : Weff := ⟨w.C7p, w.C7, w.VRR, w.VRL, w.VLR, w.VLL, w.SRR, w.SRL, w.SLR, w.SLL, w.TRR, w.TLL⟩

/-- **C97 (parity).** The branching ratios do not change when left and right are exchanged, nor under a common phase of
all coefficients. -/
theorem C97_symmetries (m m' : ℝ) (w : Weff) (p : ℂ) (hp : ‖p‖ = 1) :
    brTaumuee m m' w.flip = brTaumuee m m' w ∧ brTau3mu m m' w.flip = brTau3mu m m' w ∧
    brTaumuemu w.flip = brTaumuemu w ∧
    (let v : Weff := ⟨p * w.C7, p * w.C7p, p * w.VLL, p * w.VLR, p * w.VRL, p * w.VRR, p * w.SLL, p * w.SLR, p * w.SRL, p * w.SRR,
        p * w.TLL, p * w.TRR⟩;
      brTaumuee m m' v = brTaumuee m m' w ∧ brTau3mu m m' v = brTau3mu m m' w ∧ brTaumuemu v = brTaumuemu w) := by
  refine ⟨?_, ?_, ?_, ?_⟩
  · rw [(C97_squares _ _ _).1, (C97_squares _ _ _).1]; simp only [Weff.flip]; ring
  · rw [(C97_squares _ _ _).2, (C97_squares _ _ _).2]; simp only [Weff.flip]; ring
  · simp only [brTaumuemu, Weff.flip]; ring
  · have e : ∀ a b : ℂ, ‖p * a + 4 * (p * b)‖ = ‖a + 4 * b‖ := by
      intro a b
      rw [show p * a + 4 * (p * b) = p * (a + 4 * b) by ring, norm_mul, hp, one_mul]
    refine ⟨?_, ?_, ?_⟩
    · rw [(C97_squares _ _ _).1, (C97_squares _ _ _).1]; simp only [e, norm_mul, hp, one_mul]
    · rw [(C97_squares _ _ _).2, (C97_squares _ _ _).2]; simp only [e, norm_mul, hp, one_mul]
    · simp only [brTaumuemu, norm_mul, hp, one_mul]

/-- **C97 (identical leptons).** The rate function of three identical leptons is the one of `tau → mu e e` with the
coefficients `CVLL`, `CVRR` counted twice and no other scalars or tensors; the `Delta L = 2` one is that without dipoles. -/
theorem C97_relations (m m' : ℝ) (w : Weff) :
    (w.C7 = 0 → w.C7p = 0 → brTau3mu m m' w = brTaumuemu w) ∧
    (w.SLR = 0 → w.SRL = 0 → w.TLL = 0 → w.TRR = 0 → brTau3mu m m' w = brTaumuee m m' w
      + (‖w.VLL + 4 * w.C7‖ ^ 2 + ‖w.VRR + 4 * w.C7p‖ ^ 2) - (‖w.SLL‖ ^ 2 + ‖w.SRR‖ ^ 2) / 8
      - 8 * (‖w.C7‖ ^ 2 + ‖w.C7p‖ ^ 2)) := by
  refine ⟨fun h1 h2 => ?_, fun h1 h2 h3 h4 => ?_⟩
  · unfold brTau3mu brTaumuemu; rw [h1, h2]; simp
  · rw [(C97_squares _ _ _).1, (C97_squares _ _ _).2, h1, h2, h3, h4]
    simp only [norm_zero]
    ring

/-- The six tau decays of the library (specification). -/
def decays : List (String × String × String) :=
  [("mu", "e", "e"), ("mu", "mu", "mu"), ("e", "e", "e"), ("e", "mu", "mu"), ("e", "mu", "e"), ("mu", "e", "mu")]

/-- **C97 (branching ratios).** For the six tau decays and `mu → 3 e`, for masses in the physical hierarchy and every
`get_wc` that succeeds, the call succeeds, the branching ratio is not negative, and it is zero if all coefficients are
zero. -/
theorem C97_branching_ratios (d : Inp) (he : 0 < d.m "e") (hem : 9 * d.m "e" ≤ d.m "mu") (hmt : 9 * d.m "mu" ≤ d.m "tau")
    (ht : 0 ≤ d.tauTau) (hw : ∀ s, ∃ wc, d.getWc s = .ok wc) :
    (∀ p ∈ decays, ∃ b, br d p.1 p.2.1 p.2.2 = .ok b ∧ 0 ≤ b ∧ ((∀ s wc, d.getWc s = .ok wc → ∀ k, wc k = 0) → b = 0)) ∧
    (∃ b, brMu3e d = .ok b ∧ 0 ≤ b ∧ ((∀ s wc, d.getWc s = .ok wc → ∀ k, wc k = 0) → b = 0)) := by
  have hm : 0 < d.m "mu" := by linarith
  have htau : 0 < d.m "tau" := by linarith
  have hp := Real.pi_pos
  have het : 9 * d.m "e" ≤ d.m "tau" := by linarith
  set x := Real.sqrt (4 * Real.pi * d.alpha) / d.m "tau" with hx
  set y := Real.sqrt (4 * Real.pi * d.alpha) / d.m "mu" with hy
  -- the rate functions at zero
  have z1 : ∀ m m', brTaumuee m m' ⟨0, 0, 0, 0, 0, 0, 0, 0, 0, 0, 0, 0⟩ = 0 := fun m m' => by simp [brTaumuee]
  have z2 : ∀ m m', brTau3mu m m' ⟨0, 0, 0, 0, 0, 0, 0, 0, 0, 0, 0, 0⟩ = 0 := fun m m' => by simp [brTau3mu]
  have z3 : brTaumuemu ⟨0, 0, 0, 0, 0, 0, 0, 0, 0, 0, 0, 0⟩ = 0 := by simp [brTaumuemu]
  have k : ∀ l1 l2 l3 sec (W : (String → ℂ) → Weff) (R : Weff → ℝ), sectorOf "tau" l1 l2 l3 = .ok sec →
      (∀ wc, cases wc x "tau" l1 l2 l3 = .ok (W wc)) → (∀ w, rateOf d l1 l2 l3 w = .ok (R w)) → (∀ w, 0 ≤ R w) →
      (∀ wc, (∀ n, wc n = 0) → R (W wc) = 0) →
      ∃ b, br d l1 l2 l3 = .ok b ∧ 0 ≤ b ∧ ((∀ s wc, d.getWc s = .ok wc → ∀ k, wc k = 0) → b = 0) := by
    intro l1 l2 l3 sec W R h1 h2 h3 h4 h5
    obtain ⟨wc, hwc⟩ := hw sec
    refine ⟨d.tauTau * d.m "tau" ^ 5 / 192 / 8 / Real.pi ^ 3 * R (W wc), ?_, ?_, fun h => ?_⟩
    · unfold br wcEff
      rw [h1]
      show (d.getWc sec >>= _) >>= _ = _
      rw [hwc]
      show cases wc x "tau" l1 l2 l3 >>= _ = _
      rw [h2]
      show rateOf d l1 l2 l3 (W wc) >>= _ = _
      rw [h3]
      rfl
    · have := h4 (W wc)
      positivity
    · rw [h5 wc (h sec wc hwc), mul_zero]
  have zero : ∀ wc : String → ℂ, (∀ n, wc n = 0) → (∀ a b, same wc x a b = ⟨0, 0, 0, 0, 0, 0, 0, 0, 0, 0, 0, 0⟩) ∧
      (∀ a b, same wc y a b = ⟨0, 0, 0, 0, 0, 0, 0, 0, 0, 0, 0, 0⟩) ∧
      muee wc x = ⟨0, 0, 0, 0, 0, 0, 0, 0, 0, 0, 0, 0⟩ ∧ emumu wc x = ⟨0, 0, 0, 0, 0, 0, 0, 0, 0, 0, 0, 0⟩ ∧
      emue wc = ⟨0, 0, 0, 0, 0, 0, 0, 0, 0, 0, 0, 0⟩ ∧ muemu wc = ⟨0, 0, 0, 0, 0, 0, 0, 0, 0, 0, 0, 0⟩ := by
    intro wc h
    refine ⟨fun a b => ?_, fun a b => ?_, ?_, ?_, ?_, ?_⟩ <;> simp [same, muee, emumu, emue, muemu, h]
  constructor
  · intro p hp'
    simp only [decays, List.mem_cons, List.not_mem_nil, or_false] at hp'
    rcases hp' with rfl | rfl | rfl | rfl | rfl | rfl
    · exact k "mu" "e" "e" _ (fun wc => muee wc x) _ rfl (fun _ => rfl) (fun _ => rfl)
        (fun w => (C97_nonneg _ _ w he het).1) (fun wc h => by rw [(zero wc h).2.2.1, z1])
    · exact k "mu" "mu" "mu" _ (fun wc => same wc x "tau" "mu") _ rfl (fun _ => rfl) (fun _ => rfl)
        (fun w => (C97_nonneg _ _ w hm hmt).2.1) (fun wc h => by rw [(zero wc h).1, z2])
    · exact k "e" "e" "e" _ (fun wc => same wc x "tau" "e") _ rfl (fun _ => rfl) (fun _ => rfl)
        (fun w => (C97_nonneg _ _ w he het).2.1) (fun wc h => by rw [(zero wc h).1, z2])
    · exact k "e" "mu" "mu" _ (fun wc => emumu wc x) _ rfl (fun _ => rfl) (fun _ => rfl)
        (fun w => (C97_nonneg _ _ w hm hmt).1) (fun wc h => by rw [(zero wc h).2.2.2.1, z1])
    · exact k "e" "mu" "e" _ (fun wc => emue wc) _ rfl (fun _ => rfl) (fun _ => rfl)
        (fun w => (C97_nonneg _ _ w he het).2.2) (fun wc h => by rw [(zero wc h).2.2.2.2.1, z3])
    · exact k "mu" "e" "mu" _ (fun wc => muemu wc) _ rfl (fun _ => rfl) (fun _ => rfl)
        (fun w => (C97_nonneg _ _ w he het).2.2) (fun wc h => by rw [(zero wc h).2.2.2.2.2, z3])
  · obtain ⟨wc, hwc⟩ := hw "mue"
    refine ⟨1 / (8 * d.GF ^ 2) * brTau3mu (d.m "mu") (d.m "e") (same wc y "mu" "e"), ?_, ?_, fun h => ?_⟩
    · unfold brMu3e wcEff
      show (d.getWc "mue" >>= _) >>= _ = _
      rw [hwc]
      rfl
    · have := (C97_nonneg _ _ (same wc y "mu" "e") he hem).2.1
      positivity
    · rw [(zero wc (h _ wc hwc)).2.1, z2, mul_zero]

/-- **C97 (normalization).** `BR(mu → 3 e)` has the normalization of the tau decays for a muon whose lifetime is the
tree-level `192 pi³ / (GF² m_mu⁵)`. -/
theorem C97_normalization (GF mmu tauMu r : ℝ) (hG : GF ≠ 0) (hm : mmu ≠ 0)
    (h : tauMu = 192 * Real.pi ^ 3 / (GF ^ 2 * mmu ^ 5)) :
    tauMu * mmu ^ 5 / 192 / 8 / Real.pi ^ 3 * r = 1 / (8 * GF ^ 2) * r := by
  have := Real.pi_pos
  rw [h]
  field_simp

/-- **C97 (other decays).** A final state outside the table raises `KeyError` (no such sector) or `ValueError`: the
branching ratio is never computed from an unbound variable. -/
theorem C97_errors (d : Inp) (l1 l2 l3 : String) (hn : (l1, l2, l3) ∉ decays) (hw : ∀ s, ∃ wc, d.getWc s = .ok wc) :
    br d l1 l2 l3 = .error .keyError ∨ br d l1 l2 l3 = .error .valueError := by
  unfold br wcEff
  cases hs : sectorOf "tau" l1 l2 l3 with
  | error e =>
    left
    have : e = .keyError := by
      unfold sectorOf sector2 sector4 at hs
      split_ifs at hs <;> (cases hs; rfl)
    rw [this]; rfl
  | ok sec =>
    right
    obtain ⟨wc, hwc⟩ := hw sec
    have : cases wc (Real.sqrt (4 * Real.pi * d.alpha) / d.m "tau") "tau" l1 l2 l3 = .error .valueError := by
      simp only [decays, List.mem_cons, List.not_mem_nil, or_false, not_or, Prod.mk.injEq] at hn
      obtain ⟨a, b, c, e, f, g⟩ := hn
      unfold cases
      simp only [Prod.mk.injEq, true_and]
      rw [if_neg b, if_neg c, if_neg a, if_neg e, if_neg (by simp), if_neg f, if_neg g]
    show (d.getWc sec >>= _) >>= _ = _
    rw [hwc]
    show cases wc _ "tau" l1 l2 l3 >>= _ = _
    rw [this]; rfl

/-- Non-vacuity: masses like the physical ones meet the hierarchy; with a non-zero coefficient the rate is positive. -/
example : (9 : ℝ) * 0.0005 ≤ 0.1 ∧ (9 : ℝ) * 0.1 ≤ 1.77 ∧ 0 < brTau3mu 1.77 0.1 ⟨0, 0, 1, 0, 0, 0, 0, 0, 0, 0, 0, 0⟩ := by
  refine ⟨by norm_num, by norm_num, ?_⟩
  simp [brTau3mu]

end Verif.Tau3l
