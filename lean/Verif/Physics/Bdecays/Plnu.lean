import Mathlib.Analysis.SpecialFunctions.Pow.Real
import Mathlib.Analysis.Complex.Basic
import Mathlib.Tactic.FieldSimp
import Mathlib.Tactic.Positivity
import Mathlib.Tactic.NormNum
import Mathlib.Tactic.LinearCombination
import Mathlib.Topology.Algebra.Order.Field
/-!
# Leptonic decays of charged mesons, and the lifetime of the Bc

`flavio/physics/bdecays/blnu.py`, `flavio/physics/ddecays/dlnu.py`, `flavio/physics/kdecays/klnu.py`,
`flavio/physics/bdecays/bc_lifetime.py`.  Floats are real numbers; the entries of the dictionary of Wilson coefficients
are the fields of a record; the CKM matrix, the running masses, the Standard Model coefficient `get_CVLSM`, the ratio
`GFeff/GF` and the radiative corrections `delta_Plnu` are inputs.  `get_wc` returns a new dictionary on each call, so
that the in-place addition of the Standard Model coefficient does not outlive the call.
-/
set_option linter.unusedVariables false
set_option linter.unusedSimpArgs false
set_option linter.unusedSectionVars false
set_option linter.unusedTactic false
set_option linter.unreachableTactic false
namespace Verif.Plnu

/-- Lepton (and neutrino) flavours.  /repo/flavio/physics/bdecays/blnu.py:29. -/
inductive Lep | e | mu | tau deriving DecidableEq
/-- The mesons with a leptonic decay.  /repo/flavio/physics/bdecays/blnu.py:64, /repo/flavio/physics/ddecays/dlnu.py:37,
/repo/flavio/physics/kdecays/klnu.py:20-25. -/
inductive Mes | Bu | Bc | K | pi | D | Ds deriving DecidableEq
/-- Quark flavours.  (Used for the arguments of /repo/flavio/physics/bdecays/blnu.py:7.) -/
inductive Qk | u | d | s | c | b deriving DecidableEq
/-- The three renormalization scales: `bll`, `dll` and the mass of the rho.  /repo/flavio/physics/bdecays/blnu.py:41,
/repo/flavio/physics/ddecays/dlnu.py:19, /repo/flavio/physics/kdecays/klnu.py:26. -/
inductive Sc | bll | dll | rho deriving DecidableEq

/-- The coefficients of `qqlnu` read by the code (`CVL`, `CVR`, `CSR`, `CSL`).
/repo/flavio/physics/bdecays/blnu.py:21-22. -/
structure Wc where
  VL : ℂ
  VR : ℂ
  SR : ℂ
  SL : ℂ

/-- The parameters read by the code.  `mq q s`: mass of the quark `q` at the scale `s`; `cvl s`: `get_CVLSM` at the scale
`s`; `rGF`: `GFeff/GF`; `delta`: `delta_Plnu`.  /repo/flavio/physics/bdecays/blnu.py:16-20,36-50,
/repo/flavio/physics/ddecays/dlnu.py:10-27, /repo/flavio/physics/kdecays/klnu.py:15-37. -/
structure Inp where
  GF : ℝ
  ml : Lep → ℝ
  mP : Mes → ℝ
  tau : Mes → ℝ
  f : Mes → ℝ
  V : Fin 3 → Fin 3 → ℂ
  mq : Qk → Sc → ℝ
  cvl : Sc → ℝ
  rGF : ℝ
  delta : Mes → Lep → ℝ
  tauBcSM : ℝ

/-- `br_plnu_general`.  /repo/flavio/physics/bdecays/blnu.py:7-24. -/
noncomputable def general (d : Inp) (wc : Wc) (V : ℂ) (P : Mes) (lep : Lep) (mq1 mq2 delta : ℝ) : ℝ :=
  let ml := d.ml lep
  let mP := d.mP P
  let rWC := (wc.VL - wc.VR) + ((mP ^ 2 / ml / (mq1 + mq2) : ℝ) : ℂ) * (wc.SR - wc.SL)
  let N := d.tau P * d.GF ^ 2 * d.f P ^ 2 / (8 * Real.pi) * mP * ml ^ 2 * (1 - ml ^ 2 / mP ^ 2) ^ 2
  N * ‖V‖ ^ 2 * ‖rWC‖ ^ 2 * (1 + delta)

/-- `wc['CVL_...'] += x`.  /repo/flavio/physics/bdecays/blnu.py:45-46. -/
def Wc.addVL (w : Wc) (x : ℂ) : Wc := { w with VL := w.VL + x }

/-- `_br_blnu`, `_br_plnu` and `_br_Dlnu`: one neutrino flavour.  /repo/flavio/physics/bdecays/blnu.py:32-51,
/repo/flavio/physics/kdecays/klnu.py:15-37, /repo/flavio/physics/ddecays/dlnu.py:10-27. -/
noncomputable def brNu (d : Inp) (np : Lep → Wc) (P : Mes) (lep nu : Lep) : ℝ :=
  match P with
  | .Bu => general d (if lep = nu then (np nu).addVL (d.cvl .bll) else np nu) (d.V 0 2) .Bu lep (d.mq .b .bll) 0 0
  | .Bc => general d (if lep = nu then (np nu).addVL (d.cvl .bll) else np nu) (d.V 1 2) .Bc lep (d.mq .b .bll) (d.mq .c .bll) 0
  | .K => general d (if lep = nu then (np nu).addVL ((d.cvl .rho * d.rGF : ℝ)) else np nu) (d.V 0 1) .K lep (d.mq .s .rho)
      (d.mq .u .rho) (d.delta .K lep)
  | .pi => general d (if lep = nu then (np nu).addVL ((d.cvl .rho * d.rGF : ℝ)) else np nu) (d.V 0 0) .pi lep (d.mq .d .rho)
      (d.mq .u .rho) (d.delta .pi lep)
  | .D => general d (if lep = nu then (np nu).addVL (d.cvl .dll) else np nu) ((starRingEnd ℂ) (d.V 1 0)) .D lep (d.mq .b .dll)
      (d.mq .c .dll) 0
  | .Ds => general d (if lep = nu then (np nu).addVL (d.cvl .dll) else np nu) ((starRingEnd ℂ) (d.V 1 1)) .Ds lep (d.mq .b .dll)
      (d.mq .c .dll) 0

/-- `br_blnu`, `br_plnu`, `br_Dlnu`: the sum over the neutrino flavours.  `np lep nu`: the coefficients of the transition
into `lep` and the neutrino `nu`.  /repo/flavio/physics/bdecays/blnu.py:28-29, /repo/flavio/physics/kdecays/klnu.py:11-13,
/repo/flavio/physics/ddecays/dlnu.py:6-8. -/
noncomputable def br (d : Inp) (np : Lep → Lep → Wc) (P : Mes) (lep : Lep) : ℝ :=
  ([Lep.e, .mu, .tau].map (brNu d (np lep) P lep)).sum

/-- `r_plnu`.  /repo/flavio/physics/kdecays/klnu.py:39-44. -/
noncomputable def rPlnu (d : Inp) (np : Lep → Lep → Wc) (P : Mes) : ℝ := 1.00055 * br d np P .e / br d np P .mu

/-- `gamma_plnu`.  /repo/flavio/physics/kdecays/klnu.py:46-47. -/
noncomputable def gammaPlnu (d : Inp) (np : Lep → Lep → Wc) (P : Mes) (lep : Lep) : ℝ := br d np P lep / d.tau P

/-- No new physics: `flavio.WilsonCoefficients()`.  /repo/flavio/physics/bdecays/bc_lifetime.py:12. -/
def noNP : Lep → Lep → Wc := fun _ _ => ⟨0, 0, 0, 0⟩

/-- One step of the loop of `tau_Bc`.  /repo/flavio/physics/bdecays/bc_lifetime.py:13-16. -/
noncomputable def tauBcStep (d : Inp) (np : Lep → Lep → Wc) (g : ℝ) (l : Lep) : ℝ :=
  g + (br d np .Bc l - br d noNP .Bc l) * (1 / d.tau .Bc)

/-- `tau_Bc`.  /repo/flavio/physics/bdecays/bc_lifetime.py:6-17. -/
noncomputable def tauBc (d : Inp) (np : Lep → Lep → Wc) : ℝ :=
  1 / (1 / d.tauBcSM + [Lep.e, .mu, .tau].foldl (tauBcStep d np) 0)

/-! ## Specification -/

/-- Masses of the valence quarks (specification; the up quark mass is neglected in the B+). -/
def valence (d : Inp) : Mes → ℝ
  | .Bu => d.mq .b .bll
  | .Bc => d.mq .b .bll + d.mq .c .bll
  | .K => d.mq .s .rho + d.mq .u .rho
  | .pi => d.mq .d .rho + d.mq .u .rho
  | .D => d.mq .d .dll + d.mq .c .dll
  | .Ds => d.mq .s .dll + d.mq .c .dll

/-- The CKM element of the decay (specification). -/
def ckmOf (d : Inp) : Mes → ℂ
  | .Bu => d.V 0 2
  | .Bc => d.V 1 2
  | .K => d.V 0 1
  | .pi => d.V 0 0
  | .D => d.V 1 0
  | .Ds => d.V 1 1

/-- The Standard Model amplitude (specification). -/
noncomputable def smOf (d : Inp) : Mes → ℝ
  | .Bu => d.cvl .bll
  | .Bc => d.cvl .bll
  | .K => d.cvl .rho * d.rGF
  | .pi => d.cvl .rho * d.rGF
  | .D => d.cvl .dll
  | .Ds => d.cvl .dll

/-- The radiative correction (specification). -/
def corr (d : Inp) (P : Mes) (lep : Lep) : ℝ := if P = .K ∨ P = .pi then d.delta P lep else 0

/-- The amplitude into the neutrino `nu` for a pair of valence quarks of total mass `M` (specification). -/
noncomputable def amp (d : Inp) (np : Lep → Lep → Wc) (P : Mes) (lep nu : Lep) (M : ℝ) : ℂ :=
  (if nu = lep then (smOf d P : ℂ) else 0) + ((np lep nu).VL - (np lep nu).VR)
    + ((d.mP P ^ 2 / (d.ml lep * M) : ℝ) : ℂ) * ((np lep nu).SR - (np lep nu).SL)

/-- The textbook decay rate, summed incoherently over the three neutrinos (specification). -/
noncomputable def rate (d : Inp) (np : Lep → Lep → Wc) (P : Mes) (lep : Lep) (M : ℝ) : ℝ :=
  d.GF ^ 2 * d.f P ^ 2 * ‖ckmOf d P‖ ^ 2 / (8 * Real.pi) * d.mP P * d.ml lep ^ 2 * (1 - d.ml lep ^ 2 / d.mP P ^ 2) ^ 2
    * (1 + corr d P lep) * (‖amp d np P lep .e M‖ ^ 2 + ‖amp d np P lep .mu M‖ ^ 2 + ‖amp d np P lep .tau M‖ ^ 2)

/-- The masses that the code uses. (Specification.) -/
def used (d : Inp) : Mes → ℝ
  | .D => d.mq .b .dll + d.mq .c .dll
  | .Ds => d.mq .b .dll + d.mq .c .dll
  | P => valence d P

theorem br_eq (d : Inp) (np : Lep → Lep → Wc) (P : Mes) (lep : Lep) :
    br d np P lep = d.tau P * rate d np P lep (used d P) := by
  have dv : ∀ a b c : ℝ, a / b / c = a / (b * c) := fun a b c => by rw [div_div]
  unfold br rate
  cases P <;> cases lep <;>
    simp only [List.map, List.sum_cons, List.sum_nil, brNu, general, Wc.addVL, amp, used, valence, ckmOf, smOf, corr,
      dv, reduceCtorEq, if_true, if_false, or_self, or_true, true_or, add_zero, mul_one, zero_add, RCLike.norm_conj,
      Complex.ofReal_mul] <;>
    ring_nf

/-- **C94 (rate, partial).** For B+, Bc, K+ and pi+ and every lepton, the branching ratio is the lifetime times the
textbook rate with the masses of the valence quarks: the neutrino flavours add up incoherently, and the Standard Model
amplitude is in the neutrino of the lepton's own flavour.  For D+ and Ds this holds if the scalar coefficients are
zero. -/
theorem C94_rate_partial (d : Inp) (np : Lep → Lep → Wc) (P : Mes) (lep : Lep)
    (h : P = .Bu ∨ P = .Bc ∨ P = .K ∨ P = .pi ∨ ∀ nu, (np lep nu).SR = (np lep nu).SL) :
    br d np P lep = d.tau P * rate d np P lep (valence d P) := by
  rw [br_eq]
  rcases h with rfl | rfl | rfl | rfl | h
  · rfl
  · rfl
  · rfl
  · rfl
  · simp only [rate, amp, h, sub_self, mul_zero]

/-- **C94 (finding).** For D+ and Ds the code takes the mass of the b quark in place of the mass of the light valence
quark: with a scalar coefficient the branching ratio is not the lifetime times the textbook rate.  With physical masses
the scalar amplitude comes out too small by the factor `(m_q + m_c)/(m_b + m_c)`. -/
theorem C94_D_wrong_mass (d : Inp) (P : Mes) (hP : P = .D ∨ P = .Ds) (lep : Lep) (np : Lep → Lep → Wc)
    (hl : 0 < d.ml lep) (hlP : d.ml lep < d.mP P) (hG : d.GF ≠ 0) (hf : d.f P ≠ 0) (ht : 0 < d.tau P)
    (hV : ckmOf d P ≠ 0) (hM : 0 < valence d P) (hMb : valence d P < d.mq .b .dll + d.mq .c .dll)
    (hs : ∃ nu, nu ≠ lep ∧ (np lep nu).SR - (np lep nu).SL ≠ 0)
    (h0 : ∀ nu, nu ≠ lep → (np lep nu).VL = (np lep nu).VR)
    (h1 : (np lep lep).SR = (np lep lep).SL) :
    br d np P lep < d.tau P * rate d np P lep (valence d P) := by
  have hmP : 0 < d.mP P := hl.trans hlP
  have hu : used d P = d.mq .b .dll + d.mq .c .dll := by rcases hP with rfl | rfl <;> rfl
  have hc : corr d P lep = 0 := by rcases hP with rfl | rfl <;> simp [corr]
  rw [br_eq, hu]
  set M' := d.mq .b .dll + d.mq .c .dll
  set M := valence d P
  have hM' : 0 < M' := hM.trans hMb
  have a1 : ∀ nu m, nu ≠ lep → ‖amp d np P lep nu m‖ ^ 2
      = (d.mP P ^ 2 / (d.ml lep * m)) ^ 2 * ‖(np lep nu).SR - (np lep nu).SL‖ ^ 2 := by
    intro nu m hn
    simp only [amp, if_neg hn, h0 nu hn, sub_self, zero_add]
    rw [norm_mul, mul_pow, Complex.norm_real, Real.norm_eq_abs, sq_abs]
  have a2 : ∀ m, amp d np P lep lep m = (smOf d P : ℂ) + ((np lep lep).VL - (np lep lep).VR) := by
    intro m
    simp only [amp, if_true, h1, sub_self, mul_zero, add_zero]
  have lt : (d.mP P ^ 2 / (d.ml lep * M')) ^ 2 < (d.mP P ^ 2 / (d.ml lep * M)) ^ 2 := by
    apply pow_lt_pow_left₀ _ (by positivity) (by norm_num)
    exact div_lt_div_of_pos_left (by positivity) (by positivity) (mul_lt_mul_of_pos_left hMb hl)
  have le : ∀ nu, ‖amp d np P lep nu M'‖ ^ 2 ≤ ‖amp d np P lep nu M‖ ^ 2 := by
    intro nu
    by_cases hn : nu = lep
    · subst hn; rw [a2, a2]
    · rw [a1 nu _ hn, a1 nu _ hn]
      exact mul_le_mul_of_nonneg_right lt.le (by positivity)
  obtain ⟨nu, hn, hne⟩ := hs
  have slt : ‖amp d np P lep nu M'‖ ^ 2 < ‖amp d np P lep nu M‖ ^ 2 := by
    rw [a1 nu _ hn, a1 nu _ hn]
    exact mul_lt_mul_of_pos_right lt (by positivity)
  have sum : ‖amp d np P lep .e M'‖ ^ 2 + ‖amp d np P lep .mu M'‖ ^ 2 + ‖amp d np P lep .tau M'‖ ^ 2
      < ‖amp d np P lep .e M‖ ^ 2 + ‖amp d np P lep .mu M‖ ^ 2 + ‖amp d np P lep .tau M‖ ^ 2 := by
    have h1 := le .e; have h2 := le .mu; have h3 := le .tau
    cases nu <;> linarith
  apply mul_lt_mul_of_pos_left _ ht
  unfold rate
  apply mul_lt_mul_of_pos_left sum
  rw [hc]
  have hx : 0 < 1 - d.ml lep ^ 2 / d.mP P ^ 2 := by
    rw [sub_pos, div_lt_one (by positivity)]
    exact pow_lt_pow_left₀ hlP hl.le (by norm_num)
  have := Real.pi_pos
  positivity

/-- **C94 (symmetries).** The branching ratio does not change with the phase of the CKM element, nor when the vector
coefficients `CVL`, `CVR` (or the scalar ones `CSL`, `CSR`) of a transition are shifted by the same amount: only the axial
vector and the pseudoscalar current contribute. -/
theorem C94_symmetries (d : Inp) (np : Lep → Lep → Wc) (P : Mes) (lep : Lep) (p : Fin 3 → Fin 3 → ℂ)
    (hp : ∀ i j, ‖p i j‖ = 1) (v s : Lep → ℂ) :
    br { d with V := fun i j => p i j * d.V i j } np P lep = br d np P lep ∧
    br d (fun l nu => ⟨(np l nu).VL + v nu, (np l nu).VR + v nu, (np l nu).SR + s nu, (np l nu).SL + s nu⟩) P lep
      = br d np P lep := by
  constructor
  · rw [br_eq, br_eq]
    cases P <;> simp only [rate, amp, used, valence, ckmOf, smOf, corr, norm_mul, hp, one_mul]
  · rw [br_eq, br_eq]
    simp only [rate, amp, add_sub_add_right_eq_sub]

/-- **C94 (range).** For a radiative correction above -1 the branching ratio is not negative; a decay into a lepton as
heavy as the meson, or with zero CKM element, has branching ratio zero. -/
theorem C94_range (d : Inp) (np : Lep → Lep → Wc) (P : Mes) (lep : Lep) (ht : 0 ≤ d.tau P) (hm : 0 ≤ d.mP P) :
    (0 ≤ 1 + corr d P lep → 0 ≤ br d np P lep) ∧ (d.ml lep = d.mP P → d.mP P ≠ 0 → br d np P lep = 0) ∧
    (ckmOf d P = 0 → br d np P lep = 0) := by
  have := Real.pi_pos
  refine ⟨fun h => ?_, fun h h0 => ?_, fun h => ?_⟩
  · rw [br_eq]; unfold rate; positivity
  · rw [br_eq]
    have : (1 - d.ml lep ^ 2 / d.mP P ^ 2) = 0 := by rw [h, div_self (pow_ne_zero _ h0), sub_self]
    simp [rate, this]
  · rw [br_eq]; simp [rate, h]

/-- **C94 (helicity suppression).** Without new physics the ratio of two lepton flavours depends on the masses (and the
radiative corrections) alone: not on the CKM element, the decay constant, the lifetime, the Fermi constant, nor the
Standard Model coefficient. -/
theorem C94_universality (d : Inp) (P : Mes) (l l' : Lep) :
    br d noNP P l * (d.ml l' ^ 2 * (1 - d.ml l' ^ 2 / d.mP P ^ 2) ^ 2 * (1 + corr d P l'))
      = br d noNP P l' * (d.ml l ^ 2 * (1 - d.ml l ^ 2 / d.mP P ^ 2) ^ 2 * (1 + corr d P l)) := by
  have s : ∀ l, ‖amp d noNP P l .e (used d P)‖ ^ 2 + ‖amp d noNP P l .mu (used d P)‖ ^ 2
      + ‖amp d noNP P l .tau (used d P)‖ ^ 2 = smOf d P ^ 2 := by
    intro l
    cases l <;> simp [amp, noNP]
  rw [br_eq, br_eq]
  unfold rate
  rw [s, s]
  ring

/-- **C94 (lepton flavour violation).** Neutrinos of another flavour only add to the branching ratio: it is at least the
one without the coefficients of the other flavours. -/
theorem C94_flavour_violation (d : Inp) (np : Lep → Lep → Wc) (P : Mes) (lep : Lep) (ht : 0 ≤ d.tau P) (hm : 0 ≤ d.mP P)
    (h : 0 ≤ 1 + corr d P lep) :
    br d (fun l nu => if nu = l then np l nu else ⟨0, 0, 0, 0⟩) P lep ≤ br d np P lep := by
  have := Real.pi_pos
  rw [br_eq, br_eq]
  apply mul_le_mul_of_nonneg_left _ ht
  unfold rate
  apply mul_le_mul_of_nonneg_left _ (by positivity)
  have le : ∀ nu, ‖amp d (fun l nu => if nu = l then np l nu else ⟨0, 0, 0, 0⟩) P lep nu (used d P)‖ ^ 2
      ≤ ‖amp d np P lep nu (used d P)‖ ^ 2 := by
    intro nu
    by_cases hn : nu = lep
    · simp [amp, hn]
    · simp [amp, hn]
  have h1 := le .e; have h2 := le .mu; have h3 := le .tau
  linarith

/-- **C94 (no suppression of scalars).** With the mass of the lepton going to zero, the vector contributions vanish and
the branching ratio tends to the purely pseudoscalar one, which does not depend on the lepton mass. -/
theorem C94_massless_limit (d : Inp) (np : Lep → Lep → Wc) (P : Mes) (lep : Lep)
    (hP : P = .Bu ∨ P = .Bc) :
    Filter.Tendsto (fun m : ℝ => br { d with ml := fun l => if l = lep then m else d.ml l } np P lep)
      (nhdsWithin 0 (Set.Ioi 0))
      (nhds (d.tau P * (d.GF ^ 2 * d.f P ^ 2 * ‖ckmOf d P‖ ^ 2 / (8 * Real.pi) * d.mP P ^ 5 / valence d P ^ 2
        * (‖(np lep .e).SR - (np lep .e).SL‖ ^ 2 + ‖(np lep .mu).SR - (np lep .mu).SL‖ ^ 2
          + ‖(np lep .tau).SR - (np lep .tau).SL‖ ^ 2)))) := by
  have hcorr : ∀ d', corr d' P lep = 0 := fun d' => by rcases hP with rfl | rfl <;> simp [corr]
  have hval : valence d P = used d P := by rcases hP with rfl | rfl <;> rfl
  rw [hval]
  set a : Lep → ℂ := fun nu => (if nu = lep then (smOf d P : ℂ) else 0) + ((np lep nu).VL - (np lep nu).VR) with ha
  set b : Lep → ℂ := fun nu => ((d.mP P ^ 2 / used d P : ℝ) : ℂ) * ((np lep nu).SR - (np lep nu).SL) with hb
  set g : ℝ → ℝ := fun m => d.tau P * (d.GF ^ 2 * d.f P ^ 2 * ‖ckmOf d P‖ ^ 2 / (8 * Real.pi) * d.mP P
    * (1 - m ^ 2 / d.mP P ^ 2) ^ 2 * (‖(m : ℂ) * a .e + b .e‖ ^ 2 + ‖(m : ℂ) * a .mu + b .mu‖ ^ 2
      + ‖(m : ℂ) * a .tau + b .tau‖ ^ 2)) with hg
  have e : ∀ m : ℝ, 0 < m → br { d with ml := fun l => if l = lep then m else d.ml l } np P lep = g m := by
    intro m hm0
    rw [br_eq]
    set d' : Inp := { d with ml := fun l => if l = lep then m else d.ml l } with hd'
    have hu : used d' P = used d P := by cases P <;> rfl
    have hk : ckmOf d' P = ckmOf d P := by cases P <;> rfl
    have hsm : smOf d' P = smOf d P := by cases P <;> rfl
    have hml : d'.ml lep = m := by simp [hd']
    have hmC : (m : ℂ) ≠ 0 := by exact_mod_cast hm0.ne'
    have am : ∀ nu, m ^ 2 * ‖amp d' np P lep nu (used d' P)‖ ^ 2 = ‖(m : ℂ) * a nu + b nu‖ ^ 2 := by
      intro nu
      have : (m : ℂ) * a nu + b nu = (m : ℂ) * amp d' np P lep nu (used d' P) := by
        simp only [amp, ha, hb, hu, hsm, hml]
        rw [show d'.mP P = d.mP P from rfl]
        have hq : d.mP P ^ 2 / used d P = m * (d.mP P ^ 2 / (m * used d P)) := by
          rw [← div_div, div_right_comm, mul_div_cancel₀ _ hm0.ne']
        rw [hq, Complex.ofReal_mul]
        ring
      rw [this, norm_mul, mul_pow, Complex.norm_real, Real.norm_eq_abs, sq_abs]
    show d.tau P * rate d' np P lep (used d' P) = g m
    unfold rate
    rw [hcorr, hk, hml, hg]
    simp only
    rw [← am, ← am, ← am]
    show d.tau P * (d.GF ^ 2 * d.f P ^ 2 * ‖ckmOf d P‖ ^ 2 / (8 * Real.pi) * d.mP P * m ^ 2 * (1 - m ^ 2 / d.mP P ^ 2) ^ 2
      * (1 + 0) * _) = _
    ring
  have hcont : Continuous g := by
    rw [hg]
    fun_prop
  have lim : Filter.Tendsto g (nhdsWithin 0 (Set.Ioi 0)) (nhds (g 0)) :=
    hcont.continuousAt.tendsto.mono_left nhdsWithin_le_nhds
  have g0 : g 0 = d.tau P * (d.GF ^ 2 * d.f P ^ 2 * ‖ckmOf d P‖ ^ 2 / (8 * Real.pi) * d.mP P ^ 5 / used d P ^ 2
        * (‖(np lep .e).SR - (np lep .e).SL‖ ^ 2 + ‖(np lep .mu).SR - (np lep .mu).SL‖ ^ 2
          + ‖(np lep .tau).SR - (np lep .tau).SL‖ ^ 2)) := by
    simp only [hg, hb, Complex.ofReal_zero, zero_mul, zero_add, norm_mul, mul_pow, Complex.norm_real, Real.norm_eq_abs,
      sq_abs]
    ring
  rw [← g0]
  refine lim.congr' ?_
  filter_upwards [self_mem_nhdsWithin] with m hm
  exact (e m hm).symm

/-- **C94 (kaon ratios).** The e/mu ratio, in the Standard Model, depends on masses and radiative corrections alone, and
new physics in muon decay (`GFeff`) drops out of it. -/
theorem C94_kaon_ratio (d : Inp) (P : Mes) (hP : P = .K ∨ P = .pi) (h0 : br d noNP P .mu ≠ 0) :
    rPlnu d noNP P = 1.00055 * (d.ml .e ^ 2 * (1 - d.ml .e ^ 2 / d.mP P ^ 2) ^ 2 * (1 + d.delta P .e))
      / (d.ml .mu ^ 2 * (1 - d.ml .mu ^ 2 / d.mP P ^ 2) ^ 2 * (1 + d.delta P .mu)) := by
  have hc : ∀ l, corr d P l = d.delta P l := fun l => by rcases hP with rfl | rfl <;> simp [corr]
  have u := C94_universality d P .e .mu
  rw [hc, hc] at u
  have hx : d.ml .mu ^ 2 * (1 - d.ml .mu ^ 2 / d.mP P ^ 2) ^ 2 * (1 + d.delta P .mu) ≠ 0 := by
    intro h
    apply h0
    rw [br_eq]
    unfold rate
    rw [hc]
    rcases mul_eq_zero.mp h with h | h
    · rcases mul_eq_zero.mp h with h | h
      · rw [h]; ring
      · rw [h]; ring
    · rw [h]; ring
  unfold rPlnu
  rw [div_eq_div_iff h0 hx]
  linear_combination (1.00055 : ℝ) * u

/-- **C94 (Bc lifetime).** The lifetime is the inverse of the Standard Model width plus the change of the three leptonic
widths; the measured lifetime cancels, and without new physics the Standard Model lifetime is returned. -/
theorem C94_Bc_lifetime (d : Inp) (np : Lep → Lep → Wc) (ht : d.tau .Bc ≠ 0) :
    tauBc d np = 1 / (1 / d.tauBcSM + ((rate d np .Bc .e (valence d .Bc) - rate d noNP .Bc .e (valence d .Bc))
      + (rate d np .Bc .mu (valence d .Bc) - rate d noNP .Bc .mu (valence d .Bc))
      + (rate d np .Bc .tau (valence d .Bc) - rate d noNP .Bc .tau (valence d .Bc)))) ∧
    (∀ t, t ≠ 0 → tauBc { d with tau := fun P => if P = .Bc then t else d.tau P } np = tauBc d np) ∧
    tauBc d noNP = d.tauBcSM := by
  have st : ∀ d' : Inp, d'.tau .Bc ≠ 0 → ∀ np g l, tauBcStep d' np g l
      = g + (rate d' np .Bc l (valence d' .Bc) - rate d' noNP .Bc l (valence d' .Bc)) := by
    intro d' h np g l
    unfold tauBcStep
    rw [C94_rate_partial d' np .Bc l (by simp), C94_rate_partial d' noNP .Bc l (by simp), ← mul_sub, mul_comm,
      ← mul_assoc, one_div, inv_mul_cancel₀ h, one_mul]
  have main : ∀ d' : Inp, d'.tau .Bc ≠ 0 → ∀ np, tauBc d' np = 1 / (1 / d'.tauBcSM
      + ((rate d' np .Bc .e (valence d' .Bc) - rate d' noNP .Bc .e (valence d' .Bc))
      + (rate d' np .Bc .mu (valence d' .Bc) - rate d' noNP .Bc .mu (valence d' .Bc))
      + (rate d' np .Bc .tau (valence d' .Bc) - rate d' noNP .Bc .tau (valence d' .Bc)))) := by
    intro d' h np
    unfold tauBc
    simp only [List.foldl, st d' h, zero_add]
  refine ⟨main d ht np, fun t h => ?_, ?_⟩
  · rw [main d ht np, main _ (by simpa using h) np]
    rfl
  · rw [main d ht]; simp

/-- **C94 (Bc lifetime bound).** New physics in the neutrinos of another flavour, alone, shortens the lifetime: it is
positive and at most the Standard Model one. -/
theorem C94_Bc_bound (d : Inp) (np : Lep → Lep → Wc) (ht : 0 < d.tau .Bc) (hm : 0 ≤ d.mP .Bc) (hs : 0 < d.tauBcSM)
    (hd : ∀ l, np l l = ⟨0, 0, 0, 0⟩) : 0 < tauBc d np ∧ tauBc d np ≤ d.tauBcSM := by
  have pos : ∀ l, br d noNP .Bc l ≤ br d np .Bc l := by
    intro l
    have := C94_flavour_violation d np .Bc l ht.le hm (by simp [corr])
    have e : (fun l nu => if nu = l then np l nu else ⟨0, 0, 0, 0⟩) = noNP := by
      funext l nu
      by_cases h : nu = l
      · subst h; simp [hd, noNP]
      · simp [h, noNP]
    rwa [e] at this
  have st : 0 ≤ [Lep.e, .mu, .tau].foldl (tauBcStep d np) 0 := by
    simp only [List.foldl, tauBcStep, zero_add]
    have h1 := mul_nonneg (sub_nonneg.2 (pos .e)) (by positivity : 0 ≤ 1 / d.tau .Bc)
    have h2 := mul_nonneg (sub_nonneg.2 (pos .mu)) (by positivity : 0 ≤ 1 / d.tau .Bc)
    have h3 := mul_nonneg (sub_nonneg.2 (pos .tau)) (by positivity : 0 ≤ 1 / d.tau .Bc)
    linarith
  unfold tauBc
  constructor
  · positivity
  · rw [div_le_iff₀ (by positivity)]
    have : d.tauBcSM * (1 / d.tauBcSM) = 1 := by field_simp
    nlinarith [mul_nonneg hs.le st]

/-- Inputs with physical orders of magnitude (for the examples). -/
noncomputable def sample : Inp where
  GF := 1
  ml := fun l => match l with | .e => 1 / 2000 | .mu => 1 / 10 | .tau => 17 / 10
  mP := fun P => match P with | .Bu => 5 | .Bc => 6 | .K => 1 / 2 | .pi => 7 / 50 | .D => 19 / 10 | .Ds => 2
  tau := fun _ => 1
  f := fun _ => 1
  V := fun _ _ => 1
  mq := fun q _ => match q with | .u => 1 / 500 | .d => 1 / 200 | .s => 1 / 10 | .c => 1 | .b => 4
  cvl := fun _ => 1
  rGF := 1
  delta := fun _ _ => 0
  tauBcSM := 1

/-- A scalar coefficient in D+ → mu+ nu_tau. (Specification.) -/
def sampleNP : Lep → Lep → Wc := fun l nu => if l = .mu ∧ nu = .tau then ⟨0, 0, 1, 0⟩ else ⟨0, 0, 0, 0⟩

/-- Non-vacuity of `C94_D_wrong_mass`: the hypotheses hold with physical masses; and of `C94_Bc_bound`. -/
example : br sample sampleNP .D .mu < sample.tau .D * rate sample sampleNP .D .mu (valence sample .D) ∧
    tauBc sample sampleNP ≤ 1 := by
  constructor
  · refine C94_D_wrong_mass sample .D (Or.inl rfl) .mu sampleNP ?_ ?_ ?_ ?_ ?_ ?_ ?_ ?_ ⟨.tau, by simp, ?_⟩ ?_ ?_ <;>
      first | (norm_num [sample, valence, ckmOf, sampleNP]; done) | skip
    · intro nu _
      cases nu <;> simp [sampleNP]
    · rfl
  · refine (C94_Bc_bound sample sampleNP ?_ ?_ ?_ ?_).2 <;> first | (norm_num [sample]; done) | skip
    intro l
    cases l <;> simp [sampleNP]

end Verif.Plnu
