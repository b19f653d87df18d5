import Verif.Physics.Mixing.Box
import Verif.Physics.Mixing.Common
import Verif.Physics.Ckm
/-!
# The mixing amplitudes: `flavio/physics/mesonmixing/wilsoncoefficient.py` (cvll_d) and `amplitude.py`

Simplifications: parameters are a total function from names to reals (a missing parameter is a `KeyError`, not
modelled here); the CKM matrix is an arbitrary complex matrix `V` (`get_ckm(par)` comes from `ckmutil`); the results
of the running (`get_mt_mt`, `get_mq`, `alpha_s`) are inputs; a missing Wilson coefficient is `0`; division by
`xi_t = 0` (numpy: `nan`) is excluded by hypotheses.
-/
set_option linter.unusedVariables false
set_option linter.unusedSimpArgs false
namespace Verif.Mixing
open Verif.Py Complex Verif.Ckm
open scoped ComplexConjugate

/-- The four mesons, the keys of `meson_quark`.  /repo/flavio/physics/mesonmixing/common.py:5. -/
inductive Meson | B0 | Bs | K0 | D0
  deriving DecidableEq

/-- `meson_quark[meson]`.  /repo/flavio/physics/mesonmixing/common.py:5. -/
def Meson.quarks : Meson → List Char
  | .B0 => ['b', 'd']
  | .Bs => ['b', 's']
  | .K0 => ['s', 'd']
  | .D0 => ['u', 'c']

/-- The name of a meson as used in parameter names.  /repo/flavio/physics/mesonmixing/common.py:5. -/
def Meson.name : Meson → String
  | .B0 => "B0"
  | .Bs => "Bs"
  | .K0 => "K0"
  | .D0 => "D0"

/-- The external inputs of the amplitudes: parameters by name, `get_mt_mt`, `get_mq` of the two quarks and
`alpha_s` at the configured scale. (Used for `matrixElements`, /repo/flavio/physics/mesonmixing/amplitude.py:15-40.) -/
structure Inputs where
  par : String → ℝ
  mtmt : ℝ
  mq1 : ℝ
  mq2 : ℝ
  alphaS : ℝ

/-- `N` and the mass ratios in `cvll_d`.  /repo/flavio/physics/mesonmixing/wilsoncoefficient.py:58-67. -/
noncomputable def normN (p : String → ℝ) : ℝ := -(p "GF") ^ 2 / (4 * Real.pi ^ 2) * p "m_W" ^ 2

/-- `xt`, `xc`, `xu`: squared mass ratios.  /repo/flavio/physics/mesonmixing/wilsoncoefficient.py:62-64. -/
noncomputable def ratio (p : String → ℝ) (m : ℝ) : ℝ := m ^ 2 / p "m_W" ^ 2

/-- The sum of three box contributions with QCD factors (as in both unitarity branches for kaons); `i` is the
second quark, `k` the reference quark, `e` the three correction factors.
/repo/flavio/physics/mesonmixing/wilsoncoefficient.py:74-80, 85-91. -/
noncomputable def threeBoxes (N xt xi xk : ℝ) (xiT xiI : ℂ) (ett eit eii : ℝ) : Except PyErr ℂ :=
  s0Box xt xt xk >>= fun stt => s0Box xi xt xk >>= fun sit => s0Box xi xi xk >>= fun sii =>
    .ok (N * (ett * (xiT ^ 2 * stt) + eit * (2 * xiI * xiT * sit) + eii * (xiI ^ 2 * sii)))

/-- `cvll_d`; `conf` is the configured kind of kaon unitarity.
/repo/flavio/physics/mesonmixing/wilsoncoefficient.py:38-99. -/
noncomputable def cvllD (conf : String) (V : Mat) (q : Inputs) (m : Meson) : Except PyErr ℂ :=
  let xt := ratio q.par q.mtmt
  let xc := ratio q.par (q.par "m_c")
  let xu := ratio q.par (q.par "m_u")
  let N := normN q.par
  if m = .K0 then
    if conf = "ut" then
      xi 't' m.quarks >>= fun ft => xi 'u' m.quarks >>= fun fu =>
        threeBoxes N xt xu xc (ft V) (fu V) (q.par ("eta_tt_" ++ m.name ++ "_ut"))
          (q.par ("eta_ut_" ++ m.name ++ "_ut")) (q.par ("eta_uu_" ++ m.name ++ "_ut"))
    else if conf = "ct" then
      xi 't' m.quarks >>= fun ft => xi 'c' m.quarks >>= fun fc =>
        threeBoxes N xt xc xu (ft V) (fc V) (q.par ("eta_tt_" ++ m.name))
          (q.par ("eta_ct_" ++ m.name)) (q.par ("eta_cc_" ++ m.name))
    else .error .valueError
  else
    xi 't' m.quarks >>= fun ft => s0Box xt xt xu >>= fun s =>
      .ok (N * q.par ("eta_tt_" ++ m.name) * ((ft V) ^ 2 * s))

/-- `bag_msbar2rgi` (for `D0` the variable `g` is unbound).  /repo/flavio/physics/mesonmixing/common.py:7-22. -/
noncomputable def bagMsbar2rgi (alphaS : ℝ) (m : Meson) : Except PyErr ℝ :=
  match m with
  | .B0 | .Bs => .ok (alphaS ^ (-(6 / 23 : ℝ)) * (1 + alphaS / (4 * Real.pi) * (5165 / 3174)))
  | .K0 => .ok (alphaS ^ (-(2 / 9 : ℝ)) * (1 + alphaS / (4 * Real.pi) * (307 / 162)))
  | .D0 => .error .unboundLocalError

/-- `r` in `matrixelements`.  /repo/flavio/physics/mesonmixing/amplitude.py:30. -/
noncomputable def rFactor (q : Inputs) (m : Meson) : ℝ := (q.par ("m_" ++ m.name) / (q.mq1 + q.mq2)) ^ 2

/-- `mM*fM**2`, the common factor. (Used for `matrixElements`, /repo/flavio/physics/mesonmixing/amplitude.py:23-24, 32-39.) -/
noncomputable def mf2 (q : Inputs) (m : Meson) : ℝ := q.par ("m_" ++ m.name) * q.par ("f_" ++ m.name) ^ 2

/-- `BM(i)`.  /repo/flavio/physics/mesonmixing/amplitude.py:25. -/
noncomputable def bag (q : Inputs) (m : Meson) (i : String) : ℝ := q.par ("bag_" ++ m.name ++ "_" ++ i)

/-- `matrixelements`, the dictionary in insertion order.  /repo/flavio/physics/mesonmixing/amplitude.py:15-40. -/
noncomputable def matrixElements (q : Inputs) (m : Meson) : List (String × ℝ) :=
  [("CVLL", mf2 q m * (1 / 3) * bag q m "1"),
   ("CSLR", mf2 q m * (1 / 4) * bag q m "4" * rFactor q m),
   ("CVRR", mf2 q m * (1 / 3) * bag q m "1"),
   ("CVLR", -mf2 q m * (1 / 6) * bag q m "5" * rFactor q m),
   ("CSLL", -mf2 q m * (5 / 24) * bag q m "2" * rFactor q m),
   ("CSRR", -mf2 q m * (5 / 24) * bag q m "2" * rFactor q m),
   ("CTLL", mf2 q m * (1 / 2) * rFactor q m * (5 * bag q m "2" / 3 - 2 * bag q m "3" / 3)),
   ("CTRR", mf2 q m * (1 / 2) * rFactor q m * (5 * bag q m "2" / 3 - 2 * bag q m "3" / 3))]

/-- The name of a Wilson coefficient, `'{}_{}'.format(me_name, 2 * di_dj)`.
/repo/flavio/physics/mesonmixing/amplitude.py:73. -/
def wcName (m : Meson) (me : String) : String := me ++ "_" ++ String.ofList (m.quarks ++ m.quarks)

/-- The loop over the matrix elements in `M12`.  /repo/flavio/physics/mesonmixing/amplitude.py:71-74. -/
noncomputable def contributionNp (q : Inputs) (m : Meson) (wc : String → ℂ) : ℂ :=
  (matrixElements q m).foldl (fun acc e => acc + -wc (wcName m e.1) * e.2) 0

/-- `M12_d_SM`.  /repo/flavio/physics/mesonmixing/amplitude.py:42-56. -/
noncomputable def m12dSM (conf : String) (V : Mat) (q : Inputs) (m : Meson) : Except PyErr ℂ :=
  bagMsbar2rgi q.alphaS m >>= fun b => cvllD conf V q m >>= fun c =>
    .ok (-c * ((mf2 q m * (1 / 3) * bag q m "1" * b : ℝ) : ℂ))

/-- `_ps`.  /repo/flavio/physics/mesonmixing/amplitude.py:97. -/
noncomputable def ps : ℝ := 1519267515435.317

/-- The common form of `M12_u_SM` and `G12_u_SM`.  /repo/flavio/physics/mesonmixing/amplitude.py:99-113. -/
noncomputable def uSM (pre : String) (V : Mat) (q : Inputs) : Except PyErr ℂ :=
  xi 'b' ['u', 'c'] >>= fun fb => xi 's' ['u', 'c'] >>= fun fs =>
    .ok ((q.par (pre ++ "_D a_ss") * fs V ^ 2 + q.par (pre ++ "_D a_bs") * fb V * fs V +
      q.par (pre ++ "_D a_bb") * fb V ^ 2) / ps)

/-- `M12`.  /repo/flavio/physics/mesonmixing/amplitude.py:59-81. -/
noncomputable def m12 (conf : String) (V : Mat) (q : Inputs) (m : Meson) (wc : String → ℂ) : Except PyErr ℂ :=
  (if m = .D0 then uSM "M12" V q else m12dSM conf V q m) >>= fun sm => .ok (contributionNp q m wc + sm)

/-- `G12_d_SM`, `G12_d`.  /repo/flavio/physics/mesonmixing/amplitude.py:83-95. -/
noncomputable def g12dSM (conf : String) (V : Mat) (q : Inputs) (m : Meson) : Except PyErr ℂ :=
  xi 't' m.quarks >>= fun ft => xi 'u' m.quarks >>= fun fu => m12dSM conf V q m >>= fun M =>
    .ok (M * (q.par ("Gamma12_" ++ m.name ++ "_c") + q.par ("Gamma12_" ++ m.name ++ "_a") * fu V / ft V) *
      (1 / 10 ^ 4))

/-- `get_M12_G12` (with the Wilson coefficients of the sector as input).
/repo/flavio/physics/mesonmixing/observables.py:18-29. -/
noncomputable def getM12G12 (conf : String) (V : Mat) (q : Inputs) (m : Meson) (wc : String → ℂ) :
    Except PyErr (ℂ × ℂ) :=
  m12 conf V q m wc >>= fun M =>
    match m with
    | .K0 => .ok (M, 0)
    | .D0 => uSM "Gamma12" V q >>= fun G => .ok (M, G)
    | .B0 | .Bs => g12dSM conf V q m >>= fun G => .ok (M, G)

/-- The decay amplitude of `S_psiK` and `S_psiphi`: `V_cb V_cq*`.
/repo/flavio/physics/mesonmixing/observables.py:103-109. -/
noncomputable def amplitudePsi (V : Mat) (m : Meson) : Except PyErr ℂ :=
  xi 'c' m.quarks >>= fun f => .ok (f V)

/-- `S_BJpsiK`, `S_Bspsiphi` for `etaCP = -1, +1`; `conjugate_par` flips the CKM phase, i.e. conjugates `V`.
/repo/flavio/physics/mesonmixing/observables.py:111-126. -/
noncomputable def sPsi (conf : String) (V : Mat) (q : Inputs) (m : Meson) (wc : String → ℂ) (eta : ℝ) :
    Except PyErr ℝ :=
  getM12G12 conf V q m wc >>= fun a => amplitudePsi V m >>= fun A => amplitudePsi (V.map conj) m >>= fun Ab =>
    sMix a.1 a.2 A Ab eta

/-! ## Specification -/

/-- The up-type masses are non-negative and different from the W mass. (Specification.) -/
def GoodMasses (q : Inputs) : Prop :=
  ∀ m ∈ [q.mtmt, q.par "m_c", q.par "m_u"], ratio q.par m ≠ 1

theorem ratio_nonneg (p : String → ℝ) (m : ℝ) : 0 ≤ ratio p m := by unfold ratio; positivity

theorem threeBoxes_ok {N xt x k : ℝ} {a b : ℂ} {e1 e2 e3 : ℝ} (ht : 0 ≤ xt) (hx : 0 ≤ x) (hk : 0 ≤ k)
    (ht1 : xt ≠ 1) (hx1 : x ≠ 1) (hk1 : k ≠ 1) :
    threeBoxes N xt x k a b e1 e2 e3 = .ok (N * (e1 * (a ^ 2 *
        (vBox xt xt + vBox k k - vBox xt k - vBox xt k : ℝ)) +
      e2 * (2 * b * a * (vBox x xt + vBox k k - vBox x k - vBox xt k : ℝ)) +
      e3 * (b ^ 2 * (vBox x x + vBox k k - vBox x k - vBox x k : ℝ)))) := by
  unfold threeBoxes
  rw [s0Box_ok ht ht hk ht1 ht1 hk1, s0Box_ok hx ht hk hx1 ht1 hk1, s0Box_ok hx hx hk hx1 hx1 hk1]
  simp only [ok_bind_eq]

/-- **C87 (choice of unitarity)** With all QCD correction factors equal to 1 and a unitary CKM matrix the two
treatments `'ut'` and `'ct'` of kaon mixing agree: both give the full box amplitude summed over all three up-type
quarks. -/
theorem C87_unitarity_choice (V : Mat) (hV : V ∈ Matrix.unitaryGroup (Fin 3) ℂ) (q : Inputs) (hq : GoodMasses q)
    (he : ∀ s ∈ ["eta_tt_K0_ut", "eta_ut_K0_ut", "eta_uu_K0_ut", "eta_tt_K0", "eta_ct_K0", "eta_cc_K0"], q.par s = 1) :
    ∃ F : Fin 3 → Fin 3 → ℝ,
      (∀ i j, fBox (ratio q.par (![q.par "m_u", q.par "m_c", q.mtmt] i))
        (ratio q.par (![q.par "m_u", q.par "m_c", q.mtmt] j)) = .ok (F i j)) ∧
      cvllD "ut" V q .K0 = .ok (normN q.par * ∑ i, ∑ j, (V i 1 * conj (V i 0)) * (V j 1 * conj (V j 0)) * F i j) ∧
      cvllD "ct" V q .K0 = cvllD "ut" V q .K0 := by
  have h1 : ratio q.par q.mtmt ≠ 1 := hq _ (by simp)
  have h2 : ratio q.par (q.par "m_c") ≠ 1 := hq _ (by simp)
  have h3 : ratio q.par (q.par "m_u") ≠ 1 := hq _ (by simp)
  have n1 := ratio_nonneg q.par q.mtmt
  have n2 := ratio_nonneg q.par (q.par "m_c")
  have n3 := ratio_nonneg q.par (q.par "m_u")
  refine ⟨fun i j => vBox (ratio q.par (![q.par "m_u", q.par "m_c", q.mtmt] i))
        (ratio q.par (![q.par "m_u", q.par "m_c", q.mtmt] j)), ?_, ?_⟩
  · intro i j
    fin_cases i <;> fin_cases j <;> exact fBox_ok (ratio_nonneg _ _) (ratio_nonneg _ _) ‹_› ‹_›
  obtain ⟨fu, fc, ft, e1, e2, e3, hs⟩ := (C65_xi_unitarity V hV 's' 'd').1 (by simp) (by simp)
  have v1 : fu V = V 0 1 * conj (V 0 0) := by
    have : xi 'u' ['s', 'd'] = .ok (fun V => xiKlIj V 0 0 1 0) := rfl
    rw [this] at e1; rw [← Except.ok.inj e1]; rfl
  have v2 : fc V = V 1 1 * conj (V 1 0) := by
    have : xi 'c' ['s', 'd'] = .ok (fun V => xiKlIj V 1 1 1 0) := rfl
    rw [this] at e2; rw [← Except.ok.inj e2]; rfl
  have v3 : ft V = V 2 1 * conj (V 2 0) := by
    have : xi 't' ['s', 'd'] = .ok (fun V => xiKlIj V 2 2 1 0) := rfl
    rw [this] at e3; rw [← Except.ok.inj e3]; rfl
  have hsum : fu V + fc V + ft V = 0 := by rw [hs]; simp [kron]
  have E1 : cvllD "ut" V q .K0 = threeBoxes (normN q.par) (ratio q.par q.mtmt) (ratio q.par (q.par "m_u"))
      (ratio q.par (q.par "m_c")) (ft V) (fu V) 1 1 1 := by
    unfold cvllD
    simp only [Meson.quarks, e1, e3, ok_bind_eq, if_true]
    rw [show q.par ("eta_tt_" ++ Meson.name .K0 ++ "_ut") = 1 from he "eta_tt_K0_ut" (by simp),
      show q.par ("eta_ut_" ++ Meson.name .K0 ++ "_ut") = 1 from he "eta_ut_K0_ut" (by simp),
      show q.par ("eta_uu_" ++ Meson.name .K0 ++ "_ut") = 1 from he "eta_uu_K0_ut" (by simp)]
  have E2 : cvllD "ct" V q .K0 = threeBoxes (normN q.par) (ratio q.par q.mtmt) (ratio q.par (q.par "m_c"))
      (ratio q.par (q.par "m_u")) (ft V) (fc V) 1 1 1 := by
    unfold cvllD
    simp only [Meson.quarks, e2, e3, ok_bind_eq, if_true]
    rw [if_neg (by decide),
      show q.par ("eta_tt_" ++ Meson.name .K0) = 1 from he "eta_tt_K0" (by simp),
      show q.par ("eta_ct_" ++ Meson.name .K0) = 1 from he "eta_ct_K0" (by simp),
      show q.par ("eta_cc_" ++ Meson.name .K0) = 1 from he "eta_cc_K0" (by simp)]
  rw [E2, E1, threeBoxes_ok n1 n3 n2 h1 h3 h2, threeBoxes_ok n1 n2 n3 h1 h2 h3]
  simp only [Fin.sum_univ_three, ← v1, ← v2, ← v3, Matrix.cons_val_zero, Matrix.cons_val_one, Matrix.cons_val]
  rw [vBox_symm n1 n2 h1 h2, vBox_symm n1 n3 h1 h3, vBox_symm n2 n3 h2 h3]
  generalize vBox (ratio q.par q.mtmt) (ratio q.par q.mtmt) = tt
  generalize vBox (ratio q.par (q.par "m_c")) (ratio q.par q.mtmt) = ct
  generalize vBox (ratio q.par (q.par "m_u")) (ratio q.par q.mtmt) = ut
  generalize vBox (ratio q.par (q.par "m_c")) (ratio q.par (q.par "m_c")) = cc
  generalize vBox (ratio q.par (q.par "m_u")) (ratio q.par (q.par "m_c")) = uc
  generalize vBox (ratio q.par (q.par "m_u")) (ratio q.par (q.par "m_u")) = uu
  constructor <;> congr 1 <;> push_cast
  · have hc : fc V = -fu V - ft V := by linear_combination hsum
    rw [hc]; ring
  · have hc : fc V = -fu V - ft V := by linear_combination hsum
    rw [hc]; ring

/-- **C87 (configuration)** An unknown setting raises `ValueError` for kaons; for the other mesons the setting is
irrelevant. -/
theorem C87_configuration (conf conf' : String) (V : Mat) (q : Inputs) (m : Meson) :
    (conf ∉ ["ut", "ct"] → cvllD conf V q .K0 = .error .valueError) ∧
    (m ≠ .K0 → cvllD conf V q m = cvllD conf' V q m) := by
  constructor
  · intro h
    simp only [List.mem_cons, List.not_mem_nil, or_false, not_or] at h
    unfold cvllD
    simp only [if_true, if_neg h.1, if_neg h.2]
  · intro h
    unfold cvllD
    simp only [if_neg h]

/-- The explicit contribution of ΔF=2 operators in terms of the bag parameters. (Specification.) -/
noncomputable def npSpec (par : String → ℝ) (mq1 mq2 : ℝ) (n qq : String) (wc : String → ℂ) : ℂ :=
  let B := fun i : String => (par ("bag_" ++ n ++ "_" ++ i) : ℂ)
  let r : ℂ := (par ("m_" ++ n) / (mq1 + mq2)) ^ 2;
  -(par ("m_" ++ n) * (par ("f_" ++ n) : ℂ) ^ 2) *
    (B "1" / 3 * (wc ("CVLL_" ++ qq) + wc ("CVRR_" ++ qq)) +
     r * (B "4" / 4 * wc ("CSLR_" ++ qq) - B "5" / 6 * wc ("CVLR_" ++ qq) -
       5 / 24 * B "2" * (wc ("CSLL_" ++ qq) + wc ("CSRR_" ++ qq)) +
       (5 * B "2" - 2 * B "3") / 6 * (wc ("CTLL_" ++ qq) + wc ("CTRR_" ++ qq))))

/-- The flavour part of the coefficient names. (Specification.) -/
def Meson.flavour : Meson → String
  | .B0 => "bdbd" | .Bs => "bsbs" | .K0 => "sdsd" | .D0 => "ucuc"

theorem wcName_eq (m : Meson) (c : String) : wcName m c = c ++ "_" ++ m.flavour := by
  cases m <;> rfl

theorem np_eq (q : Inputs) (m : Meson) (wc : String → ℂ) :
    contributionNp q m wc = npSpec q.par q.mq1 q.mq2 m.name m.flavour wc := by
  unfold contributionNp matrixElements npSpec
  simp only [List.foldl, wcName_eq]
  rw [show ("CVLL" ++ "_" : String) = "CVLL_" from rfl, show ("CSLR" ++ "_" : String) = "CSLR_" from rfl,
    show ("CVRR" ++ "_" : String) = "CVRR_" from rfl, show ("CVLR" ++ "_" : String) = "CVLR_" from rfl,
    show ("CSLL" ++ "_" : String) = "CSLL_" from rfl, show ("CSRR" ++ "_" : String) = "CSRR_" from rfl,
    show ("CTLL" ++ "_" : String) = "CTLL_" from rfl, show ("CTRR" ++ "_" : String) = "CTRR_" from rfl]
  unfold mf2 bag rFactor
  push_cast
  ring

/-- **C87 (new physics)** `M12` is the Standard Model amplitude minus `Σ_i C_i <O_i>` with the explicit matrix
elements, so it is affine in the Wilson coefficients and depends on no others. -/
theorem C87_M12_contributions (conf : String) (V : Mat) (q : Inputs) (m : Meson) (wc : String → ℂ) :
    m12 conf V q m wc = (m12 conf V q m fun _ => 0).map fun sm =>
      sm + npSpec q.par q.mq1 q.mq2 m.name m.flavour wc := by
  unfold m12
  rw [np_eq, np_eq]
  have h0 : npSpec q.par q.mq1 q.mq2 m.name m.flavour (fun _ => 0) = 0 := by unfold npSpec; simp
  rw [h0]
  generalize (if m = .D0 then uSM "M12" V q else m12dSM conf V q m) = S
  cases S with
  | error e => rfl
  | ok s => show Except.ok _ = Except.ok _; congr 1; ring

/-- **C87 (parity)** Exchanging the chiralities L and R of all coefficients does not change `M12`. -/
theorem C87_M12_parity (conf : String) (V : Mat) (q : Inputs) (m : Meson) (wc wc' : String → ℂ)
    (h : ∀ p ∈ [("CVLL_", "CVRR_"), ("CSLL_", "CSRR_"), ("CTLL_", "CTRR_"), ("CVLR_", "CVLR_"), ("CSLR_", "CSLR_")],
      wc' (p.1 ++ m.flavour) = wc (p.2 ++ m.flavour) ∧ wc' (p.2 ++ m.flavour) = wc (p.1 ++ m.flavour)) :
    m12 conf V q m wc' = m12 conf V q m wc := by
  rw [C87_M12_contributions, C87_M12_contributions conf V q m wc]
  have : npSpec q.par q.mq1 q.mq2 m.name m.flavour wc' = npSpec q.par q.mq1 q.mq2 m.name m.flavour wc := by
    obtain ⟨a1, a2⟩ := h ("CVLL_", "CVRR_") (by simp)
    obtain ⟨b1, b2⟩ := h ("CSLL_", "CSRR_") (by simp)
    obtain ⟨c1, c2⟩ := h ("CTLL_", "CTRR_") (by simp)
    obtain ⟨d1, d2⟩ := h ("CVLR_", "CVLR_") (by simp)
    obtain ⟨e1, e2⟩ := h ("CSLR_", "CSLR_") (by simp)
    simp only at a1 a2 b1 b2 c1 c2 d1 d2 e1 e2
    unfold npSpec
    simp only [a1, a2, b1, b2, c1, c2, d1, d2, e1, e2]
    ring
  rw [this]

/-! ## Phase conventions and CP -/

/-- The two matrix elements entering `xi(a, bc)`. -/
theorem xi_quarks (m : Meson) : ∃ b c : Fin 3,
    (m ≠ .D0 → b ≠ c ∧ xi 'u' m.quarks = .ok (fun V => V 0 b * conj (V 0 c)) ∧
      xi 'c' m.quarks = .ok (fun V => V 1 b * conj (V 1 c)) ∧
      xi 't' m.quarks = .ok (fun V => V 2 b * conj (V 2 c))) := by
  cases m
  · exact ⟨2, 0, fun _ => ⟨by decide, rfl, rfl, rfl⟩⟩
  · exact ⟨2, 1, fun _ => ⟨by decide, rfl, rfl, rfl⟩⟩
  · exact ⟨1, 0, fun _ => ⟨by decide, rfl, rfl, rfl⟩⟩
  · exact ⟨0, 1, fun h => absurd rfl h⟩

/-- Non-vacuity: unitary mixing, W mass 2, top mass 4, light up and charm, unit QCD factors. -/
example : ∃ q : Inputs, GoodMasses q ∧ (∀ s ∈ ["eta_tt_K0_ut", "eta_ut_K0_ut", "eta_uu_K0_ut", "eta_tt_K0", "eta_ct_K0", "eta_cc_K0"], q.par s = 1) ∧
    q.par "m_c" ≠ q.par "m_u" := by
  refine ⟨⟨fun s => if s = "m_W" then 2 else if s = "m_u" then 0 else 1, 4, 0, 0, 0⟩, ?_, ?_, ?_⟩
  · intro m hm
    simp only [List.mem_cons, List.not_mem_nil, or_false] at hm
    rcases hm with rfl | rfl | rfl <;> simp [ratio] <;> norm_num
  · intro s hs
    simp only [List.mem_cons, List.not_mem_nil, or_false] at hs
    rcases hs with rfl | rfl | rfl | rfl | rfl | rfl <;> simp
  · simp

end Verif.Mixing
