import Verif.Physics.Qcdf.Model
import Verif.Physics.Kdecays.KpipiTheorems
import Mathlib.Analysis.SpecialFunctions.Integrals.Basic
/-!
# What a user relies on for the QCD factorisation corrections
-/
set_option linter.unusedVariables false
set_option linter.unusedSimpArgs false
namespace Verif.Qcdf
open Verif.Py Verif Verif.Running Complex
open Verif.MatrixElements (Wc)
open Verif.Angular (Trans AmpV transToHel)

/-! ## Specification -/

/-- Linear combinations of Wilson coefficients. (Specification.) -/
def lin (x : ℂ) (a : Wc) (y : ℂ) (b : Wc) : Wc :=
  ⟨x * a.c1 + y * b.c1, x * a.c2 + y * b.c2, x * a.c3 + y * b.c3, x * a.c4 + y * b.c4, x * a.c5 + y * b.c5,
    x * a.c6 + y * b.c6, x * a.c8 + y * b.c8⟩

/-- A linear function of the Wilson coefficients. (Specification.) -/
def IsLin (f : Wc → ℂ) : Prop := ∀ x a y b, f (lin x a y b) = x * f a + y * f b

/-- The four decays for which the corrections are implemented. (Specification.) -/
def Decays : List (String × String) := [("B+", "K*+"), ("B0", "K*0"), ("Bs", "phi"), ("Bs", "K*0")]

/-- A dilepton mass below the kinematic end point, and nodes inside the interval of integration. (Specification.) -/
structure Good (P : Par) (q2 : ℝ) (rule : List (ℝ × ℝ)) : Prop where
  q2_pos : 0 < q2
  mB_pos : 0 < P.mB
  q2_lt : q2 < P.mB ^ 2
  nodes : ∀ n ∈ rule, 0 < n.1 ∧ n.1 < 1

/-- Whether anything is switched on. (Specification.) -/
def Incl.any (k : Incl) : Prop := k.wa = true ∨ k.o8 = true ∨ k.qss = true

/-- A contribution that is counted only if it is switched on. (Specification.) -/
noncomputable def on (b : Bool) (z : ℂ) : ℂ := if b then z else 0

/-! ## Values -/

/-- The value of a computation (0 if it raises). (Specification.) -/
noncomputable def val (x : Except PyErr ℂ) : ℂ := match x with | .ok v => v | .error _ => 0

theorem i1_ok (F : Fn) (q2 u mq mB : ℝ) (h : q2 ≠ 0) : ∃ v, i1 F q2 u mq mB = .ok v := by
  unfold i1; simp only [if_neg h]; exact ⟨_, rfl⟩

theorem b0diff_ok (F : Fn) (q2 u mq mB : ℝ) (h : q2 ≠ 0) : ∃ v, b0diff F q2 u mq mB = .ok v := by
  unfold b0diff; rw [if_neg h]; split <;> exact ⟨_, rfl⟩

theorem tPara_ok (F : Fn) (P : Par) (q2 u mq : ℝ) (h : q2 ≠ 0) : tPara F P q2 u mq = .ok (val (tPara F P q2 u mq)) := by
  obtain ⟨a, ha⟩ := i1_ok F q2 u mq P.mB h
  obtain ⟨b, hb⟩ := b0diff_ok F q2 u mq P.mB h
  simp only [tPara, ha, hb, Bind.bind, Except.bind, pure, Except.pure, val]

theorem tPerp_ok (F : Fn) (P : Par) (q2 u mq : ℝ) : tPerp F P q2 u mq = .ok (val (tPerp F P q2 u mq)) := by
  by_cases h : q2 = 0
  · simp only [tPerp, if_pos h, val]
  · obtain ⟨a, ha⟩ := i1_ok F q2 u mq P.mB h
    obtain ⟨b, hb⟩ := b0diff_ok F q2 u mq P.mB h
    simp only [tPerp, if_neg h, ha, hb, Bind.bind, Except.bind, pure, Except.pure, val]

theorem h_ok (s m mu : ℝ) (hs : s ≠ 0) : MatrixElements.h s m mu = .ok (val (MatrixElements.h s m mu)) := by
  unfold MatrixElements.h
  simp only [if_neg hs]
  split <;> rfl

theorem in1 : getInput "B+" "K*+" = .ok ("u", 2 / 3) := by
  have : spectator.lookup ("B+", "K*+") = some "u" := by decide
  simp only [getInput, this, charge, if_true, Bind.bind, Except.bind, pure, Except.pure]
theorem in2 : getInput "B0" "K*0" = .ok ("d", -1 / 3) := by
  have : spectator.lookup ("B0", "K*0") = some "d" := by decide
  simp only [getInput, this, charge, Bind.bind, Except.bind, pure, Except.pure]; simp
theorem in3 : getInput "Bs" "phi" = .ok ("s", -1 / 3) := by
  have : spectator.lookup ("Bs", "phi") = some "s" := by decide
  simp only [getInput, this, charge, Bind.bind, Except.bind, pure, Except.pure]; simp
theorem in4 : getInput "Bs" "K*0" = .ok ("s", -1 / 3) := by
  have : spectator.lookup ("Bs", "K*0") = some "s" := by decide
  simp only [getInput, this, charge, Bind.bind, Except.bind, pure, Except.pure]; simp

theorem getInput_ok (B V : String) (h : (B, V) ∈ Decays) :
    ∃ q, getInput B V = .ok (q, if q = "u" then 2 / 3 else -1 / 3) ∧ (q = "u" ∨ q = "d" ∨ q = "s") := by
  simp only [Decays, List.mem_cons, Prod.mk.injEq, List.not_mem_nil, or_false] at h
  rcases h with ⟨rfl, rfl⟩ | ⟨rfl, rfl⟩ | ⟨rfl, rfl⟩ | ⟨rfl, rfl⟩
  · exact ⟨"u", by simp [in1, in2, in3, in4], by simp⟩
  · exact ⟨"d", by simp [in1, in2, in3, in4], by simp⟩
  · exact ⟨"s", by simp [in1, in2, in3, in4], by simp⟩
  · exact ⟨"s", by simp [in1, in2, in3, in4], by simp⟩

/-- The weak annihilation coefficient for the four decays. (Specification.) -/
noncomputable def cVal (P : Par) (V : String) (w : Wc) : ℂ :=
  w.c3 + 4 / 3 * (w.c4 + 12 * w.c5 + 16 * w.c6) + (if V = "K*+" then P.epsU * (-3 * w.c2) else 0)
    + (if V = "phi" then 6 * (w.c3 + 10 * w.c5) else 0)

theorem cq34_ok (P : Par) (B V : String) (h : (B, V) ∈ Decays) (w : Wc) : cq34 P w B V = .ok (cVal P V w) := by
  simp only [Decays, List.mem_cons, Prod.mk.injEq, List.not_mem_nil, or_false] at h
  rcases h with ⟨rfl, rfl⟩ | ⟨rfl, rfl⟩ | ⟨rfl, rfl⟩ | ⟨rfl, rfl⟩ <;>
    simp [cq34, in1, in2, in3, in4, Bind.bind, Except.bind, pure, Except.pure, cVal]

theorem cVal_lin (P : Par) (V : String) : IsLin (cVal P V) := by
  intro x a y b; simp only [cVal, lin]; split <;> split <;> ring

theorem quad_ok (rule : List (ℝ × ℝ)) (f : ℝ → Except PyErr ℂ) (g : ℝ → ℂ) (h : ∀ n ∈ rule, f n.1 = .ok (g n.1)) :
    quad rule f = .ok ((rule.map (fun n => (n.2 : ℂ) * g n.1)).sum) := by
  unfold quad
  rw [Kpipi.mapM_ok rule _ (fun n => (n.2 : ℂ) * g n.1)]
  · rfl
  · intro n hn; rw [h n hn]; rfl

theorem addIf_ok (b : Bool) (v : ℂ) : addIf b (.ok v) = .ok (on b v) := by cases b <;> rfl

theorem isLin_sum (rule : List (ℝ × ℝ)) (g : ℝ × ℝ → Wc → ℂ) (h : ∀ n, IsLin (g n)) :
    IsLin (fun w => (rule.map (fun n => g n w)).sum) := by
  intro x a y b
  induction rule with
  | nil => simp
  | cons n l ih => beta_reduce at ih; simp only [List.map_cons, List.sum_cons]; rw [ih, h n]; ring

theorem isLin_smul (c : ℂ) (f : Wc → ℂ) (h : IsLin f) : IsLin (fun w => c * f w) := by
  intro x a y b; simp only [h x a y b]; ring

theorem isLin_add (f g : Wc → ℂ) (h : IsLin f) (h' : IsLin g) : IsLin (fun w => f w + g w) := by
  intro x a y b; simp only [h x a y b, h' x a y b]; ring

theorem sum3 (rule : List (ℝ × ℝ)) (k : Incl) (a b c : ℝ × ℝ → ℂ) :
    (rule.map (fun n => on k.wa (a n) + on k.o8 (b n) + on k.qss (c n))).sum
      = on k.wa ((rule.map a).sum) + on k.o8 ((rule.map b).sum) + on k.qss ((rule.map c).sum) := by
  induction rule with
  | nil => simp [on]
  | cons n l ih => simp only [List.map_cons, List.sum_cons, ih]; simp only [on]; split <;> split <;> split <;> ring

/-! ## Kernels -/

/-- Chromomagnetic and four-quark kernels as functions of the charge of the spectator. (Specification.) -/
noncomputable def o8ParaV (P : Par) (e : ℝ) (q2 u : ℝ) (w : Wc) : ℂ :=
  (P.alphaS / (3 * Real.pi) : ℂ) * e * 8 * w.c8 / ((1 - u) + u * q2 / P.mB ^ 2 : ℝ)
/-- (Specification.) -/
noncomputable def o8PerpV (P : Par) (q2 u : ℝ) (w : Wc) : ℂ :=
  -(P.alphaS / (3 * Real.pi) : ℂ) * 4 * (-1 / 3) * w.c8 / (u + (1 - u) * q2 / P.mB ^ 2 : ℝ)
/-- (Specification.) -/
noncomputable def qPerpV (P : Par) (tmc tmb t0 : ℂ) (w : Wc) : ℂ :=
  (P.alphaS / (3 * Real.pi) : ℂ) * P.mB / (2 * P.mb) * (
      2 / 3 * tmc * (-w.c1 / 6 + w.c2 + 6 * w.c6)
    + -1 / 3 * tmb * (w.c3 - w.c4 / 6 + 16 * w.c5 + 10 * w.c6 / 3 + P.mb / P.mB * (-w.c3 + w.c4 / 6 - 4 * w.c5 + 2 * w.c6 / 3))
    + -1 / 3 * t0 * (w.c3 - w.c4 / 6 + 16 * w.c5 - 8 * w.c6 / 3))
  + P.epsU * ((P.alphaS / (3 * Real.pi) : ℂ) * (2 / 3) * P.mB / (2 * P.mb) * (tmc - t0) * (w.c2 - w.c1 / 6))
/-- (Specification.) -/
noncomputable def qParaV (P : Par) (tmc tmb t0 : ℂ) (w : Wc) : ℂ :=
  (P.alphaS / (3 * Real.pi) : ℂ) * P.mB / P.mb * (
      2 / 3 * tmc * (-w.c1 / 6 + w.c2 + 6 * w.c6)
    + -1 / 3 * tmb * (w.c3 - w.c4 / 6 + 16 * w.c5 + 10 * w.c6 / 3)
    + -1 / 3 * t0 * (w.c3 - w.c4 / 6 + 16 * w.c5 - 8 * w.c6 / 3))
  + P.epsU * ((P.alphaS / (3 * Real.pi) : ℂ) * (2 / 3) * P.mB / P.mb * (tmc - t0) * (w.c2 - w.c1 / 6))
/-- (Specification.) -/
noncomputable def qMinusV (P : Par) (e : ℝ) (hmc hmb h0 : ℂ) (w : Wc) : ℂ :=
  (P.alphaS / (3 * Real.pi) : ℂ) * e * 6 * P.mB / P.mb * (
      hmc * (-w.c1 / 6 + w.c2 + w.c4 + 10 * w.c6)
    + hmb * (w.c3 + 5 * w.c4 / 6 + 16 * w.c5 + 22 * w.c6 / 3)
    + h0 * (w.c3 + 17 * w.c4 / 6 + 16 * w.c5 + 82 * w.c6 / 3)
    - 8 / 27 * (-15 * w.c4 / 2 + 12 * w.c5 - 32 * w.c6))
  + P.epsU * ((P.alphaS / (3 * Real.pi) : ℂ) * e * 6 * P.mB / P.mb * (hmc - h0) * (w.c2 - w.c1 / 6))

theorem o8ParaV_lin (P : Par) (e q2 u : ℝ) : IsLin (o8ParaV P e q2 u) := by intro x a y b; simp only [o8ParaV, lin]; ring
theorem o8PerpV_lin (P : Par) (q2 u : ℝ) : IsLin (o8PerpV P q2 u) := by intro x a y b; simp only [o8PerpV, lin]; ring
theorem qPerpV_lin (P : Par) (x y z : ℂ) : IsLin (qPerpV P x y z) := by intro x a y b; simp only [qPerpV, lin]; ring
theorem qParaV_lin (P : Par) (x y z : ℂ) : IsLin (qParaV P x y z) := by intro x a y b; simp only [qParaV, lin]; ring
theorem qMinusV_lin (P : Par) (e : ℝ) (x y z : ℂ) : IsLin (qMinusV P e x y z) := by intro x a y b; simp only [qMinusV, lin]; ring

theorem perpPlusQSS_ok (F : Fn) (P : Par) (w : Wc) (B V : String) (q2 u : ℝ) (h : (B, V) ∈ Decays) :
    perpPlusQSS F P w B V q2 u = .ok (qPerpV P (val (tPerp F P q2 u P.mc)) (val (tPerp F P q2 u P.mb)) (val (tPerp F P q2 u 0)) w) := by
  obtain ⟨q, hq, _⟩ := getInput_ok B V h
  unfold perpPlusQSS
  rw [hq, tPerp_ok F P q2 u P.mc, tPerp_ok F P q2 u P.mb, tPerp_ok F P q2 u 0]
  rfl

theorem paraPlusQSS_ok (F : Fn) (P : Par) (w : Wc) (B V : String) (q2 u : ℝ) (h : (B, V) ∈ Decays) (h0 : q2 ≠ 0) :
    paraPlusQSS F P w B V q2 u = .ok (qParaV P (val (tPara F P q2 u P.mc)) (val (tPara F P q2 u P.mb)) (val (tPara F P q2 u 0)) w) := by
  obtain ⟨q, hq, _⟩ := getInput_ok B V h
  unfold paraPlusQSS
  rw [hq, tPara_ok F P q2 u P.mc h0, tPara_ok F P q2 u P.mb h0, tPara_ok F P q2 u 0 h0]
  rfl

/-- The charge of the spectator quark of one of the four decays. (Specification.) -/
noncomputable def eSpec (V : String) : ℝ := if V = "K*+" then 2 / 3 else -1 / 3

theorem getInput_ok' (B V : String) (h : (B, V) ∈ Decays) : ∃ q, getInput B V = .ok (q, eSpec V) := by
  simp only [Decays, List.mem_cons, Prod.mk.injEq, List.not_mem_nil, or_false] at h
  rcases h with ⟨rfl, rfl⟩ | ⟨rfl, rfl⟩ | ⟨rfl, rfl⟩ | ⟨rfl, rfl⟩ <;>
    simp [in1, in2, in3, in4, eSpec]

theorem paraMinusQSS_ok (P : Par) (w : Wc) (B V : String) (q2 u scale : ℝ) (h : (B, V) ∈ Decays) (hs : (1 - u) * P.mB ^ 2 + u * q2 ≠ 0) :
    paraMinusQSS P w B V q2 u scale = .ok (qMinusV P (eSpec V) (val (MatrixElements.h ((1 - u) * P.mB ^ 2 + u * q2) P.mc scale))
      (val (MatrixElements.h ((1 - u) * P.mB ^ 2 + u * q2) P.mb scale)) (val (MatrixElements.h ((1 - u) * P.mB ^ 2 + u * q2) 0 scale)) w) := by
  obtain ⟨q, hq⟩ := getInput_ok' B V h
  unfold paraMinusQSS
  rw [hq, h_ok _ P.mc scale hs, h_ok _ P.mb scale hs, h_ok _ 0 scale hs]
  rfl

theorem paraMinusWA_ok (P : Par) (w : Wc) (B V : String) (h : (B, V) ∈ Decays) :
    paraMinusWA P w B V = .ok (-(eSpec V : ℂ) * 4 * P.mB / P.mb * cVal P V w) := by
  obtain ⟨q, hq⟩ := getInput_ok' B V h
  unfold paraMinusWA; rw [hq, cq34_ok P B V h w]; rfl

theorem perpWA1_ok (P : Par) (w : Wc) (B V : String) (h : (B, V) ∈ Decays) :
    perpWA1 P w B V = .ok (-(eSpec V : ℂ) * 4 / P.mb * (w.c3 + 4 / 3 * (w.c4 + 3 * w.c5 + 4 * w.c6))) := by
  obtain ⟨q, hq⟩ := getInput_ok' B V h
  unfold perpWA1; rw [hq]; rfl

theorem perpWA2_ok (P : Par) (w : Wc) (B V : String) (h : (B, V) ∈ Decays) :
    perpWA2 P w B V = .ok ((eSpec V : ℂ) * 2 / P.mb * cVal P V w) := by
  obtain ⟨q, hq⟩ := getInput_ok' B V h
  unfold perpWA2; rw [hq, cq34_ok P B V h w]; rfl

theorem perpPlusO8_ok (P : Par) (w : Wc) (B V : String) (q2 u : ℝ) (h : (B, V) ∈ Decays) :
    perpPlusO8 P w B V q2 u = .ok (o8PerpV P q2 u w) := by
  obtain ⟨q, hq⟩ := getInput_ok' B V h
  unfold perpPlusO8; rw [hq]; rfl

theorem paraMinusO8_ok (P : Par) (w : Wc) (B V : String) (q2 u : ℝ) (h : (B, V) ∈ Decays) :
    paraMinusO8 P w B V q2 u = .ok (o8ParaV P (eSpec V) q2 u w) := by
  obtain ⟨q, hq⟩ := getInput_ok' B V h
  unfold paraMinusO8; rw [hq]; rfl

/-! ## The amplitudes -/

/-- Normalisations. (Specification.) -/
noncomputable def nPara (P : Par) (q2 : ℝ) : ℂ := (Real.pi ^ 2 / 3 * P.fB * P.fPara / P.mB * (P.mV / enV P.mB P.mV q2) : ℝ)
/-- (Specification.) -/
noncomputable def nPerp (P : Par) : ℂ := (Real.pi ^ 2 / 3 * P.fB * P.fPerp / P.mB : ℝ)

/-- The contributions to `T_para`. (Specification.) -/
noncomputable def waPara (F : Fn) (P : Par) (V : String) (q2 : ℝ) (rule : List (ℝ × ℝ)) (w : Wc) : ℂ :=
  (rule.map (fun n => (n.2 : ℂ) * (nPara P q2 / lBminus F P q2 * (phiV n.1 P.a1Para P.a2Para : ℝ) * (-(eSpec V : ℂ) * 4 * P.mB / P.mb * cVal P V w)))).sum
/-- (Specification.) -/
noncomputable def o8Para (F : Fn) (P : Par) (V : String) (q2 : ℝ) (rule : List (ℝ × ℝ)) (w : Wc) : ℂ :=
  (rule.map (fun n => (n.2 : ℂ) * (nPara P q2 / lBminus F P q2 * (phiV n.1 P.a1Para P.a2Para : ℝ) * o8ParaV P (eSpec V) q2 n.1 w))).sum
/-- (Specification.) -/
noncomputable def qssPara (F : Fn) (P : Par) (V : String) (q2 scale : ℝ) (rule : List (ℝ × ℝ)) (w : Wc) : ℂ :=
  (rule.map (fun n => (n.2 : ℂ) * (
      nPara P q2 / (lBplus P : ℝ) * (phiV n.1 P.a1Para P.a2Para : ℝ) * qParaV P (val (tPara F P q2 n.1 P.mc)) (val (tPara F P q2 n.1 P.mb)) (val (tPara F P q2 n.1 0)) w
    + nPara P q2 / lBminus F P q2 * (phiV n.1 P.a1Para P.a2Para : ℝ) *
      qMinusV P (eSpec V) (val (MatrixElements.h ((1 - n.1) * P.mB ^ 2 + n.1 * q2) P.mc scale))
        (val (MatrixElements.h ((1 - n.1) * P.mB ^ 2 + n.1 * q2) P.mb scale)) (val (MatrixElements.h ((1 - n.1) * P.mB ^ 2 + n.1 * q2) 0 scale)) w))).sum

/-- The contributions to `T_perp`. (Specification.) -/
noncomputable def waPerp (P : Par) (V : String) (q2 : ℝ) (rule : List (ℝ × ℝ)) (w : Wc) : ℂ :=
  (rule.map (fun n => (n.2 : ℂ) * (nPerp P * (phiV n.1 P.a1Perp P.a2Perp / ((1 - n.1) + n.1 * q2 / P.mB ^ 2) : ℝ)
      * (-(eSpec V : ℂ) * 4 / P.mb * (w.c3 + 4 / 3 * (w.c4 + 3 * w.c5 + 4 * w.c6)))))).sum
  + nPerp P / (lBplus P : ℝ) * (P.fPara / P.fPerp : ℝ) * (P.mV / (1 - q2 / P.mB ^ 2) : ℝ) * ((eSpec V : ℂ) * 2 / P.mb * cVal P V w)
/-- (Specification.) -/
noncomputable def o8Perp (P : Par) (q2 : ℝ) (rule : List (ℝ × ℝ)) (w : Wc) : ℂ :=
  (rule.map (fun n => (n.2 : ℂ) * (nPerp P / (lBplus P : ℝ) * (phiV n.1 P.a1Perp P.a2Perp : ℝ) * o8PerpV P q2 n.1 w))).sum
/-- (Specification.) -/
noncomputable def qssPerp (F : Fn) (P : Par) (q2 : ℝ) (rule : List (ℝ × ℝ)) (w : Wc) : ℂ :=
  (rule.map (fun n => (n.2 : ℂ) * (nPerp P / (lBplus P : ℝ) * (phiV n.1 P.a1Perp P.a2Perp : ℝ) *
    qPerpV P (val (tPerp F P q2 n.1 P.mc)) (val (tPerp F P q2 n.1 P.mb)) (val (tPerp F P q2 n.1 0)) w))).sum

theorem waPara_lin (F P V q2 rule) : IsLin (waPara F P V q2 rule) := by
  unfold waPara
  refine isLin_sum _ (fun n w => _) (fun n => ?_)
  exact isLin_smul _ _ (isLin_smul _ _ (isLin_smul _ _ (cVal_lin P V)))
theorem o8Para_lin (F P V q2 rule) : IsLin (o8Para F P V q2 rule) := by
  unfold o8Para
  refine isLin_sum _ (fun n w => _) (fun n => ?_)
  exact isLin_smul _ _ (isLin_smul _ _ (o8ParaV_lin P _ _ _))
theorem qssPara_lin (F P V q2 scale rule) : IsLin (qssPara F P V q2 scale rule) := by
  unfold qssPara
  refine isLin_sum _ (fun n w => _) (fun n => ?_)
  exact isLin_smul _ _ (isLin_add _ _ (isLin_smul _ _ (qParaV_lin P _ _ _)) (isLin_smul _ _ (qMinusV_lin P _ _ _ _)))
theorem waPerp_lin (P V q2 rule) : IsLin (waPerp P V q2 rule) := by
  unfold waPerp
  refine isLin_add _ _ (isLin_sum _ (fun n w => _) (fun n => ?_)) (isLin_smul _ _ (isLin_smul _ _ (cVal_lin P V)))
  refine isLin_smul _ _ (isLin_smul _ _ (isLin_smul _ _ ?_))
  intro x a y b; simp only [lin]; ring
theorem o8Perp_lin (P q2 rule) : IsLin (o8Perp P q2 rule) := by
  unfold o8Perp
  refine isLin_sum _ (fun n w => _) (fun n => ?_)
  exact isLin_smul _ _ (isLin_smul _ _ (o8PerpV_lin P _ _))
theorem qssPerp_lin (F P q2 rule) : IsLin (qssPerp F P q2 rule) := by
  unfold qssPerp
  refine isLin_sum _ (fun n w => _) (fun n => ?_)
  exact isLin_smul _ _ (isLin_smul _ _ (qPerpV_lin P _ _ _))

theorem not_none (k : Incl) (hk : k.any) : (!k.wa && !k.o8 && !k.qss) = false := by
  obtain ⟨a, b, c⟩ := k
  rcases a <;> rcases b <;> rcases c <;> simp_all [Incl.any]

theorem TPara_eq (F : Fn) (P : Par) (w : Wc) (B V : String) (q2 scale : ℝ) (rule : List (ℝ × ℝ)) (k : Incl)
    (h : (B, V) ∈ Decays) (g : Good P q2 rule) (hk : k.any) :
    TPara F P w B V q2 scale rule k = .ok (on k.wa (waPara F P V q2 rule w) + on k.o8 (o8Para F P V q2 rule w) + on k.qss (qssPara F P V q2 scale rule w)) := by
  unfold TPara
  rw [not_none k hk]
  have hd : -q2 + P.mB ^ 2 ≠ 0 := by have := g.q2_lt; linarith
  simp only [Bool.false_eq_true, if_false, Mixing.pyDiv_ne hd, Bind.bind, Except.bind]
  refine (quad_ok rule _ (fun u =>
    on k.qss (nPara P q2 / (lBplus P : ℝ) * (phiV u P.a1Para P.a2Para : ℝ) * qParaV P (val (tPara F P q2 u P.mc)) (val (tPara F P q2 u P.mb)) (val (tPara F P q2 u 0)) w)
    + nPara P q2 / lBminus F P q2 * (phiV u P.a1Para P.a2Para : ℝ) * (on k.wa (-(eSpec V : ℂ) * 4 * P.mB / P.mb * cVal P V w) + on k.o8 (o8ParaV P (eSpec V) q2 u w)
      + on k.qss (qMinusV P (eSpec V) (val (MatrixElements.h ((1 - u) * P.mB ^ 2 + u * q2) P.mc scale))
        (val (MatrixElements.h ((1 - u) * P.mB ^ 2 + u * q2) P.mb scale)) (val (MatrixElements.h ((1 - u) * P.mB ^ 2 + u * q2) 0 scale)) w))) ?_).trans ?_
  · intro n hn
    obtain ⟨h1, h2⟩ := g.nodes n hn
    have hs : (1 - n.1) * P.mB ^ 2 + n.1 * q2 ≠ 0 := by
      have := mul_pos h1 g.q2_pos
      have := mul_pos (by linarith : 0 < 1 - n.1) (pow_pos g.mB_pos 2)
      linarith
    rw [paraPlusQSS_ok F P w B V q2 n.1 h g.q2_pos.ne', paraMinusWA_ok P w B V h, paraMinusO8_ok P w B V q2 n.1 h,
      paraMinusQSS_ok P w B V q2 n.1 scale h hs]
    simp only [addIf_ok, pure, Except.pure]
    rfl
  · congr 1
    have := sum3 rule k
      (fun n => (n.2 : ℂ) * (nPara P q2 / lBminus F P q2 * (phiV n.1 P.a1Para P.a2Para : ℝ) * (-(eSpec V : ℂ) * 4 * P.mB / P.mb * cVal P V w)))
      (fun n => (n.2 : ℂ) * (nPara P q2 / lBminus F P q2 * (phiV n.1 P.a1Para P.a2Para : ℝ) * o8ParaV P (eSpec V) q2 n.1 w))
      (fun n => (n.2 : ℂ) * (
      nPara P q2 / (lBplus P : ℝ) * (phiV n.1 P.a1Para P.a2Para : ℝ) * qParaV P (val (tPara F P q2 n.1 P.mc)) (val (tPara F P q2 n.1 P.mb)) (val (tPara F P q2 n.1 0)) w
    + nPara P q2 / lBminus F P q2 * (phiV n.1 P.a1Para P.a2Para : ℝ) *
      qMinusV P (eSpec V) (val (MatrixElements.h ((1 - n.1) * P.mB ^ 2 + n.1 * q2) P.mc scale))
        (val (MatrixElements.h ((1 - n.1) * P.mB ^ 2 + n.1 * q2) P.mb scale)) (val (MatrixElements.h ((1 - n.1) * P.mB ^ 2 + n.1 * q2) 0 scale)) w))
    unfold waPara o8Para qssPara
    rw [← this]
    congr 1
    apply List.map_congr_left
    intro n _
    simp only [on]
    split <;> split <;> split <;> ring

theorem TPerp_eq (F : Fn) (P : Par) (w : Wc) (B V : String) (q2 scale : ℝ) (rule : List (ℝ × ℝ)) (k : Incl)
    (h : (B, V) ∈ Decays) (hq : q2 < P.mB ^ 2) (hk : k.any) :
    TPerp F P w B V q2 scale rule k = .ok (on k.wa (waPerp P V q2 rule w) + on k.o8 (o8Perp P q2 rule w) + on k.qss (qssPerp F P q2 rule w)) := by
  unfold TPerp
  rw [not_none k hk]
  have hd : -q2 + P.mB ^ 2 ≠ 0 := by linarith
  simp only [Bool.false_eq_true, if_false, Mixing.pyDiv_ne hd, Bind.bind, Except.bind]
  rw [quad_ok rule _ (fun u =>
    nPerp P / (lBplus P : ℝ) * (phiV u P.a1Perp P.a2Perp : ℝ) * (on k.o8 (o8PerpV P q2 u w)
      + on k.qss (qPerpV P (val (tPerp F P q2 u P.mc)) (val (tPerp F P q2 u P.mb)) (val (tPerp F P q2 u 0)) w))
    + nPerp P * (phiV u P.a1Perp P.a2Perp / ((1 - u) + u * q2 / P.mB ^ 2) : ℝ) * on k.wa (-(eSpec V : ℂ) * 4 / P.mb * (w.c3 + 4 / 3 * (w.c4 + 3 * w.c5 + 4 * w.c6))))]
  · rw [perpWA2_ok P w B V h]
    simp only [addIf_ok, pure, Except.pure]
    congr 1
    have := sum3 rule k
      (fun n => (n.2 : ℂ) * (nPerp P * (phiV n.1 P.a1Perp P.a2Perp / ((1 - n.1) + n.1 * q2 / P.mB ^ 2) : ℝ)
      * (-(eSpec V : ℂ) * 4 / P.mb * (w.c3 + 4 / 3 * (w.c4 + 3 * w.c5 + 4 * w.c6)))))
      (fun n => (n.2 : ℂ) * (nPerp P / (lBplus P : ℝ) * (phiV n.1 P.a1Perp P.a2Perp : ℝ) * o8PerpV P q2 n.1 w))
      (fun n => (n.2 : ℂ) * (nPerp P / (lBplus P : ℝ) * (phiV n.1 P.a1Perp P.a2Perp : ℝ) *
        qPerpV P (val (tPerp F P q2 n.1 P.mc)) (val (tPerp F P q2 n.1 P.mb)) (val (tPerp F P q2 n.1 0)) w))
    have e : (rule.map (fun n => (n.2 : ℂ) * (nPerp P / (lBplus P : ℝ) * (phiV n.1 P.a1Perp P.a2Perp : ℝ) * (on k.o8 (o8PerpV P q2 n.1 w)
      + on k.qss (qPerpV P (val (tPerp F P q2 n.1 P.mc)) (val (tPerp F P q2 n.1 P.mb)) (val (tPerp F P q2 n.1 0)) w))
      + nPerp P * (phiV n.1 P.a1Perp P.a2Perp / ((1 - n.1) + n.1 * q2 / P.mB ^ 2) : ℝ) * on k.wa (-(eSpec V : ℂ) * 4 / P.mb * (w.c3 + 4 / 3 * (w.c4 + 3 * w.c5 + 4 * w.c6)))))).sum
      = on k.wa (rule.map (fun n => (n.2 : ℂ) * (nPerp P * (phiV n.1 P.a1Perp P.a2Perp / ((1 - n.1) + n.1 * q2 / P.mB ^ 2) : ℝ)
      * (-(eSpec V : ℂ) * 4 / P.mb * (w.c3 + 4 / 3 * (w.c4 + 3 * w.c5 + 4 * w.c6)))))).sum + on k.o8 (o8Perp P q2 rule w) + on k.qss (qssPerp F P q2 rule w) := by
      unfold o8Perp qssPerp
      rw [← this]
      congr 1
      apply List.map_congr_left
      intro n _
      simp only [on]
      split <;> split <;> split <;> ring
    rw [e]
    unfold waPerp
    simp only [on]
    split <;> simp [nPerp] <;> ring
  · intro n hn
    rw [perpPlusO8_ok P w B V q2 n.1 h, perpPlusQSS_ok F P w B V q2 n.1 h, perpWA1_ok P w B V h]
    simp only [addIf_ok, pure, Except.pure]
    rfl

end Verif.Qcdf
