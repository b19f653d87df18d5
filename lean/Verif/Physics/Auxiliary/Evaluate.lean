import Verif.Physics.Auxiliary.Theorems
/-!
# C143: which implementations of form factors can be evaluated
-/
set_option linter.unusedVariables false
set_option linter.unusedSimpArgs false
namespace Verif.Auxiliary
open Verif.Py Verif.FormFactors Verif.Angular Verif.Running

/-- A transition in its physical region: a decay is possible, the momentum transfer is at most that at zero recoil and the resonances are heavier. (Specification.) -/
structure Region (v : String → ℝ) (q2 : ℝ) (t : String × String × String) : Prop where
  pos : 0 < v ("m_" ++ t.2.2)
  heavy : v ("m_" ++ t.2.2) < v ("m_" ++ t.2.1)
  q2 : q2 ≤ (v ("m_" ++ t.2.1) - v ("m_" ++ t.2.2)) ^ 2
  res : ∀ r ∈ ["m+", "m0", "m1-", "m1+"], v ("m_" ++ t.2.1) - v ("m_" ++ t.2.2) < v (t.1 ++ " BCL " ++ r)

/-- Physical values of all parameters, at one `q²` that all transitions can have. (Specification.) -/
structure Physical (v : String → ℝ) (q2 : ℝ) : Prop where
  P : ∀ t ∈ transitionsP, Region v q2 t
  D : ∀ t ∈ transitionsD, Region v q2 t
  V : ∀ t ∈ transitionsV, Region v q2 t
  below : q2 < 27
  heavy : ∀ t ∈ transitionsV, 12 < (v ("m_" ++ t.2.1) + v ("m_" ++ t.2.2)) ^ 2
  lambdab : 0 < v "m_B+" ∧ 0 < v "m_K+" ∧ (v "m_Lambdab" - v "m_Lambda") ^ 2 < (v "m_B+" + v "m_K+") ^ 2 ∧ q2 ≤ (v "m_B+" + v "m_K+") ^ 2
  lmvd : 0 < v "B->pi BCL LMVD m_pi0" ∧ v "B->pi BCL LMVD m_pi0" < v "B->pi BCL LMVD m_B+" ∧
    q2 ≤ (v "B->pi BCL LMVD m_B+" - v "B->pi BCL LMVD m_pi0") ^ 2 ∧
    v "B->pi BCL LMVD m_B+" - v "B->pi BCL LMVD m_pi0" < v "B->pi BCL LMVD m+" ∧ v "B->pi BCL LMVD m_B+" - v "B->pi BCL LMVD m_pi0" < v "B->pi BCL LMVD m0"

/-- Concrete values, in units of 100 MeV. -/
def exN (k : String) : ℕ :=
  if k = "m_B0" ∨ k = "m_B+" ∨ k = "m_Bs" ∨ k = "B->pi BCL LMVD m_B+" then 53
  else if k = "m_D0" then 19 else if k = "m_D*0" then 20 else if k = "m_Lambdab" then 56 else if k = "m_Lambda" then 11
  else if k = "m_K0" ∨ k = "m_K+" ∨ k = "m_pi0" ∨ k = "m_pi+" ∨ k = "B->pi BCL LMVD m_pi0" then 5
  else if k = "m_K*0" ∨ k = "m_rho0" ∨ k = "m_omega" ∨ k = "m_phi" then 10
  else 60

/-- The hypotheses of the theorem below are met by concrete values. -/
theorem C143_nonvacuous : Physical (fun k => (exN k : ℝ) / 10) 1 := by
  have R : ∀ t : String × String × String, (0 < exN ("m_" ++ t.2.2) ∧ exN ("m_" ++ t.2.2) + 10 ≤ exN ("m_" ++ t.2.1) ∧ exN ("m_" ++ t.2.1) ≤ 60 ∧
      ∀ r ∈ ["m+", "m0", "m1-", "m1+"], exN (t.1 ++ " BCL " ++ r) = 60) → Region (fun k => (exN k : ℝ) / 10) 1 t := by
    rintro t ⟨h1, h2, h3, h4⟩
    have a : (0:ℝ) < exN ("m_" ++ t.2.2) := by exact_mod_cast h1
    have b : (exN ("m_" ++ t.2.2) : ℝ) + 10 ≤ exN ("m_" ++ t.2.1) := by exact_mod_cast h2
    have c : (exN ("m_" ++ t.2.1) : ℝ) ≤ 60 := by exact_mod_cast h3
    refine ⟨by linarith, by linarith, by nlinarith, fun r h => ?_⟩
    rw [h4 r h]; push_cast; linarith
  have v : ∀ k n, exN k = n → (exN k : ℝ) = n := fun k n h => by rw [h]
  refine ⟨fun t ht => R t ?_, fun t ht => R t ?_, fun t ht => R t ?_, by norm_num, ?_, ?_, ?_⟩
  · revert t; decide +kernel
  · revert t; decide +kernel
  · revert t; decide +kernel
  · intro t ht
    have h : 53 ≤ exN ("m_" ++ t.2.1) := by revert t; decide +kernel
    have a : (53:ℝ) ≤ exN ("m_" ++ t.2.1) := by exact_mod_cast h
    have b : (0:ℝ) ≤ exN ("m_" ++ t.2.2) := by positivity
    nlinarith
  · rw [v "m_B+" 53 (by decide +kernel), v "m_K+" 5 (by decide +kernel), v "m_Lambdab" 56 (by decide +kernel), v "m_Lambda" 11 (by decide +kernel)]
    norm_num
  · rw [v "B->pi BCL LMVD m_B+" 53 (by decide +kernel), v "B->pi BCL LMVD m_pi0" 5 (by decide +kernel), v "B->pi BCL LMVD m+" 60 (by decide +kernel),
      v "B->pi BCL LMVD m0" 60 (by decide +kernel)]
    norm_num

/-! ## Lemmas -/

theorem sq_lt_of {a m q : ℝ} (h0 : 0 ≤ a) (hq : q ≤ a ^ 2) (h : a < m) : q ≠ m ^ 2 ∧ m ≠ 0 := by
  refine ⟨fun e => ?_, by linarith⟩
  nlinarith

theorem val_lt {mB mM : ℝ} (hM : 0 < mM) (h : mM < mB) (c : Cut) : c.t0.val ((mB - mM) ^ 2) ((mB + mM) ^ 2) < (mB + mM) ^ 2 := by
  have hB := hM.trans h
  cases c with
  | default => exact tOpt_lt hB hM
  | tm => show (mB - mM) ^ 2 < _; nlinarith [mul_pos hB hM]
  | zero => show (0:ℝ) < _; positivity

theorem z0_ne {mB mM : ℝ} (hM : 0 < mM) (h : mM < mB) (c : Cut) (hc : c ≠ .zero) :
    conformal ((mB + mM) ^ 2) (c.t0.val ((mB - mM) ^ 2) ((mB + mM) ^ 2)) 0 ≠ 0 := by
  have hB := hM.trans h
  have htm : 0 < (mB - mM) ^ 2 := by have : 0 < mB - mM := by linarith
                                     positivity
  have hlt : (mB - mM) ^ 2 < (mB + mM) ^ 2 := by nlinarith [mul_pos hB hM]
  cases c with
  | zero => exact absurd rfl hc
  | tm =>
    show conformal _ ((mB - mM) ^ 2) 0 ≠ 0
    have := conformal_anti (t0 := (mB - mM) ^ 2) hlt hlt.le htm
    rw [conformal_self] at this
    exact this.ne'
  | default =>
    show conformal _ (tOpt ((mB - mM) ^ 2) ((mB + mM) ^ 2)) 0 ≠ 0
    intro e
    have a := conformal_anti (t0 := tOpt ((mB - mM) ^ 2) ((mB + mM) ^ 2)) (tOpt_lt hB hM) hlt.le htm
    rw [tOpt_symm htm.le hlt, e] at a
    simp at a

theorem params_ok {mB mM q2 : ℝ} (hM : 0 < mM) (h : mM < mB) (hq : q2 ≤ (mB + mM) ^ 2) (c : Cut) (a : List ℝ) :
    (∃ x, paramFplusT mB mM a q2 c.t0 = .ok x) ∧ ∃ x, paramF0 mB mM a q2 c.t0 = .ok x := by
  unfold paramFplusT paramF0
  rw [z_eq (hM.trans h) hM c.t0 (val_lt hM h c) hq]
  exact ⟨⟨_, rfl⟩, ⟨_, rfl⟩⟩

theorem bclEval_ok {chL mpl m0 mB mM q2 : ℝ} (hM : 0 < mM) (h : mM < mB) (hq : q2 ≤ (mB + mM) ^ 2) (c : Cut) (hp : q2 ≠ mpl ^ 2) (h0 : q2 ≠ m0 ^ 2) (ap aT a0 : List ℝ) :
    ∃ F, bclEval chL mpl m0 mB mM ap aT a0 q2 c.t0 = .ok F := by
  obtain ⟨x, hx⟩ := (params_ok hM h hq c ap).1
  obtain ⟨y, hy⟩ := (params_ok hM h hq c aT).1
  obtain ⟨w, hw⟩ := (params_ok hM h hq c a0).2
  unfold bclEval
  rw [pole_val (.inl hp), fok, hx, fok, fok, hy, fok, pole_val (.inl h0), fok, hw, fok]
  exact ⟨_, rfl⟩

theorem bclLast_ok {mpl m0 mB mM : ℝ} (hM : 0 < mM) (h : mM < mB) (c : Cut) (hc : c ≠ .zero) (ap a0 : List ℝ) (n : ℕ) :
    (∃ l, bclLast mpl m0 mB mM ap a0 n c.t0 = .ok l) ∧ ∃ l, bclLastIW mpl m0 mB mM ap a0 n c.t0 = .ok l := by
  obtain ⟨x, hx⟩ := (params_ok (q2 := 0) hM h (by positivity) c ap).1
  obtain ⟨w, hw⟩ := (params_ok (q2 := 0) hM h (by positivity) c a0).2
  have hz := z_eq (q2 := 0) (hM.trans h) hM c.t0 (val_lt hM h c) (by positivity)
  constructor
  · unfold bclLast
    rw [pole_zero, fok, hx, fok, pole_zero, fok, hw, fok, hz, fok, Mixing.pyDiv_ne (pow_ne_zero _ (z0_ne hM h c hc))]
    exact ⟨_, rfl⟩
  · unfold bclLastIW
    rw [pole_zero, fok, hx, fok, pole_zero, fok, hw, fok, hz, fok, Mixing.pyDiv_ne (pow_ne_zero _ (z0_ne hM h c hc))]
    exact ⟨_, rfl⟩

section
variable {v : String → ℝ} {q2 : ℝ} {p B M : String}

theorem Region.sum (h : Region v q2 (p, B, M)) : q2 ≤ (v ("m_" ++ B) + v ("m_" ++ M)) ^ 2 := by
  have := h.pos; have := h.heavy; have := h.q2
  simp only at *
  nlinarith

theorem Region.ne (h : Region v q2 (p, B, M)) (r : String) (hr : r ∈ ["m+", "m0", "m1-", "m1+"]) : v (p ++ " BCL " ++ r) ≠ 0 ∧ q2 ≠ v (p ++ " BCL " ++ r) ^ 2 := by
  have h1 := h.pos
  have h2 := h.heavy
  have h3 := h.res r hr
  simp only at h1 h2 h3
  exact (sq_lt_of (by linarith) h.q2 h3).symm

theorem Region.ne' (h : Region v q2 (p, B, M)) : q2 ≠ v (p ++ " BCL m+") ^ 2 ∧ q2 ≠ v (p ++ " BCL m0") ^ 2 := by
  have a := (h.ne "m+" (by simp)).2
  have b := (h.ne "m0" (by simp)).2
  rw [String.append_assoc] at a b
  exact ⟨a, b⟩

theorem bclFF_ok (hp : processP p = .ok (B, M)) (h : Region v q2 (p, B, M)) (n : ℕ) (c : Cut) : ∃ F, bclFF p q2 (full v) n c.t0 = .ok F := by
  unfold bclFF bclF0
  rw [hp]
  simp only [fok, full_get, coeffs_full]
  by_cases hc : c = .zero
  · subst hc
    have hz : (Cut.zero.t0).isZero := rfl
    rw [if_pos hz]
    exact bclEval_ok h.pos h.heavy h.sum _ h.ne'.1 h.ne'.2 _ _ _
  · have hz : ¬ (c.t0).isZero := by
      cases c with
      | zero => exact absurd rfl hc
      | default => exact id
      | tm => exact id
    rw [if_neg hz]
    obtain ⟨l, hl⟩ := (bclLast_ok (mpl := v (p ++ " BCL m+")) (m0 := v (p ++ " BCL m0")) h.pos h.heavy c hc
      ((List.range n).map fun j => v (p ++ " BCL a" ++ toString j ++ "_" ++ "f+"))
      ((List.range (n - 1)).map fun j => v (p ++ " BCL a" ++ toString j ++ "_" ++ "f0")) n).1
    simp only at hl
    rw [hl, fok]
    exact bclEval_ok h.pos h.heavy h.sum _ h.ne'.1 h.ne'.2 _ _ _

theorem bclFFD_ok (hp : processD p = .ok (B, M)) (h : Region v q2 (p, B, M)) (n : ℕ) : ∃ F, bclFFD p q2 (full v) n .none = .ok F := by
  unfold bclFFD
  rw [hp]
  simp only [fok, full_get, coeffs_full]
  obtain ⟨l, hl⟩ := (bclLast_ok (mpl := v (p ++ " BCL m+")) (m0 := v (p ++ " BCL m0")) h.pos h.heavy .default (by decide)
    ((List.range n).map fun j => v (p ++ " BCL a" ++ toString j ++ "_" ++ "f+"))
    ((List.range (n - 1)).map fun j => v (p ++ " BCL a" ++ toString j ++ "_" ++ "f0")) n).1
  simp only [Cut.t0] at hl
  rw [hl, fok]
  exact bclEval_ok h.pos h.heavy h.sum .default h.ne'.1 h.ne'.2 _ _ _

theorem bclFFIW_ok (hp : processP p = .ok (B, M)) (h : Region v q2 (p, B, M)) (n : ℕ) (c : Cut) (hc : c ≠ .zero) : ∃ F, bclFFIW p q2 (full v) n c.t0 = .ok F := by
  unfold bclFFIW
  rw [hp]
  simp only [fok, full_get, coeffs_full]
  obtain ⟨l, hl⟩ := (bclLast_ok (mpl := v (p ++ " BCL m+")) (m0 := v (p ++ " BCL m0")) h.pos h.heavy c hc
    ((List.range n).map fun j => v (p ++ " BCL a" ++ toString j ++ "_" ++ "f+"))
    ((List.range (n - 1)).map fun j => v (p ++ " BCL a" ++ toString j ++ "_" ++ "f0")) n).2
  simp only at hl
  rw [hl, fok]
  obtain ⟨x, hx⟩ := (params_ok h.pos h.heavy h.sum c ((List.range n).map fun j => v (p ++ " BCL a" ++ toString j ++ "_" ++ "f+"))).1
  obtain ⟨w, hw⟩ := (params_ok h.pos h.heavy h.sum c ((List.range (n - 1)).map (fun j => v (p ++ " BCL a" ++ toString j ++ "_" ++ "f0")) ++ [l])).2
  simp only at hx hw
  rw [pole_val (.inl h.ne'.1), fok, hx, fok, pole_val (.inl h.ne'.2), fok, hw, fok]
  exact ⟨_, rfl⟩
end

/-- The shapes of the registered functions. (Specification.) -/
def Fn.known : Fn → Bool
  | .bszP p n => (p == "B->K" || p == "B->pi" || p == "B->D") && n == 3
  | .bclP p _ _ => p == "B->K" || p == "B->pi" || p == "B->D"
  | .bclIW p _ c => (p == "B->K" || p == "B->pi" || p == "B->D") && c != .zero
  | .lmvd p n => (p == "B->pi" || p == "B->K" || p == "B->D") && n == 4
  | .bszV p n => (p == "B->K*" || p == "B->rho" || p == "B->omega" || p == "Bs->phi" || p == "Bs->K*" || p == "B->D*") && decide (n ≤ 3)
  | .sseV p n => (p == "B->K*" || p == "B->rho" || p == "B->omega" || p == "Bs->phi" || p == "Bs->K*" || p == "B->D*") && decide (n ≤ 3)
  | .lambdab p n => p == "Lambdab->Lambda" && decide (n ≤ 3)
  | .bszD p n => (p == "D->K" || p == "D->pi") && decide (0 < n) && decide (n ≤ 3)
  | .bclD p _ => p == "D->K" || p == "D->pi"
  | .other _ _ => true

/-- The transitions the modules know. (Specification.) -/
def Fn.usable : Fn → Bool
  | .lmvd p _ => p == "B->pi"
  | .sseV p _ => p == "B->K*" || p == "Bs->phi" || p == "Bs->K*"
  | _ => true

theorem map_ok {α β : Type} {x : Except PyErr α} {g : α → β} (h : ∃ a, x = .ok a) : ∃ b, x.map g = .ok b := by
  obtain ⟨a, rfl⟩ := h
  exact ⟨_, rfl⟩

variable {O : Type} (oth : String → String → Par → ℝ → Except PyErr O)

theorem procP {p : String} (h : p = "B->K" ∨ p = "B->pi" ∨ p = "B->D") : ∃ B M, (p, B, M) ∈ transitionsP ∧ processP p = .ok (B, M) := by
  rcases h with rfl | rfl | rfl
  · exact ⟨"B0", "K0", by simp [transitionsP], rfl⟩
  · exact ⟨"B+", "pi0", by simp [transitionsP], rfl⟩
  · exact ⟨"B+", "D0", by simp [transitionsP], rfl⟩

theorem procD {p : String} (h : p = "D->K" ∨ p = "D->pi") : ∃ B M, (p, B, M) ∈ transitionsD ∧ processD p = .ok (B, M) := by
  rcases h with rfl | rfl
  · exact ⟨"D0", "K+", by simp [transitionsD], rfl⟩
  · exact ⟨"D0", "pi+", by simp [transitionsD], rfl⟩

/-- **C143 (evaluation)** Every registered series implementation of a form factor other than the five unusable ones returns a value when all parameters are given, for all physical masses
and `q²`. -/
theorem C143_evaluates_partial (v : String → ℝ) (q2 : ℝ) (h : Physical v q2) (i q : String) (f : Fn) (hi : reg.impl.get? i = some (q, f))
    (hf : ∀ g p, f ≠ .other g p) (hn : i ∉ never) : ∃ F, run oth (full v) q2 f = .ok F := by
  have k : f.known = true := impl_all (P := fun _ _ f => f.known) (by decide +kernel) hi
  have kn : f.usable = true := by
    have := impl_all (P := fun i _ f => decide (i ∈ never) || f.usable)
      (by decide +kernel) hi
    simpa [hn] using this
  cases f with
  | other g p => exact absurd rfl (hf g p)
  | bszP p n =>
    simp only [Fn.known, Bool.and_eq_true, Bool.or_eq_true, beq_iff_eq, or_assoc] at k
    obtain ⟨B, M, ht, hp⟩ := procP k.1
    have R := h.P _ ht
    refine map_ok ⟨_, (C104_bsz_values v q2 n (by omega) (by omega) (p, B, M) (R.pos.trans R.heavy) R.pos R.sum (.inl R.ne'.1) (.inl R.ne'.2)).1 ht⟩
  | bclP p n c =>
    simp only [Fn.known, Bool.and_eq_true, Bool.or_eq_true, beq_iff_eq, or_assoc] at k
    obtain ⟨B, M, ht, hp⟩ := procP k
    exact map_ok (bclFF_ok hp (h.P _ ht) n c)
  | bclIW p n c =>
    simp only [Fn.known, Bool.and_eq_true, Bool.or_eq_true, beq_iff_eq, bne_iff_ne, or_assoc] at k
    obtain ⟨B, M, ht, hp⟩ := procP k.1
    exact map_ok (bclFFIW_ok hp (h.P _ ht) n c k.2)
  | lmvd p n =>
    simp only [Fn.usable, beq_iff_eq] at kn
    simp only [Fn.known, Bool.and_eq_true, beq_iff_eq] at k
    subst kn
    obtain ⟨h1, h2, h3, h4, h5⟩ := h.lmvd
    refine map_ok ⟨_, (C104_lmvd_values v q2 n (by omega) .none (h1.trans h2) h1 (tOpt_lt (h1.trans h2) h1) (by nlinarith) (.inl ?_) (.inl ?_)).1⟩
    · exact (sq_lt_of (by linarith) h3 h4).1
    · exact (sq_lt_of (by linarith) h3 h5).1
  | bszV p n =>
    simp only [Fn.known, Bool.and_eq_true, Bool.or_eq_true, beq_iff_eq, decide_eq_true_eq, or_assoc] at k
    obtain ⟨B, M, ht⟩ : ∃ B M, (p, B, M) ∈ transitionsV := by
      rcases k.1 with rfl | rfl | rfl | rfl | rfl | rfl <;> simp [transitionsV]
    have R := h.V _ ht
    obtain ⟨par', e⟩ := C104_bszV_values v q2 n k.2 (p, B, M) ht R.pos R.heavy R.sum
      (fun r hr => R.ne r (by simp only [List.mem_cons, List.not_mem_nil, or_false] at hr ⊢; tauto))
    exact map_ok ⟨_, e⟩
  | sseV p n =>
    simp only [Fn.usable, Bool.or_eq_true, beq_iff_eq, or_assoc] at kn
    simp only [Fn.known, Bool.and_eq_true, decide_eq_true_eq] at k
    have hb := h.below
    have ne : ∀ m : ℝ, 5.2 < m → q2 ≠ m ^ 2 := fun m hm e => by nlinarith
    rcases kn with rfl | rfl | rfl
    · have ht : ("B->K*", "B0", "K*0") ∈ transitionsV := by simp [transitionsV]
      have R := h.V _ ht
      exact map_ok ⟨_, C104_sse_values v q2 n k.2 ("B->K*", "B0", "K*0", 5.366, 5.414, 5.829) (by simp [transitionsSSE]) (R.pos.trans R.heavy) R.pos (h.heavy _ ht) R.sum
        (ne _ (by norm_num)) (ne _ (by norm_num)) (ne _ (by norm_num))⟩
    · have ht : ("Bs->phi", "Bs", "phi") ∈ transitionsV := by simp [transitionsV]
      have R := h.V _ ht
      exact map_ok ⟨_, C104_sse_values v q2 n k.2 ("Bs->phi", "Bs", "phi", 5.366, 5.414, 5.829) (by simp [transitionsSSE]) (R.pos.trans R.heavy) R.pos (h.heavy _ ht) R.sum
        (ne _ (by norm_num)) (ne _ (by norm_num)) (ne _ (by norm_num))⟩
    · have ht : ("Bs->K*", "Bs", "K*0") ∈ transitionsV := by simp [transitionsV]
      have R := h.V _ ht
      exact map_ok ⟨_, C104_sse_values v q2 n k.2 ("Bs->K*", "Bs", "K*0", 5.279, 5.324, 5.716) (by simp [transitionsSSE]) (R.pos.trans R.heavy) R.pos (h.heavy _ ht) R.sum
        (ne _ (by norm_num)) (ne _ (by norm_num)) (ne _ (by norm_num))⟩
  | lambdab p n =>
    simp only [Fn.known, Bool.and_eq_true, beq_iff_eq, decide_eq_true_eq] at k
    obtain ⟨rfl, hn3⟩ := k
    obtain ⟨h1, h2, h3, h4⟩ := h.lambdab
    have hb := h.below
    have ne : ∀ m : ℝ, 5.2 < m → q2 ≠ m ^ 2 := fun m hm e => by nlinarith
    obtain ⟨par', e⟩ := C104_lambdab_values v q2 n hn3 h1 h2 h3 h4 (by
      intro m hm
      simp only [List.mem_cons, List.not_mem_nil, or_false] at hm
      rcases hm with rfl | rfl | rfl | rfl <;> exact ne _ (by norm_num))
    exact map_ok ⟨_, e⟩
  | bszD p n =>
    simp only [Fn.known, Bool.and_eq_true, Bool.or_eq_true, beq_iff_eq, decide_eq_true_eq, and_assoc] at k
    obtain ⟨B, M, ht, hp⟩ := procD k.1
    have R := h.D _ ht
    refine map_ok ⟨_, (C104_bsz_values v q2 n k.2.1 k.2.2 (p, B, M) (R.pos.trans R.heavy) R.pos R.sum (.inl R.ne'.1) (.inl R.ne'.2)).2 ht⟩
  | bclD p n =>
    simp only [Fn.known, Bool.or_eq_true, beq_iff_eq] at k
    obtain ⟨B, M, ht, hp⟩ := procD k
    exact map_ok (bclFFD_ok hp (h.D _ ht) n)

end Verif.Auxiliary
