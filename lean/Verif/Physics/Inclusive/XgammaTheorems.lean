import Verif.Physics.Inclusive.Xgamma
import Mathlib.Tactic.FinCases
set_option linter.unusedVariables false
set_option linter.unusedSimpArgs false
namespace Verif.Xgamma
open Verif.Py Verif.Running Complex

local notation "conj" => starRingEnd ℂ

theorem sym1 (i j : Fin 8) : ka1r i j = ka1r j i := by fin_cases i <;> fin_cases j <;> rfl
theorem sym2 (i j : Fin 8) : ka2r i j = ka2r j i := by fin_cases i <;> fin_cases j <;> rfl
theorem anti1 (i j : Fin 8) : ka1i i j = -ka1i j i := by
  fin_cases i <;> fin_cases j <;> simp [ka1i]

theorem quad_conj (K : Fin 8 → Fin 8 → ℝ) (v : Fin 8 → ℂ) : quad K (fun i => conj (v i)) = conj (quad K v) := by
  simp only [quad, map_sum, map_mul, Complex.conj_conj, Complex.conj_ofReal]

theorem quad_swap (K : Fin 8 → Fin 8 → ℝ) (v : Fin 8 → ℂ) : conj (quad K v) = quad (fun i j => K j i) v := by
  simp only [quad, map_sum, map_mul, Complex.conj_conj, Complex.conj_ofReal, Finset.mul_sum]
  rw [Finset.sum_comm]
  refine Finset.sum_congr rfl fun i _ => Finset.sum_congr rfl fun j _ => ?_
  ring

/-- The tables fit their use: the rate matrices are symmetric, so the quadratic forms are already real and taking the real
part discards nothing; the asymmetry matrix is antisymmetric, so its form is purely imaginary and taking the imaginary
part discards nothing. -/
theorem C123_forms (v : Fin 8 → ℂ) : (quad ka1r v).im = 0 ∧ (quad ka2r v).im = 0 ∧ (quad ka1i v).re = 0 := by
  have A : ∀ K : Fin 8 → Fin 8 → ℝ, (∀ i j, K i j = K j i) → (quad K v).im = 0 := by
    intro K hK
    have h := quad_swap K v
    have e : (fun i j => K j i) = K := by funext i j; exact hK j i
    rw [e] at h
    exact Complex.conj_eq_iff_im.mp h
  refine ⟨A _ sym1, A _ sym2, ?_⟩
  have h := quad_swap ka1i v
  have e : quad (fun i j => ka1i j i) v = -quad ka1i v := by
    simp only [quad, ← Finset.sum_neg_distrib]
    refine Finset.sum_congr rfl fun i _ => ?_
    rw [← mul_neg, ← Finset.sum_neg_distrib]
    congr 1
    refine Finset.sum_congr rfl fun j _ => ?_
    rw [anti1 j i]; push_cast; ring
  rw [e] at h
  have := congrArg Complex.re h
  simp at this
  linarith

/-- Only the cut `E0 = 1.6` is implemented; every other value raises `ValueError` (in all three observables). -/
theorem C123_cut (d : Inp) (q : String) (E0 : ℝ) (h : E0 ≠ 1.6) : br d q E0 = .error .valueError ∧ acp d E0 = .error .valueError := by
  constructor
  · simp only [br, peBR, if_pos h, Bind.bind, Except.bind]
  · simp only [acp, peBR, if_pos h, Bind.bind, Except.bind]

theorem vec_conj (wc : String → ℂ) (bq : String) : vec (fun n => conj (wc n)) bq = (fun i => conj (vec wc bq i)) := by
  funext i; fin_cases i <;> rfl
theorem vecP_conj (wc : String → ℂ) (bq : String) : vecP (fun n => conj (wc n)) bq = (fun i => conj (vecP wc bq i)) := by
  funext i; fin_cases i <;> rfl

/-- The CP-conjugate theory: all coefficients and CKM factors complex conjugated. (Specification.) -/
def cp (d : Inp) : Inp := { d with wc := fun q n => conj (d.wc q n), xit := fun q => conj (d.xit q), xiu := fun q => conj (d.xiu q), Vcb := conj d.Vcb }

theorem pe_cp (a : ℝ) (wc : String → ℂ) (ru : ℂ) (q : String) :
    peBR a (fun n => conj (wc n)) (conj ru) q 1.6 = peBR a wc ru q 1.6
    ∧ ∃ x, peACP a wc ru q 1.6 = .ok x ∧ peACP a (fun n => conj (wc n)) (conj ru) q 1.6 = .ok (-x) := by
  constructor
  · simp only [peBR, ne_eq, not_true_eq_false, if_false, vec_conj, vecP_conj, quad_conj, Complex.conj_re, Complex.norm_conj]
  · refine ⟨_, by simp only [peACP, ne_eq, not_true_eq_false, if_false]; rfl, ?_⟩
    simp only [peACP, ne_eq, not_true_eq_false, if_false, vec_conj, vecP_conj, quad_conj, Complex.conj_im]
    congr 1; ring

theorem pe_ok (a : ℝ) (wc : String → ℂ) (ru : ℂ) (q : String) : ∃ x, peBR a wc ru q 1.6 = .ok x := by
  simp only [peBR, ne_eq, not_true_eq_false, if_false]; exact ⟨_, rfl⟩

/-- The branching ratio is CP averaged: it is the same in the CP-conjugate theory; the asymmetry changes sign; and the
asymmetry vanishes when all coefficients and the CKM ratio are real. -/
theorem C123_cp (d : Inp) (q : String) :
    br (cp d) q 1.6 = br d q 1.6
    ∧ (∃ x, acp d 1.6 = .ok x ∧ acp (cp d) 1.6 = .ok (-x))
    ∧ ((∀ b n, (d.wc b n).im = 0) → (∀ b, (d.xit b).im = 0 ∧ (d.xiu b).im = 0) → (d.Vcb).im = 0 → acp d 1.6 = .ok 0) := by
  have hru : ∀ q, (cp d).ru q = conj (d.ru q) := by intro q; simp [Inp.ru, cp, map_div₀]
  have A : br (cp d) q 1.6 = br d q 1.6 := by
    have h := (pe_cp d.a (d.wc ("b" ++ q)) (d.ru q) q).1
    obtain ⟨x, hx⟩ := pe_ok d.a (d.wc ("b" ++ q)) (d.ru q) q
    simp only [br, hru]
    have e : (cp d).wc ("b" ++ q) = fun n => conj (d.wc ("b" ++ q) n) := rfl
    have e2 : (cp d).a = d.a := rfl
    rw [e, e2, h]
    simp only [hx, Bind.bind, Except.bind, cp, Complex.norm_conj]
  have B : ∃ x, acp d 1.6 = .ok x ∧ acp (cp d) 1.6 = .ok (-x) := by
    obtain ⟨pd, hpd⟩ := pe_ok d.a (d.wc "bd") (d.ru "d") "d"
    obtain ⟨ps, hps⟩ := pe_ok d.a (d.wc "bs") (d.ru "s") "s"
    obtain ⟨h1, ad, had, had'⟩ := pe_cp d.a (d.wc "bd") (d.ru "d") "d"
    obtain ⟨h2, as, has, has'⟩ := pe_cp d.a (d.wc "bs") (d.ru "s") "s"
    refine ⟨_, by simp only [acp, hpd, hps, had, has, Bind.bind, Except.bind]; rfl, ?_⟩
    have e1 : (cp d).wc "bd" = fun n => conj (d.wc "bd" n) := rfl
    have e2 : (cp d).wc "bs" = fun n => conj (d.wc "bs" n) := rfl
    have e3 : (cp d).a = d.a := rfl
    simp only [acp, hru, e1, e2, e3, h1, h2, hpd, hps, had', has', Bind.bind, Except.bind, pure, Except.pure]
    congr 1
    simp only [cp, Complex.norm_conj]; ring
  refine ⟨A, B, fun hw hx hv => ?_⟩
  obtain ⟨x, h1, h2⟩ := B
  have e : cp d = d := by
    have c : ∀ z : ℂ, z.im = 0 → conj z = z := fun z h => Complex.conj_eq_iff_im.mpr h
    cases d with
    | mk a par wc xit xiu Vcb =>
      simp only [cp, Inp.mk.injEq, true_and]
      refine ⟨?_, ?_, ?_, c _ hv⟩
      · funext b n; exact c _ (hw b n)
      · funext b; exact c _ (hx b).1
      · funext b; exact c _ (hx b).2
  rw [e, h1] at h2; injection h2 with h2
  rw [h1]; congr 1; linarith

/-- Chirality: exchanging every coefficient with its primed partner changes neither the rate nor the asymmetry; the two
chiralities do not interfere. -/
theorem C123_chirality (a : ℝ) (wc wc' : String → ℂ) (ru : ℂ) (q : String) (E0 : ℝ)
    (h : ∀ n ∈ [("C1_", "C1p_"), ("C2_", "C2p_"), ("C3_", "C3p_"), ("C4_", "C4p_"), ("C5_", "C5p_"), ("C6_", "C6p_"), ("C7eff_", "C7effp_"), ("C8eff_", "C8effp_")],
      wc' (n.1 ++ ("b" ++ q)) = wc (n.2 ++ ("b" ++ q)) ∧ wc' (n.2 ++ ("b" ++ q)) = wc (n.1 ++ ("b" ++ q))) :
    peBR a wc' ru q E0 = peBR a wc ru q E0 ∧ peACP a wc' ru q E0 = peACP a wc ru q E0 := by
  simp only [List.forall_mem_cons, List.not_mem_nil, false_implies, implies_true, and_true] at h
  obtain ⟨⟨a1, b1⟩, ⟨a2, b2⟩, ⟨a3, b3⟩, ⟨a4, b4⟩, ⟨a5, b5⟩, ⟨a6, b6⟩, ⟨a7, b7⟩, ⟨a8, b8⟩⟩ := h
  have v : vec wc' ("b" ++ q) = vecP wc ("b" ++ q) := by simp only [vec, vecP, a1, a2, a3, a4, a5, a6, a7, a8]
  have w : vecP wc' ("b" ++ q) = vec wc ("b" ++ q) := by simp only [vec, vecP, b1, b2, b3, b4, b5, b6, b7, b8]
  simp only [peBR, peACP, v, w, a7, b7]
  constructor
  · split_ifs
    · rfl
    · congr 1; ring
  · split_ifs
    · rfl
    · congr 1; ring

/-- At leading order (no strong coupling, no `V_ub` term) the rate factor is `|C7|² + |C7'|²`, and there is no asymmetry. -/
theorem C123_leading_order (wc : String → ℂ) (q : String) :
    peBR 0 wc 0 q 1.6 = .ok (‖wc ("C7eff_b" ++ q)‖ ^ 2 + ‖wc ("C7effp_b" ++ q)‖ ^ 2) ∧ peACP 0 wc 0 q 1.6 = .ok 0 := by
  constructor
  · simp only [peBR, ne_eq, not_true_eq_false, if_false]
    have f1 : ("C7eff_" ++ ("b" ++ q) : String) = "C7eff_b" ++ q := by rw [← String.append_assoc]; rfl
    have f2 : ("C7effp_" ++ ("b" ++ q) : String) = "C7effp_b" ++ q := by rw [← String.append_assoc]; rfl
    rw [f1, f2]
    congr 1; simp
  · simp only [peACP, ne_eq, not_true_eq_false, if_false]
    congr 1; simp

/-- (FINDING) the formula is a truncated expansion and not a modulus squared: for every strong coupling `α_s/4π ≥ 1/1000`
and whatever the other inputs, some values of the coefficients `C5`, `C7` give a negative branching ratio (below any bound). -/
theorem C123_negative_witness (a : ℝ) (ha : 1 / 1000 ≤ a) (ru : ℂ) (q : String) (bound : ℝ) :
    ∃ wc x, peBR a wc ru q 1.6 = .ok x ∧ x < bound := by
  obtain ⟨P, hP⟩ : ∃ P : ℝ, P = -0.0296854 * ru.re + 0.123411 * ‖ru‖ ^ 2 := ⟨_, rfl⟩
  obtain ⟨t, ht⟩ : ∃ t : ℝ, t = 1 + |P| + |bound| := ⟨_, rfl⟩
  have ht0 : 1 ≤ t := by rw [ht]; have := abs_nonneg P; have := abs_nonneg bound; linarith
  refine ⟨fun n => if n = "C7eff_" ++ ("b" ++ q) then (t : ℂ) else if n = "C5_" ++ ("b" ++ q) then ((-34 * t : ℝ) : ℂ) else 0, _, by
    simp only [peBR, ne_eq, not_true_eq_false, if_false]; rfl, ?_⟩
  have hne : ∀ x y : String, x ≠ y → ((x ++ ("b" ++ q) = y ++ ("b" ++ q)) = False) := by
    intro x y h; apply eq_false; intro e; exact h (String.append_left_inj _ |>.mp e)
  have v1 : vec (fun n => if n = "C7eff_" ++ ("b" ++ q) then (t : ℂ) else if n = "C5_" ++ ("b" ++ q) then ((-34 * t : ℝ) : ℂ) else 0) ("b" ++ q)
      = ![0, 0, 0, 0, ((-34 * t : ℝ) : ℂ), 0, (t : ℂ), 0] := by
    simp only [vec, hne _ _ (show ("C1_" : String) ≠ "C7eff_" by decide), hne _ _ (show ("C1_" : String) ≠ "C5_" by decide),
      hne _ _ (show ("C2_" : String) ≠ "C7eff_" by decide), hne _ _ (show ("C2_" : String) ≠ "C5_" by decide),
      hne _ _ (show ("C3_" : String) ≠ "C7eff_" by decide), hne _ _ (show ("C3_" : String) ≠ "C5_" by decide),
      hne _ _ (show ("C4_" : String) ≠ "C7eff_" by decide), hne _ _ (show ("C4_" : String) ≠ "C5_" by decide),
      hne _ _ (show ("C5_" : String) ≠ "C7eff_" by decide), hne _ _ (show ("C6_" : String) ≠ "C7eff_" by decide), hne _ _ (show ("C6_" : String) ≠ "C5_" by decide),
      hne _ _ (show ("C8eff_" : String) ≠ "C7eff_" by decide), hne _ _ (show ("C8eff_" : String) ≠ "C5_" by decide), if_true, if_false]
  have v2 : vecP (fun n => if n = "C7eff_" ++ ("b" ++ q) then (t : ℂ) else if n = "C5_" ++ ("b" ++ q) then ((-34 * t : ℝ) : ℂ) else 0) ("b" ++ q) = fun _ => 0 := by
    funext i
    simp only [vecP, hne _ _ (show ("C1p_" : String) ≠ "C7eff_" by decide), hne _ _ (show ("C1p_" : String) ≠ "C5_" by decide),
      hne _ _ (show ("C2p_" : String) ≠ "C7eff_" by decide), hne _ _ (show ("C2p_" : String) ≠ "C5_" by decide),
      hne _ _ (show ("C3p_" : String) ≠ "C7eff_" by decide), hne _ _ (show ("C3p_" : String) ≠ "C5_" by decide),
      hne _ _ (show ("C4p_" : String) ≠ "C7eff_" by decide), hne _ _ (show ("C4p_" : String) ≠ "C5_" by decide),
      hne _ _ (show ("C5p_" : String) ≠ "C7eff_" by decide), hne _ _ (show ("C5p_" : String) ≠ "C5_" by decide),
      hne _ _ (show ("C6p_" : String) ≠ "C7eff_" by decide), hne _ _ (show ("C6p_" : String) ≠ "C5_" by decide),
      hne _ _ (show ("C7effp_" : String) ≠ "C7eff_" by decide), hne _ _ (show ("C7effp_" : String) ≠ "C5_" by decide),
      hne _ _ (show ("C8effp_" : String) ≠ "C7eff_" by decide), hne _ _ (show ("C8effp_" : String) ≠ "C5_" by decide), if_true, if_false]
    fin_cases i <;> rfl
  rw [v1, v2, ← hP]
  have q0 : ∀ K, quad K (fun _ => 0) = 0 := by intro K; simp [quad]
  have q1 : quad ka1r ![0, 0, 0, 0, ((-34 * t : ℝ) : ℂ), 0, (t : ℂ), 0] = ((t ^ 2 * (3.54919 * 34 ^ 2 - 2 * 34 * 122.732 + 5.61819) : ℝ) : ℂ) := by
    simp only [quad, Fin.sum_univ_eight]
    have c34 : conj (34 : ℂ) = 34 := by rw [show (34 : ℂ) = ((34 : ℝ) : ℂ) by norm_num, Complex.conj_ofReal]
    simp [ka1r, c34]
    ring
  have q2 : quad ka2r ![0, 0, 0, 0, ((-34 * t : ℝ) : ℂ), 0, (t : ℂ), 0] = ((t ^ 2 * (-37.3173) : ℝ) : ℂ) := by
    simp only [quad, Fin.sum_univ_eight]
    have c34 : conj (34 : ℂ) = 34 := by rw [show (34 : ℂ) = ((34 : ℝ) : ℂ) by norm_num, Complex.conj_ofReal]
    simp [ka2r, c34]
    ring
  rw [q0, q0, q1, q2]
  simp only [hne _ _ (show ("C7effp_" : String) ≠ "C7eff_" by decide), hne _ _ (show ("C7effp_" : String) ≠ "C5_" by decide)]
  simp only [if_true, if_false, Complex.ofReal_re, ite_true, ite_false, reduceIte, Complex.norm_real, norm_zero, Complex.zero_re, mul_zero, add_zero, Real.norm_eq_abs, sq_abs]
  have hb : -|bound| ≤ bound := neg_abs_le bound
  have hp : P ≤ |P| := le_abs_self P
  have k1 : a * (t ^ 2 * (3.54919 * 34 ^ 2 - 2 * 34 * 122.732 + 5.61819)) ≤ -4 * t ^ 2 := by
    have : 1 / 1000 * t ^ 2 ≤ a * t ^ 2 := mul_le_mul_of_nonneg_right ha (sq_nonneg t)
    norm_num; nlinarith only [this, sq_nonneg t]
  have k2 : a ^ 2 * (t ^ 2 * (-37.3173)) ≤ 0 := by
    have : 0 ≤ a ^ 2 * t ^ 2 := by positivity
    norm_num; nlinarith only [this]
  have k3 : t ≤ t ^ 2 := by nlinarith only [ht0]
  norm_num at *
  nlinarith only [k1, k2, k3, ht, hb, hp, ht0]

/-- The three observables: `X_s` and `X_d` rates with their own coefficients, CKM factor and uncertainty parameter. -/
theorem C123_registry (d : Inp) :
    (registry d).map (·.1) = ["BR(B->Xsgamma)", "BR(B->Xdgamma)", "ACP(B->Xgamma)"]
    ∧ (∀ q ∈ ["s", "d"], ∃ P, peBR d.a (d.wc ("b" ++ q)) (d.xiu ("b" ++ q) / d.xit ("b" ++ q)) q 1.6 = .ok P
        ∧ (registry d).lookup ("BR(B->X" ++ q ++ "gamma)") = some (.ok (d.par "BR(B->Xcenu)_exp" * ‖d.xit ("b" ++ q)‖ ^ 2 / ‖d.Vcb‖ ^ 2 * 6 * (1 / 137.035999139) / Real.pi / d.par "C_BXlnu"
          * (P + 0.00381745 + 0.1249 * d.par ("delta_BX" ++ q ++ "gamma"))))) := by
  refine ⟨rfl, ?_⟩
  intro q hq
  obtain ⟨P, hP⟩ := pe_ok d.a (d.wc ("b" ++ q)) (d.xiu ("b" ++ q) / d.xit ("b" ++ q)) q
  refine ⟨P, hP, ?_⟩
  have L : (registry d).lookup ("BR(B->X" ++ q ++ "gamma)") = some (br d q 1.6) := by
    simp only [List.mem_cons, List.not_mem_nil, or_false] at hq
    rcases hq with rfl | rfl <;> rfl
  rw [L]
  have hP' : peBR d.a (d.wc ("b" ++ q)) (d.ru q) q 1.6 = .ok P := hP
  simp only [br, hP', Bind.bind, Except.bind, pure, Except.pure]

/-- A concrete non-trivial case: only `C7` in `b → s`, at leading order. -/
example : peBR 0 (fun n => if n = "C7eff_bs" then 2 else 0) 0 "s" 1.6 = .ok 4 := by
  rw [(C123_leading_order _ "s").1]
  simp; norm_num

end Verif.Xgamma
