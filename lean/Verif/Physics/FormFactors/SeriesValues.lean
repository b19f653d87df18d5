import Verif.Physics.FormFactors.SeriesV
/-!
# Values of the series parametrisations (C104)

For a dictionary in which every parameter has a value, the form factors are the published series, with the parameters, meson masses and resonance
masses of the transition.
-/
set_option linter.unusedVariables false
set_option linter.unusedSimpArgs false
namespace Verif.FormFactors
open Verif.Py Verif.Running Verif.Bll Verif.Angular

/-! ## Specification -/

/-- A parameter dictionary without missing entries. (Specification.) -/
def full (v : String → ℝ) : Par := fun k => some (v k)

/-- The factor of a resonance of mass `m` (none for `m = 0`). (Specification.) -/
noncomputable def resonance (m q2 : ℝ) : ℝ := if m = 0 then 1 else 1 / (1 - q2 / m ^ 2)

/-- A polynomial with `n` coefficients. (Specification.) -/
noncomputable def poly (n : ℕ) (c : ℕ → ℝ) (x : ℝ) : ℝ := ∑ j ∈ Finset.range n, c j * x ^ j

/-- The conformal variable that vanishes at `t0`. (Specification.) -/
noncomputable def zVar (mB mM t0 q2 : ℝ) : ℝ := conformal ((mB + mM) ^ 2) t0 q2

/-- `z(q²) - z(0)` for the optimal `t0`. (Specification.) -/
noncomputable def zDiff (mB mM q2 : ℝ) : ℝ :=
  zVar mB mM (tOpt ((mB - mM) ^ 2) ((mB + mM) ^ 2)) q2 - zVar mB mM (tOpt ((mB - mM) ^ 2) ((mB + mM) ^ 2)) 0

/-- The transitions to a pseudoscalar: name, initial and final meson. (Specification.) -/
def transitionsP : List (String × String × String) :=
  [("B->K", "B0", "K0"), ("Bs->K", "Bs", "K+"), ("B->D", "B+", "D0"), ("B->pi", "B+", "pi0")]
/-- The transitions of `D` mesons. (Specification.) -/
def transitionsD : List (String × String × String) := [("D->K", "D0", "K+"), ("D->pi", "D0", "pi+")]
/-- The transitions to a vector. (Specification.) -/
def transitionsV : List (String × String × String) :=
  [("B->K*", "B0", "K*0"), ("B->rho", "B0", "rho0"), ("B->omega", "B0", "omega"), ("Bs->phi", "Bs", "phi"), ("Bs->K*", "Bs", "K*0"),
   ("B->D*", "B0", "D*0")]
/-- The transitions with a simplified series expansion and the masses of the `0⁻`, `1⁻`, `1⁺` resonances. (Specification.) -/
noncomputable def transitionsSSE : List (String × String × String × ℝ × ℝ × ℝ) :=
  [("B->K*", "B0", "K*0", 5.366, 5.414, 5.829), ("Bs->phi", "Bs", "phi", 5.366, 5.414, 5.829), ("Bs->K*", "Bs", "K*0", 5.279, 5.324, 5.716)]

/-! ## Lemmas -/

theorem full_get (v : String → ℝ) (k : String) : (full v).get k = .ok (v k) := rfl

theorem pole_val {m q2 : ℝ} (h : q2 ≠ m ^ 2 ∨ m = 0) : pole m q2 = .ok (resonance m q2) := by
  unfold pole resonance
  by_cases hm : m = 0
  · rw [if_pos hm, if_pos hm]
  · rw [if_neg hm, if_neg hm, Mixing.pyDiv_ne]
    intro h0
    have h1 : q2 / m ^ 2 = 1 := by linarith
    rw [div_eq_one_iff_eq (pow_ne_zero 2 hm)] at h1
    exact h.elim (fun h => h h1) hm

theorem poleV_val {m q2 : ℝ} (hm : m ≠ 0) (h : q2 ≠ m ^ 2) : poleV m q2 = .ok (resonance m q2) := by
  unfold poleV
  rw [Mixing.pyDiv_ne (pow_ne_zero 2 hm), fok]
  have := pole_val (m := m) (q2 := q2) (.inl h)
  unfold pole at this
  rwa [if_neg hm] at this

theorem dot_poly (n : ℕ) (hn : n ≤ 3) (f : ℕ → ℝ) (x : ℝ) :
    dot ((List.range n).map f) ([1, x, x ^ 2].take n) = .ok (poly n f x) := by
  unfold dot poly
  rw [if_pos (by simp; omega)]
  interval_cases n
  · rfl
  · simp [List.range_succ]
  · simp [List.range_succ, Finset.sum_range_succ]
  · simp [List.range_succ, Finset.sum_range_succ]; ring

theorem zsBSZ_val {mB mM q2 : ℝ} (hB : 0 < mB) (hM : 0 < mM) (hq : q2 ≤ (mB + mM) ^ 2) :
    zsBSZ mB mM q2 .none = .ok [1, zDiff mB mM q2, zDiff mB mM q2 ^ 2] := by
  unfold zsBSZ
  rw [z_eq hB hM .none (tOpt_lt hB hM) hq, fok, z_eq hB hM .none (tOpt_lt hB hM) (by positivity), fok]
  rfl

theorem zsSSE_val {mB mM q2 t0 : ℝ} (hB : 0 < mB) (hM : 0 < mM) (h0 : t0 < (mB + mM) ^ 2) (hq : q2 ≤ (mB + mM) ^ 2) :
    zsSSE mB mM q2 t0 = .ok [1, zVar mB mM t0 q2, zVar mB mM t0 q2 ^ 2] := by
  unfold zsSSE
  rw [z_eq hB hM (.num t0) h0 hq, fok]
  rfl

theorem bszTerm_val {m mB mM q2 : ℝ} (hB : 0 < mB) (hM : 0 < mM) (hq : q2 ≤ (mB + mM) ^ 2) (hm : q2 ≠ m ^ 2 ∨ m = 0) (n : ℕ) (hn : n ≤ 3)
    (f : ℕ → ℝ) :
    bszTerm m mB mM ((List.range n).map f) q2 n .none = .ok (resonance m q2 * poly n f (zDiff mB mM q2)) := by
  unfold bszTerm
  rw [pole_val hm, fok, zsBSZ_val hB hM hq, fok, dot_poly n hn, fok]
  rfl

theorem bszVTerm_val {par : Par} {pre i : String} {m mB mM q2 : ℝ} (hB : 0 < mB) (hM : 0 < mM) (hq : q2 ≤ (mB + mM) ^ 2) (hm : m ≠ 0)
    (hr : q2 ≠ m ^ 2) (n : ℕ) (hn : n ≤ 3) (f : ℕ → ℝ) (hf : ∀ j < n, par (pre ++ " a" ++ toString j ++ "_" ++ i) = some (f j)) :
    bszVTerm par pre i m mB mM q2 n = .ok (resonance m q2 * poly n f (zDiff mB mM q2)) := by
  unfold bszVTerm
  rw [coeffs_of f (fun j hj => hf j (List.mem_range.1 hj)), fok, poleV_val hm hr, fok, zsBSZ_val hB hM hq, fok, dot_poly n hn, fok]
  rfl

theorem lambdabTerm_val {par : Par} {pre i : String} {m mB mM t0 q2 : ℝ} (hB : 0 < mB) (hM : 0 < mM) (h0 : t0 < (mB + mM) ^ 2)
    (hq : q2 ≤ (mB + mM) ^ 2) (hm : m ≠ 0)
    (hr : q2 ≠ m ^ 2) (n : ℕ) (hn : n ≤ 3) (f : ℕ → ℝ) (hf : ∀ j < n, par (pre ++ " a" ++ toString j ++ "_" ++ i) = some (f j)) :
    lambdabTerm par pre i m mB mM t0 q2 n = .ok (resonance m q2 * poly n f (zVar mB mM t0 q2)) := by
  unfold lambdabTerm
  rw [coeffs_of f (fun j hj => hf j (List.mem_range.1 hj)), fok, poleV_val hm hr, fok, zsSSE_val hB hM h0 hq, fok, dot_poly n hn, fok]
  rfl

theorem coeffsSSE_full (v : String → ℝ) (pre : String) (l : List ℕ) :
    coeffsSSE (full v) pre l = .ok (l.map fun j => v (pre ++ "_a" ++ toString j)) := by
  induction l with
  | nil => rfl
  | cons j l ih =>
    show ((full v).get _ >>= _) = _
    rw [full_get, fok, ih]
    rfl

theorem coeffsB_full (v : String → ℝ) (pre : String) (l : List ℕ) :
    coeffsB (full v) pre l = .ok (l.map fun j => v (pre ++ "^" ++ toString j)) := by
  induction l with
  | nil => rfl
  | cons j l ih =>
    show ((full v).get _ >>= _) = _
    rw [full_get, fok, ih]
    rfl

theorem sseTerm_val {v : String → ℝ} {pre : String} {m mB mM q2 : ℝ} (hB : 0 < mB) (hM : 0 < mM) (h0 : 12 < (mB + mM) ^ 2)
    (hq : q2 ≤ (mB + mM) ^ 2) (hm : m ≠ 0) (hr : q2 ≠ m ^ 2) (n : ℕ) (hn : n ≤ 3) :
    sseTerm (full v) pre m mB mM q2 n
      = .ok (resonance m q2 * poly n (fun j => v (pre ++ "_a" ++ toString j)) (zVar mB mM 12 q2)) := by
  unfold sseTerm
  rw [coeffsSSE_full, fok, poleV_val hm hr, fok, zsSSE_val hB hM h0 hq, fok, dot_poly n hn, fok]
  rfl

theorem range_cons (n : ℕ) (hn : 0 < n) (f : ℕ → ℝ) (a : ℝ) :
    a :: ((List.range n).drop 1).map f = (List.range n).map (fun j => if j = 0 then a else f j) := by
  obtain ⟨m, rfl⟩ : ∃ m, n = m + 1 := ⟨n - 1, by omega⟩
  rw [List.range_succ_eq_map]
  simp [List.map_map, Function.comp_def]

theorem coeffs_full (v : String → ℝ) (pre i : String) (l : List ℕ) :
    coeffs (full v) pre i l = .ok (l.map fun j => v (pre ++ toString j ++ "_" ++ i)) := coeffs_of _ fun _ _ => rfl

theorem bszFF_val (proc : String → Except PyErr (String × String)) (p B M : String) (hp : proc p = .ok (B, M)) (v : String → ℝ) (q2 : ℝ)
    (n : ℕ) (hn : 0 < n) (hn3 : n ≤ 3) (hB : 0 < v ("m_" ++ B)) (hM : 0 < v ("m_" ++ M)) (hq : q2 ≤ (v ("m_" ++ B) + v ("m_" ++ M)) ^ 2)
    (h1 : q2 ≠ v (p ++ " BCL m+") ^ 2 ∨ v (p ++ " BCL m+") = 0) (h0 : q2 ≠ v (p ++ " BCL m0") ^ 2 ∨ v (p ++ " BCL m0") = 0) :
    bszFF proc p q2 (full v) n .none = .ok
      ⟨resonance (v (p ++ " BCL m+")) q2
          * poly n (fun j => v (p ++ " BSZ a" ++ toString j ++ "_" ++ "f+")) (zDiff (v ("m_" ++ B)) (v ("m_" ++ M)) q2),
        resonance (v (p ++ " BCL m0")) q2
          * poly n (fun j => if j = 0 then v (p ++ " BSZ a0_f+") else v (p ++ " BSZ a" ++ toString j ++ "_" ++ "f0"))
              (zDiff (v ("m_" ++ B)) (v ("m_" ++ M)) q2),
        resonance (v (p ++ " BCL m+")) q2
          * poly n (fun j => v (p ++ " BSZ a" ++ toString j ++ "_" ++ "fT")) (zDiff (v ("m_" ++ B)) (v ("m_" ++ M)) q2)⟩ := by
  unfold bszFF
  rw [hp]
  simp only [fok, full_get, coeffs_full]
  rw [range_cons n hn, bszTerm_val hB hM hq h1 n hn3, fok, bszTerm_val hB hM hq h1 n hn3, fok, bszTerm_val hB hM hq h0 n hn3, fok]
  rfl

/-! ## Properties -/

/-- **C104 (values of BSZ)** For each transition to a pseudoscalar meson, up to the pair threshold and away from the resonances, the
form factors with `n ≤ 3` terms are `resonance × polynomial in z(q²) - z(0)`; the coefficients are the parameters `<transition> BSZ a<j>_<form factor>` (the
first one of `f0` is that of `f+`), the resonance masses `<transition> BCL m+` and `m0`, and the meson masses those of the table. -/
theorem C104_bsz_values (v : String → ℝ) (q2 : ℝ) (n : ℕ) (hn : 0 < n) (hn3 : n ≤ 3) (t : String × String × String)
    (hB : 0 < v ("m_" ++ t.2.1)) (hM : 0 < v ("m_" ++ t.2.2)) (hq : q2 ≤ (v ("m_" ++ t.2.1) + v ("m_" ++ t.2.2)) ^ 2)
    (h1 : q2 ≠ v (t.1 ++ " BCL m+") ^ 2 ∨ v (t.1 ++ " BCL m+") = 0) (h0 : q2 ≠ v (t.1 ++ " BCL m0") ^ 2 ∨ v (t.1 ++ " BCL m0") = 0) :
    let x := zDiff (v ("m_" ++ t.2.1)) (v ("m_" ++ t.2.2)) q2
    let F : FFP := ⟨resonance (v (t.1 ++ " BCL m+")) q2 * poly n (fun j => v (t.1 ++ " BSZ a" ++ toString j ++ "_f+")) x,
      resonance (v (t.1 ++ " BCL m0")) q2
        * poly n (fun j => v (t.1 ++ " BSZ a" ++ toString j ++ if j = 0 then "_f+" else "_f0")) x,
      resonance (v (t.1 ++ " BCL m+")) q2 * poly n (fun j => v (t.1 ++ " BSZ a" ++ toString j ++ "_fT")) x⟩
    (t ∈ transitionsP → bszFF processP t.1 q2 (full v) n .none = .ok F) ∧
    (t ∈ transitionsD → bszFF processD t.1 q2 (full v) n .none = .ok F) := by
  obtain ⟨p, B, M⟩ := t
  intro x F
  have key : ∀ proc : String → Except PyErr (String × String), proc p = .ok (B, M) → bszFF proc p q2 (full v) n .none = .ok F := by
    intro proc hp
    rw [bszFF_val proc p B M hp v q2 n hn hn3 hB hM hq h1 h0]
    have e : (fun j : ℕ => if j = 0 then v (p ++ " BSZ a0_f+") else v (p ++ " BSZ a" ++ toString j ++ "_" ++ "f0"))
        = fun j : ℕ => v (p ++ " BSZ a" ++ toString j ++ if j = 0 then "_f+" else "_f0") := by
      funext j
      by_cases hj : j = 0
      · subst hj; simp only [if_true]; congr 1; simp only [String.append_assoc]; rfl
      · simp only [if_neg hj]; congr 1; rw [String.append_assoc]; rfl
    have e1 : ∀ i i' : String, "_" ++ i = i' → (fun j : ℕ => v (p ++ " BSZ a" ++ toString j ++ "_" ++ i))
        = fun j : ℕ => v (p ++ " BSZ a" ++ toString j ++ i') := by
      rintro i i' rfl
      funext j; congr 1; rw [String.append_assoc]
    rw [e, e1 "f+" "_f+" rfl, e1 "fT" "_fT" rfl]
  constructor
  · intro h
    apply key
    simp only [transitionsP, List.mem_cons, Prod.mk.injEq, List.not_mem_nil, or_false] at h
    rcases h with ⟨rfl, rfl, rfl⟩ | ⟨rfl, rfl, rfl⟩ | ⟨rfl, rfl, rfl⟩ | ⟨rfl, rfl, rfl⟩ <;> rfl
  · intro h
    apply key
    simp only [transitionsD, List.mem_cons, Prod.mk.injEq, List.not_mem_nil, or_false] at h
    rcases h with ⟨rfl, rfl, rfl⟩ | ⟨rfl, rfl, rfl⟩ <;> rfl

/-- **C104 (values of the simplified series expansion)** The same for the transitions to a vector meson with `SSE` parameters: polynomials in `z` itself with `t0 = 12`. -/
theorem C104_sse_values (v : String → ℝ) (q2 : ℝ) (n : ℕ) (hn3 : n ≤ 3) (t : String × String × String × ℝ × ℝ × ℝ) (ht : t ∈ transitionsSSE)
    (hB : 0 < v ("m_" ++ t.2.1)) (hM : 0 < v ("m_" ++ t.2.2.1)) (h12 : 12 < (v ("m_" ++ t.2.1) + v ("m_" ++ t.2.2.1)) ^ 2)
    (hq : q2 ≤ (v ("m_" ++ t.2.1) + v ("m_" ++ t.2.2.1)) ^ 2)
    (h0 : q2 ≠ t.2.2.2.1 ^ 2) (h1 : q2 ≠ t.2.2.2.2.1 ^ 2) (h1' : q2 ≠ t.2.2.2.2.2 ^ 2) :
    let S := fun (i : String) (m : ℝ) =>
      resonance m q2 * poly n (fun j => v (t.1 ++ " SSE " ++ i ++ "_a" ++ toString j)) (zVar (v ("m_" ++ t.2.1)) (v ("m_" ++ t.2.2.1)) 12 q2)
    sseFF t.1 q2 (full v) n = .ok
      { A0 := S "a0" t.2.2.2.1, A1 := S "a1" t.2.2.2.2.2, A12 := S "a12" t.2.2.2.2.2, V := S "v" t.2.2.2.2.1, T1 := S "t1" t.2.2.2.2.1,
        T2 := S "t2" t.2.2.2.2.2, T23 := S "t23" t.2.2.2.2.2 } := by
  intro S
  obtain ⟨p, B, M, m0, m1, m1'⟩ := t
  have hp : processSSE p = .ok (B, M, m0, m1, m1') ∧ m0 ≠ 0 ∧ m1 ≠ 0 ∧ m1' ≠ 0 := by
    simp only [transitionsSSE, List.mem_cons, Prod.mk.injEq, List.not_mem_nil, or_false] at ht
    rcases ht with ⟨rfl, rfl, rfl, rfl, rfl, rfl⟩ | ⟨rfl, rfl, rfl, rfl, rfl, rfl⟩ | ⟨rfl, rfl, rfl, rfl, rfl, rfl⟩ <;>
      exact ⟨rfl, by norm_num, by norm_num, by norm_num⟩
  obtain ⟨hp, n0, n1, n1'⟩ := hp
  have key : ∀ (i i' : String) (m : ℝ), " SSE " ++ i = i' → m ≠ 0 → q2 ≠ m ^ 2 →
      sseTerm (full v) (p ++ i') m (v ("m_" ++ B)) (v ("m_" ++ M)) q2 n = .ok (S i m) := by
    rintro i i' m rfl hm hr
    rw [sseTerm_val hB hM h12 hq hm hr n hn3]
    simp only [S, String.append_assoc]
  unfold sseFF
  rw [hp]
  simp only [fok, full_get]
  rw [key "a0" " SSE a0" m0 rfl n0 h0, fok, key "a1" " SSE a1" m1' rfl n1' h1', fok, key "a12" " SSE a12" m1' rfl n1' h1', fok,
    key "v" " SSE v" m1 rfl n1 h1, fok, key "t1" " SSE t1" m1 rfl n1 h1, fok, key "t2" " SSE t2" m1' rfl n1' h1', fok,
    key "t23" " SSE t23" m1' rfl n1' h1', fok]
  rfl

/-- **C104 (values of BSZ for vectors)** The same for the transitions to a vector meson; the first coefficient of `A12` is `a0_A0 (mB² - mV²)/(8 mB mV)`, that
of `T2` is `a0_T1`. -/
theorem C104_bszV_values (v : String → ℝ) (q2 : ℝ) (n : ℕ) (hn3 : n ≤ 3) (t : String × String × String) (ht : t ∈ transitionsV)
    (hV : 0 < v ("m_" ++ t.2.2)) (hBV : v ("m_" ++ t.2.2) < v ("m_" ++ t.2.1)) (hq : q2 ≤ (v ("m_" ++ t.2.1) + v ("m_" ++ t.2.2)) ^ 2)
    (hm : ∀ r ∈ ["m0", "m1-", "m1+"], v (t.1 ++ " BCL " ++ r) ≠ 0 ∧ q2 ≠ v (t.1 ++ " BCL " ++ r) ^ 2) :
    let mB := v ("m_" ++ t.2.1)
    let mV := v ("m_" ++ t.2.2)
    let a := fun (i : String) (j : ℕ) => v (t.1 ++ " BSZ a" ++ toString j ++ "_" ++ i)
    let S := fun (r : String) (c : ℕ → ℝ) => resonance (v (t.1 ++ " BCL " ++ r)) q2 * poly n c (zDiff mB mV q2)
    ∃ par', bszVFF t.1 q2 (full v) n = .ok
      ({ A0 := S "m0" (a "A0"), A1 := S "m1+" (a "A1"),
         A12 := S "m1+" (fun j => if j = 0 then a "A0" 0 * (mB ^ 2 - mV ^ 2) / (8 * mB * mV) else a "A12" j),
         V := S "m1-" (a "V"), T1 := S "m1-" (a "T1"), T2 := S "m1+" (fun j => if j = 0 then a "T1" 0 else a "T2" j),
         T23 := S "m1+" (a "T23") }, par') := by
  obtain ⟨p, B, M⟩ := t
  intro mB mV a S
  have hp : processV p = .ok (B, M) := by
    simp only [transitionsV, List.mem_cons, Prod.mk.injEq, List.not_mem_nil, or_false] at ht
    rcases ht with ⟨rfl, rfl, rfl⟩ | ⟨rfl, rfl, rfl⟩ | ⟨rfl, rfl, rfl⟩ | ⟨rfl, rfl, rfl⟩ | ⟨rfl, rfl, rfl⟩ | ⟨rfl, rfl, rfl⟩ <;> rfl
  have hB : 0 < mB := hV.trans hBV
  have hM : 0 < mV := hV
  have hlt : mV < mB := hBV
  have d0 : mB ^ 2 - mV ^ 2 ≠ 0 := by have : mV ^ 2 < mB ^ 2 := by nlinarith
                                      linarith
  have a0 : v (p ++ " BSZ" ++ " a0_A0") = a "A0" 0 := by
    show _ = v (p ++ " BSZ a" ++ "0" ++ "_" ++ "A0")
    congr 1; simp only [String.append_assoc]; rfl
  have t0 : v (p ++ " BSZ" ++ " a0_T1") = a "T1" 0 := by
    show _ = v (p ++ " BSZ a" ++ "0" ++ "_" ++ "T1")
    congr 1; simp only [String.append_assoc]; rfl
  have ne : p ++ " BSZ" ++ " a0_T1" ≠ p ++ " BSZ" ++ " a0_A12" := by simp [String.append_assoc]
  obtain ⟨par', hpar, hA, hT, hO⟩ : ∃ par', bszVPar (full v) (p ++ " BSZ") mB mV = .ok par' ∧
      par' (p ++ " BSZ" ++ " a0_A12") = some (a "A0" 0 * (mB ^ 2 - mV ^ 2) / (8 * mB * mV)) ∧
      par' (p ++ " BSZ" ++ " a0_T2") = some (a "T1" 0) ∧
      ∀ k, k ≠ p ++ " BSZ" ++ " a0_A12" → k ≠ p ++ " BSZ" ++ " a0_T2" → par' k = some (v k) := by
    refine ⟨((full v).put (p ++ " BSZ" ++ " a0_A12") (a "A0" 0 * (mB ^ 2 - mV ^ 2) / (8 * mB * mV))).put (p ++ " BSZ" ++ " a0_T2") (a "T1" 0),
      ?_, ?_, put_same _ _ _, ?_⟩
    · unfold bszVPar
      rw [full_get, fok, Mixing.pyDiv_ne d0, fok, Mixing.pyDiv_ne (div_ne_zero (by positivity) d0), fok]
      show (Par.get _ _ >>= _) = _
      rw [get_of (v := a "T1" 0) (by rw [put_ne _ _ ne]; show some _ = _; rw [t0]), fok, a0]
      rw [show a "A0" 0 / (8 * mB * mV / (mB ^ 2 - mV ^ 2)) = a "A0" 0 * (mB ^ 2 - mV ^ 2) / (8 * mB * mV) by
        field_simp]
      rfl
    · rw [put_ne _ _ (by simp [String.append_assoc]), put_same]
    · intro k k1 k2
      rw [put_ne _ _ k2, put_ne _ _ k1]; rfl
  have h3 : ∀ j < n, j = 0 ∨ j = 1 ∨ j = 2 := by intro j hj; omega
  have term : ∀ (i r : String) (c : ℕ → ℝ), r ∈ ["m0", "m1-", "m1+"] →
      (∀ j < n, par' (p ++ " BSZ" ++ " a" ++ toString j ++ "_" ++ i) = some (c j)) →
      bszVTerm par' (p ++ " BSZ") i (v (p ++ " BCL " ++ r)) mB mV q2 n = .ok (S r c) := by
    intro i r c hr hc
    exact bszVTerm_val hB hM hq (hm r hr).1 (hm r hr).2 n hn3 c hc
  have nm : ∀ (i : String) (j : ℕ), p ++ " BSZ" ++ " a" ++ toString j ++ "_" ++ i = p ++ " BSZ a" ++ toString j ++ "_" ++ i := by
    intro i j; simp only [String.append_assoc]; rfl
  have plain : ∀ i, i = "A0" ∨ i = "A1" ∨ i = "V" ∨ i = "T1" ∨ i = "T23" → ∀ j < n,
      par' (p ++ " BSZ" ++ " a" ++ toString j ++ "_" ++ i) = some (a i j) := by
    intro i hi j hj
    rw [hO _ ?_ ?_, nm]
    · rcases hi with rfl | rfl | rfl | rfl | rfl <;> rcases h3 j hj with rfl | rfl | rfl <;>
        simp [String.append_assoc, repr0, repr1, repr2]
    · rcases hi with rfl | rfl | rfl | rfl | rfl <;> rcases h3 j hj with rfl | rfl | rfl <;>
        simp [String.append_assoc, repr0, repr1, repr2]
  have A12 : ∀ j < n, par' (p ++ " BSZ" ++ " a" ++ toString j ++ "_" ++ "A12")
      = some (if j = 0 then a "A0" 0 * (mB ^ 2 - mV ^ 2) / (8 * mB * mV) else a "A12" j) := by
    intro j hj
    by_cases h : j = 0
    · subst h
      rw [if_pos rfl, ← hA]; congr 1; simp only [String.append_assoc]; rfl
    · rw [if_neg h, hO _ ?_ ?_, nm]
      · rcases h3 j hj with rfl | rfl | rfl
        · exact absurd rfl h
        all_goals simp [String.append_assoc, repr0, repr1, repr2]
      · rcases h3 j hj with rfl | rfl | rfl <;> simp [String.append_assoc, repr0, repr1, repr2]
  have T2 : ∀ j < n, par' (p ++ " BSZ" ++ " a" ++ toString j ++ "_" ++ "T2") = some (if j = 0 then a "T1" 0 else a "T2" j) := by
    intro j hj
    by_cases h : j = 0
    · subst h
      rw [if_pos rfl, ← hT]; congr 1; simp only [String.append_assoc]; rfl
    · rw [if_neg h, hO _ ?_ ?_, nm]
      · rcases h3 j hj with rfl | rfl | rfl <;> simp [String.append_assoc, repr0, repr1, repr2]
      · rcases h3 j hj with rfl | rfl | rfl
        · exact absurd rfl h
        all_goals simp [String.append_assoc, repr0, repr1, repr2]
  refine ⟨par', ?_⟩
  have e0 : p ++ " BCL " ++ "m0" = p ++ " BCL m0" := by rw [String.append_assoc]; rfl
  have e1 : p ++ " BCL " ++ "m1-" = p ++ " BCL m1-" := by rw [String.append_assoc]; rfl
  have e2 : p ++ " BCL " ++ "m1+" = p ++ " BCL m1+" := by rw [String.append_assoc]; rfl
  have term0 := fun i c => term i "m0" c (by simp)
  have term1 := fun i c => term i "m1-" c (by simp)
  have term2 := fun i c => term i "m1+" c (by simp)
  rw [e0] at term0
  rw [e1] at term1
  rw [e2] at term2
  unfold bszVFF
  rw [hp]
  simp only [fok, full_get]
  show (bszVPar (full v) (p ++ " BSZ") mB mV >>= _) = _
  rw [hpar, fok]
  rw [show bszVTerm par' (p ++ " BSZ") "A0" (v (p ++ " BCL m0")) (v ("m_" ++ B)) (v ("m_" ++ M)) q2 n = _ from term0 "A0" _ (plain _ (.inl rfl)), fok,
    show bszVTerm par' (p ++ " BSZ") "A1" (v (p ++ " BCL m1+")) (v ("m_" ++ B)) (v ("m_" ++ M)) q2 n = _ from term2 "A1" _ (plain _ (.inr (.inl rfl))), fok,
    show bszVTerm par' (p ++ " BSZ") "A12" (v (p ++ " BCL m1+")) (v ("m_" ++ B)) (v ("m_" ++ M)) q2 n = _ from term2 "A12" _ A12, fok,
    show bszVTerm par' (p ++ " BSZ") "V" (v (p ++ " BCL m1-")) (v ("m_" ++ B)) (v ("m_" ++ M)) q2 n = _ from
      term1 "V" _ (plain _ (.inr (.inr (.inl rfl)))), fok,
    show bszVTerm par' (p ++ " BSZ") "T1" (v (p ++ " BCL m1-")) (v ("m_" ++ B)) (v ("m_" ++ M)) q2 n = _ from
      term1 "T1" _ (plain _ (.inr (.inr (.inr (.inl rfl))))), fok,
    show bszVTerm par' (p ++ " BSZ") "T2" (v (p ++ " BCL m1+")) (v ("m_" ++ B)) (v ("m_" ++ M)) q2 n = _ from term2 "T2" _ T2, fok,
    show bszVTerm par' (p ++ " BSZ") "T23" (v (p ++ " BCL m1+")) (v ("m_" ++ B)) (v ("m_" ++ M)) q2 n = _ from
      term2 "T23" _ (plain _ (.inr (.inr (.inr (.inr rfl))))), fok]
  rfl

/-- **C104 (values for Λb)** The ten `Λb → Λ` form factors with `n ≤ 3` terms: `resonance × polynomial in z`, `z` with the threshold of the pair `B K` and
vanishing at `q² = (m_Λb - m_Λ)²`; the first coefficients of `fAperp` and `fT5perp` are those of `fA0` and `fT50`. -/
theorem C104_lambdab_values (v : String → ℝ) (q2 : ℝ) (n : ℕ) (hn3 : n ≤ 3) (hB : 0 < v "m_B+") (hK : 0 < v "m_K+")
    (h0 : (v "m_Lambdab" - v "m_Lambda") ^ 2 < (v "m_B+" + v "m_K+") ^ 2) (hq : q2 ≤ (v "m_B+" + v "m_K+") ^ 2)
    (hr : ∀ m ∈ [(5.367:ℝ), 5.416, 5.711, 5.750], q2 ≠ m ^ 2) :
    let a := fun (i : String) (j : ℕ) => v ("Lambdab->Lambda SSE a" ++ toString j ++ "_" ++ i)
    let S := fun (m : ℝ) (c : ℕ → ℝ) => resonance m q2 * poly n c (zVar (v "m_B+") (v "m_K+") ((v "m_Lambdab" - v "m_Lambda") ^ 2) q2)
    ∃ par', lambdabFF "Lambdab->Lambda" q2 (full v) n = .ok
      ({ fA0 := S 5.750 (a "fA0"), fAperp := S 5.750 (fun j => if j = 0 then a "fA0" 0 else a "fAperp" j), fAt := S 5.367 (a "fAt"),
         fT0 := S 5.416 (a "fT0"), fT50 := S 5.750 (a "fT50"), fT5perp := S 5.750 (fun j => if j = 0 then a "fT50" 0 else a "fT5perp" j),
         fTperp := S 5.416 (a "fTperp"), fV0 := S 5.416 (a "fV0"), fVperp := S 5.416 (a "fVperp"), fVt := S 5.711 (a "fVt") }, par') := by
  intro a S
  obtain ⟨par', hpar⟩ : ∃ par' : Par, par' = ((full v).put "Lambdab->Lambda SSE a0_fAperp" (a "fA0" 0)).put "Lambdab->Lambda SSE a0_fT5perp" (a "fT50" 0) :=
    ⟨_, rfl⟩
  have hA : par' "Lambdab->Lambda SSE a0_fAperp" = some (a "fA0" 0) := by rw [hpar, put_ne _ _ (by decide), put_same]
  have hT : par' "Lambdab->Lambda SSE a0_fT5perp" = some (a "fT50" 0) := by rw [hpar, put_same]
  have hO : ∀ k, k ≠ "Lambdab->Lambda SSE a0_fAperp" → k ≠ "Lambdab->Lambda SSE a0_fT5perp" → par' k = some (v k) := by
    intro k k1 k2; rw [hpar, put_ne _ _ k2, put_ne _ _ k1]; rfl
  have h3 : ∀ j < n, j = 0 ∨ j = 1 ∨ j = 2 := by intro j hj; omega
  have plain : ∀ i, i ∈ ["fA0", "fAt", "fT0", "fT50", "fTperp", "fV0", "fVperp", "fVt"] → ∀ j < n,
      par' ("Lambdab->Lambda SSE" ++ " a" ++ toString j ++ "_" ++ i) = some (a i j) := by
    intro i hi j hj
    simp only [List.mem_cons, List.not_mem_nil, or_false] at hi
    rcases hi with rfl | rfl | rfl | rfl | rfl | rfl | rfl | rfl <;> rcases h3 j hj with rfl | rfl | rfl <;>
      exact hO _ (by decide) (by decide)
  have pA : ∀ j < n, par' ("Lambdab->Lambda SSE" ++ " a" ++ toString j ++ "_" ++ "fAperp") = some (if j = 0 then a "fA0" 0 else a "fAperp" j) := by
    intro j hj
    rcases h3 j hj with rfl | rfl | rfl
    · exact hA
    · exact hO _ (by decide) (by decide)
    · exact hO _ (by decide) (by decide)
  have pT : ∀ j < n, par' ("Lambdab->Lambda SSE" ++ " a" ++ toString j ++ "_" ++ "fT5perp") = some (if j = 0 then a "fT50" 0 else a "fT5perp" j) := by
    intro j hj
    rcases h3 j hj with rfl | rfl | rfl
    · exact hT
    · exact hO _ (by decide) (by decide)
    · exact hO _ (by decide) (by decide)
  have term : ∀ (i : String) (m : ℝ) (c : ℕ → ℝ), m ∈ [(5.367:ℝ), 5.416, 5.711, 5.750] →
      (∀ j < n, par' ("Lambdab->Lambda SSE" ++ " a" ++ toString j ++ "_" ++ i) = some (c j)) →
      lambdabTerm par' "Lambdab->Lambda SSE" i m (v "m_B+") (v "m_K+") ((v "m_Lambdab" - v "m_Lambda") ^ 2) q2 n = .ok (S m c) := by
    intro i m c hm hc
    have m0 : m ≠ 0 := by
      simp only [List.mem_cons, List.not_mem_nil, or_false] at hm
      rcases hm with rfl | rfl | rfl | rfl <;> norm_num
    exact lambdabTerm_val hB hK h0 hq m0 (hr m hm) n hn3 c hc
  refine ⟨par', ?_⟩
  unfold lambdabFF
  rw [if_pos rfl]
  simp only [fok, full_get]
  have g1 : ((full v).put ("Lambdab->Lambda" ++ " SSE" ++ " a0_fAperp") (v ("Lambdab->Lambda" ++ " SSE" ++ " a0_fA0"))).get ("Lambdab->Lambda" ++ " SSE" ++ " a0_fT50")
      = .ok (a "fT50" 0) := get_of (by rw [put_ne _ _ (by decide)]; rfl)
  rw [g1, fok]
  have e : ((full v).put ("Lambdab->Lambda" ++ " SSE" ++ " a0_fAperp") (v ("Lambdab->Lambda" ++ " SSE" ++ " a0_fA0"))).put ("Lambdab->Lambda" ++ " SSE" ++ " a0_fT5perp") (a "fT50" 0)
      = par' := hpar.symm
  rw [e, get_of (hO "m_Lambdab" (by decide) (by decide)), fok, get_of (hO "m_B+" (by decide) (by decide)), fok]
  have es : "Lambdab->Lambda" ++ " SSE" = "Lambdab->Lambda SSE" := rfl
  rw [es, term "fA0" 5.750 _ (by simp) (plain _ (by simp)), fok, term "fAperp" 5.750 _ (by simp) pA, fok, term "fAt" 5.367 _ (by simp) (plain _ (by simp)), fok,
    term "fT0" 5.416 _ (by simp) (plain _ (by simp)), fok, term "fT50" 5.750 _ (by simp) (plain _ (by simp)), fok, term "fT5perp" 5.750 _ (by simp) pT, fok,
    term "fTperp" 5.416 _ (by simp) (plain _ (by simp)), fok, term "fV0" 5.416 _ (by simp) (plain _ (by simp)), fok,
    term "fVperp" 5.416 _ (by simp) (plain _ (by simp)), fok, term "fVt" 5.711 _ (by simp) (plain _ (by simp)), fok]
  rfl

/-- **C104 (values of LMVD)** `B → π` with the LMVD parametrisation: `f(q²) = resonance × f(0) (1 + Σ b_k (z^k - z(0)^k - (-1)^(k-n) k/n (z^n - z(0)^n)))`, for `f0` without
the last term and with one coefficient more; the parameters are `B->pi BCL f_+(0)`, `B->pi BCL b_+^<k>` etc., the masses `B->pi BCL LMVD m_B+` etc.; any other transition
raises `KeyError`. -/
theorem C104_lmvd_values (v : String → ℝ) (q2 : ℝ) (n : ℕ) (hn : 0 < n) (t0 : T0) (hB : 0 < v "B->pi BCL LMVD m_B+") (hM : 0 < v "B->pi BCL LMVD m_pi0")
    (h0 : t0.val ((v "B->pi BCL LMVD m_B+" - v "B->pi BCL LMVD m_pi0") ^ 2) ((v "B->pi BCL LMVD m_B+" + v "B->pi BCL LMVD m_pi0") ^ 2)
      < (v "B->pi BCL LMVD m_B+" + v "B->pi BCL LMVD m_pi0") ^ 2)
    (hq : q2 ≤ (v "B->pi BCL LMVD m_B+" + v "B->pi BCL LMVD m_pi0") ^ 2)
    (hp : q2 ≠ v "B->pi BCL LMVD m+" ^ 2 ∨ v "B->pi BCL LMVD m+" = 0) (hm0 : q2 ≠ v "B->pi BCL LMVD m0" ^ 2 ∨ v "B->pi BCL LMVD m0" = 0) :
    let tz := t0.val ((v "B->pi BCL LMVD m_B+" - v "B->pi BCL LMVD m_pi0") ^ 2) ((v "B->pi BCL LMVD m_B+" + v "B->pi BCL LMVD m_pi0") ^ 2)
    let Z := zVar (v "B->pi BCL LMVD m_B+") (v "B->pi BCL LMVD m_pi0") tz q2
    let Z0 := zVar (v "B->pi BCL LMVD m_B+") (v "B->pi BCL LMVD m_pi0") tz 0
    let plusT := fun i : String => 1 + ∑ k ∈ Finset.Ico 1 n, v ("B->pi BCL b_" ++ i ++ "^" ++ toString k)
      * (Z ^ k - Z0 ^ k - (-1:ℝ) ^ ((k:ℤ) - (n:ℤ)) * k / n * (Z ^ n - Z0 ^ n))
    lmvdFF "B->pi" q2 (full v) n t0 = .ok
      { fp := resonance (v "B->pi BCL LMVD m+") q2 * (v "B->pi BCL f_+(0)" * plusT "+"),
        f0 := resonance (v "B->pi BCL LMVD m0") q2
          * (v "B->pi BCL f_+(0)" * (1 + ∑ k ∈ Finset.Ico 1 (n + 1), v ("B->pi BCL b_0^" ++ toString k) * (Z ^ k - Z0 ^ k))),
        fT := resonance (v "B->pi BCL LMVD m+") q2 * (v "B->pi BCL f_T(0)" * plusT "T") } ∧
    (∀ process par, process ≠ "B->pi" → lmvdFF process q2 par n t0 = .error .keyError) := by
  intro tz Z Z0 plusT
  have zq : z (v "B->pi BCL LMVD m_B+") (v "B->pi BCL LMVD m_pi0") q2 t0 = .ok Z := z_eq hB hM t0 h0 hq
  have zz : z (v "B->pi BCL LMVD m_B+") (v "B->pi BCL LMVD m_pi0") 0 t0 = .ok Z0 := z_eq hB hM t0 h0 (by positivity)
  have getk : ∀ (m k : ℕ) (c : ℕ → ℝ) (x : ℝ), k ∈ Finset.Ico 1 m → (x :: ((List.range m).drop 1).map c).getD k 0 = c k := by
    intro m k c x hk
    obtain ⟨h1, h2⟩ := Finset.mem_Ico.1 hk
    rw [range_cons m (by omega)]
    rw [List.getD_eq_getElem?_getD, List.getElem?_map, List.getElem?_range h2]
    simp only [Option.map_some, Option.getD_some]
    rw [if_neg (by omega)]
  have len : ∀ (m : ℕ) (c : ℕ → ℝ) (x : ℝ), 0 < m → (x :: ((List.range m).drop 1).map c).length = m := by
    intro m c x hm; rw [range_cons m hm]; simp
  have plus : ∀ (x : ℝ) (c : ℕ → ℝ), lmvdFplusT (v "B->pi BCL LMVD m_B+") (v "B->pi BCL LMVD m_pi0") (x :: ((List.range n).drop 1).map c) q2 t0
      = .ok (x * (1 + ∑ k ∈ Finset.Ico 1 n, c k * (Z ^ k - Z0 ^ k - (-1:ℝ) ^ ((k:ℤ) - (n:ℤ)) * k / n * (Z ^ n - Z0 ^ n)))) := by
    intro x c
    unfold lmvdFplusT
    rw [zq, fok, zz, fok]
    refine congrArg Except.ok ?_
    rw [len n c x hn]
    congr 2
    exact Finset.sum_congr rfl fun k hk => by rw [getk n k c x hk]
  have zero : ∀ (x : ℝ) (c : ℕ → ℝ), lmvdF0 (v "B->pi BCL LMVD m_B+") (v "B->pi BCL LMVD m_pi0") (x :: ((List.range (n + 1)).drop 1).map c) q2 t0
      = .ok (x * (1 + ∑ k ∈ Finset.Ico 1 (n + 1), c k * (Z ^ k - Z0 ^ k))) := by
    intro x c
    unfold lmvdF0
    rw [zq, fok, zz, fok]
    refine congrArg Except.ok ?_
    rw [len (n + 1) c x (by omega)]
    congr 2
    exact Finset.sum_congr rfl fun k hk => by rw [getk (n + 1) k c x hk]
  constructor
  · have pd : processLMVD "B->pi" = .ok ("B+", "pi0") := rfl
    unfold lmvdFF
    rw [pd]
    simp only [fok, full_get, coeffsB_full]
    have s1 : "B->pi" ++ " BCL LMVD m_" ++ "B+" = "B->pi BCL LMVD m_B+" := rfl
    have s2 : "B->pi" ++ " BCL LMVD m_" ++ "pi0" = "B->pi BCL LMVD m_pi0" := rfl
    have s3 : "B->pi" ++ " BCL LMVD m+" = "B->pi BCL LMVD m+" := rfl
    have s4 : "B->pi" ++ " BCL LMVD m0" = "B->pi BCL LMVD m0" := rfl
    rw [s1, s2, s3, s4, pole_val hp, fok, plus, fok, fok, plus, fok, pole_val hm0, fok, zero, fok]
    rfl
  · intro process par h
    unfold lmvdFF processLMVD
    split
    · exact absurd rfl h
    · rfl

/-- The hypotheses of the theorems above are met by the parameters `parGood`-like: every mass 3 or 1, resonances above. -/
example : ∃ v : String → ℝ, 0 < v "m_B0" ∧ 0 < v "m_K0" ∧ v "m_K*0" < v "m_B0" ∧ 12 < (v "m_B0" + v "m_K*0") ^ 2 ∧
    (1:ℝ) ≤ (v "m_B0" + v "m_K0") ^ 2 ∧ (1:ℝ) ≠ v "B->K BCL m+" ^ 2 ∧
    (∀ r ∈ ["m0", "m1-", "m1+"], v ("B->K*" ++ " BCL " ++ r) ≠ 0 ∧ (1:ℝ) ≠ v ("B->K*" ++ " BCL " ++ r) ^ 2) ∧
    (v "m_Lambdab" - v "m_Lambda") ^ 2 < (v "m_B+" + v "m_K+") ^ 2 := by
  refine ⟨fun k => if k = "m_K*0" ∨ k = "m_K0" then 1 else 3, ?_⟩
  simp
  norm_num

end Verif.FormFactors
