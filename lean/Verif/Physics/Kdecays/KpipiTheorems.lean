import Verif.Physics.Kdecays.Kpipi
/-!
# Theorems about `K → ππ` and `ε'/ε` (C112)
-/
set_option linter.unusedVariables false
set_option linter.unusedSimpArgs false
namespace Verif.Kpipi
open Verif.Py Verif.Running Verif.Ckm Complex
local notation "conj" => starRingEnd ℂ

/-! ## Specification -/

/-- The CKM factor `V_qd V_qs*` of the up-type quark `q`. (Specification.) -/
noncomputable def lam (V : Mat) (q : Fin 3) : ℂ := V q 0 * conj (V q 1)

/-- Nothing is divided by zero and the configured scale is the only one implemented. (Specification.) -/
structure Phys (d : Inp) : Prop where
  lamU : lam d.V 0 ≠ 0
  a : d.par "epsp a" ≠ 0
  eps : d.par "eps_K" ≠ 0
  re0 : d.par "ReA0(K->pipi)" ≠ 0
  re2 : d.par "ReA2(K->pipi)" ≠ 0
  om : 1 - d.par "Omegahat_eff" ≠ 0
  scale : d.scale = 1.3

/-- The coefficients `z_j` of the Standard Model as functions of `α_s`. (Specification.) -/
noncomputable def zSM (al : ℝ) : ℕ → ℝ
  | 1 => interp (-0.4036, -0.4092, -0.4150) al
  | 2 => interp (1.2084, 1.2120, 1.2157) al
  | _ => 0

/-- The coefficients `y_j` of the Standard Model as functions of `α_s`. (Specification.) -/
noncomputable def ySM (al : ℝ) : ℕ → ℝ
  | 3 => interp (0.0275, 0.0280, 0.0285) al
  | 4 => interp (-0.0555, -0.0563, -0.0571) al
  | 5 => interp (0.0054, 0.0052, 0.0050) al
  | 6 => interp (-0.0849, -0.0867, -0.0887) al
  | 7 => interp (-0.0404, -0.0403, -0.0402) al / 128
  | 8 => interp (0.1207, 0.1234, 0.1261) al / 128
  | 9 => interp (-1.3936, -1.3981, -1.4027) al / 128
  | 10 => interp (0.4997, 0.5071, 0.5146) al / 128
  | _ => 0

/-- Sum over the ten operators. (Specification.) -/
noncomputable def sum10 (f : ℕ → ℂ) : ℂ := f 1 + f 2 + f 3 + f 4 + f 5 + f 6 + f 7 + f 8 + f 9 + f 10

/-! ## Lemmas -/

theorem mapM_ok {α β : Type} (l : List α) (f : α → Except PyErr β) (g : α → β) (h : ∀ x ∈ l, f x = .ok (g x)) : l.mapM f = .ok (l.map g) := by
  induction l with
  | nil => rfl
  | cons x l ih =>
    rw [List.mapM_cons, h x (by simp), ih (fun y hy => h y (by simp [hy]))]
    rfl

theorem wcFourquark_ok (al : ℝ) : ∃ wc, wcFourquark al 1.3 = .ok wc ∧
    (∀ j ∈ [1, 2, 3, 4, 5, 6, 7, 8, 9, 10], coef wc "z" j = zSM al j ∧ coef wc "y" j = ySM al j) := by
  have z1 : ("z" ++ toString 1 : String) = "z1" := by decide
  have y1 : ("y" ++ toString 1 : String) = "y1" := by decide
  have z2 : ("z" ++ toString 2 : String) = "z2" := by decide
  have y2 : ("y" ++ toString 2 : String) = "y2" := by decide
  have z3 : ("z" ++ toString 3 : String) = "z3" := by decide
  have y3 : ("y" ++ toString 3 : String) = "y3" := by decide
  have z4 : ("z" ++ toString 4 : String) = "z4" := by decide
  have y4 : ("y" ++ toString 4 : String) = "y4" := by decide
  have z5 : ("z" ++ toString 5 : String) = "z5" := by decide
  have y5 : ("y" ++ toString 5 : String) = "y5" := by decide
  have z6 : ("z" ++ toString 6 : String) = "z6" := by decide
  have y6 : ("y" ++ toString 6 : String) = "y6" := by decide
  have z7 : ("z" ++ toString 7 : String) = "z7" := by decide
  have y7 : ("y" ++ toString 7 : String) = "y7" := by decide
  have z8 : ("z" ++ toString 8 : String) = "z8" := by decide
  have y8 : ("y" ++ toString 8 : String) = "y8" := by decide
  have z9 : ("z" ++ toString 9 : String) = "z9" := by decide
  have y9 : ("y" ++ toString 9 : String) = "y9" := by decide
  have z10 : ("z" ++ toString 10 : String) = "z10" := by decide
  have y10 : ("y" ++ toString 10 : String) = "y10" := by decide
  refine ⟨_, by unfold wcFourquark; rw [if_neg (by simp)], ?_⟩
  intro j hj
  simp only [List.mem_cons, List.not_mem_nil, or_false] at hj
  unfold coef
  rcases hj with rfl | rfl | rfl | rfl | rfl | rfl | rfl | rfl | rfl | rfl <;> (
    simp only [z1, y1, z2, y2, z3, y3, z4, y4, z5, y5, z6, y6, z7, y7, z8, y8, z9, y9, z10, y10];
    simp [yz, renamed, rename, Dict.get?, zSM, ySM])

/-- The Standard-Model amplitude computed by the code. -/
theorem ampSM_eq (d : Inp) (H : Phys d) (i : Iso) :
    ampSM d true true false i = .ok (((d.par "GF" / Real.sqrt 2 : ℝ) : ℂ) *
      sum10 (fun j => (meSM d i j : ℂ) * ((zSM (d.par "alpha_s") j : ℂ) * lam d.V 0 - (ySM (d.par "alpha_s") j : ℂ) * lam d.V 2))) := by
  obtain ⟨wc, hw, hc⟩ := wcFourquark_ok (d.par "alpha_s")
  have hx : ∀ q, xiDS d q = lam d.V q := fun q => rfl
  have hl : (opsK true true) = [1, 2, 3, 4, 9, 10, 5, 6, 7, 8] := by decide
  unfold ampSM
  rw [H.scale, hw, hl]
  unfold Kll.cDiv
  rw [hx, hx, if_neg H.lamU]
  simp only [Bind.bind, Except.bind]
  have hm := mapM_ok [1, 2, 3, 4, 9, 10, 5, 6, 7, 8] (fun j => dA d wc (-lam d.V 2 / lam d.V 0) false i j)
    (fun j => ((d.par "GF" / Real.sqrt 2 : ℝ) : ℂ) * lam d.V 0 * (meSM d i j : ℂ) * ((zSM (d.par "alpha_s") j : ℂ) + (-lam d.V 2 / lam d.V 0) * (ySM (d.par "alpha_s") j : ℂ))) (by
    intro j hj
    have hj' : j ∈ [1, 2, 3, 4, 5, 6, 7, 8, 9, 10] := by
      simp only [List.mem_cons, List.not_mem_nil, or_false] at hj ⊢; omega
    unfold dA
    rw [hx, (hc j hj').1, (hc j hj').2, if_neg (by simp)]
    rfl)
  rw [hm]
  show Except.ok _ = Except.ok _
  congr 1
  have h0 := H.lamU
  have hh : ∀ a z y : ℂ, lam d.V 0 * a * (z + -lam d.V 2 / lam d.V 0 * y) = a * (z * lam d.V 0 - y * lam d.V 2) := by
    intro a z y; field_simp; ring
  simp only [List.map_cons, List.map_nil, List.sum_cons, List.sum_nil, mul_assoc]
  simp only [mul_assoc] at hh
  simp only [hh]
  unfold sum10
  ring

/-! ## The claims -/

/-- **C112 (operator identities).** The matrix elements satisfy the identities among the ten operators,
`Q4 = Q3 + Q2 − Q1`, `Q9 = (3 Q1 − Q3)/2`, `Q10 = Q2 + (Q1 − Q3)/2`, for both isospins; the QCD penguins have no isospin-2 matrix element. -/
theorem C112_operator_identities (d : Inp) :
    (∀ i, meSM d i 4 = meSM d i 3 + meSM d i 2 - meSM d i 1 ∧ meSM d i 9 = (3 * meSM d i 1 - meSM d i 3) / 2 ∧
      meSM d i 10 = meSM d i 2 + (meSM d i 1 - meSM d i 3) / 2) ∧
    (∀ j ∈ [3, 4, 5, 6], meSM d .I2 j = 0) ∧
    (∀ j ∈ [3, 4, 5, 6, 7, 8, 9], meSM d .I0 j = d.par ("Kpipi M0 " ++ toString j)) ∧ (∀ j ∈ [7, 8, 9], meSM d .I2 j = d.par ("Kpipi M2 " ++ toString j)) := by
  refine ⟨?_, ?_, ?_, ?_⟩
  · intro i
    cases i <;> simp only [meSM] <;> refine ⟨?_, ?_, ?_⟩ <;> ring
  · intro j hj
    simp only [List.mem_cons, List.not_mem_nil, or_false] at hj
    rcases hj with rfl | rfl | rfl | rfl <;> rfl
  · intro j hj
    simp only [List.mem_cons, List.not_mem_nil, or_false] at hj
    rcases hj with rfl | rfl | rfl | rfl | rfl | rfl | rfl <;> simp only [meSM] <;> congr 1
  · intro j hj
    simp only [List.mem_cons, List.not_mem_nil, or_false] at hj
    rcases hj with rfl | rfl | rfl <;> simp only [meSM] <;> congr 1

theorem keysM (d : Inp) (i : Iso) : Dict.keys (meBase d i ++ meUp d i) = match i with
    | .I0 => ["CVLL_sduu", "CVLLt_sduu", "CVLR_sduu", "CVLRt_sduu", "CVLL_sddd", "CVLR_sddd", "CSRL_sddd", "CSRR_sddd", "CTRR_sddd",
      "CSRL_sduu", "CSRLt_sduu", "CSRR_sduu", "CSRRt_sduu", "CTRR_sduu", "CTRRt_sduu", "C8_sd"]
    | .I2 => ["CVLL_sduu", "CVLLt_sduu", "CVLR_sduu", "CVLRt_sduu", "CVLL_sddd", "CVLR_sddd", "CSRL_sddd", "CSRR_sddd", "CTRR_sddd",
      "CSRL_sduu", "CSRR_sduu", "CTRR_sduu", "CSRLt_sduu", "CSRRt_sduu", "CTRRt_sduu", "C8_sd"] := by
  cases i <;> rfl

theorem keysM_perm (d : Inp) (i : Iso) : (Dict.keys (meBase d i ++ meUp d i)).Perm (mirrors.map Prod.snd) := by
  rw [keysM]; cases i <;> decide

theorem snd_nodup : (mirrors.map Prod.snd).Nodup := by decide
theorem fst_nodup : (mirrors.map Prod.fst).Nodup := by decide
theorem fst_snd : ∀ k ∈ mirrors.map Prod.fst, k ∉ mirrors.map Prod.snd := by decide

theorem get?_append_left (l m : List (String × ℝ)) (k : String) (h : k ∈ Dict.keys l) : Dict.get? (l ++ m) k = Dict.get? l k := by
  induction l with
  | nil => simp [Dict.keys] at h
  | cons e l ih =>
    obtain ⟨a, b⟩ := e
    by_cases hk : a = k
    · simp [Dict.get?, hk]
    · have : k ∈ Dict.keys l := by
        simp only [Dict.keys, List.map_cons, List.mem_cons] at h
        rcases h with h | h
        · exact absurd h.symm hk
        · exact h
      simp only [List.cons_append, Dict.get?, if_neg hk]
      exact ih this

theorem get?_append_right (l m : List (String × ℝ)) (k : String) (h : k ∉ Dict.keys l) : Dict.get? (l ++ m) k = Dict.get? m k := by
  induction l with
  | nil => rfl
  | cons e l ih =>
    obtain ⟨a, b⟩ := e
    simp only [Dict.keys, List.map_cons, List.mem_cons, not_or] at h
    simp only [List.cons_append, Dict.get?, if_neg (Ne.symm h.1)]
    exact ih h.2

theorem get?_map_fst (l : List (String × String)) (f : String → ℝ) (hn : (l.map Prod.fst).Nodup) (p : String × String) (hp : p ∈ l) :
    Dict.get? (l.map (fun p => (p.1, f p.2))) p.1 = some (f p.2) := by
  induction l with
  | nil => simp at hp
  | cons e l ih =>
    rw [List.map_cons, List.nodup_cons] at hn
    rcases List.mem_cons.1 hp with rfl | hp'
    · simp [Dict.get?]
    · have hne : e.1 ≠ p.1 := fun h => hn.1 (by rw [h]; exact List.mem_map_of_mem hp')
      simp only [List.map_cons, Dict.get?, if_neg hne]
      exact ih hn.2 hp'

theorem val_mirror (d : Inp) (i : Iso) : ∀ p ∈ mirrors, val (meNP d i) p.1 = -val (meNP d i) p.2 ∧ val (meNP d i) p.2 = val (meBase d i ++ meUp d i) p.2 := by
  intro p hp
  have h2 : p.2 ∈ Dict.keys (meBase d i ++ meUp d i) := (keysM_perm d i).mem_iff.2 (List.mem_map_of_mem hp)
  have h1 : p.1 ∉ Dict.keys (meBase d i ++ meUp d i) := fun h =>
    fst_snd p.1 (List.mem_map_of_mem hp) ((keysM_perm d i).mem_iff.1 h)
  have e2 : val (meNP d i) p.2 = val (meBase d i ++ meUp d i) p.2 := by
    show (Dict.get? ((meBase d i ++ meUp d i) ++ _) p.2).getD 0 = _
    rw [get?_append_left _ _ _ h2]; rfl
  refine ⟨?_, e2⟩
  rw [e2]
  show (Dict.get? ((meBase d i ++ meUp d i) ++ _) p.1).getD 0 = _
  rw [get?_append_right _ _ _ h1, get?_map_fst mirrors (fun k => -val (meBase d i ++ meUp d i) k) fst_nodup p hp]
  rfl

theorem sum_by_keys (l : List (String × ℝ)) (hn : (Dict.keys l).Nodup) (f : String → ℝ → ℂ) :
    (l.map (fun e => f e.1 e.2)).sum = ((Dict.keys l).map (fun k => f k (val l k))).sum := by
  induction l with
  | nil => rfl
  | cons e l ih =>
    obtain ⟨a, b⟩ := e
    simp only [Dict.keys, List.map_cons, List.nodup_cons] at hn
    have h0 : val ((a, b) :: l) a = b := by simp [val, Dict.get?]
    have h1 : ∀ k ∈ Dict.keys l, val ((a, b) :: l) k = val l k := by
      intro k hk
      have hne : a ≠ k := fun h => hn.1 (by rw [h]; exact hk)
      simp [val, Dict.get?, hne]
    simp only [Dict.keys, List.map_cons, List.sum_cons, h0]
    rw [ih hn.2]
    congr 2
    exact List.map_congr_left fun k hk => by rw [h1 k hk]

/-- **C112 (the operators).** The same 32 operators, 16 parity pairs, enter for both isospins, each once. -/
theorem C112_operators (d : Inp) (i : Iso) :
    (Dict.keys (meNP d i)).Nodup ∧ (∀ k, k ∈ Dict.keys (meNP d i) ↔ ∃ p ∈ mirrors, k = p.1 ∨ k = p.2) ∧ (meNP d i).length = 32 := by
  have hk : Dict.keys (meNP d i) = Dict.keys (meBase d i ++ meUp d i) ++ mirrors.map Prod.fst := by
    unfold meNP Dict.keys
    rw [List.map_append, List.map_map]
    rfl
  have hp := keysM_perm d i
  refine ⟨?_, fun k => ?_, ?_⟩
  · rw [hk, List.nodup_append]
    refine ⟨hp.nodup_iff.2 snd_nodup, fst_nodup, fun a ha b hb hab => ?_⟩
    subst hab
    exact fst_snd a hb (hp.mem_iff.1 ha)
  · rw [hk, List.mem_append, hp.mem_iff, List.mem_map, List.mem_map]
    constructor
    · rintro (⟨p, hp, h⟩ | ⟨p, hp, h⟩)
      · exact ⟨p, hp, Or.inr h.symm⟩
      · exact ⟨p, hp, Or.inl h.symm⟩
    · rintro ⟨p, hp, h | h⟩
      · exact Or.inr ⟨p, hp, h.symm⟩
      · exact Or.inl ⟨p, hp, h.symm⟩
  · cases i <;> rfl

/-- **C112 (parity).** The amplitudes depend only on the differences between the coefficient of an operator and of its parity image, with the
matrix element of the operator; in particular they vanish for parity-symmetric coefficients and change sign under parity. -/
theorem C112_parity (d : Inp) (wc : String → ℂ) (i : Iso) :
    ampNP d wc i = -(((4 * d.par "GF" / Real.sqrt 2 : ℝ) : ℂ) * lam d.V 2) *
      (mirrors.map (fun p => (val (meNP d i) p.2 : ℂ) * conj (wc p.2 - wc p.1))).sum ∧
    ((∀ p ∈ mirrors, wc p.2 = wc p.1) → ampNP d wc i = 0) ∧
    ∀ wc', (∀ p ∈ mirrors, wc' p.1 = wc p.2 ∧ wc' p.2 = wc p.1) → ampNP d wc' i = -ampNP d wc i := by
  have main : ∀ wc, ampNP d wc i = -(((4 * d.par "GF" / Real.sqrt 2 : ℝ) : ℂ) * lam d.V 2) *
      (mirrors.map (fun p => (val (meNP d i) p.2 : ℂ) * conj (wc p.2 - wc p.1))).sum := by
    intro wc
    have e : (mirrors.map (fun p => (val (meNP d i) p.2 : ℂ) * conj (wc p.2 - wc p.1))) =
        (mirrors.map (fun p => (val (meBase d i ++ meUp d i) p.2 : ℂ) * conj (wc p.2 - wc p.1))) :=
      List.map_congr_left fun p hp => by rw [(val_mirror d i p hp).2]
    have hx : xiDS d 2 = lam d.V 2 := rfl
    rw [e]
    unfold ampNP meNP
    rw [hx]
    generalize -(((4 * d.par "GF" / Real.sqrt 2 : ℝ) : ℂ) * lam d.V 2) = c
    simp only [List.map_append, List.sum_append, List.map_map]
    rw [← List.sum_append, ← List.map_append]
    have hn : (Dict.keys (meBase d i ++ meUp d i)).Nodup := (keysM_perm d i).nodup_iff.2 snd_nodup
    rw [sum_by_keys _ hn (fun k m => c * (m : ℂ) * conj (wc k)), ((keysM_perm d i).map _).sum_eq, List.map_map, ← List.sum_map_add, ← List.sum_map_mul_left]
    congr 1
    refine List.map_congr_left fun p hp => ?_
    simp only [Function.comp, map_sub]
    push_cast
    ring
  refine ⟨main wc, fun h => ?_, fun wc' h => ?_⟩
  · rw [main]
    have e : mirrors.map (fun p => (val (meNP d i) p.2 : ℂ) * conj (wc p.2 - wc p.1)) = mirrors.map (fun _ => 0) :=
      List.map_congr_left fun p hp => by rw [h p hp]; simp
    rw [e]; simp
  · rw [main, main]
    have e : mirrors.map (fun p => (val (meNP d i) p.2 : ℂ) * conj (wc' p.2 - wc' p.1)) = mirrors.map (fun p => -1 * ((val (meNP d i) p.2 : ℂ) * conj (wc p.2 - wc p.1))) :=
      List.map_congr_left fun p hp => by rw [(h p hp).1, (h p hp).2, ← neg_sub (wc p.2), map_neg]; ring
    rw [e, List.sum_map_mul_left]; ring

/-- **C112 (isospin 2).** The isospin-2 matrix elements of the `u` and `d` versions of an operator are opposite; those of the
colour-crossed operators follow from the Fierz identities (which are an involution), and the chromomagnetic operator has none. -/
theorem C112_isospin2 (d : Inp) :
    let M := val (meNP d .I2)
    M "CVLL_sduu" + M "CVLL_sddd" = 0 ∧ M "CVLLt_sduu" = M "CVLL_sduu" ∧ M "CVLR_sduu" + M "CVLR_sddd" = 0 ∧
    M "CSRL_sduu" + M "CSRL_sddd" = 0 ∧ M "CSRR_sduu" + M "CSRR_sddd" = 0 ∧ M "CTRR_sduu" + M "CTRR_sddd" = 0 ∧
    M "CVLR_sduu" = -2 * M "CSRLt_sduu" ∧
    M "CSRRt_sduu" = -1 / 2 * M "CSRR_sduu" - 1 / 8 * M "CTRR_sduu" ∧ M "CTRRt_sduu" = -6 * M "CSRR_sduu" + 1 / 2 * M "CTRR_sduu" ∧
    M "CSRR_sduu" = -1 / 2 * M "CSRRt_sduu" - 1 / 8 * M "CTRRt_sduu" ∧ M "CTRR_sduu" = -6 * M "CSRRt_sduu" + 1 / 2 * M "CTRRt_sduu" ∧
    M "C8_sd" = 0 := by
  intro M
  have e : ∀ k, M k = val (meNP d .I2) k := fun k => rfl
  simp only [e]
  simp [val, meNP, meBase, meUp, mirrors, Dict.get?, meSM]
  and_intros <;> ring

/-- **C112 (finding: sign of the matrix element of `CSRL`).** The Fierz identity that links a colour-crossed vector LR operator to a scalar
operator, used by the code for `CVLR`/`CSRLt` (previous theorem), is violated for the pair `CVLRt`/`CSRL`: the isospin-2
matrix elements have the opposite relative sign, so the identity holds only if `Kpipi M2 8` vanishes. -/
theorem C112_CSRL_sign (d : Inp) :
    val (meNP d .I2) "CVLRt_sduu" = 2 * val (meNP d .I2) "CSRL_sduu" ∧
    (val (meNP d .I2) "CVLRt_sduu" = -2 * val (meNP d .I2) "CSRL_sduu" ↔ d.par "Kpipi M2 8" = 0) := by
  simp [val, meNP, meBase, meUp, mirrors, Dict.get?, meSM]
  constructor
  · ring
  · constructor
    · intro h; linarith
    · intro h; rw [h]; ring

/-- **C112 (isospin 0).** The isospin-0 matrix elements of the new-physics operators: vector operators follow from the SM matrix elements by
inverting `Q_{QCD} = uu + dd`, `Q_{EW} = uu − dd/2`, the other ones are parameters. -/
theorem C112_isospin0 (d : Inp) :
    let M := val (meNP d .I0)
    4 * (M "CVLR_sduu" + M "CVLR_sddd") = meSM d .I0 5 ∧ 4 * (M "CVLR_sduu" - M "CVLR_sddd" / 2) = meSM d .I0 7 ∧
    4 * (M "CVLL_sduu" + M "CVLL_sddd") = meSM d .I0 3 ∧ 4 * (M "CVLL_sduu" - M "CVLL_sddd" / 2) * (3 / 2 : ℝ) = 3 / 2 * meSM d .I0 9 ∧
    4 * M "CVLLt_sduu" = meSM d .I0 2 ∧
    M "CSRL_sduu" = d.par "Kpipi M0 SLR2_u" ∧ M "CSRLt_sduu" = d.par "Kpipi M0 SLR1_u" ∧ M "CSRR_sduu" = d.par "Kpipi M0 SLL2_u" ∧
    M "CSRRt_sduu" = d.par "Kpipi M0 SLL1_u" ∧ M "CTRR_sduu" = -d.par "Kpipi M0 SLL4_u" ∧ M "CTRRt_sduu" = -d.par "Kpipi M0 SLL3_u" ∧
    M "C8_sd" = -d.ms * d.par "Kpipi M0 g-" / 2 := by
  intro M
  have e : ∀ k, M k = val (meNP d .I0) k := fun k => rfl
  simp only [e]
  simp [val, meNP, meBase, meUp, mirrors, Dict.get?, meSM]
  refine ⟨?_, ?_, ?_, ?_, ?_⟩ <;> ring

theorem sqrt2_eps_ne {e : ℝ} (h : e ≠ 0) : Real.sqrt 2 * e ≠ 0 := mul_ne_zero (by positivity) h

theorem sum10_im (c : ℝ) (f : ℕ → ℂ) : ((c : ℂ) * sum10 f).im = c * ((f 1).im + (f 2).im + (f 3).im + (f 4).im + (f 5).im + (f 6).im + (f 7).im + (f 8).im + (f 9).im + (f 10).im) := by
  unfold sum10; simp

/-- **C112 (Standard-Model amplitudes).** For each isospin the amplitude is `G_F/√2 Σ_j ⟨Q_j⟩ (z_j λ_u − y_j λ_t)`, so that its
imaginary part is `G_F/√2 Σ_j ⟨Q_j⟩ (z_j Im λ_u − y_j Im λ_t)`: with `λ_u` real only the penguin coefficients `y_j` matter for CP violation. -/
theorem C112_amplitude_SM (d : Inp) (H : Phys d) (i : Iso) :
    ∃ A, ampSM d true true false i = .ok A ∧
      A = ((d.par "GF" / Real.sqrt 2 : ℝ) : ℂ) * sum10 (fun j => (meSM d i j : ℂ) * ((zSM (d.par "alpha_s") j : ℂ) * lam d.V 0 - (ySM (d.par "alpha_s") j : ℂ) * lam d.V 2)) ∧
      ((lam d.V 0).im = 0 → A.im = -(d.par "GF" / Real.sqrt 2) * (lam d.V 2).im *
        (meSM d i 3 * ySM (d.par "alpha_s") 3 + meSM d i 4 * ySM (d.par "alpha_s") 4 + meSM d i 5 * ySM (d.par "alpha_s") 5 + meSM d i 6 * ySM (d.par "alpha_s") 6
          + meSM d i 7 * ySM (d.par "alpha_s") 7 + meSM d i 8 * ySM (d.par "alpha_s") 8 + meSM d i 9 * ySM (d.par "alpha_s") 9 + meSM d i 10 * ySM (d.par "alpha_s") 10)) := by
  refine ⟨_, ampSM_eq d H i, rfl, fun h => ?_⟩
  rw [sum10_im]
  simp only [Complex.mul_im, Complex.sub_im, Complex.ofReal_re, Complex.ofReal_im, zero_mul, add_zero, h, mul_zero, zero_sub]
  have h1 : ySM (d.par "alpha_s") 1 = 0 := rfl
  have h2 : ySM (d.par "alpha_s") 2 = 0 := rfl
  rw [h1, h2]
  ring

theorem dA_split (d : Inp) (wc : Dict String ℝ) (tau : ℂ) (sc : Bool) (i : Iso) (ha : d.par "epsp a" ≠ 0) (ho : 1 - d.par "Omegahat_eff" ≠ 0) :
    ∃ g : ℕ → ℂ, ∀ j, dA d wc tau sc i j = .ok (g j) := by
  have : ∀ j, ∃ x, dA d wc tau sc i j = .ok x := by
    intro j
    unfold dA
    simp only [Mixing.pyDiv_ne ha, Mixing.pyDiv_ne ho, Bind.bind, Except.bind, pure, Except.pure]
    by_cases h : sc = true ∧ i = .I0 ∧ j ∈ [7, 8, 9, 10]
    · rw [if_pos h]; exact ⟨_, rfl⟩
    · rw [if_neg h]; exact ⟨_, rfl⟩
  choose g hg using this
  exact ⟨g, hg⟩

/-- **C112 (partial amplitudes).** The contributions of the current–current, `(V−A)⊗(V−A)` and `(V−A)⊗(V+A)` operators add up, whatever the
rescaling option. -/
theorem C112_split (d : Inp) (H : Phys d) (sc : Bool) (i : Iso) :
    ∃ A Am Ap A0, ampSM d true true sc i = .ok A ∧ ampSM d true false sc i = .ok Am ∧ ampSM d false true sc i = .ok Ap ∧ ampSM d false false sc i = .ok A0 ∧
      A + A0 = Am + Ap := by
  obtain ⟨wc, hw, hc⟩ := wcFourquark_ok (d.par "alpha_s")
  obtain ⟨g, hg⟩ := dA_split d wc (-lam d.V 2 / lam d.V 0) sc i H.a H.om
  have hx : ∀ q, xiDS d q = lam d.V q := fun q => rfl
  have key : ∀ a b, ampSM d a b sc i = .ok ((opsK a b).map g).sum := by
    intro a b
    unfold ampSM Kll.cDiv
    rw [H.scale, hw, hx, hx, if_neg H.lamU]
    simp only [Bind.bind, Except.bind, pure, Except.pure]
    rw [mapM_ok (opsK a b) _ g (fun j _ => hg j)]
  refine ⟨_, _, _, _, key _ _, key _ _, key _ _, key _ _, ?_⟩
  simp [opsK]
  ring

/-- **C112 (`ε'/ε`).** The prediction is the sum of the Standard-Model and new-physics parts, explicitly. -/
theorem C112_epsprime (d : Inp) (wc : String → ℂ) (H : Phys d) :
    ∃ A0 A2, ampSM d true true false .I0 = .ok A0 ∧ ampSM d true true false .I2 = .ok A2 ∧
      eps d wc = .ok (-d.par "omega+" / (Real.sqrt 2 * d.par "eps_K") *
        ((1 - d.par "Omegahat_eff") * A0.im / d.par "ReA0(K->pipi)" - A2.im / (d.par "epsp a" * d.par "ReA2(K->pipi)")
          + ((ampNP d wc .I0).im / d.par "ReA0(K->pipi)" - (ampNP d wc .I2).im / d.par "ReA2(K->pipi)") / d.par "epsp a")) := by
  obtain ⟨A0, hA0⟩ : ∃ A, ampSM d true true false .I0 = .ok A := ⟨_, ampSM_eq d H .I0⟩
  obtain ⟨A2, hA2⟩ : ∃ A, ampSM d true true false .I2 = .ok A := ⟨_, ampSM_eq d H .I2⟩
  refine ⟨A0, A2, hA0, hA2, ?_⟩
  unfold eps epsSM epsNP
  rw [hA0, hA2]
  simp only [Mixing.pyDiv_ne H.a, Mixing.pyDiv_ne H.re0, Mixing.pyDiv_ne H.re2, Mixing.pyDiv_ne (sqrt2_eps_ne H.eps), Bind.bind, Except.bind, pure, Except.pure]
  congr 1
  have h1 := H.a
  have h2 := H.re0
  have h3 := H.re2
  have h4 := H.eps
  have h5 : Real.sqrt 2 ≠ 0 := by positivity
  field_simp
  ring

/-- **C112 (linear in new physics).** `ε'/ε` is an affine function of the Wilson coefficients: the new-physics parts of a sum add and
real factors can be taken out. -/
theorem C112_linear (d : Inp) (w1 w2 : String → ℂ) (r : ℝ) (H : Phys d) :
    ∃ e0 e1 e2 e, eps d (fun _ => 0) = .ok e0 ∧ eps d w1 = .ok e1 ∧ eps d w2 = .ok e2 ∧ eps d (fun k => (r : ℂ) * w1 k + w2 k) = .ok e ∧
      e - e0 = r * (e1 - e0) + (e2 - e0) := by
  have hlin : ∀ i, ampNP d (fun k => (r : ℂ) * w1 k + w2 k) i = (r : ℂ) * ampNP d w1 i + ampNP d w2 i := by
    intro i
    unfold ampNP
    rw [← List.sum_map_mul_left, ← List.sum_map_add]
    congr 1
    refine List.map_congr_left fun e _ => ?_
    simp only [map_add, map_mul, Complex.conj_ofReal]
    ring
  have h0 : ∀ i, ampNP d (fun _ => 0) i = 0 := by
    intro i; unfold ampNP; simp
  obtain ⟨A0, A2, hA0, hA2, he0⟩ := C112_epsprime d (fun _ => 0) H
  obtain ⟨B0, B2, hB0, hB2, he1⟩ := C112_epsprime d w1 H
  obtain ⟨C0, C2, hC0, hC2, he2⟩ := C112_epsprime d w2 H
  obtain ⟨D0, D2, hD0, hD2, he⟩ := C112_epsprime d (fun k => (r : ℂ) * w1 k + w2 k) H
  rw [hA0] at hB0 hC0 hD0
  rw [hA2] at hB2 hC2 hD2
  cases hB0; cases hC0; cases hD0; cases hB2; cases hC2; cases hD2
  refine ⟨_, _, _, _, he0, he1, he2, he, ?_⟩
  rw [h0, h0, hlin, hlin]
  simp only [Complex.add_im, Complex.re_ofReal_mul, Complex.im_ofReal_mul, Complex.zero_im]
  ring

/-- **C112 (CP conservation).** With real CKM factors and real Wilson coefficients `ε'/ε` vanishes. -/
theorem C112_cp (d : Inp) (wc : String → ℂ) (H : Phys d) (hu : (lam d.V 0).im = 0) (ht : (lam d.V 2).im = 0) (hw : ∀ k, (wc k).im = 0) :
    eps d wc = .ok 0 := by
  obtain ⟨A0, A2, hA0, hA2, he⟩ := C112_epsprime d wc H
  have hz : ∀ i A, ampSM d true true false i = .ok A → A.im = 0 := by
    intro i A h
    obtain ⟨B, hB, -, h2⟩ := C112_amplitude_SM d H i
    rw [h] at hB; cases hB
    rw [h2 hu, ht]; ring
  have hn : ∀ i, (ampNP d wc i).im = 0 := by
    intro i
    have hx : xiDS d 2 = lam d.V 2 := rfl
    unfold ampNP
    rw [hx]
    generalize meNP d i = l
    induction l with
    | nil => simp
    | cons e l ih =>
      rw [List.map_cons, List.sum_cons, Complex.add_im, ih, add_zero]
      simp [Complex.mul_im, ht, hw]
  rw [he, hz _ _ hA0, hz _ _ hA2, hn, hn]
  simp

/-- **C112 (phase conventions).** `ε'/ε` in the Standard Model does not change when the up-type quarks are rephased, or `d` and `s` together;
the same holds for the new-physics part, because the coefficients are defined relative to `λ_t`. -/
theorem C112_rephasing (d : Inp) (wc : String → ℂ) (p : Fin 3 → ℂ) (q : ℂ) (hp : ∀ i, ‖p i‖ = 1) (hq : ‖q‖ = 1) :
    eps ⟨d.par, fun i j => p i * d.V i j * q, d.ms, d.scale⟩ wc = eps d wc := by
  have n0 : ∀ z : ℂ, ‖z‖ = 1 → z * conj z = 1 := fun z hz => by rw [mul_conj, normSq_eq_norm_sq, hz]; simp
  have hl : ∀ k, xiDS ⟨d.par, fun i j => p i * d.V i j * q, d.ms, d.scale⟩ k = xiDS d k := by
    intro k
    show p k * d.V k 0 * q * conj (p k * d.V k 1 * q) = d.V k 0 * conj (d.V k 1)
    simp only [map_mul]
    linear_combination (d.V k 0 * conj (d.V k 1)) * ((q * conj q) * n0 _ (hp k) + n0 q hq)
  have hS : ∀ i, ampSM ⟨d.par, fun i j => p i * d.V i j * q, d.ms, d.scale⟩ true true false i = ampSM d true true false i := by
    intro i
    unfold ampSM dA
    simp only [hl]
    rfl
  have hN : ∀ i, ampNP ⟨d.par, fun i j => p i * d.V i j * q, d.ms, d.scale⟩ wc i = ampNP d wc i := by
    intro i
    unfold ampNP
    simp only [hl]
    rfl
  unfold eps epsSM epsNP
  simp only [hS, hN]

/-- **C112 (scale).** Only the scale 1.3 is implemented: with any other configured scale the prediction raises `ValueError`. -/
theorem C112_scale (d : Inp) (wc : String → ℂ) (h : d.scale ≠ 1.3) : eps d wc = .error .valueError := by
  unfold eps epsSM ampSM wcFourquark
  rw [if_pos h]
  rfl

/-- **C112 (interpolation).** The interpolated coefficients are the tabulated ones at the three tabulated values of `α_s`, and
affine on either side of the middle one, also outside the tabulated range; the two pieces agree there. -/
theorem C112_interpolation (y : ℝ × ℝ × ℝ) :
    interp y 0.1179 = y.1 ∧ interp y 0.1185 = y.2.1 ∧ interp y 0.1191 = y.2.2 ∧
    (∀ a b t, a ≤ 0.1185 → b ≤ 0.1185 → 0 ≤ t → t ≤ 1 → interp y (t * a + (1 - t) * b) = t * interp y a + (1 - t) * interp y b) ∧
    (∀ a b t, 0.1185 ≤ a → 0.1185 ≤ b → 0 ≤ t → t ≤ 1 → interp y (t * a + (1 - t) * b) = t * interp y a + (1 - t) * interp y b) := by
  have hr : ∀ x, 0.1185 ≤ x → interp y x = (y.2.2 - y.2.1) / (0.1191 - 0.1185) * (x - 0.1185) + y.2.1 := by
    intro x hx
    unfold interp
    by_cases h : x ≤ 0.1185
    · have : x = 0.1185 := le_antisymm h hx
      rw [if_pos h, this]; norm_num
    · rw [if_neg h]
  have hl : ∀ x, x ≤ 0.1185 → interp y x = (y.2.1 - y.1) / (0.1185 - 0.1179) * (x - 0.1179) + y.1 := by
    intro x hx; unfold interp; rw [if_pos hx]
  refine ⟨?_, ?_, ?_, fun a b t ha hb h0 h1 => ?_, fun a b t ha hb h0 h1 => ?_⟩
  · rw [hl _ (by norm_num)]; norm_num
  · rw [hl _ (by norm_num)]; norm_num
  · rw [hr _ (by norm_num)]; norm_num
  · rw [hl a ha, hl b hb, hl _ (by nlinarith)]; ring
  · rw [hr a ha, hr b hb, hr _ (by nlinarith)]; ring

/-! ## A concrete case -/

/-- All parameters one except the isospin-breaking one. (Example.) (Specification.) -/
noncomputable def exInp : Inp := ⟨fun k => if k = "Omegahat_eff" then 1 / 7 else 1, fun i j => (1 + I) ^ (i.val + 3 * j.val * i.val), 1, 1.3⟩

theorem exInp_phys : Phys exInp := by
  have h1 : (1 + I : ℂ) ≠ 0 := by
    intro h; have := congrArg Complex.re h; simp at this
  refine ⟨mul_ne_zero (pow_ne_zero _ h1) ((map_ne_zero _).2 (pow_ne_zero _ h1)), ?_, ?_, ?_, ?_, ?_, rfl⟩ <;> simp [exInp]
  norm_num

/-- In the example the finding about `CSRL` is effective: the Fierz identity fails. -/
example : val (meNP exInp .I2) "CVLRt_sduu" ≠ -2 * val (meNP exInp .I2) "CSRL_sduu" := by
  rw [Ne, (C112_CSRL_sign exInp).2]; simp [exInp]

example (wc : String → ℂ) : ∃ x, eps exInp wc = .ok x := by
  obtain ⟨_, _, _, _, h⟩ := C112_epsprime exInp wc exInp_phys
  exact ⟨_, h⟩

end Verif.Kpipi
