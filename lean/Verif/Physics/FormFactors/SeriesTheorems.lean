import Verif.Physics.FormFactors.Series
import Mathlib.Algebra.Polynomial.Derivative
import Mathlib.Tactic.ComputeDegree
/-!
# Properties of the series parametrisations
-/
set_option linter.unusedVariables false
set_option linter.unusedSimpArgs false
namespace Verif.FormFactors
open Verif.Py Verif.Running Verif.Bll Verif.Angular

theorem fbind {α β : Type} {x : Except PyErr α} {f : α → Except PyErr β} {b : β}
    (h : (x >>= f) = .ok b) : ∃ a, x = .ok a ∧ f a = .ok b := by
  cases x with
  | error e => cases h
  | ok a => exact ⟨a, rfl, h⟩

theorem fok {α β : Type} (a : α) (f : α → Except PyErr β) : ((Except.ok a : Except PyErr α) >>= f) = f a := rfl

theorem pole_zero (m : ℝ) : pole m 0 = .ok 1 := by
  unfold pole
  by_cases h : m = 0
  · rw [if_pos h]
  · rw [if_neg h, zero_div, sub_zero, Mixing.pyDiv_ne one_ne_zero, div_one]

theorem poleV_zero {m : ℝ} {v : ℝ} (h : poleV m 0 = .ok v) : v = 1 := by
  obtain ⟨r, h1, h⟩ := fbind h
  unfold pyDiv at h1
  split_ifs at h1
  cases h1
  rw [zero_div, sub_zero, Mixing.pyDiv_ne one_ne_zero, div_one] at h
  cases h; rfl

theorem coeffs_length {par : Par} {pre i : String} {l : List ℕ} {r : List ℝ} (h : coeffs par pre i l = .ok r) :
    r.length = l.length := by
  induction l generalizing r with
  | nil => cases h; rfl
  | cons j l ih =>
    obtain ⟨v, h1, h⟩ := fbind h
    obtain ⟨s, h2, h⟩ := fbind h
    cases h
    simp [ih h2]

theorem coeffs_spec {par : Par} {pre i : String} {l : List ℕ} {r : List ℝ} (h : coeffs par pre i l = .ok r) :
    List.Forall₂ (fun j v => par (pre ++ toString j ++ "_" ++ i) = some v) l r := by
  induction l generalizing r with
  | nil => cases h; exact .nil
  | cons j l ih =>
    obtain ⟨v, h1, h⟩ := fbind h
    obtain ⟨s, h2, h⟩ := fbind h
    cases h
    refine .cons ?_ (ih h2)
    unfold Par.get at h1
    revert h1
    cases par (pre ++ toString j ++ "_" ++ i) with
    | none => intro h1; cases h1
    | some w => intro h1; cases h1; rfl

theorem coeffs_of {par : Par} {pre i : String} (f : ℕ → ℝ) {l : List ℕ}
    (h : ∀ j ∈ l, par (pre ++ toString j ++ "_" ++ i) = some (f j)) : coeffs par pre i l = .ok (l.map f) := by
  induction l with
  | nil => rfl
  | cons j l ih =>
    show (par.get _ >>= _) = _
    rw [Par.get, h j (by simp)]
    show (coeffs par pre i l >>= _) = _
    rw [ih fun k hk => h k (by simp [hk])]
    rfl

/-! ## The BCL series -/

open Polynomial in
/-- **C104**: the BCL series for `f₊` and `f_T` is a polynomial in `z` of degree at most `n` whose first `n` coefficients are the
given ones and whose derivative vanishes at `z = -1`, the threshold `q² = t₊` (the constraint of arXiv:0807.2722 from the
`(q² - t₊)^{3/2}` behaviour of a P wave). -/
theorem C104_bcl_threshold (a : List ℝ) :
    ∃ P : ℝ[X], P.natDegree ≤ a.length ∧ (∀ k, k < a.length → P.coeff k = a.getD k 0) ∧ (derivative P).eval (-1) = 0 ∧
      ∀ mB mP q2 t0 v, z mB mP q2 t0 = .ok v → paramFplusT mB mP a q2 t0 = .ok (P.eval v) := by
  classical
  set n := a.length with hn
  refine ⟨∑ k ∈ Finset.range n, C (a.getD k 0) * (X ^ k - C ((-1:ℝ) ^ ((k:ℤ) - (n:ℤ)) * k / n) * X ^ n), ?_, ?_, ?_, ?_⟩
  · refine natDegree_sum_le_of_forall_le _ _ fun k hk => ?_
    have hk' := (Finset.mem_range.1 hk).le
    refine (natDegree_C_mul_le _ _).trans ((natDegree_sub_le _ _).trans (max_le ?_ ?_))
    · rw [natDegree_X_pow]; exact hk'
    · exact (natDegree_C_mul_le _ _).trans (by rw [natDegree_X_pow])
  · intro k hk
    rw [finsetSum_coeff]
    rw [Finset.sum_eq_single k]
    · rw [coeff_C_mul, coeff_sub, coeff_X_pow, coeff_C_mul, coeff_X_pow, if_pos rfl, if_neg hk.ne]; ring
    · intro j hj hne
      rw [coeff_C_mul, coeff_sub, coeff_X_pow, coeff_C_mul, coeff_X_pow, if_neg (Ne.symm hne), if_neg hk.ne]; ring
    · intro h; exact absurd (Finset.mem_range.2 hk) h
  · rw [derivative_sum, eval_finsetSum]
    refine Finset.sum_eq_zero fun k hk => ?_
    have hkn := Finset.mem_range.1 hk
    have hn0 : (n:ℝ) ≠ 0 := by
      have : 0 < n := by omega
      exact_mod_cast this.ne'
    rw [derivative_C_mul, derivative_sub, derivative_C_mul, derivative_X_pow, derivative_X_pow]
    simp only [eval_mul, eval_sub, eval_C, eval_pow, eval_X]
    rcases Nat.eq_zero_or_pos k with rfl | hk0
    · simp
    · have e : ((-1:ℝ)) ^ ((k:ℤ) - (n:ℤ)) * (-1) ^ (n - 1) = (-1) ^ (k - 1) := by
        have h1 : ((-1:ℝ)) ^ (n - 1) = (-1:ℝ) ^ ((n:ℤ) - 1) := by
          rw [← zpow_natCast]; congr 1; omega
        have h2 : ((-1:ℝ)) ^ (k - 1) = (-1:ℝ) ^ ((k:ℤ) - 1) := by
          rw [← zpow_natCast]; congr 1; omega
        rw [h1, h2, ← zpow_add₀ (by norm_num)]; congr 1; ring
      have : (k:ℝ) * (-1) ^ (k - 1) - (-1:ℝ) ^ ((k:ℤ) - (n:ℤ)) * k / n * (n * (-1) ^ (n - 1)) = 0 := by
        rw [← e]; field_simp; ring
      rw [this, mul_zero]
  · intro mB mP q2 t0 v hv
    unfold paramFplusT
    rw [hv]
    show Except.ok _ = _
    rw [eval_finsetSum]
    refine congrArg _ (Finset.sum_congr rfl fun k _ => ?_)
    simp only [eval_mul, eval_sub, eval_C, eval_pow, eval_X]
    rfl

open Polynomial in
/-- **C104**: the BCL series for `f₀` is the polynomial in `z` with the given coefficients. -/
theorem C104_bcl_f0 (a : List ℝ) :
    ∃ P : ℝ[X], (∀ k, P.coeff k = a.getD k 0) ∧
      ∀ mB mP q2 t0 v, z mB mP q2 t0 = .ok v → paramF0 mB mP a q2 t0 = .ok (P.eval v) := by
  classical
  refine ⟨∑ k ∈ Finset.range a.length, C (a.getD k 0) * X ^ k, ?_, ?_⟩
  · intro k
    rw [finsetSum_coeff]
    by_cases hk : k < a.length
    · rw [Finset.sum_eq_single k]
      · simp
      · intro j hj hne
        rw [coeff_C_mul, coeff_X_pow, if_neg (Ne.symm hne), mul_zero]
      · intro h; exact absurd (Finset.mem_range.2 hk) h
    · rw [Finset.sum_eq_zero]
      · rw [List.getD_eq_getElem?_getD, List.getElem?_eq_none (not_lt.1 hk)]; rfl
      · intro j hj
        have := Finset.mem_range.1 hj
        rw [coeff_C_mul, coeff_X_pow, if_neg (by omega), mul_zero]
  · intro mB mP q2 t0 v hv
    unfold paramF0
    rw [hv]
    show Except.ok _ = _
    rw [eval_finsetSum]
    refine congrArg _ (Finset.sum_congr rfl fun k _ => ?_)
    simp only [eval_mul, eval_C, eval_pow, eval_X]

theorem paramF0_append {mB mP : ℝ} {r : List ℝ} {l q2 : ℝ} {t0 : T0} {Z : ℝ} (hZ : z mB mP q2 t0 = .ok Z) :
    paramF0 mB mP (r ++ [l]) q2 t0 = .ok ((∑ k ∈ Finset.range r.length, r.getD k 0 * Z ^ k) + l * Z ^ r.length) := by
  unfold paramF0
  rw [hZ]
  show Except.ok _ = _
  congr 1
  rw [List.length_append, List.length_singleton, Finset.sum_range_succ]
  congr 1
  · refine Finset.sum_congr rfl fun k hk => ?_
    rw [List.getD_eq_getElem?_getD, List.getElem?_append_left (Finset.mem_range.1 hk), List.getD_eq_getElem?_getD]
  · rw [List.getD_eq_getElem?_getD, List.getElem?_append_right le_rfl]; simp

/-- The value at `q² = 0` of the `f₀` series as the code completes it. -/
theorem bclLast_value {mpl m0 mB mP : ℝ} {ap r : List ℝ} {n : ℕ} {t0 : T0} {l : ℝ} (hr : r.length = n - 1)
    (h : bclLast mpl m0 mB mP ap r n t0 = .ok l) :
    ∃ Z fp, z mB mP 0 t0 = .ok Z ∧ paramFplusT mB mP ap 0 t0 = .ok fp ∧
      paramF0 mB mP (r ++ [l]) 0 t0 = .ok (2 * (∑ k ∈ Finset.range (n - 1), r.getD k 0 * Z ^ k) - fp) := by
  obtain ⟨p1, h1, h⟩ := fbind h
  obtain ⟨fp, h2, h⟩ := fbind h
  obtain ⟨p3, h3, h⟩ := fbind h
  obtain ⟨f0, h4, h⟩ := fbind h
  obtain ⟨Z, h5, h⟩ := fbind h
  rw [pole_zero] at h1 h3
  cases h1; cases h3
  refine ⟨Z, fp, h5, h2, ?_⟩
  have h4' := h4
  unfold paramF0 at h4'
  rw [h5] at h4'
  cases h4'
  rw [paramF0_append h5]
  unfold pyDiv at h
  split_ifs at h with hz
  cases h
  rw [hr, div_mul_cancel₀ _ hz]
  congr 1; ring

theorem bclLastIW_value {mpl m0 mB mP : ℝ} {ap r : List ℝ} {n : ℕ} {t0 : T0} {l : ℝ} (hr : r.length = n - 1)
    (h : bclLastIW mpl m0 mB mP ap r n t0 = .ok l) :
    ∃ fp, paramFplusT mB mP ap 0 t0 = .ok fp ∧ paramF0 mB mP (r ++ [l]) 0 t0 = .ok fp := by
  obtain ⟨p1, h1, h⟩ := fbind h
  obtain ⟨fp, h2, h⟩ := fbind h
  obtain ⟨p3, h3, h⟩ := fbind h
  obtain ⟨f0, h4, h⟩ := fbind h
  obtain ⟨Z, h5, h⟩ := fbind h
  rw [pole_zero] at h1 h3
  cases h1; cases h3
  refine ⟨fp, h2, ?_⟩
  have h4' := h4
  unfold paramF0 at h4'
  rw [h5] at h4'
  cases h4'
  rw [paramF0_append h5]
  unfold pyDiv at h
  split_ifs at h with hz
  cases h
  rw [hr, div_mul_cancel₀ _ hz]
  congr 1; ring

theorem bclEval_zero {chL mpl m0 mB mP : ℝ} {ap aT a0 : List ℝ} {t0 : T0} {F : FFP}
    (h : bclEval chL mpl m0 mB mP ap aT a0 0 t0 = .ok F) :
    ∃ fp f0, paramFplusT mB mP ap 0 t0 = .ok fp ∧ paramF0 mB mP a0 0 t0 = .ok f0 ∧ F.fp = chL * fp ∧ F.f0 = chL * f0 := by
  obtain ⟨p1, h1, h⟩ := fbind h
  obtain ⟨fp, h2, h⟩ := fbind h
  obtain ⟨p2, h3, h⟩ := fbind h
  obtain ⟨fT, h4, h⟩ := fbind h
  obtain ⟨p3, h5, h⟩ := fbind h
  obtain ⟨f0, h6, h⟩ := fbind h
  rw [pole_zero] at h1 h3 h5
  cases h1; cases h3; cases h5; cases h
  exact ⟨fp, f0, h2, h6, by ring, by ring⟩

/-! ## Values at `q² = 0` -/

theorem z_zero_num {mB mP v : ℝ} (h : z mB mP 0 (.num 0) = .ok v) : v = 0 := by
  obtain ⟨t, h1, h⟩ := fbind h
  cases h1
  obtain ⟨a, h2, h⟩ := fbind h
  obtain ⟨b, h3, h⟩ := fbind h
  rw [h2] at h3
  cases h3
  unfold pyDiv at h
  split_ifs at h
  cases h
  simp

theorem range_drop_one (n : ℕ) : ((List.range n).drop 1).length = n - 1 := by simp

/-- The statement `f₊(0) = f₀(0)` for a parametrisation: whenever it returns form factors at `q² = 0`, the two agree.
(Specification.) -/
def Conserved (ff : ℝ → Par → Except PyErr FFP) : Prop := ∀ par F, ff 0 par = .ok F → F.fp = F.f0

/-- **C104**: the BCL parametrisation with `t0 = 0` fulfils `f₊(0) = f₀(0)`, for every process, every number `n ≥ 1` of coefficients
and all parameters. -/
theorem C104_bcl_t0zero (process : String) (n : ℕ) (hn : 0 < n) : Conserved fun q2 par => bclFF process q2 par n (.num 0) := by
  intro par F h
  obtain ⟨pd, -, h⟩ := fbind h
  obtain ⟨mpl, -, h⟩ := fbind h
  obtain ⟨m0, -, h⟩ := fbind h
  obtain ⟨mB, -, h⟩ := fbind h
  obtain ⟨mP, -, h⟩ := fbind h
  obtain ⟨ap, h6, h⟩ := fbind h
  obtain ⟨aT, -, h⟩ := fbind h
  obtain ⟨a0, h8, h⟩ := fbind h
  have hl := coeffs_length h6
  rw [List.length_range] at hl
  unfold bclF0 at h8
  rw [if_pos (show T0.isZero (.num 0) from rfl)] at h8
  obtain ⟨r, h9, h8⟩ := fbind h8
  cases h8
  obtain ⟨fp, f0, e1, e2, e3, e4⟩ := bclEval_zero h
  rw [e3, e4]
  congr 1
  unfold paramFplusT at e1
  unfold paramF0 at e2
  obtain ⟨Z, g1, e1⟩ := fbind e1
  rw [g1] at e2
  cases e1; cases e2
  obtain rfl := z_zero_num g1
  have hr := coeffs_length h9
  rw [range_drop_one] at hr
  obtain ⟨a, ap', rfl⟩ : ∃ a ap', ap = a :: ap' := by
    cases ap with
    | nil => simp at hl; omega
    | cons a ap' => exact ⟨a, ap', rfl⟩
  simp only [List.length_append, List.length_take, List.length_cons, hr]
  have e5 : ∀ m, ∑ k ∈ Finset.range (m + 1), (List.take 1 (a :: ap') ++ r).getD k 0 * (0:ℝ) ^ k = a := by
    intro m
    rw [Finset.sum_range_succ']
    simp
  have e6 : ∑ k ∈ Finset.range (ap'.length + 1), (a :: ap').getD k 0 *
      ((0:ℝ) ^ k - (-1:ℝ) ^ ((k:ℤ) - ((ap'.length + 1 : ℕ):ℤ)) * k / ((ap'.length + 1 : ℕ):ℝ) * 0 ^ (ap'.length + 1)) = a := by
    rw [Finset.sum_range_succ']
    simp
  have e7 : (min 1 (ap'.length + 1) + (n - 1)) = (n - 1) + 1 := by omega
  rw [e6, e7, e5]

/-- **C104**: the parametrisation with the Isgur-Wise relation for the tensor form factor fulfils `f₊(0) = f₀(0)`, for every process, every
`n ≥ 1`, every choice of `t0` and all parameters; and `f_T = (1 + a_T) f₊` at every `q²`. -/
theorem C104_bcl_isgurwise (process : String) (n : ℕ) (hn : 0 < n) (t0 : T0) :
    (Conserved fun q2 par => bclFFIW process q2 par n t0) ∧
    ∀ q2 par F aT, par (process ++ " IW a_T") = some aT → bclFFIW process q2 par n t0 = .ok F → F.fT = (1 + aT) * F.fp := by
  refine ⟨fun par F h => ?_, fun q2 par F aT ha h => ?_⟩
  · obtain ⟨pd, -, h⟩ := fbind h
    obtain ⟨mpl, -, h⟩ := fbind h
    obtain ⟨m0, -, h⟩ := fbind h
    obtain ⟨mB, -, h⟩ := fbind h
    obtain ⟨mP, -, h⟩ := fbind h
    obtain ⟨ap, -, h⟩ := fbind h
    obtain ⟨r, h7, h⟩ := fbind h
    obtain ⟨l, h8, h⟩ := fbind h
    obtain ⟨p1, h9, h⟩ := fbind h
    obtain ⟨fp, h10, h⟩ := fbind h
    obtain ⟨p3, h11, h⟩ := fbind h
    obtain ⟨f0, h12, h⟩ := fbind h
    obtain ⟨aT, -, h⟩ := fbind h
    rw [pole_zero] at h9 h11
    cases h9; cases h11; cases h
    have hl := coeffs_length h7
    rw [List.length_range] at hl
    obtain ⟨v, e1, e2⟩ := bclLastIW_value hl h8
    rw [e1] at h10; rw [e2] at h12
    cases h10; cases h12; rfl
  · obtain ⟨pd, -, h⟩ := fbind h
    obtain ⟨mpl, -, h⟩ := fbind h
    obtain ⟨m0, -, h⟩ := fbind h
    obtain ⟨mB, -, h⟩ := fbind h
    obtain ⟨mP, -, h⟩ := fbind h
    obtain ⟨ap, -, h⟩ := fbind h
    obtain ⟨r, h7, h⟩ := fbind h
    obtain ⟨l, h8, h⟩ := fbind h
    obtain ⟨p1, h9, h⟩ := fbind h
    obtain ⟨fp, h10, h⟩ := fbind h
    obtain ⟨p3, h11, h⟩ := fbind h
    obtain ⟨f0, h12, h⟩ := fbind h
    obtain ⟨aT', h13, h⟩ := fbind h
    unfold Par.get at h13
    rw [ha] at h13
    cases h13; cases h
    show p1 * fp * (1 + aT) = (1 + aT) * (p1 * fp)
    ring

/-- **C104**: the parametrisation of arXiv:2102.07233 fulfils `f₊(0) = f₀(0)`, the common value being the parameter `f_+(0)`; the tensor form
factor at zero is the parameter `f_T(0)`. -/
theorem C104_lmvd (process : String) (n : ℕ) (t0 : T0) :
    (Conserved fun q2 par => lmvdFF process q2 par n t0) ∧
    ∀ par F, lmvdFF process 0 par n t0 = .ok F →
      par (process ++ " BCL f_+(0)") = some F.fp ∧ par (process ++ " BCL f_T(0)") = some F.fT := by
  have key : ∀ par F, lmvdFF process 0 par n t0 = .ok F →
      F.fp = F.f0 ∧ par (process ++ " BCL f_+(0)") = some F.fp ∧ par (process ++ " BCL f_T(0)") = some F.fT := by
    intro par F h
    obtain ⟨pd, -, h⟩ := fbind h
    obtain ⟨mpl, -, h⟩ := fbind h
    obtain ⟨m0, -, h⟩ := fbind h
    obtain ⟨mB, -, h⟩ := fbind h
    obtain ⟨mP, -, h⟩ := fbind h
    obtain ⟨p0, h5, h⟩ := fbind h
    obtain ⟨bp, -, h⟩ := fbind h
    obtain ⟨t, h6, h⟩ := fbind h
    obtain ⟨bT, -, h⟩ := fbind h
    obtain ⟨p1, g1, h⟩ := fbind h
    obtain ⟨fp, g2, h⟩ := fbind h
    obtain ⟨p2, g3, h⟩ := fbind h
    obtain ⟨fT, g4, h⟩ := fbind h
    obtain ⟨b0, -, h⟩ := fbind h
    obtain ⟨p3, g5, h⟩ := fbind h
    obtain ⟨f0, g6, h⟩ := fbind h
    rw [pole_zero] at g1 g3 g5
    cases g1; cases g3; cases g5; cases h
    have a1 : fp = p0 := by
      obtain ⟨Z, e1, g2⟩ := fbind g2
      obtain ⟨Z0, e2, g2⟩ := fbind g2
      rw [e1] at e2; cases e2; cases g2
      rw [Finset.sum_eq_zero fun k _ => by ring]; simp
    have a2 : fT = t := by
      obtain ⟨Z, e1, g4⟩ := fbind g4
      obtain ⟨Z0, e2, g4⟩ := fbind g4
      rw [e1] at e2; cases e2; cases g4
      rw [Finset.sum_eq_zero fun k _ => by ring]; simp
    have a3 : f0 = p0 := by
      obtain ⟨Z, e1, g6⟩ := fbind g6
      obtain ⟨Z0, e2, g6⟩ := fbind g6
      rw [e1] at e2; cases e2; cases g6
      rw [Finset.sum_eq_zero fun k _ => by ring]; simp
    have get_some : ∀ k v, par.get k = .ok v → par k = some v := by
      intro k v hk
      unfold Par.get at hk
      revert hk
      cases par k with
      | none => intro hk; cases hk
      | some w => intro hk; cases hk; rfl
    refine ⟨?_, ?_, ?_⟩
    · show 1 * fp = 1 * f0
      rw [a1, a3]
    · show _ = some (1 * fp)
      rw [a1, one_mul]; exact get_some _ _ h5
    · show _ = some (1 * fT)
      rw [a2, one_mul]; exact get_some _ _ h6
  exact ⟨fun par F h => (key par F h).1, fun par F h => (key par F h).2⟩

theorem get_some {par : Par} {k : String} {v : ℝ} (h : par.get k = .ok v) : par k = some v := by
  unfold Par.get at h
  revert h
  cases par k with
  | none => intro h; cases h
  | some w => intro h; cases h; rfl

theorem get_of {par : Par} {k : String} {v : ℝ} (h : par k = some v) : par.get k = .ok v := by
  unfold Par.get; rw [h]

/-- Only the first coefficient counts at `q² = 0`. -/
theorem bszTerm_zero {m mB mP : ℝ} {a : ℝ} {l : List ℝ} {n : ℕ} {t0 : T0} {v : ℝ} (hn : 0 < n)
    (h : bszTerm m mB mP (a :: l) 0 n t0 = .ok v) : v = a := by
  obtain ⟨p, h1, h⟩ := fbind h
  obtain ⟨zs, h2, h⟩ := fbind h
  obtain ⟨d, h3, h⟩ := fbind h
  rw [pole_zero] at h1
  cases h1; cases h
  obtain ⟨x, g1, h2⟩ := fbind h2
  obtain ⟨y, g2, h2⟩ := fbind h2
  rw [g1] at g2
  cases g2; cases h2
  unfold dot at h3
  split_ifs at h3 with hl
  cases h3
  rcases n with _ | _ | _ | n
  · omega
  · simp
  · rcases l with _ | ⟨b, l⟩ <;> simp
  · rcases l with _ | ⟨b, _ | ⟨c, l⟩⟩ <;> simp

theorem head_coeff {par : Par} {pre i : String} {n : ℕ} {r : List ℝ} (hn : 0 < n)
    (h : coeffs par pre i (List.range n) = .ok r) : ∃ a l, r = a :: l ∧ par (pre ++ "0" ++ "_" ++ i) = some a := by
  obtain ⟨m, rfl⟩ : ∃ m, n = m + 1 := ⟨n - 1, by omega⟩
  have := coeffs_spec h
  rw [List.range_succ_eq_map] at this
  cases this with
  | cons h1 h2 => exact ⟨_, _, rfl, h1⟩

/-- **C104**: the BSZ parametrisation of `B → P` and `D → P` form factors fulfils `f₊(0) = f₀(0)`, the common value being the parameter `a0_f+`, and
`f_T(0)` is the parameter `a0_fT`, for every process, `n ≥ 1`, `t0` and all parameters. -/
theorem C104_bsz (proc : String → Except PyErr (String × String)) (process : String) (n : ℕ) (hn : 0 < n) (t0 : T0) :
    (Conserved fun q2 par => bszFF proc process q2 par n t0) ∧
    ∀ par F, bszFF proc process 0 par n t0 = .ok F →
      par (process ++ " BSZ a0_f+") = some F.fp ∧ par (process ++ " BSZ a0_fT") = some F.fT := by
  have key : ∀ par F, bszFF proc process 0 par n t0 = .ok F →
      F.fp = F.f0 ∧ par (process ++ " BSZ a0_f+") = some F.fp ∧ par (process ++ " BSZ a0_fT") = some F.fT := by
    intro par F h
    obtain ⟨pd, -, h⟩ := fbind h
    obtain ⟨mpl, -, h⟩ := fbind h
    obtain ⟨m0, -, h⟩ := fbind h
    obtain ⟨mB, -, h⟩ := fbind h
    obtain ⟨mP, -, h⟩ := fbind h
    obtain ⟨ap, h5, h⟩ := fbind h
    obtain ⟨aT, h6, h⟩ := fbind h
    obtain ⟨a00, h7, h⟩ := fbind h
    obtain ⟨r, h8, h⟩ := fbind h
    obtain ⟨fp, g1, h⟩ := fbind h
    obtain ⟨fT, g2, h⟩ := fbind h
    obtain ⟨f0, g3, h⟩ := fbind h
    cases h
    obtain ⟨a, l, rfl, e1⟩ := head_coeff hn h5
    obtain ⟨b, l', rfl, e2⟩ := head_coeff hn h6
    have k1 : process ++ " BSZ a" ++ "0" ++ "_" ++ "f+" = process ++ " BSZ a0_f+" := by
      simp only [String.append_assoc]; rfl
    have k2 : process ++ " BSZ a" ++ "0" ++ "_" ++ "fT" = process ++ " BSZ a0_fT" := by
      simp only [String.append_assoc]; rfl
    rw [k1] at e1
    rw [k2] at e2
    have e3 := get_some h7
    have e4 : a00 = a := by rw [e1] at e3; exact (Option.some.inj e3).symm
    refine ⟨?_, ?_, ?_⟩
    · show fp = f0
      rw [bszTerm_zero hn g1, bszTerm_zero hn g3, e4]
    · show _ = some fp
      rw [bszTerm_zero hn g1, e1]
    · show _ = some fT
      rw [bszTerm_zero hn g2, e2]
  exact ⟨fun par F h => (key par F h).1, fun par F h => (key par F h).2⟩

/-! ## The default BCL parametrisation misses the constraint -/

/-- **C104** (finding): in the BCL parametrisation with `t0 ≠ 0` the last `f₀` coefficient is computed with the wrong sign: at `q² = 0`,
`f₀(0) = 2 S - f₊(0)` with `S` the value of the truncated `f₀` series, so that `f₊(0) = f₀(0)` holds if and only if the truncated series already
has the right value.  The same holds for `D` decays. -/
theorem C104_bcl_constraint (process : String) (par : Par) (n : ℕ) (t0 : T0) (F : FFP) :
    (¬ t0.isZero → bclFF process 0 par n t0 = .ok F →
      ∃ mB mP Z r, z mB mP 0 t0 = .ok Z ∧ coeffs par (process ++ " BCL a") "f0" (List.range (n - 1)) = .ok r ∧
        F.f0 = 2 * ((par (process ++ " BCL chL")).getD 1 * ∑ k ∈ Finset.range (n - 1), r.getD k 0 * Z ^ k) - F.fp ∧
        (F.fp = F.f0 ↔ F.fp = (par (process ++ " BCL chL")).getD 1 * ∑ k ∈ Finset.range (n - 1), r.getD k 0 * Z ^ k)) ∧
    (bclFFD process 0 par n t0 = .ok F →
      ∃ mB mP Z r, z mB mP 0 t0 = .ok Z ∧ coeffs par (process ++ " BCL a") "f0" (List.range (n - 1)) = .ok r ∧
        F.f0 = 2 * (∑ k ∈ Finset.range (n - 1), r.getD k 0 * Z ^ k) - F.fp ∧
        (F.fp = F.f0 ↔ F.fp = ∑ k ∈ Finset.range (n - 1), r.getD k 0 * Z ^ k)) := by
  constructor
  · intro ht h
    obtain ⟨pd, -, h⟩ := fbind h
    obtain ⟨mpl, -, h⟩ := fbind h
    obtain ⟨m0, -, h⟩ := fbind h
    obtain ⟨mB, -, h⟩ := fbind h
    obtain ⟨mP, -, h⟩ := fbind h
    obtain ⟨ap, -, h⟩ := fbind h
    obtain ⟨aT, -, h⟩ := fbind h
    obtain ⟨a0, h8, h⟩ := fbind h
    unfold bclF0 at h8
    rw [if_neg ht] at h8
    obtain ⟨r, h9, h8⟩ := fbind h8
    obtain ⟨l, h10, h8⟩ := fbind h8
    cases h8
    have hl := coeffs_length h9
    rw [List.length_range] at hl
    obtain ⟨Z, fp, e1, e2, e3⟩ := bclLast_value hl h10
    obtain ⟨fp', f0', g1, g2, g3, g4⟩ := bclEval_zero h
    rw [e2] at g1; rw [e3] at g2
    cases g1; cases g2
    refine ⟨mB, mP, Z, r, e1, h9, ?_, ?_⟩
    · rw [g3, g4]; ring
    · rw [g3, g4]
      constructor <;> intro h <;> linarith
  · intro h
    obtain ⟨pd, -, h⟩ := fbind h
    obtain ⟨mpl, -, h⟩ := fbind h
    obtain ⟨m0, -, h⟩ := fbind h
    obtain ⟨mB, -, h⟩ := fbind h
    obtain ⟨mP, -, h⟩ := fbind h
    obtain ⟨ap, -, h⟩ := fbind h
    obtain ⟨aT, -, h⟩ := fbind h
    obtain ⟨r, h9, h⟩ := fbind h
    obtain ⟨l, h10, h⟩ := fbind h
    have hl := coeffs_length h9
    rw [List.length_range] at hl
    obtain ⟨Z, fp, e1, e2, e3⟩ := bclLast_value hl h10
    obtain ⟨fp', f0', g1, g2, g3, g4⟩ := bclEval_zero h
    rw [e2] at g1; rw [e3] at g2
    cases g1; cases g2
    refine ⟨mB, mP, Z, r, e1, h9, ?_, ?_⟩
    · rw [g3, g4]; ring
    · rw [g3, g4]
      constructor <;> intro h <;> linarith

theorem repr0 : Nat.repr 0 = "0" := rfl
theorem repr1 : Nat.repr 1 = "1" := rfl
theorem repr2 : Nat.repr 2 = "2" := rfl

/-- Parameters with which the default BCL parametrisation gives `f₊(0) = 1` and `f₀(0) = -1`: masses 3 and 1, no poles, `a0_f+ = 1`, all
other coefficients zero. (Specification.) -/
noncomputable def parBad (process : String) : Par := fun k =>
  if k = process ++ " BCL a0_f+" then some 1
  else if k = "m_B+" ∨ k = "m_B0" ∨ k = "m_Bs" ∨ k = "m_D0" then some 3
  else if k = "m_K0" ∨ k = "m_K+" ∨ k = "m_pi0" ∨ k = "m_pi+" then some 1
  else if k = process ++ " BCL chL" then none else some 0

/-- **C104** (finding, witness): the `B → K` and `D → K` BCL parametrisations with three coefficients break `f₊(0) = f₀(0)`. -/
theorem C104_bcl_violated :
    (¬ Conserved fun q2 par => bclFF "B->K" q2 par 3 .none) ∧ (¬ Conserved fun q2 par => bclFFD "D->K" q2 par 3 .none) := by
  have hopt : T0.none.val (((3:ℝ) - 1) ^ 2) ((3 + 1) ^ 2) < (3 + 1) ^ 2 := tOpt_lt (by norm_num) (by norm_num)
  obtain ⟨Z, hZ, -, -, -, hZ0, -⟩ := (C104_z (mB := 3) (mM := 1) (by norm_num) (by norm_num) .none hopt).1 0 (by norm_num)
  have hne : Z ≠ 0 := by
    intro h
    have := hZ0.1 h
    have h2 : tOpt (((3:ℝ) - 1) ^ 2) ((3 + 1) ^ 2) = 0 := this.symm
    unfold tOpt at h2
    have h3 : Real.sqrt (1 - (3 - 1) ^ 2 / (3 + 1) ^ 2) = 1 := by linarith
    rw [Real.sqrt_eq_one] at h3
    norm_num at h3
  have hp : ∀ a : List ℝ, a = [1, 0, 0] → paramFplusT 3 1 a 0 .none = .ok 1 := by
    rintro a rfl
    unfold paramFplusT
    rw [hZ]
    show Except.ok _ = _
    simp [Finset.sum_range_succ]
  have hl : bclLast 0 0 3 1 [1, 0, 0] [0, 0] 3 .none = .ok (-1 / Z ^ 2) := by
    unfold bclLast
    rw [pole_zero, hp _ rfl]
    have : paramF0 3 1 [0, 0] 0 .none = .ok 0 := by
      unfold paramF0
      rw [hZ]
      show Except.ok _ = _
      simp [Finset.sum_range_succ]
    rw [this, hZ]
    show pyDiv _ _ = _
    rw [Mixing.pyDiv_ne (pow_ne_zero _ hne)]
    norm_num
  have hT : ∃ t, paramFplusT 3 1 [0, 0, 0] 0 .none = .ok t := by
    unfold paramFplusT
    rw [hZ]
    exact ⟨_, rfl⟩
  obtain ⟨t, ht⟩ := hT
  have h0 : paramF0 3 1 ([0, 0] ++ [-1 / Z ^ 2]) 0 .none = .ok (-1) := by
    rw [paramF0_append hZ]
    simp [Finset.sum_range_succ]
    field_simp
  have he : bclEval 1 0 0 3 1 [1, 0, 0] [0, 0, 0] ([0, 0] ++ [-1 / Z ^ 2]) 0 .none = .ok ⟨1 * 1 * 1, 1 * 1 * -1, 1 * 1 * t⟩ := by
    unfold bclEval
    rw [pole_zero, hp _ rfl, ht, h0]
    rfl
  constructor
  · intro hc
    have : bclFF "B->K" 0 (parBad "B->K") 3 .none = .ok ⟨1 * 1 * 1, 1 * 1 * -1, 1 * 1 * t⟩ := by
      unfold bclFF
      have c1 : coeffs (parBad "B->K") ("B->K" ++ " BCL a") "f+" (List.range 3) = .ok [1, 0, 0] := by
        refine coeffs_of (fun j => if j = 0 then 1 else 0) fun j hj => ?_
        have : j < 3 := List.mem_range.1 hj
        interval_cases j <;> · simp [parBad, repr0, repr1, repr2]
      have c2 : coeffs (parBad "B->K") ("B->K" ++ " BCL a") "fT" (List.range 3) = .ok [0, 0, 0] := by
        refine coeffs_of (fun j => 0) fun j hj => ?_
        have : j < 3 := List.mem_range.1 hj
        interval_cases j <;> · simp [parBad, repr0, repr1, repr2]
      have c3 : coeffs (parBad "B->K") ("B->K" ++ " BCL a") "f0" (List.range (3 - 1)) = .ok [0, 0] := by
        refine coeffs_of (fun j => 0) fun j hj => ?_
        have : j < 2 := List.mem_range.1 hj
        interval_cases j <;> · simp [parBad, repr0, repr1, repr2]
      have g : ∀ k v, parBad "B->K" k = some v → (parBad "B->K").get k = .ok v := fun k v h => get_of h
      have hc' : bclF0 (parBad "B->K") "B->K" 0 0 3 1 [1, 0, 0] 3 .none = .ok ([0, 0] ++ [-1 / Z ^ 2]) := by
        unfold bclF0
        rw [if_neg (show ¬ T0.isZero .none from fun h => h), c3]
        show (bclLast _ _ _ _ _ _ _ _ >>= _) = _
        rw [hl]; rfl
      have hp : processP "B->K" = .ok ("B0", "K0") := rfl
      rw [hp, fok]
      rw [g ("B->K" ++ " BCL m+") 0 (by simp [parBad]), fok]
      rw [g ("B->K" ++ " BCL m0") 0 (by simp [parBad]), fok]
      rw [g ("m_" ++ "B0") 3 (by simp [parBad]), fok]
      rw [g ("m_" ++ "K0") 1 (by simp [parBad]), fok]
      rw [c1, fok]
      rw [c2, fok]
      rw [hc']
      have : (parBad "B->K" ("B->K" ++ " BCL chL")).getD 1 = 1 := by simp [parBad]
      show bclEval _ _ _ _ _ _ _ _ _ _ = _
      rw [this, he]
    have := hc _ _ this
    norm_num at this
  · intro hc
    have : bclFFD "D->K" 0 (parBad "D->K") 3 .none = .ok ⟨1 * 1 * 1, 1 * 1 * -1, 1 * 1 * t⟩ := by
      unfold bclFFD
      have c1 : coeffs (parBad "D->K") ("D->K" ++ " BCL a") "f+" (List.range 3) = .ok [1, 0, 0] := by
        refine coeffs_of (fun j => if j = 0 then 1 else 0) fun j hj => ?_
        have : j < 3 := List.mem_range.1 hj
        interval_cases j <;> · simp [parBad, repr0, repr1, repr2]
      have c2 : coeffs (parBad "D->K") ("D->K" ++ " BCL a") "fT" (List.range 3) = .ok [0, 0, 0] := by
        refine coeffs_of (fun j => 0) fun j hj => ?_
        have : j < 3 := List.mem_range.1 hj
        interval_cases j <;> · simp [parBad, repr0, repr1, repr2]
      have c3 : coeffs (parBad "D->K") ("D->K" ++ " BCL a") "f0" (List.range (3 - 1)) = .ok [0, 0] := by
        refine coeffs_of (fun j => 0) fun j hj => ?_
        have : j < 2 := List.mem_range.1 hj
        interval_cases j <;> · simp [parBad, repr0, repr1, repr2]
      have g : ∀ k v, parBad "D->K" k = some v → (parBad "D->K").get k = .ok v := fun k v h => get_of h
      have hp : processD "D->K" = .ok ("D0", "K+") := rfl
      rw [hp, fok]
      rw [g ("D->K" ++ " BCL m+") 0 (by simp [parBad]), fok]
      rw [g ("D->K" ++ " BCL m0") 0 (by simp [parBad]), fok]
      rw [g ("m_" ++ "D0") 3 (by simp [parBad]), fok]
      rw [g ("m_" ++ "K+") 1 (by simp [parBad]), fok]
      rw [c1, fok]
      rw [c2, fok]
      rw [c3, fok]
      rw [hl]
      show bclEval _ _ _ _ _ _ _ _ _ _ = _
      rw [he]
    have := hc _ _ this
    norm_num at this

end Verif.FormFactors
