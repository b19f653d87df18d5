import Verif.Py.Basic
import Verif.Py.ExceptLemmas
import Mathlib.Algebra.Order.Field.Basic
import Mathlib.Tactic.NormNum
import Mathlib.Tactic.Ring
import Mathlib.Data.Fintype.Basic
import Mathlib.Order.Fin.Basic
import Mathlib.Algebra.Order.Ring.Unbundled.Rat
import Mathlib.Tactic.Linarith
import Mathlib.Tactic.FinCases
/-!
# C27: `flavio.measurements._fix_correlation_matrix`

Numbers are elements of an ordered field `K` (the code uses floats; rounding is not modelled).
-/
set_option linter.unusedSectionVars false
set_option linter.unusedSimpArgs false
set_option linter.unusedVariables false
namespace Verif.Measurements
open Verif.Py

variable {K : Type} [Field K] [LinearOrder K] [IsStrictOrderedRing K]

/-- The argument `corr` as read from YAML: a number, a list of rows, or something else that `float`
rejects with `TypeError` and that is not a list.
(Used for `fixCorr`, /repo/flavio/measurements.py:104-143.) -/
inductive CorrArg (K : Type) where
  | number (x : K)
  | rows (l : List (List K))
  | other

/-- /repo/flavio/measurements.py:127-137: one pass of the loop, giving row `i` of the matrix (as a function of the
column). -/
def fixRow (n i : Nat) (line : List K) : Except PyErr (Nat → K) :=
  if line.length = n then
    if line[i]? ≠ some 1 then .error .valueError
    else .ok fun j => line.getD j 0
  else if line.length = n - i then
    if line[0]? ≠ some 1 then .error .valueError
    else .ok fun j => if j < i then 0 else line.getD (j - i) 0
  else .error .valueError

/-- Square matrices as functions of row and column.
(Used for `symmetrise`, /repo/flavio/measurements.py:138-142.) -/
abbrev Mat (n : Nat) (K : Type) := Fin n → Fin n → K
/-- `m.T` (Used for `symmetrise`, /repo/flavio/measurements.py:138-142.) -/
def Mat.swap {n : Nat} {K : Type} (m : Mat n K) : Mat n K := fun i j => m j i

/-- `np.allclose(a, b)` with the default tolerances `atol=1e-8`, `rtol=1e-5`.
(Used for `symmetrise`, /repo/flavio/measurements.py:138-142.) -/
def Allclose {n : Nat} (a b : Mat n K) : Prop :=
  ∀ i j, |a i j - b i j| ≤ 1 / 10 ^ 8 + 1 / 10 ^ 5 * |b i j|

/-- /repo/flavio/measurements.py:138-142: symmetrise unless already symmetric (up to `allclose`). -/
noncomputable def symmetrise {n : Nat} (m : Mat n K) : Mat n K :=
  open Classical in
  if Allclose m (Mat.swap m) then m
  else fun i j => m i j + m j i - if i = j then m i j else 0

/-- /repo/flavio/measurements.py:104-143 `_fix_correlation_matrix`.  (`np.eye(n) + (np.ones(n,n)-np.eye(n))*x` for a
number; the loop raises at the first bad row.) -/
noncomputable def fixCorr (corr : CorrArg K) (n : Nat) : Except PyErr (Mat n K) :=
  match corr with
  | .number x => .ok fun i j => (if i = j then 1 else 0) + (1 - if i = j then 1 else 0) * x
  | .other => .error .typeError
  | .rows l =>
    if l.length ≠ n then .error .valueError
    else do
      let rs ← l.zipIdx.mapM fun e => fixRow n e.2 e.1
      .ok (symmetrise fun i j => (rs.getD i fun _ => 0) j)

theorem symmetrise_close {n : Nat} {m : Mat n K} (h : Allclose m (Mat.swap m)) :
    symmetrise m = m := by unfold symmetrise; rw [if_pos h]
theorem symmetrise_not {n : Nat} {m : Mat n K} (h : ¬ Allclose m (Mat.swap m)) :
    symmetrise m = fun i j => m i j + m j i - if i = j then m i j else 0 := by
  unfold symmetrise; rw [if_neg h]

/-! ## Specification -/

/-- Row `i` is given in full with 1 on the diagonal. (Specification.) -/
def FullRow (n i : Nat) (line : List K) : Prop := line.length = n ∧ line[i]? = some 1
/-- Row `i` is given from the diagonal on, starting with 1. (Specification.) -/
def UpperRow (n i : Nat) (line : List K) : Prop := line.length = n - i ∧ line[0]? = some 1
/-- The rows are the upper triangle of a matrix with unit diagonal. (Specification.) -/
def IsUpper (n : Nat) (rows : List (List K)) : Prop :=
  rows.length = n ∧ ∀ (i : Nat) (line), rows[i]? = some line → UpperRow n i line
/-- The rows are a full matrix with unit diagonal. (Specification.) -/
def IsFull (n : Nat) (rows : List (List K)) : Prop :=
  rows.length = n ∧ ∀ (i : Nat) (line), rows[i]? = some line → FullRow n i line

/-- Entry as written. (Specification.) -/
def entry (rows : List (List K)) (i j : Nat) : K := (rows.getD i []).getD j 0

/-! ## Proofs -/

theorem fixRow_upper {n i : Nat} {line : List K} (hi : i < n) (h : UpperRow n i line) :
    fixRow n i line = .ok fun j => if j < i then 0 else line.getD (j - i) 0 := by
  obtain ⟨hl, h1⟩ := h
  unfold fixRow
  by_cases h0 : i = 0
  · subst h0
    rw [if_pos (by simpa using hl), if_neg (by simpa using h1)]
    simp
  · rw [if_neg (by omega), if_pos hl, if_neg (by simpa using h1)]

theorem fixRow_full {n i : Nat} {line : List K} (h : FullRow n i line) :
    fixRow n i line = .ok fun j => line.getD j 0 := by
  obtain ⟨hl, h1⟩ := h
  unfold fixRow
  rw [if_pos hl, if_neg (by simpa using h1)]

theorem fixRow_ok_iff {n i : Nat} {line : List K} (hi : i < n) :
    (∃ r, fixRow n i line = .ok r) ↔ FullRow n i line ∨ UpperRow n i line := by
  constructor
  · rintro ⟨r, h⟩
    unfold fixRow at h
    split at h
    · split at h
      · cases h
      · rename_i h1 h2; exact Or.inl ⟨h1, by simpa using h2⟩
    · split at h
      · split at h
        · cases h
        · rename_i h1 h2; exact Or.inr ⟨h1, by simpa using h2⟩
      · cases h
  · rintro (h | h)
    · exact ⟨_, fixRow_full h⟩
    · exact ⟨_, fixRow_upper hi h⟩

theorem fixRow_err {n i : Nat} {line : List K} {e : PyErr} (h : fixRow n i line = .error e) :
    e = .valueError := by
  unfold fixRow at h
  repeat' split at h
  all_goals first | cases h; rfl | cases h

theorem mapM_err {α β : Type} (f : α → Except PyErr β) (l : List α) {e : PyErr}
    (hf : ∀ a ∈ l, ∀ e, f a = .error e → e = .valueError) (h : l.mapM f = .error e) : e = .valueError := by
  induction l with
  | nil => cases h
  | cons a l ih =>
    rw [List.mapM_cons] at h
    cases ha : f a with
    | error e' =>
      rw [ha] at h
      injection h with h
      subst h
      exact hf a (by simp) _ ha
    | ok b =>
      rw [ha] at h
      cases hl : l.mapM f with
      | error e' =>
        change (do let rs ← List.mapM f l; pure (b :: rs)) = _ at h
        rw [hl] at h
        injection h with h
        subst h
        exact ih (fun a ha => hf a (by simp [ha])) hl
      | ok r =>
        change (do let rs ← List.mapM f l; pure (b :: rs)) = _ at h
        rw [hl] at h; cases h

/-- Rows computed one by one. -/
theorem mapM_rows (n : Nat) (rows : List (List K)) (g : Nat → List K → Nat → K)
    (h : ∀ (i : Nat) line, rows[i]? = some line → fixRow n i line = .ok (g i line)) :
    rows.zipIdx.mapM (fun e => fixRow n e.2 e.1) = .ok (rows.zipIdx.map fun e => g e.2 e.1) := by
  rw [mapM_ok_iff]
  rw [List.forall₂_map_right_iff, List.forall₂_same]
  rintro ⟨line, i⟩ he
  have := List.mem_zipIdx_iff_getElem?.1 he
  exact h i line this

theorem fixCorr_rows (n : Nat) (rows : List (List K)) (hlen : rows.length = n)
    (g : Nat → List K → Nat → K)
    (h : ∀ (i : Nat) line, rows[i]? = some line → fixRow n i line = .ok (g i line)) :
    fixCorr (.rows rows) n = .ok (symmetrise fun i j => g i (rows.getD i []) j) := by
  simp only [fixCorr]
  rw [if_neg (by simp [hlen]), mapM_rows n rows g h]
  show Except.ok _ = _
  congr 2
  funext i j
  have hi : (i : Nat) < rows.length := by rw [hlen]; exact i.2
  simp [List.getD, List.getElem?_map, List.getElem?_zipIdx, List.getElem?_eq_getElem hi]

theorem tol_pos : (0 : K) < 1 / 10 ^ 8 := by positivity

/-- **C27 (number)** A number `x` gives 1 on the diagonal and `x` elsewhere. -/
theorem C27_number (x : K) (n : Nat) :
    ∃ m, fixCorr (.number x) n = .ok m ∧ ∀ i j : Fin n, m i j = if i = j then 1 else x := by
  refine ⟨_, rfl, fun i j => ?_⟩
  by_cases h : i = j <;> simp [h]

/-- **C27 (upper triangle)** For upper-triangular rows with unit diagonal the result has exactly the given
entries on and above the diagonal, and is symmetric, *provided* some entry above the diagonal exceeds
numpy's tolerance `1e-8` in absolute value, or they are all zero. -/
theorem C27_upper_triangle_partial (n : Nat) (rows : List (List K)) (h : IsUpper n rows) :
    ∃ m, fixCorr (.rows rows) n = .ok m ∧
      (∀ i j : Fin n, i ≤ j → m i j = entry rows i (j - i)) ∧ (∀ i, m i i = 1) ∧
      (((∃ i j : Fin n, i < j ∧ 1 / 10 ^ 8 < |entry rows i (j - i)|) ∨
        (∀ i j : Fin n, i < j → entry rows i (j - i) = 0)) → ∀ i j, m i j = m j i) := by
  have hrow : ∀ (i : Nat) line, rows[i]? = some line →
      fixRow n i line = .ok fun j => if j < i then 0 else line.getD (j - i) 0 := by
    intro i line hl
    refine fixRow_upper ?_ (h.2 i line hl)
    rw [← h.1]
    by_contra hc
    rw [List.getElem?_eq_none (by omega)] at hl; cases hl
  have key := fixCorr_rows n rows h.1 _ hrow
  refine ⟨_, key, ?_, ?_, ?_⟩
  · intro i j hij
    unfold entry
    have hij' : ¬ (j : Nat) < i := not_lt.2 hij
    by_cases hac : Allclose (fun i j : Fin n => if (j : Nat) < i then 0 else (rows.getD i []).getD (j - i) 0)
      (Mat.swap fun i j : Fin n => if (j : Nat) < i then 0 else (rows.getD i []).getD (j - i) 0)
    · rw [symmetrise_close hac]; simp [hij']
    · rw [symmetrise_not hac]
      by_cases he : i = j
      · subst he; simp
      · have : (i : Nat) < j := lt_of_le_of_ne hij (fun h => he (Fin.ext h))
        simp [hij', this, he]
  · intro i
    have hi : (i : Nat) < rows.length := by rw [h.1]; exact i.2
    have h1 := (h.2 i rows[(i : Nat)] (List.getElem?_eq_getElem hi)).2
    have : (rows.getD i []).getD 0 0 = (1 : K) := by
      simp [List.getD, List.getElem?_eq_getElem hi, h1]
    by_cases hac : Allclose (fun i j : Fin n => if (j : Nat) < i then 0 else (rows.getD i []).getD (j - i) 0)
      (Mat.swap fun i j : Fin n => if (j : Nat) < i then 0 else (rows.getD i []).getD (j - i) 0)
    · rw [symmetrise_close hac]; simp [this, -List.getD_eq_getElem?_getD]
    · rw [symmetrise_not hac]; simp [this, -List.getD_eq_getElem?_getD]
  · intro hcase
    intro i j
    by_cases hac : Allclose (fun i j : Fin n => if (j : Nat) < i then 0 else (rows.getD i []).getD (j - i) 0)
      (Mat.swap fun i j : Fin n => if (j : Nat) < i then 0 else (rows.getD i []).getD (j - i) 0)
    · rw [symmetrise_close hac]
      rcases hcase with ⟨a, b, hab, hbig⟩ | hz
      · exfalso
        have := hac a b
        have hab' : (a : Nat) < b := hab
        simp only [Mat.swap, hab', if_true, sub_zero, abs_zero, mul_zero, add_zero,
          not_lt.2 hab'.le, if_false] at this
        exact absurd this (not_le.2 hbig)
      · rcases lt_trichotomy i j with hij | hij | hij
        · have hij' : (i : Nat) < j := hij
          have := hz i j hij
          unfold entry at this
          simp only [hij', not_lt.2 hij'.le, if_true, if_false, this]
        · rw [hij]
        · have hij' : (j : Nat) < i := hij
          have := hz j i hij
          unfold entry at this
          simp only [hij', not_lt.2 hij'.le, if_true, if_false, this]
    · rw [symmetrise_not hac]
      by_cases he : i = j
      · subst he; rfl
      · simp only [he, Ne.symm he, if_false]; ring

/-- **C27 (full matrix)** A full symmetric matrix with unit diagonal is returned unchanged. -/
theorem C27_full_matrix (n : Nat) (rows : List (List K)) (h : IsFull n rows)
    (hs : ∀ i j : Fin n, entry rows i j = entry rows j i) :
    ∃ m, fixCorr (.rows rows) n = .ok m ∧ ∀ i j : Fin n, m i j = entry rows i j := by
  refine ⟨_, fixCorr_rows n rows h.1 (fun _ line j => line.getD j 0)
    (fun i line hl => fixRow_full (h.2 i line hl)), fun i j => ?_⟩
  rw [symmetrise_close]
  · rfl
  · intro a b
    have := hs a b
    unfold entry at this
    simp only [Mat.swap, this, sub_self, abs_zero]
    positivity

/-- **C27 (malformed input)** Something that is neither a number nor a list raises `TypeError`; a list of
rows is accepted exactly if it has `n` rows and every row is a full row or an upper-triangular row with
1 at the diagonal position, and raises `ValueError` otherwise. -/
theorem C27_malformed (n : Nat) (rows : List (List K)) :
    fixCorr (CorrArg.other : CorrArg K) n = .error .typeError ∧
    ((∃ m, fixCorr (.rows rows) n = .ok m) ↔ rows.length = n ∧
      ∀ (i : Nat) line, rows[i]? = some line → FullRow n i line ∨ UpperRow n i line) ∧
    ((¬ ∃ m, fixCorr (.rows rows) n = .ok m) → fixCorr (.rows rows) n = .error .valueError) := by
  refine ⟨rfl, ?_, ?_⟩
  · simp only [fixCorr]
    by_cases hl : rows.length = n
    · rw [if_neg (by simp [hl])]
      constructor
      · rintro ⟨m, hm⟩
        refine ⟨hl, fun i line hi => ?_⟩
        have hin : i < n := by
          rw [← hl]; by_contra hc
          rw [List.getElem?_eq_none (by omega)] at hi; cases hi
        by_contra hbad
        have : ¬ ∃ r, fixRow n i line = .ok r := fun h => hbad ((fixRow_ok_iff hin).1 h)
        have hr : raises (fixRow n i line) := by
          cases hf : fixRow n i line with
          | ok r => exact absurd ⟨r, hf⟩ this
          | error e => exact ⟨e, rfl⟩
        obtain ⟨e, he⟩ := mapM_raises (fun e : List K × Nat => fixRow n e.2 e.1) rows.zipIdx
          (a := (line, i)) (List.mem_zipIdx_iff_getElem?.2 hi) hr
        rw [he] at hm; cases hm
      · rintro ⟨-, h⟩
        obtain ⟨r, hr⟩ := mapM_ok_of_forall (fun e : List K × Nat => fixRow n e.2 e.1) rows.zipIdx (by
          rintro ⟨line, i⟩ he
          have hi := List.mem_zipIdx_iff_getElem?.1 he
          have hin : i < n := by
            rw [← hl]; by_contra hc
            simp only at hi
            rw [List.getElem?_eq_none (by omega)] at hi; cases hi
          exact (fixRow_ok_iff hin).2 (h i line hi))
        rw [hr]; exact ⟨_, rfl⟩
    · rw [if_pos (by simpa using hl)]
      constructor
      · rintro ⟨m, hm⟩; cases hm
      · rintro ⟨h, -⟩; exact absurd h hl
  · intro hno
    simp only [fixCorr] at hno ⊢
    by_cases hl : rows.length = n
    · rw [if_neg (by simp [hl])] at hno ⊢
      cases hm : rows.zipIdx.mapM (fun e => fixRow n e.2 e.1) with
      | ok r => rw [hm] at hno; exact absurd ⟨_, rfl⟩ hno
      | error e =>
        have := mapM_err _ _ (fun a _ e => fixRow_err) hm
        subst this; rfl
    · rw [if_pos (by simpa using hl)]

/-- The tolerance matters: an upper triangle whose entries are below `1e-8` is returned as it is, not
symmetrised. -/
theorem C27_tiny_entries_not_symmetrised :
    ∃ m : Mat 2 ℚ, fixCorr (.rows [[1, 1 / 10 ^ 9], [1]]) 2 = .ok m ∧
      m 0 1 = 1 / 10 ^ 9 ∧ m 1 0 = 0 := by
  have key := fixCorr_rows (K := ℚ) 2 [[1, 1 / 10 ^ 9], [1]] rfl
    (fun i line j => if j < i then 0 else line.getD (j - i) 0) (by
      intro i line h
      rcases i with _ | _ | i
      · simp at h; subst h; exact fixRow_upper (by omega) ⟨rfl, rfl⟩
      · simp at h; subst h; exact fixRow_upper (by omega) ⟨rfl, rfl⟩
      · simp at h)
  refine ⟨_, key, ?_⟩
  rw [symmetrise_close]
  · simp
  · intro i j
    fin_cases i <;> fin_cases j <;> norm_num [Mat.swap]

/-- A mixture of full and upper-triangular rows is accepted, but the entries given twice are added:
`[[1, a, b], [a, 1, c], [1]]` gives `2a` as correlation of the first two. -/
theorem C27_mixed_rows_doubled :
    ∃ m : Mat 3 ℚ,
      fixCorr (.rows [[1, 1 / 10, 1 / 5], [1 / 10, 1, 3 / 10], [1]]) 3 = .ok m ∧ m 0 1 = 1 / 5 := by
  have key := fixCorr_rows (K := ℚ) 3 [[1, 1 / 10, 1 / 5], [1 / 10, 1, 3 / 10], [1]] rfl
    (fun i line j => if i = 2 then (if j < i then 0 else line.getD (j - i) 0) else line.getD j 0) (by
      intro i line h
      rcases i with _ | _ | _ | i
      · simp at h; subst h; exact fixRow_full ⟨rfl, rfl⟩
      · simp at h; subst h; exact fixRow_full ⟨rfl, rfl⟩
      · simp at h; subst h; exact fixRow_upper (by omega) ⟨rfl, rfl⟩
      · simp at h)
  refine ⟨_, key, ?_⟩
  rw [symmetrise_not]
  · simp; norm_num
  · intro h
    have := h 0 2
    norm_num [Mat.swap] at this

/-- Concrete instance of `C27_upper_triangle_partial`: the docstring-like example with three observables. -/
example : IsUpper 3 ([[1, 1 / 10, 1 / 5], [1, 3 / 10], [1]] : List (List ℚ)) := by
  refine ⟨rfl, fun i line h => ?_⟩
  rcases i with _ | _ | _ | i <;> simp at h <;> subst h <;> exact ⟨rfl, rfl⟩
example : ∃ i j : Fin 3, i < j ∧ (1 : ℚ) / 10 ^ 8 <
    |entry [[1, 1 / 10, 1 / 5], [1, 3 / 10], [1]] i (j - i)| := by
  refine ⟨0, 1, by decide, ?_⟩
  simp [entry]; norm_num

end Verif.Measurements
