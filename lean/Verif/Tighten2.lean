import Verif.Parse.AllStrings
import Verif.Dict.Theorems4
import Verif.Likelihood.Theorems
import Verif.Plots.Theorems
import Verif.Probability.NumericalTheorems
import Verif.Probability.Multivariate
/-!
# Theorems added after the second round of mutation testing
-/
set_option linter.unusedSectionVars false
set_option linter.unusedSimpArgs false
set_option linter.unusedVariables false
open Verif.Py

namespace Verif.Parse
open Verif.Py.Re

/-- **C22 (errors that are not positive)** As soon as one of the parsed errors (symmetric, plus or minus) is not
positive, building the distributions raises `ValueError`; otherwise it succeeds. -/
theorem C22_nonpositive_errors (e : Errors) :
    ((∃ x ∈ e.sym, x ≤ 0) ∨ (∃ p ∈ e.asym, p.1 ≤ 0 ∨ p.2 ≤ 0) → distsOfErrors e = .error .valueError) ∧
    (¬((∃ x ∈ e.sym, x ≤ 0) ∨ (∃ p ∈ e.asym, p.1 ≤ 0 ∨ p.2 ≤ 0)) →
      distsOfErrors e = .ok ((e.sym.map fun x => .normal e.central x) ++
        (e.asym.map fun p => .asymNormal e.central p.1 p.2))) := by
  have hn : ∀ l : List ℚ, (∃ x ∈ l, x ≤ 0) → l.mapM (mkNormal e.central) = .error .valueError := by
    intro l
    induction l with
    | nil => rintro ⟨x, h, -⟩; cases h
    | cons a l ih =>
      rintro ⟨x, h, h0⟩
      rw [List.mapM_cons]
      by_cases ha : a ≤ 0
      · simp only [mkNormal, if_pos ha]; rfl
      · rcases List.mem_cons.1 h with rfl | h
        · exact absurd h0 ha
        · simp only [mkNormal, if_neg ha]
          rw [ih ⟨x, h, h0⟩]; rfl
  have hn' : ∀ l : List ℚ, (¬∃ x ∈ l, x ≤ 0) →
      l.mapM (mkNormal e.central) = .ok (l.map fun x => .normal e.central x) := by
    intro l
    induction l with
    | nil => intro _; rfl
    | cons a l ih =>
      intro h
      rw [List.mapM_cons, ih (fun ⟨x, hx, h0⟩ => h ⟨x, by simp [hx], h0⟩)]
      have ha : ¬ a ≤ 0 := fun h0 => h ⟨a, by simp, h0⟩
      simp only [mkNormal, if_neg ha]; rfl
  have ha : ∀ l : List (ℚ × ℚ), (∃ p ∈ l, p.1 ≤ 0 ∨ p.2 ≤ 0) →
      l.mapM (fun p => mkAsym e.central p.1 p.2) = .error .valueError := by
    intro l
    induction l with
    | nil => rintro ⟨x, h, -⟩; cases h
    | cons a l ih =>
      rintro ⟨x, h, h0⟩
      rw [List.mapM_cons]
      by_cases ha : a.1 ≤ 0 ∨ a.2 ≤ 0
      · simp only [mkAsym, if_pos ha]; rfl
      · rcases List.mem_cons.1 h with rfl | h
        · exact absurd h0 ha
        · simp only [mkAsym, if_neg ha]
          have := ih ⟨x, h, h0⟩
          unfold mkAsym at this
          rw [this]; rfl
  have ha' : ∀ l : List (ℚ × ℚ), (¬∃ p ∈ l, p.1 ≤ 0 ∨ p.2 ≤ 0) →
      l.mapM (fun p => mkAsym e.central p.1 p.2) = .ok (l.map fun p => .asymNormal e.central p.1 p.2) := by
    intro l
    induction l with
    | nil => intro _; rfl
    | cons a l ih =>
      intro h
      rw [List.mapM_cons, ih (fun ⟨x, hx, h0⟩ => h ⟨x, by simp [hx], h0⟩)]
      have ha : ¬ (a.1 ≤ 0 ∨ a.2 ≤ 0) := fun h0 => h ⟨a, by simp, h0⟩
      simp only [mkAsym, if_neg ha]; rfl
  unfold distsOfErrors
  constructor
  · intro h
    by_cases hs : ∃ x ∈ e.sym, x ≤ 0
    · rw [hn _ hs]; rfl
    · rw [hn' _ hs, ha _ (h.resolve_left hs)]; rfl
  · intro h
    rw [hn' _ (fun hs => h (Or.inl hs)), ha' _ (fun hs => h (Or.inr hs))]; rfl

/-- The two cases occur: a vanishing plus error, a vanishing minus error. -/
theorem C22_nonpositive_errors_examples :
    constraintsFromString "1.0 + 0.0 - 0.2".toList = .error .valueError ∧
    constraintsFromString "1.0 + 0.2 - 0.0".toList = .error .valueError ∧
    constraintsFromString "1.0 + 0.2 - 0.1".toList = .ok (.list [.asymNormal 1 (1 / 5) (1 / 10)]) := by
  refine ⟨?_, ?_, ?_⟩ <;> decide +kernel

theorem dropUnderscores_digits (l : List Char) (hl : l.all isDigit = true) (rest r : List Char) (b : Bool)
    (hne : l ≠ []) (h : dropUnderscores true rest = some r) : dropUnderscores b (l ++ rest) = some (l ++ r) := by
  induction l generalizing b with
  | nil => exact absurd rfl hne
  | cons c l ih =>
    have hc : isDigit c = true := by simp at hl; exact hl.1
    have hl' : l.all isDigit = true := by simp at hl ⊢; exact hl.2
    have hcu : c ≠ '_' := by rintro rfl; revert hc; decide
    have : dropUnderscores b (c :: (l ++ rest)) = (dropUnderscores true (l ++ rest)).map (c :: ·) := by
      rw [dropUnderscores, if_neg hcu, hc]
      intro x s h1; exact absurd h1 hcu
    rw [List.cons_append, this]
    cases l with
    | nil => rw [List.nil_append, h]; rfl
    | cons d l => rw [ih hl' true (by simp)]; rfl

/-- **C21 (digit groups)** A number may be written with underscores between groups of digits, as in `1_000_000`:
it is read as the number without the underscores. -/
theorem C21_digit_groups (g : List Char) (gs : List (List Char)) (hg : ∀ l ∈ g :: gs, l ≠ [] ∧ l.all isDigit = true) :
    dropUnderscores false (g ++ gs.flatMap fun l => '_' :: l) = some (g ++ gs.flatten) := by
  have hrest : ∀ gs : List (List Char), (∀ l ∈ gs, l ≠ [] ∧ l.all isDigit = true) →
      dropUnderscores true (gs.flatMap fun l => '_' :: l) = some gs.flatten := by
    intro gs
    induction gs with
    | nil => intro _; rfl
    | cons l gs ih =>
      intro h
      obtain ⟨h1, h2⟩ := h l (by simp)
      have ih' := ih (fun l hl => h l (by simp [hl]))
      cases l with
      | nil => exact absurd rfl h1
      | cons c l =>
        have hc : isDigit c = true := by simp at h2; exact h2.1
        have hl' : l.all isDigit = true := by simp at h2 ⊢; exact h2.2
        rw [List.flatMap_cons, List.cons_append, List.cons_append, dropUnderscores]
        simp only [hc, Bool.and_self, if_true, List.flatten_cons]
        cases l with
        | nil => rw [List.nil_append, ih']; rfl
        | cons d l => rw [dropUnderscores_digits _ hl' _ _ true (by simp) ih']; rfl
  exact dropUnderscores_digits g (hg g (by simp)).2 _ _ false (hg g (by simp)).1
    (hrest gs (fun l hl => hg l (by simp [hl])))

/-- A concrete number with three groups. -/
theorem C21_digit_groups_example : constraintsFromString "1_000_000".toList = .ok (.list [.delta (.fin 1000000)]) ∧
    constraintsFromString "1__0".toList = .error .valueError := by
  constructor <;> decide +kernel

end Verif.Parse

namespace Verif.DistDict
open Verif.Probability

/-- **C38 (even spacing)** The tolerance of the check for evenly spaced axes: an axis with spacings `1` and `1 - ε`
is accepted exactly up to `ε = 1/1000`. -/
theorem C38_even_spacing (ε : ℝ) (h0 : 0 ≤ ε) :
    (ε ≤ 1 / 1000 → evenCheck [0, 1, 2 - ε] = .ok ()) ∧
    (1 / 1000 < ε → evenCheck [0, 1, 2 - ε] = .error .valueError) := by
  have e : diff [0, 1, 2 - ε] = [1, 1 - ε] := by
    simp [diff]; ring
  have e1 : max (1:ℝ) (1 - ε) = 1 := max_eq_left (by linarith)
  have e2 : min (1:ℝ) (1 - ε) = 1 - ε := min_eq_right (by linarith)
  unfold evenCheck
  rw [e]
  simp only [List.foldl_cons, List.foldl_nil, e1, e2, div_one, one_ne_zero, false_and, false_or, ne_eq,
    not_false_eq_true, true_and]
  rw [show 1 - ε - 1 = -ε by ring, abs_neg, abs_of_nonneg h0]
  exact ⟨fun h => by rw [if_neg (not_lt.2 h)], fun h => by rw [if_pos h]⟩

end Verif.DistDict

namespace Verif.Likelihood
open Verif.Constraints
variable {P R V L : Type} [DecidableEq P] [DecidableEq R]

/-- **C48 (no parameters given)** Without a list of parameters the parameter log-likelihood raises `TypeError`. -/
theorem C48_no_parameters [AddCommMonoid L] (f : R → PdfArg V → Except PyErr L) (s : CState P R) (par : P → Option V) :
    parameterLogLikelihood f s none par = .error .typeError := rfl

end Verif.Likelihood

namespace Verif.Plots

/-- **C67 (`bin_plot_exp`: values drawn)** A bin `(a, b)` with central value `v` and errors `(r, l)` is drawn at the
midpoint with half the width as horizontal error; without the division by the width the values are `v, l, r` times the
scale factor; with it, multiplying by the width gives those back. -/
theorem C67_point_values (sf a b v r l : ℝ) :
    point false sf ((a, b), (v, r, l)) = ((a + b) / 2, (b - a) / 2, sf * v, sf * l, sf * r) ∧
    (a < b → ∃ y yl yr, point true sf ((a, b), (v, r, l)) = ((a + b) / 2, (b - a) / 2, y, yl, yr) ∧
      y * (b - a) = sf * v ∧ yl * (b - a) = sf * l ∧ yr * (b - a) = sf * r) := by
  constructor
  · unfold point
    simp only [Bool.false_eq_true, if_false, div_one, add_comm b a]
  · intro h
    have : b - a ≠ 0 := by linarith
    refine ⟨sf * (v / (b - a)), sf * (l / (b - a)), sf * (r / (b - a)), ?_, ?_, ?_, ?_⟩
    · unfold point; simp only [if_true, add_comm b a]
    all_goals field_simp

end Verif.Plots

namespace Verif.Probability
variable {K : Type} [Field K] [LinearOrder K] [IsStrictOrderedRing K]

/-- **C43 (lengths)** A table whose `x` and `y` have different lengths is rejected with `ValueError` when a central
value is given and there is at least one point. -/
theorem C43_length_mismatch (x y : List K) (c : K) (hx : x ≠ []) (h : x.length ≠ y.length) :
    Num.mk' x y (some c) = .error .valueError := by
  cases x with
  | nil => exact absurd rfl hx
  | cons x0 r =>
    unfold Num.mk' chooseCentral
    simp only []
    split_ifs with hc
    · rw [ok_bind_eq]
      unfold finishNum
      simp only []
      rw [if_pos (Ne.symm h)]
    · rfl

/-- **C74 (support)** The support of a multivariate normal is, for every component, centred at the central value and
reaches six standard deviations to each side. -/
theorem C74_support {n : ℕ} (d : MVN n) (i : Fin n) :
    d.central i - d.support.1 i = 6 * d.sd i ∧ d.support.2 i - d.central i = 6 * d.sd i := by
  unfold MVN.support
  constructor <;> ring

end Verif.Probability
