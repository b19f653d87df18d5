import Verif.Py.Basic
import Verif.Py.ExceptLemmas
import Mathlib.Algebra.Order.Field.Basic
import Mathlib.Algebra.BigOperators.Group.List.Basic
import Mathlib.Algebra.Order.Ring.Unbundled.Rat
import Mathlib.Data.Nat.Basic
import Mathlib.Tactic.Ring
import Mathlib.Tactic.Linarith
import Mathlib.Tactic.FieldSimp
import Mathlib.Tactic.NormNum
/-!
# Model of `flavio.statistics.probability.NumericalDistribution`

Numbers are elements of an ordered field `K`; rounding, `nan` and `inf` are not modelled (the theorems
therefore assume a PDF table with positive total, for which the code produces neither).
-/
set_option linter.unusedSectionVars false
set_option linter.unusedSimpArgs false
set_option linter.unusedVariables false
namespace Verif.Probability
open Verif.Py

variable {K : Type} [Field K] [LinearOrder K] [IsStrictOrderedRing K]

/-! ## numpy / scipy helpers -/

/-- `np.diff(x)` (Used for `cdfTable`, /repo/flavio/statistics/probability.py:891-893.) -/
def diff : List K → List K
  | a :: b :: r => (b - a) :: diff (b :: r)
  | _ => []

/-- `np.trapz(y, x=x)`: trapezoidal rule.
(Used for `normalise`, /repo/flavio/statistics/probability.py:887-888.) -/
def trapz : List K → List K → K
  | y0 :: y1 :: ys, x0 :: x1 :: xs => (x1 - x0) * (y1 + y0) / 2 + trapz (y1 :: ys) (x1 :: xs)
  | _, _ => 0

/-- `np.cumsum` with running total `s`.
(Used for `cdfTable`, /repo/flavio/statistics/probability.py:891-893.) -/
def cumsumFrom (s : K) : List K → List K
  | [] => []
  | a :: r => (s + a) :: cumsumFrom (s + a) r

/-- `np.argmax(y)`: index of the first maximal element.
(Used for `argmax`, /repo/flavio/statistics/probability.py:879-887.) -/
def argmaxFrom (best : K) (ibest i : Nat) : List K → Nat
  | [] => ibest
  | a :: r => if best < a then argmaxFrom a i (i + 1) r else argmaxFrom best ibest (i + 1) r

/-- `np.argmax(y)`; on an empty array numpy raises `ValueError`.
(Used for `chooseCentral`, /repo/flavio/statistics/probability.py:879-887.) -/
def argmax : List K → Except PyErr Nat
  | [] => .error .valueError
  | a :: r => .ok (argmaxFrom a 0 1 r)

/-- The straight line through two points.
(Used for `interpFrom`, /repo/flavio/statistics/probability.py:909-910.) -/
def line (a b : K × K) (t : K) : K := (b.2 - a.2) / (b.1 - a.1) * (t - a.1) + a.2

/-- `np.interp` to the right of the grid point `a`: the segment `[x_j, x_(j+1))` containing `t` is used,
the last value at (and beyond) the last grid point.
(Used for `interp1d`, /repo/flavio/statistics/probability.py:909-910.) -/
def interpFrom (a : K × K) : List (K × K) → K → K
  | [], _ => a.2
  | b :: r, t => if t < b.1 then line a b t else interpFrom b r t

/-- `scipy.interpolate.interp1d(x, y)(t)` for a table of points sorted by `x` (`bounds_error=True`: values
outside the table raise `ValueError`).
(Used for `Num.ppf`, /repo/flavio/statistics/probability.py:909-910.) -/
def interp1d : List (K × K) → K → Except PyErr K
  | [], _ => .error .valueError
  | a :: r, t =>
    if t < a.1 ∨ (((a :: r).getLast (by simp)).1 < t) then .error .valueError
    else .ok (interpFrom a r t)

/-- `interp1d(x, y, fill_value=0, bounds_error=False)(t)`.
(Used for `Num.pdf`, /repo/flavio/statistics/probability.py:915-916.) -/
def interp1dFill : List (K × K) → K → K
  | [], _ => 0
  | a :: r, t =>
    if t < a.1 ∨ (((a :: r).getLast (by simp)).1 < t) then 0 else interpFrom a r t

/-! ## The class -/

/-- The attributes of a `NumericalDistribution` (/repo/flavio/statistics/probability.py:864-896). -/
structure Num (K : Type) where
  x : List K
  y : List K
  central : K
  support : K × K
  yNorm : List K
  cdfTab : List K

/-- /repo/flavio/statistics/probability.py:887-888: `y / np.trapz(y, x=x)`, negative values set to zero. -/
def normalise (x y : List K) : List K :=
  y.map fun v => if v / trapz y x < 0 then 0 else v / trapz y x

/-- /repo/flavio/statistics/probability.py:891-893: the table of the CDF. -/
def cdfTable (x yn : List K) : List K :=
  let c := 0 :: cumsumFrom 0 (List.zipWith (· * ·) yn.dropLast (diff x))
  c.map fun v => v / c.getLast (by simp [c])

/-- /repo/flavio/statistics/probability.py:879-887: choice of the central value; `x[0]` of an empty array raises `IndexError`. -/
def chooseCentral (x y : List K) : Option K → Except PyErr K
  | some c =>
    match x with
    | [] => .error .indexError
    | x0 :: r => if x0 ≤ c ∧ c ≤ (x0 :: r).getLast (by simp) then .ok c else .error .valueError
  | none =>
    argmax y >>= fun k =>
      match x[k]? with
      | some c => .ok c
      | none => .error .indexError

/-- /repo/flavio/statistics/probability.py:887-896: the rest of the constructor; arrays of different length make `np.trapz`
raise `ValueError`. -/
def finishNum (x y : List K) (c : K) : Except PyErr (Num K) :=
  match x with
  | [] => .error .indexError
  | x0 :: r =>
    if y.length ≠ (x0 :: r).length then .error .valueError
    else .ok ⟨x0 :: r, y, c, (x0, (x0 :: r).getLast (by simp)), normalise (x0 :: r) y,
      cdfTable (x0 :: r) (normalise (x0 :: r) y)⟩

/-- /repo/flavio/statistics/probability.py:864-896 `NumericalDistribution.__init__`. -/
def Num.mk' (x y : List K) (central : Option K) : Except PyErr (Num K) :=
  chooseCentral x y central >>= fun c => finishNum x y c

/-- /repo/flavio/statistics/probability.py:909-910 -/
def Num.ppf (d : Num K) (p : K) : Except PyErr K := interp1d (d.cdfTab.zip d.x) p
/-- /repo/flavio/statistics/probability.py:912-913 -/
def Num.cdf (d : Num K) (t : K) : Except PyErr K := interp1d (d.x.zip d.cdfTab) t
/-- /repo/flavio/statistics/probability.py:915-916 -/
def Num.pdf (d : Num K) (t : K) : K := interp1dFill (d.x.zip d.yNorm) t

/-- `method` argument of the error methods: the two that do not need a root finder.
(Used for `Num.errorLeft`, /repo/flavio/statistics/probability.py:937-962.) -/
inductive ErrMethod where
  | central
  | limit

/-- /repo/flavio/statistics/probability.py:937-962 `get_error_left` for `method='central'` and `method='limit'`; `cl` is
`confidence_level(nsigma)`. -/
def Num.errorLeft (d : Num K) (cl : K) : ErrMethod → Except PyErr K
  | .limit => do let q ← d.ppf (1 - cl); .ok (d.central - q)
  | .central => do
    let cc ← d.cdf d.central
    let q ← d.ppf (cc * (1 - cl))
    .ok (d.central - q)

/-- /repo/flavio/statistics/probability.py:964-989 `get_error_right` for `method='central'` and `method='limit'`. -/
def Num.errorRight (d : Num K) (cl : K) : ErrMethod → Except PyErr K
  | .limit => do let q ← d.ppf cl; .ok (q - d.central)
  | .central => do
    let cc ← d.cdf d.central
    let q ← d.ppf (cc + (1 - cc) * cl)
    .ok (q - d.central)

/-! ## Interpolation lemmas -/

/-- A table with strictly increasing abscissae and weakly increasing ordinates. (Specification.) -/
def Tab (l : List (K × K)) : Prop := l.Pairwise fun a b => a.1 < b.1 ∧ a.2 ≤ b.2

theorem line_left (a b : K × K) : line a b a.1 = a.2 := by unfold line; ring

theorem line_mono {a b : K × K} (h1 : a.1 < b.1) (h2 : a.2 ≤ b.2) {s t : K} (h : s ≤ t) :
    line a b s ≤ line a b t := by
  unfold line
  have : 0 ≤ (b.2 - a.2) / (b.1 - a.1) := div_nonneg (by linarith) (by linarith)
  have := mul_le_mul_of_nonneg_left (show s - a.1 ≤ t - a.1 by linarith) this
  linarith

theorem line_right {a b : K × K} (h1 : a.1 < b.1) : line a b b.1 = b.2 := by
  unfold line
  rw [div_mul_cancel₀ _ (by linarith)]
  ring

theorem interpFrom_ge {a : K × K} {l : List (K × K)} (h : Tab (a :: l)) {t : K} (ht : a.1 ≤ t) :
    a.2 ≤ interpFrom a l t := by
  induction l generalizing a with
  | nil => exact le_refl _
  | cons b r ih =>
    unfold interpFrom
    have hab := (List.pairwise_cons.1 h).1 b (by simp)
    split
    · calc a.2 = line a b a.1 := (line_left a b).symm
        _ ≤ _ := line_mono hab.1 hab.2 ht
    · rename_i hb
      exact le_trans hab.2 (ih (List.pairwise_cons.1 h).2 (not_lt.1 hb))

theorem interpFrom_mono {a : K × K} {l : List (K × K)} (h : Tab (a :: l)) {s t : K} (hs : a.1 ≤ s)
    (hst : s ≤ t) : interpFrom a l s ≤ interpFrom a l t := by
  induction l generalizing a with
  | nil => exact le_refl _
  | cons b r ih =>
    have hab := (List.pairwise_cons.1 h).1 b (by simp)
    have hr := (List.pairwise_cons.1 h).2
    unfold interpFrom
    by_cases h1 : s < b.1
    · rw [if_pos h1]
      by_cases h2 : t < b.1
      · rw [if_pos h2]; exact line_mono hab.1 hab.2 hst
      · rw [if_neg h2]
        calc line a b s ≤ line a b b.1 := line_mono hab.1 hab.2 h1.le
          _ = b.2 := line_right hab.1
          _ ≤ _ := interpFrom_ge hr (not_lt.1 h2)
    · rw [if_neg h1, if_neg (by linarith)]
      exact ih hr (not_lt.1 h1)

theorem interpFrom_last {a : K × K} {l : List (K × K)} (h : Tab (a :: l)) :
    interpFrom a l ((a :: l).getLast (by simp)).1 = ((a :: l).getLast (by simp)).2 := by
  induction l generalizing a with
  | nil => rfl
  | cons b r ih =>
    have hr := (List.pairwise_cons.1 h).2
    rw [List.getLast_cons (by simp)]
    unfold interpFrom
    rw [if_neg]
    · exact ih hr
    · have : ∀ q ∈ b :: r, b.1 ≤ q.1 := by
        intro q hq
        rcases List.mem_cons.1 hq with rfl | hq
        · exact le_refl _
        · exact ((List.pairwise_cons.1 hr).1 q hq).1.le
      exact not_lt.2 (this _ (List.getLast_mem _))

/-- Interpolating in the swapped table and then in the table gives the argument back, as long as the
abscissae are strictly increasing. -/
theorem interpFrom_swap {a : K × K} {l : List (K × K)} (h : Tab (a :: l)) {p : K} (hp : a.2 ≤ p)
    (hl : p ≤ ((a :: l).getLast (by simp)).2) :
    a.1 ≤ interpFrom a.swap (l.map Prod.swap) p ∧
    interpFrom a l (interpFrom a.swap (l.map Prod.swap) p) = p ∧
    interpFrom a.swap (l.map Prod.swap) p ≤ ((a :: l).getLast (by simp)).1 := by
  induction l generalizing a with
  | nil =>
    simp only [List.getLast_singleton] at hl ⊢
    exact ⟨le_refl _, le_antisymm hp hl, le_refl _⟩
  | cons b r ih =>
    have hab := (List.pairwise_cons.1 h).1 b (by simp)
    have hr := (List.pairwise_cons.1 h).2
    rw [List.getLast_cons (by simp)] at hl
    have hblast : b.1 ≤ ((b :: r).getLast (by simp)).1 := by
      rcases List.mem_cons.1 (List.getLast_mem (l := b :: r) (by simp)) with hq | hq
      · rw [hq]
      · exact ((List.pairwise_cons.1 hr).1 _ hq).1.le
    simp only [List.map_cons]
    by_cases hpb : p < b.2
    · have hpos : 0 < b.2 - a.2 := by linarith
      have hx : interpFrom a.swap (b.swap :: r.map Prod.swap) p = line a.swap b.swap p := by
        simp only [interpFrom, Prod.fst_swap, if_pos hpb]
      have hlo : a.1 ≤ line a.swap b.swap p := by
        unfold line
        simp only [Prod.fst_swap, Prod.snd_swap]
        have : 0 ≤ (b.1 - a.1) / (b.2 - a.2) * (p - a.2) :=
          mul_nonneg (div_nonneg (by linarith) hpos.le) (by linarith)
        linarith
      have hhi : line a.swap b.swap p < b.1 := by
        unfold line
        simp only [Prod.fst_swap, Prod.snd_swap]
        have h1 : (b.1 - a.1) / (b.2 - a.2) * (p - a.2) < (b.1 - a.1) / (b.2 - a.2) * (b.2 - a.2) :=
          mul_lt_mul_of_pos_left (by linarith) (div_pos (by linarith) hpos)
        rw [div_mul_cancel₀ _ (ne_of_gt hpos)] at h1
        linarith
      rw [hx]
      refine ⟨hlo, ?_, ?_⟩
      · unfold interpFrom
        rw [if_pos hhi]
        unfold line
        simp only [Prod.fst_swap, Prod.snd_swap]
        have h1 : b.1 - a.1 ≠ 0 := by linarith [hab.1] |> fun h : 0 < b.1 - a.1 => ne_of_gt h
        have h2 : b.2 - a.2 ≠ 0 := ne_of_gt hpos
        field_simp
        ring
      · rw [List.getLast_cons (by simp)]
        exact le_trans hhi.le hblast
    · have hx : interpFrom a.swap (b.swap :: r.map Prod.swap) p =
          interpFrom b.swap (r.map Prod.swap) p := by
        simp only [interpFrom, Prod.fst_swap, if_neg hpb]
      rw [hx]
      obtain ⟨h1, h2, h3⟩ := ih hr (not_lt.1 hpb) hl
      refine ⟨le_trans hab.1.le h1, ?_, ?_⟩
      · rw [show interpFrom a (b :: r) (interpFrom b.swap (r.map Prod.swap) p) =
            interpFrom b r (interpFrom b.swap (r.map Prod.swap) p) by
          rw [interpFrom, if_neg (not_lt.2 h1)]]
        exact h2
      · rw [List.getLast_cons (by simp)]; exact h3

end Verif.Probability
