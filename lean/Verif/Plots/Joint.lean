import Mathlib.Tactic.Common
import Mathlib.Data.List.Basic
import Mathlib.Data.List.Induction
/-!
# Density contours with marginals: which axes are drawn into
-/
set_option linter.unusedVariables false
set_option linter.unusedSectionVars false
namespace Verif.Joint

variable {D : Type}

/-- What is drawn: the contours of the points `(x, y)`, or the smooth histogram of some data
(/repo/flavio/plots/plotfunctions.py:886,895,901). -/
inductive Item (D : Type) where
  | contour (x y : D)
  | hist (x : D) (flipped : Bool)

/-- The state of `pyplot`: number of axes made so far (axes are numbered), the current axes, and what was drawn into
which axes, oldest first (/repo/flavio/plots/plotfunctions.py:844-910). -/
structure Plt (D : Type) where
  count : Nat
  cur : Nat
  drawn : List (Nat × Item D)

/-- `plt.subplot(...)`: new axes, which become the current ones (/repo/flavio/plots/plotfunctions.py:884). -/
def subplot (s : Plt D) : Nat × Plt D := (s.count, ⟨s.count + 1, s.count, s.drawn⟩)

/-- `plt.sca(a)` (/repo/flavio/plots/plotfunctions.py:894). -/
def sca (s : Plt D) (a : Nat) : Plt D := { s with cur := a }

/-- Drawing goes into the current axes (`plt.gca()` in `contour` and `likelihood_plot`)
(/repo/flavio/plots/plotfunctions.py:786). -/
def draw (s : Plt D) (i : Item D) : Plt D := { s with drawn := s.drawn ++ [(s.cur, i)] }

/-- The axes given, or new ones (/repo/flavio/plots/plotfunctions.py:883-884,892-893,898-899). -/
def axesOr (s : Plt D) : Option Nat → Nat × Plt D
  | some a => (a, s)
  | none => subplot s

/-- The axes passed to and returned by the function (/repo/flavio/plots/plotfunctions.py:910). -/
structure Axes where
  ax2d : Option Nat
  axX : Option Nat
  axY : Option Nat

/-- `density_contour_joint` (colours, labels and layout are left out) (/repo/flavio/plots/plotfunctions.py:844-910). -/
def joint (s : Plt D) (a : Axes) (x y : D) : Axes × Plt D :=
  let r2 := axesOr s a.ax2d
  let s := draw r2.2 (.contour x y)
  let rx := axesOr s a.axX
  let s := draw (sca rx.2 rx.1) (.hist x false)
  let ry := axesOr s a.axY
  let s := draw (sca ry.2 ry.1) (.hist y true)
  (⟨some r2.1, some rx.1, some ry.1⟩, sca s r2.1)

/-- No axes passed (/repo/flavio/plots/plotfunctions.py:848). -/
def noAxes : Axes := ⟨none, none, none⟩

/-- **C159.** Without given axes, three new, different axes are made; the contours are drawn into the first, the
histogram of `x` into the second and the (flipped) histogram of `y` into the third; these axes are returned and the
first is the current one afterwards. -/
theorem C159_new_axes (s : Plt D) (x y : D) :
    let n := s.count
    joint s noAxes x y = (⟨some n, some (n + 1), some (n + 2)⟩,
      ⟨n + 3, n, s.drawn ++ [(n, .contour x y), (n + 1, .hist x false), (n + 2, .hist y true)]⟩) := by
  simp [joint, noAxes, axesOr, subplot, draw, sca]

/-- **C159.** With given axes, if the first of them are the current axes, everything is drawn into the given axes. -/
theorem C159_given_axes_partial (s : Plt D) (a ax ay : Nat) (x y : D) (hc : s.cur = a) :
    joint s ⟨some a, some ax, some ay⟩ x y = (⟨some a, some ax, some ay⟩,
      ⟨s.count, a, s.drawn ++ [(a, .contour x y), (ax, .hist x false), (ay, .hist y true)]⟩) := by
  simp [joint, axesOr, draw, sca, hc]

/-- A sequence of plots in which each call gets the axes returned by the one before, as in the docstring
(/repo/flavio/plots/plotfunctions.py:871-875). -/
def chain (s : Plt D) : Axes → List (D × D) → Axes × Plt D
  | a, [] => (a, s)
  | a, p :: ps => chain (joint s a p.1 p.2).2 (joint s a p.1 p.2).1 ps

theorem chain_given (ps : List (D × D)) (s : Plt D) (a ax ay : Nat) (hc : s.cur = a) :
    chain s ⟨some a, some ax, some ay⟩ ps = (⟨some a, some ax, some ay⟩, ⟨s.count, a, s.drawn ++
      ps.flatMap fun p => [(a, .contour p.1 p.2), (ax, .hist p.1 false), (ay, .hist p.2 true)]⟩) := by
  induction ps generalizing s with
  | nil => simp [chain, ← hc]
  | cons p ps ih =>
    rw [chain, C159_given_axes_partial s a ax ay p.1 p.2 hc]
    rw [ih _ rfl]
    simp

/-- **C159 (several distributions in one figure).** When the returned axes are passed on from call to call and nothing
else changes the current axes in between, all contours are in one pair of axes and the histograms in two others,
whatever the number of distributions. -/
theorem C159_chain (s : Plt D) (p : D × D) (ps : List (D × D)) :
    ∃ a ax ay, a ≠ ax ∧ a ≠ ay ∧ ax ≠ ay ∧ s.count ≤ a ∧ s.count ≤ ax ∧ s.count ≤ ay ∧
      (chain s noAxes (p :: ps)).1 = ⟨some a, some ax, some ay⟩ ∧
      (chain s noAxes (p :: ps)).2.drawn = s.drawn ++
        (p :: ps).flatMap fun p => [(a, .contour p.1 p.2), (ax, .hist p.1 false), (ay, .hist p.2 true)] := by
  refine ⟨s.count, s.count + 1, s.count + 2, by omega, by omega, by omega, by omega, by omega, by omega, ?_, ?_⟩
  · rw [chain, C159_new_axes s p.1 p.2, chain_given _ _ _ _ _ rfl]
  · rw [chain, C159_new_axes s p.1 p.2, chain_given _ _ _ _ _ rfl]
    simp

/-- **C159 (why only partial).** If other axes are the current ones, the contours are drawn into those, although
`ax_2d` was given (and is returned); only the histograms go where they should. -/
theorem C159_wrong_axes (s : Plt D) (a ax ay : Nat) (x y : D) (hc : s.cur ≠ a) :
    (joint s ⟨some a, some ax, some ay⟩ x y).1.ax2d = some a ∧
    (joint s ⟨some a, some ax, some ay⟩ x y).2.drawn =
      s.drawn ++ [(s.cur, .contour x y), (ax, .hist x false), (ay, .hist y true)] ∧ s.cur ≠ a := by
  refine ⟨rfl, ?_, hc⟩
  simp [joint, axesOr, draw, sca]

/-- **C159 (why only partial, a history).** Two separate joint plots, then a second distribution for the first: its
contours end up in the second plot. -/
theorem C159_two_plots (x₁ y₁ x₂ y₂ x₃ y₃ : D) :
    let r₁ := joint (⟨0, 0, []⟩ : Plt D) noAxes x₁ y₁
    let r₂ := joint r₁.2 noAxes x₂ y₂
    let r₃ := joint r₂.2 r₁.1 x₃ y₃
    r₁.1.ax2d = some 0 ∧ r₂.1.ax2d = some 3 ∧
    r₃.2.drawn = r₂.2.drawn ++ [(3, .contour x₃ y₃), (1, .hist x₃ false), (2, .hist y₃ true)] := by
  refine ⟨rfl, rfl, rfl⟩

/-- **C159.** The previous drawings are never changed. -/
theorem C159_keeps (s : Plt D) (a : Axes) (x y : D) :
    s.drawn <+: (joint s a x y).2.drawn ∧ (joint s a x y).2.drawn.length = s.drawn.length + 3 := by
  obtain ⟨a2, ax, ay⟩ := a
  cases a2 <;> cases ax <;> cases ay <;> simp [joint, axesOr, subplot, draw, sca]

/-- Non-vacuity. -/
example : (⟨3, 0, []⟩ : Plt Nat).cur = 0 ∧ (⟨6, 3, []⟩ : Plt Nat).cur ≠ 0 := ⟨rfl, by decide⟩

end Verif.Joint
