import Mathlib.Analysis.SpecialFunctions.Log.Basic
import Mathlib.Tactic.Linarith
import Mathlib.Tactic.Positivity
import Mathlib.Algebra.Order.BigOperators.Group.List
import Mathlib.Algebra.BigOperators.Ring.List
import Mathlib.Data.Nat.Sqrt
import Verif.Plots.Theorems
/-!
# Density contours, contour levels and the deprecated `band_plot`
(`flavio/plots/plotfunctions.py` lines 405-501, 571-709)

Modelled: the number of bins, the search for the density levels and their conversion to a χ² scale, the levels
and opacities of `contour`, and how `likelihood_contour`, `density_contour` and `band_plot` pass their arguments
on.  Not modelled: the two-dimensional histogram, its smoothing by `scipy.signal.fftconvolve` (their result,
the array `f` before normalisation, is an input), the interpolation by `scipy.ndimage.zoom` and the drawing.
Arrays are flattened lists where the shape does not matter.
-/
set_option linter.unusedVariables false
namespace Verif.Plots
open Verif.Py

/-- The number of bins: `min(10*int(sqrt(len(x))), 200)` unless given.
/repo/flavio/plots/plotfunctions.py:423-424. -/
def nBins (given : Option ℕ) (n : ℕ) : ℕ := given.getD (min (10 * Nat.sqrt n) 200)

/-- `f/f.sum()`.  /repo/flavio/plots/plotfunctions.py:450. -/
noncomputable def normalise (f : List ℝ) : List ℝ := f.map fun v => v / f.sum

/-- `find_confidence_interval`: content of the cells above `x` minus the confidence level.
/repo/flavio/plots/plotfunctions.py:452-453. -/
noncomputable def excess (f : List ℝ) (cl x : ℝ) : ℝ := (f.filter fun v => decide (x < v)).sum - cl

/-- `scipy.optimize.brentq(g, 0., 1.)` (external): a `ValueError` if `g` has the same strict sign at both ends,
otherwise the answer of an abstract root finder.  (Used at /repo/flavio/plots/plotfunctions.py:454-456.) -/
noncomputable def brentq (root : (ℝ → ℝ) → ℝ) (g : ℝ → ℝ) : Except PyErr ℝ :=
  if 0 < g 0 * g 1 then .error .valueError else .ok (root g)

/-- `get_level`.  /repo/flavio/plots/plotfunctions.py:454-456. -/
noncomputable def getLevel (root : (ℝ → ℝ) → ℝ) (clOf : ℝ → ℝ) (f : List ℝ) (n : ℝ) : Except PyErr ℝ :=
  brentq root (excess f (clOf n))

/-- The argument `n_sigma`.  (Used for /repo/flavio/plots/plotfunctions.py:457-460.) -/
inductive NSigma where
  | one (n : ℝ)
  | many (l : List ℝ)

/-- Insertion into an ascending list.  (Used for `sorted`, /repo/flavio/plots/plotfunctions.py:460.) -/
noncomputable def insertAsc (x : ℝ) : List ℝ → List ℝ
  | [] => [x]
  | y :: l => if x ≤ y then x :: y :: l else y :: insertAsc x l

/-- `sorted(n_sigma)`.  /repo/flavio/plots/plotfunctions.py:460. -/
noncomputable def sortAsc : List ℝ → List ℝ
  | [] => []
  | x :: l => insertAsc x (sortAsc l)

/-- The values of `n_sigma` in the order of the levels.  /repo/flavio/plots/plotfunctions.py:457-460. -/
noncomputable def NSigma.list : NSigma → List ℝ
  | .one n => [n]
  | .many l => sortAsc l

/-- `f[f <= 0] = 1e-32`, then `-2*np.log(f)`.  /repo/flavio/plots/plotfunctions.py:463-465. -/
noncomputable def toChi2 (v : ℝ) : ℝ := -2 * Real.log (if v ≤ 0 then 1e-32 else v)

/-- The end of `density_contour_data` for the (non-empty) smoothed array `f0 :: f`: the array `z` and the
levels.  /repo/flavio/plots/plotfunctions.py:450-470. -/
noncomputable def densityData (root : (ℝ → ℝ) → ℝ) (clOf : ℝ → ℝ) (f0 : ℝ) (f : List ℝ) (ns : NSigma) :
    Except PyErr (List ℝ × List ℝ) :=
  let p := normalise (f0 :: f)
  ns.list.mapM (getLevel root clOf p) >>= fun levels =>
    let c := p.map toChi2
    let m := npMin (toChi2 (f0 / (f0 :: f).sum)) (f.map fun v => toChi2 (v / (f0 :: f).sum))
    .ok (c.map fun v => v - m, levels.map fun l => -2 * Real.log l - m)

/-! ## `contour` -/

/-- The opacities `max(1-n/N, 0)` of the fillings.  /repo/flavio/plots/plotfunctions.py:693-696. -/
noncomputable def alphas (N : ℕ) : List ℝ := (List.range N).map fun n : ℕ => max (1 - (n : ℝ) / N) 0

/-- `levelsf`: the levels of the fillings (`z0 :: z` the array after subtraction of the minimum).
/repo/flavio/plots/plotfunctions.py:701-702. -/
noncomputable def levelsF (z0 : ℝ) (z : List ℝ) (levels : List ℝ) : Except PyErr (List ℝ) :=
  match levels with
  | [] => .error .valueError
  | l0 :: l => .ok (min (npMin z0 z) (npMin l0 l * (1 - 1e-16)) :: l0 :: l)

/-! ## Keyword passing -/

/-- The keyword arguments of `likelihood_contour_data` that have defaults, as far as they matter here.
(Used for /repo/flavio/plots/plotfunctions.py:503-508.) -/
structure Scales where
  xscale : String := "linear"
  yscale : String := "linear"

/-- `likelihood_contour`: grid and values handed to `contour`.  The remaining keyword arguments, among them
`xscale` and `yscale` (here `given`), are only passed on to `contour`, which ignores unknown ones.
/repo/flavio/plots/plotfunctions.py:571-597, 634-643. -/
noncomputable def likelihoodContour (f : ℝ × ℝ → ℝ) (xMin xMax yMin yMax : ℝ) (steps threads : ℕ)
    (given : Scales) : Except PyErr (List (List (ℝ × ℝ)) × List (List ℝ)) :=
  contourData f xMin xMax yMin yMax "linear" "linear" steps threads

/-- `band_plot`: grid and values handed to `contour`.  Without `pre_calculated_z` those of
`likelihood_contour_data` with the given scales; with it, linear axes of `nx` and `ny` points, where
`nx, ny = z.shape`, i.e. `nx` is the number of rows of `z`.
/repo/flavio/plots/plotfunctions.py:600-631. -/
noncomputable def bandPlot (f : ℝ × ℝ → ℝ) (xMin xMax yMin yMax : ℝ) (steps threads : ℕ) (given : Scales)
    (pre : Option (List (List ℝ))) (ny : ℕ) : Except PyErr (List (List (ℝ × ℝ)) × List (List ℝ)) :=
  match pre with
  | none => contourData f xMin xMax yMin yMax given.xscale given.yscale steps threads
  | some z => .ok (meshgrid (linspace xMin xMax z.length) (linspace yMin yMax ny), z)

end Verif.Plots
