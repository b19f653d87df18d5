import Mathlib.Data.Real.Basic
import Mathlib.Analysis.SpecialFunctions.Log.Base
import Verif.Py.Dict
import Verif.Py.ExceptLemmas
/-!
# Plot functions (`flavio/plots`)

What is modelled is the data handed to matplotlib and the values returned, not the drawing.
-/
set_option linter.unusedVariables false
namespace Verif.Plots
open Verif.Py

/-! ## Colours -/

/-- The deprecated `col` argument. (Used for `getColor`, /repo/flavio/plots/colors.py:85-97.) -/
inductive Col where
  | int (n : Int)
  | other

/-- `get_color`.  /repo/flavio/plots/colors.py:85-97. -/
def getColor (col : Option Col) (color : Option String) : Except PyErr String :=
  match col, color with
  | none, none => .ok "C0"
  | none, some c => .ok c
  | some .other, _ => .error .valueError
  | some (.int n), _ => .ok ("C" ++ toString n)

/-! ## `pdf_plot` -/

/-- `x or default` for an optional number: `None` and 0 are false.
(Used for `pdfRange`, /repo/flavio/plots/plotfunctions.py:751-752.) -/
noncomputable def orDefault (x : Option ℝ) (d : ℝ) : ℝ :=
  match x with
  | none => d
  | some v => if v = 0 then d else v

/-- The plot range of `pdf_plot`.  /repo/flavio/plots/plotfunctions.py:751-752. -/
noncomputable def pdfRange (xMin xMax : Option ℝ) (support : ℝ × ℝ) : ℝ × ℝ :=
  (orDefault xMin support.1, orDefault xMax support.2)

/-! ## `error_budget_pie` -/

/-- Keys of the error budget: a parameter (or any string), a tuple of parameters, or something else.
(Used for `pieLabel`, /repo/flavio/plots/plotfunctions.py:43-51.) -/
inductive BKey where
  | str (s : String)
  | tup (l : List String)
  deriving DecidableEq

/-- `flavio.Parameter[k].tex`: the registered parameters with their TeX names.
(Used for `pieLabel`, /repo/flavio/plots/plotfunctions.py:43-51.) -/
abbrev TexDict := Dict String String

/-- The label of one wedge.  /repo/flavio/plots/plotfunctions.py:43-51. -/
def pieLabel (tex : TexDict) : BKey → Except PyErr String
  | .str s => .ok ((Dict.get? tex s).getD s)
  | .tup l => l.mapM (Dict.getItem tex) >>= fun ks => .ok (String.intercalate ", " ks)

/-- Sum of the squared errors.  /repo/flavio/plots/plotfunctions.py:35. -/
noncomputable def varTot (d : Dict BKey ℝ) : ℝ := (d.map fun e => e.2 ^ 2).sum

/-- `sorted(err_dict.items(), key=lambda t: -t[1])`: descending, stable.
/repo/flavio/plots/plotfunctions.py:36. -/
noncomputable def insertDesc (e : BKey × ℝ) : List (BKey × ℝ) → List (BKey × ℝ)
  | [] => [e]
  | f :: l => if -e.2 ≤ -f.2 then e :: f :: l else f :: insertDesc e l

/-- Insertion sort (from the right, so that it is stable).
(Used for `errorBudgetPie`, /repo/flavio/plots/plotfunctions.py:20-67.) -/
noncomputable def sortDesc : List (BKey × ℝ) → List (BKey × ℝ)
  | [] => []
  | e :: l => insertDesc e (sortDesc l)

/-- The loop over the sorted errors: labels and fractions of the large contributions, and the small
fractions.  `value**2/var_tot` raises `ZeroDivisionError` if the total vanishes.
/repo/flavio/plots/plotfunctions.py:40-54. -/
noncomputable def pieLoop (tex : TexDict) (cutoff tot : ℝ) :
    List (BKey × ℝ) → Except PyErr (List String × List ℝ × List ℝ)
  | [] => .ok ([], [], [])
  | (k, v) :: l =>
    if tot = 0 then .error .zeroDivisionError
    else if cutoff < v ^ 2 / tot then
      pieLabel tex k >>= fun lab => pieLoop tex cutoff tot l >>= fun r =>
        .ok (lab :: r.1, v ^ 2 / tot :: r.2.1, r.2.2)
    else pieLoop tex cutoff tot l >>= fun r => .ok (r.1, r.2.1, v ^ 2 / tot :: r.2.2)

/-- The wedge "other" for the small contributions.  /repo/flavio/plots/plotfunctions.py:55-57. -/
noncomputable def pieFinish (r : List String × List ℝ × List ℝ) : List (String × ℝ) :=
  (r.1.zip r.2.1) ++ (if r.2.2 = [] then [] else [("other", r.2.2.sum)])

/-- `error_budget_pie`: the labelled wedges passed to `plt.pie`.
/repo/flavio/plots/plotfunctions.py:20-67. -/
noncomputable def errorBudgetPie (tex : TexDict) (d : Dict BKey ℝ) (cutoff : ℝ) :
    Except PyErr (List (String × ℝ)) :=
  pieLoop tex cutoff (varTot d) (sortDesc d) >>= fun r => .ok (pieFinish r)

/-! ## `contour` -/

/-- `np.min` of a non-empty array. (Used for `contourZ`, /repo/flavio/plots/plotfunctions.py:669-680.) -/
noncomputable def npMin (z : ℝ) (l : List ℝ) : ℝ := l.foldl min z

/-- The normalised function values of `contour` (array `z₀ :: z`).
/repo/flavio/plots/plotfunctions.py:669-680. -/
noncomputable def contourZ (z0 : ℝ) (z : List ℝ) (zMin : Option ℝ) : Except PyErr (List ℝ) :=
  match zMin with
  | none => .ok ((z0 :: z).map fun v => v - npMin z0 z)
  | some m => if npMin z0 z < m then .error .valueError else .ok ((z0 :: z).map fun v => v - m)

/-! ## Grids -/

/-- `np.linspace(a, b, n)`. (Used for `axis`, /repo/flavio/plots/plotfunctions.py:528-543.) -/
noncomputable def linspace (a b : ℝ) (n : Nat) : List ℝ :=
  (List.range n).map fun i : Nat => if n = 1 then a else a + i * ((b - a) / (n - 1))

/-- `np.logspace(log10 a, log10 b, n)`. (Used for `axis`, /repo/flavio/plots/plotfunctions.py:528-543.) -/
noncomputable def logspace (a b : ℝ) (n : Nat) : List ℝ :=
  (linspace (Real.logb 10 a) (Real.logb 10 b) n).map fun e => (10 : ℝ) ^ e

/-- One axis of the grid.  /repo/flavio/plots/plotfunctions.py:528-543. -/
noncomputable def axis (scale : String) (a b : ℝ) (n : Nat) : Except PyErr (List ℝ) :=
  if scale = "linear" then .ok (linspace a b n)
  else if scale = "log" then
    (if a ≤ 0 ∨ b ≤ 0 then .error .valueError else .ok (logspace a b n))
  else .error .valueError

/-- The rows of `np.meshgrid(_x, _y)` as points: row `i` has constant `y`.
(Used for `serialZ`, /repo/flavio/plots/plotfunctions.py:545-549.) -/
def meshgrid (xs ys : List ℝ) : List (List (ℝ × ℝ)) := ys.map fun y => xs.map fun x => (x, y)

/-- `-2*log_likelihood` on every point of the grid.  /repo/flavio/plots/plotfunctions.py:545-549. -/
def serialZ (f : ℝ × ℝ → ℝ) (xs ys : List ℝ) : List (List ℝ) :=
  (meshgrid xs ys).map fun row => row.map fun p => -2 * f p

/-- `a.reshape((m, n))` of a flat array in row-major order.
(Used for `parallelZ`, /repo/flavio/plots/plotfunctions.py:550-561.) -/
def chunk {α : Type} (n : Nat) : Nat → List α → List (List α)
  | 0, _ => []
  | m + 1, l => l.take n :: chunk n m (l.drop n)

/-- The parallel branch: the flattened grid is mapped in order and reshaped.
/repo/flavio/plots/plotfunctions.py:550-561. -/
def parallelZ (f : ℝ × ℝ → ℝ) (xs ys : List ℝ) (steps : Nat) : List (List ℝ) :=
  (chunk steps steps (((meshgrid xs ys).flatten).map f)).map fun row => row.map fun v => -2 * v

/-- `likelihood_contour_data`: grid and function values (the levels are those of C61).
/repo/flavio/plots/plotfunctions.py:503-568. -/
noncomputable def contourData (f : ℝ × ℝ → ℝ) (xMin xMax yMin yMax : ℝ) (xscale yscale : String)
    (steps threads : Nat) : Except PyErr (List (List (ℝ × ℝ)) × List (List ℝ)) :=
  axis xscale xMin xMax steps >>= fun xs => axis yscale yMin yMax steps >>= fun ys =>
    .ok (meshgrid xs ys, if threads = 1 then serialZ f xs ys else parallelZ f xs ys steps)

/-! ## `bin_plot_exp` -/

/-- A measurement as seen by `bin_plot_exp`: its name, its experiment, and the bins in which it measures
the observable with central value, right and left error.
(Used for `binStep`, /repo/flavio/plots/plotfunctions.py:263-316.) -/
structure Meas where
  name : String
  experiment : String
  bins : List ((ℝ × ℝ) × (ℝ × ℝ × ℝ))

/-- One call of `errorbar`: the points (x, Δx, y, lower, upper) and the label, if any.
(Used for `binPlotExp`, /repo/flavio/plots/plotfunctions.py:223-317.) -/
structure ErrBar where
  points : List (ℝ × ℝ × ℝ × ℝ × ℝ)
  label : Option String

/-- Is a bin kept?  /repo/flavio/plots/plotfunctions.py:278-285. -/
noncomputable def keepBin (inc exc : Option (List (ℝ × ℝ))) (b : ℝ × ℝ) : Except PyErr Bool :=
  match inc, exc with
  | some _, some _ => .error .valueError
  | some l, none => .ok (decide (b ∈ l))
  | none, some l => .ok (decide (b ∉ l))
  | none, none => .ok true

/-- The data point of a bin.  /repo/flavio/plots/plotfunctions.py:286-298, 313-315. -/
noncomputable def point (divide : Bool) (sf : ℝ) (e : (ℝ × ℝ) × (ℝ × ℝ × ℝ)) : ℝ × ℝ × ℝ × ℝ × ℝ :=
  let w := if divide then e.1.2 - e.1.1 else 1
  ((e.1.2 + e.1.1) / 2, (e.1.2 - e.1.1) / 2, sf * (e.2.1 / w), sf * (e.2.2.2 / w), sf * (e.2.2.1 / w))

/-- The bins of one measurement that are kept, in order.
(Used for `binStep`, /repo/flavio/plots/plotfunctions.py:263-316.) -/
noncomputable def keptBins (inc exc : Option (List (ℝ × ℝ))) :
    List ((ℝ × ℝ) × (ℝ × ℝ × ℝ)) → Except PyErr (List ((ℝ × ℝ) × (ℝ × ℝ × ℝ)))
  | [] => .ok []
  | e :: l => keepBin inc exc e.1 >>= fun k => keptBins inc exc l >>= fun r =>
      .ok (if k then e :: r else r)

/-- The label of an `errorbar` call: none if the user gave one (then the user's is used), or if the
experiment already has one.  /repo/flavio/plots/plotfunctions.py:305-312. -/
def labelFor (userLabel : Option String) (done : List String) (exp : String) :
    Option String × List String :=
  match userLabel with
  | some l => (some l, done)
  | none => if exp ∈ done then (none, done) else (some exp, done ++ [exp])

/-- State of the loop over the measurements: labels used, bins, drawn error bars, and the variable `y`
(the values of the last matching measurement).
(Used for `binStep`, /repo/flavio/plots/plotfunctions.py:263-316.) -/
structure BinSt where
  done : List String
  bins : List (ℝ × ℝ)
  drawn : List ErrBar
  y : Option (List ℝ)

/-- One measurement.  /repo/flavio/plots/plotfunctions.py:263-316. -/
noncomputable def binStep (divide : Bool) (incM : Option (List String)) (inc exc : Option (List (ℝ × ℝ)))
    (sf : ℝ) (userLabel : Option String) (s : BinSt) (m : Meas) : Except PyErr BinSt :=
  if (incM.isSome ∧ m.name ∉ incM.getD []) ∨ m.bins = [] then .ok s
  else
    keptBins inc exc m.bins >>= fun kept =>
      let pts := kept.map (point divide sf)
      if kept = [] then .ok { s with y := some [] }
      else
        let lab := labelFor userLabel s.done m.experiment
        .ok ⟨lab.2, s.bins ++ kept.map Prod.fst, s.drawn ++ [⟨pts, lab.1⟩], some (pts.map fun p => p.2.2.1)⟩

/-- The loop over all measurements. (Used for `binPlotExp`, /repo/flavio/plots/plotfunctions.py:223-317.) -/
noncomputable def binLoop (divide : Bool) (incM : Option (List String)) (inc exc : Option (List (ℝ × ℝ)))
    (sf : ℝ) (userLabel : Option String) : BinSt → List Meas → Except PyErr BinSt
  | s, [] => .ok s
  | s, m :: l => binStep divide incM inc exc sf userLabel s m >>= fun s =>
      binLoop divide incM inc exc sf userLabel s l

/-- `bin_plot_exp`: what is drawn, and what is returned (`y, bins`; `y` is unbound if no measurement
matches).  /repo/flavio/plots/plotfunctions.py:223-317. -/
noncomputable def binPlotExp (nargs : Nat) (ms : List Meas) (divide : Bool) (incM : Option (List String))
    (inc exc : Option (List (ℝ × ℝ))) (sf : ℝ) (userLabel : Option String) :
    Except PyErr (List ErrBar × List ℝ × List (ℝ × ℝ)) :=
  if nargs ≠ 2 then .error .valueError
  else binLoop divide incM inc exc sf userLabel ⟨[], [], [], none⟩ ms >>= fun s =>
    match s.y with
    | none => .error .unboundLocalError
    | some y => .ok (s.drawn, y, s.bins)

end Verif.Plots
