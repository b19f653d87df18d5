import Verif.Plots.Theory
import Verif.Plots.TheoryTheorems
import Verif.Plots.Theorems
/-!
# Experimental points without bins and one-dimensional curves
(`flavio/plots/plotfunctions.py` lines 320-402, 723-842)

Modelled: what is handed to matplotlib.  The linear interpolation `scipy.ndimage.zoom` of `pvalue_plot` and the
colour arithmetic `lighten_color` are parameters.
-/
set_option linter.unusedVariables false
namespace Verif.Plots
open Verif.Py

/-! ## `diff_plot_exp` -/

/-- A measurement as seen by `diff_plot_exp`: name, experiment, and the values of the variable at which the
observable is measured, each with central value, right and left error.
(Used for /repo/flavio/plots/plotfunctions.py:354-401.) -/
structure Meas1 where
  name : String
  experiment : String
  pts : List (ℝ × (ℝ × ℝ × ℝ))

/-- One call of `errorbar`: points (x, y, lower error, upper error) and the keyword arguments.
(Used for /repo/flavio/plots/plotfunctions.py:401.) -/
structure ErrBar1 where
  points : List (ℝ × ℝ × ℝ × ℝ)
  args : Args

/-- Is a value of the variable kept?  /repo/flavio/plots/plotfunctions.py:369-376. -/
noncomputable def keepX (inc exc : Option (List ℝ)) (x : ℝ) : Except PyErr Bool :=
  match inc, exc with
  | some _, some _ => .error .valueError
  | some l, none => .ok (decide (x ∈ l))
  | none, some l => .ok (!decide (x ∈ l))
  | none, none => .ok true

/-- The loop over the points of a measurement.  /repo/flavio/plots/plotfunctions.py:368-384. -/
noncomputable def keptX (inc exc : Option (List ℝ)) :
    List (ℝ × (ℝ × ℝ × ℝ)) → Except PyErr (List (ℝ × (ℝ × ℝ × ℝ)))
  | [] => .ok []
  | e :: l => keepX inc exc e.1 >>= fun k => keptX inc exc l >>= fun r => .ok (if k then e :: r else r)

/-- The keyword arguments for one measurement: the colour of its experiment, and its label unless the user
gave one or the experiment is labelled already; and the list of labelled experiments.
/repo/flavio/plots/plotfunctions.py:385-397. -/
def measArgs (kwargs : Args) (col : Option (Dict String String)) (done : List String) (exp : String) :
    Args × List String :=
  let k := match col with
    | none => kwargs
    | some d => match d.get? exp with
      | none => kwargs
      | some c => kwargs.set "c" (.str c)
  if !k.has "label" then
    if exp ∈ done then (k, done) else (k.set "label" (.str exp), done ++ [exp])
  else (k, done)

/-- State of the loop over the measurements.  (Used for /repo/flavio/plots/plotfunctions.py:352-401.) -/
structure DiffSt where
  done : List String
  xs : List ℝ
  drawn : List ErrBar1
  y : Option (List ℝ)

/-- `include_measurements is not None and m_name not in include_measurements`.
/repo/flavio/plots/plotfunctions.py:355-356. -/
def skipped (incM : Option (List String)) (name : String) : Bool :=
  match incM with
  | none => false
  | some l => !decide (name ∈ l)

/-- One measurement.  /repo/flavio/plots/plotfunctions.py:354-401. -/
noncomputable def diffStep (incM : Option (List String)) (inc exc : Option (List ℝ)) (sf : ℝ)
    (col : Option (Dict String String)) (kwargs : Args) (s : DiffSt) (m : Meas1) : Except PyErr DiffSt :=
  if skipped incM m.name then .ok s
  else if m.pts = [] then .ok s
  else
    keptX inc exc m.pts >>= fun kept =>
      let s := { s with xs := s.xs ++ kept.map Prod.fst, y := some (kept.map fun e => e.2.1) }
      if kept = [] then .ok s
      else
        let a := measArgs kwargs col s.done m.experiment
        .ok { done := a.2
              xs := s.xs
              drawn := s.drawn ++ [⟨kept.map fun e => (e.1, sf * e.2.1, sf * e.2.2.2, sf * e.2.2.1), a.1⟩]
              y := some (kept.map fun e => sf * e.2.1) }

/-- All measurements.  /repo/flavio/plots/plotfunctions.py:354-401. -/
noncomputable def diffLoop (incM : Option (List String)) (inc exc : Option (List ℝ)) (sf : ℝ)
    (col : Option (Dict String String)) (kwargs : Args) : DiffSt → List Meas1 → Except PyErr DiffSt
  | s, [] => .ok s
  | s, m :: l => diffStep incM inc exc sf col kwargs s m >>= fun s => diffLoop incM inc exc sf col kwargs s l

/-- `diff_plot_exp`: the calls of `errorbar` and what is returned (`y, xs`).
/repo/flavio/plots/plotfunctions.py:320-402. -/
noncomputable def diffPlotExp (obs : Option ℕ) (ms : List Meas1) (incM : Option (List String))
    (inc exc : Option (List ℝ)) (sf : ℝ) (col : Option (Dict String String)) (kwargs : Args) :
    Except PyErr (List ErrBar1 × List ℝ × List ℝ) :=
  checkArgs obs 1 >>= fun _ =>
  diffLoop incM inc exc sf col kwargs ⟨[], [], [], none⟩ ms >>= fun s =>
    match s.y with
    | none => .error .unboundLocalError
    | some y => .ok (s.drawn, y, s.xs)

/-! ## `likelihood_plot`, `pvalue_plot`, `pdf_plot` -/

/-- `d.update(e)`.  (Used for /repo/flavio/plots/plotfunctions.py:793-794, 833-834.) -/
def update (d e : Args) : Args := e.foldl (fun d p => d.set p.1 p.2) d

/-- The arguments of the curve.  /repo/flavio/plots/plotfunctions.py:784-794, 824-834. -/
noncomputable def curveArgs (color : String) (label : Option String) (plotargs : Args) : Args :=
  let d : Args := Dict.set [] "linewidth" (.num 0.6)
  let d := match label with
    | none => d
    | some l => d.set "label" (.str l)
  update (d.set "color" (.str color)) plotargs

/-- The arguments of the filling.  /repo/flavio/plots/plotfunctions.py:792-793, 832-833. -/
def fillArgsOf (lighten : String → String) (color : String) (fillargs : Args) : Args :=
  update (Dict.set [] "facecolor" (.str (lighten color))) fillargs

/-- What `likelihood_plot` draws: the points of the curve as drawn (horizontal, vertical), the grid points that
are filled (with the height of the filling), along the horizontal or the vertical axis, and the arguments.
(Used for /repo/flavio/plots/plotfunctions.py:768-806.) -/
structure CurvePlot where
  curve : List (ℝ × ℝ)
  curveArgs : Args
  filled : Option (List (ℝ × ℝ))
  vertical : Bool
  fillArgs : Args

/-- `likelihood_plot`.  /repo/flavio/plots/plotfunctions.py:768-806. -/
noncomputable def likelihoodPlot (lighten : String → String) (pts : List (ℝ × ℝ)) (fillX : Option (ℝ × ℝ))
    (col : Option Col) (color : Option String) (label : Option String) (plotargs fillargs : Args)
    (flipped : Bool) : Except PyErr CurvePlot :=
  getColor col color >>= fun c =>
    .ok { curve := if flipped then pts.map fun p => (p.2, p.1) else pts
          curveArgs := curveArgs c label plotargs
          filled := fillX.map fun r => pts.filter fun p => decide (r.1 < p.1) && decide (p.1 < r.2)
          vertical := flipped
          fillArgs := fillArgsOf lighten c fillargs }

/-- `pvalue_plot`: `zoom` is the interpolation to ten times as many points.
/repo/flavio/plots/plotfunctions.py:808-842. -/
noncomputable def pvaluePlot (lighten : String → String) (zoom : List (ℝ × ℝ) → List (ℝ × ℝ))
    (pts : List (ℝ × ℝ)) (fillY : Option ℝ) (col : Option Col) (color : Option String) (label : Option String)
    (plotargs fillargs : Args) : Except PyErr CurvePlot :=
  getColor col color >>= fun c =>
    .ok { curve := pts
          curveArgs := curveArgs c label plotargs
          filled := fillY.map fun y => (zoom pts).filter fun p => decide (y < p.2)
          vertical := false
          fillArgs := fillArgsOf lighten c fillargs }

/-- The distribution as seen by `pdf_plot`; `pdf` may raise (multivariate or without closed form).
(Used for /repo/flavio/plots/plotfunctions.py:740-766.) -/
structure PlotDist where
  support : ℝ × ℝ
  pdf : Except PyErr (ℝ → ℝ)
  logpdf : ℝ → ℝ
  central : ℝ
  errLeft : ℝ
  errRight : ℝ

/-- The ordinates.  /repo/flavio/plots/plotfunctions.py:754-757. -/
noncomputable def pdfValues (d : PlotDist) (xs : List ℝ) : List ℝ :=
  match d.pdf with
  | .ok f => xs.map f
  | .error _ => xs.map fun x => Real.exp (d.logpdf x)

/-- `y/np.max(y)` (`ValueError` for an empty array).  /repo/flavio/plots/plotfunctions.py:758-759. -/
noncomputable def normMax : List ℝ → Except PyErr (List ℝ)
  | [] => .error .valueError
  | y :: l => .ok ((y :: l).map fun v => v / l.foldl max y)

/-- `pdf_plot`.  /repo/flavio/plots/plotfunctions.py:740-766. -/
noncomputable def pdfPlot (lighten : String → String) (d : PlotDist) (xMin xMax : Option ℝ) (fill : Bool)
    (steps : ℕ) (normedMax : Bool) (col : Option Col) (color : Option String) (label : Option String)
    (plotargs fillargs : Args) (flipped : Bool) : Except PyErr CurvePlot :=
  let r := pdfRange xMin xMax d.support
  let xs := linspace r.1 r.2 steps
  (if normedMax then normMax (pdfValues d xs) else .ok (pdfValues d xs)) >>= fun ys =>
    likelihoodPlot lighten (xs.zip ys)
      (if fill then some (d.central - d.errLeft, d.central + d.errRight) else none)
      col color label plotargs fillargs flipped

/-- `flavio_box`: corner, width and height of the rectangle.  /repo/flavio/plots/plotfunctions.py:723-725. -/
def flavioBox (xMin xMax yMin yMax : ℝ) : (ℝ × ℝ) × ℝ × ℝ := ((xMin, yMin), xMax - xMin, yMax - yMin)

end Verif.Plots
