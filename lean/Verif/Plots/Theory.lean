import Mathlib.Algebra.Order.Floor.Semiring
import Mathlib.Data.Nat.Cast.Order.Field
import Verif.Plots.Model
/-!
# Theory plots (`flavio/plots/plotfunctions.py` lines 70-221)

What is modelled is what is handed to matplotlib (points, bands, boxes, keyword arguments) and what happens
to dictionaries passed in by the caller.  Numbers are real numbers: rounding in `np.arange` is not modelled.
The predictions and uncertainties are parameters (functions that may raise).  `steps` is an integer.
-/
set_option linter.unusedVariables false
namespace Verif.Plots
open Verif.Py

/-- A keyword value: a string or a number.  (Used for /repo/flavio/plots/plotfunctions.py:70-221.) -/
inductive PyVal where
  | str (s : String)
  | num (x : ℝ)

/-- Keyword arguments.  (Used for /repo/flavio/plots/plotfunctions.py:70-221.) -/
abbrev Args := Dict String PyVal

/-- The four functions of flavio that are called, at arguments of type `A`: central value and uncertainty in
the Standard Model and with Wilson coefficients.  (Used for /repo/flavio/plots/plotfunctions.py:70-221.) -/
structure Preds (WC A : Type) where
  smPrediction : A → Except PyErr ℝ
  smUncertainty : A → Except PyErr ℝ
  npPrediction : WC → A → Except PyErr ℝ
  npUncertainty : WC → A → Except PyErr ℝ

/-- Choice between the SM and the NP function (`if wc is None`).
/repo/flavio/plots/plotfunctions.py:91-95, 147-153, 197-203. -/
def Preds.central {WC A : Type} (P : Preds WC A) : Option WC → A → Except PyErr ℝ
  | none => P.smPrediction
  | some w => P.npPrediction w

/-- See `Preds.central`.  /repo/flavio/plots/plotfunctions.py:147-153, 197-203. -/
def Preds.unc {WC A : Type} (P : Preds WC A) : Option WC → A → Except PyErr ℝ
  | none => P.smUncertainty
  | some w => P.npUncertainty w

/-- `np.arange(a, b, step)` for real numbers: `ceil((b-a)/step)` numbers starting at `a`; a vanishing step is
a division by zero.  (External; used at /repo/flavio/plots/plotfunctions.py:90, 142, 144.) -/
noncomputable def arange (a b step : ℝ) : Except PyErr (List ℝ) :=
  if step = 0 then .error .zeroDivisionError
  else .ok ((List.range ⌈(b - a) / step⌉₊).map fun (i : ℕ) => a + (i : ℝ) * step)

/-- `(x_max-x_min)/(steps-1)`.  /repo/flavio/plots/plotfunctions.py:90, 141, 143. -/
noncomputable def stepSize (xMin xMax : ℝ) (steps : ℤ) : Except PyErr ℝ :=
  if (steps : ℝ) - 1 = 0 then .error .zeroDivisionError else .ok ((xMax - xMin) / ((steps : ℝ) - 1))

/-- The check on the number of arguments of the observable (`obs` is `none` if there is no observable of
that name, else the number of its arguments, 0 for `arguments = None`).
/repo/flavio/plots/plotfunctions.py:87-89, 138-140, 194-196. -/
def checkArgs (obs : Option ℕ) (n : ℕ) : Except PyErr Unit :=
  match obs with
  | none => .error .keyError
  | some k => if k ≠ n then .error .valueError else .ok ()

/-- `diff_plot_th`: the points of the curve and the keyword arguments given to `ax.plot`.
/repo/flavio/plots/plotfunctions.py:70-99. -/
noncomputable def diffPlotTh {WC : Type} (P : Preds WC ℝ) (obs : Option ℕ) (xMin xMax : ℝ) (wc : Option WC)
    (steps : ℤ) (sf : ℝ) (kwargs : Args) : Except PyErr (List (ℝ × ℝ) × Args) :=
  checkArgs obs 1 >>= fun _ =>
  stepSize xMin xMax steps >>= fun step =>
  arange xMin xMax step >>= fun xs =>
  xs.mapM (P.central wc) >>= fun ys =>
    let kwargs := if !kwargs.has "c" && !kwargs.has "color" then kwargs.set "c" (.str "k") else kwargs
    .ok (xs.zip (ys.map fun y => sf * y), kwargs)

/-- What `diff_plot_th_err` does: the curve, its arguments, the band (x, lower, upper), its arguments, and
the caller's dictionaries `plot_args` and `fill_args` afterwards.
(Used for /repo/flavio/plots/plotfunctions.py:102-168.) -/
structure ErrPlot where
  curve : List (ℝ × ℝ)
  curveArgs : Args
  band : List (ℝ × ℝ × ℝ)
  bandArgs : Args
  callerPlotArgs : Option Args
  callerFillArgs : Option Args

/-- `x_err_arr[-1] = v`.  /repo/flavio/plots/plotfunctions.py:146. -/
def setLast (l : List ℝ) (v : ℝ) : Except PyErr (List ℝ) :=
  if l = [] then .error .indexError else .ok (l.dropLast ++ [v])

/-- `x_arr[-1]`.  /repo/flavio/plots/plotfunctions.py:146. -/
def last (l : List ℝ) : Except PyErr ℝ :=
  match l.getLast? with
  | none => .error .indexError
  | some v => .ok v

/-- `d or {}` followed by changes `f` of the dictionary: the dictionary used, and the caller's dictionary
afterwards (an empty or missing one is replaced by a new one, a non-empty one is changed in place).
/repo/flavio/plots/plotfunctions.py:155-160. -/
def orNew (d : Option Args) (f : Args → Args) : Args × Option Args :=
  match d with
  | none => (f [], none)
  | some [] => (f [], some [])
  | some (e :: l) => (f (e :: l), some (f (e :: l)))

/-- `if label is not None: plot_args['label'] = label`.  /repo/flavio/plots/plotfunctions.py:157-158. -/
def setLabel (label : Option String) (d : Args) : Args :=
  match label with
  | none => d
  | some l => d.set "label" (.str l)

/-- `if 'alpha' not in fill_args: fill_args['alpha'] = 0.5`.  /repo/flavio/plots/plotfunctions.py:159-160. -/
noncomputable def setAlpha (d : Args) : Args := if !d.has "alpha" then d.set "alpha" (.num 0.5) else d

/-- `diff_plot_th_err`.  `interp` is `scipy.interpolate.interp1d(..., kind='quadratic')`.
/repo/flavio/plots/plotfunctions.py:102-168. -/
noncomputable def diffPlotThErr {WC : Type} (P : Preds WC ℝ)
    (interp : List ℝ → List ℝ → Except PyErr (ℝ → Except PyErr ℝ))
    (obs : Option ℕ) (xMin xMax : ℝ) (wc : Option WC) (steps stepsErr : ℤ) (label : Option String)
    (plotArgs fillArgs : Option Args) (sf : ℝ) : Except PyErr ErrPlot :=
  checkArgs obs 1 >>= fun _ =>
  stepSize xMin xMax steps >>= fun step =>
  arange xMin (xMax + step) step >>= fun xs =>
  stepSize xMin xMax stepsErr >>= fun stepE =>
  arange xMin (xMax + stepE) stepE >>= fun xe0 =>
  last xs >>= fun v =>
  setLast xe0 v >>= fun xe =>
  xe.mapM (P.unc wc) >>= fun errs =>
  xs.mapM (P.central wc) >>= fun ys =>
    let pa := orNew plotArgs (setLabel label)
    let fa := orNew fillArgs setAlpha
  interp xe errs >>= fun g =>
  xs.mapM g >>= fun es =>
    .ok { curve := xs.zip (ys.map fun y => sf * y)
          curveArgs := pa.1
          band := xs.zip ((ys.zip es).map fun ye => (sf * (ye.1 - ye.2), sf * (ye.1 + ye.2)))
          bandArgs := fa.1
          callerPlotArgs := pa.2
          callerFillArgs := fa.2 }

/-- A box drawn by `bin_plot_th`: lower left corner, width, height, keyword arguments.
(Used for /repo/flavio/plots/plotfunctions.py:171-221.) -/
structure Box where
  x : ℝ
  y : ℝ
  width : ℝ
  height : ℝ
  args : Args

/-- `{bin_: f(*bin_) for bin_ in bin_list}`.  /repo/flavio/plots/plotfunctions.py:199-203. -/
noncomputable def binDict (f : ℝ × ℝ → Except PyErr ℝ) : List (ℝ × ℝ) → Dict (ℝ × ℝ) ℝ →
    Except PyErr (Dict (ℝ × ℝ) ℝ)
  | [], d => .ok d
  | b :: l, d => f b >>= fun v => binDict f l (d.set b v)

/-- The defaults set in the loop of `bin_plot_th`.  /repo/flavio/plots/plotfunctions.py:213-216. -/
noncomputable def boxDefaults (kwargs : Args) : Args :=
  let k := if !kwargs.has "fc" && !kwargs.has "facecolor" then kwargs.set "fc" (.str "C6") else kwargs
  if !k.has "linewidth" && !k.has "lw" then k.set "lw" (.num 0) else k

/-- Division as in Python.  /repo/flavio/plots/plotfunctions.py:209-210. -/
noncomputable def divide (x w : ℝ) : Except PyErr ℝ :=
  if w = 0 then .error .zeroDivisionError else .ok (x / w)

/-- The loop of `bin_plot_th` from index `i`.  /repo/flavio/plots/plotfunctions.py:205-221. -/
noncomputable def boxLoop (errs : Dict (ℝ × ℝ) ℝ) (div : Bool) : ℕ → Args → List ((ℝ × ℝ) × ℝ) →
    Except PyErr (List Box)
  | _, _, [] => .ok []
  | i, kwargs, (b, c) :: l =>
    errs.getItem b >>= fun e =>
    (if div then divide e (b.2 - b.1) else .ok e) >>= fun err =>
    (if div then divide c (b.2 - b.1) else .ok c) >>= fun central =>
      let k := boxDefaults kwargs
      let k := if i > 0 then k.erase "label" else k
    boxLoop errs div (i + 1) k l >>= fun r =>
      .ok (⟨b.1, central - err, b.2 - b.1, 2 * err, k⟩ :: r)

/-- `bin_plot_th`.  /repo/flavio/plots/plotfunctions.py:171-221. -/
noncomputable def binPlotTh {WC : Type} (P : Preds WC (ℝ × ℝ)) (obs : Option ℕ) (bins : List (ℝ × ℝ))
    (wc : Option WC) (div : Bool) (kwargs : Args) : Except PyErr (List Box) :=
  checkArgs obs 2 >>= fun _ =>
  binDict (P.central wc) bins [] >>= fun cs =>
  binDict (P.unc wc) bins [] >>= fun es =>
  boxLoop es div 0 kwargs cs

end Verif.Plots
