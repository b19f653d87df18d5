import Verif.Dict.Model
import Verif.Probability.Combine
/-!
# Model of `MultivariateNumericalDistribution` and of the functions that combine and convolve such distributions

An array is given by its shape and a function of the index tuple.  Floats are real numbers; the values of the PDF are assumed to
be non-negative with a positive sum (otherwise numpy gets `nan`), which is a hypothesis of the theorems.
-/
set_option linter.unusedSectionVars false
set_option linter.unusedSimpArgs false
set_option linter.unusedVariables false
namespace Verif.Grid
open Verif.Py Verif.Probability
open Verif.DistDict (evenCheck)

/-- The index tuples of an array in C order (`y.flatten()`).  /repo/flavio/statistics/probability.py:1541. -/
def indices : List ℕ → List (List ℕ)
  | [] => [[]]
  | m :: ms => (List.range m).flatMap fun i => (indices ms).map (i :: ·)

/-- `meshgrid(*xi, indexing='ij')` at an index tuple.  /repo/flavio/statistics/probability.py:1501. -/
def gridPoint : List (List ℝ) → List ℕ → List ℝ
  | a :: as, i :: is => a.getD i 0 :: gridPoint as is
  | _, _ => []

/-- An array.  /repo/flavio/statistics/probability.py:1491. -/
structure Table where
  shape : List ℕ
  val : List ℕ → ℝ

/-- The attributes of the class.  /repo/flavio/statistics/probability.py:1490-1514. -/
structure MNum where
  xi : List (List ℝ)
  y : List ℕ → ℝ
  central : List ℝ
  support : Option (List ℝ × List ℝ)

/-- `self.y.shape`.  /repo/flavio/statistics/probability.py:1491. -/
def MNum.shape (d : MNum) : List ℕ := d.xi.map List.length

/-- `np.sum(self.y)`.  /repo/flavio/statistics/probability.py:1504. -/
noncomputable def MNum.total (d : MNum) : ℝ := ((indices d.shape).map d.y).sum

/-- `x[1] - x[0]`.  /repo/flavio/statistics/probability.py:1503,1555. -/
noncomputable def gap (x : List ℝ) : ℝ := x.getD 1 0 - x.getD 0 0

/-- `_bin_volume`.  /repo/flavio/statistics/probability.py:1503. -/
noncomputable def MNum.binVolume (d : MNum) : ℝ := (d.xi.map gap).prod

/-- `self.y_norm`.  /repo/flavio/statistics/probability.py:1504. -/
noncomputable def MNum.yNorm (d : MNum) (k : List ℕ) : ℝ := d.y k / d.total / d.binVolume

open Classical in
/-- `logy`.  /repo/flavio/statistics/probability.py:1508-1509. -/
noncomputable def MNum.logTab (d : MNum) (k : List ℕ) : ℝ := if d.yNorm k = 0 then -10 ^ 100 else Real.log (d.yNorm k)

open Classical in
/-- The cell of an axis that `RegularGridInterpolator` uses for a coordinate: `searchsorted(x, t) - 1`, but at least 0 and at
most the second to last point.  /repo/flavio/statistics/probability.py:1510. -/
noncomputable def cell (a : List ℝ) (t : ℝ) : ℕ := min ((a.filter fun v => decide (v < t)).length - 1) (a.length - 2)

/-- `RegularGridInterpolator(xi, f)(x)` inside the grid (method `linear`): the weighted sum over the corners of the cell, written
as repeated linear interpolation.  /repo/flavio/statistics/probability.py:1510. -/
noncomputable def interp : List (List ℝ) → (List ℕ → ℝ) → List ℝ → ℝ
  | a :: as, f, t :: ts =>
    let i := cell a t
    let w := (t - a.getD i 0) / (a.getD (i + 1) 0 - a.getD i 0)
    (1 - w) * interp as (fun k => f (i :: k)) ts + w * interp as (fun k => f ((i + 1) :: k)) ts
  | _, f, _ => f []

/-- Within the boundaries of all axes.  /repo/flavio/statistics/probability.py:1510-1511. -/
def inside (xi : List (List ℝ)) (x : List ℝ) : Prop :=
  List.Forall₂ (fun a t => a.headD 0 ≤ t ∧ t ≤ a.getLastD 0) xi x

open Classical in
/-- `logpdf` of a point: `-inf` outside of the grid; scipy raises `ValueError` for the wrong number of coordinates.
/repo/flavio/statistics/probability.py:1599-1603. -/
noncomputable def MNum.logpdf (d : MNum) (x : List ℝ) : Except PyErr LogP :=
  if x.length ≠ d.xi.length then .error .valueError
  else if inside d.xi x then .ok ((interp d.xi d.logTab x : ℝ) : LogP) else .ok ⊥

/-- A list of two numbers is replaced by equidistant points.  /repo/flavio/statistics/probability.py:1492-1494. -/
noncomputable def expandAxis (shape : List ℕ) (i : ℕ) (x : List ℝ) : Except PyErr (List ℝ) :=
  match x with
  | [a, b] =>
    match shape[i]? with
    | some m => .ok (linspace a b m)
    | none => .error .indexError
  | x => .ok x

/-- The mode: the first grid point (in C order) with the largest value.  /repo/flavio/statistics/probability.py:1500-1501. -/
noncomputable def mode (xi : List (List ℝ)) (y : List ℕ → ℝ) : Except PyErr (List ℝ) :=
  argmax ((indices (xi.map List.length)).map y) >>= fun i => .ok (gridPoint xi ((indices (xi.map List.length)).getD i []))

/-- The end of the constructor, with the central value if it is given.  /repo/flavio/statistics/probability.py:1495-1502. -/
noncomputable def finishM (xi : List (List ℝ)) (y : List ℕ → ℝ) : Option (List ℝ) → Except PyErr MNum
  | some c => .ok ⟨xi, y, c, some (xi.map fun x => x.headD 0, xi.map fun x => x.getLastD 0)⟩
  | none => mode xi y >>= fun c => .ok ⟨xi, y, c, none⟩

open Classical in
/-- The constructor.  An axis of less than two points, a shape that does not match the axes, an axis that is not strictly
ascending and a grid without axes make numpy or scipy raise some exception, here `ValueError` (recent versions of scipy accept
descending axes).  /repo/flavio/statistics/probability.py:1466-1514. -/
noncomputable def mkMNum (xi : List (List ℝ)) (y : Table) (central : Option (List ℝ)) : Except PyErr MNum :=
  xi.mapM evenCheck >>= fun _ =>
    xi.zipIdx.mapM (fun e => expandAxis y.shape e.2 e.1) >>= fun xs =>
      if y.shape ≠ xs.map List.length ∨ xs = [] ∨ ¬ ∀ x ∈ xs, 2 ≤ x.length ∧ x.Pairwise (· < ·) then .error .valueError
      else finishM xs y.val central

/-! ### Removing dimensions -/

/-- Remove the entries at these positions.  /repo/flavio/statistics/probability.py:1573-1575. -/
def dropAt {α : Type} (ex : List ℕ) (l : List α) : List α := (l.zipIdx.filter fun e => decide (e.2 ∉ ex)).map Prod.fst

/-- `np.amax` of a list of numbers.  /repo/flavio/statistics/probability.py:1574. -/
noncomputable def amax : List ℝ → ℝ
  | [] => 0
  | a :: r => r.foldl max a

/-- `np.amax(f, axis=ex)` at an index tuple of the remaining axes.  /repo/flavio/statistics/probability.py:1574. -/
noncomputable def amaxAxes (shape ex : List ℕ) (f : List ℕ → ℝ) (k : List ℕ) : ℝ :=
  amax (((indices shape).filter fun i => decide (dropAt ex i = k)).map f)

/-- The argument `exclude`: absent, an integer or a sequence of integers (not negative).
/repo/flavio/statistics/probability.py:1558-1572. -/
inductive Exclude where
  | none
  | int (i : ℕ)
  | seq (l : List ℕ)

/-- `not exclude`.  /repo/flavio/statistics/probability.py:1565. -/
def Exclude.falsy : Exclude → Bool
  | .none => true
  | .int i => i == 0
  | .seq l => l.isEmpty

/-- `tuple(exclude)` or `(exclude,)`.  /repo/flavio/statistics/probability.py:1569-1572. -/
def Exclude.toList : Exclude → List ℕ
  | .none => []
  | .int i => [i]
  | .seq l => l

/-- The result of `reduce_dimension`.  /repo/flavio/statistics/probability.py:1576-1581. -/
inductive ReducedM where
  | multi (d : MNum)
  | uni (d : Num ℝ)

/-- The distribution for the remaining axes.  /repo/flavio/statistics/probability.py:1576-1581. -/
noncomputable def ofAxes (xi : List (List ℝ)) (y : List ℕ → ℝ) (c : List ℝ) : Except PyErr ReducedM :=
  match xi with
  | [x] => Num.mk' x ((indices [x.length]).map y) (some (c.headD 0)) >>= fun d => .ok (.uni d)
  | xi => mkMNum xi ⟨xi.map List.length, y⟩ (some c) >>= fun d => .ok (.multi d)

/-- `reduce_dimension`.  /repo/flavio/statistics/probability.py:1558-1581. -/
noncomputable def MNum.reduce (d : MNum) (ex : Exclude) : Except PyErr ReducedM :=
  if ex.falsy = true then .ok (.multi d)
  else if ∃ e ∈ ex.toList, d.xi.length ≤ e then .error .indexError
  else if ¬ ex.toList.Nodup then .error .valueError
  else ofAxes (dropAt ex.toList d.xi) (amaxAxes d.shape ex.toList d.yNorm) (dropAt ex.toList d.central)

open Classical in
/-- `np.log` of a density.  /repo/flavio/statistics/probability.py:918-921. -/
noncomputable def logOf (v : ℝ) : LogP := if v = 0 then ⊥ else ((Real.log v : ℝ) : LogP)

/-- `logpdf` of a reduced distribution; `x` has one coordinate if there is one dimension left.
/repo/flavio/statistics/probability.py:918-921,1599-1603. -/
noncomputable def ReducedM.logpdf : ReducedM → List ℝ → Except PyErr LogP
  | .multi d, x => d.logpdf x
  | .uni d, [t] => .ok (logOf (d.pdf t))
  | .uni _, _ => .error .valueError

/-- `logpdf(x, exclude)`.  /repo/flavio/statistics/probability.py:1583-1603. -/
noncomputable def MNum.logpdfEx (d : MNum) (x : List ℝ) : Exclude → Except PyErr LogP
  | .none => d.logpdf x
  | ex => d.reduce ex >>= fun r => r.logpdf x

/-! ### Random numbers -/

/-- `np.argmin`: the first smallest entry.  /repo/flavio/statistics/probability.py:1550. -/
noncomputable def argminFrom (best : ℝ) (ibest i : ℕ) : List ℝ → ℕ
  | [] => ibest
  | a :: r => if a < best then argminFrom a i (i + 1) r else argminFrom best ibest (i + 1) r

/-- `np.argmin`.  /repo/flavio/statistics/probability.py:1550. -/
noncomputable def argmin : List ℝ → ℕ
  | [] => 0
  | a :: r => argminFrom a 0 1 r

/-- `self._cdf_flat`.  /repo/flavio/statistics/probability.py:1541-1546. -/
noncomputable def MNum.cdfFlat (d : MNum) : List ℝ :=
  let c := cumsumFrom 0 ((indices d.shape).map d.y)
  c.map fun v => v / c.getLastD 0

/-- `self._y_flat[i_r]`.  /repo/flavio/statistics/probability.py:1548-1551. -/
noncomputable def MNum.chosenValue (d : MNum) (r : ℝ) : ℝ :=
  ((indices d.shape).map d.y).getD (argmin (d.cdfFlat.map fun c => |c - r|)) 0

open Classical in
/-- `np.where(self.y == self._y_flat[i_r])`.  /repo/flavio/statistics/probability.py:1551. -/
noncomputable def MNum.candidates (d : MNum) (r : ℝ) : List (List ℕ) :=
  (indices d.shape).filter fun k => decide (d.y k = d.chosenValue r)

/-- `_get_random` for the random numbers `r` (uniform in [0,1)), `b` (less than the number of candidates) and `u` (uniform in
[-1/2, 1/2), one per dimension).  /repo/flavio/statistics/probability.py:1537-1556. -/
noncomputable def MNum.random (d : MNum) (r : ℝ) (b : ℕ) (u : List ℝ) : List ℝ :=
  List.zipWith (· + ·) (gridPoint d.xi ((d.candidates r).getD b [])) (List.zipWith (· * ·) u (d.xi.map gap))

/-! ### Combination -/

/-- Multivariate distributions: normal or numerical.  /repo/flavio/statistics/probability.py:1968-1974. -/
inductive MDist (n : ℕ) where
  | normal (d : MVN n)
  | num (d : MNum)

/-- A vector as a list.  /repo/flavio/statistics/probability.py:1619. -/
def toL {n : ℕ} (f : Fin n → ℝ) : List ℝ := List.ofFn f

/-- A list as a vector.  /repo/flavio/statistics/probability.py:1622. -/
def ofL (n : ℕ) (l : List ℝ) : Fin n → ℝ := fun i => l.getD i 0

/-- The grid of `from_pd` and of `_combine_multivariate_numerical`.
/repo/flavio/statistics/probability.py:1619-1620,2021-2022. -/
noncomputable def gridOf (lo hi : List ℝ) (nsteps : ℕ) : List (List ℝ) := List.zipWith (fun a b => linspace a b nsteps) lo hi

/-- `from_pd` of a normal distribution.  /repo/flavio/statistics/probability.py:1613-1625. -/
noncomputable def fromNormal {n : ℕ} (p : MVN n) (nsteps : ℕ) : Except PyErr MNum :=
  mkMNum (gridOf (toL p.support.1) (toL p.support.2) nsteps)
    ⟨List.replicate n nsteps, fun k => Real.exp (p.logpdf (ofL n (gridPoint (gridOf (toL p.support.1) (toL p.support.2) nsteps) k)))⟩
    (some (toL p.central))

/-- `from_pd`.  /repo/flavio/statistics/probability.py:1613-1625. -/
noncomputable def fromPd {n : ℕ} : MDist n → Except PyErr MNum
  | .normal p => fromNormal p 100
  | .num d => .ok d

/-- `d.support`, which must not be `None`: otherwise numpy cannot index the array of the supports.
/repo/flavio/statistics/probability.py:2016-2017. -/
def suppOf (d : MNum) : Except PyErr (List ℝ × List ℝ) :=
  match d.support with
  | some s => .ok s
  | none => .error .indexError

/-- `exp(d.logpdf(x))`.  /repo/flavio/statistics/probability.py:2026. -/
noncomputable def density (d : MNum) (x : List ℝ) : ℝ :=
  match d.logpdf x with
  | .ok v => expP v
  | .error _ => 0

/-- Position by position.  /repo/flavio/statistics/probability.py:2017-2018. -/
noncomputable def foldAxes (f : ℝ → ℝ → ℝ) : List (List ℝ) → List ℝ
  | [] => []
  | [a] => a
  | a :: r => List.zipWith f a (foldAxes f r)

open Classical in
/-- `_combine_multivariate_numerical`.  /repo/flavio/statistics/probability.py:2013-2029. -/
noncomputable def combineNums (ds : List MNum) (nsteps : ℕ) : Except PyErr MNum :=
  ds.mapM suppOf >>= fun ss =>
    let lo := foldAxes max (ss.map Prod.fst)
    let hi := foldAxes min (ss.map Prod.snd)
    if ¬ List.Forall₂ (· < ·) lo hi then .error .assertionError
    else mkMNum (gridOf lo hi nsteps)
      ⟨List.replicate lo.length nsteps, fun k => (ds.map fun d => density d (gridPoint (gridOf lo hi nsteps) k)).prod⟩ none

/-- The normal distributions.  /repo/flavio/statistics/probability.py:1969-1970. -/
def normalsOf {n : ℕ} (ds : List (MDist n)) : List (MVN n) :=
  ds.filterMap fun | .normal d => some d | _ => none

/-- The other distributions.  /repo/flavio/statistics/probability.py:1973-1974. -/
def numsOf {n : ℕ} (ds : List (MDist n)) : List MNum :=
  ds.filterMap fun | .num d => some d | _ => none

/-- `combine_distributions` for multivariate distributions of the same dimension `n ≥ 2`.
/repo/flavio/statistics/probability.py:1860-1878,1963-1991. -/
noncomputable def combineM {n : ℕ} (ds : List (MDist n)) : Except PyErr (MDist n) :=
  match ds with
  | [] => .error .indexError
  | [d] => .ok d
  | ds =>
    match normalsOf ds, numsOf ds with
    | [], o => o.mapM (fun d => fromPd (n := n) (.num d)) >>= fun l => combineNums l 200 >>= fun m => .ok (.num m)
    | g :: gs, [] => combineMvGaussians (g :: gs) >>= fun d => .ok (.normal d)
    | g :: gs, o => combineMvGaussians (g :: gs) >>= fun d =>
        (o.map MDist.num ++ [MDist.normal d]).mapM fromPd >>= fun l => combineNums l 200 >>= fun m => .ok (.num m)

/-! ### Convolution -/

/-- `np.mean`.  /repo/flavio/statistics/probability.py:1841. -/
noncomputable def mean (x : List ℝ) : ℝ := x.sum / x.length

/-- The boundaries of an axis of the convolution.  /repo/flavio/statistics/probability.py:1836-1843. -/
noncomputable def convBounds (x : List ℝ) (cvn cvg lo hi : ℝ) : ℝ × ℝ :=
  (cvn + (x.headD 0 - cvn) + (lo - cvn) + mean x - cvg, cvn + (x.getLastD 0 - cvn) + (hi - cvn) + mean x - cvg)

/-- `nsteps`.  /repo/flavio/statistics/probability.py:1834. -/
def convSteps (d : MNum) : ℕ := (d.xi.map List.length).foldl max 200

/-- The axes of the convolution before a shift.  /repo/flavio/statistics/probability.py:1835-1843. -/
noncomputable def convAxes {n : ℕ} (g : MVN n) (d : MNum) : List (List ℝ) :=
  (List.finRange n).map fun (i : Fin n) =>
    let b := convBounds (d.xi.getD i []) (d.central.getD i 0) (g.central i) (g.support.1 i) (g.support.2 i)
    linspace b.1 b.2 (convSteps d)

open Classical in
/-- `fftconvolve(a, b, mode='same')` of two arrays of this shape: the convolution sum, cut out of the middle (the first entry has
index `(m - 1) // 2` of the full convolution).  /repo/flavio/statistics/probability.py:1851. -/
noncomputable def convSame (shape : List ℕ) (a b : List ℕ → ℝ) (k : List ℕ) : ℝ :=
  ((indices shape).map fun j => ((indices shape).map fun l =>
    if List.zipWith (· + ·) j l = List.zipWith (fun m i => (m - 1) / 2 + i) shape k then a j * b l else 0).sum).sum

/-- `xi_grid - mean + central_value` at a grid point.  /repo/flavio/statistics/probability.py:1849. -/
noncomputable def shiftPoint {n : ℕ} (g : MVN n) (xi : List (List ℝ)) (k : List ℕ) : Fin n → ℝ :=
  fun i => (gridPoint xi k).getD i 0 - mean (xi.getD i []) + g.central i

/-- The table of the convolution.  /repo/flavio/statistics/probability.py:1844-1853. -/
noncomputable def convTable {n : ℕ} (g : MVN n) (d : MNum) (k : List ℕ) : ℝ :=
  let xi := convAxes g d
  let f := convSame (xi.map List.length) (fun j => density d (gridPoint xi j)) (fun j => Real.exp (g.logpdf (shiftPoint g xi j)))
  max (f k) 0 / ((indices (xi.map List.length)).map fun j => max (f j) 0).sum

/-- The axes for the two options of `central_values`.  /repo/flavio/statistics/probability.py:1854-1856. -/
noncomputable def shiftAxes (xi : List (List ℝ)) (c : List ℝ) : CentralMode → List (List ℝ)
  | .same => xi
  | .sum => List.zipWith (fun x c => x.map fun v => v + c) xi c

/-- `_convolve_multivariate_gaussian_numerical`.  /repo/flavio/statistics/probability.py:1827-1857. -/
noncomputable def convolveGN {n : ℕ} (g : MVN n) (d : MNum) (m : CentralMode) : Except PyErr MNum :=
  let xi := convAxes g d
  mkMNum (shiftAxes xi (toL g.central) m) ⟨xi.map List.length, convTable g d⟩ none

end Verif.Grid
