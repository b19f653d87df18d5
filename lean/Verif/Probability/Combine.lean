import Verif.Probability.Dist
import Verif.Py.ExceptLemmas
import Mathlib.Algebra.Order.Floor.Ring
import Mathlib.Algebra.BigOperators.Group.Finset.Basic
import Mathlib.Algebra.Order.Archimedean.Real.Basic
/-!
# Model of `convolve_distributions` and `combine_distributions` for univariate distributions
-/
set_option linter.unusedSectionVars false
set_option linter.unusedSimpArgs false
set_option linter.unusedVariables false
namespace Verif.Probability
open Verif.Py

/-- The argument `central_values` (any other string raises `ValueError`, /repo/flavio/statistics/probability.py:1646-1647). -/
inductive CentralMode where
  | same
  | sum
  deriving DecidableEq

/-- `np.linspace(a, b, n)` (Used for `fromPd`, /repo/flavio/statistics/probability.py:991-997.) -/
noncomputable def linspace (a b : ℝ) (n : Nat) : List ℝ :=
  (List.range n).map fun i : Nat => a + i * ((b - a) / ((n : ℝ) - 1))

/-- /repo/flavio/statistics/probability.py:991-997 `NumericalDistribution.from_pd` -/
noncomputable def fromPd (d : UDist) : Except PyErr (Num ℝ) :=
  match d with
  | .num n => .ok n
  | d =>
    let x := linspace d.support.1 d.support.2 1000
    Num.mk' x (x.map fun t => expP (d.logpdf t)) (some d.central)

/-- `scipy.signal.fftconvolve(a, b, 'full')`: the discrete convolution (computed exactly).
(Used for `convLoop`, /repo/flavio/statistics/probability.py:1815-1824.) -/
noncomputable def fullConv (a b : List ℝ) : List ℝ :=
  (List.range (a.length + b.length - 1)).map fun k =>
    ((List.range (k + 1)).map fun i => a.getD i 0 * b.getD (k - i) 0).sum

/-- The combined central value: /repo/flavio/statistics/probability.py:1798-1803 (`same`: of the first, after an assertion; `sum`: the sum). -/
noncomputable def commonCentral (mode : CentralMode) (cs : List ℝ) : Except PyErr ℝ :=
  match mode, cs with
  | .sum, cs => .ok cs.sum
  | .same, [] => .error .indexError
  | .same, c :: r => if ∀ c' ∈ r, c' = c then .ok c else .error .assertionError

/-- /repo/flavio/statistics/probability.py:1808-1809: the support of the convolution. -/
noncomputable def convSupport (cv : ℝ) (ds : List (Num ℝ)) : ℝ × ℝ :=
  (cv - (ds.map fun d => cv - (d.support.1 + (cv - d.central))).sum,
   cv - (ds.map fun d => cv - (d.support.2 + (cv - d.central))).sum)

/-- /repo/flavio/statistics/probability.py:1815-1824: fold the PDFs into one table. -/
noncomputable def convLoop (cv delta : ℝ) (x : List ℝ) (n : Nat) : Option (List ℝ) → List (Num ℝ) → List ℝ
  | none, [] => []
  | some y, [] => y
  | acc, d :: ds =>
    let y1 := x.map fun t => expP ((UDist.num d).logpdf (t - (cv - d.central))) * delta
    match acc with
    | none => convLoop cv delta x n (some y1) ds
    | some y => convLoop cv delta x n (some (((fullConv y y1).drop n).take x.length)) ds

/-- /repo/flavio/statistics/probability.py:1810-1825: the grid and the table of the convolution. -/
noncomputable def convNumCore (nsteps : Nat) (cv : ℝ) (ds : List (Num ℝ)) : Except PyErr (Num ℝ) :=
  let supp := convSupport cv ds
  let delta := (supp.2 - supp.1) / ((nsteps : ℝ) - 1)
  let x := linspace supp.1 supp.2 nsteps
  let n := (⌊(cv - supp.1) / delta⌋).toNat
  Num.mk' x (convLoop cv delta x n none ds) (some cv)

/-- /repo/flavio/statistics/probability.py:1791-1825 `_convolve_numerical` with `nsteps=10000`.  A support of zero width makes the code divide by
zero; this is not modelled. -/
noncomputable def convolveNumerical (ds : List (Num ℝ)) (mode : CentralMode) : Except PyErr (Num ℝ) :=
  match ds with
  | [d] => .ok d
  | ds => commonCentral mode (ds.map (·.central)) >>= fun cv => convNumCore 10000 cv ds

/-- /repo/flavio/statistics/probability.py:1757-1773 `_convolve_gaussians`; the pairs are (central value, standard deviation). -/
noncomputable def convolveGaussians (gs : List (ℝ × ℝ)) (mode : CentralMode) : Except PyErr UDist :=
  match gs with
  | [g] => .ok (.normal g.1 g.2)
  | gs => commonCentral mode (gs.map (·.1)) >>= fun cv =>
    mkNormal cv (Real.sqrt (gs.map fun g => g.2 ^ 2).sum)

/-- The Delta distributions in a list (their central values).
(Used for `convolve`, /repo/flavio/statistics/probability.py:1663-1712.) -/
def deltasOf (ds : List UDist) : List ℝ := ds.filterMap fun | .delta c => some c | _ => none
/-- The normal distributions in a list.
(Used for `convolve`, /repo/flavio/statistics/probability.py:1663-1712.) -/
def gaussiansOf (ds : List UDist) : List (ℝ × ℝ) := ds.filterMap fun | .normal c s => some (c, s) | _ => none
/-- All others. (Used for `convolve`, /repo/flavio/statistics/probability.py:1663-1712.) -/
def othersOf (ds : List UDist) : List UDist :=
  ds.filter fun | .delta _ => false | .normal _ _ => false | _ => true

/-- /repo/flavio/statistics/probability.py:1663-1712 `_convolve_distributions_univariate` (and l.1656-1660: an empty list raises `IndexError`). -/
noncomputable def convolve (ds : List UDist) (mode : CentralMode) : Except PyErr UDist :=
  match ds with
  | [] => .error .indexError
  | [d] => .ok d
  | d0 :: r =>
    if mode = .same ∧ ¬ ∀ p ∈ d0 :: r, p.central = d0.central then .error .assertionError
    else if mode = .sum ∧ deltasOf (d0 :: r) ≠ [] then .error .notImplementedError
    else
      match othersOf (d0 :: r), gaussiansOf (d0 :: r) with
      | [], [] =>
        match deltasOf (d0 :: r) with
        | c :: _ => .ok (.delta c)
        | [] => .error .indexError
      | [], gs => convolveGaussians gs mode
      | os, [] => do
        let nums ← os.mapM fromPd
        let n ← convolveNumerical nums mode
        .ok (.num n)
      | os, gs => do
        let g ← convolveGaussians gs mode
        let nums ← (os ++ [g]).mapM fromPd
        let n ← convolveNumerical nums mode
        .ok (.num n)

/-! ## Combination -/

/-- /repo/flavio/statistics/probability.py:1928-1934 `weighted_average` of (central value, standard deviation) pairs. -/
noncomputable def weightedAverage (gs : List (ℝ × ℝ)) : ℝ × ℝ :=
  ((gs.map fun g => g.1 * (1 / g.2 ^ 2)).sum / (gs.map fun g => 1 / g.2 ^ 2).sum,
   Real.sqrt (1 / (gs.map fun g => 1 / g.2 ^ 2).sum))

/-- /repo/flavio/statistics/probability.py:1937-1946 `_combine_gaussians` -/
noncomputable def combineGaussians (gs : List (ℝ × ℝ)) : Except PyErr UDist :=
  match gs with
  | [g] => .ok (.normal g.1 g.2)
  | gs => mkNormal (weightedAverage gs).1 (weightedAverage gs).2

/-- Sum of log-PDF values (`-inf` absorbs).
(Used for `combineNumerical`, /repo/flavio/statistics/probability.py:1949-1960.) -/
noncomputable def sumP : List LogP → LogP
  | [] => ((0 : ℝ) : LogP)
  | v :: r => match v, sumP r with
    | some a, some b => ((a + b : ℝ) : LogP)
    | _, _ => ⊥

/-- /repo/flavio/statistics/probability.py:1949-1960 `_combine_numerical` with `nsteps=1000`. -/
noncomputable def combineNumerical (ds : List (Num ℝ)) : Except PyErr (Num ℝ) :=
  match ds with
  | [] => .error .valueError
  | [d] => .ok d
  | d :: r =>
    let lo := r.foldl (fun a e => max a e.support.1) d.support.1
    let hi := r.foldl (fun a e => min a e.support.2) d.support.2
    if hi ≤ lo then .error .valueError
    else
      let x := linspace lo hi 1000
      Num.mk' x (x.map fun t => expP (sumP ((d :: r).map fun e => (UDist.num e).logpdf t))) none

/-- /repo/flavio/statistics/probability.py:1881-1925 `_combine_distributions_univariate` (an empty list raises `IndexError` in
`combine_distributions`, l.1874). -/
noncomputable def combine (ds : List UDist) : Except PyErr UDist :=
  match ds with
  | [] => .error .indexError
  | [d] => .ok d
  | ds =>
    match deltasOf ds with
    | c :: r => if ∀ c' ∈ r, c' = c then .ok (.delta c) else .error .valueError
    | [] =>
      match othersOf ds, gaussiansOf ds with
      | [], gs => combineGaussians gs
      | os, [] => do
        let nums ← os.mapM fromPd
        let n ← combineNumerical nums
        .ok (.num n)
      | os, gs => do
        let g ← combineGaussians gs
        let nums ← (os ++ [g]).mapM fromPd
        let n ← combineNumerical nums
        .ok (.num n)

end Verif.Probability
