import Verif.Probability.Combine
import Mathlib.LinearAlgebra.Matrix.PosDef
import Mathlib.LinearAlgebra.Matrix.NonsingularInverse
import Mathlib.LinearAlgebra.Eigenspace.Basic
import Mathlib.LinearAlgebra.Matrix.ToLin
/-!
# Model of the multivariate normal distribution and of multivariate `convolve`/`combine`
(`/repo/flavio/statistics/probability.py`, line numbers below refer to this file)

Vectors are functions on `Fin n`, matrices are Mathlib matrices; `numpy.linalg` is exact.
-/
set_option linter.unusedSectionVars false
set_option linter.unusedSimpArgs false
set_option linter.unusedVariables false
namespace Verif.Probability
open Verif.Py Matrix

/-- `np.allclose(a, a.T)` with numpy's default `rtol=1e-5`, `atol=1e-8`.
(Used for `symmetrise`, /repo/flavio/statistics/probability.py:1356-1361.) -/
def allcloseT {n : ℕ} (a : Matrix (Fin n) (Fin n) ℝ) : Prop :=
  ∀ i j, |a i j - a j i| ≤ (1 / 10 ^ 8 : ℝ) + (1 / 10 ^ 5 : ℝ) * |a j i|

open Classical in
/-- /repo/flavio/statistics/probability.py:1356-1361 (covariance) and l.1381-1385 (correlation): `M -> M + M^T - diag(M)` unless "symmetric". -/
noncomputable def symmetrise {n : ℕ} (a : Matrix (Fin n) (Fin n) ℝ) : Matrix (Fin n) (Fin n) ℝ :=
  if allcloseT a then a else a + aᵀ - Matrix.diagonal fun i => a i i

/-- A `MultivariateNormalDistribution` object: the attributes set in /repo/flavio/statistics/probability.py:1355-1397.  `isArray` records whether
`central_value` is a numpy array (or else a list/tuple, as loaded from YAML). -/
structure MVN (n : ℕ) where
  central : Fin n → ℝ
  isArray : Bool
  cov : Matrix (Fin n) (Fin n) ℝ
  sd : Fin n → ℝ
  corr : Matrix (Fin n) (Fin n) ℝ

/-- /repo/flavio/statistics/probability.py:1395 `self.err` -/
noncomputable def MVN.err {n : ℕ} (d : MVN n) : Fin n → ℝ := fun i => Real.sqrt (d.cov i i)

/-- /repo/flavio/statistics/probability.py:1396 `covariance / np.outer(err, err)` -/
noncomputable def scale {n : ℕ} (cov : Matrix (Fin n) (Fin n) ℝ) : Matrix (Fin n) (Fin n) ℝ :=
  Matrix.of fun i j => cov i j / (Real.sqrt (cov i i) * Real.sqrt (cov j j))

/-- /repo/flavio/statistics/probability.py:1396 `self.scaled_covariance` -/
noncomputable def MVN.scaledCov {n : ℕ} (d : MVN n) : Matrix (Fin n) (Fin n) ℝ := scale d.cov

/-- /repo/flavio/statistics/probability.py:1390-1393 `support`: `[central - 6 sd, central + 6 sd]` -/
noncomputable def MVN.support {n : ℕ} (d : MVN n) : (Fin n → ℝ) × (Fin n → ℝ) :=
  (fun i => d.central i - 6 * d.sd i, fun i => d.central i + 6 * d.sd i)

/-- /repo/flavio/statistics/probability.py:1397-1398 `np.all(np.linalg.eigvals(A) > 0)`.  Real eigenvalues only: a complex pair can only occur for a
matrix that is not symmetric. -/
def EigPos {n : ℕ} (a : Matrix (Fin n) (Fin n) ℝ) : Prop :=
  ∀ μ : ℝ, Module.End.HasEigenvalue (Matrix.toLin' a) μ → 0 < μ

open Classical in
/-- /repo/flavio/statistics/probability.py:1395-1398: the object is created unless the assertion fails.  (For a variance that is zero or negative the
code gets `nan` and numpy raises `LinAlgError`; here this is an `AssertionError` too.) -/
noncomputable def MVN.finish {n : ℕ} (d : MVN n) : Except PyErr (MVN n) :=
  if (∀ i, 0 < d.cov i i) ∧ EigPos d.scaledCov then .ok d else .error .assertionError

/-- /repo/flavio/statistics/probability.py:1355-1365: the attributes set for a given covariance. -/
noncomputable def mvnOfCov {n : ℕ} (central : Fin n → ℝ) (isArray : Bool) (cov : Matrix (Fin n) (Fin n) ℝ) : MVN n :=
  { central := central, isArray := isArray
    cov := symmetrise cov
    sd := fun i => Real.sqrt (symmetrise cov i i)
    corr := Matrix.of fun i j => if i = j then 1 else
      symmetrise cov i j / (Real.sqrt (symmetrise cov i i) * Real.sqrt (symmetrise cov j j)) }

/-- `MultivariateNormalDistribution(central_value, covariance=cov)`
(Used for `mkMVN`, /repo/flavio/statistics/probability.py:1346-1388.) -/
noncomputable def mkMVNCov {n : ℕ} (central : Fin n → ℝ) (isArray : Bool) (cov : Matrix (Fin n) (Fin n) ℝ) :
    Except PyErr (MVN n) := (mvnOfCov central isArray cov).finish

/-- The argument `correlation`: absent, a number, or a matrix.
(Used for `CorrArg.toMatrix`, /repo/flavio/statistics/probability.py:1370-1386.) -/
inductive CorrArg (n : ℕ) where
  | none
  | number (rho : ℝ)
  | matrix (m : Matrix (Fin n) (Fin n) ℝ)

/-- /repo/flavio/statistics/probability.py:1370-1386: the correlation matrix. -/
noncomputable def CorrArg.toMatrix {n : ℕ} : CorrArg n → Matrix (Fin n) (Fin n) ℝ
  | .none => 1
  | .number rho => 1 + rho • (Matrix.of (fun _ _ => (1 : ℝ)) - 1)
  | .matrix m => symmetrise m

/-- /repo/flavio/statistics/probability.py:1366-1388: `MultivariateNormalDistribution(central_value, standard_deviation=sd, correlation=corr)` -/
noncomputable def mkMVNSd {n : ℕ} (central : Fin n → ℝ) (isArray : Bool) (sd : Fin n → ℝ) (corr : CorrArg n) :
    Except PyErr (MVN n) :=
  MVN.finish
    { central := central, isArray := isArray
      cov := Matrix.of fun i j => sd i * sd j * corr.toMatrix i j
      sd := sd
      corr := corr.toMatrix }

/-- /repo/flavio/statistics/probability.py:1346-1388 `__init__` with all its optional arguments. -/
noncomputable def mkMVN {n : ℕ} (central : Fin n → ℝ) (isArray : Bool)
    (cov : Option (Matrix (Fin n) (Fin n) ℝ)) (sd : Option (Fin n → ℝ)) (corr : CorrArg n) : Except PyErr (MVN n) :=
  match cov, sd with
  | some c, _ => mkMVNCov central isArray c
  | none, none => .error .valueError
  | none, some s => mkMVNSd central isArray s corr

/-- Positions that `np.delete` keeps, in ascending order.
(Used for `MVN.reduce`, /repo/flavio/statistics/probability.py:1407-1430.) -/
def keptPositions (n : ℕ) (exclude : List ℕ) : List (Fin n) :=
  (List.finRange n).filter fun i => decide ((i : ℕ) ∉ exclude)

/-- The result of `reduce_dimension`: a multivariate or a univariate distribution.
(Used for `MVN.reduce`, /repo/flavio/statistics/probability.py:1407-1430.) -/
inductive Reduced where
  | multi {m : ℕ} (d : MVN m)
  | uni (d : UDist)

/-- /repo/flavio/statistics/probability.py:1407-1430 `reduce_dimension`.  `exclude` contains non-negative positions (negative ones are not
modelled); a position out of range makes `np.delete` raise `IndexError`. -/
noncomputable def MVN.reduce {n : ℕ} (d : MVN n) (exclude : List ℕ) : Except PyErr Reduced :=
  if exclude = [] then .ok (.multi d)
  else if ∃ e ∈ exclude, n ≤ e then .error .indexError
  else
    let kept := keptPositions n exclude
    match kept with
    | [k] => (mkNormal (d.central k) (Real.sqrt (d.cov k k))).map Reduced.uni
    | ks => (mkMVNCov (fun i => d.central (ks.get i)) true (d.cov.submatrix ks.get ks.get)).map Reduced.multi

/-- `scipy.stats.multivariate_normal.logpdf(y, m, S)` for a positive definite `S`.
(Used for `MVN.logpdf`, /repo/flavio/statistics/probability.py:1448-1452.) -/
noncomputable def mvnTextbook {n : ℕ} (y m : Fin n → ℝ) (S : Matrix (Fin n) (Fin n) ℝ) : ℝ :=
  -(1 / 2) * (n * Real.log (2 * Real.pi) + Real.log S.det + (y - m) ⬝ᵥ (S⁻¹ *ᵥ (y - m)))

/-- /repo/flavio/statistics/probability.py:1448-1452 `logpdf` without `exclude`: rescaled data; `slogdet(A)[1] = log |det A|`. -/
noncomputable def MVN.logpdf {n : ℕ} (d : MVN n) (x : Fin n → ℝ) : ℝ :=
  mvnTextbook (fun i => x i / d.err i) (fun i => d.central i / d.err i) d.scaledCov +
    (Real.log |d.scaledCov.det| - Real.log |d.cov.det|) / 2

/-- /repo/flavio/statistics/probability.py:1442-1447 `logpdf(x, exclude=exclude)` with a list (`exclude is not None`): the log-PDF of the reduced
distribution; `x` lists the remaining coordinates (numpy raises `ValueError` for the wrong number of them). -/
noncomputable def MVN.logpdfEx {n : ℕ} (d : MVN n) (x : List ℝ) (exclude : List ℕ) : Except PyErr LogP :=
  d.reduce exclude >>= fun r =>
    match r with
    | .uni u => match x with
      | [t] => .ok (u.logpdf t)
      | _ => .error .valueError
    | .multi (m := m) d' =>
      if h : x.length = m then .ok ((d'.logpdf fun i => x.get (i.cast h.symm) : ℝ) : LogP)
      else .error .valueError

/-- /repo/flavio/statistics/probability.py:127-134 `delta_logpdf(x, exclude=exclude)` for a multivariate normal. -/
noncomputable def MVN.deltaLogpdfEx {n : ℕ} (d : MVN n) (x : List ℝ) (exclude : List ℕ) : Except PyErr FloatVal :=
  d.logpdfEx x exclude >>= fun a =>
    d.logpdfEx ((keptPositions n exclude).map d.central) exclude >>= fun b =>
      .ok (subP a b)

/-- /repo/flavio/statistics/probability.py:127-134 `delta_logpdf(x)` without `exclude`. -/
noncomputable def MVN.deltaLogpdf {n : ℕ} (d : MVN n) (x : Fin n → ℝ) : ℝ := d.logpdf x - d.logpdf d.central

/-! ## Convolution and combination -/

/-- Multivariate distributions of dimension `n`: normal, numerical (opaque data), or any other class.
(Used for `MvDist.isOther`, /repo/flavio/statistics/probability.py:1725-1729.) -/
inductive MvDist (n : ℕ) (Num : Type) where
  | normal (d : MVN n)
  | numerical (central : Fin n → ℝ) (data : Num)
  | other (central : Fin n → ℝ)

/-- `p.central_value` (Used for `MVN`, /repo/flavio/statistics/probability.py:1355-1397.) -/
def MvDist.central {n : ℕ} {Num : Type} : MvDist n Num → Fin n → ℝ
  | .normal d => d.central
  | .numerical c _ => c
  | .other c => c

/-- /repo/flavio/statistics/probability.py:1775-1789 `_convolve_multivariate_gaussians`.  In the mode `'same'` the assertion evaluates
`p.central_value == central_value`, whose truth value is ambiguous (`ValueError`) as soon as one of the two is
a numpy array (of at least two elements). -/
noncomputable def convolveMvGaussians {n : ℕ} (ds : List (MVN n)) (mode : CentralMode) : Except PyErr (MVN n) :=
  match ds with
  | [] => .error .indexError
  | [d] => .ok d
  | d0 :: r =>
    match mode with
    | .same =>
      if ∃ d ∈ d0 :: r, d.isArray = true then .error .valueError
      else if ∀ d ∈ d0 :: r, d.central = d0.central then
        mkMVNCov d0.central d0.isArray ((d0 :: r).map (·.cov)).sum
      else .error .assertionError
    | .sum => mkMVNCov ((d0 :: r).map (·.central)).sum true ((d0 :: r).map (·.cov)).sum

/-- The normal distributions in a list.
(Used for `convolveMv`, /repo/flavio/statistics/probability.py:1629-1662.) -/
def mvGaussiansOf {n : ℕ} {Num : Type} (ds : List (MvDist n Num)) : List (MVN n) :=
  ds.filterMap fun | .normal d => some d | _ => none
/-- The numerical distributions in a list.
(Used for `convolveMv`, /repo/flavio/statistics/probability.py:1629-1662.) -/
def mvNumericalsOf {n : ℕ} {Num : Type} (ds : List (MvDist n Num)) : List ((Fin n → ℝ) × Num) :=
  ds.filterMap fun | .numerical c d => some (c, d) | _ => none
/-- /repo/flavio/statistics/probability.py:1725-1729: is it a distribution of another class? -/
def MvDist.isOther {n : ℕ} {Num : Type} : MvDist n Num → Bool
  | .other _ => true
  | _ => false

/-- /repo/flavio/statistics/probability.py:1629-1662 and l.1715-1754 `convolve_distributions` for multivariate distributions of the same dimension
`n ≥ 2` (different dimensions raise `AssertionError`, l.1655).  `gaussNum` is
`_convolve_multivariate_gaussian_numerical` (l.1827-1857).  The result `none` is Python's `None`: l.1750 creates
a `NotImplementedError` without raising it. -/
noncomputable def convolveMv {n : ℕ} {Num : Type}
    (gaussNum : MVN n → (Fin n → ℝ) × Num → CentralMode → Except PyErr (MvDist n Num))
    (ds : List (MvDist n Num)) (mode : CentralMode) : Except PyErr (Option (MvDist n Num)) :=
  match ds with
  | [] => .error .indexError
  | [d] => .ok (some d)
  | d0 :: r =>
    if mode = .same ∧ ¬ ∀ p ∈ d0 :: r, p.central = d0.central then .error .assertionError
    else if (d0 :: r).any MvDist.isOther then .error .valueError
    else
      match mvGaussiansOf (d0 :: r), mvNumericalsOf (d0 :: r) with
      | [], [] => .error .indexError
      | [], [_] => .error .unboundLocalError
      | [], _ => .ok none
      | g :: gs, [] => convolveMvGaussians (g :: gs) mode >>= fun d => .ok (some (.normal d))
      | g :: gs, [o] => convolveMvGaussians (g :: gs) mode >>= fun d => gaussNum d o mode >>= fun m => .ok (some m)
      | g :: gs, _ => convolveMvGaussians (g :: gs) mode >>= fun _ => .ok none

/-- /repo/flavio/statistics/probability.py:1994-2010 `_combine_multivariate_gaussians` -/
noncomputable def combineMvGaussians {n : ℕ} (ds : List (MVN n)) : Except PyErr (MVN n) :=
  let weights := ds.map fun d => d.cov⁻¹
  let wcov := weights.sum⁻¹
  mkMVNCov (wcov *ᵥ (ds.map fun d => d.cov⁻¹ *ᵥ d.central).sum) true wcov

/-- /repo/flavio/statistics/probability.py:1860-1878 and l.1963-1991 `combine_distributions` for multivariate normal distributions of dimension
`n ≥ 2`. -/
noncomputable def combineMvNormals {n : ℕ} (ds : List (MVN n)) : Except PyErr (MVN n) :=
  match ds with
  | [] => .error .indexError
  | [d] => .ok d
  | ds => combineMvGaussians ds

end Verif.Probability
