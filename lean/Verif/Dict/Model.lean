import Verif.Dict.Names
import Verif.Py.ExceptLemmas
import Verif.Probability.Dist
import Verif.Probability.Gamma
import Verif.Probability.Multivariate
/-!
# Model of `get_dict`, `dict2dist` and of the constructors' attributes (`flavio.statistics.probability`)

An object is its class together with the attributes (`__dict__`) its constructor sets.  Floats are real numbers.
-/
set_option linter.unusedSectionVars false
set_option linter.unusedSimpArgs false
set_option linter.unusedVariables false
namespace Verif.DistDict
open Verif.Py Verif.Probability

/-- Python values.  `seq isArr l` is a numpy array (`isArr = true`; for several dimensions its elements are the
sub-arrays) or a list; `dist c attrs` is a distribution object.  Tuples are represented as arrays, since `get_dict`
does not convert them and they do not occur as constructor arguments.
(Used for `corrArg`, /repo/flavio/statistics/probability.py:1372-1381.) -/
inductive PVal where
  | none
  | int (n : ℤ)
  | float (r : ℝ)
  | str (s : String)
  | seq (isArr : Bool) (l : List PVal)
  | dict (d : List (String × PVal))
  | dist (c : Cls) (attrs : List (String × PVal))

/-- A distribution object. (Used for `Env`, /repo/flavio/statistics/probability.py:1045-1079.) -/
structure Obj where
  cls : Cls
  attrs : Dict String PVal

mutual
/-- `ndarray.tolist()` for an array; arrays occur in arrays as rows only.
(Used for `arrayToList`, /repo/flavio/statistics/probability.py:97-104.) -/
def tolist : PVal → PVal
  | .seq true l => .seq false (tolistL l)
  | v => v
/-- Helper for /repo/flavio/statistics/probability.py:74-110,2032-2063. -/
def tolistL : List PVal → List PVal
  | [] => []
  | v :: r => tolist v :: tolistL r
end

mutual
/-- The value up to the Python type of numbers and sequences: two values with the same `norm` are numerically equal
(`np.array_equal`, `==` of int and float).
(Used for `bKDE`, /repo/flavio/statistics/probability.py:1269-1283.) -/
def norm : PVal → PVal
  | .none => .none
  | .int n => .float n
  | .float r => .float r
  | .str s => .str s
  | .seq _ l => .seq true (normL l)
  | .dict d => .dict (normD d)
  | .dist c a => .dist c (normD a)
/-- Helper for /repo/flavio/statistics/probability.py:74-110,2032-2063. -/
def normL : List PVal → List PVal
  | [] => []
  | v :: r => norm v :: normL r
/-- Helper for /repo/flavio/statistics/probability.py:74-110,2032-2063. -/
def normD : List (String × PVal) → List (String × PVal)
  | [] => []
  | e :: r => (e.1, norm e.2) :: normD r
end

/-! ## Constructor arguments -/

/-- The constructor's parameters (`inspect.signature(cls).parameters`) and whether they have the default `None`:
/repo/flavio/statistics/probability.py:139, 185, 234, 273, 319, 403, 475, 552, 586, 649, 748-752, 815-819, 864, 1008, 1094-1099, 1185-1191, 1269, 1301,
1346, 1466. -/
def params : Cls → List (String × Bool)
  | .uniform => [("central_value", false), ("half_range", false)]
  | .discreteUniform => [("lowest_value", false), ("highest_value", false), ("central_value", true)]
  | .delta => [("central_value", false)]
  | .normal => [("central_value", false), ("standard_deviation", false)]
  | .logNormal => [("central_value", false), ("factor", false)]
  | .asymmetricNormal => [("central_value", false), ("right_deviation", false), ("left_deviation", false)]
  | .halfNormal => [("central_value", false), ("standard_deviation", false)]
  | .gaussianUpperLimit => [("limit", false), ("confidence_level", false)]
  | .gamma => [("a", false), ("loc", false), ("scale", false)]
  | .gammaPositive => [("a", false), ("loc", false), ("scale", false)]
  | .gammaCounting =>
    [("scale_factor", false), ("counts_total", true), ("counts_background", true), ("counts_signal", true)]
  | .gammaUpperLimit =>
    [("limit", false), ("confidence_level", false), ("counts_total", true), ("counts_background", true),
     ("counts_signal", true)]
  | .numerical => [("x", false), ("y", false), ("central_value", true)]
  | .generalGammaPositive =>
    [("a", false), ("loc", false), ("scale", false), ("gaussian_standard_deviation", false)]
  | .generalGammaCounting =>
    [("scale_factor", false), ("counts_total", true), ("counts_background", true), ("counts_signal", true),
     ("background_std", false)]
  | .generalGammaUpperLimit =>
    [("limit", false), ("confidence_level", false), ("counts_total", true), ("counts_background", true),
     ("counts_signal", true), ("background_std", true), ("background_variance", true)]
  | .kernelDensityEstimate => [("data", false), ("kernel", false), ("n_bins", true)]
  | .gaussianKDE => [("data", false), ("bandwidth", true), ("n_bins", true)]
  | .multivariateNormal =>
    [("central_value", false), ("covariance", true), ("standard_deviation", true), ("correlation", true)]
  | .multivariateNumerical => [("xi", false), ("y", false), ("central_value", true)]

/-- A number. (Used for `bUniform`, /repo/flavio/statistics/probability.py:139-154.) -/
def num : PVal → Except PyErr ℝ
  | .int n => .ok n
  | .float r => .ok r
  | _ => .error .typeError

/-- A number or `None`. (Used for `bDiscrete`, /repo/flavio/statistics/probability.py:185-203.) -/
def optNum : PVal → Except PyErr (Option ℝ)
  | .none => .ok none
  | v => num v >>= fun r => .ok (some r)

/-- A sequence of numbers. (Used for `bNumerical`, /repo/flavio/statistics/probability.py:864-896.) -/
def vec : PVal → Except PyErr (List ℝ)
  | .seq _ l => l.mapM num
  | _ => .error .typeError

/-- A sequence of sequences of numbers.
(Used for `corrArg`, /repo/flavio/statistics/probability.py:1372-1381.) -/
def mat : PVal → Except PyErr (List (List ℝ))
  | .seq _ l => l.mapM vec
  | _ => .error .typeError

/-- Numbers as an array. (Used for `numTable`, /repo/flavio/statistics/probability.py:881-896.) -/
def ofVec (l : List ℝ) : PVal := .seq true (l.map .float)
/-- A two-dimensional array. (Used for `mvnAttrs`, /repo/flavio/statistics/probability.py:1363-1392.) -/
def ofMat (l : List (List ℝ)) : PVal := .seq true (l.map ofVec)
/-- A pair of numbers. (Used for `numTable`, /repo/flavio/statistics/probability.py:881-896.) -/
def pair (p : ℝ × ℝ) : PVal := .seq true [.float p.1, .float p.2]

/-- `len(l) = n`, else numpy's broadcasting `ValueError`.
(Used for `bMVN`, /repo/flavio/statistics/probability.py:1346-1398.) -/
def fnOf (n : ℕ) (l : List ℝ) : Except PyErr (Fin n → ℝ) :=
  if l.length = n then .ok fun i => l.getD i 0 else .error .valueError

/-- An `n` by `n` array from nested lists.
(Used for `corrArg`, /repo/flavio/statistics/probability.py:1372-1381.) -/
def matOf (n : ℕ) (l : List (List ℝ)) : Except PyErr (Matrix (Fin n) (Fin n) ℝ) :=
  if l.length = n ∧ ∀ r ∈ l, r.length = n then .ok (Matrix.of fun i j => (l.getD i []).getD j 0)
  else .error .valueError

/-- The list of the components. (Used for `mvnAttrs`, /repo/flavio/statistics/probability.py:1363-1392.) -/
def fnList {n : ℕ} (f : Fin n → ℝ) : List ℝ := (List.finRange n).map f
/-- The rows of a matrix. (Used for `mvnAttrs`, /repo/flavio/statistics/probability.py:1363-1392.) -/
def matList {n : ℕ} (m : Matrix (Fin n) (Fin n) ℝ) : List (List ℝ) :=
  (List.finRange n).map fun i => fnList (m i)

/-- An optional matrix. (Used for `bMVN`, /repo/flavio/statistics/probability.py:1346-1398.) -/
noncomputable def optMat (n : ℕ) : PVal → Except PyErr (Option (Matrix (Fin n) (Fin n) ℝ))
  | .none => .ok none
  | v => mat v >>= fun l => matOf n l >>= fun m => .ok (some m)

/-- An optional vector. (Used for `bMVN`, /repo/flavio/statistics/probability.py:1346-1398.) -/
noncomputable def optFn (n : ℕ) : PVal → Except PyErr (Option (Fin n → ℝ))
  | .none => .ok none
  | v => vec v >>= fun l => fnOf n l >>= fun f => .ok (some f)

/-- /repo/flavio/statistics/probability.py:1372-1381: `None`, a number, or a matrix. -/
noncomputable def corrArg (n : ℕ) : PVal → Except PyErr (CorrArg n)
  | .none => .ok .none
  | .int k => .ok (.number k)
  | .float r => .ok (.number r)
  | v => mat v >>= fun l => matOf n l >>= fun m => .ok (.matrix m)

/-- External functions: the normal quantile function, the standard Gamma distribution, the tables of `_get_xy`
(/repo/flavio/statistics/probability.py:1045-1079), Scott's rule (l.1302), the intermediate steps of `KernelDensityEstimate` (histogram and convolution,
l.1278-1282; arguments: data, kernel, number of bins), the mode (l.1500-1502) and the normalised PDF and interpolator
(l.1503-1511) of `MultivariateNumericalDistribution` (arguments: grid, values). -/
structure Env where
  ppf : ℝ → ℝ
  gamma : StdGamma
  getXY : ℝ → ℝ → ℝ → ℝ → Except PyErr (Num ℝ)
  numPpf : Num ℝ → ℝ → ℝ
  scott : List ℝ → ℝ
  kde : List ℝ → Obj → ℤ → Except PyErr (Num ℝ)
  mode : List (List ℝ) → PVal → List ℝ
  rest : List (List ℝ) → PVal → Except PyErr PVal

/-! ## Constructors -/

/-- Python's `int` of a float: truncation towards zero.
(Used for `bDiscrete`, /repo/flavio/statistics/probability.py:185-203.) -/
noncomputable def trunc (r : ℝ) : ℤ := if r < 0 then ⌈r⌉ else ⌊r⌋

/-- The attributes of a univariate object with parameters `ps`.
(Used for `bUniform`, /repo/flavio/statistics/probability.py:139-154.) -/
noncomputable def uniAttrs (d : UDist) (ps : List (String × PVal)) : Dict String PVal :=
  ps ++ [("support", pair d.support)]

/-- /repo/flavio/statistics/probability.py:139-154 -/
noncomputable def bUniform (c h : PVal) : Except PyErr (Dict String PVal) :=
  num c >>= fun c' => num h >>= fun h' => mkUniform c' h' >>= fun d =>
    .ok (uniAttrs d [("central_value", c), ("half_range", h)])

/-- /repo/flavio/statistics/probability.py:185-203 for numbers (`None` for the default central value). -/
noncomputable def bDiscrete (lo hi c : PVal) : Except PyErr (Dict String PVal) :=
  num lo >>= fun lo' => num hi >>= fun hi' => optNum c >>= fun c' =>
    match c' with
    | none => .ok [("lowest_value", .int (trunc lo')), ("highest_value", .int (trunc hi')),
        ("central_value", .int (trunc ((lo' + hi') / 2)))]
    | some c' =>
      if c' ≠ 0 ∧ (hi' < c' ∨ c' < lo') then .error .valueError
      else .ok [("lowest_value", .int (trunc lo')), ("highest_value", .int (trunc hi')),
        ("central_value", .int (trunc c'))]

/-- /repo/flavio/statistics/probability.py:234-241 -/
noncomputable def bDelta (c : PVal) : Except PyErr (Dict String PVal) :=
  num c >>= fun c' => mkDelta c' >>= fun d => .ok (uniAttrs d [("central_value", c)])

/-- /repo/flavio/statistics/probability.py:273-286 -/
noncomputable def bNormal (c s : PVal) : Except PyErr (Dict String PVal) :=
  num c >>= fun c' => num s >>= fun s' => mkNormal c' s' >>= fun d =>
    .ok (uniAttrs d [("central_value", c), ("standard_deviation", s)])

/-- /repo/flavio/statistics/probability.py:319-358 (`log_standard_deviation` etc. are functions of the arguments and omitted) -/
noncomputable def bLogNormal (c f : PVal) : Except PyErr (Dict String PVal) :=
  num c >>= fun c' => num f >>= fun f' => mkLogNormal c' f' >>= fun d =>
    .ok (uniAttrs d [("central_value", c), ("factor", f)])

/-- /repo/flavio/statistics/probability.py:403-423 -/
noncomputable def bAsym (c r l : PVal) : Except PyErr (Dict String PVal) :=
  num c >>= fun c' => num r >>= fun r' => num l >>= fun l' => mkAsym c' r' l' >>= fun d =>
    .ok (uniAttrs d [("central_value", c), ("right_deviation", r), ("left_deviation", l)])

/-- /repo/flavio/statistics/probability.py:475-494 -/
noncomputable def bHalf (c s : PVal) : Except PyErr (Dict String PVal) :=
  num c >>= fun c' => num s >>= fun s' => mkHalf c' s' >>= fun d =>
    .ok (uniAttrs d [("central_value", c), ("standard_deviation", s)])

/-- /repo/flavio/statistics/probability.py:552-577; `central_value` is 0 and `standard_deviation` is derived. -/
noncomputable def bLimit (E : Env) (lim cl : PVal) : Except PyErr (Dict String PVal) :=
  num lim >>= fun lim' => num cl >>= fun cl' => mkGaussianLimit E.ppf lim' cl' >>= fun d =>
    match d with
    | .gaussianLimit _ _ s =>
      .ok (uniAttrs d [("central_value", .int 0), ("standard_deviation", .float s), ("limit", lim), ("confidence_level", cl)])
    | _ => .error .typeError

/-- /repo/flavio/statistics/probability.py:586-599 (`central_value` is the mode; the support, a function of the arguments, is omitted). -/
noncomputable def bGamma (a loc scale : PVal) : Except PyErr (Dict String PVal) :=
  num a >>= fun a' => num loc >>= fun loc' => num scale >>= fun scale' => mkGamma a' loc' scale' >>= fun g =>
    .ok [("central_value", .float g.mode), ("a", a), ("loc", loc), ("scale", scale)]

/-- /repo/flavio/statistics/probability.py:649-666: `loc` must not be positive. -/
noncomputable def bGammaPos (a loc scale : PVal) : Except PyErr (Dict String PVal) :=
  num a >>= fun a' => num loc >>= fun loc' => num scale >>= fun scale' => mkGamma a' loc' scale' >>= fun g =>
    .ok [("central_value", .float g.modePos), ("a", a), ("loc", loc), ("scale", scale)]

/-- Attributes of a `GammaCountingProcess` (/repo/flavio/statistics/probability.py:771-793 and l.660-664). -/
noncomputable def countAttrs (c : CountingProcess) : Dict String PVal :=
  [("scale_factor", .float c.scaleFactor), ("counts_total", .float c.counts.total),
   ("counts_background", .float c.counts.background), ("counts_signal", .float c.counts.signal),
   ("a", .float c.gamma.a), ("loc", .float c.gamma.loc), ("scale", .float c.gamma.scale),
   ("central_value", .float c.gamma.modePos)]

/-- /repo/flavio/statistics/probability.py:748-798 -/
noncomputable def bCounting (sf t b s : PVal) : Except PyErr (Dict String PVal) :=
  num sf >>= fun sf' => optNum t >>= fun t' => optNum b >>= fun b' => optNum s >>= fun s' =>
    mkCounting sf' t' b' s' >>= fun c => .ok (countAttrs c)

/-- /repo/flavio/statistics/probability.py:815-850 -/
noncomputable def bGammaLimit (E : Env) (lim cl t b s : PVal) : Except PyErr (Dict String PVal) :=
  num lim >>= fun lim' => num cl >>= fun cl' => optNum t >>= fun t' => optNum b >>= fun b' => optNum s >>= fun s' =>
    mkGammaUpperLimit E.gamma lim' cl' t' b' s' >>= fun u =>
      .ok ([("limit", .float u.limit), ("confidence_level", .float u.confidenceLevel)] ++ countAttrs u.process)

/-- Attributes set in /repo/flavio/statistics/probability.py:881-896 besides the arguments (the interpolators are given by their tables). -/
noncomputable def numTable (d : Num ℝ) : Dict String PVal :=
  [("support", pair d.support), ("y_norm", ofVec d.yNorm), ("_cdf", ofVec d.cdfTab)]

/-- /repo/flavio/statistics/probability.py:864-896: `x` and `y` are stored as they are given. -/
noncomputable def bNumerical (x y c : PVal) : Except PyErr (Dict String PVal) :=
  vec x >>= fun x' => vec y >>= fun y' => optNum c >>= fun c' => Num.mk' x' y' c' >>= fun d =>
    .ok ([("x", x), ("y", y), ("central_value", .float d.central)] ++ numTable d)

/-- Attributes of a `NumericalDistribution` built from arrays (subclasses, /repo/flavio/statistics/probability.py:1033 and l.1283). -/
noncomputable def numAttrs (d : Num ℝ) : Dict String PVal :=
  [("x", ofVec d.x), ("y", ofVec d.y), ("central_value", .float d.central)] ++ numTable d

/-- /repo/flavio/statistics/probability.py:1008-1033: used directly, `self.counts_total` does not exist (after the check of `loc`, and unless `_get_xy`
raises first). -/
noncomputable def bGenPositive (E : Env) (a loc scale std : PVal) : Except PyErr (Dict String PVal) :=
  num a >>= fun a' => num loc >>= fun loc' => num scale >>= fun scale' => num std >>= fun std' =>
    if loc' > 0 then .error .valueError
    else E.getXY a' loc' scale' std' >>= fun _ => .error .attributeError

/-- Attributes of a `GeneralGammaCountingProcess` (/repo/flavio/statistics/probability.py:1022-1033, l.1124-1151). -/
noncomputable def genAttrs (c : GeneralCounting (Num ℝ)) : Dict String PVal :=
  [("scale_factor", .float c.scaleFactor), ("counts_total", .float c.counts.total),
   ("counts_background", .float c.counts.background), ("counts_signal", .float c.counts.signal),
   ("background_std", .float c.backgroundStd), ("gaussian_standard_deviation", .float c.gaussianStd)] ++
  numAttrs c.num

/-- /repo/flavio/statistics/probability.py:1094-1161 -/
noncomputable def bGenCounting (E : Env) (sf t b s std : PVal) : Except PyErr (Dict String PVal) :=
  num sf >>= fun sf' => optNum t >>= fun t' => optNum b >>= fun b' => optNum s >>= fun s' => num std >>= fun std' =>
    mkGeneralCounting E.getXY Real.sqrt sf' t' b' s' std' >>= fun c => .ok (genAttrs c)

/-- /repo/flavio/statistics/probability.py:1185-1246 -/
noncomputable def bGenLimit (E : Env) (lim cl t b s std var : PVal) : Except PyErr (Dict String PVal) :=
  num lim >>= fun lim' => num cl >>= fun cl' => optNum t >>= fun t' => optNum b >>= fun b' => optNum s >>= fun s' =>
    optNum std >>= fun std' => optNum var >>= fun var' =>
      mkGeneralLimit E.getXY Real.sqrt E.numPpf lim' cl' t' b' s' std' var' >>= fun u =>
        .ok ([("limit", .float u.limit), ("confidence_level", .float u.confidenceLevel),
          ("background_variance", .float u.backgroundVariance)] ++ genAttrs u.process)

/-- The number of bins for `np.histogram`: an int, or `TypeError`.
(Used for `bKDE`, /repo/flavio/statistics/probability.py:1269-1283.) -/
def bins (n : ℕ) : PVal → Except PyErr (PVal × ℤ)
  | .none => .ok (.int (min 1000 n), min 1000 n)
  | .int k => .ok (.int k, k)
  | _ => .error .typeError

open Classical in
/-- /repo/flavio/statistics/probability.py:1269-1283: `kernel.central_value` exists for distribution objects only. -/
noncomputable def bKDE (E : Env) (data kernel nbins : PVal) : Except PyErr (Dict String PVal) :=
  match kernel with
  | .dist c a =>
    match Dict.get? a "central_value" with
    | none => .error .attributeError
    | some v =>
      if norm v ≠ .float 0 then .error .assertionError
      else vec data >>= fun l => bins l.length nbins >>= fun nb => E.kde l ⟨c, a⟩ nb.2 >>= fun d =>
        .ok ([("data", data), ("kernel", kernel), ("n_bins", nb.1)] ++ numAttrs d)
  | _ => .error .attributeError

/-- /repo/flavio/statistics/probability.py:1301-1308 -/
noncomputable def bGaussianKDE (E : Env) (data bw nbins : PVal) : Except PyErr (Dict String PVal) :=
  vec data >>= fun l => optNum bw >>= fun bw' =>
    bNormal (.int 0) (.float (bw'.getD (E.scott l))) >>= fun ka =>
      bKDE E data (.dist .normal ka) nbins >>= fun attrs =>
        .ok (("bandwidth", .float (bw'.getD (E.scott l))) :: attrs)

/-- Attributes of a `MultivariateNormalDistribution` (/repo/flavio/statistics/probability.py:1363-1392); `central_value` is stored as given. -/
noncomputable def mvnAttrs {n : ℕ} (c : PVal) (d : MVN n) : Dict String PVal :=
  [("central_value", c), ("covariance", ofMat (matList d.cov)), ("standard_deviation", ofVec (fnList d.sd)),
   ("correlation", ofMat (matList d.corr)),
   ("support", ofMat [fnList d.support.1, fnList d.support.2])]

/-- /repo/flavio/statistics/probability.py:1346-1398 -/
noncomputable def bMVN (c cov sd corr : PVal) : Except PyErr (Dict String PVal) :=
  vec c >>= fun c' => fnOf c'.length c' >>= fun cf => optMat c'.length cov >>= fun cov' =>
    optFn c'.length sd >>= fun sd' => corrArg c'.length corr >>= fun corr' =>
      mkMVN cf true cov' sd' corr' >>= fun d => .ok (mvnAttrs c d)

/-- `np.linspace(a, b, m)` (Used for `expandAxis`, /repo/flavio/statistics/probability.py:1492-1494.) -/
noncomputable def linspace (a b : ℝ) (m : ℕ) : List ℝ :=
  (List.range m).map fun (i : ℕ) => a + (i : ℝ) * ((b - a) / ((m : ℝ) - 1))

open Classical in
/-- /repo/flavio/statistics/probability.py:1484-1489 for one axis: `abs(min(d)/max(d) - 1) > 1e-3` raises (also for an axis of one point, where `np.min`
of nothing raises); `0/0` is `nan`, which passes. -/
noncomputable def evenCheck (x : List ℝ) : Except PyErr Unit :=
  match diff x with
  | [] => .error .valueError
  | d :: r =>
    if (r.foldl max d = 0 ∧ r.foldl min d ≠ 0) ∨
      (r.foldl max d ≠ 0 ∧ |r.foldl min d / r.foldl max d - 1| > 1 / 1000) then .error .valueError
    else .ok ()

/-- `y.shape[i]` for nested sequences.
(Used for `expandAxis`, /repo/flavio/statistics/probability.py:1492-1494.) -/
def shapeAt : ℕ → PVal → Option ℕ
  | 0, .seq _ l => some l.length
  | n + 1, .seq _ (v :: _) => shapeAt n v
  | _, _ => none

/-- /repo/flavio/statistics/probability.py:1492-1494 for axis `i`: a pair is replaced by the range. -/
noncomputable def expandAxis (y : PVal) (i : ℕ) (x : List ℝ) : Except PyErr (List ℝ) :=
  match x with
  | [a, b] =>
    match shapeAt i y with
    | some m => .ok (linspace a b m)
    | none => .error .indexError
  | x => .ok x

/-- The optional central value of a multivariate distribution: a sequence of numbers.
(Used for `bMVNumerical`, /repo/flavio/statistics/probability.py:1466-1511.) -/
def optVec : PVal → Except PyErr (Option (List ℝ))
  | .none => .ok none
  | v => vec v >>= fun l => .ok (some l)

/-- /repo/flavio/statistics/probability.py:1466-1511 -/
noncomputable def bMVNumerical (E : Env) (xi y c : PVal) : Except PyErr (Dict String PVal) :=
  mat xi >>= fun xs => xs.mapM evenCheck >>= fun _ =>
    xs.zipIdx.mapM (fun e => expandAxis y e.2 e.1) >>= fun xs' => optVec c >>= fun c' =>
      if xs'.any (fun x => decide (x.length < 2)) then .error .indexError
      else E.rest xs' (norm y) >>= fun r =>
        match c' with
        | none => .ok [("xi", .seq false (xs'.map ofVec)), ("y", norm y), ("rest", r),
            ("central_value", ofVec (E.mode xs' (norm y))), ("support", .none)]
        | some _ => .ok [("xi", .seq false (xs'.map ofVec)), ("y", norm y), ("rest", r),
            ("central_value", c),
            ("support", ofMat [xs'.map fun x => x.headD 0, xs'.map fun x => x.getLastD 0])]

/-- `cls(*args)`, all parameters in order.
(Used for `construct`, /repo/flavio/statistics/probability.py:2032-2058.) -/
noncomputable def build (E : Env) : Cls → List PVal → Except PyErr (Dict String PVal)
  | .uniform, [c, h] => bUniform c h
  | .discreteUniform, [lo, hi, c] => bDiscrete lo hi c
  | .delta, [c] => bDelta c
  | .normal, [c, s] => bNormal c s
  | .logNormal, [c, f] => bLogNormal c f
  | .asymmetricNormal, [c, r, l] => bAsym c r l
  | .halfNormal, [c, s] => bHalf c s
  | .gaussianUpperLimit, [l, cl] => bLimit E l cl
  | .gamma, [a, l, s] => bGamma a l s
  | .gammaPositive, [a, l, s] => bGammaPos a l s
  | .gammaCounting, [sf, t, b, s] => bCounting sf t b s
  | .gammaUpperLimit, [l, cl, t, b, s] => bGammaLimit E l cl t b s
  | .numerical, [x, y, c] => bNumerical x y c
  | .generalGammaPositive, [a, l, s, d] => bGenPositive E a l s d
  | .generalGammaCounting, [sf, t, b, s, d] => bGenCounting E sf t b s d
  | .generalGammaUpperLimit, [l, cl, t, b, s, d, v] => bGenLimit E l cl t b s d v
  | .kernelDensityEstimate, [d, k, n] => bKDE E d k n
  | .gaussianKDE, [d, b, n] => bGaussianKDE E d b n
  | .multivariateNormal, [c, cov, sd, corr] => bMVN c cov sd corr
  | .multivariateNumerical, [xi, y, c] => bMVNumerical E xi y c
  | _, _ => .error .typeError

/-- Value of one parameter in a call with keyword arguments.
(Used for `construct`, /repo/flavio/statistics/probability.py:2032-2058.) -/
def bindArg (kw : Dict String PVal) (p : String × Bool) : Except PyErr PVal :=
  match Dict.get? kw p.1 with
  | some v => .ok v
  | none => if p.2 then .ok .none else .error .typeError

/-- `cls(**kw)`: an unknown or a missing argument is a `TypeError`.
(Used for `dict2dist`, /repo/flavio/statistics/probability.py:2032-2058.) -/
noncomputable def construct (E : Env) (c : Cls) (kw : Dict String PVal) : Except PyErr Obj :=
  if (Dict.keys kw).all fun k => decide (k ∈ (params c).map Prod.fst) then
    (params c).mapM (bindArg kw) >>= fun args => build E c args >>= fun attrs => .ok ⟨c, attrs⟩
  else .error .typeError

/-! ## `get_dict` and `dict2dist` -/

/-- /repo/flavio/statistics/probability.py:89-92: the dictionary of the constructor arguments. -/
def argDict (distribution : Bool) (o : Obj) : Except PyErr (Dict String PVal) :=
  (params o.cls).mapM (fun p => Dict.getItem o.attrs p.1 >>= fun v => .ok (p.1, v)) >>= fun l =>
    .ok ((if distribution then [("distribution", .str o.cls.toStr)] else []) ++ l)

/-- /repo/flavio/statistics/probability.py:93-96: nested distributions become dictionaries (`get_dict(distribution=True)`: their own nested distributions
and arrays stay as they are; the loop at the end only normalises the number types). -/
def iterateVal : PVal → Except PyErr PVal
  | .dist c a => argDict true ⟨c, a⟩ >>= fun d => .ok (.dict d)
  | v => .ok v

/-- /repo/flavio/statistics/probability.py:97-104 for one value: an array is replaced by a new list; a list is modified in place, its arrays are replaced
by lists. -/
def arrayToList : PVal → PVal
  | .seq true l => tolist (.seq true l)
  | .seq false l => .seq false (l.map tolist)
  | v => v

/-- What happens to an attribute of the object: only a list is modified in place.
(Used for `getDict`, /repo/flavio/statistics/probability.py:74-117.) -/
def sideEffect : PVal → PVal
  | .seq false l => .seq false (l.map tolist)
  | v => v

/-- /repo/flavio/statistics/probability.py:74-117 `get_dict`: the dictionary, and the object afterwards.  The last loop (l.105-116) changes the Python
type of numbers only (`np.float64` to `float`), which the model does not distinguish. -/
def getDict (distribution iterate arraytolist : Bool) (o : Obj) : Except PyErr (Dict String PVal × Obj) :=
  argDict distribution o >>= fun od =>
    od.mapM (fun e => (if iterate then iterateVal e.2 else .ok e.2) >>= fun v => .ok (e.1, v)) >>= fun od2 =>
      .ok (if arraytolist then od2.map fun e => (e.1, arrayToList e.2) else od2,
        if arraytolist then
          { o with attrs := o.attrs.map fun e =>
              if e.1 ∈ (params o.cls).map Prod.fst then (e.1, sideEffect e.2) else e }
        else o)

/-- /repo/flavio/statistics/probability.py:2049-2054 `convertv`: `float(v)` if possible; a numpy array of one number can be converted, a list cannot.
(Strings that look like numbers are not modelled.) -/
def convertv : PVal → PVal
  | .int n => .float n
  | .seq true [.int n] => .float n
  | .seq true [.float r] => .float r
  | v => v

/-- /repo/flavio/statistics/probability.py:2032-2058 `dict2dist` for one dictionary. -/
noncomputable def dict2dist (E : Env) (d : Dict String PVal) : Except PyErr (List Obj) :=
  Dict.getItem d "distribution" >>= fun s =>
    match s with
    | .str s => Dict.getItem classFromString s >>= fun c =>
        construct E c ((d.filter fun e => decide (e.1 ≠ "distribution")).map fun e => (e.1, convertv e.2)) >>= fun o =>
          .ok [o]
    | _ => .error .keyError

/-- `dict2dist(dist.get_dict(distribution=True, iterate=True, arraytolist=True))`
Used for /repo/flavio/statistics/probability.py:74-110,2032-2063. -/
noncomputable def roundTrip (E : Env) (o : Obj) : Except PyErr (List Obj) :=
  getDict true true true o >>= fun r => dict2dist E r.1

/-- Equal distributions: the same class, and all attributes numerically equal. (Specification.) -/
def Same (o o' : Obj) : Prop := o.cls = o'.cls ∧ normD o.attrs = normD o'.attrs

/-- `x.tolist()` exists for arrays only.
(Used for `reprMVNumerical`, /repo/flavio/statistics/probability.py:1517-1519.) -/
def reprAxis : PVal → Except PyErr Unit
  | .seq true _ => .ok ()
  | _ => .error .attributeError

/-- `repr(dist)` of a `MultivariateNumericalDistribution` (/repo/flavio/statistics/probability.py:1517-1519): `[x.tolist() for x in self.xi]` needs
arrays. -/
def reprMVNumerical (o : Obj) : Except PyErr Unit :=
  Dict.getItem o.attrs "xi" >>= fun v =>
    match v with
    | .seq _ l => l.mapM reprAxis >>= fun _ => .ok ()
    | _ => .error .typeError

end Verif.DistDict
