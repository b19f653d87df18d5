import Verif.Probability.Numerical
import Mathlib.Analysis.SpecialFunctions.Log.Basic
import Mathlib.Analysis.SpecialFunctions.Trigonometric.Basic
/-!
# Model of the univariate classes of `flavio.statistics.probability`

Floats are real numbers, extended by `-inf` where a log-PDF can be `-inf`.  Rounding is not modelled.
-/
set_option linter.unusedSectionVars false
set_option linter.unusedSimpArgs false
set_option linter.unusedVariables false
namespace Verif.Probability
open Verif.Py

/-- /repo/flavio/math/functions.py:21-28 `normal_logpdf` -/
noncomputable def normalLogpdf (x mu sigma : ℝ) : ℝ :=
  -(x - mu) ^ 2 / sigma ^ 2 / 2 - Real.log (Real.sqrt (2 * Real.pi) * sigma)

/-- /repo/flavio/math/functions.py:30-37 `normal_pdf` -/
noncomputable def normalPdf (x mu sigma : ℝ) : ℝ :=
  Real.exp (-(x - mu) ^ 2 / sigma ^ 2 / 2) / (Real.sqrt (2 * Real.pi) * sigma)

/-- A log-PDF value: a number or `-inf`.
(Used for `halfLogpdf`, /repo/flavio/statistics/probability.py:503-507.) -/
abbrev LogP := WithBot ℝ

/-- `np.exp` of a log-PDF value. Used for /repo/flavio/statistics/probability.py:100-133. -/
noncomputable def expP : LogP → ℝ
  | none => 0
  | some v => Real.exp v

/-- The univariate distribution objects.  `gaussianLimit` is a `GaussianUpperLimit` (its third argument is
the attribute `standard_deviation`), `num` a `NumericalDistribution` (or an instance of a subclass),
`other` an instance of any other class, such as the Gamma distributions, with its central value,
support and log-PDF. (Used for `UDist.support`, /repo/flavio/statistics/probability.py:153-154.) -/
inductive UDist where
  | uniform (c h : ℝ)
  | discrete (lo hi c : ℤ)
  | delta (c : ℝ)
  | normal (c s : ℝ)
  | logNormal (c f : ℝ)
  | asym (c right left : ℝ)
  | half (c s : ℝ)
  | gaussianLimit (limit cl s : ℝ)
  | num (d : Num ℝ)
  | other (c : ℝ) (supp : ℝ × ℝ) (logpdf : ℝ → LogP)

/-- `d.central_value` (Used for `UDist.deltaLogpdf`, /repo/flavio/statistics/probability.py:127-134.) -/
def UDist.central : UDist → ℝ
  | .uniform c _ => c
  | .discrete _ _ c => c
  | .delta c => c
  | .normal c _ => c
  | .logNormal c _ => c
  | .asym c _ _ => c
  | .half c _ => c
  | .gaussianLimit _ _ _ => 0
  | .num d => d.central
  | .other c _ _ => c

/-- `d.support`: /repo/flavio/statistics/probability.py:153-154 uniform, l.203 discrete, l.241 delta, l.281-283 normal, l.347-358 log-normal,
l.412-414 asymmetric, l.489-491 half-normal (sorted). -/
noncomputable def UDist.support : UDist → ℝ × ℝ
  | .uniform c h => (c - h, c + h)
  | .discrete lo hi _ => (lo, hi)
  | .delta c => (c, c)
  | .normal c s => (c - 6 * s, c + 6 * s)
  | .logNormal c f =>
    if c < 0 then (Real.exp (Real.log |c| - 6 * Real.log f), 0)
    else (0, Real.exp (Real.log |c| + 6 * Real.log f))
  | .asym c right left => (c - 6 * left, c + 6 * right)
  | .half c s => (min c (c + 6 * s), max c (c + 6 * s))
  | .gaussianLimit _ _ s => (min 0 (0 + 6 * s), max 0 (0 + 6 * s))
  | .num d => d.support
  | .other _ s _ => s

/-- `scipy.stats.lognorm.logpdf(x, scale=m, s=s)`.
(Used for `UDist.logpdf`, /repo/flavio/statistics/probability.py:163-167.) -/
noncomputable def lognormLogpdf (x m s : ℝ) : LogP :=
  if x ≤ 0 then ⊥
  else ((-(Real.log (x / m)) ^ 2 / (2 * s ^ 2) - Real.log (s * x * Real.sqrt (2 * Real.pi)) : ℝ) : LogP)

/-- /repo/flavio/statistics/probability.py:448-457 `AsymmetricNormalDistribution._logpdf`, with `p_right`, `p_left` of l.420-423. -/
noncomputable def asymLogpdf (c right left x : ℝ) : ℝ :=
  let pr := normalPdf c c right
  let pl := normalPdf c c left
  if x < c then Real.log (2 * pr / (pl + pr)) + normalLogpdf x c left
  else Real.log (2 * pl / (pl + pr)) + normalLogpdf x c right

/-- `np.sign` (Used for `halfLogpdf`, /repo/flavio/statistics/probability.py:503-507.) -/
noncomputable def npSign (x : ℝ) : ℝ := if x < 0 then -1 else if x = 0 then 0 else 1

/-- /repo/flavio/statistics/probability.py:503-507 `HalfNormalDistribution._logpdf` -/
noncomputable def halfLogpdf (c s x : ℝ) : LogP :=
  if npSign s * (x - c) < 0 then ⊥ else ((Real.log 2 + normalLogpdf x c |s| : ℝ) : LogP)

/-- `d.logpdf(x)`: /repo/flavio/statistics/probability.py:163-167 uniform, l.214-218 discrete, l.253-258 delta, l.295-296 normal, l.368-370
log-normal, l.448-457 asymmetric, l.503-507 half-normal, l.918-921 numerical.  `np.log(0) = -inf`. -/
noncomputable def UDist.logpdf : UDist → ℝ → LogP
  | .uniform c h, x => if x < c - h ∨ c + h ≤ x then ⊥ else ((-Real.log (2 * h) : ℝ) : LogP)
  | .discrete lo hi _, x =>
    open Classical in
    if ∃ k : ℤ, lo ≤ k ∧ k ≤ hi ∧ x = k then ((-Real.log (hi + 1 - lo) : ℝ) : LogP) else ⊥
  | .delta c, x => if x = c then ((0 : ℝ) : LogP) else ⊥
  | .normal c s, x => (normalLogpdf x c s : LogP)
  | .logNormal c f, x =>
    lognormLogpdf ((if c < 0 then -1 else 1) * x) (Real.exp (Real.log |c|)) (Real.log f)
  | .asym c r l, x => (asymLogpdf c r l x : LogP)
  | .half c s, x => halfLogpdf c s x
  | .gaussianLimit _ _ s, x => halfLogpdf 0 s x
  | .num d, x => if d.pdf x = 0 then ⊥ else (Real.log (d.pdf x) : LogP)
  | .other _ _ f, x => f x

/-! ## Constructors -/

/-- /repo/flavio/statistics/probability.py:139-154 -/
def mkUniform (c h : ℝ) : Except PyErr UDist := .ok (.uniform c h)

/-- /repo/flavio/statistics/probability.py:185-203 for integer arguments.  `if central_value and (...)` skips the check for `None` and for 0;
`int((a+b)/2)` truncates towards zero. -/
def mkDiscrete (lo hi : ℤ) (c : Option ℤ) : Except PyErr UDist :=
  match c with
  | none => .ok (.discrete lo hi (Int.tdiv (lo + hi) 2))
  | some c =>
    if c ≠ 0 ∧ (hi < c ∨ c < lo) then .error .valueError else .ok (.discrete lo hi c)

/-- /repo/flavio/statistics/probability.py:234-241 -/
def mkDelta (c : ℝ) : Except PyErr UDist := .ok (.delta c)

/-- /repo/flavio/statistics/probability.py:273-286 -/
noncomputable def mkNormal (c s : ℝ) : Except PyErr UDist :=
  if s ≤ 0 then .error .valueError else .ok (.normal c s)

/-- /repo/flavio/statistics/probability.py:319-358 -/
noncomputable def mkLogNormal (c f : ℝ) : Except PyErr UDist :=
  if c = 0 then .error .valueError
  else if f ≤ 1 then .error .valueError
  else .ok (.logNormal c f)

/-- /repo/flavio/statistics/probability.py:403-423 -/
noncomputable def mkAsym (c right left : ℝ) : Except PyErr UDist :=
  if right ≤ 0 ∨ left ≤ 0 then .error .valueError else .ok (.asym c right left)

/-- /repo/flavio/statistics/probability.py:475-494 -/
noncomputable def mkHalf (c s : ℝ) : Except PyErr UDist :=
  if s = 0 then .error .valueError else .ok (.half c s)

/-- /repo/flavio/statistics/probability.py:552-577; `ppf` is `scipy.stats.norm.ppf`.  At `confidence_level` 0 and 1 the code divides by 0 and by
infinity; this is outside the model. -/
noncomputable def mkGaussianLimit (ppf : ℝ → ℝ) (limit cl : ℝ) : Except PyErr UDist :=
  if cl > 1 ∨ cl < 0 then .error .valueError
  else if limit ≤ 0 then .error .valueError
  else if limit / ppf (0.5 + cl / 2) = 0 then .error .valueError
  else .ok (.gaussianLimit limit cl (limit / ppf (0.5 + cl / 2)))

/-- A number, `-inf`, `inf` or `nan`: the difference of two log-PDF values.
(Used for `UDist.deltaLogpdf`, /repo/flavio/statistics/probability.py:127-134.) -/
inductive FloatVal where
  | fin (r : ℝ)
  | negInf
  | posInf
  | nan

/-- Float subtraction of log-PDF values.
(Used for `UDist.deltaLogpdf`, /repo/flavio/statistics/probability.py:127-134.) -/
noncomputable def subP : LogP → LogP → FloatVal
  | some a, some b => .fin (a - b)
  | some _, none => .posInf
  | none, some _ => .negInf
  | none, none => .nan

/-- /repo/flavio/statistics/probability.py:127-134 `delta_logpdf` for a univariate distribution (no `exclude`). -/
noncomputable def UDist.deltaLogpdf (d : UDist) (x : ℝ) : FloatVal :=
  subP (d.logpdf x) (d.logpdf d.central)

end Verif.Probability
