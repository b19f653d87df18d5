import Verif.Py.ExceptLemmas
import Mathlib.Data.Real.Basic
import Mathlib.Algebra.Order.Field.Basic
/-!
# Model of the Gamma-type distributions
(`/repo/flavio/statistics/probability.py`, line numbers refer to this file)

`scipy.stats.gamma(a, loc, scale)` is represented by the CDF `cdf a`, quantile function `ppf a` and log-PDF
`logpdf a` of the standard Gamma distribution (`loc=0, scale=1`); scipy shifts and rescales them.
-/
set_option linter.unusedVariables false
namespace Verif.Probability
open Verif.Py

/-- The functions of the standard Gamma distribution (external: scipy).
(Used for `FrozenGamma.cdfPos`, /repo/flavio/statistics/probability.py:688-694.) -/
structure StdGamma where
  cdf : ℝ → ℝ → ℝ
  ppf : ℝ → ℝ → ℝ
  logpdf : ℝ → ℝ → ℝ

/-- A frozen `scipy.stats.gamma(a=a, loc=loc, scale=scale)`.
(Used for `mkGamma`, /repo/flavio/statistics/probability.py:588-606.) -/
structure FrozenGamma where
  a : ℝ
  loc : ℝ
  scale : ℝ

/-- scipy: `cdf(x) = F((x - loc) / scale)`
(Used for `StdGamma`, /repo/flavio/statistics/probability.py:688-694.) -/
noncomputable def FrozenGamma.cdf (S : StdGamma) (g : FrozenGamma) (x : ℝ) : ℝ := S.cdf g.a ((x - g.loc) / g.scale)
/-- scipy: `ppf(q) = loc + scale * F⁻¹(q)`
(Used for `StdGamma`, /repo/flavio/statistics/probability.py:688-694.) -/
noncomputable def FrozenGamma.ppf (S : StdGamma) (g : FrozenGamma) (q : ℝ) : ℝ := g.loc + g.scale * S.ppf g.a q

/-- /repo/flavio/statistics/probability.py:588-606 `GammaDistribution.__init__` (`scipy` rejects nothing at construction time). -/
noncomputable def mkGamma (a loc scale : ℝ) : Except PyErr FrozenGamma :=
  if loc > 0 then .error .valueError else .ok ⟨a, loc, scale⟩

/-- /repo/flavio/statistics/probability.py:593 the mode, used as `central_value` of `GammaDistribution`. -/
noncomputable def FrozenGamma.mode (g : FrozenGamma) : ℝ := g.loc + (g.a - 1) * g.scale

/-- /repo/flavio/statistics/probability.py:654-656: the central value of `GammaDistributionPositive`. -/
noncomputable def FrozenGamma.modePos (g : FrozenGamma) : ℝ := if g.mode < 0 then 0 else g.mode

/-- /repo/flavio/statistics/probability.py:688-694 `GammaDistributionPositive.cdf` -/
noncomputable def FrozenGamma.cdfPos (S : StdGamma) (g : FrozenGamma) (x : ℝ) : ℝ :=
  if x < 0 then 0 else (g.cdf S x - g.cdf S 0) / (1 - g.cdf S 0)

/-- /repo/flavio/statistics/probability.py:696-698 `GammaDistributionPositive.ppf` -/
noncomputable def FrozenGamma.ppfPos (S : StdGamma) (g : FrozenGamma) (q : ℝ) : ℝ :=
  g.ppf S ((1 - g.cdf S 0) * q + g.cdf S 0)

/-- /repo/flavio/statistics/probability.py:700-703 `GammaDistributionPositive.logpdf` for `x ≥ 0` (scipy subtracts `log(scale)`; the second logarithm is
that of `_pdf_scale`, l.666).  `log` is a parameter; only differences of log-PDFs are used below. -/
noncomputable def FrozenGamma.logpdfPos (S : StdGamma) (log : ℝ → ℝ) (g : FrozenGamma) (x : ℝ) : ℝ :=
  S.logpdf g.a ((x - g.loc) / g.scale) - log g.scale + log (1 / (1 - g.cdf S 0))

/-! ## Errors -/

/-- /repo/flavio/statistics/probability.py:620-633 `get_error_left`/`get_error_right` of `GammaDistribution`: `brentq cl` is the lower CDF value found by
`_find_error_cdf`. -/
noncomputable def FrozenGamma.errors (S : StdGamma) (g : FrozenGamma) (brentq : ℝ → ℝ) (cl : ℝ) : ℝ × ℝ :=
  (g.mode - g.ppf S (brentq cl), g.ppf S (brentq cl + cl) - g.mode)

/-- /repo/flavio/statistics/probability.py:719-729 `get_error_left` of `GammaDistributionPositive`. -/
noncomputable def FrozenGamma.errorLeftPos (S : StdGamma) (log : ℝ → ℝ) (g : FrozenGamma) (brentq : ℝ → ℝ) (cl : ℝ) : ℝ :=
  if g.logpdfPos S log 0 > g.logpdfPos S log (g.ppfPos S cl) then g.modePos
  else g.modePos - g.ppfPos S (brentq cl)

/-- /repo/flavio/statistics/probability.py:731-742 `get_error_right` of `GammaDistributionPositive`. -/
noncomputable def FrozenGamma.errorRightPos (S : StdGamma) (log : ℝ → ℝ) (g : FrozenGamma) (brentq : ℝ → ℝ) (cl : ℝ) : ℝ :=
  if g.logpdfPos S log 0 > g.logpdfPos S log (g.ppfPos S cl) then g.ppfPos S cl
  else g.ppfPos S (brentq cl + cl) - g.modePos

/-! ## Counting processes -/

/-- The event counts stored by a counting-process distribution.
(Used for `resolveCounts`, /repo/flavio/statistics/probability.py:766-792.) -/
structure Counts where
  total : ℝ
  background : ℝ
  signal : ℝ

/-- Number of `None`s among the three arguments.
(Used for `resolveCounts`, /repo/flavio/statistics/probability.py:766-792.) -/
def countNone (l : List (Option ℝ)) : Nat := (l.filter Option.isNone).length

/-- /repo/flavio/statistics/probability.py:772-777 (and l.1127-1132): is a complete triple inconsistent? -/
noncomputable def badTriple : Option ℝ → Option ℝ → Option ℝ → Prop
  | some t, some b, some s => |(t - b - s) / (if t ≠ 0 then t else 1)| > 1 / 10 ^ 15
  | _, _, _ => False

open Classical in
/-- /repo/flavio/statistics/probability.py:766-792 (the same code in l.1120-1148): validation and inference of the counts. -/
noncomputable def resolveCounts (t b s : Option ℝ) : Except PyErr Counts :=
  if (∃ x, t = some x ∧ x < 0) then .error .valueError
  else if (∃ x, b = some x ∧ x < 0) then .error .valueError
  else if badTriple t b s then .error .valueError
  else if countNone [t, s, b] > 1 then .error .valueError
  else
    match t, b, s with
    | some t, some b, some s => .ok ⟨t, b, s⟩
    | some t, some b, none => .ok ⟨t, b, t - b⟩
    | some t, none, some s => .ok ⟨t, t - s, s⟩
    | none, some b, some s => .ok ⟨s + b, b, s⟩
    | _, _, _ => .error .typeError

/-- A `GammaCountingProcess` object.
(Used for `mkCounting`, /repo/flavio/statistics/probability.py:748-798.) -/
structure CountingProcess where
  scaleFactor : ℝ
  counts : Counts
  gamma : FrozenGamma

/-- /repo/flavio/statistics/probability.py:748-798 `GammaCountingProcess.__init__` -/
noncomputable def mkCounting (scaleFactor : ℝ) (t b s : Option ℝ) : Except PyErr CountingProcess :=
  if scaleFactor ≤ 0 then .error .valueError
  else resolveCounts t b s >>= fun c =>
    mkGamma (c.total + 1) (-c.background * scaleFactor) scaleFactor >>= fun g =>
      .ok ⟨scaleFactor, c, g⟩

/-- A `GammaUpperLimit` object.
(Used for `mkGammaUpperLimit`, /repo/flavio/statistics/probability.py:815-850.) -/
structure UpperLimit where
  limit : ℝ
  confidenceLevel : ℝ
  process : CountingProcess

/-- /repo/flavio/statistics/probability.py:815-850 `GammaUpperLimit.__init__`: `counts_signal` is passed on to the auxiliary distribution only
(l.847-850 omit it). -/
noncomputable def mkGammaUpperLimit (S : StdGamma) (limit cl : ℝ) (t b s : Option ℝ) : Except PyErr UpperLimit :=
  if cl > 1 ∨ cl < 0 then .error .valueError
  else if limit ≤ 0 then .error .valueError
  else mkCounting 1 t b s >>= fun u =>
    mkCounting (limit / u.gamma.ppfPos S cl) t b none >>= fun p =>
      .ok ⟨limit, cl, p⟩

/-- A `GeneralGammaCountingProcess` object: the numerical distribution is `num`.
(Used for `mkGeneralCounting`, /repo/flavio/statistics/probability.py:1094-1161.) -/
structure GeneralCounting (N : Type) where
  scaleFactor : ℝ
  counts : Counts
  backgroundStd : ℝ
  gaussianStd : ℝ
  num : N

/-- /repo/flavio/statistics/probability.py:1094-1161 `GeneralGammaCountingProcess.__init__` and l.1009-1034 of its base class.  `build a loc scale std` is
the numerical distribution of `_get_xy` (l.1045-1079); `sqrt` is the square root.  The first reset (l.1150-1151)
changes the attribute only: the original `background_std` is passed on, and `_get_xy` runs before the second reset
(l.1027-1029). -/
noncomputable def mkGeneralCounting {N : Type} (build : ℝ → ℝ → ℝ → ℝ → Except PyErr N) (sqrt : ℝ → ℝ)
    (scaleFactor : ℝ) (t b s : Option ℝ) (std : ℝ) : Except PyErr (GeneralCounting N) :=
  if scaleFactor ≤ 0 then .error .valueError
  else if std < 0 then .error .valueError
  else resolveCounts t b s >>= fun c =>
    if -c.background * scaleFactor > 0 then .error .valueError
    else build (c.total + 1) (-c.background * scaleFactor) scaleFactor std >>= fun n =>
      .ok ⟨scaleFactor, c, if std / sqrt (c.total + 1) < 1 / 100 then 0 else std,
        if std / sqrt (c.total + 1) < 1 / 100 then 0 else std, n⟩

/-- A `GeneralGammaUpperLimit` object.
(Used for `mkGeneralLimit`, /repo/flavio/statistics/probability.py:1185-1246.) -/
structure GeneralLimit (N : Type) where
  limit : ℝ
  confidenceLevel : ℝ
  backgroundVariance : ℝ
  process : GeneralCounting N

/-- /repo/flavio/statistics/probability.py:1219-1226: the background uncertainty from `background_std` and its alias `background_variance`. -/
noncomputable def resolveStd (std variance : Option ℝ) : Except PyErr ℝ :=
  match variance with
  | some v => match std with
    | some d => if d ≠ v then .error .valueError else .ok v
    | none => .ok v
  | none => match std with
    | some d => .ok d
    | none => .ok 0

/-- /repo/flavio/statistics/probability.py:1185-1246 `GeneralGammaUpperLimit.__init__`; `ppf` is the quantile function of the numerical distribution.
(`limit` and `confidence_level` are not validated here.) -/
noncomputable def mkGeneralLimit {N : Type} (build : ℝ → ℝ → ℝ → ℝ → Except PyErr N) (sqrt : ℝ → ℝ)
    (ppf : N → ℝ → ℝ) (limit cl : ℝ) (t b s : Option ℝ) (std variance : Option ℝ) : Except PyErr (GeneralLimit N) :=
  resolveStd std variance >>= fun sd =>
    mkGeneralCounting build sqrt 1 t b s sd >>= fun u =>
      mkGeneralCounting build sqrt (limit / ppf u.num cl) t b s sd >>= fun p =>
        .ok ⟨limit, cl, sd, p⟩

end Verif.Probability
