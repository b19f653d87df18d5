import Verif.Py.Regex
/-!
# Names of the distribution classes (`flavio.statistics.probability`, l.17-31, l.60-72, l.2061-2066)
-/
set_option linter.unusedSectionVars false
set_option linter.unusedSimpArgs false
set_option linter.unusedVariables false
namespace Verif.DistDict
open Verif.Py

/-- The subclasses of `ProbabilityDistribution` (l.136-1463), in the order of their definition.
/repo/flavio/statistics/probability.py:136-1463. -/
inductive Cls where
  | uniform | discreteUniform | delta | normal | logNormal | asymmetricNormal | halfNormal | gaussianUpperLimit
  | gamma | gammaPositive | gammaCounting | gammaUpperLimit | numerical | generalGammaPositive
  | generalGammaCounting | generalGammaUpperLimit | kernelDensityEstimate | gaussianKDE
  | multivariateNormal | multivariateNumerical
  deriving DecidableEq, Repr

/-- All of them. /repo/flavio/statistics/probability.py:17-72. -/
def Cls.all : List Cls :=
  [.uniform, .discreteUniform, .delta, .normal, .logNormal, .asymmetricNormal, .halfNormal, .gaussianUpperLimit,
   .gamma, .gammaPositive, .gammaCounting, .gammaUpperLimit, .numerical, .generalGammaPositive,
   .generalGammaCounting, .generalGammaUpperLimit, .kernelDensityEstimate, .gaussianKDE,
   .multivariateNormal, .multivariateNumerical]

/-- `cls.__name__` /repo/flavio/statistics/probability.py:17-72. -/
def Cls.name : Cls → String
  | .uniform => "UniformDistribution"
  | .discreteUniform => "DiscreteUniformDistribution"
  | .delta => "DeltaDistribution"
  | .normal => "NormalDistribution"
  | .logNormal => "LogNormalDistribution"
  | .asymmetricNormal => "AsymmetricNormalDistribution"
  | .halfNormal => "HalfNormalDistribution"
  | .gaussianUpperLimit => "GaussianUpperLimit"
  | .gamma => "GammaDistribution"
  | .gammaPositive => "GammaDistributionPositive"
  | .gammaCounting => "GammaCountingProcess"
  | .gammaUpperLimit => "GammaUpperLimit"
  | .numerical => "NumericalDistribution"
  | .generalGammaPositive => "GeneralGammaDistributionPositive"
  | .generalGammaCounting => "GeneralGammaCountingProcess"
  | .generalGammaUpperLimit => "GeneralGammaUpperLimit"
  | .kernelDensityEstimate => "KernelDensityEstimate"
  | .gaussianKDE => "GaussianKDE"
  | .multivariateNormal => "MultivariateNormalDistribution"
  | .multivariateNumerical => "MultivariateNumericalDistribution"

/-- The direct base class; `none` is `ProbabilityDistribution` itself (the `class` statements).
/repo/flavio/statistics/probability.py:17-72. -/
def Cls.base : Cls → Option Cls
  | .gaussianUpperLimit => some .halfNormal
  | .gammaCounting => some .gammaPositive
  | .gammaUpperLimit => some .gammaCounting
  | .generalGammaPositive => some .numerical
  | .generalGammaCounting => some .generalGammaPositive
  | .generalGammaUpperLimit => some .generalGammaCounting
  | .kernelDensityEstimate => some .numerical
  | .gaussianKDE => some .kernelDensityEstimate
  | _ => none

/-- `cls.__subclasses__()`: direct subclasses in the order of definition.
/repo/flavio/statistics/probability.py:17-72. -/
def directSubclasses (c : Option Cls) : List Cls := Cls.all.filter fun d => decide (d.base = c)

/-- l.41-46 `get_subclasses`: post-order traversal; the hierarchy has depth 4 (`n` bounds the recursion).
/repo/flavio/statistics/probability.py:41-46. -/
def getSubclasses : Nat → Option Cls → List Cls
  | 0, _ => []
  | n + 1, c => (directSubclasses c).flatMap fun d => getSubclasses n (some d) ++ [d]

/-- /repo/flavio/statistics/probability.py:17-72. -/
def isUpper (c : Char) : Bool := 65 ≤ c.toNat && c.toNat ≤ 90
/-- /repo/flavio/statistics/probability.py:17-72. -/
def isLower (c : Char) : Bool := 97 ≤ c.toNat && c.toNat ≤ 122

/-- `re.sub(r, r'\1_\2', s)`: replace the non-overlapping matches from left to right.
/repo/flavio/statistics/probability.py:17-72. -/
def subUnderscore (r : Re) : Nat → List Char → List Char
  | 0, s => s
  | n + 1, s =>
    match Re.pmatch r s with
    | some (s', c) => ((Dict.get? c 1).getD []) ++ '_' :: ((Dict.get? c 2).getD []) ++ subUnderscore r n s'
    | none =>
      match s with
      | [] => []
      | x :: t => x :: subUnderscore r n t

/-- `(.)([A-Z][a-z]+)`; `.` matches all but a newline. /repo/flavio/statistics/probability.py:17-72. -/
def reWord : Re :=
  .seq (.grp 1 (.chr fun c => c != '\n')) (.grp 2 (.seq (.chr isUpper) (Re.plus (.chr isLower))))
/-- `([a-z0-9])([A-Z])` /repo/flavio/statistics/probability.py:17-72. -/
def reBoundary : Re := .seq (.grp 1 (.chr fun c => isLower c || Re.isDigit c)) (.grp 2 (.chr isUpper))

/-- `str.lower()` for ASCII letters. /repo/flavio/statistics/probability.py:17-72. -/
def lower (c : Char) : Char := if isUpper c then Char.ofNat (c.toNat + 32) else c

/-- l.17-19 `_camel_to_underscore` /repo/flavio/statistics/probability.py:17-19. -/
def camelToUnderscore (s : List Char) : List Char :=
  let s1 := subUnderscore reWord (s.length + 1) s
  (subUnderscore reBoundary (s1.length + 1) s1).map lower

/-- `s.replace(pat, '')` for a non-empty `pat`. /repo/flavio/statistics/probability.py:17-72. -/
def removeAll (pat : List Char) : Nat → List Char → List Char
  | 0, s => s
  | n + 1, s =>
    if pat.isPrefixOf s then removeAll pat n (s.drop pat.length)
    else match s with
      | [] => []
      | x :: t => x :: removeAll pat n t

/-- l.61-72 `class_to_string` /repo/flavio/statistics/probability.py:61-72. -/
def Cls.toStr (c : Cls) : String :=
  let n := camelToUnderscore c.name.toList
  String.ofList (removeAll "_distribution".toList (n.length + 1) n)

/-- l.2065-2066 `class_from_string` /repo/flavio/statistics/probability.py:2065-2066. -/
def classFromString : Dict String Cls := Dict.ofPairs ((getSubclasses 5 none).map fun c => (c.toStr, c))

/-- The names that `eval(string)` finds besides the distribution classes: the module's globals (l.3-14 and its
functions), the local variable `string`, and Python's builtins. /repo/flavio/statistics/probability.py:3-14. -/
def otherNames : List String :=
 ["np", "scipy", "interp1d", "RegularGridInterpolator", "math", "normal_logpdf", "normal_pdf",
   "confidence_level", "warnings", "inspect", "OrderedDict", "yaml", "re", "_camel_to_underscore",
   "string_to_class", "ProbabilityDistribution", "convolve_distributions",
   "_convolve_distributions_univariate", "_convolve_distributions_multivariate", "_convolve_gaussians",
   "_convolve_multivariate_gaussians", "_convolve_numerical", "_convolve_multivariate_gaussian_numerical",
   "combine_distributions", "_combine_distributions_univariate", "weighted_average", "_combine_gaussians",
   "_combine_numerical", "_combine_distributions_multivariate", "_combine_multivariate_gaussians",
   "_combine_multivariate_numerical", "dict2dist", "class_from_string", "string", "ArithmeticError",
   "AssertionError", "AttributeError", "BaseException", "BaseExceptionGroup", "BlockingIOError",
   "BrokenPipeError", "BufferError", "BytesWarning", "ChildProcessError", "ConnectionAbortedError",
   "ConnectionError", "ConnectionRefusedError", "ConnectionResetError", "DeprecationWarning", "EOFError",
   "Ellipsis", "EncodingWarning", "EnvironmentError", "Exception", "ExceptionGroup", "False",
   "FileExistsError", "FileNotFoundError", "FloatingPointError", "FutureWarning", "GeneratorExit",
   "IOError", "ImportError", "ImportWarning", "IndentationError", "IndexError", "InterruptedError",
   "IsADirectoryError", "KeyError", "KeyboardInterrupt", "LookupError", "MemoryError",
   "ModuleNotFoundError", "NameError", "None", "NotADirectoryError", "NotImplemented",
   "NotImplementedError", "OSError", "OverflowError", "PendingDeprecationWarning", "PermissionError",
   "ProcessLookupError", "RecursionError", "ReferenceError", "ResourceWarning", "RuntimeError",
   "RuntimeWarning", "StopAsyncIteration", "StopIteration", "SyntaxError", "SyntaxWarning", "SystemError",
   "SystemExit", "TabError", "TimeoutError", "True", "TypeError", "UnboundLocalError",
   "UnicodeDecodeError", "UnicodeEncodeError", "UnicodeError", "UnicodeTranslateError", "UnicodeWarning",
   "UserWarning", "ValueError", "Warning", "ZeroDivisionError", "__build_class__", "__debug__", "__doc__",
   "__import__", "__loader__", "__name__", "__package__", "__spec__", "abs", "aiter", "all", "anext",
   "any", "ascii", "bin", "bool", "breakpoint", "bytearray", "bytes", "callable", "chr", "classmethod",
   "compile", "complex", "copyright", "credits", "delattr", "dict", "dir", "divmod", "enumerate", "eval",
   "exec", "exit", "filter", "float", "format", "frozenset", "getattr", "globals", "hasattr", "hash",
   "help", "hex", "id", "input", "int", "isinstance", "issubclass", "iter", "len", "license", "list",
   "locals", "map", "max", "memoryview", "min", "next", "object", "oct", "open", "ord", "pow", "print",
   "property", "quit", "range", "repr", "reversed", "round", "set", "setattr", "slice", "sorted",
   "staticmethod", "str", "sum", "super", "tuple", "type", "vars", "zip"]

/-- What `eval(string)` yields in l.26: a distribution class, another object, or a `NameError`.  (Expressions other
than names are not modelled.) /repo/flavio/statistics/probability.py:26. -/
inductive Evaluated where
  | cls (c : Cls)
  | other (name : String)
  | nameError
  deriving DecidableEq, Repr

/-- /repo/flavio/statistics/probability.py:17-72. -/
def evalName (s : String) : Evaluated :=
  match Cls.all.find? fun c => c.name == s with
  | some c => .cls c
  | none => if s ∈ otherNames then .other s else .nameError

/-- l.21-32 `string_to_class`; `nameError` also stands for the final `raise NameError`.
/repo/flavio/statistics/probability.py:21-32. -/
def stringToClass (s : String) : Evaluated :=
  match evalName s with
  | .nameError =>
    match (getSubclasses 5 none).find? fun c => c.toStr == s with
    | some c => .cls c
    | none => .nameError
  | e => e

/-! ## C39 -/

theorem cls_mem_all (c : Cls) : c ∈ Cls.all := by cases c <;> decide

/-- **C39** `get_subclasses` lists every distribution class exactly once. -/
theorem C39_get_subclasses : (∀ c : Cls, c ∈ getSubclasses 5 none) ∧ (getSubclasses 5 none).Nodup ∧
    getSubclasses 6 none = getSubclasses 5 none := by
  refine ⟨?_, by decide, by decide⟩
  intro c; cases c <;> decide

/-- The string names. (Specification.) -/
def Cls.expected : Cls → String
  | .uniform => "uniform"
  | .discreteUniform => "discrete_uniform"
  | .delta => "delta"
  | .normal => "normal"
  | .logNormal => "log_normal"
  | .asymmetricNormal => "asymmetric_normal"
  | .halfNormal => "half_normal"
  | .gaussianUpperLimit => "gaussian_upper_limit"
  | .gamma => "gamma"
  | .gammaPositive => "gamma_positive"
  | .gammaCounting => "gamma_counting_process"
  | .gammaUpperLimit => "gamma_upper_limit"
  | .numerical => "numerical"
  | .generalGammaPositive => "general_gamma_positive"
  | .generalGammaCounting => "general_gamma_counting_process"
  | .generalGammaUpperLimit => "general_gamma_upper_limit"
  | .kernelDensityEstimate => "kernel_density_estimate"
  | .gaussianKDE => "gaussian_kde"
  | .multivariateNormal => "multivariate_normal"
  | .multivariateNumerical => "multivariate_numerical"

set_option maxRecDepth 100000 in
theorem toStr_eq (c : Cls) : c.toStr = c.expected := by cases c <;> decide +kernel

/-- **C39** Different classes have different strings. -/
theorem C39_injective (c d : Cls) (h : c.toStr = d.toStr) : c = d := by
  rw [toStr_eq, toStr_eq] at h
  revert h
  cases c <;> cases d <;> decide

/-- **C39** `class_from_string[cls.class_to_string()]` is `cls`, for every class. -/
theorem C39_class_from_string (c : Cls) : Dict.get? classFromString c.toStr = some c := by
  have : classFromString = Dict.ofPairs ((getSubclasses 5 none).map fun c => (c.expected, c)) := by
    unfold classFromString; simp only [toStr_eq]
  rw [this, toStr_eq]
  cases c <;> decide +kernel

/-- **C39** `string_to_class` accepts the string as well as the class name. -/
theorem C39_string_to_class (c : Cls) : stringToClass c.toStr = .cls c ∧ stringToClass c.name = .cls c := by
  have key : ∀ s, stringToClass s = (match evalName s with
      | .nameError => (match (getSubclasses 5 none).find? fun c => c.expected == s with
        | some c => .cls c
        | none => .nameError)
      | e => e) := by
    intro s; unfold stringToClass; simp only [toStr_eq]
  rw [key, key, toStr_eq]
  cases c <;> decide +kernel

end Verif.DistDict
