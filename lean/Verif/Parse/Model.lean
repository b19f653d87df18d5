import Verif.Py.Regex
import Mathlib.Data.Rat.Defs
import Mathlib.Algebra.Field.Rat
import Mathlib.Algebra.Order.Ring.Unbundled.Rat
/-!
# Model of `flavio/_parse_errors.py`

Strings are lists of characters.  Floating-point numbers are exact rationals (rounding and overflow
are not modelled), plus the infinities and NaN that `float()` can return.
`\d`, `\s`, `str.isdigit`, `float` are modelled for ASCII digits and white space; other Unicode digits
and spaces are outside the model.
-/
namespace Verif.Parse
open Verif.Py Verif.Py.Re

/-! ## Python's `float(str)` -/

/-- Value of a Python float. (Used for `Ret`, /repo/flavio/_parse_errors.py:150.) -/
inductive PyNum where
  | fin (q : ℚ)
  | inf
  | negInf
  | nan
  deriving DecidableEq

/-- Value of one decimal digit. (Used for `natVal`, /repo/flavio/_parse_errors.py:135-172.) -/
def digitVal (c : Char) : ℕ := c.toNat - 48
/-- Value of a digit string. (Used for `decVal`, /repo/flavio/_parse_errors.py:135-172.) -/
def natVal (l : List Char) : ℕ := l.foldl (fun a c => 10 * a + digitVal c) 0

/-- `str.strip()`. (Used for `pyFloat`, /repo/flavio/_parse_errors.py:135-172.) -/
def strip (s : List Char) : List Char :=
  ((s.dropWhile isSpace).reverse.dropWhile isSpace).reverse

/-- Underscores are allowed between two digits only and are then ignored (CPython `float_from_string`);
`prev` says whether the previous character was a digit.
(Used for `pyFloat`, /repo/flavio/_parse_errors.py:135-172.) -/
def dropUnderscores : Bool → List Char → Option (List Char)
  | _, [] => some []
  | prev, '_' :: c :: s =>
    if prev && isDigit c then (dropUnderscores true s).map (c :: ·) else none
  | _, c :: s =>
    if c = '_' then none else (dropUnderscores (isDigit c) s).map (c :: ·)

/-- Optional sign: value −1 or 1 and the rest.
(Used for `pyFloat`, /repo/flavio/_parse_errors.py:135-172.) -/
def takeSign : List Char → ℚ × List Char
  | '-' :: s => (-1, s)
  | '+' :: s => (1, s)
  | s => (1, s)

/-- Exponent part after the mantissa: empty or `e[+-]digits`.
(Used for `decVal`, /repo/flavio/_parse_errors.py:135-172.) -/
def expVal : List Char → Except PyErr ℤ
  | [] => .ok 0
  | c :: s =>
    if c = 'e' ∨ c = 'E' then
      let neg := s.head? == some '-'
      let ds := (takeSign s).2
      if ds ≠ [] ∧ ds.all isDigit = true then
        .ok (if neg then -(natVal ds : ℤ) else natVal ds)
      else .error .valueError
    else .error .valueError

/-- Fraction digits after an optional dot. (Used for `decVal`, /repo/flavio/_parse_errors.py:135-172.) -/
def fracPart : List Char → List Char
  | '.' :: t => t.takeWhile isDigit
  | _ => []
/-- What follows the optional fraction. (Used for `decVal`, /repo/flavio/_parse_errors.py:135-172.) -/
def afterFrac : List Char → List Char
  | '.' :: t => t.dropWhile isDigit
  | t => t

/-- Unsigned decimal literal with optional fraction and exponent.
(Used for `pyFloat`, /repo/flavio/_parse_errors.py:135-172.) -/
def decVal (s : List Char) : Except PyErr ℚ :=
  let ip := s.takeWhile isDigit
  let t := s.dropWhile isDigit
  let fp := fracPart t
  let rest := afterFrac t
  if ip ++ fp = [] then .error .valueError
  else do
    let e ← expVal rest
    .ok ((natVal (ip ++ fp) : ℚ) * (10 : ℚ) ^ (e - (fp.length : ℤ)))

/-- `float(s)` for a string `s`.
(Used for `constraintsFromString`, /repo/flavio/_parse_errors.py:135-172.) -/
def pyFloat (s : List Char) : Except PyErr PyNum :=
  match dropUnderscores false (strip s) with
  | none => .error .valueError
  | some t =>
    let sg := takeSign t
    let low := sg.2.map Char.toLower
    if low = "inf".toList ∨ low = "infinity".toList then
      .ok (if sg.1 < 0 then .negInf else .inf)
    else if low = "nan".toList then .ok .nan
    else do
      let v ← decVal sg.2
      .ok (.fin (sg.1 * v))

/-- `float(s)` where the string was captured by `[-+]?\d+\.?\d*` (possibly followed by an exponent), so
that the result is finite; anything else would be an error in the regular expressions.
(Used for `bracketErr`, /repo/flavio/_parse_errors.py:47-56.) -/
def floatFin (s : List Char) : Except PyErr ℚ := do
  match (← pyFloat s) with
  | .fin q => .ok q
  | _ => .error .valueError

/-- `10**float(s)` where `s` was captured by `[+-]?\d+`, so that the exponent is an integer.
(Used for `overallFactor`, /repo/flavio/_parse_errors.py:25-28.) -/
def pow10 (s : List Char) : Except PyErr ℚ := do
  let q ← floatFin s
  .ok ((10 : ℚ) ^ q.num)

/-! ## The patterns (_parse_errors.py l.5-13) -/

/-- `[-+]?` (Used for `patUpperlimit`, /repo/flavio/_parse_errors.py:5.) -/
def optSign : Re := .opt (.chr (fun c => c == '-' || c == '+'))
/-- `[eE][-+]?\d+` (Used for `patUpperlimit`, /repo/flavio/_parse_errors.py:5.) -/
def expo : Re := seqs [.chr (fun c => c == 'e' || c == 'E'), optSign, plus dig]
/-- `(?:(?:e|E|1e|1E|10\^)\(?([+-]?\d+)\)?)?` with group number `n`
(Used for `patBrackets`, /repo/flavio/_parse_errors.py:7.) -/
def power (n : Nat) : Re := .opt (seqs [
  alts [lit 'e', lit 'E', seqs [lit '1', lit 'e'], seqs [lit '1', lit 'E'],
    seqs [lit '1', lit '0', lit '^']],
  .opt (lit '('), .grp n (seqs [optSign, plus dig]), .opt (lit ')')])
/-- `-?\d+\.?\d*` (Used for `patBrackets`, /repo/flavio/_parse_errors.py:7.) -/
def snum : Re := .seq (.opt (lit '-')) num

/-- /repo/flavio/_parse_errors.py:5 -/
def patUpperlimit : Re := seqs [ws, lit '<', ws, .grp 1 (.seq optSign num), .opt (.grp 2 expo), ws,
  lit '@', ws, .grp 3 num, ws, lit '%', ws, lit 'C', .star (.chr (fun c => c == '.' || isSpace c)),
  lit 'L', .star (.chr (fun c => c == '.' || isSpace c)), .eos]

/-- `\(\s*\d+\.?\d*\s*\)\s*` (Used for `patBrackets`, /repo/flavio/_parse_errors.py:7.) -/
def bracketItem : Re := seqs [lit '(', ws, num, ws, lit ')', ws]
/-- /repo/flavio/_parse_errors.py:7 -/
def patBrackets : Re := seqs [ws, .opt (lit '('), ws, .grp 1 snum, ws, .grp 2 (plus bracketItem),
  .opt (lit ')'), ws, .opt (lit '*'), ws, power 3, .eos]

/-- `[+\-±\\pm]` (Used for `pmItem`, /repo/flavio/_parse_errors.py:9.) -/
def isPm (c : Char) : Bool := c == '+' || c == '-' || c == '±' || c == '\\' || c == 'p' || c == 'm'
/-- `[+\-±\\pm]+\s*\d+\.?\d*\s*` (Used for `patPlusminus`, /repo/flavio/_parse_errors.py:9.) -/
def pmItem : Re := seqs [plus (.chr isPm), ws, num, ws]
/-- /repo/flavio/_parse_errors.py:9 -/
def patPlusminus : Re := seqs [ws, .opt (lit '('), ws, .grp 1 snum, ws, .grp 2 (plus pmItem),
  .opt (lit ')'), ws, .opt (lit '*'), ws, power 3, .eos]

/-- /repo/flavio/_parse_errors.py:11 -/
def patTimesby : Re := seqs [ws, .grp 1 (.seq optSign num), .opt (.grp 2 expo), ws,
  .alt (seqs [lit '*', lit '/']) (seqs [lit '/', lit '*']), ws, .grp 3 num, .eos]

/-- /repo/flavio/_parse_errors.py:13 -/
def patRange : Re := seqs [ws, lit '[', ws, .grp 1 snum, ws, .opt (.grp 2 expo), ws, lit ',', ws,
  .grp 3 snum, ws, .opt (.grp 4 expo), ws, lit ']', ws, .opt (lit '*'), ws, power 5, .eos]

/-- /repo/flavio/_parse_errors.py:40-42: the patterns for the single errors. -/
def patBracketsErr : Re := seqs [lit '(', ws, .grp 1 num, ws, lit ')', ws]
/-- Helper for /repo/flavio/_parse_errors.py:39. -/
def patSymmetricErr : Re := .seq
  (alts [lit '±', seqs [lit '\\', lit 'p', lit 'm'], seqs [lit '+', lit '-']]) (.grp 1 (.seq ws num))
/-- Helper for /repo/flavio/_parse_errors.py:40. -/
def patAsymmetricErr : Re := seqs [lit '+', ws, .grp 1 num, ws, lit '-', ws, .grp 2 num]

/-! ## Functions -/

/-- `m.group(n)` for a group that took part in the match.
(Used for `errorsFromString`, /repo/flavio/_parse_errors.py:16-63.) -/
def group (c : Caps) (n : Nat) : List Char := (c.get? n).getD []

/-- Result of `errors_from_string`. (Used for `errorsFromString`, /repo/flavio/_parse_errors.py:16-63.) -/
structure Errors where
  central : ℚ
  sym : List ℚ
  asym : List (ℚ × ℚ)
  deriving DecidableEq

/-- `len(s.split('.')[1])` if there is a dot, else 0 (/repo/flavio/_parse_errors.py:31-34). -/
def numberDecimal (s : List Char) : Nat :=
  match s.dropWhile (fun c => c != '.') with
  | [] => 0
  | _ :: t => (t.takeWhile (fun c => c != '.')).length

/-- `str.isdigit()` (Used for `bracketErr`, /repo/flavio/_parse_errors.py:47-56.) -/
def isdigit (s : List Char) : Bool := !s.isEmpty && s.all isDigit

/-- `if m.group(n) is None: 1 else: 10**float(m.group(n))` (/repo/flavio/_parse_errors.py:25-28, l.104-107). -/
def overallFactor (c : Caps) (n : Nat) : Except PyErr ℚ :=
  match c.get? n with
  | none => .ok 1
  | some e => pow10 e

/-- /repo/flavio/_parse_errors.py:47-56: one bracketed error. -/
def bracketErr (factor : ℚ) (nd : Nat) (err : List Char) : Except PyErr ℚ := do
  let v ← floatFin err
  .ok (if !isdigit err then v * factor else v * (10 : ℚ) ^ (-(nd : ℤ)) * factor)

/-- /repo/flavio/_parse_errors.py:16-63 `errors_from_string`. -/
def errorsFromString (s : List Char) : Except PyErr Errors :=
  match (pmatch patBrackets s).or (pmatch patPlusminus s) with
  | none => .error .valueError
  | some (_, c) => do
    let factor ← overallFactor c 3
    let cvs := group c 1
    let nd := numberDecimal cvs
    let cv ← floatFin cvs
    let es := group c 2
    if (pmatch patBracketsErr es).isSome then
      let sym ← (findall patBracketsErr es).mapM (fun g => bracketErr factor nd (group g 1))
      .ok ⟨cv * factor, sym, []⟩
    else if (pmatch patSymmetricErr es).isSome || (pmatch patAsymmetricErr es).isSome then
      let sym ← (findall patSymmetricErr es).mapM (fun g => do
        let v ← floatFin (group g 1); .ok (v * factor))
      let asym ← (findall patAsymmetricErr es).mapM (fun g => do
        let r ← floatFin (group g 1); let l ← floatFin (group g 2); .ok (r * factor, l * factor))
      .ok ⟨cv * factor, sym, asym⟩
    else .ok ⟨cv * factor, [], []⟩

/-- `float(a)` or `float(a + e)` when the exponent group took part (/repo/flavio/_parse_errors.py:70-73, l.83-86, l.95-102). -/
def floatExp (c : Caps) (a e : Nat) : Except PyErr ℚ :=
  match c.get? e with
  | none => floatFin (group c a)
  | some ex => floatFin (group c a ++ ex)

/-- /repo/flavio/_parse_errors.py:65-75 `limit_from_string`: limit and confidence level. -/
def limitFromString (s : List Char) : Except PyErr (ℚ × ℚ) :=
  match pmatch patUpperlimit s with
  | none => .error .valueError
  | some (_, c) => do
    let limit ← floatExp c 1 2
    let cl ← floatFin (group c 3)
    .ok (limit, cl / 100)

/-- /repo/flavio/_parse_errors.py:78-87 `lognormal_from_string`: central value and factor. -/
def lognormalFromString (s : List Char) : Except PyErr (ℚ × ℚ) :=
  match pmatch patTimesby s with
  | none => .error .valueError
  | some (_, c) => do
    let cv ← floatExp c 1 2
    let f ← floatFin (group c 3)
    .ok (cv, f)

/-- /repo/flavio/_parse_errors.py:90-113 `range_from_string`: central value and half range. -/
def rangeFromString (s : List Char) : Except PyErr (ℚ × ℚ) :=
  match pmatch patRange s with
  | none => .error .valueError
  | some (_, c) => do
    let lo ← floatExp c 1 2
    let hi ← floatExp c 3 4
    if hi < lo then .error .valueError
    else
      let overall ← overallFactor c 5
      let lo := overall * lo
      let hi := overall * hi
      .ok ((hi + lo) / 2, (hi - lo) / 2)

/-- The distributions `constraints_from_string` constructs, with their arguments.
(Used for `mkUpperLimit`, /repo/flavio/statistics/probability.py:564-568.) -/
inductive PD where
  | delta (x : PyNum)
  | gaussianUpperLimit (limit cl : ℚ)
  | uniform (central half : ℚ)
  | logNormal (central factor : ℚ)
  | normal (central sd : ℚ)
  | asymNormal (central right left : ℚ)
  deriving DecidableEq

/-- Attribute `central_value` (statistics/probability.py: each `__init__`).
Used for /repo/flavio/statistics/probability.py:100-400. -/
def PD.centralValue : PD → PyNum
  | .delta x => x
  | .gaussianUpperLimit _ _ => .fin 0
  | .uniform c _ => .fin c
  | .logNormal c _ => .fin c
  | .normal c _ => .fin c
  | .asymNormal c _ _ => .fin c

/-- /repo/flavio/statistics/probability.py:564-568, l.508-509: `GaussianUpperLimit(limit, cl)`.  For `cl = 1` the
quantile is infinite, the standard deviation 0, and `HalfNormalDistribution` raises. -/
def mkUpperLimit (limit cl : ℚ) : Except PyErr PD :=
  if cl > 1 ∨ cl < 0 then .error .valueError
  else if limit ≤ 0 then .error .valueError
  else if cl = 1 then .error .valueError
  else .ok (.gaussianUpperLimit limit cl)

/-- /repo/flavio/statistics/probability.py:339-342: `LogNormalDistribution(cv, factor)`. -/
def mkLogNormal (cv f : ℚ) : Except PyErr PD :=
  if cv = 0 then .error .valueError
  else if f ≤ 1 then .error .valueError
  else .ok (.logNormal cv f)

/-- /repo/flavio/statistics/probability.py:272-273: `NormalDistribution(cv, sd)`. -/
def mkNormal (cv sd : ℚ) : Except PyErr PD :=
  if sd ≤ 0 then .error .valueError else .ok (.normal cv sd)

/-- /repo/flavio/statistics/probability.py:415-417: `AsymmetricNormalDistribution(cv, right, left)`. -/
def mkAsym (cv r l : ℚ) : Except PyErr PD :=
  if r ≤ 0 ∨ l ≤ 0 then .error .valueError else .ok (.asymNormal cv r l)

/-- What `constraints_from_string` returns: a list of distributions or (/repo/flavio/_parse_errors.py:150) a dictionary
`{'central_value': x}`. -/
inductive Ret where
  | list (l : List PD)
  | dict (x : PyNum)
  deriving DecidableEq

/-- `s.replace('−', '-')` (/repo/flavio/_parse_errors.py:146). -/
def replaceDash (s : List Char) : List Char := s.map (fun c => if c = '−' then '-' else c)

/-- /repo/flavio/_parse_errors.py:161-170: distributions from the parsed errors.  The test
`'symmetric_errors' not in errors` (l.162) is never true: both keys are always present. -/
def distsOfErrors (e : Errors) : Except PyErr (List PD) := do
  let a ← e.sym.mapM (mkNormal e.central)
  let b ← e.asym.mapM (fun p => mkAsym e.central p.1 p.2)
  .ok (a ++ b)

/-- /repo/flavio/_parse_errors.py:135-172 `constraints_from_string` (argument a string). -/
def constraintsFromString (s0 : List Char) : Except PyErr Ret :=
  match pyFloat s0 with
  | .ok x => .ok (.list [.delta x])
  | .error _ =>
    let s := replaceDash s0
    match pyFloat s with
    | .ok x => .ok (.dict x)
    | .error _ =>
      if (pmatch patUpperlimit s).isSome then do
        let r ← limitFromString s
        let d ← mkUpperLimit r.1 r.2
        .ok (.list [d])
      else if (pmatch patRange s).isSome then do
        let r ← rangeFromString s
        .ok (.list [.uniform r.1 r.2])
      else if (pmatch patTimesby s).isSome then do
        let r ← lognormalFromString s
        let d ← mkLogNormal r.1 r.2
        .ok (.list [d])
      else if (pmatch patBrackets s).isSome || (pmatch patPlusminus s).isSome then do
        let e ← errorsFromString s
        let l ← distsOfErrors e
        .ok (.list l)
      else .error .valueError

end Verif.Parse
