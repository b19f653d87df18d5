import Verif.Py.Dict
import Verif.Citations.Model
import Mathlib.Data.List.Dedup
/-!
# Functions memoised with `functools.lru_cache`

flavio decorates some thirty functions with `@lru_cache(maxsize=…)`: the CKM matrices
(/repo/flavio/physics/ckm.py:18-36, `maxsize=2`), the two-loop matrix elements
(/repo/flavio/physics/bdecays/matrixelements.py:72-122, l.158-176), the RG evolution and quark masses
(/repo/flavio/physics/running/running.py:38, l.75, l.194-279), form factor helpers
(/repo/flavio/physics/bdecays/formfactors/common.py:6, hqet.py:86, b_v/bsz.py:8, b_p/bsz.py:24), the
confidence level (/repo/flavio/statistics/functions.py:7) …

A result is an *object*: the cache stores a reference, and the caller receives the same reference, so
results live in a heap and are denoted by their address.  Arguments (keys) are elements of an arbitrary type
with decidable equality (Python: hashable and compared with `==`).
-/
set_option linter.unusedSectionVars false
namespace Verif.Memo
open Verif.Py

variable {K V : Type} [DecidableEq K]

/-- The state of one memoised function: the cache (key and address of the result, most recently used first)
and the memory holding the result objects (/repo/flavio/physics/ckm.py:18-20). -/
structure State (K V : Type) where
  cache : List (K × Nat) := []
  heap : List V := []

/-- What a call does: the address of the object it returns or the exception it raises, and whether the body of
the decorated function was executed (/repo/flavio/physics/ckm.py:18-20). -/
structure Outcome where
  res : Except PyErr Nat
  ran : Bool

/-- Dropping the least recently used entries beyond `maxsize`; `maxsize=None` means unbounded
(/repo/flavio/physics/ckm.py:18 `maxsize=2`, /repo/flavio/physics/dileptons/partondist.py:26 `maxsize=None`). -/
def trunc {α : Type} (maxsize : Option Nat) (l : List α) : List α :=
  match maxsize with
  | none => l
  | some n => l.take n

/-- Cache lookup (/repo/flavio/physics/ckm.py:18). -/
def lookup (c : List (K × Nat)) (k : K) : Option Nat :=
  (c.find? (fun e => decide (e.1 = k))).map (·.2)

/-- A call that is not found in the cache: the body is executed; a result is stored, an exception is not
(/repo/flavio/physics/ckm.py:18-20). -/
def miss (maxsize : Option Nat) (body : K → Except PyErr V) (s : State K V) (k : K) : Outcome × State K V :=
  match body k with
  | .error e => (⟨.error e, true⟩, s)
  | .ok v =>
    (⟨.ok s.heap.length, true⟩,
      { cache := trunc maxsize ((k, s.heap.length) :: s.cache), heap := s.heap ++ [v] })

/-- A call of the memoised function with arguments `k` (/repo/flavio/physics/ckm.py:18-20 and the other
decorated functions): a stored object is returned and becomes the most recently used one; otherwise the body is
executed. -/
def call (maxsize : Option Nat) (body : K → Except PyErr V) (s : State K V) (k : K) : Outcome × State K V :=
  match lookup s.cache k with
  | some a => (⟨.ok a, false⟩, { s with cache := (k, a) :: s.cache.filter (fun e => decide (e.1 ≠ k)) })
  | none => miss maxsize body s k

/-- Things that can happen: a call, or the caller modifying in place an object it holds (for instance an
element assignment to the array returned by `get_ckm`, /repo/flavio/physics/ckm.py:58-59). -/
inductive Ev (K V : Type) where
  | call (k : K)
  | write (a : Nat) (v : V)

/-- Effect of one event on the state (/repo/flavio/physics/ckm.py:18-20). -/
def step (maxsize : Option Nat) (body : K → Except PyErr V) (s : State K V) : Ev K V → State K V
  | .call k => (call maxsize body s k).2
  | .write a v => { s with heap := s.heap.set a v }

/-- State after a history of events, starting at import time with an empty cache
(/repo/flavio/physics/ckm.py:18-20). -/
def run (maxsize : Option Nat) (body : K → Except PyErr V) (h : List (Ev K V)) : State K V :=
  h.foldl (step maxsize body) {}

/-- What the caller sees: the content of the returned object, or the exception
(/repo/flavio/physics/ckm.py:18-20). -/
def value (r : Outcome × State K V) : Except PyErr (Option V) :=
  match r.1.res with
  | .error e => .error e
  | .ok a => .ok r.2.heap[a]?

/-! ## Citations registered by memoised functions -/

/-- A memoised function that registers citations before computing, such as `F_17`
(/repo/flavio/physics/bdecays/matrixelements.py:72-82) or `SeidelA` (l.158-174). -/
structure Fn (K V C : Type) where
  maxsize : Option Nat
  cites : List C
  body : K → Except PyErr V

/-- The steps of a theory prediction that matter for citations: a call of the memoised function number `f`, or
a direct registration `flavio.citations.register(c)` in a function that is not memoised (such as `SeidelC`,
/repo/flavio/physics/bdecays/matrixelements.py:205-210). -/
inductive PStep (F K C : Type) where
  | memo (f : F) (k : K)
  | cite (c : C)

variable {F C : Type} [DecidableEq F]

/-- The caches of all memoised functions of the process (/repo/flavio/physics/bdecays/matrixelements.py:72-176). -/
abbrev World (F K V : Type) := F → State K V

/-- Replacing the cache of one function (/repo/flavio/physics/bdecays/matrixelements.py:72-176). -/
def World.set (w : World F K V) (f : F) (s : State K V) : World F K V := fun g => if g = f then s else w g

/-- The citations registered by one step: a memoised function registers only when its body is executed.  The
last component tells whether an exception was raised.
/repo/flavio/physics/bdecays/matrixelements.py:72-82, l.205-210. -/
def pstep (fn : F → Fn K V C) (w : World F K V) : PStep F K C → List C × World F K V × Bool
  | .cite c => ([c], w, false)
  | .memo f k =>
    let r := call (fn f).maxsize (fn f).body (w f) k
    (if r.1.ran then (fn f).cites else [], w.set f r.2, match r.1.res with | .ok _ => false | .error _ => true)

/-- Evaluation of a prediction; an exception ends it
(/repo/flavio/physics/bdecays/matrixelements.py:222-260 `delta_C7`, `delta_C9`). -/
def predict (fn : F → Fn K V C) : World F K V → List (PStep F K C) → List C × World F K V × Bool
  | w, [] => ([], w, false)
  | w, p :: ps =>
    let r := pstep fn w p
    if r.2.2 then r
    else
      let q := predict fn r.2.1 ps
      (r.1 ++ q.1, q.2)

variable [LinearOrder C]

/-- /repo/flavio/classes.py:708-717 `Observable.theory_citations`: the prediction is evaluated in a new citation
scope, whose set is returned (together with the resulting caches).  `known` is the content of
`data/citations.yml`. -/
def theoryCitations (known : List C) (fn : F → Fn K V C) (w : World F K V) (ps : List (PStep F K C)) :
    Except PyErr (List C) × World F K V :=
  let r := predict fn w ps
  (if r.2.2 then .error .valueError
   else do
    let c ← Citations.new known []
    let c' ← Citations.registerAll c r.1
    return Citations.set c', r.2.1)

end Verif.Memo
