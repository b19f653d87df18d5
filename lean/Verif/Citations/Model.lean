import Verif.Py.Dict
import Mathlib.Order.Defs.LinearOrder
import Mathlib.Data.List.Dedup
/-!
# Model of `flavio/citations.py`

Citation keys (INSPIRE texkeys, Python strings ordered by code point) are elements of an arbitrary
linearly ordered type `K`.  `allKeys` is the content of `data/citations.yml`.
-/
set_option linter.unusedSectionVars false
namespace Verif.Citations
open Verif.Py

variable {K : Type} [LinearOrder K]

/-- Python's `sorted` on keys (/repo/flavio/citations.py:36, l.51). -/
def sorted (l : List K) : List K := l.mergeSort (fun a b => decide (a ≤ b))

/-- A `Citations` instance (/repo/flavio/citations.py:24-84).
`initial` is `_initial_citations` (a set), `index` is `_all_citations` (key ↦ position),
`array` is the shared boolean array `_array`. -/
structure Cits (K : Type) where
  initial : List K
  index : Dict K Nat
  array : List Bool
  deriving DecidableEq

/-- /repo/flavio/citations.py:57-73 `register`: set the flag at the index of the key; `KeyError` if unknown. -/
def register (c : Cits K) (k : K) : Except PyErr (Cits K) :=
  match c.index.get? k with
  | some i => .ok { c with array := c.array.set i true }
  | none => .error .keyError

/-- The loop `for inspire_key in self._initial_citations: self.register(inspire_key)`
(/repo/flavio/citations.py:39-40 and l.83-84). -/
def registerAll (c : Cits K) (ks : List K) : Except PyErr (Cits K) :=
  ks.foldlM register c

/-- /repo/flavio/citations.py:32-40 `__init__`.  `allKeys ∪ initial` as a set is `List.dedup`. -/
def new (allKeys initial : List K) : Except PyErr (Cits K) :=
  let keys := sorted (allKeys ++ initial).dedup
  let c : Cits K :=
    { initial := initial.dedup
      index := Dict.ofPairs keys.zipIdx
      array := List.replicate (Dict.ofPairs keys.zipIdx).length false }
  registerAll c c.initial

/-- /repo/flavio/citations.py:49-51 property `set`: `set(compress(sorted(keys), array))`. -/
def set (c : Cits K) : List K :=
  ((sorted c.index.keys).zip c.array).filterMap (fun e => if e.2 then some e.1 else none)

/-- /repo/flavio/citations.py:76-78 `clear`. -/
def clear (c : Cits K) : Cits K := { c with array := List.replicate c.array.length false }

/-- /repo/flavio/citations.py:80-84 `reset`. -/
def reset (c : Cits K) : Except PyErr (Cits K) := registerAll (clear c) c.initial

/-! ## Programs using citation scopes -/

/-- Programs that use the citation machinery.  All register/clear/reset calls go through the global
`flavio.citations`, as in flavio's own code.  `withScope s p` is `with s: p` for a scope object
(`CitationScope` instance) numbered `s`; `collect p` is `with flavio.citations.collect(): p`, which
makes a new scope object. `tryExcept p q` is `try: p` / `except Exception: q`.
(Used for `exec`, /repo/flavio/citations.py:15-18.) -/
inductive Prog (K : Type) where
  | skip
  | register (k : K)
  | clear
  | reset
  | raise
  | seq (p q : Prog K)
  | tryExcept (p q : Prog K)
  | collect (p : Prog K)
  | withScope (s : Nat) (p : Prog K)

/-- Memory: the `Citations` objects created so far, which of them `flavio.citations` is bound to,
and the attribute `_citations_global` of each user-held scope object.
(Used for `exec`, /repo/flavio/citations.py:15-18.) -/
structure Mem (K : Type) where
  heap : List (Cits K)
  cur : Nat
  saved : Nat → Nat

/-- Apply a method to the current global citations object; `true` = an exception was raised.
(Used for `exec`, /repo/flavio/citations.py:15-18.) -/
def onCur (m : Mem K) (f : Cits K → Except PyErr (Cits K)) : Mem K × Bool :=
  match m.heap[m.cur]? with
  | none => (m, true)
  | some c =>
    match f c with
    | .ok c' => ({ m with heap := m.heap.set m.cur c' }, false)
    | .error _ => (m, true)

/-- Big-step execution; the Boolean says whether the program ended by raising.
`collect`/`withScope` model `CitationScope.__enter__` (/repo/flavio/citations.py:15-18) and `__exit__` (l.20-21); `__exit__`
returns `None`, so an exception raised in the body is re-raised after the restoration. -/
def exec (allKeys : List K) : Prog K → Mem K → Mem K × Bool
  | .skip, m => (m, false)
  | .register k, m => onCur m (fun c => Citations.register c k)
  | .clear, m => onCur m (fun c => .ok (Citations.clear c))
  | .reset, m => onCur m Citations.reset
  | .raise, m => (m, true)
  | .seq p q, m =>
    match exec allKeys p m with
    | (m', true) => (m', true)
    | (m', false) => exec allKeys q m'
  | .tryExcept p q, m =>
    match exec allKeys p m with
    | (m', true) => exec allKeys q m'
    | (m', false) => (m', false)
  | .collect p, m =>
    match new allKeys [] with
    | .error _ => (m, true)
    | .ok c =>
      let old := m.cur
      let r := exec allKeys p { m with heap := m.heap ++ [c], cur := m.heap.length }
      ({ r.1 with cur := old }, r.2)
  | .withScope s p, m =>
    match new allKeys [] with
    | .error _ => (m, true)
    | .ok c =>
      let r := exec allKeys p
        { heap := m.heap ++ [c], cur := m.heap.length,
          saved := fun s' => if s' = s then m.cur else m.saved s' }
      ({ r.1 with cur := r.1.saved s }, r.2)

end Verif.Citations
