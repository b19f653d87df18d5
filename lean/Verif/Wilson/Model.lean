import Verif.Py.Dict
/-!
# Predictions with a `wilson.Wilson` object

Every prediction converts the object given by the user with `WilsonCoefficients.from_wilson`
(/repo/flavio/physics/eft.py:163-176, called at /repo/flavio/classes.py:761-765, l.795-804).  The conversion makes a
new object but *shares* the cache and the options of the original one, and sets the CKM parameters of the prediction
as an option if they differ.

The package `wilson` is not part of the repository.  What matters of it is modelled with two switches (`Sem`):
whether `set_option` changes the options object in place (`self._options.update(…)`) or replaces it, and whether
the clearing of the cache that goes with it empties the cache object or replaces it (`self._cache = {}`).
Aliasing is explicit: options and caches are objects in memory, denoted by addresses.
-/
namespace Verif.Wilson

variable {I P K V : Type} [DecidableEq P] [DecidableEq K]

/-- How the external `set_option` works (used by /repo/flavio/physics/eft.py:175), and the default value of the
option `parameters`. -/
structure Sem (P : Type) where
  optionsInPlace : Bool
  clearInPlace : Bool
  default : P

/-- A Wilson object: initial values, addresses of its options and of its cache, and whether it is an instance of
flavio's own class (/repo/flavio/physics/eft.py:163-176). -/
structure Obj (I : Type) where
  wc : I
  opt : Nat
  cache : Nat
  own : Bool
  deriving DecidableEq

/-- Memory (/repo/flavio/physics/eft.py:171-172): the options objects (the value of the option `parameters`, if set)
and the cache objects. -/
structure Mem (P K V : Type) where
  opts : List (Option P)
  caches : List (List (K × V))

/-- `get_option('parameters')` (/repo/flavio/physics/eft.py:174). -/
def getOption (sem : Sem P) (m : Mem P K V) (o : Obj I) : P :=
  ((m.opts[o.opt]?).getD none).getD sem.default

/-- `set_option('parameters', p)` (/repo/flavio/physics/eft.py:175). -/
def setOption (sem : Sem P) (m : Mem P K V) (o : Obj I) (p : P) : Obj I × Mem P K V :=
  let r : Obj I × Mem P K V :=
    if sem.optionsInPlace then (o, { m with opts := m.opts.set o.opt (some p) })
    else ({ o with opt := m.opts.length }, { m with opts := m.opts ++ [some p] })
  if sem.clearInPlace then (r.1, { r.2 with caches := r.2.caches.set o.cache [] })
  else ({ r.1 with cache := r.2.caches.length }, { r.2 with caches := r.2.caches ++ [[]] })

/-- The stored value (used by /repo/flavio/physics/eft.py:208). -/
def lookup (c : List (K × V)) (k : K) : Option V := (c.find? (fun e => decide (e.1 = k))).map (·.2)

/-- `match_run` (used by /repo/flavio/physics/eft.py:208): a cached result is returned, otherwise it is computed from
the initial values with the current CKM parameters and stored. `k` stands for scale, EFT, basis and sectors. -/
def matchRun (sem : Sem P) (compute : I → P → K → V) (m : Mem P K V) (o : Obj I) (k : K) : V × Mem P K V :=
  match lookup ((m.caches[o.cache]?).getD []) k with
  | some v => (v, m)
  | none =>
    let v := compute o.wc (getOption sem m o) k
    (v, { m with caches := m.caches.set o.cache ((k, v) :: (m.caches[o.cache]?).getD []) })

/-- /repo/flavio/physics/eft.py:163-176 `from_wilson` (for `w` not `None`): an instance of the class itself is
returned unchanged; otherwise a new object sharing cache and options. -/
def fromWilson (sem : Sem P) (m : Mem P K V) (w : Obj I) (p : P) : Obj I × Mem P K V :=
  if w.own then (w, m)
  else
    let f : Obj I := { w with own := true }
    if getOption sem m f ≠ p then setOption sem m f p else (f, m)

/-- The sequence of `match_run` calls a prediction makes (/repo/flavio/physics/eft.py:207-208). -/
def queries (sem : Sem P) (compute : I → P → K → V) (o : Obj I) : Mem P K V → List K → List V × Mem P K V
  | m, [] => ([], m)
  | m, k :: ks =>
    let r := matchRun sem compute m o k
    let q := queries sem compute o r.2 ks
    (r.1 :: q.1, q.2)

/-- A prediction with parameters `p` (/repo/flavio/classes.py:761-765): the values of the Wilson coefficients it is
based on. -/
def predict (sem : Sem P) (compute : I → P → K → V) (m : Mem P K V) (w : Obj I) (p : P) (ks : List K) :
    List V × Mem P K V :=
  let f := fromWilson sem m w p
  queries sem compute f.1 f.2 ks

/-- What can happen to a Wilson object `w`: a prediction, or direct use of `match_run` by the user
(/repo/flavio/classes.py:761-765). -/
inductive Ev (P K : Type) where
  | pred (p : P) (ks : List K)
  | user (k : K)

/-- Effect on memory (/repo/flavio/classes.py:761-765). -/
def step (sem : Sem P) (compute : I → P → K → V) (w : Obj I) (m : Mem P K V) : Ev P K → Mem P K V
  | .pred p ks => (predict sem compute m w p ks).2
  | .user k => (matchRun sem compute m w k).2

/-- Memory after a history, starting with a newly made object: one options object, one empty cache
(/repo/flavio/physics/eft.py:163-176). -/
def run (sem : Sem P) (compute : I → P → K → V) (w : Obj I) (h : List (Ev P K)) : Mem P K V :=
  h.foldl (step sem compute w) ⟨[none], [[]]⟩

/-- A newly made `wilson.Wilson` object (`own = false`) or `flavio.WilsonCoefficients` object (`own = true`)
(/repo/flavio/physics/eft.py:131-147). -/
def newObj (wc : I) (own : Bool) : Obj I := ⟨wc, 0, 0, own⟩

end Verif.Wilson
