import Verif.Py.Basic
import Verif.Py.Dict

/-!
# Model of `Observable`, `Prediction`, `AuxiliaryQuantity`, `Implementation` (flavio/classes.py)

Objects live in heaps (lists addressed by position), registries map names to addresses.
`A` is everything passed to a prediction function (Wilson coefficients, parameters, arguments),
`V` the value type; a prediction function is `A → Except PyErr V`.
Simplification: the class attribute `instances` of all classes exists (importing flavio creates
instances of each class).
-/
namespace Verif.Observables
open Verif.Py

variable {A V : Type}

/-- An `Observable` instance.  /repo/flavio/classes.py:546-552. -/
structure ObsObj (A V : Type) where
  name : String
  arguments : Option (List String)
  /-- `prediction.function` if a prediction was set. -/
  prediction : Option (A → Except PyErr V)

/-- An `Implementation` instance; the attributes `quantity`, `function` may be missing when
`__init__` raised after registration.  /repo/flavio/classes.py:783-791. -/
structure ImplObj (A V : Type) where
  name : String
  quantity : Option String
  function : Option (A → Except PyErr V)
  description : String

/-- All relevant class-level state. (Used for `newObservable`, /repo/flavio/classes.py:546-552.) -/
structure World (A V : Type) where
  obsHeap : List (ObsObj A V)
  obsReg : Dict String Nat
  /-- registry of `AuxiliaryQuantity` (names only) -/
  quantities : List String
  implHeap : List (ImplObj A V)
  implReg : Dict String Nat
  /-- `flavio.config['implementation']` -/
  config : Dict String String

/-- `Observable[name]`. (Used for `predict`, /repo/flavio/classes.py:628-632, 759-766.) -/
def World.obs? (w : World A V) (n : String) : Option (ObsObj A V) :=
  (w.obsReg.get? n).bind fun a => w.obsHeap[a]?

/-- `Observable.__init__(name, arguments)`.  /repo/flavio/classes.py:546-552 and 50-55. -/
def newObservable (w : World A V) (n : String) (args : Option (List String)) : World A V × Nat :=
  ({ w with obsHeap := w.obsHeap ++ [⟨n, args, none⟩], obsReg := w.obsReg.set n w.obsHeap.length },
    w.obsHeap.length)

/-- `Prediction.__init__(observable, function)`.  /repo/flavio/classes.py:749-757. -/
def newPrediction (w : World A V) (n : String) (f : A → Except PyErr V) : World A V × Option PyErr :=
  match w.obsReg.get? n with
  | none => (w, some .valueError)
  | some a => ({ w with obsHeap := w.obsHeap.modify a fun o => { o with prediction := some f } }, none)

/-- `Observable.prediction_par` (and `prediction_central`, with the central parameter values in `A`).
/repo/flavio/classes.py:628-632, 759-766. -/
def predict (w : World A V) (n : String) (x : A) : Except PyErr V :=
  match w.obs? n with
  | none => .error .keyError
  | some o => match o.prediction with
    | none => .error .attributeError
    | some f => f x

/-- The checks of `from_function` for one component.  /repo/flavio/classes.py:677-685. -/
def checkComponent (w : World A V) (first : String) (n : String) : Except PyErr Unit :=
  match w.obs? n with
  | none => .error .valueError
  | some o => match w.obs? first with
    | none => .error .keyError
    | some o₀ =>
      if o.arguments ≠ o₀.arguments then .error .assertionError
      else if o.prediction.isNone then .error .assertionError
      else .ok ()

/-- `[Observable[observable].prediction.function for observable in observables]`, after the new
instance was registered.  /repo/flavio/classes.py:687-688. -/
def componentFunctions (w : World A V) (os : List String) : Except PyErr (List (A → Except PyErr V)) :=
  os.mapM fun n => match w.obs? n with
    | none => .error .keyError
    | some o => match o.prediction with
      | none => .error .attributeError
      | some f => .ok f

/-- `Observable.from_function(name, observables, function)`.  /repo/flavio/classes.py:651-692. -/
def fromFunction (w : World A V) (name : String) (os : List String) (g : List V → Except PyErr V) :
    World A V × Except PyErr Nat :=
  match os with
  | [] => (w, .error .indexError)
  | first :: _ =>
    match os.mapM (checkComponent w first) with
    | .error e => (w, .error e)
    | .ok _ =>
      let (w₁, addr) := newObservable w name ((w.obs? first).bind (·.arguments))
      match componentFunctions w₁ os with
      | .error e => (w₁, .error e)
      | .ok fs =>
        match newPrediction w₁ name (fun x => (fs.mapM fun f => f x) >>= g) with
        | (w₂, some e) => (w₂, .error e)
        | (w₂, none) => (w₂, .ok addr)

/-- `Implementation.__init__(name, quantity, function)`: the instance is registered before the
quantity is looked up.  /repo/flavio/classes.py:783-791. -/
def newImplementation (w : World A V) (n quantity : String) (f : A → Except PyErr V) :
    World A V × Option PyErr :=
  let a := w.implHeap.length
  let w₁ := { w with implHeap := w.implHeap ++ [⟨n, none, none, ""⟩], implReg := w.implReg.set n a }
  if quantity ∈ w.quantities then
    ({ w₁ with implHeap := w.implHeap ++ [⟨n, some quantity, some f, ""⟩] }, none)
  else (w₁, some .valueError)

/-- `Implementation.show_all()`: the assignment replaces the inner dictionary.
/repo/flavio/classes.py:773-781. -/
def showAll (w : World A V) : Except PyErr (Dict String (Dict String String)) :=
  w.implReg.foldlM (fun d e =>
    match w.implHeap[e.2]? with
    | none => .error .keyError
    | some o => match o.quantity with
      | none => .error .attributeError
      | some q => .ok (d.set q [(e.1, o.description)])) []

/-- `AuxiliaryQuantity.prediction` via `get_implementation`.
/repo/flavio/classes.py:730-743, 803-805. -/
def auxPrediction (w : World A V) (quantity : String) (x : A) : Except PyErr V :=
  match w.config.get? quantity with
  | none => .error .keyError
  | some iname => match (w.implReg.get? iname).bind fun a => w.implHeap[a]? with
    | none => .error .keyError
    | some o => match o.function with
      | none => .error .attributeError
      | some f => f x

/-! ## `argument_format` -/

/-- Values in the dictionary form. (Used for `tupleDict`, /repo/flavio/classes.py:608-610.) -/
inductive PVal (V : Type) where
  | name (s : String)
  | num (v : V)
  deriving DecidableEq

/-- Input forms: string, tuple/list `(name, x₁, …)`, dictionary.
(Used for `argumentFormat`, /repo/flavio/classes.py:574-623.) -/
inductive ObsSpec (V : Type) where
  | str (n : String)
  | tup (n : String) (xs : List V)
  | dict (d : Dict String (PVal V))

/-- Output forms.  `chars` is `list(string)`; `pyNone` for an unknown format.
(Used for `fmtSelect`, /repo/flavio/classes.py:618-623.) -/
inductive FmtOut (V : Type) where
  | str (n : String)
  | tup (xs : List (PVal V))
  | lst (xs : List (PVal V))
  | dict (d : Dict String (PVal V))
  | chars (cs : List Char)
  | pyNone
  deriving DecidableEq

/-- The `format` argument. (Used for `fmtSelect`, /repo/flavio/classes.py:618-623.) -/
inductive Fmt where
  | tuple | list | dict | other
  deriving DecidableEq

/-- The loop filling the dictionary for a tuple input.  /repo/flavio/classes.py:608-610. -/
def tupleDict (n : String) (args : List String) (xs : List V) : Dict String (PVal V) :=
  (args.zip xs).foldl (fun d e => d.set e.1 (PVal.num e.2)) [("name", .name n)]

/-- Selecting the output (`t` is a string for a dictionary input without arguments).
/repo/flavio/classes.py:618-623. -/
def fmtSelect (fmt : Fmt) (t : String ⊕ List (PVal V)) (d : Dict String (PVal V)) : FmtOut V :=
  match fmt, t with
  | .tuple, .inl s => .str s
  | .tuple, .inr l => .tup l
  | .list, .inl s => .chars s.toList
  | .list, .inr l => .lst l
  | .dict, _ => .dict d
  | .other, _ => .pyNone

/-- `argument_format(obs, format)`; `args n` is `Observable[n].arguments`, `none` if there is no such
observable (`KeyError`).  /repo/flavio/classes.py:574-623.  A value under the key `'name'` that is not
a string raises `KeyError` in the lookup. -/
def argumentFormat (args : String → Option (Option (List String))) (obs : ObsSpec V) (fmt : Fmt) :
    Except PyErr (FmtOut V) :=
  match obs with
  | .str n => match args n with
    | none => .error .keyError
    | some (some _) => .error .valueError
    | some none => .ok (if fmt = .dict then .dict [("name", .name n)] else .str n)
  | .tup n xs => match args n with
    | none => .error .keyError
    | some none => .error .valueError
    | some (some as) =>
      if as.length ≠ xs.length then .error .valueError
      else .ok (fmtSelect fmt (.inr (.name n :: xs.map .num)) (tupleDict n as xs))
  | .dict d => match d.get? "name" with
    | none => .error .keyError
    | some (.num _) => .error .keyError
    | some (.name n) => match args n with
      | none => .error .keyError
      | some none => .ok (fmtSelect fmt (.inl n) d)
      | some (some as) => do
        let xs ← as.mapM fun a => d.getItem a
        pure (fmtSelect fmt (.inr (.name n :: xs)) d)

/-! ## taxonomy -/

/-- `defaultdict(tree)` (and, as a value, the nested dictionary made by `dicts`).
/repo/flavio/classes.py:530-539. -/
inductive Tree where
  | node (children : List (String × Tree))

/-- Children of a node. (Used for `Tree`, /repo/flavio/classes.py:530-539.) -/
def Tree.children : Tree → List (String × Tree)
  | .node cs => cs

/-- `for node in taxonomy_list: t = t[node]`: missing keys are created as empty trees.
/repo/flavio/classes.py:641-644. -/
def Tree.addPath (t : Tree) : List String → Tree
  | [] => t
  | k :: ks =>
    .node (Dict.set t.children k ((((Dict.get? t.children k).getD (.node []))).addPath ks))

/-- The history of `add_taxonomy` calls (each given by its path including the observable name).
Used for /repo/flavio/classes.py:634-660. -/
def taxonomyRun (paths : List (List String)) : Tree := paths.foldl Tree.addPath (.node [])

/-- Following a path in the nested dictionary returned by `taxonomy_dict`.
Used for /repo/flavio/classes.py:634-660. -/
def Tree.hasPath (t : Tree) : List String → Bool
  | [] => true
  | k :: ks => match Dict.get? t.children k with
    | none => false
    | some t' => t'.hasPath ks

/-! ## `Observable.get_measurements` -/

/-- A constrained name in a measurement: a string or a tuple starting with the observable name.
(Used for `getMeasurements`, /repo/flavio/classes.py:694-706.) -/
inductive ObsName (V : Type) where
  | str (n : String)
  | tup (n : String) (xs : List V)
  deriving DecidableEq

/-- `get_measurements` of the observable `self`; `ms` are the registered measurements with their
`all_parameters`.  /repo/flavio/classes.py:694-706. -/
def getMeasurements [DecidableEq V] (self : String) (ms : Dict String (List (ObsName V))) : List String :=
  ms.filterMap fun e =>
    if ObsName.str self ∈ e.2 then some e.1
    else if e.2.any (fun o => match o with
      | .str _ => false
      | .tup n _ => decide (n = self)) then some e.1
    else none

end Verif.Observables
