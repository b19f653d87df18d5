import Verif.Py.Basic
import Verif.Py.Dict

/-!
# Model of `flavio.classes.Constraints`

`P` are parameter/observable names, `R` are *references* to `ProbabilityDistribution` objects:
the class defines neither `__eq__` nor `__hash__`, so two references are equal (as dictionary keys
and in `==`) iff they are the same object.  Attributes and methods of the distribution objects are
parameters of the model.
-/
namespace Verif.Constraints
open Verif.Py

/-- The two attributes of a `Constraints` instance.  /repo/flavio/classes.py:123-138 (`__init__`). -/
structure CState (P R : Type) where
  /-- `_constraints`: list of (distribution, parameter list), oldest first; entries never leave it. -/
  constraints : List (R × List P)
  /-- `_parameters`: ordered dict parameter -> (position, distribution). -/
  parameters : Dict P (Nat × R)

variable {P R V L : Type} [DecidableEq P] [DecidableEq R]

/-- `Constraints.__init__`.  /repo/flavio/classes.py:123-138. -/
def CState.init : CState P R := { constraints := [], parameters := [] }

/-- `all_parameters`.  /repo/flavio/classes.py:139-142. -/
def allParameters (s : CState P R) : List P := s.parameters.keys

/-- `remove_constraint`: only `_parameters` is touched.  /repo/flavio/classes.py:201-203. -/
def removeConstraint (s : CState P R) (p : P) : CState P R :=
  { s with parameters := s.parameters.erase p }

/-- Loop body of `add_constraint`: remove an existing entry, then append the new one.
/repo/flavio/classes.py:158-162.  (The branch `is_parameter_constraint` only adds an additional
`remove_constraint` of the same parameter and registers a `Parameter`; see `addParameterConstraint`.) -/
def addOne (c : R) (d : Dict P (Nat × R)) (e : P × Nat) : Dict P (Nat × R) :=
  (if d.has e.1 then d.erase e.1 else d).set e.1 (e.2, c)

/-- `add_constraint(parameters, constraint)`.  /repo/flavio/classes.py:144-163.
Simplification: the list `parameters` is stored by value (the code stores a reference to the
caller's list object). -/
def addConstraint (s : CState P R) (ps : List P) (c : R) : CState P R :=
  { constraints := s.constraints ++ [(c, ps)]
    parameters := ps.zipIdx.foldl (addOne c) s.parameters }

/-- `add_constraint(..., is_parameter_constraint=True)`: additionally a `Parameter` instance is
created for every name that has none.  `reg` are the names of existing `Parameter` instances in
registration order.  /repo/flavio/classes.py:150-163. -/
def addParameterConstraint (reg : List P) (s : CState P R) (ps : List P) (c : R) :
    List P × CState P R :=
  let r := ps.zipIdx.foldl (fun (acc : List P × Dict P (Nat × R)) e =>
      if e.1 ∈ acc.1 then (acc.1, addOne c (acc.2.erase e.1) e)
      else (acc.1 ++ [e.1], addOne c acc.2 e)) (reg, s.parameters)
  (r.1, { constraints := s.constraints ++ [(c, ps)], parameters := r.2 })

/-! ## central values -/

/-- What the attribute `central_value` of a distribution can be: a number, a Python list, or a
one-dimensional numpy array. (Used for `Central.toFloat?`, /repo/flavio/classes.py:218-219.) -/
inductive Central (V : Type) where
  | scalar (v : V)
  | list (vs : List V)
  | array (vs : List V)

/-- `float(cv)`: works on numbers and on arrays with exactly one element, raises `TypeError`
otherwise.  Used at /repo/flavio/classes.py:218-219. -/
def Central.toFloat? : Central V → Option V
  | .scalar v => some v
  | .list _ => none
  | .array [v] => some v
  | .array _ => none

/-- `cv[num]` on list/array (`IndexError` if out of range).
(Used for `getCentral`, /repo/flavio/classes.py:211-227.) -/
def Central.item (cv : Central V) (num : Nat) : Except PyErr V :=
  match cv with
  | .scalar _ => .error .typeError
  | .list vs | .array vs => match vs[num]? with
    | some v => .ok v
    | none => .error .indexError

/-- `get_central`.  /repo/flavio/classes.py:211-227.  `isStr p` tells whether the name is a string:
for a tuple the construction of the error message itself raises `TypeError`. -/
def getCentral (cv : R → Central V) (isStr : P → Bool) (s : CState P R) (p : P) : Except PyErr V :=
  match s.parameters.get? p with
  | none => if isStr p then .error .valueError else .error .typeError
  | some (num, c) =>
    match (cv c).toFloat? with
    | none => (cv c).item num
    | some v => if num = 0 then .ok v else .error .valueError

/-- `get_central_all`.  /repo/flavio/classes.py:229-231. -/
def getCentralAll (cv : R → Central V) (isStr : P → Bool) (s : CState P R) :
    Except PyErr (Dict P V) :=
  s.parameters.keys.mapM fun p => do
    let v ← getCentral cv isStr s p
    pure (p, v)

/-! ## random values -/

/-- A number or (0-, 1- or 2-dimensional) array returned by `get_random`.
(Used for `pick`, /repo/flavio/classes.py:245-258.) -/
inductive Arr (V : Type) where
  | scalar (v : V)
  | zero (v : V)
  | vec (vs : List V)
  | mat (ncols : Nat) (rows : List (List V))
  deriving DecidableEq

/-- Dictionary values in the result of `get_random_all`: a number or an array.
(Used for `pick`, /repo/flavio/classes.py:245-258.) -/
inductive RVal (V : Type) where
  | num (v : V)
  | arr (vs : List V)
  deriving DecidableEq

/-- The part of `get_random_all` that selects the component `num` from a draw.
/repo/flavio/classes.py:245-258. -/
def pick (size : Option Nat) (num : Nat) (carr : Arr V) : Except PyErr (RVal V) :=
  match size with
  | none =>
    match carr with
    | .scalar v => if num = 0 then .ok (.num v) else .error .typeError
    | .zero v => if num = 0 then .ok (.num v) else .error .indexError
    | .vec vs => match vs[num]? with
      | some v => .ok (.num v)
      | none => .error .indexError
    | .mat _ rows => match rows[num]? with
      | some r => .ok (.arr r)
      | none => .error .indexError
  | some n =>
    match carr with
    | .scalar _ => .error .attributeError
    | .zero _ => .error .valueError
    | .vec vs => if vs.length = n ∧ num = 0 then .ok (.arr vs) else .error .valueError
    | .mat nc rows => if rows.length = n then
        if num < nc then
          match rows.mapM (fun r => r[num]?) with
          | some col => .ok (.arr col)
          | none => .error .indexError
        else .error .indexError
      else .error .valueError

/-- The dictionary comprehension `{constraint: constraint.get_random(size) for ...}`: the i-th call
returns `draw i c`; a distribution occurring twice is drawn twice and the later draw kept.
/repo/flavio/classes.py:240-241. -/
def randomConstraints (draw : Nat → R → Arr V) (s : CState P R) : Dict R (Arr V) :=
  Dict.ofPairs (s.constraints.zipIdx.map fun e => (e.1.1, draw e.2 e.1.1))

/-- `get_random_all`.  /repo/flavio/classes.py:233-259. -/
def getRandomAll (draw : Nat → R → Arr V) (size : Option Nat) (s : CState P R) :
    Except PyErr (Dict P (RVal V)) :=
  let rc := randomConstraints draw s
  s.parameters.mapM fun e => do
    match rc.get? e.2.2 with
    | none => .error .keyError
    | some carr =>
      let v ← pick size e.2.1 carr
      pure (e.1, v)

/-! ## one-dimensional errors -/

/-- `np.ravel([err])`.  /repo/flavio/classes.py:288-289. -/
def ravel1 : Central V → List V
  | .scalar v => [v]
  | .list vs | .array vs => vs

/-- `get_1d_errors_rightleft`.  /repo/flavio/classes.py:277-290.  `errL c`/`errR c` are the properties
`error_left`/`error_right`, which raise `NotImplementedError` for some classes; they are evaluated
for every entry of `_constraints`. -/
def get1dErrorsRightleft (errL errR : R → Except PyErr (Central V)) (s : CState P R) :
    Except PyErr (Dict P (V × V)) := do
  let els ← s.constraints.mapM fun e => errL e.1
  let ers ← s.constraints.mapM fun e => errR e.1
  s.parameters.mapM fun e => do
    let idx := (s.constraints.map Prod.fst).idxOf e.2.2
    match ers[idx]?, els[idx]? with
    | some er, some el =>
      match (ravel1 er)[e.2.1]?, (ravel1 el)[e.2.1]? with
      | some r, some l => pure (e.1, (r, l))
      | _, _ => .error .indexError
    | _, _ => .error .valueError

/-! ## log-probabilities -/

/-- The ways `logpdf`/`delta_logpdf` is called: with a number, or with a list and `exclude`.
(Used for `getLogprobSingle`, /repo/flavio/classes.py:292-311.) -/
inductive PdfArg (V : Type) where
  | scalar (x : V)
  | vec (xs : List V) (exclude : Option (List Nat))
  deriving DecidableEq

/-- `get_logprobability_single`.  /repo/flavio/classes.py:292-311.  `f` is `logpdf` for `delta=False`
and `delta_logpdf` for `delta=True`. -/
def getLogprobSingle (f : R → PdfArg V → Except PyErr L) (s : CState P R) (p : P) (value : V) :
    Except PyErr L :=
  match s.parameters.get? p with
  | none => .error .keyError
  | some (_, c) =>
    match (Dict.ofPairs s.constraints).get? c with
    | none => .error .keyError
    | some ps =>
      if ps.length = 1 then f c (.scalar value)
      else
        f c (.vec [value] (some ((ps.zipIdx.filter fun e => decide (e.1 ≠ p)).map Prod.snd)))

/-- `p_cons`: the parameters of one entry that are neither excluded nor overwritten.
/repo/flavio/classes.py:331-333. -/
def pCons (s : CState P R) (excl : List P) (c : R) (ps : List P) : List P :=
  ps.filter fun p => decide (p ∉ excl) && decide (s.parameters.get? p = some (ps.idxOf p, c))

/-- `[par_dict[p] for p in p_cons]` with `KeyError`.  /repo/flavio/classes.py:334. -/
def readAll (par : P → Option V) (ps : List P) : Except PyErr (List V) :=
  ps.mapM fun p => match par p with
    | some v => .ok v
    | none => .error .keyError

/-- The argument passed to `logpdf` for one entry (only used for non-empty `x`).
/repo/flavio/classes.py:338-355. -/
def pdfArg (ps pc : List P) (x : List V) (x0 : V) : PdfArg V :=
  if ps.length = 1 then .scalar x0
  else if x.length = ps.length then .vec x none
  else .vec x (some ((ps.zipIdx.filter fun e => decide (e.1 ∉ pc)).map Prod.snd))

/-- Body of the loop of `get_logprobability_all`.  /repo/flavio/classes.py:329-355. -/
def logprobStep (f : R → PdfArg V → Except PyErr L) (s : CState P R) (par : P → Option V)
    (excl : List P) (d : Dict R L) (e : R × List P) : Except PyErr (Dict R L) := do
  let pc := pCons s excl e.1 e.2
  let x ← readAll par pc
  match x with
  | [] => pure d
  | x0 :: _ =>
    let l ← f e.1 (pdfArg e.2 pc x x0)
    pure (d.set e.1 l)

/-- `get_logprobability_all`.  /repo/flavio/classes.py:313-356. -/
def getLogprobAll (f : R → PdfArg V → Except PyErr L) (s : CState P R) (par : P → Option V)
    (excl : List P) : Except PyErr (Dict R L) :=
  s.constraints.foldlM (logprobStep f s par excl) []

/-! ## `set_constraint` -/

/-- `set_constraint`.  /repo/flavio/classes.py:165-199.  `parse` is `constraints_from_string`, `conv`
is `dict2dist`, `convolve` is `convolve_distributions`; `Str`, `Dic` their argument types.
The second component is `none` iff no exception was raised. -/
def setConstraint {Str Dic : Type} (parse : Str → Except PyErr (List R))
    (conv : Dic → Except PyErr (List R)) (convolve : List R → Except PyErr R)
    (s : CState P R) (p : P) (cs : Option Str) (cd : Option Dic) : CState P R × Option PyErr :=
  match cs, cd with
  | some _, some _ => (s, some .valueError)
  | none, none => (s, some .typeError)
  | some str, none =>
    match parse str >>= convolve with
    | .error e => (s, some e)
    | .ok c => (addConstraint s [p] c, none)
  | none, some d =>
    match conv d >>= convolve with
    | .error e => (s, some e)
    | .ok c => (addConstraint s [p] c, none)

/-! ## YAML -/

/-- Data of one entry in the list of `get_yaml_dict`: the parameter list and `get_dict` of the
distribution. (Used for `getYamlList`, /repo/flavio/classes.py:371-386.) -/
structure YEntry (P Y : Type) where
  params : List P
  values : Y

/-- The list part of `get_yaml_dict`: every entry of `_constraints`, overwritten or not.
`dump c` is `constraint.get_dict(distribution=True, iterate=True, arraytolist=True)`.
/repo/flavio/classes.py:371-386.  Tuple names are written as lists and read back as tuples
(lines 382, 462), which is the identity on names and not modelled. -/
def getYamlList {Y : Type} (dump : R → Y) (s : CState P R) : List (YEntry P Y) :=
  s.constraints.map fun e => ⟨e.2, dump e.1⟩

/-- Loop of `from_yaml_dict` for entries of the form produced by `get_yaml_dict`, with `load i y`
the (new) distribution object built for the i-th entry by `dict2dist` and `convolve_distributions`.
/repo/flavio/classes.py:446-466. -/
def fromYamlList {Y : Type} (load : Nat → Y → Except PyErr R) (data : List (YEntry P Y)) :
    Except PyErr (CState P R) :=
  data.zipIdx.foldlM (fun s e => do
    let c ← load e.2 e.1.values
    pure (addConstraint s e.1.params c)) CState.init

/-- `copy` (deepcopy): every distribution object `c` is replaced by its copy `ρ c`; `deepcopy`'s memo
makes `ρ` a function (shared objects stay shared) and injective (distinct objects get distinct
copies).  /repo/flavio/classes.py:358-360. -/
def copyState {R' : Type} (ρ : R → R') (s : CState P R) : CState P R' :=
  { constraints := s.constraints.map fun e => (ρ e.1, e.2)
    parameters := s.parameters.map fun e => (e.1, (e.2.1, ρ e.2.2)) }

/-! ## histories -/

/-- Mutating API calls on one `Constraints` object. Used for /repo/flavio/classes.py:144-212. -/
inductive Op (P R : Type) where
  | add (ps : List P) (c : R)
  | remove (p : P)
  deriving DecidableEq

/-- Effect of one call. Used for /repo/flavio/classes.py:144-212. -/
def step (s : CState P R) : Op P R → CState P R
  | .add ps c => addConstraint s ps c
  | .remove p => removeConstraint s p

/-- State of a new `Constraints` object after a history of calls. Used for /repo/flavio/classes.py:144-212. -/
def run (h : List (Op P R)) : CState P R := h.foldl step CState.init

end Verif.Constraints
