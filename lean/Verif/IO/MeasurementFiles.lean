import Verif.Constraints.Theorems2
/-!
# Model of writing and reading measurement files
(`write_file`, `read_file`, `_load_new` in `flavio/measurements.py`; `get_yaml_dict`, `from_yaml_dict` for `Measurement`)

`V` are the values that occur in files (strings, numbers, lists, dictionaries); `plain v` tells whether `yaml.dump(v)` is
standard YAML, which `yaml.safe_load` can read; it is false for instance for NumPy numbers, which are written with a tag
`!!python/object/apply`.  A file is identified with the data that was written to it.
-/
set_option linter.unusedVariables false
namespace Verif.MeasFiles
open Verif.Py Verif.Constraints

/-- Observables as dictionary keys: a string or a tuple.  (Used for `getYamlDict`, /repo/flavio/classes.py:380.) -/
inductive Obs (V : Type) where
  | name (s : String)
  | tup (l : List V)
  deriving DecidableEq

/-- Observables in a file: a string or a list.  (Used for `getYamlDict`, /repo/flavio/classes.py:380.) -/
inductive ObsDoc (V : Type) where
  | name (s : String)
  | lst (l : List V)
  deriving DecidableEq

/-- `list(p) if isinstance(p, tuple) else p`.  /repo/flavio/classes.py:380. -/
def toDoc {V : Type} : Obs V → ObsDoc V
  | .name s => .name s
  | .tup l => .lst l

/-- `tuple(p) if isinstance(p, list) else p`.  /repo/flavio/classes.py:462. -/
def ofDoc {V : Type} : ObsDoc V → Obs V
  | .name s => .name s
  | .lst l => .tup l

/-- Elements of the list of constraints in a file: with both keys, in the short form `{parameter: string}`, or with neither.
(Used for `fromYamlDict`, /repo/flavio/classes.py:446-466.) -/
inductive CDoc (V : Type) where
  | entry (obs : List (ObsDoc V)) (values : V)
  | short (obs : String) (s : V)
  | bad
  deriving DecidableEq

/-- One dictionary of a file; `none` for a missing key.  (Used for `fromYamlDict`, /repo/flavio/classes.py:436-445.) -/
structure MDoc (V : Type) where
  arguments : Option (Dict String V)
  metadata : Option (Dict String V)
  constraints : Option (List (CDoc V))
  deriving DecidableEq

/-- The data of a file: a list of dictionaries in the new format, one such dictionary, or anything else (in particular the old
format, a dictionary from names to data).  (Used for `loadNew`, /repo/flavio/measurements.py:103-106.) -/
inductive File (V O : Type) where
  | many (l : List (MDoc V))
  | one (d : MDoc V)
  | old (o : O)

/-- A `Measurement` instance: its public attributes and its constraints.  /repo/flavio/classes.py:827-832. -/
structure Meas (V R : Type) where
  attrs : Dict String V
  cons : CState (Obs V) R

/-- What the model depends on: the empty string and names as values, `plain`; distributions as data and back; constraint
strings.  (Used for `fromYamlDict`, /repo/flavio/classes.py:446-466.) -/
structure Env (V R : Type) where
  empty : V
  ofName : String → V
  /-- the string a value is, if it is one -/
  asName : V → Option String
  plain : V → Bool
  /-- `constraint.get_dict(distribution=True, iterate=True, arraytolist=True)` -/
  dump : R → V
  /-- `convolve_distributions(dict2dist(values))` for the constraint with the given number of the given document -/
  load : Nat → Nat → V → Except PyErr R
  /-- the same for a constraint string -/
  loadStr : Nat → Nat → V → Except PyErr R

variable {V R O : Type} [DecidableEq V] [DecidableEq R]

/-- `Measurement(name)` with its default attributes; the registration is in `fromYamlDict`.
/repo/flavio/classes.py:50-55, 827-832. -/
def newMeas (E : Env V R) (name : V) : Meas V R :=
  { attrs := [("name", name), ("description", E.empty), ("inspire", E.empty), ("experiment", E.empty), ("url", E.empty)]
    cons := CState.init }

/-- `k[0] != '_'`.  (Used for `getYamlDict`, /repo/flavio/classes.py:387.) -/
def isPublic (k : String) : Bool := k.toList.head? ≠ some '_'

/-- `get_yaml_dict(pname='observables')` of a measurement; `args` is `['name']`, hence the result always is a dictionary.
A missing attribute `name` raises `KeyError`.  /repo/flavio/classes.py:371-399. -/
def getYamlDict (E : Env V R) (m : Meas V R) : Except PyErr (MDoc V) := do
  let data := m.cons.constraints.map fun e => CDoc.entry (e.2.map toDoc) (E.dump e.1)
  let md := m.attrs.filter fun kv => isPublic kv.1 && decide (kv.2 ≠ E.empty) && decide (kv.1 ≠ "name")
  let name ← (match m.attrs.get? "name" with
    | some n => .ok n
    | none => .error .keyError : Except PyErr V)
  pure { arguments := some [("name", name)], metadata := if md.isEmpty then none else some md, constraints := some data }

/-- Body of the loop over the constraints of a document: observables and distribution.  /repo/flavio/classes.py:446-466. -/
def readDoc (E : Env V R) (i k : Nat) : CDoc V → Except PyErr (List (Obs V) × R)
  | .entry ps v => do
    let d ← E.load i k v
    pure (ps.map ofDoc, d)
  | .short p v => do
    let d ← E.loadStr i k v
    pure ([.name p], d)
  | .bad => .error .valueError

/-- Loop over the constraints of a document (number `k`, `k+1`, … of document `i`): the constraints added before an exception
remain.  /repo/flavio/classes.py:446-466. -/
def addDocs (E : Env V R) (i : Nat) : Nat → CState (Obs V) R → List (CDoc V) → Option PyErr × CState (Obs V) R
  | _, s, [] => (none, s)
  | k, s, c :: l =>
    match readDoc E i k c with
    | .error e => (some e, s)
    | .ok r => addDocs E i (k + 1) (addConstraint s r.1 r.2) l

/-- `Measurement.from_yaml_dict(data, pname='observables')` for a dictionary: the state is the registry of measurements, in
which the new instance appears as soon as it is created.  (A constructor call with other arguments than the name raises
`TypeError`.)  The result is the attribute `name` of the instance, which `_load_new` returns.
/repo/flavio/classes.py:436-466, /repo/flavio/measurements.py:107. -/
def fromYamlDict (E : Env V R) (reg : Dict V (Meas V R)) (i : Nat) (d : MDoc V) :
    Except PyErr V × Dict V (Meas V R) :=
  match d.constraints, d.arguments with
  | none, _ => (.error .keyError, reg)
  | some _, none => (.error .keyError, reg)
  | some cs, some [("name", n)] =>
    let inst := newMeas E n
    let attrs := (d.metadata.getD []).foldl (fun a kv => a.set kv.1 kv.2) inst.attrs
    let r := addDocs E i 0 inst.cons cs
    let reg' := reg.set n { attrs := attrs, cons := r.2 }
    match r.1, attrs.get? "name" with
    | some e, _ => (.error e, reg')
    | none, some n' => (.ok n', reg')
    | none, none => (.error .attributeError, reg')
  | some _, some _ => (.error .typeError, reg)

/-- The list comprehension over the documents.  /repo/flavio/measurements.py:106. -/
def fromYamlDicts (E : Env V R) : Dict V (Meas V R) → Nat → List (MDoc V) → Except PyErr (List V) × Dict V (Meas V R)
  | reg, _, [] => (.ok [], reg)
  | reg, i, d :: l =>
    match fromYamlDict E reg i d with
    | (.error e, reg') => (.error e, reg')
    | (.ok n, reg') =>
      match fromYamlDicts E reg' (i + 1) l with
      | (.error e, reg'') => (.error e, reg'')
      | (.ok ns, reg'') => (.ok (n :: ns), reg'')

/-- Whether all values in a document can be read by `yaml.safe_load`.  (Used for `readFile`,
/repo/flavio/measurements.py:102.) -/
def MDoc.plain (E : Env V R) (d : MDoc V) : Bool :=
  (d.arguments.getD []).all (fun kv => E.plain kv.2) && (d.metadata.getD []).all (fun kv => E.plain kv.2) &&
  (d.constraints.getD []).all fun
    | .entry obs v => E.plain v && obs.all fun
      | .name _ => true
      | .lst l => l.all E.plain
    | .short _ v => E.plain v
    | .bad => true

/-- `_load_new`.  A file of another form has no key `constraints`.  /repo/flavio/measurements.py:98-107. -/
def loadNew (E : Env V R) (reg : Dict V (Meas V R)) (f : File V O) : Except PyErr (List V) × Dict V (Meas V R) :=
  match f with
  | .many l => if l.all (MDoc.plain E) then fromYamlDicts E reg 0 l else (.error .valueError, reg)
  | .one d => if d.plain E then fromYamlDicts E reg 0 [d] else (.error .valueError, reg)
  | .old _ => (.error .keyError, reg)

/-- Attributes that `_load` copies.  /repo/flavio/measurements.py:17-19. -/
def loadAttrs : List String := ["inspire", "hepdata", "experiment", "url", "description"]

/-- `_load` on data that is not in the old format: a list has no `.items()`; of one document in the new format the first key
(`arguments`, `metadata`, `constraints`, in the order of `get_yaml_dict`) becomes a new measurement with the attributes found in
the value, then `m_data['values']` fails (for a list with `TypeError`).  For the old format it is `loadOld` (C28).
/repo/flavio/measurements.py:12-96. -/
def load (E : Env V R) (loadOld : Dict V (Meas V R) → O → Except PyErr (List V) × Dict V (Meas V R))
    (reg : Dict V (Meas V R)) (f : File V O) : Except PyErr (List V) × Dict V (Meas V R) :=
  match f with
  | .many l => if l.all (MDoc.plain E) then (.error .attributeError, reg) else (.error .valueError, reg)
  | .one d =>
    if d.plain E then
      let junk := fun (key : String) (md : Dict String V) =>
        let m := newMeas E (E.ofName key)
        let attrs := loadAttrs.foldl (fun a k => match md.get? k with | some v => a.set k v | none => a) m.attrs
        reg.set (E.ofName key) { m with attrs := attrs }
      match d.arguments, d.metadata, d.constraints with
      | some a, _, _ => (.error .keyError, junk "arguments" a)
      | none, some md, _ => (.error .keyError, junk "metadata" md)
      | none, none, some _ => (.error .typeError, junk "constraints" [])
      | none, none, none => (.ok [], reg)
    else (.error .valueError, reg)
  | .old o => loadOld reg o

/-- `read_file`.  /repo/flavio/measurements.py:154-161. -/
def readFile (E : Env V R) (loadOld : Dict V (Meas V R) → O → Except PyErr (List V) × Dict V (Meas V R))
    (reg : Dict V (Meas V R)) (f : File V O) : Except PyErr (List V) × Dict V (Meas V R) :=
  match loadNew E reg f with
  | (.ok ns, reg') => (.ok ns, reg')
  | (.error _, reg') => load E loadOld reg' f

/-- Elements of the argument of `write_file`.  (Used for `writeFile`, /repo/flavio/measurements.py:143-149.) -/
inductive MArg (V R : Type) where
  | inst (m : Meas V R)
  | name (n : V)

/-- `m if isinstance(m, Measurement) else Measurement[m]`.  /repo/flavio/measurements.py:148-149. -/
def resolve (reg : Dict V (Meas V R)) : MArg V R → Except PyErr (Meas V R)
  | .inst m => .ok m
  | .name n => match reg.get? n with
    | some m => .ok m
    | none => .error .keyError

/-- `write_file`: the result and the new content of the file (`none`: empty file).  The names are looked up before the file is
opened, the dictionaries are computed after it has been emptied.  /repo/flavio/measurements.py:143-152. -/
def writeFile (E : Env V R) (reg : Dict V (Meas V R)) (content : Option (File V O)) (ms : List (MArg V R)) :
    Except PyErr Unit × Option (File V O) :=
  match ms.mapM (resolve reg) with
  | .error e => (.error e, content)
  | .ok insts =>
    match insts.mapM (getYamlDict E) with
    | .error e => (.error e, none)
    | .ok docs => (.ok (), some (.many docs))

end Verif.MeasFiles
