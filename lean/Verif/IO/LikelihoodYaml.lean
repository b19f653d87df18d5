import Verif.IO.Model
import Verif.Likelihood.Model
import Verif.Observables.Model
/-!
# Model of the YAML export and import of likelihoods (`flavio.io.instanceio.YAMLLoadable`)

The checks of the `voluptuous` package are modelled as functions on values: a schema goes through the items of
the dictionary; `Invalid` errors are collected and raised at the end, other exceptions leave at once.
The YAML library is taken to reproduce plain data (strings, numbers, lists, dictionaries).
-/
set_option linter.unusedVariables false
namespace Verif.LikelihoodYaml
open Verif.Py Verif.Constraints Verif.IO Verif.Likelihood
open Verif.Observables (ObsSpec FmtOut PVal argumentFormat)

/-- An observable as kept in a likelihood: a name, or a tuple of a name and values
(/repo/flavio/statistics/likelihood.py:48,59). -/
inductive Obs (V : Type) where
  | plain (n : String)
  | call (n : String) (xs : List V)
  deriving DecidableEq

/-- The same as an argument of `argument_format` (/repo/flavio/io/instanceio.py:53-60). -/
def Obs.spec {V : Type} : Obs V → ObsSpec V
  | .plain n => .str n
  | .call n xs => .tup n xs

/-- The value in a tuple (/repo/flavio/classes.py:616). -/
def numOf {V : Type} : PVal V → Except PyErr V
  | .num x => .ok x
  | .name _ => .error .typeError

/-- The tuple form returned by `argument_format`.  Simplification: values that are strings are rejected here
(the code would fail later) (/repo/flavio/io/instanceio.py:53-55). -/
def Obs.ofOut {V : Type} : FmtOut V → Except PyErr (Obs V)
  | .str n => .ok (.plain n)
  | .tup (.name n :: xs) => (xs.mapM numOf).map (.call n)
  | _ => .error .typeError

/-- The dictionary form returned by `argument_format` (/repo/flavio/io/instanceio.py:58-60). -/
def specOfOut {V : Type} : FmtOut V → Except PyErr (ObsSpec V)
  | .dict d => .ok (.dict d)
  | _ => .error .typeError

/-- Values of attributes and of YAML dictionaries. `S` are `ParameterConstraints` objects, `E` entries of their
YAML lists; `opaque` is anything else (/repo/flavio/io/instanceio.py:38-45). -/
inductive Val (V S E : Type) where
  | none
  | flag (b : Bool)
  | word (s : String)
  | strs (l : List String)
  | obs (l : List (Obs V))
  | specs (l : List (ObsSpec V))
  | entries (l : List E)
  | par (s : S)
  | opaque

/-- `voluptuous.Invalid`, or another exception (/repo/flavio/io/instanceio.py:27-31). -/
inductive YErr where
  | invalid
  | raised (e : PyErr)
  deriving DecidableEq

variable {V S E R : Type} [DecidableEq V]

/-- A part of a schema (/repo/flavio/io/instanceio.py:14-25). -/
abbrev Validator (V S E : Type) := Val V S E → Except YErr (Val V S E)

/-- A function used as validator: `ValueError` becomes `Invalid`, other exceptions propagate
(`voluptuous`; used in /repo/flavio/statistics/likelihood.py:28-38). -/
def callable (f : Val V S E → Except PyErr (Val V S E)) : Validator V S E := fun v =>
  match f v with
  | .ok r => .ok r
  | .error .valueError => .error .invalid
  | .error e => .error (.raised e)

/-- `vol.All` (used in /repo/flavio/statistics/likelihood.py:28-38). -/
def allOf (f g : Validator V S E) : Validator V S E := fun v => f v >>= g

/-- `vol.Any` (used in /repo/flavio/statistics/likelihood.py:28-38). -/
def anyOf (f g : Validator V S E) : Validator V S E := fun v =>
  match f v with
  | .error .invalid => g v
  | r => r

/-- The literal `None` in a schema (used in /repo/flavio/statistics/likelihood.py:30). -/
def isNone : Validator V S E
  | .none => .ok .none
  | _ => .error .invalid

/-- The type `str` in a schema (used in /repo/flavio/statistics/likelihood.py:613). -/
def isStr : Validator V S E
  | .word s => .ok (.word s)
  | _ => .error .invalid

/-- `v == []` (/repo/flavio/io/instanceio.py:44). -/
def Val.isEmptyList : Val V S E → Bool
  | .strs l => l.isEmpty
  | .obs l => l.isEmpty
  | .specs l => l.isEmpty
  | .entries l => l.isEmpty
  | _ => false

/-- The schema `[str]` (used in /repo/flavio/statistics/likelihood.py:30). -/
def listStr : Validator V S E := fun v =>
  match v with
  | .strs l => .ok (.strs l)
  | v => if v.isEmptyList then .ok (.strs []) else .error .invalid

/-- The schema `[dict]` (used in /repo/flavio/statistics/likelihood.py:212).  Observable dictionaries are dictionaries
too; they are not distinguished further, since they are not valid constraints. -/
def listDict : Validator V S E := fun v =>
  match v with
  | .entries l => .ok (.entries l)
  | v => if v.isEmptyList then .ok (.entries []) else .error .invalid

/-- `ensurelist` (/repo/flavio/io/instanceio.py:67-74). -/
def ensurelistV : Val V S E → Except PyErr (Val V S E)
  | .strs l => .ok (.strs l)
  | .obs l => .ok (.obs l)
  | .specs l => .ok (.specs l)
  | .entries l => .ok (.entries l)
  | .none => .ok (.strs [])
  | _ => .error .valueError

/-- Where the validators get their information: arguments of the registered observables, the default parameters, the
YAML difference to the defaults and its inverse (properties C18 and C58), and `all_parameters`
(/repo/flavio/io/instanceio.py:53-83). -/
structure Ctx (S E : Type) where
  args : String → Option (Option (List String))
  dflt : S
  diff : S → List E
  coerce : List E → Except PyErr S
  allPars : S → List String

/-- The elements of a list as arguments of `argument_format`; `none` if the value is not a list of such
(/repo/flavio/io/instanceio.py:53-60). -/
def Val.toSpecs : Val V S E → Option (List (ObsSpec V))
  | .strs l => some (l.map .str)
  | .obs l => some (l.map Obs.spec)
  | .specs l => some l
  | .entries [] => some []
  | _ => Option.none

/-- Conversion of an exception of a function called by `voluptuous`
(used in /repo/flavio/statistics/likelihood.py:29,35). -/
def called {A : Type} : Except PyErr A → Except YErr A
  | .ok a => .ok a
  | .error .valueError => .error .invalid
  | .error e => .error (.raised e)

/-- `[coerce_observable_dict]` (/repo/flavio/statistics/likelihood.py:35).  If several elements are not accepted, the
exception of the first one is taken. -/
def obsDicts (c : Ctx S E) : Validator V S E := fun v =>
  match v.toSpecs with
  | none => .error .invalid
  | some l => do
      let ds ← l.mapM fun o => called (argumentFormat c.args o .dict >>= specOfOut)
      .ok (.specs ds)

/-- `vol.All([coerce_observable_tuple], list_deduplicate)` (/repo/flavio/statistics/likelihood.py:29). -/
def obsTuples (c : Ctx S E) : Validator V S E := fun v =>
  match v.toSpecs with
  | none => .error .invalid
  | some l => do
      let os ← l.mapM fun o => called (argumentFormat c.args o .tuple >>= Obs.ofOut)
      .ok (.obs (listDeduplicate os))

/-- `get_par_diff` as a function of any value: only `ParameterConstraints` objects have the method it calls
(/repo/flavio/io/instanceio.py:77-83). -/
def parDiff (c : Ctx S E) : Val V S E → Except PyErr (Val V S E)
  | .par s => .ok (.entries (c.diff s))
  | _ => .error .attributeError

/-- `coerce_par_obj` (/repo/flavio/io/instanceio.py:59-64). -/
def coercePar (c : Ctx S E) : Val V S E → Except PyErr (Val V S E)
  | .entries l => (c.coerce l).map .par
  | _ => .error .typeError

/-- What is done with keys that are not in the schema (/repo/flavio/io/instanceio.py:20,25). -/
inductive Extra where
  | allow | remove

/-- One item of the dictionary (`voluptuous`; /repo/flavio/io/instanceio.py:31,42). -/
def schemaStep (x : Extra) (schema : Dict String (Validator V S E)) (st : Bool × Dict String (Val V S E))
    (kv : String × Val V S E) : Except YErr (Bool × Dict String (Val V S E)) :=
  match schema.get? kv.1 with
  | none => match x with
    | .allow => .ok (st.1, st.2 ++ [kv])
    | .remove => .ok st
  | some f => match f kv.2 with
    | .ok v => .ok (st.1, st.2 ++ [(kv.1, v)])
    | .error .invalid => .ok (true, st.2)
    | .error e => .error e

/-- Applying a schema to a dictionary; no key is required (`voluptuous`; /repo/flavio/io/instanceio.py:31,42). -/
def applySchema (x : Extra) (schema : Dict String (Validator V S E)) (d : Dict String (Val V S E)) :
    Except YErr (Dict String (Val V S E)) := do
  let st ← d.foldlM (schemaStep x schema) (false, [])
  if st.1 then .error .invalid else .ok st.2

/-- Is the value `None` or an empty list? (/repo/flavio/io/instanceio.py:44) -/
def Val.dropped : Val V S E → Bool
  | .none => true
  | v => v.isEmptyList

/-- `get_yaml_dict` for an object with the given attributes (/repo/flavio/io/instanceio.py:38-45). -/
def getYamlDict (schema : Dict String (Validator V S E)) (attrs : Dict String (Val V S E)) :
    Except YErr (Dict String (Val V S E)) := do
  let d ← applySchema .remove schema attrs
  .ok (d.filter fun e => !e.2.dropped)

/-- An attribute that is `None` or a list of strings (/repo/flavio/statistics/likelihood.py:60-61). -/
def optStrs : Option (List String) → Val V S E
  | none => .none
  | some l => .strs l

/-! ## `MeasurementLikelihood` -/

/-- `MeasurementLikelihood._input_schema_dict` (/repo/flavio/statistics/likelihood.py:28-32). -/
def mlInput (c : Ctx S E) : Dict String (Validator V S E) :=
  [("observables", obsTuples c), ("exclude_measurements", anyOf isNone listStr),
   ("include_measurements", anyOf isNone listStr)]

/-- `MeasurementLikelihood._output_schema_dict` (/repo/flavio/statistics/likelihood.py:34-38). -/
def mlOutput (c : Ctx S E) : Dict String (Validator V S E) :=
  [("observables", obsDicts c), ("exclude_measurements", allOf (callable ensurelistV) listStr),
   ("include_measurements", allOf (callable ensurelistV) listStr)]

/-- The attributes of a `MeasurementLikelihood` (/repo/flavio/statistics/likelihood.py:59-64). -/
def mlAttrs (a : MLArgs (Obs V)) : Dict String (Val V S E) :=
  [("observables", .obs a.observables), ("exclude_measurements", optStrs a.exclude),
   ("include_measurements", optStrs a.include_), ("include_pseudo_measurements", .flag a.pseudo),
   ("_predictions_cache_hash", .opaque), ("_predictions_cache_values", .opaque)]

/-- `MeasurementLikelihood.get_yaml_dict` (/repo/flavio/io/instanceio.py:38-45). -/
def mlDump (c : Ctx S E) (a : MLArgs (Obs V)) : Except YErr (Dict String (Val V S E)) :=
  getYamlDict (mlOutput c) (mlAttrs a)

/-- A keyword argument that is `None` or a list of strings, with default `None`.  Other values (which the schemas do
not let through) are not modelled and raise (/repo/flavio/statistics/likelihood.py:41-42). -/
def argStrs (kw : Dict String (Val V S E)) (k : String) : Except PyErr (Option (List String)) :=
  match kw.get? k with
  | none => .ok none
  | some .none => .ok none
  | some (.strs l) => .ok (some l)
  | some _ => .error .typeError

/-- The keyword argument `observables`; missing or not a list: `TypeError`
(/repo/flavio/statistics/likelihood.py:40,72). -/
def argObs (kw : Dict String (Val V S E)) : Except PyErr (List (Obs V)) :=
  match kw.get? "observables" with
  | some (.obs l) => .ok l
  | _ => .error .typeError

/-- The keyword argument `include_pseudo_measurements` (/repo/flavio/statistics/likelihood.py:43). -/
def argFlag (kw : Dict String (Val V S E)) : Except PyErr Bool :=
  match kw.get? "include_pseudo_measurements" with
  | none => .ok false
  | some (.flag b) => .ok b
  | some _ => .error .typeError

/-- Unknown keyword arguments: `TypeError` (/repo/flavio/io/instanceio.py:31). -/
def checkKw (known : List String) (kw : Dict String (Val V S E)) : Except PyErr Unit :=
  if kw.all fun e => decide (e.1 ∈ known) then .ok () else .error .typeError

/-- `MeasurementLikelihood(**kw)` (/repo/flavio/statistics/likelihood.py:40-75). -/
def mlNew (ord : List String → List String) (reg : Reg (Obs V) R) (kw : Dict String (Val V S E)) :
    Except PyErr (MLArgs (Obs V)) := do
  checkKw ["observables", "exclude_measurements", "include_measurements", "include_pseudo_measurements"] kw
  let o ← argObs kw
  let e ← argStrs kw "exclude_measurements"
  let i ← argStrs kw "include_measurements"
  let p ← argFlag kw
  mlInit ord reg ⟨o, e, i, p⟩
  .ok ⟨o, e, i, p⟩

/-- An exception of the constructor (/repo/flavio/io/instanceio.py:31). -/
def lift {A : Type} : Except PyErr A → Except YErr A
  | .ok a => .ok a
  | .error e => .error (.raised e)

/-- `MeasurementLikelihood.load_dict` (/repo/flavio/io/instanceio.py:27-31). -/
def mlLoad (c : Ctx S E) (ord : List String → List String) (reg : Reg (Obs V) R) (d : Dict String (Val V S E)) :
    Except YErr (MLArgs (Obs V)) := do
  let kw ← applySchema .allow (mlInput c) d
  lift (mlNew ord reg kw)

/-! ## `ParameterLikelihood` -/

/-- The attributes of a `ParameterLikelihood` that come from the arguments
(/repo/flavio/statistics/likelihood.py:233-234). -/
structure PL (S : Type) where
  par : S
  parameters : Option (List String)

/-- `ParameterLikelihood._input_schema_dict` (/repo/flavio/statistics/likelihood.py:211-214). -/
def plInput (c : Ctx S E) : Dict String (Validator V S E) :=
  [("par_obj", allOf listDict (callable (coercePar c))), ("parameters", anyOf isNone listStr)]

/-- `ParameterLikelihood._output_schema_dict` (/repo/flavio/statistics/likelihood.py:216-219). -/
def plOutput (c : Ctx S E) : Dict String (Validator V S E) :=
  [("par_obj", callable (parDiff c)), ("parameters", anyOf (callable ensurelistV) listStr)]

/-- The attributes of a `ParameterLikelihood` (/repo/flavio/statistics/likelihood.py:233-235). -/
def plAttrs (o : PL S) : Dict String (Val V S E) :=
  [("par_obj", .par o.par), ("parameters", optStrs o.parameters), ("parameters_central", .opaque)]

/-- `ParameterLikelihood.get_yaml_dict` (/repo/flavio/io/instanceio.py:38-45). -/
def plDump (V : Type) (c : Ctx S E) (o : PL S) [DecidableEq V] : Except YErr (Dict String (Val V S E)) :=
  getYamlDict (plOutput c) (plAttrs o)

/-- The keyword argument `par_obj` (/repo/flavio/statistics/likelihood.py:222). -/
def argPar (c : Ctx S E) (kw : Dict String (Val V S E)) : Except PyErr S :=
  match kw.get? "par_obj" with
  | none => .ok c.dflt
  | some (.par s) => .ok s
  | some _ => .error .attributeError

/-- `ParameterLikelihood(**kw)` (/repo/flavio/statistics/likelihood.py:221-235). -/
def plNew (c : Ctx S E) (kw : Dict String (Val V S E)) : Except PyErr (PL S) := do
  checkKw ["par_obj", "parameters"] kw
  let s ← argPar c kw
  let p ← argStrs kw "parameters"
  .ok ⟨s, p⟩

/-- `ParameterLikelihood.load_dict` (/repo/flavio/io/instanceio.py:27-31). -/
def plLoad (c : Ctx S E) (d : Dict String (Val V S E)) : Except YErr (PL S) := do
  let kw ← applySchema .allow (plInput c) d
  lift (plNew c kw)

/-! ## `Likelihood` -/

/-- A `Likelihood` (/repo/flavio/statistics/likelihood.py:292-317). -/
structure Lik (V S : Type) where
  par : S
  fit : List String
  ml : MLArgs (Obs V)

/-- `Likelihood._input_schema_dict` (/repo/flavio/statistics/likelihood.py:276-282). -/
def likInput (c : Ctx S E) : Dict String (Validator V S E) :=
  [("par_obj", allOf listDict (callable (coercePar c))), ("fit_parameters", anyOf (callable ensurelistV) listStr),
   ("observables", obsTuples c), ("exclude_measurements", anyOf (callable ensurelistV) listStr),
   ("include_measurements", anyOf (callable ensurelistV) listStr)]

/-- `Likelihood._output_schema_dict` (/repo/flavio/statistics/likelihood.py:284-290). -/
def likOutput (c : Ctx S E) : Dict String (Validator V S E) :=
  [("par_obj", allOf listDict (callable (coercePar c))), ("fit_parameters", callable (parDiff c)),
   ("observables", obsDicts c), ("exclude_measurements", anyOf (callable ensurelistV) listStr),
   ("include_measurements", anyOf (callable ensurelistV) listStr)]

/-- The attributes of a `Likelihood` (/repo/flavio/statistics/likelihood.py:300-317). -/
def likAttrs (o : Lik V S) : Dict String (Val V S E) :=
  [("par_obj", .par o.par), ("parameters_central", .opaque), ("fit_parameters", .strs o.fit),
   ("observables", .obs o.ml.observables), ("exclude_measurements", optStrs o.ml.exclude),
   ("include_measurements", optStrs o.ml.include_), ("measurement_likelihood", .opaque),
   ("parameter_likelihood", .opaque)]

/-- `Likelihood.get_yaml_dict` (/repo/flavio/io/instanceio.py:38-45). -/
def likDump (c : Ctx S E) (o : Lik V S) : Except YErr (Dict String (Val V S E)) :=
  getYamlDict (likOutput c) (likAttrs o)

/-- `Likelihood(**kw)` (/repo/flavio/statistics/likelihood.py:292-317). -/
def likNew (c : Ctx S E) (ord : List String → List String) (reg : Reg (Obs V) R) (kw : Dict String (Val V S E)) :
    Except PyErr (Lik V S) := do
  checkKw ["par_obj", "fit_parameters", "observables", "exclude_measurements", "include_measurements",
    "include_pseudo_measurements"] kw
  let s ← argPar c kw
  let f ← argStrs kw "fit_parameters"
  let o ← argObs kw
  let e ← argStrs kw "exclude_measurements"
  let i ← argStrs kw "include_measurements"
  let p ← argFlag kw
  mlInit ord reg ⟨o, e, i, p⟩
  .ok ⟨s, f.getD [], ⟨o, e, i, p⟩⟩

/-- `Likelihood.load_dict` (/repo/flavio/io/instanceio.py:27-31). -/
def likLoad (c : Ctx S E) (ord : List String → List String) (reg : Reg (Obs V) R) (d : Dict String (Val V S E)) :
    Except YErr (Lik V S) := do
  let kw ← applySchema .allow (likInput c) d
  lift (likNew c ord reg kw)

/-! ## `FastLikelihood` -/

/-- A `FastLikelihood` (/repo/flavio/statistics/likelihood.py:632-662). -/
structure Fast (V S : Type) where
  name : String
  par : S
  fit : List String
  nuisance : List String
  ml : MLArgs (Obs V)

/-- `FastLikelihood._input_schema_dict` (/repo/flavio/statistics/likelihood.py:612-620). -/
def fastInput (c : Ctx S E) : Dict String (Validator V S E) :=
  [("name", isStr), ("par_obj", allOf listDict (callable (coercePar c))), ("fit_parameters", anyOf isNone listStr),
   ("nuisance_parameters", anyOf isNone listStr), ("observables", obsTuples c),
   ("exclude_measurements", anyOf isNone listStr), ("include_measurements", anyOf isNone listStr)]

/-- `FastLikelihood._output_schema_dict` (/repo/flavio/statistics/likelihood.py:622-630). -/
def fastOutput (c : Ctx S E) : Dict String (Validator V S E) :=
  [("name", isStr), ("par_obj", callable (parDiff c)), ("fit_parameters", anyOf (callable ensurelistV) listStr),
   ("nuisance_parameters", anyOf (callable ensurelistV) listStr), ("observables", obsDicts c),
   ("exclude_measurements", anyOf (callable ensurelistV) listStr),
   ("include_measurements", anyOf (callable ensurelistV) listStr)]

/-- The attributes of a `FastLikelihood` (/repo/flavio/statistics/likelihood.py:640-662). -/
def fastAttrs (o : Fast V S) : Dict String (Val V S E) :=
  [("par_obj", .par o.par), ("parameters_central", .opaque), ("fit_parameters", .strs o.fit),
   ("nuisance_parameters", .strs o.nuisance),
   ("observables", .obs o.ml.observables), ("exclude_measurements", optStrs o.ml.exclude),
   ("include_measurements", optStrs o.ml.include_), ("full_measurement_likelihood", .opaque),
   ("sm_covariance", .opaque), ("exp_covariance", .opaque), ("pseudo_measurement", .opaque),
   ("_likelihood", .opaque), ("name", .word o.name)]

/-- `FastLikelihood.get_yaml_dict` (/repo/flavio/io/instanceio.py:38-45). -/
def fastDump (c : Ctx S E) (o : Fast V S) : Except YErr (Dict String (Val V S E)) :=
  getYamlDict (fastOutput c) (fastAttrs o)

/-- The keyword argument `nuisance_parameters`: `'all'` (also if missing) means all parameters
(/repo/flavio/statistics/likelihood.py:643-646). -/
def argNuisance (c : Ctx S E) (s : S) (kw : Dict String (Val V S E)) : Except PyErr (List String) :=
  match kw.get? "nuisance_parameters" with
  | none => .ok (c.allPars s)
  | some (.word w) => if w = "all" then .ok (c.allPars s) else .error .typeError
  | some .none => .ok []
  | some (.strs l) => .ok l
  | some _ => .error .typeError

/-- The keyword argument `name`, required (/repo/flavio/statistics/likelihood.py:632). -/
def argName (kw : Dict String (Val V S E)) : Except PyErr String :=
  match kw.get? "name" with
  | some (.word s) => .ok s
  | _ => .error .typeError

/-- `FastLikelihood(**kw)` (the registry of instances is the subject of C13)
(/repo/flavio/statistics/likelihood.py:632-662). -/
def fastNew (c : Ctx S E) (ord : List String → List String) (reg : Reg (Obs V) R) (kw : Dict String (Val V S E)) :
    Except PyErr (Fast V S) := do
  checkKw ["name", "par_obj", "fit_parameters", "nuisance_parameters", "observables", "exclude_measurements",
    "include_measurements"] kw
  let n ← argName kw
  let s ← argPar c kw
  let f ← argStrs kw "fit_parameters"
  let nu ← argNuisance c s kw
  let o ← argObs kw
  let e ← argStrs kw "exclude_measurements"
  let i ← argStrs kw "include_measurements"
  mlInit ord reg ⟨o, e, i, false⟩
  .ok ⟨n, s, f.getD [], nu, ⟨o, e, i, false⟩⟩

/-- `FastLikelihood.load_dict` (/repo/flavio/io/instanceio.py:27-31). -/
def fastLoad (c : Ctx S E) (ord : List String → List String) (reg : Reg (Obs V) R) (d : Dict String (Val V S E)) :
    Except YErr (Fast V S) := do
  let kw ← applySchema .allow (fastInput c) d
  lift (fastNew c ord reg kw)

end Verif.LikelihoodYaml
