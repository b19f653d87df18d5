import Verif.Likelihood.Covariance

/-!
# Model of `flavio.functions`
-/
namespace Verif.Functions
open Verif.Py Verif.Constraints Verif.Likelihood

/-! ## Dependency tracking -/

/-- A prediction function seen from the parameter dictionary: it reads values (and may choose what to
read next depending on them), copies dictionaries and assigns entries.  Dictionaries are numbered in
order of creation, the argument being number 0. (Used for `runAware`, /repo/flavio/functions.py:105-126.) -/
inductive Prog (K V A : Type) where
  | ret (a : A)
  | raise (e : PyErr)
  /-- `par[k]` (`KeyError` if missing) -/
  | read (h : Nat) (k : K) (f : V → Prog K V A)
  /-- `par.get(k)` or `k in par` -/
  | get (h : Nat) (k : K) (f : Option V → Prog K V A)
  /-- `par.copy()` -/
  | copy (h : Nat) (f : Nat → Prog K V A)
  /-- `{k: ... for k, v in par.items()}` as in `conjugate_par`: a new ordinary dictionary.
  /repo/flavio/physics/common.py:5-12 -/
  | comprehension (h : Nat) (g : K → V → V) (f : Nat → Prog K V A)
  /-- `par[k] = v` -/
  | set (h : Nat) (k : K) (v : V) (f : Prog K V A)

variable {K V A : Type} [DecidableEq K]

/-- `{k: g(k, v) for k, v in d.items()}`. (Used for `runAware`, /repo/flavio/functions.py:105-126.) -/
def mapDict (g : K → V → V) (d : Dict K V) : Dict K V := d.map fun e => (e.1, g e.1 e.2)

/-- Execution with ordinary dictionaries (a non-existing number is a `NameError`-like bug of the
program, `AttributeError` here). Used for /repo/flavio/functions.py:105-140. -/
def runPlain : Prog K V A → List (Dict K V) → Except PyErr A
  | .ret a, _ => .ok a
  | .raise e, _ => .error e
  | .read h k f, H => match H[h]? with
    | none => .error .attributeError
    | some d => match d.get? k with
      | none => .error .keyError
      | some v => runPlain (f v) H
  | .get h k f, H => match H[h]? with
    | none => .error .attributeError
    | some d => runPlain (f (d.get? k)) H
  | .copy h f, H => match H[h]? with
    | none => .error .attributeError
    | some d => runPlain (f H.length) (H ++ [d])
  | .comprehension h g f, H => match H[h]? with
    | none => .error .attributeError
    | some d => runPlain (f H.length) (H ++ [mapDict g d])
  | .set h k v f, H => match H[h]? with
    | none => .error .attributeError
    | some d => runPlain f (H.set h (d.set k v))

/-- Dictionary objects during a tracked execution: content and whether it is an `AwareDict`.
(Used for `runAware`, /repo/flavio/functions.py:105-126.) -/
abbrev AHeap (K V : Type) := List (Dict K V × Bool)

/-- Execution with an `AwareDict`: `__getitem__` of an `AwareDict` records the key in the (shared)
set `akeys`; `get`, `in` and `items` do not; `copy` of an `AwareDict` is built from the *original*
dictionary `orig` (attribute `d`), not from the current content.
/repo/flavio/functions.py:105-126. -/
def runAware (orig : Dict K V) : Prog K V A → AHeap K V → List K → Except PyErr A × List K
  | .ret a, _, ks => (.ok a, ks)
  | .raise e, _, ks => (.error e, ks)
  | .read h k f, H, ks => match H[h]? with
    | none => (.error .attributeError, ks)
    | some d =>
      let ks' := if d.2 then k :: ks else ks
      match d.1.get? k with
      | none => (.error .keyError, ks')
      | some v => runAware orig (f v) H ks'
  | .get h k f, H, ks => match H[h]? with
    | none => (.error .attributeError, ks)
    | some d => runAware orig (f (d.1.get? k)) H ks
  | .copy h f, H, ks => match H[h]? with
    | none => (.error .attributeError, ks)
    | some d => runAware orig (f H.length) (H ++ [if d.2 then (orig, true) else d]) ks
  | .comprehension h g f, H, ks => match H[h]? with
    | none => (.error .attributeError, ks)
    | some d => runAware orig (f H.length) (H ++ [(mapDict g d.1, false)]) ks
  | .set h k v f, H, ks => match H[h]? with
    | none => (.error .attributeError, ks)
    | some d => runAware orig f (H.set h (d.1.set k v, d.2)) ks

/-- `get_dependent_parameters_sm`: run the prediction on an `AwareDict` of the central values, return
the recorded keys that are names of existing `Parameter`s.  (The set is a list here.)
/repo/flavio/functions.py:141-152. -/
def getDependentParametersSM (prog : Prog K V A) (central : Dict K V) (existing : List K) :
    Except PyErr (List K) :=
  match runAware central prog [(central, true)] [] with
  | (.error e, _) => .error e
  | (.ok _, ks) => .ok (ks.filter fun k => decide (k ∈ existing))

/-- The prediction on an ordinary dictionary (`obs.prediction_par(par, wc_sm)`).
Used for /repo/flavio/functions.py:141-153. -/
def predictionPar (prog : Prog K V A) (par : Dict K V) : Except PyErr A := runPlain prog [par]

/-! ## Error budget -/

variable {P R : Type} [DecidableEq P] [DecidableEq R]

/-- `v[value].append(key)` on a `defaultdict(list)`.  /repo/flavio/functions.py:199-201. -/
def groupAppend (v : Dict R (List P)) (c : R) (p : P) : Dict R (List P) :=
  match v.get? c with
  | none => v.set c [p]
  | some l => v.set c (l ++ [p])

/-- Step 2 of `sm_error_budget`: the groups of dependent parameters with the same constraint object
(`id(default_parameters._parameters[p][1])`); `dep` is the set of dependent parameters in some order.
/repo/flavio/functions.py:198-202. -/
def budgetGroups (s : CState P R) (dep : List P) : Except PyErr (List (List P)) :=
  dep.mapM (fun p => s.parameters.getItem p >>= fun e => .ok (e.2, p)) >>= fun ps =>
  .ok ((ps.foldl (fun v e => groupAppend v e.1 e.2) []).map Prod.snd)

/-- Key of the returned dictionary: the name itself or a tuple of names.
/repo/flavio/functions.py:219-224. -/
inductive BudgetKey (P : Type) where
  | single (p : P)
  | tuple (ps : List P)
  deriving DecidableEq

/-- /repo/flavio/functions.py:219-224. -/
def budgetKey : List P → BudgetKey P
  | [p] => .single p
  | ps => .tuple ps

/-- `make_par_random`: central values with the random values of the given keys (`KeyError` if one is
missing).  /repo/flavio/functions.py:208-212. -/
def makeParRandom (central random : Dict P V) (keys : List P) : Except PyErr (Dict P V) :=
  keys.foldlM (fun d k => random.getItem k >>= fun v => .ok (d.set k v)) central

/-- Step 3 of `sm_error_budget`: `err samples` is `np.std(all_pred)/abs(pred_central)` for the list of
dictionaries at which the prediction is evaluated.  /repo/flavio/functions.py:207-226. -/
def budgetErrors {E : Type} (err : List (Dict P V) → Except PyErr E) (central : Dict P V)
    (randoms : List (Dict P V)) (groups : List (List P)) : Except PyErr (Dict (BudgetKey P) E) :=
  groups.foldlM (fun d g =>
    randoms.mapM (fun r => makeParRandom central r g) >>= fun samples =>
    err samples >>= fun e => .ok (d.set (budgetKey g) e)) []

/-! ## Covariance: which parameters are varied -/

/-- `[{k: v[i] for k, v in par_random.items()} for i in range(N)]` (`IndexError` if too short).
/repo/flavio/functions.py:66, 274, 277. -/
def slices (N : Nat) (d : Dict P (List V)) : Except PyErr (List (Dict P V)) :=
  (List.range N).mapM fun i => d.mapM fun e => match e.2[i]? with
    | some v => .ok (e.1, v)
    | none => .error .indexError

/-- `par_random_some`.  /repo/flavio/functions.py:264-270. -/
def parRandomSome (N : Nat) (vary : List P) (random : Dict P (List V)) (central : Dict P V) :
    Dict P (List V) :=
  let par1 : Dict P (List V) := (central.filter fun e => decide (e.1 ∉ vary)).map
    fun e => (e.1, List.replicate N e.2)
  let par2 := random.filter fun e => decide (e.1 ∈ vary)
  par2.foldl (fun d e => d.set e.1 e.2) par1

/-- The dictionaries at which `sm_covariance` evaluates the predictions; `vary = none` is
`par_vary='all'`.  /repo/flavio/functions.py:272-277.  (Other strings as `par_vary` are not modelled:
`k in par_vary` would then be a substring test.) -/
def covarianceSamples (N : Nat) (vary : Option (List P)) (random : Dict P (List V))
    (central : Dict P V) : Except PyErr (List (Dict P V)) :=
  match vary with
  | none => slices N random
  | some vs => slices N (parRandomSome N vs random central)

/-! ## `combine_measurements` -/

/-- `np.isscalar(constraint.central_value)`. (Used for `oneDim`, /repo/flavio/functions.py:325-335.) -/
def isScalarCentral : Central V → Bool
  | .scalar _ => true
  | _ => false

/-- `len(constraint.central_value)` for list and array.
(Used for `oneDim`, /repo/flavio/functions.py:325-335.) -/
def centralLen : Central V → Nat
  | .scalar _ => 0
  | .list l => l.length
  | .array l => l.length

/-- The one-dimensional distribution of one measurement: `reduce c exclude` is
`constraint.reduce_dimension(exclude)`.  /repo/flavio/functions.py:325-335. -/
def oneDim {D : Type} (cv : R → Central V) (obj : R → D) (reduce : R → List Nat → Except PyErr D)
    (e : Nat × R) : Except PyErr D :=
  if isScalarCentral (cv e.2) then .ok (obj e.2)
  else reduce e.2 ((List.range (centralLen (cv e.2))).filter fun i => decide (i ≠ e.1))

/-- Whether a measurement is used.  /repo/flavio/functions.py:319-324. -/
def combineUses (inc : Option (List String)) (obs : P) (e : String × CState P R) : Bool :=
  !isPseudo e.1 && (match inc with | none => true | some l => decide (e.1 ∈ l)) &&
    decide (obs ∈ allParameters e.2)

/-- The list `constraints`.  /repo/flavio/functions.py:316-335. -/
def combineList {D : Type} (cv : R → Central V) (obj : R → D)
    (reduce : R → List Nat → Except PyErr D) (reg : Reg P R) (obs : P) (inc : Option (List String)) :
    Except PyErr (List D) :=
  (reg.filter (combineUses inc obs)).mapM fun e => e.2.parameters.getItem obs >>= oneDim cv obj reduce

/-- `combine_measurements`; `combine` is `combine_distributions`.
/repo/flavio/functions.py:311-347. -/
def combineMeasurements {D : Type} (cv : R → Central V) (obj : R → D)
    (reduce : R → List Nat → Except PyErr D) (combine : List D → Except PyErr D) (reg : Reg P R)
    (obs : P) (inc : Option (List String)) : Except PyErr D :=
  combineList cv obj reduce reg obs inc >>= fun ds =>
  match ds with
  | [] => .error .valueError
  | [d] => .ok d
  | ds => combine ds

/-! ## Worker pool -/

variable {X Y : Type}

/-- One worker finishing task `i`: its result (or exception) is put at position `i`.  A worker may be
interrupted and the chunk delivered again; that does not change the stored value.
(Used for `poolMap`, /repo/flavio/functions.py:79, 284.) -/
def poolStep (f : X → Except PyErr Y) (xs : List X) (res : List (Option (Except PyErr Y))) (i : Nat) :
    List (Option (Except PyErr Y)) :=
  match xs[i]? with
  | none => res
  | some x => res.set i (some (f x))

/-- The exception of a task, if it failed. (Used for `poolMap`, /repo/flavio/functions.py:79, 284.) -/
def taskError : Except PyErr Y → Option PyErr
  | .error e => some e
  | .ok _ => none

/-- The value in a result slot of the pool (an unfilled slot cannot occur once all tasks are done).
(Used for `poolMap`, /repo/flavio/functions.py:79, 284.) -/
def slotValue : Option (Except PyErr Y) → Except PyErr Y
  | some r => r
  | none => .error .runtimeError

/-- `pool.map(f, xs)` for a completion order `sched` of the tasks.  If a task failed, the exception of
the task that is first in `sched` is raised; otherwise the results are returned by position.
/repo/flavio/functions.py:79, 284; /repo/flavio/plots/plotfunctions.py:554. -/
def poolMap (f : X → Except PyErr Y) (xs : List X) (sched : List Nat) : Except PyErr (List Y) :=
  let res := sched.foldl (poolStep f xs) (List.replicate xs.length none)
  match (sched.filterMap fun i => xs[i]?).findSome? (fun x => taskError (f x)) with
  | some e => .error e
  | none => res.mapM slotValue

/-- The serial version: list comprehension / `map`. Used for /repo/flavio/functions.py:60-71. -/
def serialMap (f : X → Except PyErr Y) (xs : List X) : Except PyErr (List Y) := xs.mapM f

/-- One step of the conversion: `kwargs[obs_args[i]] = arg`.  /repo/flavio/functions.py:75-76. -/
def kwargStep (names : List String) (d : Dict String V) (e : V × Nat) : Except PyErr (Dict String V) :=
  match names[e.2]? with
  | some n => .ok (d.set n e.1)
  | none => .error .indexError

/-- Conversion of positional to keyword arguments in the parallel branch of `np_uncertainty`
(`TypeError` if the observable has no arguments, `IndexError` for too many values).
/repo/flavio/functions.py:74-77. -/
def argsToKwargs (obsArgs : Option (List String)) (args : List V) (kwargs : Dict String V) :
    Except PyErr (Dict String V) :=
  match obsArgs with
  | none => if args.isEmpty then .ok kwargs else .error .typeError
  | some names => args.zipIdx.foldlM (kwargStep names) kwargs

/-- Value of the keyword argument `n` (`TypeError` if it is missing). Used for /repo/flavio/functions.py:48-90. -/
def kwLookup (kwargs : Dict String V) (n : String) : Except PyErr V :=
  match kwargs.get? n with
  | some v => .ok v
  | none => .error .typeError

/-- Python's binding of positional and keyword arguments to the named parameters of a function
(without defaults): every name gets exactly one value, otherwise `TypeError`.
Used for /repo/flavio/functions.py:48-90. -/
def bindArgs (names : List String) (args : List V) (kwargs : Dict String V) :
    Except PyErr (List V) :=
  if names.length < args.length then .error .typeError
  else if kwargs.keys.any fun k => decide (k ∉ names.drop args.length) then .error .typeError
  else (names.drop args.length).mapM (kwLookup kwargs) >>= fun vs => .ok (args ++ vs)

end Verif.Functions
