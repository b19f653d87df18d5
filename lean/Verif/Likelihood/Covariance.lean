import Verif.Likelihood.Model

/-!
# Model of `SMCovariance`, `MeasurementCovariance` and `FastLikelihood`
-/
namespace Verif.Likelihood
open Verif.Py Verif.Constraints

variable {P R V L : Type} [DecidableEq P] [DecidableEq R]

/-- numpy arrays of dimension 0, 1, 2 (rows all of the same length).
(Used for `smLoadDict`, /repo/flavio/statistics/likelihood.py:405-427.) -/
inductive NArr (V : Type) where
  | scalar (v : V)
  | vec (l : List V)
  | mat (rows : List (List V))
  deriving DecidableEq

/-- `[l[i] for i in perm]` / fancy indexing of a list, with `IndexError`.
(Used for `permute2`, /repo/flavio/statistics/likelihood.py:405-427.) -/
def takeIdx {α : Type} (l : List α) (perm : List Nat) : Except PyErr (List α) :=
  perm.mapM fun i => match l[i]? with
    | some x => .ok x
    | none => .error .indexError

/-- `a[perm][:, perm]` (`IndexError` unless two-dimensional and in range).
(Used for `smLoadDict`, /repo/flavio/statistics/likelihood.py:405-427.) -/
def permute2 (perm : List Nat) : NArr V → Except PyErr (List (List V))
  | .mat rows => takeIdx rows perm >>= fun rs => rs.mapM fun r => takeIdx r perm
  | _ => .error .indexError

/-- `a[perm]` for a one-dimensional array.
(Used for `expLoadDict`, /repo/flavio/statistics/likelihood.py:538-566.) -/
def permute1 (perm : List Nat) : NArr V → Except PyErr (List V)
  | .vec l => takeIdx l perm
  | _ => .error .indexError

/-- `[obs.index(o) for o in observables]`, `ValueError` if an element is missing.
/repo/flavio/statistics/likelihood.py:416-418, 552-554. -/
def permutation (obs : List P) (observables : List P) : Except PyErr (List Nat) :=
  observables.mapM fun o => if o ∈ obs then .ok (obs.idxOf o) else .error .valueError

/-- `a[0, 0]` of a nested list. (Used for `smLoadDict`, /repo/flavio/statistics/likelihood.py:405-427.) -/
def item00 (m : List (List V)) : Except PyErr V :=
  match m with
  | (v :: _) :: _ => .ok v
  | _ => .error .indexError

/-- `SMCovariance.load_dict`: the new value of `_cov`.
/repo/flavio/statistics/likelihood.py:405-427. -/
def smLoadDict (observables : List P) (obs : List P) (cov : NArr V) : Except PyErr (NArr V) :=
  permutation obs observables >>= fun perm =>
  if perm.length = 1 then
    match cov with
    | .scalar v => .ok (.scalar v)
    | cov => permute2 perm cov >>= fun m => item00 m >>= fun v => .ok (.scalar v)
  else permute2 perm cov >>= fun m => .ok (.mat m)

/-- `MeasurementCovariance.load_dict`: the new value of `_central_cov`.
/repo/flavio/statistics/likelihood.py:538-566. -/
def expLoadDict (observables : List P) (obs : List P) (central cov : NArr V) :
    Except PyErr (NArr V × NArr V) :=
  permutation obs observables >>= fun perm =>
  match central with
  | .scalar v => .ok (.scalar v, cov)
  | central => permute1 perm central >>= fun c => permute2 perm cov >>= fun m => .ok (.vec c, .mat m)

/-! ## `get`, `save`, `load` -/

/-- Calls on a covariance object; `C` is the type of the stored value.  `load` carries the result of
`load_dict` on the file's content.
(Used for `covStep`, /repo/flavio/statistics/likelihood.py:372-403, 504-536.) -/
inductive CovOp (C : Type) where
  | get (N : Nat) (force : Bool)
  | save
  | load (r : Except PyErr C)

/-- What the caller sees. (Used for `covStep`, /repo/flavio/statistics/likelihood.py:372-403, 504-536.) -/
inductive CovOut (C : Type) where
  /-- returned value, whether a computation was made (and with which `N`), whether a warning was issued -/
  | value (c : C) (computed : Option Nat) (warned : Bool)
  /-- content of the written file -/
  | saved (c : C)
  | loaded
  | raised (e : PyErr)

/-- One call.  `compute k N` is the value computed by `compute(N)` at the `k`-th call of the history
(random numbers make it different each time); `dflt` is the default of `N` (100 for `SMCovariance`,
5000 for `MeasurementCovariance`).
/repo/flavio/statistics/likelihood.py:372-403, 504-536. -/
def covStep {C : Type} (compute : Nat → Nat → Except PyErr C) (dflt : Nat) (k : Nat)
    (s : Option C) : CovOp C → Option C × CovOut C
  | .get N force =>
    match s, force with
    | some c, false => (some c, .value c none (decide (N ≠ dflt)))
    | s, _ => match compute k N with
      | .error e => (s, .raised e)
      | .ok c => (some c, .value c (some N) false)
  | .save => match s with
    | none => (none, .raised .valueError)
    | some c => (some c, .saved c)
  | .load r => match r with
    | .ok c => (some c, .loaded)
    | .error e => (s, .raised e)

/-- A history of calls on a new object (`_cov = None`): final state and outputs.
Used for /repo/flavio/statistics/likelihood.py:361-430. -/
def covRun {C : Type} (compute : Nat → Nat → Except PyErr C) (dflt : Nat) :
    Nat → Option C → List (CovOp C) → Option C × List (CovOut C)
  | _, s, [] => (s, [])
  | k, s, op :: ops =>
    let r := covStep compute dflt k s op
    let t := covRun compute dflt (k + 1) r.1 ops
    (t.1, r.2 :: t.2)

/-! ## `FastLikelihood` -/

/-- Name of the pseudo-measurement.  /repo/flavio/statistics/likelihood.py:686. -/
def pseudoName (name : String) : String :=
  "Pseudo-measurement for FastLikelihood instance: " ++ name

/-- A `FastLikelihood` object: name, observables and whether `_likelihood` is set.
/repo/flavio/statistics/likelihood.py:632-661. -/
structure Fast (P : Type) where
  name : String
  observables : List P
  made : Bool

/-- Creation of the pseudo-measurement in `make_measurement`: a new `Measurement` registered under
the name (replacing an older one), with one constraint `c` on all observables.
/repo/flavio/statistics/likelihood.py:686-693. -/
def makePseudo (reg : Reg P R) (fl : Fast P) (c : R) : Reg P R :=
  reg.set (pseudoName fl.name) (addConstraint CState.init fl.observables c)

/-- Arguments of the `Likelihood` built by `make_measurement`.
/repo/flavio/statistics/likelihood.py:694-700. -/
def fastArgs (fl : Fast P) : MLArgs P :=
  { observables := fl.observables, exclude := none, include_ := some [pseudoName fl.name],
    pseudo := true }

/-- `make_measurement` (the covariances are given): register the pseudo-measurement, then construct
the `Likelihood` (which checks the observables).
/repo/flavio/statistics/likelihood.py:682-700. -/
def makeMeasurement (ord : List String → List String) (reg : Reg P R) (fl : Fast P) (c : R) :
    Reg P R × Except PyErr (Fast P) :=
  let reg' := makePseudo reg fl c
  (reg', mlInit ord reg' (fastArgs fl) >>= fun _ => .ok { fl with made := true })

/-- The property `likelihood`.  /repo/flavio/statistics/likelihood.py:702-706. -/
def fastLikelihood (fl : Fast P) : Except PyErr (MLArgs P) :=
  if fl.made then .ok (fastArgs fl) else .error .valueError

/-- `FastLikelihood.log_likelihood` as a function of the predictions.
/repo/flavio/statistics/likelihood.py:708-715. -/
def fastLogLikelihood [AddCommMonoid L] (f : R → PdfArg V → Except PyErr L)
    (ord : List String → List String) (reg : Reg P R) (fl : Fast P) (pred : P → Option V)
    (ex : Option (List P)) : Except PyErr L :=
  fastLikelihood fl >>= fun a => logLikelihoodPred f ord reg a pred ex

/-- Histories of the measurement registry: creating a measurement, adding a constraint to a
registered one, removing one, and `make_measurement` of some `FastLikelihood`.
Used for /repo/flavio/classes.py:20-69. -/
inductive RegOp (P R : Type) where
  | create (name : String)
  | call (name : String) (op : Op P R)
  | del (name : String)
  | fast (fl : Fast P) (c : R)

/-- A method call on the object registered under `n` (nothing happens if there is none).
Used for /repo/flavio/classes.py:20-69. -/
def regCall (reg : Reg P R) (n : String) (op : Op P R) : Reg P R :=
  match reg.get? n with
  | none => reg
  | some s => reg.set n (step s op)

/-- Effect on the registry. Used for /repo/flavio/classes.py:20-69. -/
def regStep (reg : Reg P R) : RegOp P R → Reg P R
  | .create n => reg.set n CState.init
  | .call n op => regCall reg n op
  | .del n => reg.erase n
  | .fast fl c => makePseudo reg fl c

/-- Registry after a history. Used for /repo/flavio/classes.py:20-69. -/
def regRun (h : List (RegOp P R)) : Reg P R := h.foldl regStep []

end Verif.Likelihood
