import Verif.Constraints.Theorems
import Verif.Py.ExceptLemmas
import Mathlib.Algebra.BigOperators.Group.List.Basic

/-!
# Model of `flavio.statistics.likelihood`

`P` observable names, `R` references to distribution objects (as in `Verif.Constraints.Model`), `V`
values, `L` log-probabilities (a commutative monoid: floating point rounding of sums is not
modelled).  `flavio.Measurement.instances` is a dictionary from names to `Constraints` objects.
-/
namespace Verif.Likelihood
open Verif.Py Verif.Constraints

variable {P R V L : Type} [DecidableEq P] [DecidableEq R]

/-- `Measurement.instances`. (Used for `allMeasurements`, /repo/flavio/statistics/likelihood.py:119-130.) -/
abbrev Reg (P R : Type) := Dict String (CState P R)

/-- `name.split(' ')[0]`: everything before the first space.
(Used for `isPseudo`, /repo/flavio/statistics/likelihood.py:121.) -/
def firstWord (name : String) : String := String.ofList (name.toList.takeWhile fun c => c ≠ ' ')

/-- `m_name.split(' ')[0] == 'Pseudo-measurement'`.
/repo/flavio/statistics/likelihood.py:121, /repo/flavio/functions.py:319. -/
def isPseudo (name : String) : Bool := firstWord name == "Pseudo-measurement"

/-- The attributes of a `MeasurementLikelihood` set from the arguments.
/repo/flavio/statistics/likelihood.py:59-62. -/
structure MLArgs (P : Type) where
  observables : List P
  exclude : Option (List String)
  include_ : Option (List String)
  pseudo : Bool

/-- The list `all_measurements` built in `get_measurements`.
/repo/flavio/statistics/likelihood.py:119-130. -/
def allMeasurements (reg : Reg P R) (a : MLArgs P) : List String :=
  (reg.filter fun e => !(isPseudo e.1 && !a.pseudo) &&
    (allParameters e.2).any fun p => decide (p ∈ a.observables)).map Prod.fst

/-- `get_measurements`.  `ord` is the (arbitrary) order in which a Python `set` with the given
elements is iterated.  /repo/flavio/statistics/likelihood.py:115-136. -/
def getMeasurements (ord : List String → List String) (reg : Reg P R) (a : MLArgs P) :
    List String :=
  match a.exclude, a.include_ with
  | none, none => allMeasurements reg a
  | some ex, _ => ord ((allMeasurements reg a).filter fun n => decide (n ∉ ex))
  | none, some inc => ord ((allMeasurements reg a).filter fun n => decide (n ∈ inc))

/-- Truth value of an optional list. (Used for `mlInit`, /repo/flavio/statistics/likelihood.py:65-75.) -/
def truthy (l : Option (List String)) : Bool := match l with
  | none => false
  | some l => !l.isEmpty

/-- `MeasurementLikelihood.__init__`: the checks.  /repo/flavio/statistics/likelihood.py:65-75.
(`_warn_meas_corr` only warns.) -/
def mlInit (ord : List String → List String) (reg : Reg P R) (a : MLArgs P) : Except PyErr Unit :=
  if truthy a.exclude && truthy a.include_ then .error .valueError
  else
    (getMeasurements ord reg a).mapM (fun n => reg.getItem n) >>= fun ms =>
    let measured := (ms.map allParameters).flatten
    if a.observables.all fun o => decide (o ∈ measured) then .ok () else .error .assertionError

/-- `set(exclude_observables or [])`.
(Used for `excludeParameters`, /repo/flavio/statistics/likelihood.py:183.) -/
def orEmpty (ex : Option (List P)) : List P := ex.getD []

/-- `exclude_parameters = m_obs - set(self.observables) | exclude_observables`.
/repo/flavio/statistics/likelihood.py:183. -/
def excludeParameters (a : MLArgs P) (ex : Option (List P)) (s : CState P R) : List P :=
  ((allParameters s).filter fun p => decide (p ∉ a.observables)) ++ orEmpty ex

/-- Equality of sets given as lists. (Used for `llStep`, /repo/flavio/statistics/likelihood.py:177-187.) -/
def setEq (l l' : List P) : Bool :=
  (l.all fun p => decide (p ∈ l')) && (l'.all fun p => decide (p ∈ l))

/-- Body of the loop of `log_likelihood_pred`.  /repo/flavio/statistics/likelihood.py:177-187. -/
def llStep [AddCommMonoid L] (f : R → PdfArg V → Except PyErr L) (reg : Reg P R) (a : MLArgs P)
    (pred : P → Option V) (ex : Option (List P)) (ll : L) (name : String) : Except PyErr L :=
  reg.getItem name >>= fun s =>
  if setEq (allParameters s) (excludeParameters a ex s) then .ok ll
  else getLogprobAll f s pred (excludeParameters a ex s) >>= fun d => .ok (ll + (d.map Prod.snd).sum)

/-- `log_likelihood_pred`; `f` is `logpdf` or `delta_logpdf` depending on `delta`.
/repo/flavio/statistics/likelihood.py:173-188. -/
def logLikelihoodPred [AddCommMonoid L] (f : R → PdfArg V → Except PyErr L)
    (ord : List String → List String) (reg : Reg P R) (a : MLArgs P) (pred : P → Option V)
    (ex : Option (List P)) : Except PyErr L :=
  (getMeasurements ord reg a).foldlM (llStep f reg a pred ex) 0

/-- `len(m_obs & our_obs)` for one measurement.  /repo/flavio/statistics/likelihood.py:163-169. -/
def nobsOne (a : MLArgs P) (ex : Option (List P)) (s : CState P R) : Nat :=
  ((allParameters s).filter fun p => decide (p ∈ a.observables) && decide (p ∉ orEmpty ex)).length

/-- `get_number_observations`.  /repo/flavio/statistics/likelihood.py:158-170.
(`all_parameters` are dictionary keys, so the set `m_obs` has as many elements as the list.) -/
def getNumberObservations (ord : List String → List String) (reg : Reg P R) (a : MLArgs P)
    (ex : Option (List P)) : Except PyErr Nat :=
  (getMeasurements ord reg a).foldlM (fun n name =>
    reg.getItem name >>= fun s => .ok (n + nobsOne a ex s)) 0

/-! ## Prediction cache -/

/-- The two cache attributes.  /repo/flavio/statistics/likelihood.py:63-64. -/
structure Cache (H D : Type) where
  hash : Option H
  values : Option D

/-- `get_predictions_par`: `key` is the hash of the arguments, `compute` the loop over the
observables.  Returns the new cache and the result.  /repo/flavio/statistics/likelihood.py:138-156. -/
def getPredictionsPar {A H D : Type} [DecidableEq H] (key : A → H) (compute : A → Except PyErr D)
    (c : Cache H D) (a : A) : Cache H D × Except PyErr (Option D) :=
  if c.hash = some (key a) then (c, .ok c.values)
  else match compute a with
    | .error e => (c, .error e)
    | .ok d => (⟨some (key a), some d⟩, .ok (some d))

/-- A new `MeasurementLikelihood`. Used for /repo/flavio/statistics/likelihood.py:138-160. -/
def Cache.init {H D : Type} : Cache H D := ⟨none, none⟩

/-- Results of a sequence of calls. Used for /repo/flavio/statistics/likelihood.py:138-160. -/
def predictionCalls {A H D : Type} [DecidableEq H] (key : A → H) (compute : A → Except PyErr D) :
    Cache H D → List A → List (Except PyErr (Option D))
  | _, [] => []
  | c, a :: as =>
    (getPredictionsPar key compute c a).2 :: predictionCalls key compute
      (getPredictionsPar key compute c a).1 as

/-- CPython's hash of an `int` or of an integral `float` (64 bit): the value modulo `2^61 - 1` with
the sign of the value, `-1` being replaced by `-2`.
(Used for `parHash`, /repo/flavio/statistics/likelihood.py:146.) -/
def pyHashInt (n : Int) : Int :=
  let h := if 0 ≤ n then n % (2 ^ 61 - 1) else -((-n) % (2 ^ 61 - 1))
  if h = -1 then -2 else h

/-- CPython's hash of `(frozenset(par_dict.items()), wc_obj)`: it depends on the parameter values
only through their hashes.  `comb` stands for the mixing of the (sets of) hashes.
/repo/flavio/statistics/likelihood.py:146. -/
def parHash {W H : Type} (comb : List (String × Int) → W → H) (a : List (String × Int) × W) : H :=
  comb (a.1.map fun e => (e.1, pyHashInt e.2)) a.2

/-- The loop of `get_predictions_par` over the observables; `predict o a` is
`Observable[name].prediction_par(par_dict, wc_obj, **args)` for the observable `o`.
/repo/flavio/statistics/likelihood.py:148-153. -/
def computePredictions {A : Type} (predict : P → A → Except PyErr V) (obs : List P) (a : A) :
    Except PyErr (Dict P V) :=
  obs.foldlM (fun d o => predict o a >>= fun v => .ok (d.set o v)) []

/-- `MeasurementLikelihood.log_likelihood_par` with a fresh cache.
/repo/flavio/statistics/likelihood.py:190-195. -/
def logLikelihoodPar [AddCommMonoid L] {A : Type} (f : R → PdfArg V → Except PyErr L)
    (ord : List String → List String) (reg : Reg P R) (a : MLArgs P)
    (predict : P → A → Except PyErr V) (x : A) (ex : Option (List P)) : Except PyErr L :=
  computePredictions predict a.observables x >>= fun d =>
  logLikelihoodPred f ord reg a (fun p => d.get? p) ex

/-! ## Parameter likelihood and total likelihood -/

/-- `ParameterLikelihood.log_likelihood_par`; `TypeError` if `parameters` is `None`.
/repo/flavio/statistics/likelihood.py:237-244. -/
def parameterLogLikelihood [AddCommMonoid L] (f : R → PdfArg V → Except PyErr L) (s : CState P R)
    (parameters : Option (List P)) (par : P → Option V) : Except PyErr L :=
  match parameters with
  | none => .error .typeError
  | some ps =>
    getLogprobAll f s par ((allParameters s).filter fun p => decide (p ∉ ps)) >>= fun d =>
    .ok (d.map Prod.snd).sum

/-- `Likelihood.log_prior_fit_parameters`; `fit` is the constructor argument `fit_parameters`
(`self.fit_parameters = fit_parameters or []`).
/repo/flavio/statistics/likelihood.py:302, 315-319. -/
def logPrior [AddCommMonoid L] (f : R → PdfArg V → Except PyErr L) (s : CState P R)
    (fit : Option (List P)) (par : P → Option V) : Except PyErr L :=
  if (fit.getD []).isEmpty then .ok 0 else parameterLogLikelihood f s fit par

/-- `Likelihood.log_likelihood`; `exp` is the result of `log_likelihood_exp`.
/repo/flavio/statistics/likelihood.py:325-332. -/
def logLikelihood [AddCommMonoid L] (f : R → PdfArg V → Except PyErr L) (s : CState P R)
    (fit : Option (List P)) (par : P → Option V) (exp : Except PyErr L) : Except PyErr L :=
  logPrior f s fit par >>= fun a => exp >>= fun b => .ok (a + b)

/-! ## `_warn_meas_corr` -/

/-- `corr_with[p].append(obs)` / `corr_with[p] = [obs]`.
/repo/flavio/statistics/likelihood.py:96-99. -/
def corrAppend (d : Dict P (List P)) (p obs : P) : Dict P (List P) :=
  match d.get? p with
  | none => d.set p [obs]
  | some l => d.set p (l ++ [obs])

/-- Innermost loops for one fit observable of one measurement: the first entry of `_constraints`
with the same object gives `par`.  /repo/flavio/statistics/likelihood.py:86-99. -/
def corrObs (a : MLArgs P) (s : CState P R) (d : Dict P (List P)) (obs : P) :
    Except PyErr (Dict P (List P)) :=
  s.parameters.getItem obs >>= fun e =>
  match s.constraints.find? fun x => decide (x.1 = e.2) with
  | none => .error .unboundLocalError
  | some x => .ok ((x.2.filter fun p => decide (p ∉ a.observables)).foldl
      (fun d p => corrAppend d p obs) d)

/-- `set(self.observables) & set(m.all_parameters)`; `ordP` is the iteration order of the set.
/repo/flavio/statistics/likelihood.py:84. -/
def fitObs (a : MLArgs P) (s : CState P R) : List P :=
  (allParameters s).filter fun p => decide (p ∈ a.observables)

/-- `_warn_meas_corr` up to the counting (the warnings are issued for counts larger than 1).
`UnboundLocalError` if no entry has the object (impossible).
/repo/flavio/statistics/likelihood.py:77-113. -/
def corrWith (ordP : List P → List P) (ord : List String → List String) (reg : Reg P R)
    (a : MLArgs P) : Except PyErr (Dict P (List P)) :=
  (getMeasurements ord reg a).foldlM (fun d name =>
    reg.getItem name >>= fun s => (ordP (fitObs a s)).foldlM (corrObs a s) d) []

end Verif.Likelihood
