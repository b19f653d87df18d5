import Verif.Likelihood.Theorems
/-!
# `MeasurementLikelihood.log_likelihood_par`: from parameters to the log-likelihood, and sessions with the cache
-/
set_option linter.unusedSectionVars false
set_option linter.unusedVariables false
set_option linter.unusedSimpArgs false
namespace Verif.Likelihood
open Verif.Py Verif.Constraints

variable {P R V L : Type} [DecidableEq P] [DecidableEq R]

/-- One call of `log_likelihood_par`: the registry of measurements and the prediction functions at that time, parameters and Wilson
coefficients, and the excluded observables.  /repo/flavio/statistics/likelihood.py:190-195. -/
structure Call (P R V A : Type) where
  reg : Reg P R
  predict : P → A → Except PyErr V
  x : A
  ex : Option (List P)

/-- `log_likelihood_par` on one instance, with its cache (`None` has no `keys`, but is never what the cache holds when its hash fits).
/repo/flavio/statistics/likelihood.py:138-156,190-195. -/
def logLikelihoodCall [AddCommMonoid L] {A H : Type} [DecidableEq H] (f : R → PdfArg V → Except PyErr L) (ord : List String → List String)
    (a : MLArgs P) (key : A → H) (c : Cache H (Dict P V)) (k : Call P R V A) : Cache H (Dict P V) × Except PyErr L :=
  match getPredictionsPar (fun k : Call P R V A => key k.x) (fun k => computePredictions k.predict a.observables k.x) c k with
  | (c', .ok (some d)) => (c', logLikelihoodPred f ord k.reg a (fun p => d.get? p) k.ex)
  | (c', .ok none) => (c', .error .typeError)
  | (c', .error e) => (c', .error e)

/-- The results of a sequence of calls on one instance. (Used for `log_likelihood_par`, /repo/flavio/statistics/likelihood.py:190-195.) -/
def session [AddCommMonoid L] {A H : Type} [DecidableEq H] (f : R → PdfArg V → Except PyErr L) (ord : List String → List String)
    (a : MLArgs P) (key : A → H) : Cache H (Dict P V) → List (Call P R V A) → List (Except PyErr L)
  | _, [] => []
  | c, k :: ks => (logLikelihoodCall f ord a key c k).2 :: session f ord a key (logLikelihoodCall f ord a key c k).1 ks

/-- What is made of the predictions. (Specification.) -/
def post [AddCommMonoid L] {A : Type} (f : R → PdfArg V → Except PyErr L) (ord : List String → List String)
    (a : MLArgs P) (k : Call P R V A) (r : Except PyErr (Option (Dict P V))) : Except PyErr L :=
  match r with
  | .ok (some d) => logLikelihoodPred f ord k.reg a (fun p => d.get? p) k.ex
  | .ok none => .error .typeError
  | .error e => .error e

theorem session_eq [AddCommMonoid L] {A H : Type} [DecidableEq H] (f : R → PdfArg V → Except PyErr L) (ord : List String → List String)
    (a : MLArgs P) (key : A → H) (ks : List (Call P R V A)) : ∀ c : Cache H (Dict P V), session f ord a key c ks =
      List.zipWith (post f ord a) ks (predictionCalls (fun k : Call P R V A => key k.x) (fun k => computePredictions k.predict a.observables k.x) c ks) := by
  induction ks with
  | nil => intro c; rfl
  | cons k ks ih =>
    intro c
    have e : logLikelihoodCall f ord a key c k =
      ((getPredictionsPar (fun k : Call P R V A => key k.x) (fun k => computePredictions k.predict a.observables k.x) c k).1,
        post f ord a k (getPredictionsPar (fun k : Call P R V A => key k.x) (fun k => computePredictions k.predict a.observables k.x) c k).2) := by
      unfold logLikelihoodCall post
      split <;> rename_i h <;> rw [h]
    unfold session predictionCalls
    rw [List.zipWith_cons_cons, e, ih]

/-- **C47 (sessions).** Whatever is called before on the same instance, and however the measurements in the registry and the excluded
observables change between the calls, `log_likelihood_par` returns what a new instance would return, provided that arguments with
equal hashes have equal predictions. -/
theorem C47_session_partial [AddCommMonoid L] {A H : Type} [DecidableEq H] (f : R → PdfArg V → Except PyErr L) (ord : List String → List String)
    (a : MLArgs P) (key : A → H) (ks : List (Call P R V A))
    (hinj : ∀ k ∈ ks, ∀ k' ∈ ks, key k.x = key k'.x → computePredictions k.predict a.observables k.x = computePredictions k'.predict a.observables k'.x) :
    session f ord a key Cache.init ks = ks.map fun k => logLikelihoodPar f ord k.reg a k.predict k.x k.ex := by
  rw [session_eq, C47_cache_transparent_partial _ _ _ hinj]
  unfold freshResults
  rw [List.zipWith_map_right, List.zipWith_self]
  refine List.map_congr_left fun k hk => ?_
  unfold logLikelihoodPar post
  cases h : computePredictions k.predict a.observables k.x <;> simp only [h] <;> rfl

/-- **C47 (witness: stale predictions).** The predictions in the cache are those of the previous call with the same arguments: if in the
meantime an observable gets another prediction function, or the configuration changes, the old prediction is used. -/
theorem C47_stale_witness [AddCommMonoid L] {A H : Type} [DecidableEq H] (f : R → PdfArg V → Except PyErr L) (ord : List String → List String)
    (a : MLArgs P) (key : A → H) (reg : Reg P R) (old new : P → A → Except PyErr V) (x : A) (ex : Option (List P)) (d : Dict P V)
    (h : computePredictions old a.observables x = .ok d) :
    session f ord a key Cache.init [⟨reg, old, x, ex⟩, ⟨reg, new, x, ex⟩] =
      [logLikelihoodPar f ord reg a old x ex, logLikelihoodPar f ord reg a old x ex] := by
  rw [session_eq]
  simp only [predictionCalls, getPredictionsPar, Cache.init, h]
  simp only [reduceCtorEq, if_false, if_true, List.zipWith_cons_cons, List.zipWith_nil_right]
  have : logLikelihoodPar f ord reg a old x ex = logLikelihoodPred f ord reg a (fun p => d.get? p) ex := by
    unfold logLikelihoodPar; rw [h]; rfl
  rw [this]
  rfl

open Classical in
/-- **C44 (from parameters).** The log-likelihood as a function of parameters and Wilson coefficients is the sum over the selected
measurements of the log-PDFs of their constraints at the predictions for these parameters, restricted to the observables of the
likelihood that are not excluded. -/
theorem C44_from_parameters [AddCommMonoid L] {A : Type} (f : R → PdfArg V → Except PyErr L)
    (g : R → PdfArg V → L) (ord : List String → List String) (hord : IsSetOrder ord)
    (H : Hist P R) (wf : H.WF) (a : MLArgs P) (ha : OneList a) (predict : P → A → Except PyErr V) (x : A) (val : P → V)
    (ex : Option (List P)) (hpr : ∀ o ∈ a.observables, predict o x = .ok (val o))
    (hp : ∀ n h, (n, h) ∈ H → Selected a n h → Proper h)
    (hf : ∀ n h, (n, h) ∈ H → Selected a n h → ∀ e ∈ adds h, relevant a (ex.getD []) h e.1 e.2 ≠ [] →
      f e.1 (intendedArg val e.2 (relevant a (ex.getD []) h e.1 e.2)) =
        .ok (g e.1 (intendedArg val e.2 (relevant a (ex.getD []) h e.1 e.2)))) :
    logLikelihoodPar f ord (objs H) a predict x ex =
      .ok ((H.filter fun e => decide (Selected a e.1 e.2)).map
        fun e => measurementLL g a (ex.getD []) val e.2).sum := by
  obtain ⟨d, h1, h2⟩ := C47_predictions_dict predict a.observables x val hpr
  unfold logLikelihoodPar
  rw [h1, ok_bind_eq]
  refine C44_sum_over_selected f g ord hord H wf a ha (fun p => d.get? p) val ex hp ?_ hf
  intro n h hn hs p hp1 hp2 hc
  rw [h2, if_pos hp1]

theorem computePredictions_raises {A : Type} (predict : P → A → Except PyErr V) (x : A) (o : P) (e : PyErr) (he : predict o x = .error e) :
    ∀ (obs : List P) (d : Dict P V), o ∈ obs → raises (obs.foldlM (fun d o => predict o x >>= fun v => Except.ok (d.set o v)) d) := by
  intro obs
  induction obs with
  | nil => intro d h; simp at h
  | cons y l ih =>
    intro d h
    rw [List.foldlM_cons]
    cases hy : predict y x with
    | error e' => exact ⟨e', rfl⟩
    | ok v =>
      rw [ok_bind_eq, ok_bind_eq]
      rcases List.mem_cons.1 h with rfl | h
      · rw [he] at hy; cases hy
      · exact ih _ h

/-- **C44 (a prediction that fails).** If the prediction of one of the observables raises, so does the log-likelihood, even if this
observable is excluded in the call. -/
theorem C44_prediction_raises [AddCommMonoid L] {A : Type} (f : R → PdfArg V → Except PyErr L) (ord : List String → List String)
    (reg : Reg P R) (a : MLArgs P) (predict : P → A → Except PyErr V) (x : A) (ex : Option (List P)) (o : P) (ho : o ∈ a.observables)
    (e : PyErr) (he : predict o x = .error e) : raises (logLikelihoodPar f ord reg a predict x ex) := by
  obtain ⟨e', h⟩ := computePredictions_raises predict x o e he a.observables [] ho
  refine ⟨e', ?_⟩
  unfold logLikelihoodPar computePredictions
  rw [h]; rfl

end Verif.Likelihood
