import Verif.IO.LikelihoodYamlTheorems
/-!
# Import of likelihoods from YAML: what is accepted and what becomes of it
-/
set_option linter.unusedVariables false
set_option linter.unusedSimpArgs false
set_option linter.unusedSectionVars false
set_option linter.unnecessarySeqFocus false
namespace Verif.LikelihoodYaml
open Verif.Py Verif.Constraints Verif.IO Verif.Likelihood
open Verif.Observables (ObsSpec FmtOut PVal argumentFormat)

variable {V S E R : Type} [DecidableEq V] [DecidableEq R]

/-! ## `ParameterLikelihood` -/

/-- **C158 (parameter likelihood).** A `ParameterLikelihood` made with a non-empty list of parameters, or without a
list, can be exported and imported again: same list, and the parameter object of property C58. -/
theorem C158_parameter_likelihood_partial (c : Ctx S E) (o : PL S) (hp : o.parameters ≠ some []) (s' : S)
    (hs : Reloaded c o.par s') :
    ∃ d, plDump V c o = .ok d ∧ plLoad c d = .ok ⟨s', o.parameters⟩ := by
  obtain ⟨s, ps⟩ := o
  have hq : (c.diff s = [] ∧ s' = c.dflt) ∨ (∃ x xs, c.diff s = x :: xs ∧
      allOf listDict (callable (coercePar c)) (.entries (x :: xs) : Val V S E) = .ok (.par s')) := by
    cases hd : c.diff s with
    | nil => exact Or.inl ⟨rfl, hs.1 hd⟩
    | cons x xs =>
      refine Or.inr ⟨x, xs, rfl, ?_⟩
      have hq : c.coerce (x :: xs) = .ok s' := by rw [← hd]; exact hs.2 (by rw [hd]; simp)
      show callable (coercePar c) (.entries (x :: xs) : Val V S E) = _
      simp only [callable, coercePar, hq]; rfl
  refine ⟨kwPar "par_obj" (c.diff s) ++ kwOpt "parameters" ps, ?_, ?_⟩
  · rcases ps with _ | _ | ⟨p, ps⟩ <;> rcases hq with ⟨h1, h2⟩ | ⟨x, xs, h1, h2⟩ <;>
    simp [plDump, getYamlDict, applySchema, plOutput, plAttrs, schemaStep, Dict.get?, optStrs, anyOf, callable,
      ensurelistV, listStr, Val.dropped, Val.isEmptyList, kwOpt, kwPar, normal, List.foldlM, parDiff, h1] <;> rfl
  · rcases ps with _ | _ | ⟨p, ps⟩ <;> rcases hq with ⟨h1, h2⟩ | ⟨x, xs, h1, h2⟩ <;>
    first
    | exact absurd rfl hp
    | (simp [plLoad, plNew, applySchema, plInput, schemaStep, Dict.get?, anyOf, isNone, checkKw, argPar, argStrs, lift,
        listStr, kwOpt, kwPar, normal, List.foldlM, h1, h2] <;> rfl)

/-- **C158 (why only partial: empty list of parameters).** A `ParameterLikelihood` with an empty list of parameters has
a likelihood; after export and import the list is `None` and calling the likelihood raises `TypeError`. -/
theorem C158_empty_parameters (c : Ctx (CState String R) E) (s s' : CState String R) (hs : Reloaded c s s') :
    ∃ d o', plDump V c ⟨s, some []⟩ = .ok d ∧ plLoad c d = .ok o' ∧
      ∀ {W L : Type} [AddCommMonoid L] (f : R → PdfArg W → Except PyErr L) (par : String → Option W),
        parameterLogLikelihood f o'.par o'.parameters par = .error .typeError := by
  obtain ⟨d, h1, h2⟩ := C158_parameter_likelihood_partial (V := V) c ⟨s, none⟩ (by simp) s' hs
  refine ⟨d, _, ?_, h2, fun f par => rfl⟩
  rw [← h1]
  simp [plDump, getYamlDict, applySchema, plOutput, plAttrs, schemaStep, Dict.get?, optStrs, anyOf, callable,
    ensurelistV, listStr, List.foldlM, parDiff]

/-! ## Import of hand-written files -/

/-- A key of a YAML dictionary: missing, `null`, or a list of strings. (Specification.) -/
inductive YKey where
  | absent
  | null
  | list (l : List String)

/-- The item of the dictionary. (Specification.) -/
def YKey.item (k : String) : YKey → Dict String (Val V S E)
  | .absent => []
  | .null => [(k, .none)]
  | .list l => [(k, .strs l)]

/-- Specification: the intended meaning of a key (`null` means: not given). -/
def YKey.meaning : YKey → Option (List String)
  | .list l => some l
  | _ => none

/-- What `Likelihood.load` makes of a key: `null` becomes an empty list. (Specification.) -/
def YKey.ensured : YKey → Option (List String)
  | .absent => none
  | .null => some []
  | .list l => some l

/-- **C158 (import of a measurement likelihood).** A dictionary with observables in any accepted form (name, list, or
dictionary), and the two optional keys: the imported object has the observables in tuple form without repetitions and
the measurement lists as written, and there is an exception exactly if the constructor raises one. -/
theorem C158_measurement_likelihood_load (c : Ctx S E) (ord : List String → List String) (reg : Reg (Obs V) R)
    (specs : List (ObsSpec V)) (os : List (Obs V))
    (ho : List.Forall₂ (fun s o => (argumentFormat c.args s .tuple >>= Obs.ofOut) = .ok o) specs os) (e i : YKey) :
    mlLoad c ord reg ([("observables", .specs specs)] ++ e.item "exclude_measurements" ++
      i.item "include_measurements" : Dict String (Val V S E)) =
      lift (mlInit ord reg ⟨listDeduplicate os, e.meaning, i.meaning, false⟩ >>= fun _ =>
        .ok ⟨listDeduplicate os, e.meaning, i.meaning, false⟩) := by
  have h : obsTuples c (.specs specs : Val V S E) = .ok (.obs (listDeduplicate os)) := by
    have : (specs.mapM fun o => called (argumentFormat c.args o .tuple >>= Obs.ofOut)) = .ok os := by
      rw [mapM_ok_iff']
      exact ho.imp fun s o h => by rw [h]; rfl
    simp only [obsTuples, Val.toSpecs, this]; rfl
  unfold mlLoad
  cases e <;> cases i <;>
  simp [applySchema, mlInput, schemaStep, Dict.get?, h, anyOf, isNone, listStr, List.foldlM, YKey.item, YKey.meaning] <;>
  (show lift (mlNew ord reg _) = _) <;>
  simp [mlNew, checkKw, argObs, argStrs, argFlag, Dict.get?]

/-- **C158 (import of a likelihood).** The same for `Likelihood`, with default parameters: but here `null` for one of
the lists of measurements is turned into an empty list. -/
theorem C158_likelihood_load (c : Ctx S E) (ord : List String → List String) (reg : Reg (Obs V) R)
    (specs : List (ObsSpec V)) (os : List (Obs V))
    (ho : List.Forall₂ (fun s o => (argumentFormat c.args s .tuple >>= Obs.ofOut) = .ok o) specs os) (f e i : YKey) :
    likLoad c ord reg (f.item "fit_parameters" ++ [("observables", .specs specs)] ++ e.item "exclude_measurements" ++
      i.item "include_measurements" : Dict String (Val V S E)) =
      lift (mlInit ord reg ⟨listDeduplicate os, e.ensured, i.ensured, false⟩ >>= fun _ =>
        .ok ⟨c.dflt, f.meaning.getD [], ⟨listDeduplicate os, e.ensured, i.ensured, false⟩⟩) := by
  have h : obsTuples c (.specs specs : Val V S E) = .ok (.obs (listDeduplicate os)) := by
    have : (specs.mapM fun o => called (argumentFormat c.args o .tuple >>= Obs.ofOut)) = .ok os := by
      rw [mapM_ok_iff']
      exact ho.imp fun s o h => by rw [h]; rfl
    simp only [obsTuples, Val.toSpecs, this]; rfl
  unfold likLoad
  cases f <;> cases e <;> cases i <;>
  simp [applySchema, likInput, schemaStep, Dict.get?, h, anyOf, callable, ensurelistV, listStr, List.foldlM, YKey.item,
    YKey.ensured, YKey.meaning] <;>
  (show lift (likNew c ord reg _) = _) <;>
  simp [likNew, checkKw, argObs, argStrs, argFlag, argPar, Dict.get?]

/-! ## Witnesses -/

/-- Two measurements `m1`, `m2` of an observable `o` without arguments. (Specification.) -/
def wReg : Reg (Obs Nat) Nat :=
  [("m1", run [.add [.plain "o"] 1]), ("m2", run [.add [.plain "o"] 2]),
   ("Pseudo-measurement x", run [.add [.plain "o"] 3])]

/-- A context in which every name is an observable without arguments, and no parameters differ from the defaults.
(Specification.) -/
def wCtx : Ctx Unit Unit := ⟨fun _ => some none, (), fun _ => [], fun _ => .ok (), fun _ => ["p", "q"]⟩

/-- **C158 (why only partial: `exclude_measurements: null`).** A file for `Likelihood` with `exclude_measurements: null`
and `include_measurements: [m1]`: the imported likelihood contains the measurement `m2`; as a file for
`MeasurementLikelihood` it does not. -/
theorem C158_null_ignores_include :
    let d : Dict String (Val Nat Unit Unit) := [("observables", .strs ["o"]), ("exclude_measurements", .none),
      ("include_measurements", .strs ["m1"])]
    (∃ l, likLoad wCtx id wReg d = .ok l ∧ getMeasurements id wReg l.ml = ["m1", "m2"]) ∧
    (∃ a, mlLoad wCtx id wReg d = .ok a ∧ getMeasurements id wReg a = ["m1"]) := by
  intro d
  exact ⟨⟨⟨(), [], ⟨[.plain "o"], some [], some ["m1"], false⟩⟩, by rfl, by decide +kernel⟩,
    ⟨⟨[.plain "o"], none, some ["m1"], false⟩, by rfl, by decide +kernel⟩⟩

/-- **C158 (why only partial: `nuisance_parameters: all`).** A file for `FastLikelihood` cannot say
`nuisance_parameters: all`, although this is the default of the constructor. -/
theorem C158_nuisance_all_rejected (c : Ctx S E) (ord : List String → List String) (reg : Reg (Obs V) R)
    (n : String) (w : String) :
    fastLoad c ord reg ([("name", .word n), ("nuisance_parameters", .word w)] : Dict String (Val V S E)) =
      .error .invalid := by
  simp [fastLoad, applySchema, fastInput, schemaStep, Dict.get?, anyOf, isNone, listStr, isStr, List.foldlM,
    Val.isEmptyList]
  rfl

/-- **C158 (why only partial: pseudo-measurements).** A `MeasurementLikelihood` made with
`include_pseudo_measurements=True` loses this setting: after export and import the pseudo-measurement is no longer
selected. -/
theorem C158_pseudo_lost :
    let a : MLArgs (Obs Nat) := ⟨[.plain "o"], none, none, true⟩
    mlInit id wReg a = .ok () ∧ getMeasurements id wReg a = ["m1", "m2", "Pseudo-measurement x"] ∧
    ∃ (d : Dict String (Val Nat Unit Unit)) (a' : MLArgs (Obs Nat)), mlDump wCtx a = .ok d ∧ mlLoad wCtx id wReg d = .ok a' ∧
      getMeasurements id wReg a' = ["m1", "m2"] := by
  refine ⟨by decide +kernel, by decide +kernel, [("observables", .specs [.dict [("name", .name "o")]])],
    ⟨[.plain "o"], none, none, false⟩, by rfl, by rfl, by decide +kernel⟩

/-- **C158 (why only partial: empty and non-empty list).** With an empty list of excluded and a non-empty list of
included measurements the constructor ignores the latter; after export and import it is in force. -/
theorem C158_empty_exclude :
    let a : MLArgs (Obs Nat) := ⟨[.plain "o"], some [], some ["m1"], false⟩
    mlInit id wReg a = .ok () ∧ getMeasurements id wReg a = ["m1", "m2"] ∧
    ∃ (d : Dict String (Val Nat Unit Unit)) (a' : MLArgs (Obs Nat)), mlDump wCtx a = .ok d ∧ mlLoad wCtx id wReg d = .ok a' ∧
      getMeasurements id wReg a' = ["m1"] := by
  refine ⟨by decide +kernel, by decide +kernel, [("observables", .specs [.dict [("name", .name "o")]]),
    ("include_measurements", .strs ["m1"])],
    ⟨[.plain "o"], none, some ["m1"], false⟩, by rfl, by rfl, by decide +kernel⟩

/-- **C158.** A likelihood without observables cannot be imported again: the key is dropped and the constructor
raises `TypeError`. -/
theorem C158_no_observables (c : Ctx S E) (ord : List String → List String) (reg : Reg (Obs V) R) (p : Bool) :
    mlDump c (⟨[], none, none, p⟩ : MLArgs (Obs V)) = .ok [] ∧
    mlLoad c ord reg ([] : Dict String (Val V S E)) = .error (.raised .typeError) := by
  constructor
  · rfl
  · rfl

/-- **C158 (rejections).** A measurement list that is not a list, and keys the class does not know, are rejected. -/
theorem C158_rejects (c : Ctx S E) (ord : List String → List String) (reg : Reg (Obs V) R) (w k : String)
    (v : Val V S E) (hk : k ∉ ["observables", "exclude_measurements", "include_measurements",
      "include_pseudo_measurements"]) :
    mlLoad c ord reg ([("exclude_measurements", .word w)] : Dict String (Val V S E)) = .error .invalid ∧
    mlLoad c ord reg ([(k, v)] : Dict String (Val V S E)) = .error (.raised .typeError) := by
  simp only [List.mem_cons, List.not_mem_nil, or_false, not_or] at hk
  obtain ⟨h1, h2, h3, h4⟩ := hk
  constructor
  · rfl
  · simp [mlLoad, applySchema, mlInput, schemaStep, Dict.get?, Ne.symm h1, Ne.symm h2, Ne.symm h3, List.foldlM, h1, h2, h3]
    show lift (mlNew ord reg [(k, v)]) = _
    simp [mlNew, checkKw, h1, h2, h3, h4, lift]

/-- **C158.** For parameter objects obtained from the defaults by `add_constraint` calls as in C58: after export and
import every parameter has the same position and distribution content, also if there is no difference to the
defaults. -/
theorem C158_reloaded {P R Y D : Type} [DecidableEq P] [DecidableEq R] [DecidableEq Y] (enc : D → Y) (val : R → D)
    (load : Nat → Y → Except PyErr R)
    (hload : ∀ n d, ∃ r, load n (enc d) = .ok r ∧ val r = d) (ρ ρ' : R → R)
    (hρ : ∀ c, val (ρ c) = val c) (hρ' : ∀ c, val (ρ' c) = val c) (hd hu : List (Op P R))
    (hc : ∀ p, (∃ op ∈ hu, op.names p) → Constrained (hd.map (Op.rename ρ) ++ hu) p)
    (hl : ∀ op ∈ hu, ¬ LooksDefault (enc ∘ val) hd op)
    (args : String → Option (Option (List String))) (allPars : CState P R → List String) :
    let c : Ctx (CState P R) (YEntry P Y) := ⟨args, run hd, getParDiff (enc ∘ val) (run hd),
      coerceParObj load ρ' (run hd), allPars⟩
    ∃ s', Reloaded c (run (hd.map (Op.rename ρ) ++ hu)) s' ∧
      ∀ p, content val s' p = content val (run (hd.map (Op.rename ρ) ++ hu)) p := by
  intro c
  obtain ⟨s', h1, h2⟩ := C58_par_diff_reload_partial enc val load hload ρ ρ' hρ hρ' hd hu hc hl
  by_cases h : c.diff (run (hd.map (Op.rename ρ) ++ hu)) = []
  · refine ⟨run hd, ⟨fun _ => rfl, fun h' => absurd h h'⟩, fun p => ?_⟩
    rw [← h2 p]
    have h1' : coerceParObj load ρ' (run hd) (c.diff (run (hd.map (Op.rename ρ) ++ hu))) = .ok s' := h1
    rw [h] at h1'
    have : s' = copyState ρ' (run hd) := by
      have h1'' : (.ok (copyState ρ' (run hd)) : Except PyErr _) = .ok s' := h1'
      injection h1'' with h1''
      exact h1''.symm
    rw [this, content_copy val ρ' hρ']
  · exact ⟨s', ⟨fun h' => absurd h' h, fun _ => h1⟩, h2⟩

/-- Non-vacuity: a fast likelihood that satisfies the hypotheses of the export theorem. -/
theorem C158_nonvacuous : ∃ o : Fast Nat Unit, o.ml.observables ≠ [] ∧
    (∀ x ∈ o.ml.observables, ValidObs wCtx.args x) ∧ mlInit id wReg o.ml = .ok () ∧ o.ml.pseudo = false ∧
    Kept o.ml ∧ o.nuisance ≠ [] ∧ Reloaded wCtx o.par () ∧ (wReg.map Prod.fst).Nodup := by
  refine ⟨⟨"f", (), [], ["p"], ⟨[.plain "o"], none, some ["m1"], false⟩⟩, by simp, ?_, by decide +kernel, rfl, ?_,
    by simp, ⟨fun _ => rfl, fun h => absurd rfl h⟩, by decide⟩
  · intro x hx
    simp at hx
    rw [hx]
    rfl
  · rintro ⟨h, -⟩
    cases h

/-! ## What is refused -/

/-- **C158 (what is refused).** A file for `FastLikelihood` whose name is not a string is invalid; one without a name is a `TypeError`;
and so are a keyword that the constructor of `MeasurementLikelihood` does not know and a string for its
`include_pseudo_measurements`. -/
theorem C158_refused (c : Ctx S E) (ord : List String → List String) (reg : Reg (Obs V) R) (l : List String) (w : String) :
    fastLoad c ord reg ([("name", .strs l)] : Dict String (Val V S E)) = .error .invalid ∧
    fastLoad c ord reg ([] : Dict String (Val V S E)) = .error (.raised .typeError) ∧
    mlNew (E := E) (S := S) ord reg [("observables", .obs []), ("foo", .none)] = .error .typeError ∧
    mlNew (E := E) (S := S) ord reg [("observables", .obs []), ("include_pseudo_measurements", .word w)] = .error .typeError := by
  refine ⟨?_, ?_, ?_, ?_⟩
  · simp [fastLoad, applySchema, fastInput, schemaStep, Dict.get?, isStr, List.foldlM]
    rfl
  · rfl
  · simp [mlNew, checkKw]
  · simp [mlNew, checkKw, argObs, argStrs, argFlag, Dict.get?]

end Verif.LikelihoodYaml
