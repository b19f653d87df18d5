import Verif.IO.LikelihoodYaml
import Verif.IO.Theorems
import Verif.Likelihood.Theorems
import Verif.Observables.Theorems
/-!
# Do likelihoods survive export to and import from YAML?
-/
set_option linter.unusedVariables false
set_option linter.unusedSimpArgs false
set_option linter.unusedSectionVars false
namespace Verif.LikelihoodYaml
open Verif.Py Verif.Constraints Verif.IO Verif.Likelihood
open Verif.Observables (ObsSpec FmtOut PVal argumentFormat)

variable {V S E R : Type} [DecidableEq V] [DecidableEq R]

/-! ## Specification -/

/-- Specification: an observable in a form the registry accepts: the name of an observable without arguments, or a
name with as many values as there are arguments (with distinct names other than `name`). -/
def ValidObs (args : String → Option (Option (List String))) : Obs V → Prop
  | .plain n => args n = some none
  | .call n xs => ∃ as, args n = some (some as) ∧ as.length = xs.length ∧ as.Nodup ∧ "name" ∉ as

/-- Specification: an empty list of measurement names counts as not given. -/
def normal : Option (List String) → Option (List String)
  | some [] => none
  | x => x

/-! ## Lemmas -/

theorem mapM_num (xs : List V) : (xs.map PVal.num).mapM numOf = (.ok xs : Except PyErr (List V)) := by
  rw [mapM_ok_iff, List.forall₂_iff_get]
  refine ⟨by simp, fun i h1 h2 => by simp [numOf]⟩

/-- The dictionary form of a valid observable is accepted and gives the same observable again. -/
theorem obs_roundtrip (args : String → Option (Option (List String))) (o : Obs V) (h : ValidObs args o) :
    ∃ d, called (argumentFormat args o.spec .dict >>= specOfOut) = .ok d ∧
      called (argumentFormat args d .tuple >>= Obs.ofOut) = .ok o := by
  cases o with
  | plain n =>
    obtain ⟨h1, h2⟩ := Verif.Observables.C18_no_arguments (V := V) args n h
    refine ⟨.dict [("name", .name n)], ?_, ?_⟩
    · show called (argumentFormat args (.str n) .dict >>= specOfOut) = _
      rw [h1]; rfl
    · rw [h2]; rfl
  | call n xs =>
    obtain ⟨as, ha, hl, hnd, hn⟩ := h
    obtain ⟨d, h1, h2, -, -⟩ := Verif.Observables.C18_tuple_dict_tuple args n as xs ha hl hnd hn
    refine ⟨.dict d, ?_, ?_⟩
    · show called (argumentFormat args (.tup n xs) .dict >>= specOfOut) = _
      rw [h1]; rfl
    · rw [h2]
      show called ((List.mapM numOf (xs.map PVal.num)).map (Obs.call n)) = _
      rw [mapM_num]; rfl

theorem forall₂_of {A B : Type} {r : A → B → Prop} (l : List A) (h : ∀ a ∈ l, ∃ b, r a b) :
    ∃ m, List.Forall₂ r l m := by
  induction l with
  | nil => exact ⟨[], .nil⟩
  | cons a l ih =>
    obtain ⟨b, hb⟩ := h a (by simp)
    obtain ⟨m, hm⟩ := ih fun a ha => h a (by simp [ha])
    exact ⟨b :: m, .cons hb hm⟩

theorem mapM_ok_iff' {A B F : Type} (f : A → Except F B) (l : List A) (m : List B) :
    l.mapM f = .ok m ↔ List.Forall₂ (fun a b => f a = .ok b) l m := by
  induction l generalizing m with
  | nil =>
    constructor
    · intro h; cases h; exact .nil
    · intro h; cases h; rfl
  | cons a l ih =>
    rw [List.mapM_cons]
    cases ha : f a with
    | error e =>
      constructor
      · intro h; cases h
      · intro h; cases h with | cons h1 h2 => rw [ha] at h1; cases h1
    | ok b =>
      cases hl : l.mapM f with
      | error e =>
        constructor
        · intro h; cases h
        · intro h
          cases h with
          | cons h1 h2 => rw [← ih, hl] at h2; cases h2
      | ok m' =>
        have := (ih m').1 hl
        constructor
        · intro h; cases h; exact .cons ha this
        · intro h
          cases h with
          | cons h1 h2 =>
            rw [← ih, hl] at h2
            injection h2 with h2
            rw [ha] at h1
            injection h1 with h1
            rw [h1, ← h2]; rfl

theorem list_roundtrip (c : Ctx S E) (l : List (Obs V)) (h : ∀ o ∈ l, ValidObs c.args o) :
    ∃ ds, obsDicts c (.obs l : Val V S E) = .ok (.specs ds) ∧ ds.length = l.length ∧
      obsTuples c (.specs ds : Val V S E) = .ok (.obs (listDeduplicate l)) := by
  obtain ⟨ds, hds⟩ := forall₂_of (r := fun o d => called (argumentFormat c.args o.spec .dict >>= specOfOut) = .ok d ∧
      called (argumentFormat c.args d .tuple >>= Obs.ofOut) = .ok o) l fun o ho => obs_roundtrip c.args o (h o ho)
  refine ⟨ds, ?_, hds.length_eq.symm, ?_⟩
  · have : ((l.map Obs.spec).mapM fun o => called (argumentFormat c.args o .dict >>= specOfOut)) = .ok ds := by
      rw [mapM_ok_iff', List.forall₂_map_left_iff]
      exact hds.imp fun a b hab => hab.1
    simp only [obsDicts, Val.toSpecs, this]; rfl
  · have : (ds.mapM fun o => called (argumentFormat c.args o .tuple >>= Obs.ofOut)) = .ok l := by
      rw [mapM_ok_iff']
      exact (hds.imp fun a b hab => hab.2).flip
    simp only [obsTuples, Val.toSpecs, this]; rfl

/-- Selection depends on the observables only as a set. -/
theorem getMeasurements_congr (ord : List String → List String) (reg : Reg (Obs V) R) (o o' : List (Obs V))
    (e i : Option (List String)) (p : Bool) (h : ∀ x, x ∈ o' ↔ x ∈ o) :
    getMeasurements ord reg ⟨o', e, i, p⟩ = getMeasurements ord reg ⟨o, e, i, p⟩ := by
  have : allMeasurements reg ⟨o', e, i, p⟩ = allMeasurements reg ⟨o, e, i, p⟩ := by
    unfold allMeasurements
    simp only [h]
  unfold getMeasurements
  simp only [this]

theorem mlInit_congr (ord : List String → List String) (reg : Reg (Obs V) R) (o o' : List (Obs V))
    (e i : Option (List String)) (p : Bool) (h : ∀ x, x ∈ o' ↔ x ∈ o) :
    mlInit ord reg ⟨o', e, i, p⟩ = mlInit ord reg ⟨o, e, i, p⟩ := by
  unfold mlInit
  rw [getMeasurements_congr ord reg o o' e i p h]
  have : ∀ m : List (Obs V), (o'.all fun x => decide (x ∈ m)) = o.all fun x => decide (x ∈ m) := by
    intro m
    rw [Bool.eq_iff_iff]
    simp only [List.all_eq_true, h]
  simp only [this]

theorem llStep_congr {L : Type} [AddCommMonoid L] {W : Type} (f : R → PdfArg W → Except PyErr L)
    (reg : Reg (Obs V) R) (a a' : MLArgs (Obs V)) (h : ∀ x, x ∈ a'.observables ↔ x ∈ a.observables) :
    llStep f reg a' = llStep f reg a := by
  funext pred ex ll name
  unfold llStep excludeParameters
  simp only [h]


/-- Keys that are written for an optional list of names. (Specification.) -/
def kwOpt (k : String) (x : Option (List String)) : Dict String (Val V S E) :=
  match normal x with
  | none => []
  | some l => [(k, .strs l)]

theorem ml_dump (c : Ctx S E) (a : MLArgs (Obs V)) (hne : a.observables ≠ []) (ds : List (ObsSpec V))
    (h : obsDicts c (.obs a.observables : Val V S E) = .ok (.specs ds)) (hl : ds.length = a.observables.length) :
    mlDump (V := V) c a = .ok ([("observables", .specs ds)] ++ kwOpt "exclude_measurements" a.exclude ++
      kwOpt "include_measurements" a.include_) := by
  obtain ⟨o, e, i, p⟩ := a
  simp only at hne h hl
  cases ds with
  | nil => exact absurd (List.length_eq_zero_iff.1 hl.symm) hne
  | cons d ds =>
    rcases e with _ | _ | ⟨e, es⟩ <;> rcases i with _ | _ | ⟨i, is⟩ <;>
    simp [mlDump, getYamlDict, applySchema, mlOutput, mlAttrs, schemaStep, Dict.get?, h, optStrs, allOf, callable,
      ensurelistV, listStr, Val.dropped, Val.isEmptyList, kwOpt, normal, List.foldlM, ok_bind_eq] <;> rfl

theorem ml_input (c : Ctx S E) (e i : Option (List String)) (ds : List (ObsSpec V)) (os : List (Obs V))
    (h : obsTuples c (.specs ds : Val V S E) = .ok (.obs os)) :
    applySchema .allow (mlInput c) ([("observables", .specs ds)] ++ kwOpt "exclude_measurements" e ++
      kwOpt "include_measurements" i) = .ok ([("observables", .obs os)] ++ kwOpt "exclude_measurements" e ++
      kwOpt "include_measurements" i) := by
  rcases e with _ | _ | ⟨e, es⟩ <;> rcases i with _ | _ | ⟨i, is⟩ <;>
  simp [applySchema, mlInput, schemaStep, Dict.get?, h, anyOf, isNone, listStr, kwOpt, normal, List.foldlM,
    ok_bind_eq] <;> rfl

theorem ml_new (ord : List String → List String) (reg : Reg (Obs V) R) (e i : Option (List String))
    (os : List (Obs V)) :
    mlNew ord reg (([("observables", .obs os)] ++ kwOpt "exclude_measurements" e ++
      kwOpt "include_measurements" i : Dict String (Val V S E))) =
      (mlInit ord reg ⟨os, normal e, normal i, false⟩ >>= fun _ => .ok ⟨os, normal e, normal i, false⟩) := by
  rcases e with _ | _ | ⟨e, es⟩ <;> rcases i with _ | _ | ⟨i, is⟩ <;>
  simp [mlNew, checkKw, argObs, argStrs, argFlag, Dict.get?, kwOpt, normal, ok_bind_eq]

/-- Specification: the two lists are given in a way that export keeps: not an empty `exclude_measurements` together
with a non-empty `include_measurements`. -/
def Kept (a : MLArgs (Obs V)) : Prop := ¬ (a.exclude = some [] ∧ ∃ x xs, a.include_ = some (x :: xs))

theorem mlInit_ok_iff (ord : List String → List String) (reg : Reg (Obs V) R) (a : MLArgs (Obs V)) :
    mlInit ord reg a = .ok () ↔ (truthy a.exclude && truthy a.include_) = false ∧
      (∀ n ∈ getMeasurements ord reg a, ∃ s, reg.get? n = some s) ∧
      ∀ o ∈ a.observables, ∃ n ∈ getMeasurements ord reg a, ∃ s, reg.get? n = some s ∧ o ∈ allParameters s := by
  unfold mlInit
  by_cases hb : (truthy a.exclude && truthy a.include_) = true
  · rw [if_pos hb]; simp [hb]
  · have hb' : (truthy a.exclude && truthy a.include_) = false := by simpa using hb
    rw [if_neg hb]
    simp only [hb', true_and]
    generalize getMeasurements ord reg a = g
    by_cases hall : ∀ n ∈ g, ∃ s, reg.get? n = some s
    · obtain ⟨ms, hms⟩ := forall₂_of (r := fun n s => reg.get? n = some s) g hall
      have hm : g.mapM (fun n => reg.getItem n) = .ok ms := by
        rw [mapM_ok_iff]
        exact hms.imp fun n s h => by simp [Dict.getItem, h]
      rw [hm, ok_bind_eq]
      have key : ∀ o, o ∈ (ms.map allParameters).flatten ↔ ∃ n ∈ g, ∃ s, reg.get? n = some s ∧ o ∈ allParameters s := by
        intro o
        clear hm hall
        induction hms with
        | nil => simp
        | @cons n s g ms h1 h2 ih =>
          simp only [List.map_cons, List.flatten_cons, List.mem_append, ih, List.mem_cons]
          constructor
          · rintro (h | ⟨m, hm, t, h⟩)
            · exact ⟨n, Or.inl rfl, s, h1, h⟩
            · exact ⟨m, Or.inr hm, t, h⟩
          · rintro ⟨m, rfl | hm, t, h3, h4⟩
            · rw [h1] at h3; injection h3 with h3; rw [h3]; exact Or.inl h4
            · exact Or.inr ⟨m, hm, t, h3, h4⟩
      simp only [key]
      constructor
      · intro h
        refine ⟨hall, ?_⟩
        split at h
        · rename_i h'
          intro o ho
          exact of_decide_eq_true (List.all_eq_true.1 h' o ho)
        · cases h
      · rintro ⟨-, h⟩
        rw [if_pos]
        rw [List.all_eq_true]
        exact fun o ho => decide_eq_true (h o ho)
    · constructor
      · intro h
        exfalso
        cases hm : g.mapM (fun n => reg.getItem n) with
        | error e => rw [hm] at h; cases h
        | ok ms =>
          rw [mapM_ok_iff] at hm
          apply hall
          intro n hn
          clear h hall
          induction hm with
          | nil => simp at hn
          | @cons n' s g ms h1 h2 ih =>
            rcases List.mem_cons.1 hn with rfl | hn
            · refine ⟨s, ?_⟩
              cases h3 : reg.get? n with
              | none => simp [Dict.getItem, h3] at h1
              | some t => simp [Dict.getItem, h3] at h1; rw [h1]
            · exact ih hn
      · rintro ⟨h, -⟩
        exact absurd h hall

theorem nodup_all (reg : Reg (Obs V) R) (hreg : (reg.map Prod.fst).Nodup) (a : MLArgs (Obs V)) :
    (allMeasurements reg a).Nodup :=
  hreg.sublist (List.filter_sublist.map _)

theorem normal_selection (ord : List String → List String) (hord : IsSetOrder ord) (reg : Reg (Obs V) R)
    (hreg : (reg.map Prod.fst).Nodup) (a : MLArgs (Obs V)) (hk : Kept a) (hinit : mlInit ord reg a = .ok ())
    (hne : a.observables ≠ []) :
    ∀ n, n ∈ getMeasurements ord reg ⟨a.observables, normal a.exclude, normal a.include_, a.pseudo⟩ ↔
      n ∈ getMeasurements ord reg a := by
  have hnil : ord [] = [] := List.perm_nil.1 (hord [] (by simp))
  have hall := fun o e i p => nodup_all reg hreg ⟨o, e, i, p⟩
  obtain ⟨o, e, i, p⟩ := a
  have ham : ∀ e' i', allMeasurements reg ⟨o, e', i', p⟩ = allMeasurements reg ⟨o, e, i, p⟩ := fun _ _ => rfl
  intro n
  have hord' : n ∈ ord (allMeasurements reg ⟨o, e, i, p⟩) ↔ n ∈ allMeasurements reg ⟨o, e, i, p⟩ :=
    (hord _ (hall o e i p)).mem_iff
  rcases e with _ | _ | ⟨e, es⟩ <;> rcases i with _ | _ | ⟨i, is⟩
  · exact Iff.rfl
  · exfalso
    obtain ⟨-, -, h3⟩ := (mlInit_ok_iff ord reg _).1 hinit
    obtain ⟨x, hx⟩ := List.exists_mem_of_ne_nil _ hne
    obtain ⟨m, hm, -⟩ := h3 x hx
    simp [getMeasurements, hnil] at hm
  · exact Iff.rfl
  · simp [getMeasurements, normal]; exact hord'.symm
  · simp [getMeasurements, normal]; exact hord'.symm
  · exact absurd ⟨rfl, i, is, rfl⟩ hk
  · exact Iff.rfl
  · exact Iff.rfl
  · exact Iff.rfl

theorem mlInit_normal (ord : List String → List String) (hord : IsSetOrder ord) (reg : Reg (Obs V) R)
    (hreg : (reg.map Prod.fst).Nodup) (a : MLArgs (Obs V)) (hk : Kept a) (hinit : mlInit ord reg a = .ok ())
    (hne : a.observables ≠ []) :
    mlInit ord reg ⟨a.observables, normal a.exclude, normal a.include_, a.pseudo⟩ = .ok () := by
  rw [mlInit_ok_iff]
  simp only [normal_selection ord hord reg hreg a hk hinit hne]
  obtain ⟨h1, h2, h3⟩ := (mlInit_ok_iff ord reg a).1 hinit
  refine ⟨?_, h2, h3⟩
  rcases he : a.exclude with _ | _ | ⟨e, es⟩ <;> rcases hi : a.include_ with _ | _ | ⟨i, is⟩ <;>
    rw [he, hi] at h1 <;> simp_all [truthy, normal]

/-- **C158 (measurement likelihood).** A `MeasurementLikelihood` with at least one observable, made without
`include_pseudo_measurements`, can be exported and imported again: the imported object has the same observables (each
once), selects the same measurements, and if the lists of measurements are not given as empty lists it gives the same
likelihood for all predictions. -/
theorem C158_measurement_likelihood_partial (c : Ctx S E) (ord : List String → List String) (hord : IsSetOrder ord)
    (reg : Reg (Obs V) R) (hreg : (reg.map Prod.fst).Nodup) (a : MLArgs (Obs V)) (hne : a.observables ≠ [])
    (hv : ∀ o ∈ a.observables, ValidObs c.args o) (hinit : mlInit ord reg a = .ok ()) (hp : a.pseudo = false)
    (hk : Kept a) :
    ∃ d a', mlDump c a = .ok d ∧ mlLoad c ord reg d = .ok a' ∧
      a'.observables.Nodup ∧ (∀ o, o ∈ a'.observables ↔ o ∈ a.observables) ∧
      (a.observables.Nodup → a'.observables = a.observables) ∧
      (∀ n, n ∈ getMeasurements ord reg a' ↔ n ∈ getMeasurements ord reg a) ∧
      (a.exclude ≠ some [] → a.include_ ≠ some [] → a'.exclude = a.exclude ∧ a'.include_ = a.include_ ∧
        ∀ {W L : Type} [AddCommMonoid L] (f : R → PdfArg W → Except PyErr L) (pred : Obs V → Option W)
          (ex : Option (List (Obs V))),
          logLikelihoodPred f ord reg a' pred ex = logLikelihoodPred f ord reg a pred ex) := by
  obtain ⟨ds, h1, h2, h3⟩ := list_roundtrip c a.observables hv
  have hd := ml_dump c a hne ds h1 h2
  obtain ⟨n1, n2, -⟩ := C57_nodup a.observables
  have hnew := mlInit_normal ord hord reg hreg a hk hinit hne
  rw [← mlInit_congr ord reg a.observables (listDeduplicate a.observables) _ _ _ n2, hp] at hnew
  refine ⟨_, ⟨listDeduplicate a.observables, normal a.exclude, normal a.include_, false⟩, hd, ?_, n1, n2,
    C57_identity_on_nodup _, ?_, ?_⟩
  · unfold mlLoad
    rw [ml_input c a.exclude a.include_ ds _ h3]
    show lift (mlNew ord reg _) = _
    rw [ml_new, hnew]; rfl
  · intro n
    rw [getMeasurements_congr ord reg a.observables _ _ _ _ n2, ← hp,
      normal_selection ord hord reg hreg a hk hinit hne]
  · intro he hi
    have e1 : normal a.exclude = a.exclude := by
      rcases h : a.exclude with _ | _ | ⟨e, es⟩ <;> first | rfl | exact absurd h he
    have e2 : normal a.include_ = a.include_ := by
      rcases h : a.include_ with _ | _ | ⟨e, es⟩ <;> first | rfl | exact absurd h hi
    refine ⟨e1, e2, ?_⟩
    intro W L _ f pred ex
    unfold logLikelihoodPred
    rw [getMeasurements_congr ord reg a.observables _ _ _ _ n2, ← hp, e1, e2]
    rw [llStep_congr f reg a ⟨listDeduplicate a.observables, a.exclude, a.include_, a.pseudo⟩ n2]

/-! ## `FastLikelihood` -/

/-- Keys that are written for the parameter constraints. (Specification.) -/
def kwPar (k : String) (l : List E) : Dict String (Val V S E) :=
  match l with
  | [] => []
  | x :: xs => [(k, .entries (x :: xs))]

/-- Specification: the parameter object after export and import: the defaults if there is no difference to them,
otherwise the result of loading the difference (property C58). -/
def Reloaded (c : Ctx S E) (s s' : S) : Prop :=
  (c.diff s = [] → s' = c.dflt) ∧ (c.diff s ≠ [] → c.coerce (c.diff s) = .ok s')

theorem fast_dump (c : Ctx S E) (o : Fast V S) (hne : o.ml.observables ≠ []) (ds : List (ObsSpec V))
    (h : obsDicts c (.obs o.ml.observables : Val V S E) = .ok (.specs ds))
    (hl : ds.length = o.ml.observables.length) :
    fastDump (V := V) c o = .ok (kwPar "par_obj" (c.diff o.par) ++ kwOpt "fit_parameters" (some o.fit) ++
      kwOpt "nuisance_parameters" (some o.nuisance) ++ [("observables", .specs ds)] ++
      kwOpt "exclude_measurements" o.ml.exclude ++ kwOpt "include_measurements" o.ml.include_ ++
      [("name", .word o.name)]) := by
  obtain ⟨nm, s, f, nu, ⟨o, e, i, p⟩⟩ := o
  simp only at hne h hl ⊢
  cases ds with
  | nil => exact absurd (List.length_eq_zero_iff.1 hl.symm) hne
  | cons d ds =>
    cases hdf : c.diff s <;> cases f <;> cases nu <;>
    rcases e with _ | _ | ⟨e, es⟩ <;> rcases i with _ | _ | ⟨i, is⟩ <;>
    simp [fastDump, getYamlDict, applySchema, fastOutput, fastAttrs, schemaStep, Dict.get?, h, optStrs, anyOf, callable,
      ensurelistV, listStr, Val.dropped, Val.isEmptyList, kwOpt, kwPar, normal, List.foldlM, ok_bind_eq, isStr, parDiff,
      hdf] <;> rfl

/-- The keyword arguments for the parameter object. (Specification.) -/
def kwParObj (k : String) (l : List E) (s : S) : Dict String (Val V S E) :=
  match l with
  | [] => []
  | _ :: _ => [(k, .par s)]

theorem fast_input (c : Ctx S E) (s s' : S) (hs : Reloaded c s s') (f nu e i : Option (List String)) (nm : String)
    (ds : List (ObsSpec V)) (os : List (Obs V))
    (h : obsTuples c (.specs ds : Val V S E) = .ok (.obs os)) :
    applySchema .allow (fastInput c) (kwPar "par_obj" (c.diff s) ++ kwOpt "fit_parameters" f ++
      kwOpt "nuisance_parameters" nu ++ [("observables", .specs ds)] ++
      kwOpt "exclude_measurements" e ++ kwOpt "include_measurements" i ++
      [("name", .word nm)]) = .ok (kwParObj "par_obj" (c.diff s) s' ++ kwOpt "fit_parameters" f ++
      kwOpt "nuisance_parameters" nu ++ [("observables", .obs os)] ++
      kwOpt "exclude_measurements" e ++ kwOpt "include_measurements" i ++
      [("name", .word nm)]) := by
  have hk : ∀ k x, kwOpt (V := V) (S := S) (E := E) k x = [] ∨ ∃ l, kwOpt (V := V) (S := S) (E := E) k x = [(k, .strs l)] := by
    intro k x
    unfold kwOpt
    cases normal x with
    | none => exact Or.inl rfl
    | some l => exact Or.inr ⟨l, rfl⟩
  have hp : (c.diff s = []) ∨ (∃ x xs, c.diff s = x :: xs ∧
      allOf listDict (callable (coercePar c)) (.entries (x :: xs) : Val V S E) = .ok (.par s')) := by
    cases hd : c.diff s with
    | nil => exact Or.inl rfl
    | cons x xs =>
      refine Or.inr ⟨x, xs, rfl, ?_⟩
      have hq : c.coerce (x :: xs) = .ok s' := by rw [← hd]; exact hs.2 (by rw [hd]; simp)
      show callable (coercePar c) (.entries (x :: xs) : Val V S E) = _
      simp only [callable, coercePar, hq]; rfl
  rcases hk "fit_parameters" f with h1 | ⟨l1, h1⟩ <;> rcases hk "nuisance_parameters" nu with h2 | ⟨l2, h2⟩ <;>
  rcases hk "exclude_measurements" e with h3 | ⟨l3, h3⟩ <;> rcases hk "include_measurements" i with h4 | ⟨l4, h4⟩ <;>
  rcases hp with hp | ⟨x, xs, hp, hq⟩ <;> rw [h1, h2, h3, h4, hp] <;>
  simp [applySchema, fastInput, schemaStep, Dict.get?, h, anyOf, isNone, listStr, List.foldlM,
    kwPar, kwParObj, isStr, *] <;> rfl

theorem fast_new (c : Ctx S E) (ord : List String → List String) (reg : Reg (Obs V) R) (s s' : S)
    (hs : Reloaded c s s') (f nu e i : Option (List String)) (nm : String) (os : List (Obs V)) :
    fastNew c ord reg (kwParObj "par_obj" (c.diff s) s' ++ kwOpt "fit_parameters" f ++
      kwOpt "nuisance_parameters" nu ++ [("observables", .obs os)] ++
      kwOpt "exclude_measurements" e ++ kwOpt "include_measurements" i ++
      [("name", .word nm)] : Dict String (Val V S E)) =
      (mlInit ord reg ⟨os, normal e, normal i, false⟩ >>= fun _ =>
        .ok ⟨nm, s', (normal f).getD [], (normal nu).getD (c.allPars s'), ⟨os, normal e, normal i, false⟩⟩) := by
  have hk : ∀ k x, (kwOpt (V := V) (S := S) (E := E) k x = [] ∧ normal x = none) ∨
      ∃ l, kwOpt (V := V) (S := S) (E := E) k x = [(k, .strs l)] ∧ normal x = some l := by
    intro k x
    unfold kwOpt
    cases normal x with
    | none => exact Or.inl ⟨rfl, rfl⟩
    | some l => exact Or.inr ⟨l, rfl, rfl⟩
  have hp : (c.diff s = [] ∧ s' = c.dflt) ∨ (∃ x xs, c.diff s = x :: xs) := by
    cases hd : c.diff s with
    | nil => exact Or.inl ⟨rfl, hs.1 hd⟩
    | cons x xs => exact Or.inr ⟨x, xs, rfl⟩
  rcases hk "fit_parameters" f with ⟨h1, g1⟩ | ⟨l1, h1, g1⟩ <;>
  rcases hk "nuisance_parameters" nu with ⟨h2, g2⟩ | ⟨l2, h2, g2⟩ <;>
  rcases hk "exclude_measurements" e with ⟨h3, g3⟩ | ⟨l3, h3, g3⟩ <;>
  rcases hk "include_measurements" i with ⟨h4, g4⟩ | ⟨l4, h4, g4⟩ <;>
  rcases hp with ⟨hp, hq⟩ | ⟨x, xs, hp⟩ <;> rw [h1, h2, h3, h4, hp, g1, g2, g3, g4] <;>
  simp [fastNew, checkKw, argName, argObs, argStrs, argPar, argNuisance, Dict.get?, kwParObj, *]

/-- **C158 (fast likelihood).** A `FastLikelihood` with at least one observable and at least one nuisance parameter
can be exported and imported again: name, fit and nuisance parameters are the same, the observables are the same
(each once), the same measurements are selected, and the parameter object is the one of property C58. -/
theorem C158_fast_likelihood_partial (c : Ctx S E) (ord : List String → List String) (hord : IsSetOrder ord)
    (reg : Reg (Obs V) R) (hreg : (reg.map Prod.fst).Nodup) (o : Fast V S) (hne : o.ml.observables ≠ [])
    (hv : ∀ x ∈ o.ml.observables, ValidObs c.args x) (hinit : mlInit ord reg o.ml = .ok ())
    (hp : o.ml.pseudo = false) (hk : Kept o.ml) (hnu : o.nuisance ≠ []) (s' : S) (hs : Reloaded c o.par s') :
    ∃ d o', fastDump c o = .ok d ∧ fastLoad c ord reg d = .ok o' ∧
      o'.name = o.name ∧ o'.fit = o.fit ∧ o'.nuisance = o.nuisance ∧ o'.par = s' ∧
      o'.ml.observables.Nodup ∧ (∀ x, x ∈ o'.ml.observables ↔ x ∈ o.ml.observables) ∧
      (o.ml.observables.Nodup → o'.ml.observables = o.ml.observables) ∧
      (∀ n, n ∈ getMeasurements ord reg o'.ml ↔ n ∈ getMeasurements ord reg o.ml) := by
  obtain ⟨ds, h1, h2, h3⟩ := list_roundtrip c o.ml.observables hv
  obtain ⟨n1, n2, -⟩ := C57_nodup o.ml.observables
  have hnew := mlInit_normal ord hord reg hreg o.ml hk hinit hne
  rw [← mlInit_congr ord reg o.ml.observables (listDeduplicate o.ml.observables) _ _ _ n2, hp] at hnew
  have e1 : (normal (some o.fit)).getD [] = o.fit := by cases o.fit <;> rfl
  have e2 : (normal (some o.nuisance)).getD (c.allPars s') = o.nuisance := by
    cases h : o.nuisance with
    | nil => exact absurd h hnu
    | cons x xs => rfl
  refine ⟨_, ⟨o.name, s', o.fit, o.nuisance, ⟨listDeduplicate o.ml.observables, normal o.ml.exclude,
    normal o.ml.include_, false⟩⟩, fast_dump c o hne ds h1 h2, ?_, rfl, rfl, rfl, rfl, n1, n2,
    C57_identity_on_nodup _, ?_⟩
  · unfold fastLoad
    rw [fast_input c o.par s' hs _ _ _ _ _ ds _ h3]
    show lift (fastNew c ord reg _) = _
    rw [fast_new c ord reg o.par s' hs, hnew, e1, e2]; rfl
  · intro n
    rw [getMeasurements_congr ord reg o.ml.observables _ _ _ _ n2, ← hp,
      normal_selection ord hord reg hreg o.ml hk hinit hne]

/-- **C158 (why only partial: no nuisance parameters become all).** A `FastLikelihood` made with an empty list of
nuisance parameters is exported without the list; the imported object takes *all* parameters as nuisance
parameters. -/
theorem C158_no_nuisance_becomes_all (c : Ctx S E) (ord : List String → List String) (hord : IsSetOrder ord)
    (reg : Reg (Obs V) R) (hreg : (reg.map Prod.fst).Nodup) (o : Fast V S) (hne : o.ml.observables ≠ [])
    (hv : ∀ x ∈ o.ml.observables, ValidObs c.args x) (hinit : mlInit ord reg o.ml = .ok ())
    (hp : o.ml.pseudo = false) (hk : Kept o.ml) (hnu : o.nuisance = []) (s' : S) (hs : Reloaded c o.par s') :
    ∃ d o', fastDump c o = .ok d ∧ fastLoad c ord reg d = .ok o' ∧ o'.nuisance = c.allPars s' := by
  obtain ⟨ds, h1, h2, h3⟩ := list_roundtrip c o.ml.observables hv
  obtain ⟨n1, n2, -⟩ := C57_nodup o.ml.observables
  have hnew := mlInit_normal ord hord reg hreg o.ml hk hinit hne
  rw [← mlInit_congr ord reg o.ml.observables (listDeduplicate o.ml.observables) _ _ _ n2, hp] at hnew
  refine ⟨_, ⟨o.name, s', (normal (some o.fit)).getD [], c.allPars s', ⟨listDeduplicate o.ml.observables,
    normal o.ml.exclude, normal o.ml.include_, false⟩⟩, fast_dump c o hne ds h1 h2, ?_, rfl⟩
  unfold fastLoad
  rw [fast_input c o.par s' hs _ _ _ _ _ ds _ h3]
  show lift (fastNew c ord reg _) = _
  rw [fast_new c ord reg o.par s' hs, hnew, hnu]; rfl

theorem foldlM_raised (x : Extra) (schema : Dict String (Validator V S E)) (d d' : Dict String (Val V S E))
    (k : String) (v : Val V S E) (st : Bool × Dict String (Val V S E)) (f : Validator V S E)
    (hf : schema.get? k = some f) (e : PyErr) (he : f v = .error (.raised e))
    (hd : ∀ st, ∃ st', d.foldlM (schemaStep x schema) st = .ok st') :
    (d ++ (k, v) :: d').foldlM (schemaStep x schema) st = .error (.raised e) := by
  obtain ⟨st', h⟩ := hd st
  rw [List.foldlM_append, h]
  show ((k, v) :: d').foldlM (schemaStep x schema) st' = _
  rw [List.foldlM_cons]
  have : schemaStep x schema st' (k, v) = .error (.raised e) := by simp [schemaStep, hf, he]
  rw [this]; rfl

/-- **C158 (why only partial: `Likelihood`).** Exporting a `Likelihood` fails for every object: its output schema
applies `get_par_diff` to the list of fit parameters (and expects the parameter object to be a list). -/
theorem C158_likelihood_dump_fails (c : Ctx S E) (o : Lik V S) :
    likDump c o = .error (.raised .attributeError) := by
  unfold likDump getYamlDict applySchema
  rw [show (likAttrs o : Dict String (Val V S E)) = [("par_obj", .par o.par), ("parameters_central", .opaque)] ++
    ("fit_parameters", .strs o.fit) :: [("observables", .obs o.ml.observables),
    ("exclude_measurements", optStrs o.ml.exclude), ("include_measurements", optStrs o.ml.include_),
    ("measurement_likelihood", .opaque), ("parameter_likelihood", .opaque)] from rfl]
  rw [foldlM_raised .remove (likOutput c) _ _ _ _ _ (callable (parDiff c)) (by simp [likOutput, Dict.get?])
    .attributeError rfl]
  · rfl
  · intro st
    refine ⟨(true, st.2), ?_⟩
    simp [List.foldlM, schemaStep, likOutput, Dict.get?, allOf, listDict, Val.isEmptyList]
    rfl

end Verif.LikelihoodYaml
