import Verif.IO.MeasurementFiles
/-!
# C164: measurement files
-/
set_option linter.unusedVariables false
set_option linter.unusedSimpArgs false
set_option linter.unusedSectionVars false
namespace Verif.MeasFiles
open Verif.Py Verif.Constraints

variable {V R O : Type} [DecidableEq V] [DecidableEq R]

/-! ### Specification -/

/-- A public attribute; a missing one counts as empty. (Specification.) -/
def attr (E : Env V R) (m : Meas V R) (k : String) : V := (m.attrs.get? k).getD E.empty

/-- The distribution (as data) and position with which an observable is constrained. (Specification.) -/
def constraintOn (E : Env V R) (m : Meas V R) (o : Obs V) : Option (Nat × V) :=
  (m.cons.parameters.get? o).map fun e => (e.1, E.dump e.2)

/-- The same public attributes and the same constraints. (Specification.) -/
def SameContent (E : Env V R) (m m' : Meas V R) : Prop :=
  (∀ k, isPublic k = true → attr E m' k = attr E m k) ∧ ∀ o, constraintOn E m' o = constraintOn E m o

/-- A measurement called `n`, made by calls of `add_constraint` (and `remove_constraint`, as long as the observable is
constrained again later), with attributes and observables made of standard YAML values. (Specification.) -/
structure Writable (E : Env V R) (m : Meas V R) (n : V) : Prop where
  name : m.attrs.get? "name" = some n
  wf : Dict.WF m.attrs
  history : ∃ h : List (Op (Obs V) R), m.cons = run h ∧ ∀ p ∈ named h, Constrained h p
  attrs : ∀ k v, (k, v) ∈ m.attrs → E.plain v = true
  obs : ∀ e ∈ m.cons.constraints, ∀ l, Obs.tup l ∈ e.2 → ∀ v ∈ l, E.plain v = true
  dist : ∀ e ∈ m.cons.constraints, E.plain (E.dump e.1) = true

/-- Distributions survive `get_dict` and `dict2dist` (C38). (Specification.) -/
def DistRoundTrip (E : Env V R) : Prop := ∀ i k r, ∃ r', E.load i k (E.dump r) = .ok r' ∧ E.dump r' = E.dump r

/-! ### One document -/

theorem ofDoc_toDoc (o : Obs V) : ofDoc (toDoc o) = o := by cases o <;> rfl

theorem map_ofDoc_toDoc (l : List (Obs V)) : (l.map toDoc).map ofDoc = l := by
  rw [List.map_map]
  conv => rhs; rw [← List.map_id l]
  exact List.map_congr_left fun o _ => ofDoc_toDoc o

theorem addDocs_of_fold (E : Env V R) (i : Nat) (l : List (R × List (Obs V))) : ∀ (k : Nat) (s s' : CState (Obs V) R),
    ((l.map fun e => (⟨e.2, E.dump e.1⟩ : YEntry (Obs V) V)).zipIdx k).foldlM (fun s e => do
      let c ← E.load i e.2 e.1.values
      pure (addConstraint s e.1.params c)) s = .ok s' →
    addDocs E i k s (l.map fun e => CDoc.entry (e.2.map toDoc) (E.dump e.1)) = (none, s') := by
  induction l with
  | nil =>
    intro k s s' h
    cases h
    rfl
  | cons e l ih =>
    intro k s s' h
    rw [List.map_cons, List.zipIdx_cons, List.foldlM_cons] at h
    dsimp only at h
    obtain ⟨s1, h1, h2⟩ := bind_eq_ok h
    obtain ⟨c, hc, h3⟩ := bind_eq_ok h1
    cases h3
    unfold List.map addDocs readDoc
    dsimp only
    rw [hc]
    simp only [ok_bind_eq, map_ofDoc_toDoc]
    exact ih (k + 1) _ _ h2

theorem addDocs_roundtrip (E : Env V R) (hE : DistRoundTrip E) (i : Nat) {h : List (Op (Obs V) R)}
    (hc : ∀ p ∈ named h, Constrained h p) :
    ∃ s', addDocs E i 0 CState.init ((run h).constraints.map fun e => CDoc.entry (e.2.map toDoc) (E.dump e.1)) = (none, s') ∧
      ∀ p, (s'.parameters.get? p).map (fun e => (e.1, E.dump e.2))
        = ((run h).parameters.get? p).map (fun e => (e.1, E.dump e.2)) := by
  obtain ⟨s', h1, h2⟩ := C08_yaml_roundtrip_partial (D := { v : V // ∃ r : R, E.dump r = v }) Subtype.val
    (fun r => ⟨E.dump r, r, rfl⟩) (E.load i)
    (fun n d => by
      obtain ⟨d, r, rfl⟩ := d
      obtain ⟨r', a, b⟩ := hE i n r
      exact ⟨r', a, Subtype.ext b⟩) h hc
  refine ⟨s', addDocs_of_fold E i _ 0 _ _ h1, fun p => ?_⟩
  have := congrArg (Option.map fun e => (e.1, e.2.1)) (h2 p)
  simpa [Option.map_map, Function.comp_def] using this

theorem getYamlDict_ok (E : Env V R) {m : Meas V R} {n : V} (hn : m.attrs.get? "name" = some n) :
    ∃ md : Option (Dict String V), getYamlDict E m = .ok ⟨some [("name", n)], md,
        some (m.cons.constraints.map fun e => CDoc.entry (e.2.map toDoc) (E.dump e.1))⟩ ∧
      md.getD [] = m.attrs.filter fun kv => isPublic kv.1 && decide (kv.2 ≠ E.empty) && decide (kv.1 ≠ "name") := by
  unfold getYamlDict
  rw [hn]
  generalize (m.attrs.filter fun kv => isPublic kv.1 && decide (kv.2 ≠ E.empty) && decide (kv.1 ≠ "name")) = l
  refine ⟨_, rfl, ?_⟩
  cases l <;> rfl

theorem get?_filter_reverse {d : Dict String V} (wf : Dict.WF d) (f : String × V → Bool) (k : String) :
    Dict.get? (d.filter f).reverse k = match d.get? k with
      | some v => if f (k, v) then some v else none
      | none => none := by
  have wf' : Dict.WF (d.filter f).reverse := by
    unfold Dict.WF Dict.keys at wf ⊢
    rw [List.map_reverse, List.nodup_reverse]
    exact (List.filter_sublist.map Prod.fst).nodup wf
  cases hk : d.get? k with
  | none =>
    refine (Dict.get?_eq_none_iff _ _).2 fun hm => (Dict.get?_eq_none_iff _ _).1 hk ?_
    unfold Dict.keys at hm ⊢
    obtain ⟨e, he, rfl⟩ := List.mem_map.1 hm
    exact List.mem_map.2 ⟨e, (List.mem_filter.1 (List.mem_reverse.1 he)).1, rfl⟩
  | some v =>
    have hm := Dict.mem_of_get? hk
    dsimp only
    by_cases hf : f (k, v)
    · rw [if_pos hf]
      exact Dict.get?_of_mem wf' (List.mem_reverse.2 (List.mem_filter.2 ⟨hm, hf⟩))
    · rw [if_neg hf]
      refine (Dict.get?_eq_none_iff _ _).2 fun hm' => ?_
      unfold Dict.keys at hm'
      obtain ⟨⟨k', v'⟩, he, hk'⟩ := List.mem_map.1 hm'
      have h2 := List.mem_filter.1 (List.mem_reverse.1 he)
      have hk' : k' = k := hk'
      subst hk'
      have := Dict.get?_of_mem wf h2.1
      rw [hk] at this
      cases this
      exact hf h2.2

theorem attrs_roundtrip (E : Env V R) {m : Meas V R} {n : V} (hn : m.attrs.get? "name" = some n) (wf : Dict.WF m.attrs)
    (k : String) (hk : isPublic k = true) :
    ((((m.attrs.filter fun kv => isPublic kv.1 && decide (kv.2 ≠ E.empty) && decide (kv.1 ≠ "name")).foldl
      (fun a kv => Dict.set a kv.1 kv.2) (newMeas E n).attrs)).get? k).getD E.empty = (m.attrs.get? k).getD E.empty ∧
    ((((m.attrs.filter fun kv => isPublic kv.1 && decide (kv.2 ≠ E.empty) && decide (kv.1 ≠ "name")).foldl
      (fun a kv => Dict.set a kv.1 kv.2) (newMeas E n).attrs)).get? "name") = some n := by
  have hd : ∀ k, k ≠ "name" → ((newMeas E n).attrs.get? k).getD E.empty = E.empty := by
    intro k hk
    unfold newMeas
    simp only [Dict.get?_cons, Dict.get?_nil, if_neg (Ne.symm hk)]
    split <;> [rfl; split <;> [rfl; split <;> [rfl; split <;> rfl]]]
  constructor
  · rw [Dict.foldl_set_get?, get?_filter_reverse wf]
    by_cases hkn : k = "name"
    · subst hkn
      rw [hn]
      simp [newMeas, Dict.get?_cons]
    · cases hv : m.attrs.get? k with
      | none => simpa using hd k hkn
      | some v =>
        dsimp only
        by_cases he : v = E.empty
        · subst he
          simpa using hd k hkn
        · rw [if_pos (by simp [hk, he, hkn])]
          rfl
  · rw [Dict.foldl_set_get?, get?_filter_reverse wf, hn]
    simp [newMeas, Dict.get?_cons]


theorem doc_plain (E : Env V R) {m : Meas V R} {n : V} (hm : Writable E m n) {d : MDoc V}
    (hd : getYamlDict E m = .ok d) : d.plain E = true := by
  obtain ⟨md, h1, h2⟩ := getYamlDict_ok E hm.name
  rw [hd] at h1
  cases h1
  unfold MDoc.plain
  rw [h2]
  simp only [Option.getD_some, List.all_cons, List.all_nil, Bool.and_true, Bool.and_eq_true, List.all_eq_true,
    List.mem_map, List.mem_filter]
  refine ⟨⟨hm.attrs _ _ (Dict.mem_of_get? hm.name), fun kv h => hm.attrs _ _ h.1⟩, ?_⟩
  rintro c ⟨e, he, rfl⟩
  simp only [Bool.and_eq_true, List.all_eq_true, List.mem_map]
  refine ⟨hm.dist e he, ?_⟩
  rintro o ⟨o', ho', rfl⟩
  cases o' with
  | name s => rfl
  | tup l => exact List.all_eq_true.2 (hm.obs e he l ho')

theorem doc_roundtrip (E : Env V R) (hE : DistRoundTrip E) {m : Meas V R} {n : V} (hm : Writable E m n) {d : MDoc V}
    (hd : getYamlDict E m = .ok d) (reg : Dict V (Meas V R)) (i : Nat) :
    ∃ m', fromYamlDict E reg i d = (.ok n, reg.set n m') ∧ SameContent E m m' ∧ m'.attrs.get? "name" = some n := by
  obtain ⟨md, h1, h2⟩ := getYamlDict_ok E hm.name
  rw [hd] at h1
  cases h1
  obtain ⟨h, hh, hc⟩ := hm.history
  obtain ⟨s', a1, a2⟩ := addDocs_roundtrip E hE i hc
  rw [← hh] at a1
  have hat := attrs_roundtrip E hm.name hm.wf
  have hnm := (hat "name" (by decide)).2
  unfold fromYamlDict
  simp only [h2]
  rw [show (newMeas E n).cons = CState.init from rfl, a1]
  dsimp only
  rw [hnm]
  refine ⟨_, rfl, ⟨fun k hk => (hat k hk).1, fun o => ?_⟩, hnm⟩
  unfold constraintOn
  rw [a2 o, hh]

theorem docs_roundtrip (E : Env V R) (hE : DistRoundTrip E) : ∀ (ms : List (Meas V R)) (ns : List V) (ds : List (MDoc V))
    (reg : Dict V (Meas V R)) (i : Nat), List.Forall₂ (Writable E) ms ns → ns.Nodup →
    List.Forall₂ (fun m d => getYamlDict E m = .ok d) ms ds →
    ∃ reg', fromYamlDicts E reg i ds = (.ok ns, reg') ∧
      List.Forall₂ (fun m n => ∃ m', reg'.get? n = some m' ∧ SameContent E m m' ∧ m'.attrs.get? "name" = some n) ms ns ∧
      ∀ n, n ∉ ns → reg'.get? n = reg.get? n := by
  intro ms
  induction ms with
  | nil =>
    intro ns ds reg i hw _ hd
    cases hw
    cases hd
    exact ⟨reg, rfl, .nil, fun _ _ => rfl⟩
  | cons m ms ih =>
    intro ns ds reg i hw hnd hd
    cases hw with
    | @cons _ n _ ns hw hws =>
      cases hd with
      | @cons _ d _ ds hd hds =>
        obtain ⟨m', h1, h2, h3⟩ := doc_roundtrip E hE hw hd reg i
        obtain ⟨hn, hnd⟩ := List.nodup_cons.1 hnd
        obtain ⟨reg', b1, b2, b3⟩ := ih ns ds (reg.set n m') (i + 1) hws hnd hds
        refine ⟨reg', ?_, .cons ⟨m', ?_, h2, h3⟩ b2, ?_⟩
        · unfold fromYamlDicts
          rw [h1]
          dsimp only
          rw [b1]
        · rw [b3 n hn, Dict.get?_set_self]
        · intro k hk
          rw [List.mem_cons, not_or] at hk
          rw [b3 k hk.2, Dict.get?_set_ne _ _ (Ne.symm hk.1)]

/-! ### C164 -/

/-- C164, the part that holds (missing: measurements with values that are not standard YAML,
see `C164_numpy_arguments_unreadable`, and removed constraints, see C08).  Writing measurements with distinct names, given as
instances or by name, succeeds and replaces the content of the file; reading the file, with any registry, returns their names
in order; then these names stand for measurements with the same attributes and the same constraints, and all other
registered measurements are as before. -/
theorem C164_roundtrip_partial (E : Env V R) (hE : DistRoundTrip E) (old : Dict V (Meas V R) → O → Except PyErr (List V) × Dict V (Meas V R))
    (reg reg₂ : Dict V (Meas V R)) (content : Option (File V O)) {as : List (MArg V R)} {ms : List (Meas V R)} {ns : List V}
    (has : List.Forall₂ (fun a m => resolve reg a = .ok m) as ms) (hw : List.Forall₂ (Writable E) ms ns) (hnd : ns.Nodup) :
    ∃ f reg', writeFile E reg content as = (.ok (), some f) ∧ readFile E old reg₂ f = (.ok ns, reg') ∧
      List.Forall₂ (fun m n => ∃ m', reg'.get? n = some m' ∧ SameContent E m m' ∧ m'.attrs.get? "name" = some n) ms ns ∧
      ∀ n, n ∉ ns → reg'.get? n = reg₂.get? n := by
  have h1 : as.mapM (resolve reg) = .ok ms := (mapM_ok_iff _ _ _).2 has
  have h2 : ∃ ds, ms.mapM (getYamlDict E) = .ok ds := mapM_ok_of_forall _ _ fun m hm => by
    obtain ⟨n, _, h⟩ := forall₂_mem_left hw hm
    obtain ⟨md, h, _⟩ := getYamlDict_ok E h.name
    exact ⟨_, h⟩
  obtain ⟨ds, hds⟩ := h2
  have hds' := (mapM_ok_iff _ _ _).1 hds
  obtain ⟨reg', c1, c2, c3⟩ := docs_roundtrip E hE ms ns ds reg₂ 0 hw hnd hds'
  have hp : ds.all (MDoc.plain E) = true := by
    rw [List.all_eq_true]
    clear c1 c2 c3 hds h1 has hnd
    induction hds' generalizing ns with
    | nil => simp
    | cons h _ ih =>
      cases hw with
      | cons hw hws =>
        intro d hd
        rcases List.mem_cons.1 hd with rfl | hd
        · exact doc_plain E hw h
        · exact ih hws d hd
  refine ⟨.many ds, reg', ?_, ?_, c2, c3⟩
  · unfold writeFile
    rw [h1]
    dsimp only
    rw [hds]
  · unfold readFile loadNew
    dsimp only
    rw [if_pos hp, c1]

/-- An unknown name among the measurements to be written: exception, and the file keeps its content. -/
theorem C164_unknown_name_keeps_file (E : Env V R) (reg : Dict V (Meas V R)) (content : Option (File V O))
    {as : List (MArg V R)} {n : V} (ha : MArg.name n ∈ as) (hn : reg.get? n = none) :
    writeFile E reg content as = (.error .keyError, content) := by
  have : ∀ as : List (MArg V R), MArg.name n ∈ as → as.mapM (resolve reg) = .error .keyError := by
    intro as
    induction as with
    | nil => intro h; cases h
    | cons a as ih =>
      intro h
      rw [List.mapM_cons]
      rcases List.mem_cons.1 h with rfl | h
      · have h0 : resolve reg (.name n) = .error .keyError := by unfold resolve; simp only [hn]
        rw [h0]
        rfl
      · cases hr : resolve reg a with
        | error e =>
          cases a with
          | inst m => cases hr
          | name k =>
            unfold resolve at hr
            revert hr
            dsimp only
            cases reg.get? k <;> intro hr <;> cases hr
            rfl
        | ok m => rw [ok_bind_eq, ih h]; rfl
  unfold writeFile
  rw [this as ha]

/-- Files in the old format are left to the old reader, with the registry unchanged. -/
theorem C164_old_format (E : Env V R) (old : Dict V (Meas V R) → O → Except PyErr (List V) × Dict V (Meas V R))
    (reg : Dict V (Meas V R)) (o : O) : readFile E old reg (.old o) = old reg o := rfl

/-- A file that `yaml.safe_load` cannot read changes nothing. -/
theorem C164_unreadable_changes_nothing (E : Env V R) (old : Dict V (Meas V R) → O → Except PyErr (List V) × Dict V (Meas V R))
    (reg : Dict V (Meas V R)) {l : List (MDoc V)} (h : ∃ d ∈ l, d.plain E = false) :
    readFile E old reg (.many l) = (.error .valueError, reg) := by
  have : ¬ l.all (MDoc.plain E) = true := fun ha => by
    obtain ⟨d, hd, h⟩ := h
    rw [List.all_eq_true.1 ha d hd] at h
    cases h
  unfold readFile loadNew load
  simp only [if_neg this]

/-! ### A concrete case, and what does not hold -/

/-- Values: strings, numbers, NumPy numbers, distributions. (Specification.) -/
inductive Val where
  | str (s : String)
  | num (q : Int)
  | numpy (q : Int)
  | dist (r : Nat)
  deriving DecidableEq

/-- Distributions are numbers (two objects with the same content differ by 1000 times the number of loads).
(Specification.) -/
def exEnv : Env Val Nat where
  empty := .str ""
  ofName := .str
  asName := fun | .str s => some s | _ => none
  plain := fun | .numpy _ => false | _ => true
  dump := fun r => .dist (r % 1000)
  load := fun i k v => match v with | .dist r => .ok (r % 1000 + 1000 * (i + k + 1)) | _ => .error .typeError
  loadStr := fun i k v => .error .valueError

/-- A measurement of a binned and an unbinned observable. (Specification.) -/
def exMeas (q : Val) : Meas Val Nat where
  attrs := [("name", .str "CMS 2012"), ("description", .str ""), ("inspire", .str "X:2012"), ("experiment", .str "CMS"), ("url", .str "")]
  cons := run [.add [.tup [.str "FL", .num 1, q], .name "BR"] 5, .add [.name "BR"] 7]

theorem exEnv_roundtrip : DistRoundTrip exEnv := by
  intro i k r
  refine ⟨(r % 1000) % 1000 + 1000 * (i + k + 1), by simp only [exEnv], ?_⟩
  simp only [exEnv, Val.dist.injEq]
  omega

/-- The hypotheses of the round trip hold for a measurement with a binned observable, and the content is not trivial. -/
theorem C164_nonvacuous : Writable exEnv (exMeas (.num 6)) (.str "CMS 2012") ∧
    constraintOn exEnv (exMeas (.num 6)) (.tup [.str "FL", .num 1, .num 6]) = some (0, .dist 5) ∧
    constraintOn exEnv (exMeas (.num 6)) (.name "BR") = some (0, .dist 7) := by
  refine ⟨⟨by decide +kernel, by show List.Nodup _; decide +kernel, ⟨_, rfl, ?_⟩, ?_, ?_, by decide +kernel⟩, by decide +kernel, by decide +kernel⟩
  · intro p hp
    rw [← mem_keys_run]
    exact (by decide +kernel : ∀ p ∈ named (R := Nat) [.add [.tup [.str "FL", .num 1, .num 6], .name "BR"] 5, .add [.name "BR"] 7],
      p ∈ (run (R := Nat) [.add [.tup [Val.str "FL", .num 1, .num 6], .name "BR"] 5, .add [.name "BR"] 7]).parameters.keys) p hp
  · intro k v h
    have : (k, v).2 ∈ ((exMeas (.num 6)).attrs.map Prod.snd) := List.mem_map.2 ⟨_, h, rfl⟩
    exact (by decide +kernel : ∀ v ∈ (exMeas (.num 6)).attrs.map Prod.snd, exEnv.plain v = true) v this
  · intro e he l hl v hv
    have h1 : ∀ e ∈ (exMeas (.num 6)).cons.constraints, ∀ o ∈ e.2, (match o with | .tup l => l.all exEnv.plain | .name _ => true) = true := by
      decide +kernel
    exact List.all_eq_true.1 (h1 e he _ hl) v hv

/-- C164 is false of the code for a bin given by a NumPy number (as from `numpy.linspace`): the file is written without an
exception, but reading it fails. -/
theorem C164_numpy_arguments_unreadable : ∃ f,
    writeFile (O := Unit) exEnv [] none [.inst (exMeas (.numpy 6))] = (.ok (), some f) ∧
    (readFile exEnv (fun reg _ => (.ok [], reg)) [] f).1 = .error .valueError := by
  refine ⟨_, rfl, ?_⟩
  decide +kernel

/-- Reading is not atomic: when the second document is broken, the first one stays registered, and the exception reported is the
one of the reader of the old format, not the reason of the failure. -/
theorem C164_not_atomic :
    let good : MDoc Val := ⟨some [("name", .str "good")], none, some []⟩
    let bad : MDoc Val := ⟨some [("name", .str "broken")], none, some [.bad]⟩
    let r := readFile (O := Unit) exEnv (fun reg _ => (.ok [], reg)) [] (.many [good, bad])
    r.1 = .error .attributeError ∧ Dict.keys r.2 = [.str "good", .str "broken"] := by
  decide +kernel

/-- A broken file with one document registers a measurement called `arguments`. -/
theorem C164_spurious_measurement :
    let bad : MDoc Val := ⟨some [("name", .str "broken")], none, some [.bad]⟩
    let r := readFile (O := Unit) exEnv (fun reg _ => (.ok [], reg)) [] (.one bad)
    r.1 = .error .keyError ∧ Dict.keys r.2 = [.str "broken", .str "arguments"] := by
  decide +kernel

end Verif.MeasFiles
